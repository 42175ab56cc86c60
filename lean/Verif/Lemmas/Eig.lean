import Verif.Model.Eig
import Verif.Lemmas.Rot

/-! # Jacobi's method: invariant and termination of `symEigLoop` -/

namespace Zeo.Eig

/-- What the Jacobi rotations preserve. -/
structure Inv (m0 l r : Mat3 ℝ) : Prop where
  xy : l.x.y = l.y.x
  yz : l.y.z = l.z.y
  zx : l.z.x = l.x.z
  eq : m0.mulMat r = r.mulMat l
  rot : r.IsRot

/-- Half the sum of squares of the off-diagonal components. -/
def off (l : Mat3 ℝ) : ℝ := l.x.y ^ 2 + l.y.z ^ 2 + l.z.x ^ 2

/-- The sine and cosine computed by the code diagonalise the 2x2 block. -/
theorem angle (a b p : ℝ) (hp : p ≠ 0) :
    ∃ t c s : ℝ, (let v := 1/2 * (b - a) / p
      t = -v + (if v < 0 then Real.sqrt (v * v + 1) else -Real.sqrt (v * v + 1))) ∧ c = 1 / Real.sqrt (t * t + 1) ∧ s = t * c ∧
      s ^ 2 + c ^ 2 = 1 ∧ c * p - s * b = -(s * (a - t * p)) ∧ s * a + c * p = s * (b + t * p) ∧
      c * (t * p) = s * p := by
  refine ⟨_, _, _, rfl, rfl, rfl, ?_⟩
  set v := 1/2 * (b - a) / p with hv
  set ti := Real.sqrt (v * v + 1) with hti
  have h1 : ti ^ 2 = v * v + 1 := Real.sq_sqrt (by nlinarith [sq_nonneg v])
  set t := -v + (if v < 0 then ti else -ti) with ht
  have h2 : t ^ 2 + 2 * v * t - 1 = 0 := by
    rw [ht]; split_ifs <;> linear_combination h1
  have h3 : 0 < Real.sqrt (t * t + 1) := Real.sqrt_pos.2 (by nlinarith [sq_nonneg t])
  have h4 : Real.sqrt (t * t + 1) ^ 2 = t * t + 1 := Real.sq_sqrt (by nlinarith [sq_nonneg t])
  set q := Real.sqrt (t * t + 1) with hq
  have hc : (1 / q) ^ 2 * (t * t + 1) = 1 := by rw [← h4]; field_simp
  have hba : b - a = 2 * v * p := by rw [hv]; field_simp
  refine ⟨by linear_combination hc, ?_, ?_, by ring⟩
  · linear_combination (-(1 / q) * p) * h2 - (t * (1/q)) * hba
  · linear_combination (-(1 / q) * p) * h2 - (t * (1/q)) * hba

variable {τ : ℝ}

/-- The assignments made when the component is not tiny. -/
private noncomputable def jac (l r : Mat3 ℝ) (i j : Fin 3) (t c s : ℝ) : Mat3 ℝ × Mat3 ℝ :=
  [0, 1, 2].foldl (symEigRotCol i j c s)
      ((((l.setE i j 0).setE j i 0).setE i i (((l.setE i j 0).setE j i 0).e i i - t * l.e j i)).setE j j
        ((((l.setE i j 0).setE j i 0).setE i i (((l.setE i j 0).setE j i 0).e i i - t * l.e j i)).e j j + t * l.e j i), r)

private theorem jac0 (l r : Mat3 ℝ) (t c s : ℝ) : jac l r 0 1 t c s =
    (⟨⟨l.x.x - t * l.y.x, 0, c * l.z.x - s * l.z.y⟩, ⟨0, l.y.y + t * l.y.x, s * l.z.x + c * l.z.y⟩,
      ⟨c * l.z.x - s * l.z.y, s * l.z.x + c * l.z.y, l.z.z⟩⟩, r.mulMat (rzSC (-s) c)) := by
  refine Prod.ext ?_ ?_
  · simp [jac, symEigRotCol, Mat3.setE, Mat3.setV, Mat3.e, Mat3.v, Vec3.e, Vec3.setE]
  · simp [jac, symEigRotCol, Mat3.setE, Mat3.setV, Mat3.e, Mat3.v, Vec3.e, Vec3.setE]
    ext <;> simp [zeo, rzSC] <;> ring

private theorem jac1 (l r : Mat3 ℝ) (t c s : ℝ) : jac l r 1 2 t c s =
    (⟨⟨l.x.x, c * l.x.y - s * l.x.z, s * l.x.y + c * l.x.z⟩, ⟨c * l.x.y - s * l.x.z, l.y.y - t * l.z.y, 0⟩,
      ⟨s * l.x.y + c * l.x.z, 0, l.z.z + t * l.z.y⟩⟩, r.mulMat (rxSC (-s) c)) := by
  refine Prod.ext ?_ ?_
  · simp [jac, symEigRotCol, Mat3.setE, Mat3.setV, Mat3.e, Mat3.v, Vec3.e, Vec3.setE]
  · simp [jac, symEigRotCol, Mat3.setE, Mat3.setV, Mat3.e, Mat3.v, Vec3.e, Vec3.setE]
    ext <;> simp [zeo, rxSC] <;> ring

private theorem jac2 (l r : Mat3 ℝ) (t c s : ℝ) : jac l r 2 0 t c s =
    (⟨⟨l.x.x + t * l.x.z, s * l.y.z + c * l.y.x, 0⟩, ⟨s * l.y.z + c * l.y.x, l.y.y, c * l.y.z - s * l.y.x⟩,
      ⟨0, c * l.y.z - s * l.y.x, l.z.z - t * l.x.z⟩⟩, r.mulMat (rySC (-s) c)) := by
  refine Prod.ext ?_ ?_
  · simp [jac, symEigRotCol, Mat3.setE, Mat3.setV, Mat3.e, Mat3.v, Vec3.e, Vec3.setE]
  · simp [jac, symEigRotCol, Mat3.setE, Mat3.setV, Mat3.e, Mat3.v, Vec3.e, Vec3.setE]
    ext <;> simp [zeo, rySC] <;> ring

private theorem mulMat_assoc (a b c : Mat3 ℝ) : (a.mulMat b).mulMat c = a.mulMat (b.mulMat c) := by
  ext <;> simp only [zeo] <;> ring

theorem rot_spec (hτ : 0 ≤ τ) {m0 l r : Mat3 ℝ} (h : Inv m0 l r) {i j : Fin 3} (hj : j = i + 1) :
    Inv m0 (symEigRot τ l r i j).1 (symEigRot τ l r i j).2 ∧ |(symEigRot τ l r i j).1.e j i| ≤ τ ∧
    (¬ |l.e j i| ≤ τ → off (symEigRot τ l r i j).1 = off l - (l.e j i) ^ 2) := by
  obtain ⟨h1, h2, h3, h4, h5⟩ := h
  by_cases ht : |l.e j i| ≤ τ
  · have : symEigRot τ l r i j = (l, r) := if_pos ht
    rw [this]; exact ⟨⟨h1, h2, h3, h4, h5⟩, ht, fun hn => absurd ht hn⟩
  have hp : l.e j i ≠ 0 := by rintro h0; rw [h0, abs_zero] at ht; exact ht hτ
  obtain ⟨t, c, s, e1, e2, e3, a1, a2, a3, a4⟩ := angle (l.e i i) (l.e j j) (l.e j i) hp
  have hr : symEigRot τ l r i j = jac l r i j t c s := by
    rw [symEigRot, if_neg (show ¬ zIsTol (l.e j i) τ from ht), e3, e2]; dsimp only at e1 ⊢; rw [← e1]; rfl
  rw [hr]
  clear hr e1 e2 e3
  subst hj
  suffices H : ∃ J : Mat3 ℝ, J.IsRot ∧ ∀ st, jac l r i (i + 1) t c s = st →
      st.2 = r.mulMat J ∧ l.mulMat J = J.mulMat st.1 ∧ st.1.x.y = st.1.y.x ∧ st.1.y.z = st.1.z.y ∧ st.1.z.x = st.1.x.z ∧ st.1.e (i + 1) i = 0 ∧
      off st.1 = off l - (l.e (i + 1) i) ^ 2 by
    obtain ⟨J, hJ, H⟩ := H
    generalize jac l r i (i + 1) t c s = st at *
    obtain ⟨b1, b2, b3, b4, b5, b6, b7⟩ := H _ rfl
    refine ⟨⟨b3, b4, b5, ?_, ?_⟩, by rw [b6, abs_zero]; exact hτ, fun _ => b7⟩
    · rw [b1, ← mulMat_assoc, h4, mulMat_assoc, b2, mulMat_assoc]
    · rw [b1]; exact h5.mulMat hJ
  have a1' : (-s) * (-s) + c * c = 1 := by linear_combination a1
  rcases (by decide : ∀ i : Fin 3, i = 0 ∨ i = 1 ∨ i = 2) i with rfl | rfl | rfl
  · refine ⟨rzSC (-s) c, rzSC_isRot a1', fun l' e => ?_⟩
    replace e : jac l r 0 1 t c s = l' := e
    rw [show ((0 : Fin 3) + 1) = 1 from rfl] at a2 a3 a4 ⊢
    rw [jac0] at e
    subst e
    simp [Mat3.e, Mat3.v, Vec3.e] at a2 a3 a4 ⊢
    refine ⟨?_, ?_⟩
    · ext <;> simp [zeo, rzSC] <;> grind
    · simp [off]; grind
  · refine ⟨rxSC (-s) c, rxSC_isRot a1', fun l' e => ?_⟩
    replace e : jac l r 1 2 t c s = l' := e
    rw [show ((1 : Fin 3) + 1) = 2 from rfl] at a2 a3 a4 ⊢
    rw [jac1] at e
    subst e
    simp [Mat3.e, Mat3.v, Vec3.e] at a2 a3 a4 ⊢
    refine ⟨?_, ?_⟩
    · ext <;> simp [zeo, rxSC] <;> grind
    · simp [off]; grind
  · refine ⟨rySC (-s) c, rySC_isRot a1', fun l' e => ?_⟩
    replace e : jac l r 2 0 t c s = l' := e
    rw [show ((2 : Fin 3) + 1) = 0 from rfl] at a2 a3 a4 ⊢
    rw [jac2] at e
    subst e
    simp [Mat3.e, Mat3.v, Vec3.e] at a2 a3 a4 ⊢
    refine ⟨?_, ?_⟩
    · ext <;> simp [zeo, rySC] <;> grind
    · simp [off]; grind

/-- All off-diagonal components are tiny. -/
def Small (τ : ℝ) (l : Mat3 ℝ) : Prop := ∀ a : Fin 3, |l.e (a + 1) a| ≤ τ

private theorem shift : ∀ i : Fin 3, i + 2 + 1 = i + 1 + 2 := by decide

private theorem small_of {l : Mat3 ℝ} {i : Fin 3} (h0 : |l.e (i + 1) i| ≤ τ) (h1 : |l.e (i + 1 + 1) (i + 1)| ≤ τ)
    (h2 : |l.e (i + 1 + 2) (i + 2)| ≤ τ) : Small τ l := by
  intro a
  have h : a = i ∨ a = i + 1 ∨ a = i + 2 := (by decide : ∀ a i : Fin 3, a = i ∨ a = i + 1 ∨ a = i + 2) a i
  rcases h with rfl | rfl | rfl
  · exact h0
  · exact h1
  · rw [shift i]; exact h2

/-- Partial correctness of the loop. -/
theorem loop_correct (hτ : 0 ≤ τ) {m0 : Mat3 ℝ} : ∀ (n : ℕ) {l r : Mat3 ℝ} {i : Fin 3} {res}, Inv m0 l r →
    symEigLoop τ n l r i (i + 1) = some res →
    ∃ l', Inv m0 l' res.2 ∧ Small τ l' ∧ res.1 = ⟨l'.x.x, l'.y.y, l'.z.z⟩ := by
  intro n
  induction n with
  | zero => intro l r i res _ h; simp [symEigLoop] at h
  | succ n ih =>
    intro l r i res hI h
    obtain ⟨h1, h2, -⟩ := rot_spec hτ hI (i := i) rfl
    simp only [symEigLoop] at h
    set st := symEigRot τ l r i (i + 1)
    by_cases hgt : |st.1.e (i + 1 + 1) (i + 1)| > |st.1.e (i + 1 + 2) (i + 2)|
    · simp only [if_pos hgt] at h
      split_ifs at h with ht
      · obtain rfl := Option.some.inj h
        exact ⟨st.1, h1, small_of h2 ht (hgt.le.trans ht), rfl⟩
      · exact ih h1 h
    · simp only [if_neg hgt] at h
      split_ifs at h with ht
      · obtain rfl := Option.some.inj h
        exact ⟨st.1, h1, small_of h2 ((not_lt.1 hgt).trans ht) ht, rfl⟩
      · rw [← shift i] at h
        exact ih h1 h

private theorem off_ge {l : Mat3 ℝ} (hxy : l.x.y = l.y.x) (hyz : l.y.z = l.z.y) (hzx : l.z.x = l.x.z) (i : Fin 3) : (l.e (i + 1) i) ^ 2 ≤ off l := by
  unfold off
  rcases (by decide : ∀ i : Fin 3, i = 0 ∨ i = 1 ∨ i = 2) i with rfl | rfl | rfl
  · show l.y.x ^ 2 ≤ _; rw [hxy]; nlinarith [sq_nonneg l.y.z, sq_nonneg l.z.x]
  · show l.z.y ^ 2 ≤ _; rw [hyz]; nlinarith [sq_nonneg l.x.y, sq_nonneg l.z.x]
  · show l.x.z ^ 2 ≤ _; rw [hzx]; nlinarith [sq_nonneg l.y.z, sq_nonneg l.x.y]

/-- Termination: every further round removes more than `τ²`. -/
theorem loop_ends (hτ : 0 < τ) {m0 : Mat3 ℝ} : ∀ (n : ℕ) {l r : Mat3 ℝ} {i : Fin 3}, Inv m0 l r → ¬ |l.e (i + 1) i| ≤ τ →
    off l ≤ n * τ ^ 2 → (symEigLoop τ n l r i (i + 1)).isSome := by
  intro n
  induction n with
  | zero =>
    intro l r i hI hp ho
    have := off_ge hI.xy hI.yz hI.zx i
    have h2 : τ ^ 2 < (l.e (i + 1) i) ^ 2 := by rw [← sq_abs (l.e _ _)]; nlinarith [not_le.1 hp]
    simp at ho; nlinarith
  | succ n ih =>
    intro l r i hI hp ho
    obtain ⟨h1, h2, h3⟩ := rot_spec hτ.le hI (i := i) rfl
    have h4 : τ ^ 2 < (l.e (i + 1) i) ^ 2 := by rw [← sq_abs (l.e _ _)]; nlinarith [not_le.1 hp]
    have h5 := h3 hp
    simp only [symEigLoop]
    set st := symEigRot τ l r i (i + 1)
    have h6 : off st.1 ≤ n * τ ^ 2 := by push_cast at ho; linarith
    by_cases hgt : |st.1.e (i + 1 + 1) (i + 1)| > |st.1.e (i + 1 + 2) (i + 2)|
    · simp only [if_pos hgt]
      split_ifs with ht
      · rfl
      · exact ih h1 ht h6
    · simp only [if_neg hgt]
      split_ifs with ht
      · rfl
      · rw [← shift i] at ht ⊢
        exact ih h1 ht h6

/-- The first round may find a tiny component. -/
theorem loop_ends' (hτ : 0 < τ) {m0 l r : Mat3 ℝ} {i : Fin 3} (hI : Inv m0 l r) :
    ∃ n, (symEigLoop τ n l r i (i + 1)).isSome := by
  obtain ⟨n, hn⟩ := exists_nat_ge (off l / τ ^ 2)
  have ho : off l ≤ n * τ ^ 2 := (div_le_iff₀ (by positivity)).1 hn
  by_cases hp : |l.e (i + 1) i| ≤ τ
  · refine ⟨n + 1, ?_⟩
    simp only [symEigLoop]
    rw [show symEigRot τ l r i (i + 1) = (l, r) from if_pos hp]
    dsimp only
    by_cases hgt : |l.e (i + 1 + 1) (i + 1)| > |l.e (i + 1 + 2) (i + 2)|
    · simp only [if_pos hgt]
      split_ifs with ht
      · rfl
      · exact loop_ends hτ n hI ht ho
    · simp only [if_neg hgt]
      split_ifs with ht
      · rfl
      · rw [← shift i] at ht ⊢
        exact loop_ends hτ n hI ht ho
  · exact ⟨n, loop_ends hτ n hI hp ho⟩

theorem inv_ident {m : Mat3 ℝ} (h1 : m.x.y = m.y.x) (h2 : m.y.z = m.z.y) (h3 : m.z.x = m.x.z) : Inv m m .ident :=
  ⟨h1, h2, h3, by ext <;> simp [zeo], Mat3.IsRot.ident⟩

theorem symEig_spec (hτ : 0 < τ) {m : Mat3 ℝ} (h1 : m.x.y = m.y.x) (h2 : m.y.z = m.z.y) (h3 : m.z.x = m.x.z) :
    ∃ l r, m.symEig τ = some (⟨l.x.x, l.y.y, l.z.z⟩, r) ∧ Inv m l r ∧ Small τ l := by
  have h := loop_ends' hτ (i := 0) (inv_ident h1 h2 h3)
  rw [zero_add] at h
  have e : m.symEig τ = symEigLoop τ (Nat.find h) m .ident 0 1 := dif_pos h
  obtain ⟨res, hr⟩ := Option.isSome_iff_exists.1 (Nat.find_spec h)
  obtain ⟨l, hI, hs, hv⟩ := loop_correct hτ.le (i := 0) _ (inv_ident h1 h2 h3) hr
  exact ⟨l, res.2, by rw [e, hr, ← hv], hI, hs⟩

end Zeo.Eig
