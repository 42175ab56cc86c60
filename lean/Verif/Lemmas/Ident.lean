import Verif.Model.Profile
import Verif.Props.C60
import Verif.Props.C59

/-! Lemmas on the identification of a frame from two sets of points. -/

namespace Zeo.Data
open Matrix
variable {α : Type*}

theorem WF.loop2 {σ : Type*} (f : σ → α → α → σ) : ∀ (n : ℕ) {d1 d2 : Data α} (_ : d1.WF) (_ : d2.WF) (s : σ),
    d1.contents.length - d1.pos < n →
    Data.loop2 f n d1 d2 s = ((d1.contents.drop d1.pos).zip (d2.contents.drop d2.pos)).foldl (fun s ab => f s ab.1 ab.2) s := by
  intro n
  induction n with
  | zero => intro d1 d2 h1 h2 s hn; omega
  | succ n ih =>
    intro d1 d2 h1 h2 s hn
    obtain ⟨a1, a2, a3, a4, a5⟩ := h1.fetch
    obtain ⟨b1, b2, b3, b4, b5⟩ := h2.fetch
    unfold Data.loop2
    rcases hf : d1.fetch with ⟨_ | v, d1'⟩
    · rw [hf] at a3
      have hl := List.getElem?_eq_none_iff.1 a3.symm
      rw [List.drop_eq_nil_of_le hl]; rfl
    · rw [hf] at a1 a2 a3 a4
      dsimp only at a1 a2 a3 a4 ⊢
      obtain ⟨hlt, hv⟩ := List.getElem?_eq_some_iff.1 a3.symm
      rcases hg : d2.fetch with ⟨_ | w, d2'⟩
      · rw [hg] at b3
        have hl := List.getElem?_eq_none_iff.1 b3.symm
        rw [List.drop_eq_nil_of_le hl, List.zip_nil_right]; rfl
      · rw [hg] at b1 b2 b3 b4
        dsimp only at b1 b2 b3 b4 ⊢
        obtain ⟨hlt', hw⟩ := List.getElem?_eq_some_iff.1 b3.symm
        have e1 : min (d1.pos + 1) d1.contents.length = d1.pos + 1 := by omega
        have e2 : min (d2.pos + 1) d2.contents.length = d2.pos + 1 := by omega
        rw [e1] at a4; rw [e2] at b4
        rw [ih a1 b1 _ (by rw [a2, a4]; omega), a2, a4, b2, b4, List.drop_eq_getElem_cons hlt, List.drop_eq_getElem_cons hlt', hv, hw]
        rfl

end Zeo.Data

namespace Zeo.Ident
open Matrix

/-- The norm of a sum, in squares. -/
theorem add_le {a b : Vec3 ℝ} {α β : ℝ} (ha : a.sqrNorm ≤ α ^ 2) (hb : b.sqrNorm ≤ β ^ 2) (hα : 0 ≤ α) (hβ : 0 ≤ β) :
    (a.add b).sqrNorm ≤ (α + β) ^ 2 := by
  have cs : a.inner b ^ 2 ≤ (α * β) ^ 2 := by
    have h1 : a.inner b ^ 2 ≤ a.sqrNorm * b.sqrNorm := by
      simp only [zeo]
      linarith [sq_nonneg (a.x * b.y - a.y * b.x), sq_nonneg (a.y * b.z - a.z * b.y), sq_nonneg (a.z * b.x - a.x * b.z)]
    have h0 : 0 ≤ b.sqrNorm := by simp only [zeo]; nlinarith [mul_self_nonneg b.x, mul_self_nonneg b.y, mul_self_nonneg b.z]
    calc _ ≤ _ := h1
      _ ≤ α ^ 2 * β ^ 2 := mul_le_mul ha hb h0 (by positivity)
      _ = _ := by ring
  have := (abs_le_of_sq_le_sq' cs (by positivity)).2
  have e : (a.add b).sqrNorm = a.sqrNorm + 2 * a.inner b + b.sqrNorm := by simp only [zeo]; ring
  rw [e]; nlinarith

/-- Cauchy-Schwarz. -/
theorem inner_sq (a b : Vec3 ℝ) : a.inner b ^ 2 ≤ a.sqrNorm * b.sqrNorm := by
  simp only [zeo]
  linarith [sq_nonneg (a.x * b.y - a.y * b.x), sq_nonneg (a.y * b.z - a.z * b.y), sq_nonneg (a.z * b.x - a.x * b.z)]

theorem sqrNorm_nonneg (a : Vec3 ℝ) : 0 ≤ a.sqrNorm := by
  simp only [zeo]; nlinarith [mul_self_nonneg a.x, mul_self_nonneg a.y, mul_self_nonneg a.z]

/-- Parseval in an orthonormal base. -/
theorem parseval {u : Mat3 ℝ} (hu : u.IsRot) (x : Vec3 ℝ) : x.sqrNorm = x.inner u.x ^ 2 + x.inner u.y ^ 2 + x.inner u.z ^ 2 := by
  obtain ⟨c1, c2, c3, c4, c5, c6⟩ := hu.rows
  simp only [zeo]; grind

theorem expand {u : Mat3 ℝ} (hu : u.IsRot) (x : Vec3 ℝ) :
    x = ((u.x.mul (x.inner u.x)).add ((u.y.mul (x.inner u.y)).add (u.z.mul (x.inner u.z)))) := by
  obtain ⟨c1, c2, c3, c4, c5, c6⟩ := hu.rows
  ext <;> simp only [zeo] <;> grind

/-- A positive semidefinite matrix `b`, a unit vector `u` with `|b u| = s > 0`, and a bound of `b² u - s² u`:
then `b u` is near `s u`. -/
theorem near_eig {b : Mat3 ℝ} {u : Vec3 ℝ} {s T : ℝ} (hs : 0 < s) (hpos : ∀ x : Vec3 ℝ, 0 ≤ x.inner (b.mulVec x))
    (hF : ((b.mulVec (b.mulVec u)).sub (u.mul (s * s))).sqrNorm ≤ T) :
    s ^ 2 * ((b.mulVec u).sub (u.mul s)).sqrNorm ≤ T := by
  set D := (b.mulVec u).sub (u.mul s) with hD
  set F := (b.mulVec (b.mulVec u)).sub (u.mul (s * s)) with hF'
  have e : b.mulVec D = F.sub (D.mul s) := by
    rw [hD, hF']; ext <;> simp only [zeo] <;> ring
  have h1 := hpos D
  have h2 : D.inner (b.mulVec D) = D.inner F - s * D.sqrNorm := by rw [e]; simp only [zeo]; ring
  have h3 : s * D.sqrNorm ≤ D.inner F := by linarith
  have hD0 := sqrNorm_nonneg D
  have h4 : (s * D.sqrNorm) ^ 2 ≤ D.sqrNorm * F.sqrNorm := by
    refine le_trans ?_ (inner_sq D F)
    have : 0 ≤ s * D.sqrNorm := by positivity
    nlinarith
  rcases hD0.eq_or_lt with h0 | h0
  · rw [← h0, mul_zero]; exact (sqrNorm_nonneg F).trans hF
  · have : D.sqrNorm * (s ^ 2 * D.sqrNorm) ≤ D.sqrNorm * F.sqrNorm := by
      calc _ = (s * D.sqrNorm) ^ 2 := by ring
        _ ≤ _ := h4
    exact (le_of_mul_le_mul_left this h0).trans hF

set_option maxHeartbeats 1000000 in
/-- The heart of the accuracy of the identified attitude: for `m = b rᵀ` with `b` symmetric, `xᵀ b x ≥ σ |x|²`,
and `r` orthogonal, all singular values are at least `σ`, the product `v uᵀ` is near `r`, and the sum of the
singular values is near the trace of `b`. -/
theorem svd_near {τ σ : ℝ} (hτ : 0 < τ) (hσ : 0 < σ) (hτσ : τ < σ ^ 2) {b r m : Mat3 ℝ} (hb : b.toMatrix.IsSymm)
    (hpos : ∀ x : Vec3 ℝ, σ * x.sqrNorm ≤ x.inner (b.mulVec x)) (hr : r.toMatrixᵀ * r.toMatrix = 1)
    (hm : ∀ x, m.mulTVec x = r.mulVec (b.mulVec x)) :
    ∃ k u sv v, m.svd τ = some (k, u, sv, v) ∧
      (∀ x : Vec3 ℝ, (((v.mulMatT u).mulVec x).sub (r.mulVec x)).sqrNorm ≤ 6 * (τ / σ ^ 2) ^ 2 * x.sqrNorm) ∧
      |sv.x + sv.y + sv.z - (b.x.x + b.y.y + b.z.z)| ≤ 3 * √2 * τ / σ ∧ 3 * σ ≤ b.x.x + b.y.y + b.z.z := by
  obtain ⟨u, val, k0, k1, k2, sv, v, h, hu, -, -, c0, c1, c2, o0, o1, o2⟩ := Eig.svd_spec hτ m
  have rin : ∀ x y : Vec3 ℝ, (r.mulVec x).inner (r.mulVec y) = x.inner y := by
    intro x y
    have e : ∀ i j, (r.toMatrixᵀ * r.toMatrix) i j = (1 : Matrix (Fin 3) (Fin 3) ℝ) i j := by intro i j; rw [hr]
    have e00 := e 0 0; have e01 := e 0 1; have e02 := e 0 2; have e11 := e 1 1; have e12 := e 1 2; have e22 := e 2 2
    simp [Matrix.mul_apply, Fin.sum_univ_three, Mat3.toMatrix] at e00 e01 e02 e11 e12 e22
    simp only [zeo]
    linear_combination x.x * y.x * e00 + x.y * y.y * e11 + x.z * y.z * e22 + (x.x * y.y + x.y * y.x) * e01 + (x.x * y.z + x.z * y.x) * e02 + (x.y * y.z + x.z * y.y) * e12
  have rn : ∀ x : Vec3 ℝ, (r.mulVec x).sqrNorm = x.sqrNorm := by
    intro x
    have := rin x x
    simpa [Vec3.sqrNorm] using this
  have hpos0 : ∀ x : Vec3 ℝ, 0 ≤ x.inner (b.mulVec x) := fun x => (mul_nonneg hσ.le (sqrNorm_nonneg x)).trans (hpos x)
  rw [hm, hm, rin] at o0 o1 o2
  -- a column
  obtain ⟨r1, r2, r3, r4, r5, r6⟩ := hu.cols
  have big : ∀ w : Vec3 ℝ, w.sqrNorm = 1 → σ ^ 2 ≤ (b.mulVec w).sqrNorm := by
    intro w hw
    have h1 := hpos w
    rw [hw, mul_one] at h1
    have h2 := inner_sq w (b.mulVec w)
    rw [hw, one_mul] at h2
    nlinarith
  have sym : ∀ x y : Vec3 ℝ, x.inner (b.mulVec y) = (b.mulVec x).inner y := by
    intro x y
    have e : ∀ i j, b.toMatrix j i = b.toMatrix i j := fun i j => congrFun (congrFun hb i) j
    have e1 := e 0 1; have e2 := e 1 2; have e3 := e 2 0
    simp [Mat3.toMatrix] at e1 e2 e3
    simp only [zeo]; rw [e1, e2, e3]; ring
  have colm : ∀ (w v : Vec3 ℝ) (k : ℕ) (s : ℝ) (p q : Vec3 ℝ), w.sqrNorm = 1 → Eig.Col τ (m.mulTVec w) k s v →
      (∀ x : Vec3 ℝ, x.sqrNorm = x.inner w ^ 2 + x.inner p ^ 2 + x.inner q ^ 2) → w.inner p = 0 → w.inner q = 0 →
      |(b.mulVec w).inner (b.mulVec p)| ≤ τ → |(b.mulVec w).inner (b.mulVec q)| ≤ τ →
      σ ≤ s ∧ ((b.mulVec w).sub (w.mul s)).sqrNorm ≤ 2 * (τ / σ) ^ 2 ∧ (v.sub (r.mulVec w)).sqrNorm ≤ 2 * (τ / σ ^ 2) ^ 2 := by
    intro w v k s p q hw hc hP hp hq h1 h2
    rw [hm] at hc
    rcases hc with ⟨hc, -⟩ | ⟨-, -, hss, hs, hv, -⟩
    · rw [rn] at hc; linarith [big w hw]
    · rw [rn] at hss
      have hσs : σ ≤ s := by
        have := big w hw
        rw [← hss] at this
        nlinarith
      have hF : ((b.mulVec (b.mulVec w)).sub (w.mul (s * s))).sqrNorm ≤ 2 * τ ^ 2 := by
        rw [hP]
        have f1 : ((b.mulVec (b.mulVec w)).sub (w.mul (s * s))).inner w = 0 := by
          have : ((b.mulVec (b.mulVec w)).sub (w.mul (s * s))).inner w = w.inner (b.mulVec (b.mulVec w)) - s * s * w.sqrNorm := by
            simp only [zeo]; ring
          rw [this, sym, hw, hss]; simp only [zeo]; ring
        have f2 : ∀ p : Vec3 ℝ, w.inner p = 0 → ((b.mulVec (b.mulVec w)).sub (w.mul (s * s))).inner p = (b.mulVec w).inner (b.mulVec p) := by
          intro p hp
          have : ((b.mulVec (b.mulVec w)).sub (w.mul (s * s))).inner p = p.inner (b.mulVec (b.mulVec w)) - s * s * w.inner p := by
            simp only [zeo]; ring
          rw [this, hp, sym]; simp only [zeo]; ring
        rw [f1, f2 p hp, f2 q hq]
        have g1 : ((b.mulVec w).inner (b.mulVec p)) ^ 2 ≤ τ ^ 2 := sq_le_sq' (abs_le.1 h1).1 (abs_le.1 h1).2
        have g2 : ((b.mulVec w).inner (b.mulVec q)) ^ 2 ≤ τ ^ 2 := sq_le_sq' (abs_le.1 h2).1 (abs_le.1 h2).2
        nlinarith
      have hD := near_eig hs hpos0 hF
      set D := (b.mulVec w).sub (w.mul s) with hDdef
      have hD0 := sqrNorm_nonneg D
      have hs2 : σ ^ 2 ≤ s ^ 2 := by nlinarith
      have hσ2 : 0 < σ ^ 2 := by positivity
      have hD2 : σ ^ 2 * D.sqrNorm ≤ 2 * τ ^ 2 := (mul_le_mul_of_nonneg_right hs2 hD0).trans hD
      refine ⟨hσs, ?_, ?_⟩
      · rw [div_pow, ← mul_div_assoc, le_div_iff₀ hσ2]; linarith
      · have ev : r.mulVec D = (v.sub (r.mulVec w)).mul s := by
          have : r.mulVec D = (r.mulVec (b.mulVec w)).sub ((r.mulVec w).mul s) := by rw [hDdef]; ext <;> simp only [zeo] <;> ring
          rw [this, hv]; ext <;> simp only [zeo] <;> ring
        have en : s ^ 2 * (v.sub (r.mulVec w)).sqrNorm = D.sqrNorm := by
          rw [← rn D, ev]; simp only [zeo]; ring
        have hE0 := sqrNorm_nonneg (v.sub (r.mulVec w))
        have : σ ^ 2 * (v.sub (r.mulVec w)).sqrNorm ≤ D.sqrNorm := by rw [← en]; exact mul_le_mul_of_nonneg_right hs2 hE0
        rw [div_pow, ← mul_div_assoc, le_div_iff₀ (by positivity)]
        have t1 := mul_le_mul_of_nonneg_left this hσ2.le
        linarith
  have n0 : u.x.sqrNorm = 1 := by simp only [zeo]; linarith
  have n1 : u.y.sqrNorm = 1 := by simp only [zeo]; linarith
  have n2 : u.z.sqrNorm = 1 := by simp only [zeo]; linarith
  have icomm : ∀ x y : Vec3 ℝ, x.inner y = y.inner x := by intro x y; simp only [zeo]; ring
  have ixy : u.x.inner u.y = 0 := by simp only [zeo]; linarith
  have iyz : u.y.inner u.z = 0 := by simp only [zeo]; linarith
  have izx : u.z.inner u.x = 0 := by simp only [zeo]; linarith
  obtain ⟨s0, d0, e0⟩ := colm u.x v.x k0 sv.x u.y u.z n0 c0 (parseval hu) ixy (icomm _ _ ▸ izx) o0 (icomm _ _ ▸ o2)
  obtain ⟨s1, d1, e1⟩ := colm u.y v.y k1 sv.y u.z u.x n1 c1 (fun x => by rw [parseval hu x]; ring) iyz (icomm _ _ ▸ ixy) o1 (icomm _ _ ▸ o0)
  obtain ⟨s2, d2, e2⟩ := colm u.z v.z k2 sv.z u.x u.y n2 c2 (fun x => by rw [parseval hu x]; ring) izx (icomm _ _ ▸ iyz) o2 (icomm _ _ ▸ o1)
  refine ⟨_, u, sv, v, h, ?_, ?_, ?_⟩
  · intro x
    set E0 := v.x.sub (r.mulVec u.x) with hE0
    set E1 := v.y.sub (r.mulVec u.y) with hE1
    set E2 := v.z.sub (r.mulVec u.z) with hE2
    have ex : ((v.mulMatT u).mulVec x).sub (r.mulVec x) = (E0.mul (x.inner u.x)).add ((E1.mul (x.inner u.y)).add (E2.mul (x.inner u.z))) := by
      have t1 : (v.mulMatT u).mulVec x = (v.x.mul (x.inner u.x)).add ((v.y.mul (x.inner u.y)).add (v.z.mul (x.inner u.z))) := by
        ext <;> simp only [zeo] <;> ring
      have t2 : r.mulVec x = ((r.mulVec u.x).mul (x.inner u.x)).add (((r.mulVec u.y).mul (x.inner u.y)).add ((r.mulVec u.z).mul (x.inner u.z))) := by
        conv_lhs => rw [expand hu x]
        generalize x.inner u.x = a
        generalize x.inner u.y = b
        generalize x.inner u.z = c
        ext <;> simp only [zeo] <;> ring
      rw [t1, t2, hE0, hE1, hE2]
      ext <;> simp only [zeo] <;> ring
    rw [ex, parseval hu x]
    generalize x.inner u.x = p
    generalize x.inner u.y = q
    generalize x.inner u.z = t
    clear_value E0 E1 E2
    -- Cauchy-Schwarz
    have cs : ((E0.mul p).add ((E1.mul q).add (E2.mul t))).sqrNorm ≤ (E0.sqrNorm + E1.sqrNorm + E2.sqrNorm) * (p ^ 2 + q ^ 2 + t ^ 2) := by
      simp only [zeo]
      linarith [sq_nonneg (E0.x * q - E1.x * p), sq_nonneg (E1.x * t - E2.x * q), sq_nonneg (E2.x * p - E0.x * t),
        sq_nonneg (E0.y * q - E1.y * p), sq_nonneg (E1.y * t - E2.y * q), sq_nonneg (E2.y * p - E0.y * t),
        sq_nonneg (E0.z * q - E1.z * p), sq_nonneg (E1.z * t - E2.z * q), sq_nonneg (E2.z * p - E0.z * t)]
    refine cs.trans (mul_le_mul_of_nonneg_right (by linarith) (by positivity))
  · have tr : b.x.x + b.y.y + b.z.z = u.x.inner (b.mulVec u.x) + u.y.inner (b.mulVec u.y) + u.z.inner (b.mulVec u.z) := by
      obtain ⟨q1, q2, q3, q4, q5, q6⟩ := hu.rows
      simp only [zeo]
      linear_combination (-b.x.x) * q1 - b.y.y * q2 - b.z.z * q3 - (b.x.y + b.y.x) * q4 - (b.y.z + b.z.y) * q5 - (b.z.x + b.x.z) * q6
    have dd : ∀ (w : Vec3 ℝ) (s : ℝ), w.sqrNorm = 1 → ((b.mulVec w).sub (w.mul s)).sqrNorm ≤ 2 * (τ / σ) ^ 2 → |s - w.inner (b.mulVec w)| ≤ √2 * τ / σ := by
      intro w s hw hd
      have e : w.inner ((b.mulVec w).sub (w.mul s)) = w.inner (b.mulVec w) - s * w.sqrNorm := by simp only [zeo]; ring
      rw [hw, mul_one] at e
      have h1 := inner_sq w ((b.mulVec w).sub (w.mul s))
      rw [hw, one_mul, e] at h1
      rw [abs_sub_comm]
      have h2 : √2 * τ / σ = √2 * (τ / σ) := by ring
      refine abs_le_of_sq_le_sq (b := √2 * τ / σ) ?_ (by positivity)
      rw [h2, mul_pow, Real.sq_sqrt (by norm_num : (0:ℝ) ≤ 2)]
      linarith
    have a0 := abs_le.1 (dd _ _ n0 d0)
    have a1 := abs_le.1 (dd _ _ n1 d1)
    have a2 := abs_le.1 (dd _ _ n2 d2)
    rw [tr]
    have : 3 * √2 * τ / σ = √2 * τ / σ + √2 * τ / σ + √2 * τ / σ := by ring
    rw [this, abs_le]
    constructor <;> linarith
  · have p0 := hpos .ex
    have p1 := hpos .ey
    have p2 := hpos .ez
    simp only [zeo] at p0 p1 p2
    linarith

end Zeo.Ident
