import Verif.Model.QHull
import Verif.Spec.QHull
import Verif.Lemmas.QHMesh

/-! # Tests of the quickhull algorithm on points that the tolerance resolves -/

namespace Zeo.QHMesh
noncomputable section
open Classical QHGeom Spec QH

/-- The tests by the tolerance are right on the points. -/
structure Res (τ : ℝ) (pos : ℕ → Vec3 ℝ) (N : ℕ) : Prop where
  tol : 0 ≤ τ
  same : ∀ a < N, ∀ b < N, Near τ (pos a) (pos b) → pos a = pos b
  bend : ∀ a < N, ∀ b < N, ∀ c < N, Near τ (crossP (unitV ((pos b).sub (pos a))) (unitV ((pos c).sub (pos a)))) .zero →
    triNormal (pos a, pos b, pos c) = .zero
  off : ∀ a < N, ∀ b < N, ∀ c < N, ∀ d < N, triNormal (pos a, pos b, pos c) ≠ .zero →
    |dot (unitNormal (pos a) (pos b) (pos c)) ((pos d).sub (pos a))| ≤ τ → vol (pos a) (pos b) (pos c) (pos d) = 0
  fold : ∀ a < N, ∀ b < N, ∀ c < N, ∀ d < N, triNormal (pos a, pos b, pos c) ≠ .zero →
    triNormal (pos b, pos a, pos d) ≠ .zero →
    (Near τ (unitNormal (pos a) (pos b) (pos c)) (unitNormal (pos b) (pos a) (pos d)) ∨
      Near τ (crossP (unitNormal (pos a) (pos b) (pos c)) (unitNormal (pos b) (pos a) (pos d))) .zero) →
    vol (pos a) (pos b) (pos c) (pos d) = 0
  on : ∀ a < N, ∀ b < N, ∀ c < N, ∀ d < N, triNormal (pos a, pos b, pos c) ≠ .zero →
    vol (pos a) (pos b) (pos c) (pos d) = 0 → Tri3.pointIsInside τ (pos a) (pos b) (pos c) (pos d) τ →
    pos d ∈ triangle (pos a) (pos b) (pos c)
  on' : 0 < τ → ∀ a < N, ∀ b < N, ∀ c < N, ∀ d < N, triNormal (pos a, pos b, pos c) ≠ .zero →
    pos d ∈ triangle (pos a) (pos b) (pos c) → Tri3.pointIsInside τ (pos a) (pos b) (pos c) (pos d) τ

theorem normalizeNC_eq (v : Vec3 ℝ) : (v.normalizeNC).2 = unitV v := by
  have : Vec3.norm v = Real.sqrt (v.x ^ 2 + v.y ^ 2 + v.z ^ 2) := by
    unfold Vec3.norm Vec3.sqrNorm Vec3.inner; congr 1; ring
  simp only [Vec3.normalizeNC, unitV, Vec3.mul, this]
  ext <;> simp only <;> ring

theorem facet_normal (a b c : Vec3 ℝ) : (((b.sub a).outer (c.sub a)).normalizeNC).2 = unitNormal a b c := by
  rw [normalizeNC_eq]; rfl

theorem isTol_iff_near (τ : ℝ) (v : Vec3 ℝ) : v.isTol τ ↔ Near τ v .zero := by
  simp only [Vec3.isTol, zIsTol, Near, Vec3.zero, sub_zero]

theorem isTol_sub_iff (τ : ℝ) (v w : Vec3 ℝ) : (v.sub w).isTol τ ↔ Near τ v w := by
  simp only [Vec3.isTol, zIsTol, Near, Vec3.sub]

theorem dot_unit (v w : Vec3 ℝ) : dot (unitV v) w = dot v w / Real.sqrt (v.x ^ 2 + v.y ^ 2 + v.z ^ 2) := by
  simp only [dot, unitV]; ring

theorem unitNormal_cyc (a b c : Vec3 ℝ) : unitNormal b c a = unitNormal a b c := by
  unfold unitNormal
  congr 1
  simp only [triNormal]
  ext <;> simp only <;> ring

/-- The height over a triangle has the sign of the volume. -/
theorem height_pos {a b c x : Vec3 ℝ} : 0 < dot (unitNormal a b c) (x.sub a) ↔ 0 < vol a b c x := by
  unfold unitNormal vol
  rw [dot_unit]
  set r := Real.sqrt _
  have hr : 0 ≤ r := Real.sqrt_nonneg _
  constructor
  · intro h
    by_contra hc
    exact absurd h (not_lt.2 (div_nonpos_of_nonpos_of_nonneg (not_lt.1 hc) hr))
  · intro h
    have hr' : 0 < r := by
      rcases hr.lt_or_eq with h' | h'
      · exact h'
      · exfalso
        have h0 := h'.symm
        have hle := Real.sqrt_eq_zero'.1 h0
        set n := triNormal (a, b, c)
        have z : n.x = 0 ∧ n.y = 0 ∧ n.z = 0 := by
          refine ⟨?_, ?_, ?_⟩ <;> nlinarith [sq_nonneg n.x, sq_nonneg n.y, sq_nonneg n.z]
        simp only [dot, z.1, z.2.1, z.2.2] at h
        simp at h
    exact div_pos h hr'

theorem height_neg {a b c x : Vec3 ℝ} (h : dot (unitNormal a b c) (x.sub a) < 0) : vol a b c x < 0 := by
  unfold unitNormal at h
  rw [dot_unit] at h
  by_contra hc
  exact absurd h (not_lt.2 (div_nonneg (not_lt.1 hc) (Real.sqrt_nonneg _)))

variable {τ : ℝ} {pos : ℕ → Vec3 ℝ} {N : ℕ}

/-- The normal vector stored in a facet. -/
def NormalOK (pos : ℕ → Vec3 ℝ) (f : QFacet) : Prop :=
  f.n = unitNormal (pos (f.p 0)) (pos (f.p 1)) (pos (f.p 2))

theorem facetCreate_normal (a b c : ℕ) : NormalOK pos (facetCreate τ pos a b c) := by
  unfold NormalOK facetCreate
  simp only [facet_normal]
  rfl

/-- A triangle with a point off its plane is proper. -/
theorem proper_of_vol {a b c x : Vec3 ℝ} (h : vol a b c x ≠ 0) : triNormal (a, b, c) ≠ .zero := by
  intro e
  apply h
  unfold vol
  rw [e]
  simp [dot, Vec3.zero]

theorem triNormal_cyc (a b c : Vec3 ℝ) : triNormal (b, c, a) = triNormal (a, b, c) := by
  simp only [triNormal]; ext <;> simp only <;> ring

/-- A linear function is nonpositive on a triangle when it is at the corners. -/
theorem vol_tri_le {a b c u v w x : Vec3 ℝ} (hu : vol a b c u ≤ 0) (hv : vol a b c v ≤ 0) (hw : vol a b c w ≤ 0)
    (hx : x ∈ triangle u v w) : vol a b c x ≤ 0 := by
  obtain ⟨k, l, m, hk, hl, hm, h1, rfl⟩ := hx
  have : vol a b c (comb k l m 0 u v w u) = k * vol a b c u + l * vol a b c v + m * vol a b c w := by
    obtain rfl : k = 1 - l - m := by linarith
    simp only [vol_eq, comb]; ring
  rw [this]
  nlinarith [mul_nonneg hk (neg_nonneg.2 hu), mul_nonneg hl (neg_nonneg.2 hv), mul_nonneg hm (neg_nonneg.2 hw)]

theorem vol_tri_zero {a b c x : Vec3 ℝ} (hx : x ∈ triangle a b c) : vol a b c x = 0 := by
  obtain ⟨k, l, m, hk, hl, hm, h1, rfl⟩ := hx
  obtain rfl : k = 1 - l - m := by linarith
  simp only [vol_eq, comb]; ring

theorem corner_tri (a b c : Vec3 ℝ) : a ∈ triangle a b c :=
  ⟨1, 0, 0, by norm_num, by norm_num, by norm_num, by norm_num, by ext <;> simp only [comb] <;> ring⟩

/-- The test of a point against a proper facet. -/
theorem Res.test (h : Res τ pos N) {f : QFacet} (hn : NormalOK pos f) (hN : ∀ s, f.p s < N)
    (hp : triNormal (pos (f.p 0), pos (f.p 1), pos (f.p 2)) ≠ .zero) {x : ℕ} (hx : x < N) :
    (0 ≤ vol (pos (f.p 0)) (pos (f.p 1)) (pos (f.p 2)) (pos x) ∧ testBB τ pos f x = 1 ∧
      (0 < τ → pos x ∉ triangle (pos (f.p 0)) (pos (f.p 1)) (pos (f.p 2)))) ∨
    (vol (pos (f.p 0)) (pos (f.p 1)) (pos (f.p 2)) (pos x) < 0 ∧ testBB τ pos f x = -1) ∨
    (pos x ∈ triangle (pos (f.p 0)) (pos (f.p 1)) (pos (f.p 2)) ∧ testBB τ pos f x = 0) := by
  have hl : f.n.inner ((pos x).sub (pos (f.p 0))) = dot (unitNormal (pos (f.p 0)) (pos (f.p 1)) (pos (f.p 2)))
      ((pos x).sub (pos (f.p 0))) := by rw [hn]; rfl
  have htol := h.tol
  have hoff := h.off _ (hN 0) _ (hN 1) _ (hN 2) x hx hp
  have hon := h.on _ (hN 0) _ (hN 1) _ (hN 2) x hx hp
  have hon' := fun ht => h.on' ht _ (hN 0) _ (hN 1) _ (hN 2) x hx hp
  by_cases hne : ((pos x).sub (pos (f.p 0))).isTol τ
  · right; right
    have e := h.same _ hx _ (hN 0) ((isTol_sub_iff _ _ _).1 hne)
    refine ⟨e ▸ corner_tri _ _ _, ?_⟩
    unfold testBB; simp only [if_pos hne]
  · unfold testBB facetOn
    simp only [if_neg hne, hl]
    set L := dot (unitNormal (pos (f.p 0)) (pos (f.p 1)) (pos (f.p 2))) ((pos x).sub (pos (f.p 0))) with hL
    by_cases h1 : L < -τ
    · right; left
      exact ⟨height_neg (lt_of_lt_of_le h1 (by linarith)), if_pos h1⟩
    · rw [if_neg h1]
      by_cases h2 : L > τ
      · left
        have hv := height_pos.1 (lt_of_le_of_lt htol h2)
        refine ⟨hv.le, if_pos h2, fun _ ht => ?_⟩
        exact absurd (vol_tri_zero ht) hv.ne'
      · rw [if_neg h2]
        have h0 := hoff (abs_le.2 ⟨by linarith, by linarith⟩)
        by_cases h3 : Tri3.pointIsInside τ (pos (f.p 0)) (pos (f.p 1)) (pos (f.p 2)) (pos x) τ
        · right; right
          exact ⟨hon h0 h3, if_pos h3⟩
        · left
          exact ⟨h0.ge, if_neg h3, fun ht hm => h3 (hon' ht hm)⟩

theorem rot_normal {f : QFacet} (hn : NormalOK pos f) (s : Fin 3) :
    f.n = unitNormal (pos (f.p s)) (pos (f.p (s + 1))) (pos (f.p (s + 2))) := by
  rw [hn]
  fin_cases s
  · rfl
  · exact (unitNormal_cyc _ _ _).symm
  · exact unitNormal_cyc (pos (f.p 2)) _ _

theorem unitV_scale {k : ℝ} (hk : 0 < k) (v : Vec3 ℝ) : unitV ⟨k * v.x, k * v.y, k * v.z⟩ = unitV v := by
  have e : (k * v.x) ^ 2 + (k * v.y) ^ 2 + (k * v.z) ^ 2 = k ^ 2 * (v.x ^ 2 + v.y ^ 2 + v.z ^ 2) := by ring
  have hs : Real.sqrt (k ^ 2 * (v.x ^ 2 + v.y ^ 2 + v.z ^ 2)) = k * Real.sqrt (v.x ^ 2 + v.y ^ 2 + v.z ^ 2) := by
    rw [Real.sqrt_mul (by positivity), Real.sqrt_sq hk.le]
  unfold unitV
  simp only [e, hs]
  ext <;> exact mul_div_mul_left _ _ hk.ne'

/-- Two triangles on a common edge in a plane, with a point beneath both, have the same normal vector. -/
theorem unitNormal_flat {z y a b k : Vec3 ℝ} (h0 : vol z a b y = 0) (h1 : vol z a b k < 0) (h2 : vol y b a k < 0) :
    unitNormal z a b = unitNormal y b a := by
  have key : ∀ x, vol z a b k * vol y b a x = vol y b a k * vol z a b x := by
    intro x
    have := vol_pencil z y a b k x
    rw [h0] at this
    linarith
  have kx := key ⟨a.x + 1, a.y, a.z⟩
  have ky := key ⟨a.x, a.y + 1, a.z⟩
  have kz := key ⟨a.x, a.y, a.z + 1⟩
  set α := vol z a b k
  set β := vol y b a k
  have e : triNormal (z, a, b) = ⟨α / β * (triNormal (y, b, a)).x, α / β * (triNormal (y, b, a)).y,
      α / β * (triNormal (y, b, a)).z⟩ := by
    have hb := h2.ne
    ext
    · show (triNormal (z, a, b)).x = α / β * (triNormal (y, b, a)).x
      rw [div_mul_eq_mul_div, eq_div_iff hb]
      simp only [vol_eq, triNormal] at kx ⊢
      linear_combination -kx
    · show (triNormal (z, a, b)).y = α / β * (triNormal (y, b, a)).y
      rw [div_mul_eq_mul_div, eq_div_iff hb]
      simp only [vol_eq, triNormal] at ky ⊢
      linear_combination -ky
    · show (triNormal (z, a, b)).z = α / β * (triNormal (y, b, a)).z
      rw [div_mul_eq_mul_div, eq_div_iff hb]
      simp only [vol_eq, triNormal] at kz ⊢
      linear_combination -kz
  unfold unitNormal
  rw [e]
  exact unitV_scale (div_pos_of_neg_of_neg h1 h2) _

/-- Two facets on a common edge that make no concave angle are merged only if they lie in a plane. -/
theorem Res.flag (h : Res τ pos N) {f1 f2 : QFacet} (hn1 : NormalOK pos f1) (hn2 : NormalOK pos f2)
    (hN1 : ∀ s, f1.p s < N) (hN2 : ∀ s, f2.p s < N) {s1 s2 : Fin 3} (e1 : f2.p (s2 + 1) = f1.p (s1 + 2))
    (e2 : f2.p (s2 + 2) = f1.p (s1 + 1))
    (hv : vol (pos (f1.p s1)) (pos (f1.p (s1 + 1))) (pos (f1.p (s1 + 2))) (pos (f2.p s2)) ≤ 0) {k : Vec3 ℝ}
    (hk1 : vol (pos (f1.p s1)) (pos (f1.p (s1 + 1))) (pos (f1.p (s1 + 2))) k < 0)
    (hk2 : vol (pos (f2.p s2)) (pos (f2.p (s2 + 1))) (pos (f2.p (s2 + 2))) k < 0)
    (hb : bindFlag τ pos f1 s1 f2 = true) : f1.n = f2.n := by
  have n1' := rot_normal hn1 s1
  have n2' := rot_normal hn2 s2
  have n1 : f1.n = unitNormal (pos (f1.p (s1 + 1))) (pos (f1.p (s1 + 2))) (pos (f1.p s1)) := by
    rw [n1']; exact (unitNormal_cyc _ _ _).symm
  have n2 : f2.n = unitNormal (pos (f1.p (s1 + 2))) (pos (f1.p (s1 + 1))) (pos (f2.p s2)) := by
    rw [n2', e1, e2]; exact (unitNormal_cyc _ _ _).symm
  rw [e1, e2] at n2' hk2
  have p1 : triNormal (pos (f1.p (s1 + 1)), pos (f1.p (s1 + 2)), pos (f1.p s1)) ≠ .zero := by
    rw [triNormal_cyc]; exact proper_of_vol hk1.ne
  have p2 : triNormal (pos (f1.p (s1 + 2)), pos (f1.p (s1 + 1)), pos (f2.p s2)) ≠ .zero := by
    rw [triNormal_cyc]; exact proper_of_vol hk2.ne
  have hfold := h.fold _ (hN1 (s1 + 1)) _ (hN1 (s1 + 2)) _ (hN1 s1) _ (hN2 s2) p1 p2
  rw [← n1, ← n2, vol_cyc] at hfold
  have hz : vol (pos (f1.p s1)) (pos (f1.p (s1 + 1))) (pos (f1.p (s1 + 2))) (pos (f2.p s2)) = 0 := by
    unfold bindFlag at hb
    split at hb
    · rename_i t; exact hfold (Or.inl ((isTol_sub_iff _ _ _).1 t))
    · dsimp only at hb
      split at hb
      · rename_i t; exact hfold (Or.inr ((isTol_iff_near _ _).1 t))
      · exfalso
        rw [decide_eq_true_eq, n1, n2] at hb
        revert hb
        rw [imp_false, not_lt]
        unfold unitNormal
        set a := pos (f1.p (s1 + 1))
        set b := pos (f1.p (s1 + 2))
        set z := pos (f1.p s1)
        set y := pos (f2.p s2)
        have key : (b.sub a).inner ((triNormal (a, b, z)).outer (triNormal (b, a, y))) =
            - ((b.x - a.x) ^ 2 + (b.y - a.y) ^ 2 + (b.z - a.z) ^ 2) * vol z a b y := by
          simp only [vol_eq, triNormal, Vec3.inner, Vec3.outer, Vec3.sub]; ring
        set m := triNormal (a, b, z)
        set k := triNormal (b, a, y)
        have e : (b.sub a).inner ((unitV m).outer (unitV k)) =
            (b.sub a).inner (m.outer k) / (Real.sqrt (m.x ^ 2 + m.y ^ 2 + m.z ^ 2) *
              Real.sqrt (k.x ^ 2 + k.y ^ 2 + k.z ^ 2)) := by
          simp only [unitV, Vec3.inner, Vec3.outer]
          generalize Real.sqrt (m.x ^ 2 + m.y ^ 2 + m.z ^ 2) = u
          generalize Real.sqrt (k.x ^ 2 + k.y ^ 2 + k.z ^ 2) = w
          rw [div_mul_div_comm, div_mul_div_comm, div_mul_div_comm, div_mul_div_comm, div_mul_div_comm, div_mul_div_comm]
          ring
        rw [e, key]
        refine div_nonneg ?_ (mul_nonneg (Real.sqrt_nonneg _) (Real.sqrt_nonneg _))
        nlinarith [mul_nonneg (add_nonneg (add_nonneg (sq_nonneg (b.x - a.x)) (sq_nonneg (b.y - a.y)))
          (sq_nonneg (b.z - a.z))) (neg_nonneg.2 hv)]
  rw [n1', n2']
  exact unitNormal_flat hz hk1 hk2

end
end Zeo.QHMesh
