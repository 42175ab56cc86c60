import Verif.Props.C18
import Verif.Props.C26
import Mathlib.Tactic.FinCases

/-! # C27: the oriented-box collision test never misses a collision -/

namespace Zeo

private theorem strict3 {a b c x y z A B C : ℝ} (ha : |a| < A / 2) (hb : |b| < B / 2) (hc : |c| < C / 2)
    (h : x ≠ 0 ∨ y ≠ 0 ∨ z ≠ 0) :
    |a * x + b * y + c * z| < 1/2 * (|x| * A + |y| * B + |z| * C) := by
  have h1 := abs_add_three (a * x) (b * y) (c * z)
  rw [abs_mul, abs_mul, abs_mul] at h1
  have q1 : |a| * |x| ≤ A / 2 * |x| := mul_le_mul_of_nonneg_right ha.le (abs_nonneg x)
  have q2 : |b| * |y| ≤ B / 2 * |y| := mul_le_mul_of_nonneg_right hb.le (abs_nonneg y)
  have q3 : |c| * |z| ≤ C / 2 * |z| := mul_le_mul_of_nonneg_right hc.le (abs_nonneg z)
  rcases h with h | h | h
  · have := mul_lt_mul_of_pos_right ha (abs_pos.2 h); linarith
  · have := mul_lt_mul_of_pos_right hb (abs_pos.2 h); linarith
  · have := mul_lt_mul_of_pos_right hc (abs_pos.2 h); linarith

private theorem weak3 {a b c x y z A B C : ℝ} (ha : |a| < A / 2) (hb : |b| < B / 2) (hc : |c| < C / 2) :
    |a * x + b * y + c * z| ≤ 1/2 * (|x| * A + |y| * B + |z| * C) := by
  have h1 := abs_add_three (a * x) (b * y) (c * z)
  rw [abs_mul, abs_mul, abs_mul] at h1
  have q1 : |a| * |x| ≤ A / 2 * |x| := mul_le_mul_of_nonneg_right ha.le (abs_nonneg x)
  have q2 : |b| * |y| ≤ B / 2 * |y| := mul_le_mul_of_nonneg_right hb.le (abs_nonneg y)
  have q3 : |c| * |z| ≤ C / 2 * |z| := mul_le_mul_of_nonneg_right hc.le (abs_nonneg z)
  linarith

/-- A common interior point bounds the projected center distance, on every direction that is not
orthogonal to the whole first box. -/
private theorem proj_lt (b1 b2 : Box3 ℝ) (n : Vec3 ℝ) {p : Vec3 ℝ} (h1 : p ∈ Spec.oboxOpen b1 0)
    (h2 : p ∈ Spec.oboxOpen b2 0)
    (hn : b1.frame.att.x.inner n ≠ 0 ∨ b1.frame.att.y.inner n ≠ 0 ∨ b1.frame.att.z.inner n ≠ 0) :
    |(b1.frame.pos.sub b2.frame.pos).inner n| <
      1/2 * (|b1.frame.att.x.inner n| * b1.span.x + |b1.frame.att.y.inner n| * b1.span.y + |b1.frame.att.z.inner n| * b1.span.z) +
      1/2 * (|b2.frame.att.x.inner n| * b2.span.x + |b2.frame.att.y.inner n| * b2.span.y + |b2.frame.att.z.inner n| * b2.span.z) := by
  obtain ⟨s, t, u, hs, ht, hu, rfl⟩ := h1
  obtain ⟨s', t', u', hs', ht', hu', e⟩ := h2
  rw [add_zero] at hs ht hu hs' ht' hu'
  have e1 := congrArg Vec3.x e
  have e2 := congrArg Vec3.y e
  have e3 := congrArg Vec3.z e
  simp only [Spec.oboxPoint] at e1 e2 e3
  have k : (b1.frame.pos.sub b2.frame.pos).inner n =
      (s' * b2.frame.att.x.inner n + t' * b2.frame.att.y.inner n + u' * b2.frame.att.z.inner n) -
      (s * b1.frame.att.x.inner n + t * b1.frame.att.y.inner n + u * b1.frame.att.z.inner n) := by
    simp only [zeo]; linear_combination n.x * e1 + n.y * e2 + n.z * e3
  rw [k]
  have := abs_sub (s' * b2.frame.att.x.inner n + t' * b2.frame.att.y.inner n + u' * b2.frame.att.z.inner n)
    (s * b1.frame.att.x.inner n + t * b1.frame.att.y.inner n + u * b1.frame.att.z.inner n)
  have w := weak3 (x := b2.frame.att.x.inner n) (y := b2.frame.att.y.inner n) (z := b2.frame.att.z.inner n) hs' ht' hu'
  have w' := strict3 hs ht hu hn
  linarith

private theorem along (b1 b2 : Box3 ℝ) (h : b1.frame.att.IsRot) (i : Fin 3) {l : Vec3 ℝ}
    (hp : ∀ n : Vec3 ℝ, b1.frame.att.x.inner n ≠ 0 ∨ b1.frame.att.y.inner n ≠ 0 ∨ b1.frame.att.z.inner n ≠ 0 →
      |l.inner n| <
      1/2 * (|b1.frame.att.x.inner n| * b1.span.x + |b1.frame.att.y.inner n| * b1.span.y + |b1.frame.att.z.inner n| * b1.span.z) +
      1/2 * (|b2.frame.att.x.inner n| * b2.span.x + |b2.frame.att.y.inner n| * b2.span.y + |b2.frame.att.z.inner n| * b2.span.z)) :
    b1.colAlong i b2 l := by
  obtain ⟨h1, h2, h3, h4, h5, h6⟩ := h.cols
  have xx : b1.frame.att.x.inner b1.frame.att.x = 1 := by simp only [zeo]; linarith
  have yy : b1.frame.att.y.inner b1.frame.att.y = 1 := by simp only [zeo]; linarith
  have zz : b1.frame.att.z.inner b1.frame.att.z = 1 := by simp only [zeo]; linarith
  have xy : b1.frame.att.x.inner b1.frame.att.y = 0 := by simp only [zeo]; linarith
  have yx : b1.frame.att.y.inner b1.frame.att.x = 0 := by simp only [zeo]; linarith
  have yz : b1.frame.att.y.inner b1.frame.att.z = 0 := by simp only [zeo]; linarith
  have zy : b1.frame.att.z.inner b1.frame.att.y = 0 := by simp only [zeo]; linarith
  have zx : b1.frame.att.z.inner b1.frame.att.x = 0 := by simp only [zeo]; linarith
  have xz : b1.frame.att.x.inner b1.frame.att.z = 0 := by simp only [zeo]; linarith
  fin_cases i
  · have := hp b1.frame.att.x (by rw [xx]; norm_num)
    rw [xx, yx, zx, abs_one, abs_zero] at this
    simp only [Box3.colAlong, Mat3.v, Vec3.e, Fin.isValue, Fin.mk_zero, Fin.zero_eta]; linarith
  · have := hp b1.frame.att.y (by rw [yy]; norm_num)
    rw [xy, yy, zy, abs_one, abs_zero] at this
    simp only [Box3.colAlong, Mat3.v, Vec3.e, Fin.isValue, Fin.mk_one]; linarith
  · have := hp b1.frame.att.z (by rw [zz]; norm_num)
    rw [xz, yz, zz, abs_one, abs_zero] at this
    simp only [Box3.colAlong, Mat3.v, Vec3.e, Fin.isValue, Fin.reduceFinMk]; linarith

private theorem spans (m : Mat3 ℝ) (h : m.IsRot) (p : Vec3 ℝ) (hp : p.sqrNorm ≠ 0) :
    m.x.inner p ≠ 0 ∨ m.y.inner p ≠ 0 ∨ m.z.inner p ≠ 0 := by
  by_contra hc
  push Not at hc
  obtain ⟨a, b, c⟩ := hc
  obtain ⟨h1, h2, h3, h4, h5, h6⟩ := h.rows
  apply hp
  simp only [zeo] at a b c ⊢
  grind

private theorem perp (τ : ℝ) (hτ : 0 ≤ τ) (b1 b2 : Box3 ℝ) (h : b1.frame.att.IsRot) (i j : Fin 3) {l : Vec3 ℝ}
    (hp : ∀ n : Vec3 ℝ, b1.frame.att.x.inner n ≠ 0 ∨ b1.frame.att.y.inner n ≠ 0 ∨ b1.frame.att.z.inner n ≠ 0 →
      |l.inner n| <
      1/2 * (|b1.frame.att.x.inner n| * b1.span.x + |b1.frame.att.y.inner n| * b1.span.y + |b1.frame.att.z.inner n| * b1.span.z) +
      1/2 * (|b2.frame.att.x.inner n| * b2.span.x + |b2.frame.att.y.inner n| * b2.span.y + |b2.frame.att.z.inner n| * b2.span.z)) :
    b1.colPerp τ i b2 j l := by
  unfold Box3.colPerp
  intro p0
  split_ifs with h0
  · intro p d
    have hpos := Vec3.norm_pos_of_not_isTol hτ h0
    have hpe : p = p0.mul (1 / p0.norm) := by
      change (p0.normalize τ p0).2 = _
      rw [Vec3.normalize, if_neg h0]; rfl
    have hsq : p.sqrNorm ≠ 0 := by
      have : p.sqrNorm = 1 := by
        rw [hpe]
        have e : (p0.mul (1 / p0.norm)).sqrNorm = p0.sqrNorm / p0.norm ^ 2 := by
          simp only [zeo]; field_simp
        rw [e, ← Vec3.norm_sq]; field_simp
      rw [this]; norm_num
    have key := hp p (spans _ h p hsq)
    have o1 : (b1.frame.att.v i).inner p = 0 := by
      rw [hpe]; change (b1.frame.att.v i).inner (((b1.frame.att.v i).outer (b2.frame.att.v j)).mul (1 / p0.norm)) = 0
      simp only [zeo]; ring
    have o2 : (b2.frame.att.v j).inner p = 0 := by
      rw [hpe]; change (b2.frame.att.v j).inner (((b1.frame.att.v i).outer (b2.frame.att.v j)).mul (1 / p0.norm)) = 0
      simp only [zeo]; ring
    refine lt_of_lt_of_eq key ?_
    change _ = 1/2 * (|(b1.frame.att.v (i + 1)).inner p| * b1.span.e (i + 1)
      + |(b1.frame.att.v (i + 2)).inner p| * b1.span.e (i + 2)
      + |(b2.frame.att.v (j + 1)).inner p| * b2.span.e (j + 1)
      + |(b2.frame.att.v (j + 2)).inner p| * b2.span.e (j + 2))
    clear_value p
    have t1 : |b1.frame.att.x.inner p| * b1.span.x + |b1.frame.att.y.inner p| * b1.span.y + |b1.frame.att.z.inner p| * b1.span.z
        = |(b1.frame.att.v (i + 1)).inner p| * b1.span.e (i + 1) + |(b1.frame.att.v (i + 2)).inner p| * b1.span.e (i + 2) := by
      clear hpe o2 p0 h0 hpos d
      revert o1; fin_cases i <;> intro o1 <;> simp [Mat3.v, Vec3.e] at o1 ⊢ <;> rw [o1] <;> simp <;> ring
    have t2 : |b2.frame.att.x.inner p| * b2.span.x + |b2.frame.att.y.inner p| * b2.span.y + |b2.frame.att.z.inner p| * b2.span.z
        = |(b2.frame.att.v (j + 1)).inner p| * b2.span.e (j + 1) + |(b2.frame.att.v (j + 2)).inner p| * b2.span.e (j + 2) := by
      clear hpe o1 p0 h0 hpos d t1
      revert o2; fin_cases j <;> intro o2 <;> simp [Mat3.v, Vec3.e] at o2 ⊢ <;> rw [o2] <;> simp <;> ring
    rw [t1, t2]; ring

/-- **Main claim**: two oriented boxes that share an interior point are reported as colliding, for
every non-negative tolerance used by the library. -/
theorem C27_never_misses (τ : ℝ) (hτ : 0 ≤ τ) (b1 b2 : Box3 ℝ) (h1 : b1.frame.att.IsRot) (h2 : b2.frame.att.IsRot)
    (h : (Spec.oboxOpen b1 0 ∩ Spec.oboxOpen b2 0).Nonempty) : b1.colChk τ b2 := by
  obtain ⟨p, hp1, hp2⟩ := h
  have k1 := fun n => proj_lt b1 b2 n hp1 hp2
  have k2 : ∀ n : Vec3 ℝ, b2.frame.att.x.inner n ≠ 0 ∨ b2.frame.att.y.inner n ≠ 0 ∨ b2.frame.att.z.inner n ≠ 0 →
      |(b1.frame.pos.sub b2.frame.pos).inner n| <
      1/2 * (|b2.frame.att.x.inner n| * b2.span.x + |b2.frame.att.y.inner n| * b2.span.y + |b2.frame.att.z.inner n| * b2.span.z) +
      1/2 * (|b1.frame.att.x.inner n| * b1.span.x + |b1.frame.att.y.inner n| * b1.span.y + |b1.frame.att.z.inner n| * b1.span.z) := by
    intro n hn
    have := proj_lt b2 b1 n hp2 hp1 hn
    have e : (b1.frame.pos.sub b2.frame.pos).inner n = -(b2.frame.pos.sub b1.frame.pos).inner n := by
      simp only [zeo]; ring
    rw [e, abs_neg]; exact this
  simp only [Box3.colChk, not_or, not_not]
  exact ⟨along _ _ h1 _ k1, along _ _ h1 _ k1, along _ _ h1 _ k1, along _ _ h2 _ k2, along _ _ h2 _ k2, along _ _ h2 _ k2,
    perp τ hτ _ _ h1 _ _ k1, perp τ hτ _ _ h1 _ _ k1, perp τ hτ _ _ h1 _ _ k1, perp τ hτ _ _ h1 _ _ k1,
    perp τ hτ _ _ h1 _ _ k1, perp τ hτ _ _ h1 _ _ k1, perp τ hτ _ _ h1 _ _ k1, perp τ hτ _ _ h1 _ _ k1, perp τ hτ _ _ h1 _ _ k1⟩

/-- Contrapositive, in terms of the sets: when the test says "no collision" the open boxes are
disjoint. -/
theorem C27_no_collision_disjoint (τ : ℝ) (hτ : 0 ≤ τ) (b1 b2 : Box3 ℝ) (h1 : b1.frame.att.IsRot)
    (h2 : b2.frame.att.IsRot) (h : ¬ b1.colChk τ b2) : Disjoint (Spec.oboxOpen b1 0) (Spec.oboxOpen b2 0) := by
  rw [Set.disjoint_iff_inter_eq_empty, ← Set.not_nonempty_iff_eq_empty]
  exact fun hn => h (C27_never_misses τ hτ b1 b2 h1 h2 hn)

/-- For boxes whose axes are aligned with the world the oriented test is exact: it agrees with the
axis-aligned test on the same boxes, hence (C26) with the interiors meeting. -/
theorem C27_aligned_exact (τ : ℝ) (hτ : 0 ≤ τ) (a1 a2 : AABox3 ℝ)
    (h1 : a1.min.x < a1.max.x ∧ a1.min.y < a1.max.y ∧ a1.min.z < a1.max.z)
    (h2 : a2.min.x < a2.max.x ∧ a2.min.y < a2.max.y ∧ a2.min.z < a2.max.z) :
    (a1.toBox.colChk τ a2.toBox ↔ a1.colChk a2) ∧
    (a1.toBox.colChk τ a2.toBox ↔ (Spec.aaboxInterior a1 ∩ Spec.aaboxInterior a2).Nonempty) := by
  have fwd : a1.toBox.colChk τ a2.toBox → a1.colChk a2 := by
    intro h
    simp only [Box3.colChk, not_or, not_not] at h
    obtain ⟨h1, h2, h3, -⟩ := h
    simp only [Box3.colAlong, AABox3.toBox, zeo, Mat3.v, Vec3.e, abs_lt, mul_one, mul_zero, zero_mul, one_mul,
      add_zero, zero_add, abs_one, abs_zero] at h1 h2 h3
    refine ⟨?_, ?_, ?_, ?_, ?_, ?_⟩ <;> linarith [h1.1, h1.2, h2.1, h2.2, h3.1, h3.2]
  have inn : ∀ (a : AABox3 ℝ) p, p ∈ Spec.aaboxInterior a → p ∈ Spec.oboxOpen a.toBox 0 := by
    rintro a p ⟨q1, q2, q3⟩
    refine ⟨p.x - 1/2 * (a.max.x + a.min.x), p.y - 1/2 * (a.max.y + a.min.y), p.z - 1/2 * (a.max.z + a.min.z), ?_, ?_, ?_, ?_⟩
    · simp only [AABox3.toBox, zeo, abs_lt]; constructor <;> linarith [q1.1, q1.2]
    · simp only [AABox3.toBox, zeo, abs_lt]; constructor <;> linarith [q2.1, q2.2]
    · simp only [AABox3.toBox, zeo, abs_lt]; constructor <;> linarith [q3.1, q3.2]
    · simp only [Spec.oboxPoint, AABox3.toBox]; ext <;> simp only [zeo] <;> ring
  have bwd : (Spec.aaboxInterior a1 ∩ Spec.aaboxInterior a2).Nonempty → a1.toBox.colChk τ a2.toBox := by
    rintro ⟨p, hp1, hp2⟩
    exact C27_never_misses τ hτ _ _ Mat3.IsRot.ident Mat3.IsRot.ident ⟨p, inn _ _ hp1, inn _ _ hp2⟩
  have eq := C26_colChk a1 a2 h1 h2
  exact ⟨⟨fwd, fun h => bwd (eq.1 h)⟩, ⟨fun h => eq.1 (fwd h), bwd⟩⟩

/-- Satisfiability: a cube and a cube turned by the 3-4-5 rotation share their common center. -/
example : ∃ b1 b2 : Box3 ℝ, b1.frame.att.IsRot ∧ b2.frame.att.IsRot ∧ b1 ≠ b2 ∧
    (Spec.oboxOpen b1 0 ∩ Spec.oboxOpen b2 0).Nonempty := by
  refine ⟨⟨⟨1, 1, 1⟩, ⟨⟨0, 0, 0⟩, .ident⟩⟩, ⟨⟨1, 1, 1⟩, ⟨⟨0, 0, 0⟩, ⟨⟨3/5, 4/5, 0⟩, ⟨-4/5, 3/5, 0⟩, ⟨0, 0, 1⟩⟩⟩⟩,
    Mat3.IsRot.ident, ?_, ?_, ⟨⟨0, 0, 0⟩, ?_, ?_⟩⟩
  · rw [Mat3.isRot_iff]; constructor <;> norm_num [zeo]
  · intro e; have := congrArg (fun b : Box3 ℝ => b.frame.att.x.y) e; norm_num [zeo] at this
  · exact ⟨0, 0, 0, by norm_num, by norm_num, by norm_num, by simp [Spec.oboxPoint]⟩
  · exact ⟨0, 0, 0, by norm_num, by norm_num, by norm_num, by simp [Spec.oboxPoint]⟩

end Zeo
