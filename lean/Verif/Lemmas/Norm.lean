import Verif.Lemmas.Unfold

/-! Positivity and squares of vector norms. -/

namespace Zeo

theorem Vec3.norm_pos_of_not_isTol {τ : ℝ} (hτ : 0 ≤ τ) {v : Vec3 ℝ} (h : ¬ v.isTol τ) :
    0 < v.norm := by
  rw [Vec3.norm, Real.sqrt_pos]
  simp only [Vec3.isTol, zIsTol, not_and_or, not_le] at h
  simp only [zeo]
  rcases h with h | h | h
  all_goals
    have := mul_self_pos.2 (abs_pos.1 (lt_of_le_of_lt hτ h))
    nlinarith [mul_self_nonneg v.x, mul_self_nonneg v.y, mul_self_nonneg v.z]

theorem Vec2.norm_pos_of_not_isTol {τ : ℝ} (hτ : 0 ≤ τ) {v : Vec2 ℝ} (h : ¬ v.isTol τ) :
    0 < v.norm := by
  rw [Vec2.norm, Real.sqrt_pos]
  simp only [Vec2.isTol, zIsTol, not_and_or, not_le] at h
  simp only [zeo]
  rcases h with h | h
  all_goals
    have := mul_self_pos.2 (abs_pos.1 (lt_of_le_of_lt hτ h))
    nlinarith [mul_self_nonneg v.x, mul_self_nonneg v.y]

theorem Vec3.sqrNorm_nonneg {K : Type*} [Field K] [LinearOrder K] [IsStrictOrderedRing K] (v : Vec3 K) :
    0 ≤ v.sqrNorm := by
  simp only [zeo]; nlinarith [mul_self_nonneg v.x, mul_self_nonneg v.y, mul_self_nonneg v.z]

theorem Vec2.sqrNorm_nonneg {K : Type*} [Field K] [LinearOrder K] [IsStrictOrderedRing K] (v : Vec2 K) :
    0 ≤ v.sqrNorm := by
  simp only [zeo]; nlinarith [mul_self_nonneg v.x, mul_self_nonneg v.y]

theorem Vec3.norm_sq (v : Vec3 ℝ) : v.norm ^ 2 = v.sqrNorm := Real.sq_sqrt v.sqrNorm_nonneg
theorem Vec2.norm_sq (v : Vec2 ℝ) : v.norm ^ 2 = v.sqrNorm := Real.sq_sqrt v.sqrNorm_nonneg
theorem Vec3.norm_nonneg (v : Vec3 ℝ) : 0 ≤ v.norm := Real.sqrt_nonneg _
theorem Vec2.norm_nonneg (v : Vec2 ℝ) : 0 ≤ v.norm := Real.sqrt_nonneg _

end Zeo
