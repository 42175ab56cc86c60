import Verif.Spec.Linear
import Verif.Lemmas.Norm
import Mathlib.Tactic.NormNum

/-! # C04: normalization -/

namespace Zeo
open Matrix

/-- Success in 3D: some component exceeds the tolerance; the length is returned and the
stored vector is a unit vector parallel to the input, pointing the same way. -/
theorem C04_vec3_success (τ : ℝ) (hτ : 0 ≤ τ) (v old : Vec3 ℝ)
    (h : τ < |v.x| ∨ τ < |v.y| ∨ τ < |v.z|) :
    (v.normalize τ old).1 = Real.sqrt (v.toFin ⬝ᵥ v.toFin) ∧ 0 < (v.normalize τ old).1 ∧
    (v.normalize τ old).1 • (v.normalize τ old).2.toFin = v.toFin ∧
    (v.normalize τ old).2.toFin ⬝ᵥ (v.normalize τ old).2.toFin = 1 := by
  have h' : ¬ v.isTol τ := by
    simp only [Vec3.isTol, zIsTol, not_and_or, not_le]; exact h
  have hp := Vec3.norm_pos_of_not_isTol hτ h'
  have hn : v.norm = Real.sqrt (v.toFin ⬝ᵥ v.toFin) := by
    simp [Vec3.norm, Vec3.toFin, zeo]; ring_nf
  have hs : v.norm ^ 2 = v.x^2 + v.y^2 + v.z^2 := by
    rw [Vec3.norm, Real.sq_sqrt] <;> simp only [zeo]
    · ring
    · nlinarith [mul_self_nonneg v.x, mul_self_nonneg v.y, mul_self_nonneg v.z]
  rw [Vec3.normalize, if_neg h', Vec3.normalizeNC]
  refine ⟨hn, hp, ?_, ?_⟩
  · ext i; fin_cases i <;> simp [Vec3.toFin, zeo] <;> field_simp
  · simp [Vec3.toFin, zeo]; field_simp; linarith

/-- Degeneracy in 3D: 0 is returned and the destination is not written. -/
theorem C04_vec3_degenerate (τ : ℝ) (v old : Vec3 ℝ) (h : |v.x| ≤ τ ∧ |v.y| ≤ τ ∧ |v.z| ≤ τ) :
    v.normalize τ old = (0, old) := by
  rw [Vec3.normalize, if_pos (by simpa [Vec3.isTol, zIsTol] using h)]

/-- Success in 2D. -/
theorem C04_vec2_success (τ : ℝ) (hτ : 0 ≤ τ) (v old : Vec2 ℝ) (h : τ < |v.x| ∨ τ < |v.y|) :
    (v.normalize τ old).1 = Real.sqrt (v.toFin ⬝ᵥ v.toFin) ∧ 0 < (v.normalize τ old).1 ∧
    (v.normalize τ old).1 • (v.normalize τ old).2.toFin = v.toFin ∧
    (v.normalize τ old).2.toFin ⬝ᵥ (v.normalize τ old).2.toFin = 1 := by
  have h' : ¬ v.isTol τ := by
    simp only [Vec2.isTol, zIsTol, not_and_or, not_le]; exact h
  have hp := Vec2.norm_pos_of_not_isTol hτ h'
  have hn : v.norm = Real.sqrt (v.toFin ⬝ᵥ v.toFin) := by
    simp [Vec2.norm, Vec2.toFin, zeo]
  have hs : v.norm ^ 2 = v.x^2 + v.y^2 := by
    rw [Vec2.norm, Real.sq_sqrt] <;> simp only [zeo]
    · ring
    · nlinarith [mul_self_nonneg v.x, mul_self_nonneg v.y]
  rw [Vec2.normalize, if_neg h']
  refine ⟨hn, hp, ?_, ?_⟩
  · ext i; fin_cases i <;> simp [Vec2.toFin, zeo] <;> field_simp
  · simp [Vec2.toFin, zeo]; field_simp; linarith

/-- Degeneracy in 2D: -1 is returned and the destination is not written. -/
theorem C04_vec2_degenerate (τ : ℝ) (v old : Vec2 ℝ) (h : |v.x| ≤ τ ∧ |v.y| ≤ τ) :
    v.normalize τ old = (-1, old) := by
  rw [Vec2.normalize, if_pos (by simpa [Vec2.isTol, zIsTol] using h)]

/-- The success hypothesis holds e.g. for (3,4,0) and tolerance 1e-12, the degenerate one for
a vector shorter than the tolerance. -/
example : (1e-12 : ℝ) < |(3 : ℝ)| ∧ (|(1e-13 : ℝ)| ≤ 1e-12) := by norm_num [abs_of_pos]

end Zeo
