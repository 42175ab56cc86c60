import Verif.Spec.Linear
import Verif.Lemmas.Unfold
import Mathlib.Tactic.NormNum

/-! # C03: division by a scalar fails exactly on zero and leaves the destination untouched

Each model function returns (pointer is non-NULL, contents of the destination).  The
in-place (DRC) form is the case `old = v`. -/

namespace Zeo
variable {K : Type*} [Field K] [DecidableEq K]

theorem C03_vec2 (v old : Vec2 K) (k : K) :
    ((v.div k old).1 = false ↔ k = 0) ∧ (k = 0 → (v.div k old).2 = old) ∧
    (k ≠ 0 → (v.div k old).2.toFin = k⁻¹ • v.toFin) := by
  by_cases h : k = 0 <;> simp [Vec2.div, h, Vec2.toFin, zeo]

theorem C03_vec3 (v old : Vec3 K) (k : K) :
    ((v.div k old).1 = false ↔ k = 0) ∧ (k = 0 → (v.div k old).2 = old) ∧
    (k ≠ 0 → (v.div k old).2.toFin = k⁻¹ • v.toFin) := by
  by_cases h : k = 0 <;> simp [Vec3.div, h, Vec3.toFin, zeo]

theorem C03_vec6 (v old : Vec6 K) (k : K) :
    ((v.div k old).1 = false ↔ k = 0) ∧ (k = 0 → (v.div k old).2 = old) ∧
    (k ≠ 0 → (v.div k old).2.toFin = k⁻¹ • v.toFin) := by
  by_cases h : k = 0 <;> simp [Vec6.div, h, Vec6.toFin, zeo]

theorem C03_coord2 (c old : Coord2 K) (k : K) :
    ((c.div k old).1 = false ↔ k = 0) ∧ (k = 0 → (c.div k old).2 = old) ∧
    (k ≠ 0 → (c.div k old).2.pos.toFin = k⁻¹ • c.pos.toFin ∧ (c.div k old).2.angle = k⁻¹ * c.angle) := by
  by_cases h : k = 0 <;> simp [Coord2.div, h, Vec2.toFin, zeo]

theorem C03_mat2 (m old : Mat2 K) (k : K) :
    ((m.div k old).1 = false ↔ k = 0) ∧ (k = 0 → (m.div k old).2 = old) ∧
    (k ≠ 0 → (m.div k old).2.toMatrix = k⁻¹ • m.toMatrix) := by
  by_cases h : k = 0 <;> simp [Mat2.div, h, Mat2.toMatrix, zeo]

theorem C03_mat3 (m old : Mat3 K) (k : K) :
    ((m.div k old).1 = false ↔ k = 0) ∧ (k = 0 → (m.div k old).2 = old) ∧
    (k ≠ 0 → (m.div k old).2.toMatrix = k⁻¹ • m.toMatrix) := by
  by_cases h : k = 0 <;> simp [Mat3.div, h, Mat3.toMatrix, zeo]

theorem C03_mat6 (m old : Mat6 K) (k : K) :
    ((m.div k old).1 = false ↔ k = 0) ∧ (k = 0 → (m.div k old).2 = old) ∧
    (k ≠ 0 → (m.div k old).2.toMatrix = k⁻¹ • m.toMatrix) := by
  by_cases h : k = 0 <;> simp [Mat6.div, h, Mat6.toMatrix, zeo]

/-- Numerical differentiation: the quotient of the difference, or failure exactly on `dt = 0`
(the difference has then already been stored). -/
theorem C03_dif (v w : Vec3 K) (dt : K) :
    ((v.dif w dt).1 = false ↔ dt = 0) ∧ (dt = 0 → (v.dif w dt).2 = w.sub v) ∧
    (dt ≠ 0 → (v.dif w dt).2.toFin = dt⁻¹ • (w.toFin - v.toFin)) := by
  by_cases h : dt = 0 <;> simp [Vec3.dif, Vec3.div, h, Vec3.toFin, zeo]

example : ((⟨2, 4, 6⟩ : Vec3 ℚ).div 2 .zero).2 = ⟨1, 2, 3⟩ ∧
    (⟨2, 4, 6⟩ : Vec3 ℚ).div 0 ⟨7, 8, 9⟩ = (false, ⟨7, 8, 9⟩) := by
  constructor <;> norm_num [Vec3.div, zeo]

end Zeo
