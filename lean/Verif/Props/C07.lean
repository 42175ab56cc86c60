import Verif.Spec.Linear
import Verif.Props.C06
import Mathlib.Tactic.NormNum

/-! # C07: 2x2 inverse -/

namespace Zeo
open Matrix
variable {K : Type*} [Field K] [LinearOrder K] [IsStrictOrderedRing K]

/-- NULL exactly when the determinant is tiny, for all three functions. -/
theorem C07_rejects (τ : K) (m b : Mat2 K) (v : Vec2 K) :
    (m.inv τ = none ↔ |m.toMatrix.det| ≤ τ) ∧ (m.mulInvVec τ v = none ↔ |m.toMatrix.det| ≤ τ) ∧
    (m.mulInvMat τ b = none ↔ |m.toMatrix.det| ≤ τ) := by
  have hd : m.toMatrix.det = m.det := by rw [det_fin_two]; simp [Mat2.toMatrix, zeo]
  rw [hd]
  refine ⟨?_, ?_, ?_⟩
  · simp [Mat2.inv, zIsTol]
  · simp [Mat2.mulInvVec, zIsTol]
  · simp [Mat2.mulInvMat, zIsTol]

/-- In particular a singular matrix is always rejected (tolerance non-negative). -/
theorem C07_rejects_singular (τ : K) (hτ : 0 ≤ τ) (m b : Mat2 K) (v : Vec2 K)
    (h : m.toMatrix.det = 0) :
    m.inv τ = none ∧ m.mulInvVec τ v = none ∧ m.mulInvMat τ b = none := by
  have := C07_rejects τ m b v
  rw [h] at this; simp only [abs_zero] at this
  exact ⟨this.1.2 hτ, this.2.1.2 hτ, this.2.2.2 hτ⟩

/-- The stored inverse is two-sided. -/
theorem C07_inv (τ : K) (hτ : 0 ≤ τ) (m im : Mat2 K) (h : m.inv τ = some im) :
    m.toMatrix * im.toMatrix = 1 ∧ im.toMatrix * m.toMatrix = 1 := by
  unfold Mat2.inv at h
  split_ifs at h with hd
  simp only [Option.some.injEq] at h
  have h0 : m.det ≠ 0 := fun h0 => hd (by simp [zIsTol, h0, hτ])
  subst h
  have hl := C06_mat2_linear m.adj m.adj (1 / m.det) .zero .zero
  have hl' := C06_mat2_linear m m (1 / m.det) .zero .zero
  rw [hl.2.2.2.1, hl'.2.2.2.2.2.2.2.2.2.1, Matrix.mul_smul, Matrix.smul_mul, mul_adjugate,
    adjugate_mul, ← hl'.2.2.2.2.2.2.2.2.1, smul_smul, one_div, inv_mul_cancel₀ h0, one_smul]
  exact ⟨rfl, rfl⟩

/-- The stored vector solves `m x = v`. -/
theorem C07_solve_vec (τ : K) (hτ : 0 ≤ τ) (m : Mat2 K) (v x : Vec2 K) (h : m.mulInvVec τ v = some x) :
    m.toMatrix *ᵥ x.toFin = v.toFin := by
  unfold Mat2.mulInvVec at h
  split_ifs at h with hd
  simp only [Option.some.injEq] at h
  have h0 : m.det ≠ 0 := fun h0 => hd (by simp [zIsTol, h0, hτ])
  subst h
  have hm : ((m.mulAdjVec v).mul (1 / m.det)).toFin = (1 / m.det) • (m.mulAdjVec v).toFin := by
    ext i; fin_cases i <;> simp [Vec2.toFin, zeo]
  have hl' := C06_mat2_linear m m (1 / m.det) v v
  rw [hm, hl'.2.2.2.2.2.2.2.2.2.2, mulVec_smul, mulVec_mulVec, mul_adjugate,
    ← hl'.2.2.2.2.2.2.2.2.1, smul_mulVec, one_mulVec, smul_smul, one_div, inv_mul_cancel₀ h0, one_smul]

/-- The stored matrix solves `a X = b`. -/
theorem C07_solve_mat (τ : K) (hτ : 0 ≤ τ) (a b x : Mat2 K) (h : a.mulInvMat τ b = some x) :
    a.toMatrix * x.toMatrix = b.toMatrix := by
  have hx : a.mulInvVec τ b.x = some x.x ∧ a.mulInvVec τ b.y = some x.y := by
    unfold Mat2.mulInvMat at h
    split_ifs at h with hd
    simp only [Option.some.injEq] at h
    subst h
    simp only [Mat2.mulInvVec, if_neg hd]
    constructor <;> rfl
  have h1 := C07_solve_vec τ hτ a b.x x.x hx.1
  have h2 := C07_solve_vec τ hτ a b.y x.y hx.2
  have e1 := congrFun h1; have e2 := congrFun h2
  have e10 := e1 0; have e11 := e1 1; have e20 := e2 0; have e21 := e2 1
  simp [Mat2.toMatrix, Vec2.toFin, Matrix.mulVec, dotProduct, Fin.sum_univ_two] at e10 e11 e20 e21
  ext i j; fin_cases i <;> fin_cases j <;>
    simp [Mat2.toMatrix, Matrix.mul_apply, Fin.sum_univ_two, e10, e11, e20, e21]

/-- Regular and singular instances. -/
example : (Mat2.create 1 2 3 (5:ℚ)).inv (1/1000) = some (Mat2.create (-5) 2 3 (-1)) ∧
    (Mat2.create 1 2 2 (4:ℚ)).inv (1/1000) = none := by
  constructor <;> norm_num [Mat2.inv, zIsTol, zeo]

end Zeo
