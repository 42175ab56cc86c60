import Verif.Spec.Linear
import Verif.Lemmas.Unfold

/-! # C14: 6D vectors and matrices are 6-dimensional linear algebra -/

namespace Zeo
open Matrix
variable {K : Type*} [Field K]

/-- Matrix-vector products. -/
theorem C14_mulVec (m : Mat6 K) (v : Vec6 K) :
    (m.mulVec v).toFin = m.toMatrix *ᵥ v.toFin ∧ (m.mulTVec v).toFin = m.toMatrixᵀ *ᵥ v.toFin := by
  constructor
  all_goals
    ext i; fin_cases i <;>
      simp [Mat6.toMatrix, Vec6.toFin, zeo, Matrix.mulVec, dotProduct, Fin.sum_univ_succ] <;> ring

set_option maxHeartbeats 1000000 in
/-- Matrix-matrix product. -/
theorem C14_mulMat (a b : Mat6 K) : (a.mulMat b).toMatrix = a.toMatrix * b.toMatrix := by
  ext i j; fin_cases i <;> fin_cases j <;>
    simp [Mat6.toMatrix, zeo, Matrix.mul_apply, Fin.sum_univ_succ] <;> ring

set_option maxHeartbeats 1000000 in
/-- Product with a transposed left factor. -/
theorem C14_mulTMat (a b : Mat6 K) : (a.mulTMat b).toMatrix = a.toMatrixᵀ * b.toMatrix := by
  ext i j; fin_cases i <;> fin_cases j <;>
    simp [Mat6.toMatrix, zeo, Matrix.mul_apply, Fin.sum_univ_succ] <;> ring

set_option maxHeartbeats 1000000 in
/-- Product with a transposed right factor. -/
theorem C14_mulMatT (a b : Mat6 K) : (a.mulMatT b).toMatrix = a.toMatrix * b.toMatrixᵀ := by
  ext i j; fin_cases i <;> fin_cases j <;>
    simp [Mat6.toMatrix, zeo, Matrix.mul_apply, Fin.sum_univ_succ] <;> ring

/-- Transpose, linear operations and dyads. -/
theorem C14_linear (a b : Mat6 K) (k : K) (u v : Vec6 K) :
    a.t.toMatrix = a.toMatrixᵀ ∧ (a.add b).toMatrix = a.toMatrix + b.toMatrix ∧
    (a.sub b).toMatrix = a.toMatrix - b.toMatrix ∧ (a.mul k).toMatrix = k • a.toMatrix ∧
    (Mat6.dyad u v).toMatrix = vecMulVec u.toFin v.toFin ∧ (Mat6.zero : Mat6 K).toMatrix = 0 := by
  refine ⟨?_, ?_, ?_, ?_, ?_, ?_⟩
  all_goals
    ext i j; fin_cases i <;> fin_cases j <;>
      simp [Mat6.toMatrix, Vec6.toFin, zeo, vecMulVec_apply, mul_comm]

/-- Rows and columns: valid indices give the row / column, all others NULL. -/
theorem C14_row_col (m : Mat6 K) (i : ℤ) :
    (∀ j : Fin 6, i = (j : ℕ) → (m.row i).map Vec6.toFin = some (m.toMatrix.row j) ∧
        (m.col i).map Vec6.toFin = some (m.toMatrix.col j)) ∧
    ((i < 0 ∨ 5 < i) → m.row i = none ∧ m.col i = none) := by
  constructor
  · intro j hj
    subst hj
    fin_cases j
    all_goals
      constructor
      all_goals
        simp only [Mat6.row, Mat6.col]
        norm_num
        ext k; fin_cases k <;> rfl
  · intro h
    have : i < 0 ∨ i > 5 := h
    simp [Mat6.row, Mat6.col, this]

/-- 6D vector operations. -/
theorem C14_vec (a b : Vec6 K) (k : K) :
    (a.add b).toFin = a.toFin + b.toFin ∧ (a.sub b).toFin = a.toFin - b.toFin ∧
    a.rev.toFin = -a.toFin ∧ (a.mul k).toFin = k • a.toFin ∧
    (a.cat k b).toFin = a.toFin + k • b.toFin ∧ a.inner b = a.toFin ⬝ᵥ b.toFin := by
  refine ⟨?_, ?_, ?_, ?_, ?_, ?_⟩
  all_goals first
    | (ext i; fin_cases i <;> simp [Vec6.toFin, zeo]; done)
    | (simp [Vec6.toFin, zeo, dotProduct, Fin.sum_univ_succ]; ring)

/-- `zMat6DCreate` takes the blocks row by row, and `zMat6DPutMat3D(m,row,col,b)` writes block
(row, col): after it, the 3x3 block at that place is `b` and the others are unchanged. -/
theorem C14_create_put (m1 m2 m3 m4 : Mat3 K) (m : Mat6 K) (b : Mat3 K) :
    Mat6.create m1 m2 m3 m4 = (((m.putMat3 0 0 m1).putMat3 0 1 m2).putMat3 1 0 m3).putMat3 1 1 m4 ∧
    (∀ i j : Fin 3, (m.putMat3 0 1 b).toMatrix (i.castAdd 3) (j.natAdd 3) = b.toMatrix i j) ∧
    (∀ i j : Fin 3, (m.putMat3 1 0 b).toMatrix (i.natAdd 3) (j.castAdd 3) = b.toMatrix i j) ∧
    (∀ i j : Fin 3, (m.putMat3 0 0 b).toMatrix (i.castAdd 3) (j.castAdd 3) = b.toMatrix i j) ∧
    (∀ i j : Fin 3, (m.putMat3 1 1 b).toMatrix (i.natAdd 3) (j.natAdd 3) = b.toMatrix i j) := by
  refine ⟨rfl, ?_, ?_, ?_, ?_⟩ <;> intro i j <;> fin_cases i <;> fin_cases j <;> rfl

/-- The C++ constructor and `zMat6DCreate` disagree about the order of the off-diagonal blocks. -/
theorem C14_ctor_ne_create : ∃ a b c d : Mat3 ℚ, Mat6.ctor a b c d ≠ Mat6.create a b c d := by
  refine ⟨.ident, .ident, .zero, .ident, fun h => ?_⟩
  have := congrArg (fun m => m.la.x.x) h
  norm_num [zeo] at this

/-- Non-trivial instance: the four blocks are all distinguishable. -/
example : (Mat6.create (.zero) (.ident) (Mat3.ident.mul 2) (Mat3.ident.mul (3:ℚ))).mulVec
    ⟨⟨1, 0, 0⟩, ⟨0, 1, 0⟩⟩ = ⟨⟨0, 1, 0⟩, ⟨2, 3, 0⟩⟩ := by
  ext <;> norm_num [zeo]

end Zeo
