import Verif.Spec.Linear
import Verif.Lemmas.Unfold
import Mathlib.Tactic.NormNum

/-! # C06: matrix products, transpose, determinant and adjugate

Every operation of the library is identified with Mathlib's operation on matrices, so that
associativity, distributivity, `(AB)ᵀ = BᵀAᵀ`, `det (AB) = det A det B` and
`A adj A = det A • 1` are inherited; the last laws are also stated on the library's own
operations. -/

namespace Zeo
open Matrix
variable {K : Type*} [Field K]

omit [Field K] in
theorem Mat3.toMatrix_injective : Function.Injective (Mat3.toMatrix (K := K)) := by
  intro a b h
  have e : ∀ i j, a.toMatrix i j = b.toMatrix i j := fun i j => by rw [h]
  ext
  · simpa [Mat3.toMatrix] using e 0 0
  · simpa [Mat3.toMatrix] using e 1 0
  · simpa [Mat3.toMatrix] using e 2 0
  · simpa [Mat3.toMatrix] using e 0 1
  · simpa [Mat3.toMatrix] using e 1 1
  · simpa [Mat3.toMatrix] using e 2 1
  · simpa [Mat3.toMatrix] using e 0 2
  · simpa [Mat3.toMatrix] using e 1 2
  · simpa [Mat3.toMatrix] using e 2 2

/-- 3x3: products with matrices and vectors, and all the transposed variants. -/
theorem C06_mat3_products (a b : Mat3 K) (v : Vec3 K) :
    (a.mulMat b).toMatrix = a.toMatrix * b.toMatrix ∧
    (a.mulTMat b).toMatrix = a.toMatrixᵀ * b.toMatrix ∧
    (a.mulMatT b).toMatrix = a.toMatrix * b.toMatrixᵀ ∧
    (a.mulVec v).toFin = a.toMatrix *ᵥ v.toFin ∧
    (a.mulTVec v).toFin = a.toMatrixᵀ *ᵥ v.toFin := by
  refine ⟨?_, ?_, ?_, ?_, ?_⟩
  · ext i j; fin_cases i <;> fin_cases j <;>
      simp [Mat3.toMatrix, zeo, Matrix.mul_apply, Fin.sum_univ_three]
  · ext i j; fin_cases i <;> fin_cases j <;>
      simp [Mat3.toMatrix, zeo, Matrix.mul_apply, Fin.sum_univ_three]
  · ext i j; fin_cases i <;> fin_cases j <;>
      simp [Mat3.toMatrix, zeo, Matrix.mul_apply, Fin.sum_univ_three]
  · ext i; fin_cases i <;>
      simp [Mat3.toMatrix, Vec3.toFin, zeo, Matrix.mulVec, dotProduct, Fin.sum_univ_three]
  · ext i; fin_cases i <;>
      simp [Mat3.toMatrix, Vec3.toFin, zeo, Matrix.mulVec, dotProduct, Fin.sum_univ_three]

/-- 3x3: linear operations, transpose (both implementations), dyad and skew matrices. -/
theorem C06_mat3_linear (a b : Mat3 K) (k : K) (u v : Vec3 K) :
    (a.add b).toMatrix = a.toMatrix + b.toMatrix ∧ (a.sub b).toMatrix = a.toMatrix - b.toMatrix ∧
    a.rev.toMatrix = -a.toMatrix ∧ (a.mul k).toMatrix = k • a.toMatrix ∧
    (a.cat k b).toMatrix = a.toMatrix + k • b.toMatrix ∧
    a.t.toMatrix = a.toMatrixᵀ ∧ a.tDRC = a.t ∧
    (Mat3.dyad u v).toMatrix = vecMulVec u.toFin v.toFin ∧
    (Mat3.ident : Mat3 K).toMatrix = 1 ∧ (Mat3.zero : Mat3 K).toMatrix = 0 := by
  refine ⟨?_, ?_, ?_, ?_, ?_, ?_, ?_, ?_, ?_, ?_⟩
  all_goals first
    | (ext i j; fin_cases i <;> fin_cases j <;>
        simp [Mat3.toMatrix, Vec3.toFin, zeo, vecMulVec_apply] <;> ring; done)
    | (ext i j; fin_cases i <;> fin_cases j <;>
        simp [Mat3.toMatrix, Vec3.toFin, zeo, vecMulVec_apply, mul_comm])
    | rfl

/-- 3x3: the in-place updates by dyads and double cross products. -/
theorem C06_mat3_updates (m : Mat3 K) (k : K) (u v w : Vec3 K) :
    (m.addDyad u v).toMatrix = m.toMatrix + vecMulVec u.toFin v.toFin ∧
    (m.subDyad u v).toMatrix = m.toMatrix - vecMulVec u.toFin v.toFin ∧
    (Mat3.ofOuter u).toMatrix *ᵥ w.toFin = u.toFin ⨯₃ w.toFin ∧
    (Mat3.ofTriple u v).toMatrix *ᵥ w.toFin = u.toFin ⨯₃ (v.toFin ⨯₃ w.toFin) ∧
    (Mat3.ofDoubleOuter u).toMatrix *ᵥ w.toFin = u.toFin ⨯₃ (u.toFin ⨯₃ w.toFin) ∧
    (m.catDoubleOuter k u).toMatrix *ᵥ w.toFin =
      m.toMatrix *ᵥ w.toFin + k • (u.toFin ⨯₃ (u.toFin ⨯₃ w.toFin)) ∧
    (Mat3.outerMat u m).toMatrix *ᵥ w.toFin = u.toFin ⨯₃ (m.toMatrix *ᵥ w.toFin) := by
  refine ⟨?_, ?_, ?_, ?_, ?_, ?_, ?_⟩
  · ext i j; fin_cases i <;> fin_cases j <;>
      simp [Mat3.toMatrix, Vec3.toFin, zeo, vecMulVec_apply, mul_comm]
  · ext i j; fin_cases i <;> fin_cases j <;>
      simp [Mat3.toMatrix, Vec3.toFin, zeo, vecMulVec_apply, mul_comm, sub_eq_add_neg]
  all_goals
    ext i; fin_cases i <;>
      simp [Mat3.toMatrix, Vec3.toFin, zeo, Matrix.mulVec, dotProduct, Fin.sum_univ_three,
        cross_apply] <;> ring

/-- 3x3: determinant and adjugate, and multiplication by the adjugate. -/
theorem C06_mat3_det_adj (a b : Mat3 K) (v : Vec3 K) :
    a.det = a.toMatrix.det ∧ a.adj.toMatrix = a.toMatrix.adjugate ∧
    (a.mulAdjVec v).toFin = a.toMatrix.adjugate *ᵥ v.toFin ∧
    (a.mulAdjMat b).toMatrix = a.toMatrix.adjugate * b.toMatrix ∧
    (a.mulMat b).det = a.det * b.det ∧
    a.mulMat a.adj = Mat3.ident.mul a.det ∧ a.adj.mulMat a = Mat3.ident.mul a.det := by
  have hd : ∀ a : Mat3 K, a.det = a.toMatrix.det := by
    intro a; rw [det_fin_three]; simp [Mat3.toMatrix, zeo]; ring
  have ha : a.adj.toMatrix = a.toMatrix.adjugate := by
    rw [adjugate_fin_three]
    ext i j; fin_cases i <;> fin_cases j <;> simp [Mat3.toMatrix, zeo] <;> ring
  have hv : ∀ v : Vec3 K, a.mulAdjVec v = a.adj.mulVec v := by intro v; vring
  refine ⟨hd a, ha, ?_, ?_, ?_, ?_, ?_⟩
  · rw [hv, (C06_mat3_products a.adj b v).2.2.2.1, ha]
  · rw [← ha, ← (C06_mat3_products a.adj b v).1]
    simp only [Mat3.mulAdjMat, hv, Mat3.mulMat]
  · rw [hd, hd, hd, (C06_mat3_products a b v).1, det_mul]
  · vring
  · vring

/-- 3x3: the laws themselves. -/
theorem C06_mat3_laws (a b c : Mat3 K) (v : Vec3 K) :
    (a.mulMat b).mulMat c = a.mulMat (b.mulMat c) ∧ (a.mulMat b).mulVec v = a.mulVec (b.mulVec v) ∧
    a.mulMat (b.add c) = (a.mulMat b).add (a.mulMat c) ∧
    (a.add b).mulMat c = (a.mulMat c).add (b.mulMat c) ∧
    (a.mulMat b).t = b.t.mulMat a.t ∧ a.t.t = a ∧ a.t.det = a.det ∧
    a.mulTMat b = a.t.mulMat b ∧ a.mulMatT b = a.mulMat b.t ∧ a.mulTVec v = a.t.mulVec v ∧
    a.rotMat b = (a.mulMat b).mulMat a.t ∧ a.rotMatInv b = (a.t.mulMat b).mulMat a := by
  refine ⟨?_, ?_, ?_, ?_, ?_, ?_, ?_, ?_, ?_, ?_, ?_, ?_⟩ <;> vring

/-- 2x2: products with matrices and vectors, and all the transposed variants. -/
theorem C06_mat2_products (a b : Mat2 K) (v : Vec2 K) :
    (a.mulMat b).toMatrix = a.toMatrix * b.toMatrix ∧
    (a.mulTMat b).toMatrix = a.toMatrixᵀ * b.toMatrix ∧
    (a.mulMatT b).toMatrix = a.toMatrix * b.toMatrixᵀ ∧
    (a.mulVec v).toFin = a.toMatrix *ᵥ v.toFin ∧
    (a.mulTVec v).toFin = a.toMatrixᵀ *ᵥ v.toFin := by
  refine ⟨?_, ?_, ?_, ?_, ?_⟩
  · ext i j; fin_cases i <;> fin_cases j <;>
      simp [Mat2.toMatrix, zeo, Matrix.mul_apply, Fin.sum_univ_two]
  · ext i j; fin_cases i <;> fin_cases j <;>
      simp [Mat2.toMatrix, zeo, Matrix.mul_apply, Fin.sum_univ_two]
  · ext i j; fin_cases i <;> fin_cases j <;>
      simp [Mat2.toMatrix, zeo, Matrix.mul_apply, Fin.sum_univ_two]
  · ext i; fin_cases i <;>
      simp [Mat2.toMatrix, Vec2.toFin, zeo, Matrix.mulVec, dotProduct, Fin.sum_univ_two]
  · ext i; fin_cases i <;>
      simp [Mat2.toMatrix, Vec2.toFin, zeo, Matrix.mulVec, dotProduct, Fin.sum_univ_two]

/-- 2x2: linear operations, transpose, dyad, determinant, adjugate. -/
theorem C06_mat2_linear (a b : Mat2 K) (k : K) (u v : Vec2 K) :
    (a.add b).toMatrix = a.toMatrix + b.toMatrix ∧ (a.sub b).toMatrix = a.toMatrix - b.toMatrix ∧
    a.rev.toMatrix = -a.toMatrix ∧ (a.mul k).toMatrix = k • a.toMatrix ∧
    (a.cat k b).toMatrix = a.toMatrix + k • b.toMatrix ∧
    a.t.toMatrix = a.toMatrixᵀ ∧ (Mat2.dyad u v).toMatrix = vecMulVec u.toFin v.toFin ∧
    (Mat2.ident : Mat2 K).toMatrix = 1 ∧
    a.det = a.toMatrix.det ∧ a.adj.toMatrix = a.toMatrix.adjugate ∧
    (a.mulAdjVec v).toFin = a.toMatrix.adjugate *ᵥ v.toFin := by
  refine ⟨?_, ?_, ?_, ?_, ?_, ?_, ?_, ?_, ?_, ?_, ?_⟩
  all_goals first
    | (ext i j; fin_cases i <;> fin_cases j <;>
        simp [Mat2.toMatrix, Vec2.toFin, zeo, vecMulVec_apply, adjugate_fin_two]; done)
    | (rw [det_fin_two]; simp [Mat2.toMatrix, zeo]; done)
    | (ext i; fin_cases i <;> simp [Mat2.toMatrix, Vec2.toFin, zeo, adjugate_fin_two,
        Matrix.mulVec, dotProduct, Fin.sum_univ_two] <;> ring)

/-- 2x2: the laws themselves. -/
theorem C06_mat2_laws (a b c : Mat2 K) (v : Vec2 K) :
    (a.mulMat b).mulMat c = a.mulMat (b.mulMat c) ∧ (a.mulMat b).mulVec v = a.mulVec (b.mulVec v) ∧
    a.mulMat (b.add c) = (a.mulMat b).add (a.mulMat c) ∧ (a.mulMat b).t = b.t.mulMat a.t ∧
    a.mulTMat b = a.t.mulMat b ∧ a.mulMatT b = a.mulMat b.t ∧ a.mulTVec v = a.t.mulVec v ∧
    (a.mulMat b).det = a.det * b.det ∧ a.mulMat a.adj = Mat2.ident.mul a.det ∧
    a.adj.mulMat a = Mat2.ident.mul a.det := by
  refine ⟨?_, ?_, ?_, ?_, ?_, ?_, ?_, ?_, ?_, ?_⟩ <;> vring

/-- A concrete non-symmetric, non-commuting pair. -/
example : (Mat3.create 1 2 0 0 1 0 0 0 (1:ℚ)).mulMat (Mat3.create 1 0 0 3 1 0 0 0 1) =
    Mat3.create 7 2 0 3 1 0 0 0 1 := by
  ext <;> norm_num [zeo]

end Zeo
