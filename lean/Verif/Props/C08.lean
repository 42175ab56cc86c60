import Verif.Lemmas.Rot
import Verif.Lemmas.Norm
import Verif.Spec.Rotation
import Mathlib.Tactic.NormNum

/-! # C08: attitude constructors produce proper rotations -/

namespace Zeo
open Matrix Spec

theorem rxSC_toMatrix (θ : ℝ) : (rxSC (Real.sin θ) (Real.cos θ)).toMatrix = Rx θ := by
  simp [rxSC, Mat3.toMatrix, Mat3.create, Rx]
theorem rySC_toMatrix (θ : ℝ) : (rySC (Real.sin θ) (Real.cos θ)).toMatrix = Ry θ := by
  simp [rySC, Mat3.toMatrix, Mat3.create, Ry]
theorem rzSC_toMatrix (θ : ℝ) : (rzSC (Real.sin θ) (Real.cos θ)).toMatrix = Rz θ := by
  simp [rzSC, Mat3.toMatrix, Mat3.create, Rz]

private theorem sc (θ : ℝ) : Real.sin θ * Real.sin θ + Real.cos θ * Real.cos θ = 1 := by
  have := Real.sin_sq_add_cos_sq θ; nlinarith

/-- `zMat3DFromZYX` is the product of the three elementary rotations, a proper rotation. -/
theorem C08_fromZYX (azim elev tilt : ℝ) :
    (Mat3.fromZYX azim elev tilt).toMatrix = Rz azim * Ry elev * Rx tilt ∧
    (Mat3.fromZYX azim elev tilt).IsRot := by
  unfold Mat3.fromZYX
  rw [fromZYXSC_eq]
  refine ⟨?_, ((rzSC_isRot (sc _)).mulMat (rySC_isRot (sc _))).mulMat (rxSC_isRot (sc _))⟩
  rw [(C06_mat3_products _ _ .zero).1, (C06_mat3_products _ _ .zero).1,
    rxSC_toMatrix, rySC_toMatrix, rzSC_toMatrix]

/-- `zMat3DFromZYZ` likewise. -/
theorem C08_fromZYZ (heading pitch bank : ℝ) :
    (Mat3.fromZYZ heading pitch bank).toMatrix = Rz heading * Ry pitch * Rz bank ∧
    (Mat3.fromZYZ heading pitch bank).IsRot := by
  unfold Mat3.fromZYZ
  rw [fromZYZSC_eq]
  refine ⟨?_, ((rzSC_isRot (sc _)).mulMat (rySC_isRot (sc _))).mulMat (rzSC_isRot (sc _))⟩
  rw [(C06_mat3_products _ _ .zero).1, (C06_mat3_products _ _ .zero).1,
    rySC_toMatrix, rzSC_toMatrix, rzSC_toMatrix]

/-- The matrix of a unit quaternion is a proper rotation. -/
theorem C08_fromEP (q : EP ℝ) (h : q.IsUnit) : q.toMat.IsRot := EP.toMat_isRot h

/-- For a vector above the tolerance, `zMat3DFromAA` is the matrix of the quaternion
(cos(l/2), sin(l/2) aa/l). -/
theorem Mat3.fromAA_eq_toMat {τ : ℝ} (hτ : 0 ≤ τ) {aa : Vec3 ℝ} (h : ¬ aa.isTol τ) :
    Mat3.fromAA τ aa =
      EP.toMat ⟨Real.cos (aa.norm / 2), aa.mul (Real.sin (aa.norm / 2) / aa.norm)⟩ ∧
    EP.IsUnit ⟨Real.cos (aa.norm / 2), aa.mul (Real.sin (aa.norm / 2) / aa.norm)⟩ := by
  have hp := Vec3.norm_pos_of_not_isTol hτ h
  have hs : aa.x * aa.x + aa.y * aa.y + aa.z * aa.z = aa.norm ^ 2 := by
    rw [Vec3.norm_sq]; simp only [zeo]
  have e1 := Real.sin_two_mul (aa.norm / 2)
  have e2 := Real.cos_two_mul (aa.norm / 2)
  have e3 := Real.sin_sq_add_cos_sq (aa.norm / 2)
  rw [mul_div_cancel₀ _ (two_ne_zero)] at e1 e2
  generalize Real.sin (aa.norm / 2) = s at *
  generalize Real.cos (aa.norm / 2) = c at *
  unfold Mat3.fromAA
  rw [if_neg h]
  simp only [e1, e2]
  generalize aa.norm = l at *
  have hn : aa.x / l * (aa.x / l) + aa.y / l * (aa.y / l) + aa.z / l * (aa.z / l) = 1 := by
    field_simp; linarith
  have eaa : aa.mul (1 / l) = ⟨aa.x / l, aa.y / l, aa.z / l⟩ := by
    ext <;> simp only [zeo] <;> ring
  have eab : aa.mul (s / l) = ⟨s * (aa.x / l), s * (aa.y / l), s * (aa.z / l)⟩ := by
    ext <;> simp only [zeo] <;> ring
  rw [eaa, eab]
  generalize aa.x / l = nx at *
  generalize aa.y / l = ny at *
  generalize aa.z / l = nz at *
  constructor
  · ext <;> simp only [zeo]
    · linear_combination -s^2 * hn - (1 - 2 * nz*nz - 2*ny*ny) * e3
    · linear_combination -2 * nx * ny * e3
    · linear_combination -2 * nx * nz * e3
    · linear_combination -2 * nx * ny * e3
    · linear_combination -s^2 * hn - (1 - 2 * nz*nz - 2*nx*nx) * e3
    · linear_combination -2 * ny * nz * e3
    · linear_combination -2 * nx * nz * e3
    · linear_combination -2 * ny * nz * e3
    · linear_combination -s^2 * hn - (1 - 2 * ny*ny - 2*nx*nx) * e3
  · simp only [EP.IsUnit]; linear_combination e3 + s^2 * hn

/-- `zMat3DFromAA` gives a proper rotation for every vector. -/
theorem C08_fromAA (τ : ℝ) (hτ : 0 ≤ τ) (aa : Vec3 ℝ) : (Mat3.fromAA τ aa).IsRot := by
  by_cases h : aa.isTol τ
  · rw [Mat3.fromAA, if_pos h]; exact Mat3.IsRot.ident
  · rw [(Mat3.fromAA_eq_toMat hτ h).1]; exact EP.toMat_isRot (Mat3.fromAA_eq_toMat hτ h).2

/-- Above the tolerance it is the rotation by `|aa|` about `aa/|aa|` (Rodrigues' formula);
below it is the identity. -/
theorem C08_fromAA_rodrigues (τ : ℝ) (hτ : 0 ≤ τ) (aa w : Vec3 ℝ) :
    (¬ (|aa.x| ≤ τ ∧ |aa.y| ≤ τ ∧ |aa.z| ≤ τ) →
      (Mat3.fromAA τ aa).toMatrix *ᵥ w.toFin =
        rodrigues ((Real.sqrt (aa.toFin ⬝ᵥ aa.toFin))⁻¹ • aa.toFin)
          (Real.sqrt (aa.toFin ⬝ᵥ aa.toFin)) w.toFin) ∧
    ((|aa.x| ≤ τ ∧ |aa.y| ≤ τ ∧ |aa.z| ≤ τ) → (Mat3.fromAA τ aa).toMatrix = 1) := by
  constructor
  · intro h
    have h' : ¬ aa.isTol τ := h
    have hp := Vec3.norm_pos_of_not_isTol hτ h'
    have hs : aa.x * aa.x + aa.y * aa.y + aa.z * aa.z = aa.norm ^ 2 := by
      rw [Vec3.norm_sq]; simp only [zeo]
    have hl : Real.sqrt (aa.toFin ⬝ᵥ aa.toFin) = aa.norm := by
      simp [Vec3.norm, Vec3.toFin, zeo]; ring_nf
    rw [hl, Mat3.fromAA, if_neg h']
    have hn : aa.x * (aa.norm)⁻¹ * (aa.x * (aa.norm)⁻¹) + aa.y * (aa.norm)⁻¹ * (aa.y * (aa.norm)⁻¹)
        + aa.z * (aa.norm)⁻¹ * (aa.z * (aa.norm)⁻¹) = 1 := by
      field_simp; linarith
    generalize (aa.norm) = l at *
    ext i; fin_cases i
    · simp [rodrigues, Mat3.toMatrix, Vec3.toFin, zeo, cross_apply, mulVec, dotProduct,
        Fin.sum_univ_three]
      linear_combination -(1-Real.cos l) * w.x * hn
    · simp [rodrigues, Mat3.toMatrix, Vec3.toFin, zeo, cross_apply, mulVec, dotProduct,
        Fin.sum_univ_three]
      linear_combination -(1-Real.cos l) * w.y * hn
    · simp [rodrigues, Mat3.toMatrix, Vec3.toFin, zeo, cross_apply, mulVec, dotProduct,
        Fin.sum_univ_three]
      linear_combination -(1-Real.cos l) * w.z * hn
  · intro h
    have h' : aa.isTol τ := h
    rw [Mat3.fromAA, if_pos h']; exact (C06_mat3_linear (K := ℝ) .zero .zero 0 .zero .zero).2.2.2.2.2.2.2.2.1

/-- `zMat2DCreateAngle` is the rotation of the plane, and proper. -/
theorem C08_mat2 (θ : ℝ) :
    (Mat2.createAngle θ).toMatrix = R2 θ ∧ (Mat2.createAngle θ).IsRot := by
  have h := Real.sin_sq_add_cos_sq θ
  refine ⟨by simp [Mat2.createAngle, Mat2.create, Mat2.toMatrix, R2], ?_, ?_⟩
  · ext i j; fin_cases i <;> fin_cases j <;>
      simp [Mat2.createAngle, Mat2.create, Mat2.toMatrix, Matrix.mul_apply, Fin.sum_univ_two] <;>
      first | ring1 | linear_combination h
  · rw [det_fin_two]; simp [Mat2.createAngle, Mat2.create, Mat2.toMatrix]; linear_combination h

/-- Rotating an attitude about a world axis multiplies by the elementary rotation from the
left, whatever the destination held before; the in-place forms agree. -/
theorem C08_rotRPY (m old : Mat3 ℝ) (θ : ℝ) :
    ((m.rotRoll θ old).toMatrix = Rx θ * m.toMatrix ∧ (m.rotPitch θ old).toMatrix = Ry θ * m.toMatrix ∧
     (m.rotYaw θ old).toMatrix = Rz θ * m.toMatrix) ∧
    (m.rotRollSCDRC (Real.sin θ) (Real.cos θ) = m.rotRoll θ old ∧
     m.rotPitchSCDRC (Real.sin θ) (Real.cos θ) = m.rotPitch θ old ∧
     m.rotYawSCDRC (Real.sin θ) (Real.cos θ) = m.rotYaw θ old) ∧
    (m.IsRot → (m.rotRoll θ old).IsRot ∧ (m.rotPitch θ old).IsRot ∧ (m.rotYaw θ old).IsRot) := by
  have e1 : m.rotRoll θ old = (rxSC (Real.sin θ) (Real.cos θ)).mulMat m := by
    ext <;> simp only [Mat3.rotRoll, Mat3.rotRollSC, Mat3.rotRPYSC, rxSC, zeo] <;> ring
  have e2 : m.rotPitch θ old = (rySC (Real.sin θ) (Real.cos θ)).mulMat m := by
    ext <;> simp only [Mat3.rotPitch, Mat3.rotPitchSC, Mat3.rotRPYSC, rySC, zeo] <;> ring
  have e3 : m.rotYaw θ old = (rzSC (Real.sin θ) (Real.cos θ)).mulMat m := by
    ext <;> simp only [Mat3.rotYaw, Mat3.rotYawSC, Mat3.rotRPYSC, rzSC, zeo] <;> ring
  refine ⟨?_, ?_, ?_⟩
  · rw [e1, e2, e3]
    simp only [(C06_mat3_products _ _ (.zero : Vec3 ℝ)).1, rxSC_toMatrix, rySC_toMatrix, rzSC_toMatrix,
      and_self]
  · refine ⟨?_, ?_, ?_⟩ <;> ext <;>
    simp only [Mat3.rotRoll, Mat3.rotPitch, Mat3.rotYaw, Mat3.rotRollSCDRC, Mat3.rotPitchSCDRC,
      Mat3.rotYawSCDRC, Mat3.rotRPYSCDRC, Mat3.rotRollSC, Mat3.rotPitchSC, Mat3.rotYawSC,
      Mat3.rotRPYSC, zeo]
  · intro h
    rw [e1, e2, e3]
    exact ⟨(rxSC_isRot (sc _)).mulMat h, (rySC_isRot (sc _)).mulMat h, (rzSC_isRot (sc _)).mulMat h⟩

/-- Rotating an attitude by an angle-axis vector keeps it a proper rotation. -/
theorem C08_rot (τ : ℝ) (hτ : 0 ≤ τ) (m : Mat3 ℝ) (aa : Vec3 ℝ) (dt : ℝ) (h : m.IsRot) :
    (m.rot τ aa).IsRot ∧ (m.rotCat τ aa dt).IsRot :=
  ⟨(C08_fromAA τ hτ aa).mulMat h, (C08_fromAA τ hτ _).mulMat h⟩

/-- Hypotheses are met: the quaternion (3/5, 4/5 e_y) is a unit one. -/
example : EP.IsUnit (⟨3/5, ⟨0, 4/5, 0⟩⟩ : EP ℝ) := by norm_num [EP.IsUnit]
example : ∃ m : Mat3 ℝ, m.IsRot ∧ m ≠ .ident :=
  ⟨_, rzSC_isRot (s := 3/5) (c := 4/5) (by norm_num), by
    intro h; have := congrArg (fun m => m.x.x) h; norm_num [rzSC, zeo] at this⟩

end Zeo
