import Verif.Props.C09
import Verif.Props.C10

/-! # C50: coordinate frames from parameters -/

namespace Zeo
open Matrix Spec

/-- The elementary transforms: rotation about an axis / translation along an axis. -/
noncomputable def Spec.rotX (θ : ℝ) : Frame3 ℝ := ⟨.zero, rxSC (Real.sin θ) (Real.cos θ)⟩
noncomputable def Spec.rotZ (θ : ℝ) : Frame3 ℝ := ⟨.zero, rzSC (Real.sin θ) (Real.cos θ)⟩
noncomputable def Spec.transX (a : ℝ) : Frame3 ℝ := ⟨⟨a, 0, 0⟩, .ident⟩
noncomputable def Spec.transZ (d : ℝ) : Frame3 ℝ := ⟨⟨0, 0, d⟩, .ident⟩

private theorem sc (θ : ℝ) : Real.sin θ * Real.sin θ + Real.cos θ * Real.cos θ = 1 := by
  have := Real.sin_sq_add_cos_sq θ; nlinarith

/-- `zFrame3DFromDH` is Rot_x(α) Trans_x(a) Rot_z(θ) Trans_z(d), with a proper rotation. -/
theorem C50_DH (a α d θ : ℝ) :
    Frame3.fromDH a α d θ =
      (((Spec.rotX α).cascade (Spec.transX a)).cascade (Spec.rotZ θ)).cascade (Spec.transZ d) ∧
    (Frame3.fromDH a α d θ).att.IsRot := by
  have e : Frame3.fromDH a α d θ =
      (((Spec.rotX α).cascade (Spec.transX a)).cascade (Spec.rotZ θ)).cascade (Spec.transZ d) := by
    ext <;> simp only [Frame3.fromDH, Spec.rotX, Spec.rotZ, Spec.transX, Spec.transZ, rxSC, rzSC, zeo] <;> ring
  refine ⟨e, ?_⟩
  have e2 : (Frame3.fromDH a α d θ).att =
      (rxSC (Real.sin α) (Real.cos α)).mulMat (rzSC (Real.sin θ) (Real.cos θ)) := by
    ext <;> simp only [Frame3.fromDH, rxSC, rzSC, zeo] <;> ring
  rw [e2]
  exact (rxSC_isRot (sc _)).mulMat (rzSC_isRot (sc _))

/-- A point transformed by the DH frame, in coordinates. -/
theorem C50_DH_point (a α d θ : ℝ) (p : Vec3 ℝ) :
    (Frame3.fromDH a α d θ).xform p =
      ⟨a + (Real.cos θ * p.x - Real.sin θ * p.y),
       Real.cos α * (Real.sin θ * p.x + Real.cos θ * p.y) - Real.sin α * (d + p.z),
       Real.sin α * (Real.sin θ * p.x + Real.cos θ * p.y) + Real.cos α * (d + p.z)⟩ := by
  ext <;> simp only [Frame3.fromDH, zeo] <;> ring

/-- Frames from a position and angles: given position, proper attitude of the given angles. -/
theorem C50_fromPos (τ : ℝ) (hτ : 0 ≤ τ) (x y z a b c : ℝ) :
    ((Frame3.fromPosZYX x y z a b c).pos = ⟨x, y, z⟩ ∧
     (Frame3.fromPosZYX x y z a b c).att.toMatrix = Rz a * Ry b * Rx c ∧
     (Frame3.fromPosZYX x y z a b c).att.IsRot) ∧
    ((Frame3.fromPosZYZ x y z a b c).pos = ⟨x, y, z⟩ ∧
     (Frame3.fromPosZYZ x y z a b c).att.toMatrix = Rz a * Ry b * Rz c ∧
     (Frame3.fromPosZYZ x y z a b c).att.IsRot) ∧
    ((Frame3.fromPosAA τ x y z a b c).pos = ⟨x, y, z⟩ ∧ (Frame3.fromPosAA τ x y z a b c).att.IsRot) :=
  ⟨⟨rfl, C08_fromZYX a b c⟩, ⟨rfl, C08_fromZYZ a b c⟩, rfl, C08_fromAA τ hτ _⟩

/-- A frame written as a 6D vector (position + z-y-x / z-y-z / angle-axis) and read back. -/
theorem C50_vec6_roundtrip (f : Frame3 ℝ) (h : f.att.IsRot) :
    Frame3.ofVec6ZYX f.toVec6ZYX = f ∧ Frame3.ofVec6ZYZ f.toVec6ZYZ = f ∧
    Frame3.ofVec6AA 0 (f.toVec6AA 0) = f := by
  refine ⟨?_, ?_, ?_⟩
  · simp only [Frame3.ofVec6ZYX, Frame3.toVec6ZYX, Frame3.fromPosZYX, C09_zyx f.att h]
  · simp only [Frame3.ofVec6ZYZ, Frame3.toVec6ZYZ, Frame3.fromPosZYZ, C09_zyz f.att h]
  · simp only [Frame3.ofVec6AA, Frame3.toVec6AA, Frame3.fromPosAA, C10_roundtrip_exact f.att h]

/-- Every view-manipulation function keeps the attitude a proper rotation. -/
theorem C50_views (τ : ℝ) (hτ : 0 ≤ τ) (f : Frame3 ℝ) (h : f.att.IsRot) (w : Vec6 ℝ) (c : Vec3 ℝ)
    (x y z a d p t r : ℝ) :
    (f.translateView x y z).att.IsRot ∧ (f.twist τ w).att.IsRot ∧ (f.rotateView τ a x y z).att.IsRot ∧
    (f.gazeAndRotateView c d p t r).att.IsRot := by
  refine ⟨h, ?_, ?_, ?_⟩
  · simp only [Frame3.twist, Mat3.rot]; exact (C08_fromAA τ hτ _).mulMat h
  rotate_left
  · simp only [Frame3.gazeAndRotateView]; exact h.mulMat (C08_fromZYX p t r).2
  have key : ∀ (s : ℝ) (v : Vec3 ℝ), (if ¬ zIsTol s τ then
      { f with att := f.att.mulMat (Mat3.fromAA τ v) } else f : Frame3 ℝ).att.IsRot := by
    intro s v
    split_ifs
    · exact h
    · exact h.mulMat (C08_fromAA τ hτ v)
  unfold Frame3.rotateView
  exact key _ _

/-- `zFrame3DTwist` by the error between two frames takes the second to the first. -/
theorem C50_twist_error (f1 f2 : Frame3 ℝ) (h1 : f1.att.IsRot) (h2 : f2.att.IsRot) :
    f2.twist 0 (Frame3.error 0 f1 f2) = f1 := by
  simp only [Frame3.twist, Frame3.error, (C10_error_cascade f1.att f2.att h1 h2 .zero .zero).1]
  ext <;> simp only [zeo] <;> ring

/-- `zFrame3DLookAtView`: the attitude is a proper rotation whose x axis points from the centre
towards the eye (note: away from the object), for any up vector not parallel to the gaze
(beyond the tolerance). -/
theorem C50_lookAt (τ : ℝ) (hτ : 0 ≤ τ) (old : Frame3 ℝ) (eye center up : Vec3 ℝ)
    (hg : ¬ (eye.sub center).isTol τ)
    (hu : ∀ u, Vec3.orthogonalize τ up (eye.sub center) = some u → ¬ u.isTol τ) :
    (Frame3.lookAtView τ old eye center up).att.IsRot ∧
    (Frame3.lookAtView τ old eye center up).pos = eye ∧
    (Frame3.lookAtView τ old eye center up).att.x =
      (eye.sub center).mul (1 / (eye.sub center).norm) := by
  refine ⟨?_, rfl, by simp [Frame3.lookAtView, Vec3.normalize, hg, Vec3.normalizeNC]⟩
  have ho : Vec3.orthogonalize τ up (eye.sub center) =
    some (up.cat (-(eye.sub center).inner up / (eye.sub center).sqrNorm) (eye.sub center)) := by
    rw [Vec3.orthogonalize, if_neg hg]
  have hu' := hu _ ho
  simp only [Frame3.lookAtView, ho, Option.getD_some, Vec3.normalize, if_neg hg, if_neg hu', Vec3.normalizeNC]
  generalize eye.sub center = g at *
  have hgp := Vec3.norm_pos_of_not_isTol hτ hg
  have hgs := g.norm_sq
  have hgs' : g.sqrNorm ≠ 0 := by rw [← hgs]; positivity
  have horth : g.inner (up.cat (-g.inner up / g.sqrNorm) g) = 0 := by
    have : g.inner (up.cat (-g.inner up / g.sqrNorm) g) = g.inner up + -g.inner up / g.sqrNorm * g.sqrNorm := by vring
    rw [this, div_mul_cancel₀ _ hgs']; ring
  generalize up.cat (-g.inner up / g.sqrNorm) g = u at *
  have hup := Vec3.norm_pos_of_not_isTol hτ hu'
  have hus := u.norm_sq
  have a1 : (g.mul (1 / g.norm)).inner (g.mul (1 / g.norm)) = 1 := by
    have : (g.mul (1 / g.norm)).inner (g.mul (1 / g.norm)) = 1 / g.norm * (1 / g.norm) * g.sqrNorm := by vring
    rw [this, ← hgs]; field_simp
  have a2 : (u.mul (1 / u.norm)).inner (u.mul (1 / u.norm)) = 1 := by
    have : (u.mul (1 / u.norm)).inner (u.mul (1 / u.norm)) = 1 / u.norm * (1 / u.norm) * u.sqrNorm := by vring
    rw [this, ← hus]; field_simp
  have a3 : (g.mul (1 / g.norm)).inner (u.mul (1 / u.norm)) = 0 := by
    have : (g.mul (1 / g.norm)).inner (u.mul (1 / u.norm)) = 1 / g.norm * (1 / u.norm) * g.inner u := by vring
    rw [this, horth, mul_zero]
  generalize g.mul (1 / g.norm) = x at *
  generalize u.mul (1 / u.norm) = z at *
  simp only [zeo] at a1 a2 a3
  rw [Mat3.isRot_iff]
  constructor
  · ext <;> simp only [zeo] <;> grind
  · simp only [zeo]; grind

/-- Satisfiable: looking at the origin from (1,0,0) with z up. -/
example : ¬ ((⟨1,0,0⟩ : Vec3 ℝ).sub .zero).isTol 0 ∧
    (∀ u, Vec3.orthogonalize 0 ⟨0,0,1⟩ ((⟨1,0,0⟩ : Vec3 ℝ).sub .zero) = some u → ¬ u.isTol 0) := by
  have h : ¬ ((⟨1,0,0⟩ : Vec3 ℝ).sub .zero).isTol 0 := by norm_num [Vec3.isTol, zIsTol, zeo]
  refine ⟨h, ?_⟩
  intro u hu
  rw [Vec3.orthogonalize, if_neg h] at hu
  cases hu
  norm_num [Vec3.isTol, zIsTol, zeo]

end Zeo
