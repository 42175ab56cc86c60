import Verif.Props.C11
import Mathlib.Analysis.SpecialFunctions.Trigonometric.Deriv
import Mathlib.Analysis.Calculus.Deriv.Mul

/-! # C16: Euler-angle rates and angular velocity -/

namespace Zeo
open Matrix

/-- z-y-x rates, away from the singularity `cos(elevation) = 0`: the two conversions are
mutually inverse (whatever the destination held). -/
theorem C16_zyx_inverse (τ : ℝ) (hτ : 0 ≤ τ) (zyx rate w old : Vec3 ℝ) (h : τ < |Real.cos zyx.y|) :
    Vec3.angVelToZYXVel τ (Vec3.zyxVelToAngVel rate zyx) zyx old = rate ∧
    Vec3.zyxVelToAngVel (Vec3.angVelToZYXVel τ w zyx old) zyx = w := by
  have hne : Real.cos zyx.y ≠ 0 := fun e => by rw [e, abs_zero] at h; linarith
  have ht : ¬ zIsTol (Real.cos zyx.y) τ := not_le.2 h
  have p := Real.sin_sq_add_cos_sq zyx.x
  simp only [Vec3.angVelToZYXVel, Vec3.angVelToZYXVelSC, Vec3.zyxVelToAngVel, Vec3.zyxVelToAngVelSC, if_neg ht]
  generalize Real.sin zyx.x = sa at *
  generalize Real.cos zyx.x = ca at *
  generalize Real.sin zyx.y = se at *
  generalize Real.cos zyx.y = ce at *
  constructor
  · have e : (ca * (-sa * rate.y + ca * ce * rate.z) + sa * (ca * rate.y + sa * ce * rate.z)) / ce = rate.z := by
      field_simp; linear_combination ce * rate.z * p
    ext <;> simp only [e]
    · ring
    · linear_combination rate.y * p
  · have e : ∀ k, k * ce * ((ca * w.x + sa * w.y) / ce) = k * (ca * w.x + sa * w.y) := by
      intro k; field_simp
    ext <;> simp only [e]
    · linear_combination w.x * p
    · linear_combination w.y * p
    · ring

/-- At the singular attitude the destination is left unchanged. -/
theorem C16_zyx_singular (τ : ℝ) (zyx w old : Vec3 ℝ) (h : |Real.cos zyx.y| ≤ τ) :
    Vec3.angVelToZYXVel τ w zyx old = old := by
  simp only [Vec3.angVelToZYXVel, Vec3.angVelToZYXVelSC]
  rw [if_pos (show zIsTol (Real.cos zyx.y) τ from h)]

/-- z-y-z rates, away from the singularity `sin(pitch) = 0`. -/
theorem C16_zyz_inverse (τ : ℝ) (hτ : 0 ≤ τ) (zyz rate w old : Vec3 ℝ) (h : τ < |Real.sin zyz.y|) :
    Vec3.angVelToZYZVel τ (Vec3.zyzVelToAngVel rate zyz) zyz old = rate ∧
    Vec3.zyzVelToAngVel (Vec3.angVelToZYZVel τ w zyz old) zyz = w := by
  have hne : Real.sin zyz.y ≠ 0 := fun e => by rw [e, abs_zero] at h; linarith
  have ht : ¬ zIsTol (Real.sin zyz.y) τ := not_le.2 h
  have p := Real.sin_sq_add_cos_sq zyz.x
  simp only [Vec3.angVelToZYZVel, Vec3.angVelToZYZVelSC, Vec3.zyzVelToAngVel, Vec3.zyzVelToAngVelSC, if_neg ht]
  generalize Real.sin zyz.x = sa at *
  generalize Real.cos zyz.x = ca at *
  generalize Real.sin zyz.y = se at *
  generalize Real.cos zyz.y = ce at *
  constructor
  · have e : (ca * (-sa * rate.y + ca * se * rate.z) + sa * (ca * rate.y + sa * se * rate.z)) / se = rate.z := by
      field_simp; linear_combination se * rate.z * p
    ext <;> simp only [e]
    · ring
    · linear_combination rate.y * p
  · have e : ∀ k, k * se * ((ca * w.x + sa * w.y) / se) = k * (ca * w.x + sa * w.y) := by
      intro k; field_simp
    ext <;> simp only [e]
    · linear_combination w.x * p
    · linear_combination w.y * p
    · ring

/-- At the singular attitude the destination is left unchanged. -/
theorem C16_zyz_singular (τ : ℝ) (zyz w old : Vec3 ℝ) (h : |Real.sin zyz.y| ≤ τ) :
    Vec3.angVelToZYZVel τ w zyz old = old := by
  simp only [Vec3.angVelToZYZVel, Vec3.angVelToZYZVelSC]
  rw [if_pos (show zIsTol (Real.sin zyz.y) τ from h)]

/-- The value is the true angular velocity: along any differentiable curve of z-y-x angles, a
point `p` fixed in the rotating body moves with velocity ω × (R p). -/
theorem C16_zyx_kinematics (a e b : ℝ → ℝ) (a' e' b' t : ℝ) (ha : HasDerivAt a a' t)
    (he : HasDerivAt e e' t) (hb : HasDerivAt b b' t) (p : Vec3 ℝ) (i : Fin 3) :
    HasDerivAt (fun s => ((Mat3.fromZYX (a s) (e s) (b s)).toMatrix *ᵥ p.toFin) i)
      (((Vec3.zyxVelToAngVel ⟨a', e', b'⟩ ⟨a t, e t, b t⟩).toFin ⨯₃
        ((Mat3.fromZYX (a t) (e t) (b t)).toMatrix *ᵥ p.toFin)) i) t := by
  have pa := Real.sin_sq_add_cos_sq (a t)
  have pe := Real.sin_sq_add_cos_sq (e t)
  have sa := ha.sin; have ca := ha.cos
  have se := he.sin; have ce := he.cos
  have sb := hb.sin; have cb := hb.cos
  fin_cases i
  · have f : (fun s => ((Mat3.fromZYX (a s) (e s) (b s)).toMatrix *ᵥ p.toFin) 0) = fun s =>
        Real.cos (e s) * Real.cos (a s) * p.x
        + (Real.sin (b s) * Real.sin (e s) * Real.cos (a s) - Real.cos (b s) * Real.sin (a s)) * p.y
        + (Real.cos (b s) * Real.sin (e s) * Real.cos (a s) + Real.sin (b s) * Real.sin (a s)) * p.z := by
      funext s; simp [Mat3.toMatrix, Mat3.fromZYX, Vec3.toFin, zeo, mulVec, dotProduct, Fin.sum_univ_three]
    change HasDerivAt (fun s => ((Mat3.fromZYX (a s) (e s) (b s)).toMatrix *ᵥ p.toFin) 0) _ t
    rw [f]
    refine HasDerivAt.congr_deriv ((((ce.mul ca).mul_const p.x).add ((((sb.mul se).mul ca).sub (cb.mul sa)).mul_const p.y)).add
      ((((cb.mul se).mul ca).add (sb.mul sa)).mul_const p.z)) ?_
    simp [Mat3.toMatrix, Mat3.fromZYX, Vec3.toFin, Vec3.zyxVelToAngVel, Vec3.zyxVelToAngVelSC, zeo,
      cross_apply, mulVec, dotProduct, Fin.sum_univ_three]
    grind
  · have f : (fun s => ((Mat3.fromZYX (a s) (e s) (b s)).toMatrix *ᵥ p.toFin) 1) = fun s =>
        Real.cos (e s) * Real.sin (a s) * p.x
        + (Real.sin (b s) * Real.sin (e s) * Real.sin (a s) + Real.cos (b s) * Real.cos (a s)) * p.y
        + (Real.cos (b s) * Real.sin (e s) * Real.sin (a s) - Real.sin (b s) * Real.cos (a s)) * p.z := by
      funext s; simp [Mat3.toMatrix, Mat3.fromZYX, Vec3.toFin, zeo, mulVec, dotProduct, Fin.sum_univ_three]
    change HasDerivAt (fun s => ((Mat3.fromZYX (a s) (e s) (b s)).toMatrix *ᵥ p.toFin) 1) _ t
    rw [f]
    refine HasDerivAt.congr_deriv ((((ce.mul sa).mul_const p.x).add ((((sb.mul se).mul sa).add (cb.mul ca)).mul_const p.y)).add
      ((((cb.mul se).mul sa).sub (sb.mul ca)).mul_const p.z)) ?_
    simp [Mat3.toMatrix, Mat3.fromZYX, Vec3.toFin, Vec3.zyxVelToAngVel, Vec3.zyxVelToAngVelSC, zeo,
      cross_apply, mulVec, dotProduct, Fin.sum_univ_three]
    grind
  · have f : (fun s => ((Mat3.fromZYX (a s) (e s) (b s)).toMatrix *ᵥ p.toFin) 2) = fun s =>
        -Real.sin (e s) * p.x + (Real.sin (b s) * Real.cos (e s)) * p.y
        + (Real.cos (b s) * Real.cos (e s)) * p.z := by
      funext s; simp [Mat3.toMatrix, Mat3.fromZYX, Vec3.toFin, zeo, mulVec, dotProduct, Fin.sum_univ_three]
    change HasDerivAt (fun s => ((Mat3.fromZYX (a s) (e s) (b s)).toMatrix *ᵥ p.toFin) 2) _ t
    rw [f]
    refine HasDerivAt.congr_deriv ((((se.neg).mul_const p.x).add ((sb.mul ce).mul_const p.y)).add
      ((cb.mul ce).mul_const p.z)) ?_
    simp [Mat3.toMatrix, Mat3.fromZYX, Vec3.toFin, Vec3.zyxVelToAngVel, Vec3.zyxVelToAngVelSC, zeo,
      cross_apply, mulVec, dotProduct, Fin.sum_univ_three]
    grind

/-- The same for z-y-z angles. -/
theorem C16_zyz_kinematics (a e b : ℝ → ℝ) (a' e' b' t : ℝ) (ha : HasDerivAt a a' t)
    (he : HasDerivAt e e' t) (hb : HasDerivAt b b' t) (p : Vec3 ℝ) (i : Fin 3) :
    HasDerivAt (fun s => ((Mat3.fromZYZ (a s) (e s) (b s)).toMatrix *ᵥ p.toFin) i)
      (((Vec3.zyzVelToAngVel ⟨a', e', b'⟩ ⟨a t, e t, b t⟩).toFin ⨯₃
        ((Mat3.fromZYZ (a t) (e t) (b t)).toMatrix *ᵥ p.toFin)) i) t := by
  have pa := Real.sin_sq_add_cos_sq (a t)
  have pe := Real.sin_sq_add_cos_sq (e t)
  have sa := ha.sin; have ca := ha.cos
  have se := he.sin; have ce := he.cos
  have sb := hb.sin; have cb := hb.cos
  fin_cases i
  · have f : (fun s => ((Mat3.fromZYZ (a s) (e s) (b s)).toMatrix *ᵥ p.toFin) 0) = fun s =>
        (Real.cos (a s) * Real.cos (e s) * Real.cos (b s) - Real.sin (a s) * Real.sin (b s)) * p.x
        + (-Real.cos (a s) * Real.cos (e s) * Real.sin (b s) - Real.sin (a s) * Real.cos (b s)) * p.y
        + (Real.cos (a s) * Real.sin (e s)) * p.z := by
      funext s; simp [Mat3.toMatrix, Mat3.fromZYZ, Vec3.toFin, zeo, mulVec, dotProduct, Fin.sum_univ_three]
    change HasDerivAt (fun s => ((Mat3.fromZYZ (a s) (e s) (b s)).toMatrix *ᵥ p.toFin) 0) _ t
    rw [f]
    refine HasDerivAt.congr_deriv ((((((ca.mul ce).mul cb).sub (sa.mul sb)).mul_const p.x).add
      ((((ca.neg.mul ce).mul sb).sub (sa.mul cb)).mul_const p.y)).add ((ca.mul se).mul_const p.z)) ?_
    simp [Mat3.toMatrix, Mat3.fromZYZ, Vec3.toFin, Vec3.zyzVelToAngVel, Vec3.zyzVelToAngVelSC, zeo,
      cross_apply, mulVec, dotProduct, Fin.sum_univ_three]
    grind
  · have f : (fun s => ((Mat3.fromZYZ (a s) (e s) (b s)).toMatrix *ᵥ p.toFin) 1) = fun s =>
        (Real.sin (a s) * Real.cos (e s) * Real.cos (b s) + Real.cos (a s) * Real.sin (b s)) * p.x
        + (-Real.sin (a s) * Real.cos (e s) * Real.sin (b s) + Real.cos (a s) * Real.cos (b s)) * p.y
        + (Real.sin (a s) * Real.sin (e s)) * p.z := by
      funext s; simp [Mat3.toMatrix, Mat3.fromZYZ, Vec3.toFin, zeo, mulVec, dotProduct, Fin.sum_univ_three]
    change HasDerivAt (fun s => ((Mat3.fromZYZ (a s) (e s) (b s)).toMatrix *ᵥ p.toFin) 1) _ t
    rw [f]
    refine HasDerivAt.congr_deriv ((((((sa.mul ce).mul cb).add (ca.mul sb)).mul_const p.x).add
      ((((sa.neg.mul ce).mul sb).add (ca.mul cb)).mul_const p.y)).add ((sa.mul se).mul_const p.z)) ?_
    simp [Mat3.toMatrix, Mat3.fromZYZ, Vec3.toFin, Vec3.zyzVelToAngVel, Vec3.zyzVelToAngVelSC, zeo,
      cross_apply, mulVec, dotProduct, Fin.sum_univ_three]
    grind
  · have f : (fun s => ((Mat3.fromZYZ (a s) (e s) (b s)).toMatrix *ᵥ p.toFin) 2) = fun s =>
        -Real.sin (e s) * Real.cos (b s) * p.x + (Real.sin (e s) * Real.sin (b s)) * p.y
        + Real.cos (e s) * p.z := by
      funext s; simp [Mat3.toMatrix, Mat3.fromZYZ, Vec3.toFin, zeo, mulVec, dotProduct, Fin.sum_univ_three]
    change HasDerivAt (fun s => ((Mat3.fromZYZ (a s) (e s) (b s)).toMatrix *ᵥ p.toFin) 2) _ t
    rw [f]
    refine HasDerivAt.congr_deriv ((((se.neg.mul cb).mul_const p.x).add ((se.mul sb).mul_const p.y)).add
      (ce.mul_const p.z)) ?_
    simp [Mat3.toMatrix, Mat3.fromZYZ, Vec3.toFin, Vec3.zyzVelToAngVel, Vec3.zyzVelToAngVelSC, zeo,
      cross_apply, mulVec, dotProduct, Fin.sum_univ_three]
    grind

/-- A concrete non-singular attitude for the tolerance 1e-12, and a singular one. -/
example : (1e-12 : ℝ) < |Real.cos 0| ∧ |Real.cos (Real.pi / 2)| ≤ 1e-12 := by
  rw [Real.cos_zero, Real.cos_pi_div_two]; norm_num

end Zeo
