import Verif.Spec.Mass
import Verif.Lemmas.Moment
import Verif.Lemmas.Rot
import Mathlib.MeasureTheory.Function.Jacobian

/-! # Placing a solid in space -/

namespace Zeo.Moment
open MeasureTheory Set Real Matrix

/-- The affine image of a set. -/
def place (b : Fin 3 → ℝ) (M : Matrix (Fin 3) (Fin 3) ℝ) (U : Set (Fin 3 → ℝ)) : Set (Fin 3 → ℝ) := (fun u => b + M *ᵥ u) '' U

theorem integral_place {b : Fin 3 → ℝ} {M : Matrix (Fin 3) (Fin 3) ℝ} (hM : M.det ≠ 0) {U : Set (Fin 3 → ℝ)} (hU : MeasurableSet U)
    (f : (Fin 3 → ℝ) → ℝ) : ∫ q in place b M U, f q = |M.det| * ∫ u in U, f (b + M *ᵥ u) := by
  have hd : ∀ x ∈ U, HasFDerivWithinAt (fun u => b + M *ᵥ u) (LinearMap.toContinuousLinearMap (Matrix.toLin' M)) U x := by
    intro x _
    have := (LinearMap.toContinuousLinearMap (Matrix.toLin' M)).hasFDerivAt (x := x)
    exact (this.const_add b).hasFDerivWithinAt
  have hinj : InjOn (fun u => b + M *ᵥ u) U := by
    intro x _ y _ h
    have h' : M *ᵥ x = M *ᵥ y := add_left_cancel h
    have := congrArg (fun v => M⁻¹ *ᵥ v) h'
    simpa [Matrix.mulVec_mulVec, Matrix.nonsing_inv_mul _ (isUnit_iff_ne_zero.2 hM)] using this
  rw [place, integral_image_eq_integral_abs_det_fderiv_smul volume hU hd hinj]
  have : (LinearMap.toContinuousLinearMap (Matrix.toLin' M)).det = M.det := by
    rw [ContinuousLinearMap.det, LinearMap.coe_toContinuousLinearMap, LinearMap.det_toLin']
  simp only [this, smul_eq_mul]
  rw [integral_const_mul]

/-- The moments of a placed solid. -/
theorem Has.place {U : Set (Fin 3 → ℝ)} {V : ℝ} {s : Fin 3 → ℝ} (h : Has U V s) {b : Fin 3 → ℝ} {M : Matrix (Fin 3) (Fin 3) ℝ} (hM : M.det ≠ 0) :
    ∫ _ in place b M U, (1 : ℝ) = |M.det| * V ∧ (∀ i, ∫ q in place b M U, q i = |M.det| * V * b i) ∧
    (∀ i j, IntegrableOn (fun q => (q i - b i) * (q j - b j)) (Moment.place b M U)) ∧
    ∀ i j, ∫ q in place b M U, (q i - b i) * (q j - b j) = |M.det| * ∑ k, M i k * s k * M j k := by
  have hm := h.cpt.measurableSet
  have hint : ∀ f : (Fin 3 → ℝ) → ℝ, Continuous f → IntegrableOn f U := fun f hf => hf.continuousOn.integrableOn_compact h.cpt
  refine ⟨?_, fun i => ?_, fun i j => ?_, fun i j => ?_⟩
  · rw [integral_place hM hm, h.zero]
  · rw [integral_place hM hm (fun q => q i), mul_assoc]
    congr 1
    have : ∀ u : Fin 3 → ℝ, (b + M *ᵥ u) i = b i * 1 + ∑ k, M i k * u k := fun u => by
      simp [Matrix.mulVec, dotProduct]
    simp only [this]
    rw [integral_add (hint _ (by fun_prop)) (hint _ (by fun_prop)), integral_const_mul, h.zero,
      integral_finset_sum _ fun k _ => hint _ (by fun_prop)]
    simp only [integral_const_mul, h.one, mul_zero, Finset.sum_const_zero, add_zero]
    ring
  · have hc : IsCompact (Moment.place b M U) := h.cpt.image (by
      refine continuous_const.add ?_
      exact (LinearMap.toContinuousLinearMap (Matrix.toLin' M)).continuous)
    exact (show Continuous fun q : Fin 3 → ℝ => (q i - b i) * (q j - b j) by fun_prop).continuousOn.integrableOn_compact hc
  · rw [integral_place hM hm (fun q => (q i - b i) * (q j - b j))]
    congr 1
    have : ∀ u : Fin 3 → ℝ, ((b + M *ᵥ u) i - b i) * ((b + M *ᵥ u) j - b j) = ∑ k, ∑ l, M i k * M j l * (u k * u l) := fun u => by
      simp only [Pi.add_apply, add_sub_cancel_left, Matrix.mulVec, dotProduct, Finset.sum_mul_sum]
      refine Finset.sum_congr rfl fun k _ => Finset.sum_congr rfl fun l _ => by ring
    simp only [this]
    rw [integral_finset_sum _ fun k _ => hint _ (by fun_prop)]
    refine Finset.sum_congr rfl fun k _ => ?_
    rw [integral_finset_sum _ fun l _ => hint _ (by fun_prop)]
    simp only [integral_const_mul, h.two]
    simp
    ring

/-- The scaled and rotated solid: volume, centroid and inertia. -/
theorem Has.mass {U : Set (Fin 3 → ℝ)} {V : ℝ} {s : Fin 3 → ℝ} (h : Has U V s) (hV : V ≠ 0) {b : Vec3 ℝ} {E : Mat3 ℝ}
    (hE : E.t.mulMat E = .ident) {d0 d1 d2 : ℝ} (h0 : 0 < d0) (h1 : 0 < d1) (h2 : 0 < d2) {S : Set (Vec3 ℝ)}
    (hS : Spec.pts S = Moment.place b.toFin (Mat3.toMatrix ⟨E.x.mul d0, E.y.mul d1, E.z.mul d2⟩) U) :
    Spec.IsVolume S (d0 * d1 * d2 * V) ∧ Spec.IsCentroid S b ∧
    ∀ ρ, Spec.IsInertia S ρ b (E.rotMat (Mat3.create (ρ * (d0 * d1 * d2) * (d1 ^ 2 * s 1 + d2 ^ 2 * s 2)) 0 0
      0 (ρ * (d0 * d1 * d2) * (d0 ^ 2 * s 0 + d2 ^ 2 * s 2)) 0 0 0 (ρ * (d0 * d1 * d2) * (d0 ^ 2 * s 0 + d1 ^ 2 * s 1)))) := by
  set M := Mat3.toMatrix (⟨E.x.mul d0, E.y.mul d1, E.z.mul d2⟩ : Mat3 ℝ) with hM
  have hdet2 : E.det ^ 2 = 1 := by
    have : (E.t.mulMat E).det = E.det ^ 2 := by simp only [zeo]; ring
    rw [← this, hE]; simp only [zeo]; norm_num
  have hEabs : |E.det| = 1 := by
    rcases mul_self_eq_one_iff.1 ((sq E.det).symm.trans hdet2) with h | h <;> simp [h]
  have hMd : M.det = E.det * (d0 * d1 * d2) := by
    rw [hM]; simp only [Mat3.toMatrix, Matrix.det_fin_three, zeo, Matrix.of_apply, Matrix.cons_val', Matrix.cons_val_zero, Matrix.cons_val_one, Matrix.cons_val]
    ring
  have hMabs : |M.det| = d0 * d1 * d2 := by
    rw [hMd, abs_mul, hEabs, one_mul, abs_of_pos (by positivity)]
  have hM0 : M.det ≠ 0 := by
    intro hh; rw [hh, abs_zero] at hMabs
    have : 0 < d0 * d1 * d2 := by positivity
    linarith
  obtain ⟨p0, p1, pi, p2⟩ := h.place (b := b.toFin) hM0
  rw [← hS, hMabs] at p0 p1 p2
  rw [← hS] at pi
  have hvol : Spec.integral S (fun _ => 1) = d0 * d1 * d2 * V := p0
  have e0 := p1 0; have e1 := p1 1; have e2 := p1 2
  refine ⟨hvol, ⟨?_, ?_, ?_, ?_⟩, ?_⟩
  · rw [hvol]; positivity
  · rw [hvol]; exact e0
  · rw [hvol]; exact e1
  · rw [hvol]; exact e2
  · intro ρ i j
    have hmt : E.mulMat E.t = .ident := (Mat3.orth_iff' E).1 ((Mat3.orth_iff E).2 hE)
    have key : Spec.integral S (fun q => (if i = j then Spec.sqd q b else 0) - (q.toFin i - b.toFin i) * (q.toFin j - b.toFin j)) =
        (if i = j then ∑ k, d0 * d1 * d2 * ∑ l, M k l * s l * M k l else 0) - d0 * d1 * d2 * ∑ l, M i l * s l * M j l := by
      have hq : ∀ (p : Fin 3 → ℝ) k, (⟨p 0, p 1, p 2⟩ : Vec3 ℝ).toFin k = p k := fun p k => by fin_cases k <;> rfl
      have hsq : ∀ p : Fin 3 → ℝ, Spec.sqd ⟨p 0, p 1, p 2⟩ b = ∑ k, (p k - b.toFin k) * (p k - b.toFin k) := fun p => by
        rw [Fin.sum_univ_three]; simp only [Spec.sqd, Vec3.toFin, Matrix.cons_val_zero, Matrix.cons_val_one, Matrix.cons_val]; ring
      unfold Spec.integral
      simp only [hq, hsq]
      rw [← p2 i j]
      split
      · rw [integral_sub (integrable_finset_sum _ fun k _ => pi k k) (pi i j), integral_finset_sum _ fun k _ => pi k k]
        simp only [p2]
      · simp only [zero_sub, integral_neg]
    rw [Spec.inertia, key]
    have t1 := congrArg (fun m : Mat3 ℝ => m.x.x) hE
    have t2 := congrArg (fun m : Mat3 ℝ => m.y.y) hE
    have t3 := congrArg (fun m : Mat3 ℝ => m.z.z) hE
    have m1 := congrArg (fun m : Mat3 ℝ => m.x.x) hmt
    have m2 := congrArg (fun m : Mat3 ℝ => m.y.y) hmt
    have m3 := congrArg (fun m : Mat3 ℝ => m.z.z) hmt
    have m4 := congrArg (fun m : Mat3 ℝ => m.x.y) hmt
    have m5 := congrArg (fun m : Mat3 ℝ => m.x.z) hmt
    have m6 := congrArg (fun m : Mat3 ℝ => m.y.z) hmt
    simp only [zeo] at t1 t2 t3 m1 m2 m3 m4 m5 m6
    set t := d0 ^ 2 * s 0 + d1 ^ 2 * s 1 + d2 ^ 2 * s 2
    set D := d0 * d1 * d2
    have hdiag : ∑ k, D * ∑ l, M k l * s l * M k l = D * t := by
      simp only [Fin.sum_univ_three, hM, Mat3.toMatrix, zeo, Matrix.of_apply, Matrix.cons_val', Matrix.cons_val_zero, Matrix.cons_val_one, Matrix.cons_val]
      linear_combination D * d0 ^ 2 * s 0 * t1 + D * d1 ^ 2 * s 1 * t2 + D * d2 ^ 2 * s 2 * t3
    rw [hdiag]
    fin_cases i <;> fin_cases j <;>
      simp [Fin.sum_univ_three, hM, Mat3.toMatrix, zeo, Mat3.rotMat, Mat3.create]
    · linear_combination ρ * D * t * m1
    · linear_combination ρ * D * t * m4
    · linear_combination ρ * D * t * m5
    · linear_combination ρ * D * t * m4
    · linear_combination ρ * D * t * m2
    · linear_combination ρ * D * t * m6
    · linear_combination ρ * D * t * m5
    · linear_combination ρ * D * t * m6
    · linear_combination ρ * D * t * m3

end Zeo.Moment
