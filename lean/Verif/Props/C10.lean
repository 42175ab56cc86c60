import Verif.Props.C11
import Mathlib.Analysis.SpecialFunctions.Trigonometric.Inverse
import Mathlib.Analysis.SpecialFunctions.Trigonometric.Bounds
import Mathlib.LinearAlgebra.Matrix.Trace

/-! # C10: angle-axis vectors round-trip through rotation matrices -/

namespace Zeo
open Matrix Spec

/-- Polar form of a rotation: angle `2φ`, `φ ∈ [0, π/2]`, and a vector of length `sin φ`. -/
theorem Mat3.IsRot.polar {r : Mat3 ℝ} (h : r.IsRot) : ∃ (φ : ℝ) (v : Vec3 ℝ), 0 ≤ φ ∧ φ ≤ Real.pi / 2 ∧
    v.norm = Real.sin φ ∧ r = EP.toMat ⟨Real.cos φ, v⟩ ∧ EP.IsUnit ⟨Real.cos φ, v⟩ := by
  obtain ⟨q, -, hq, rfl⟩ := C11_ofMat r h
  have key : ∀ q : EP ℝ, q.IsUnit → 0 ≤ q.w → ∃ (φ : ℝ) (v : Vec3 ℝ), 0 ≤ φ ∧ φ ≤ Real.pi / 2 ∧
      v.norm = Real.sin φ ∧ q.toMat = EP.toMat ⟨Real.cos φ, v⟩ ∧ EP.IsUnit ⟨Real.cos φ, v⟩ := by
    intro q hq hw
    have h1 : q.w ≤ 1 := by
      unfold EP.IsUnit at hq
      nlinarith [sq_nonneg q.v.x, sq_nonneg q.v.y, sq_nonneg q.v.z]
    have hc : Real.cos (Real.arccos q.w) = q.w := Real.cos_arccos (by linarith) h1
    refine ⟨Real.arccos q.w, q.v, Real.arccos_nonneg _, ?_, ?_, ?_, ?_⟩
    · exact Real.arccos_le_pi_div_two.2 hw
    · rw [Real.sin_arccos, Vec3.norm]; congr 1
      unfold EP.IsUnit at hq; simp only [zeo]; linear_combination hq
    · rw [hc]
    · rw [hc]; exact hq
  rcases le_total 0 q.w with hw | hw
  · exact key q hq hw
  · have e : q.toMat = q.rev.toMat := by vring
    rw [e]
    refine key q.rev ?_ ?_
    · unfold EP.IsUnit at *; simp only [zeo]; linear_combination hq
    · simp only [zeo]; linarith

private theorem norm_eq_zero {v : Vec3 ℝ} (h : v.norm = 0) : v = .zero := by
  have h2 := v.norm_sq; rw [h] at h2; simp only [zeo] at h2
  have hx := mul_self_nonneg v.x; have hy := mul_self_nonneg v.y; have hz := mul_self_nonneg v.z
  ext <;> simp only [zeo] <;> apply mul_self_eq_zero.1 <;> nlinarith

theorem Vec3.norm_mul (v : Vec3 ℝ) (k : ℝ) : (v.mul k).norm = |k| * v.norm := by
  unfold Vec3.norm
  have : (v.mul k).sqrNorm = k * k * v.sqrNorm := by vring
  rw [this, Real.sqrt_mul (mul_self_nonneg k), Real.sqrt_mul_self_eq_abs]

/-- A tiny vector is short. -/
theorem Vec3.norm_le_of_isTol {τ : ℝ} {v : Vec3 ℝ} (h : v.isTol τ) : v.norm ≤ Real.sqrt 3 * τ := by
  have ht : 0 ≤ τ := (abs_nonneg _).trans h.1
  have hx := sq_le_sq' (by linarith [(abs_le.1 h.1).1]) (abs_le.1 h.1).2
  have hy := sq_le_sq' (by linarith [(abs_le.1 h.2.1).1]) (abs_le.1 h.2.1).2
  have hz := sq_le_sq' (by linarith [(abs_le.1 h.2.2).1]) (abs_le.1 h.2.2).2
  have : Real.sqrt 3 * τ = Real.sqrt (3 * (τ * τ)) := by
    rw [Real.sqrt_mul (by norm_num), Real.sqrt_mul_self ht]
  rw [this, Vec3.norm]
  apply Real.sqrt_le_sqrt
  simp only [zeo]; linarith

/-- The angle-axis vector of `toMat (cos φ, v)`, `|v| = sin φ`, with the vector `v` scaled to
length `2φ` has the same matrix. -/
private theorem fromAA_polar {τ φ : ℝ} (hτ : 0 ≤ τ) (hφ : Real.sqrt 3 * τ < 2 * φ) (v : Vec3 ℝ)
    (hs : 0 < Real.sin φ) (hv : v.norm = Real.sin φ) :
    Mat3.fromAA τ (v.mul (2 * φ / Real.sin φ)) = EP.toMat ⟨Real.cos φ, v⟩ := by
  have hφ0 : 0 < φ := by
    have : 0 ≤ Real.sqrt 3 * τ := mul_nonneg (Real.sqrt_nonneg _) hτ
    linarith
  have hn : (v.mul (2 * φ / Real.sin φ)).norm = 2 * φ := by
    rw [Vec3.norm_mul, hv, abs_of_pos (by positivity)]; field_simp
  have ht : ¬ (v.mul (2 * φ / Real.sin φ)).isTol τ := fun h => by
    have := Vec3.norm_le_of_isTol h; linarith
  rw [(Mat3.fromAA_eq_toMat hτ ht).1, hn]
  have e : (2 * φ / 2) = φ := by ring
  rw [e]
  have e2 : (v.mul (2 * φ / Real.sin φ)).mul (Real.sin φ / (2 * φ)) = v := by
    have : Real.sin φ / (2 * φ) * (2 * φ / Real.sin φ) = 1 := by field_simp
    ext <;> simp only [zeo] <;> rw [← mul_assoc, this, one_mul]
  rw [e2]

/-- The quantities `zMat3DToAA` computes from a rotation in polar form. -/
private theorem toAA_parts {φ : ℝ} {v : Vec3 ℝ} (h0 : 0 ≤ φ) (h1 : φ ≤ Real.pi / 2)
    (hv : v.norm = Real.sin φ) (r : Mat3 ℝ) (hr : r = EP.toMat ⟨Real.cos φ, v⟩) :
    (⟨r.y.z - r.z.y, r.z.x - r.x.z, r.x.y - r.y.x⟩ : Vec3 ℝ) = v.mul (4 * Real.cos φ) ∧
    (v.mul (4 * Real.cos φ)).norm = 2 * Real.sin (2 * φ) ∧
    r.x.x + r.y.y + r.z.z - 1 = 2 * Real.cos (2 * φ) ∧
    atan2 (2 * Real.sin (2 * φ)) (2 * Real.cos (2 * φ)) = 2 * φ := by
  have hc : 0 ≤ Real.cos φ := Real.cos_nonneg_of_mem_Icc ⟨by linarith, h1⟩
  have hp := Real.sin_sq_add_cos_sq φ
  have hvs := v.norm_sq
  rw [hv] at hvs
  refine ⟨?_, ?_, ?_, ?_⟩
  · subst hr; vring
  · rw [Vec3.norm_mul, hv, abs_of_nonneg (by linarith), Real.sin_two_mul]; ring
  · subst hr; rw [Real.cos_two_mul]; simp only [zeo] at *; linear_combination -hp + hvs
  · exact atan2_of_polar two_pos (by linarith [Real.pi_pos]) (by linarith)

private theorem half_turn_aux {v : Vec3 ℝ} (hv : v.norm = 1) (i : Fin 3)
    (hi : v.e i ≠ 0) (r : Mat3 ℝ) (hr : r = EP.toMat ⟨0, v⟩) (w : Vec3 ℝ) :
    let aa := w.setE i (Real.sqrt (1/2 * r.e i i + 1/2))
    let aa := aa.setE (i+1) (1/2 * r.e i (i+1) / aa.e i)
    let aa := aa.setE (i+2) (1/2 * r.e i (i+2) / aa.e i)
    aa = v ∨ aa = v.rev := by
  have hvs := v.norm_sq
  rw [hv] at hvs; simp only [zeo] at hvs
  have hd : 1/2 * r.e i i + 1/2 = v.e i * v.e i := by
    subst hr; fin_cases i <;> simp only [zeo, Fin.mk_one, Fin.zero_eta, Fin.reduceFinMk] <;> linear_combination hvs / 2
  rw [hd, Real.sqrt_mul_self_eq_abs]
  intro aa1 aa2 aa3
  rcases lt_or_gt_of_ne hi with hneg | hpos
  · right
    have habs : |v.e i| = -v.e i := abs_of_neg hneg
    simp only [aa3, aa2, aa1, habs]
    subst hr
    fin_cases i <;> simp only [zeo, Fin.mk_one, Fin.zero_eta, Fin.reduceFinMk, Fin.reduceAdd, Fin.isValue] at hneg ⊢ <;>
      have hne := hneg.ne <;> ext <;> simp only [] <;> field_simp <;> ring
  · left
    have habs : |v.e i| = v.e i := abs_of_pos hpos
    simp only [aa3, aa2, aa1, habs]
    subst hr
    fin_cases i <;> simp only [zeo, Fin.mk_one, Fin.zero_eta, Fin.reduceFinMk, Fin.reduceAdd, Fin.isValue] at hpos ⊢ <;>
      have hne := hpos.ne' <;> ext <;> simp only [] <;> field_simp <;> ring

private theorem diag_nonzero {v : Vec3 ℝ} (hv : v.norm = 1) (r : Mat3 ℝ)
    (hr : r = EP.toMat ⟨0, v⟩) : v.e (Mat3.diagMaxIndex r) ≠ 0 := by
  have hvs := v.norm_sq
  rw [hv] at hvs; simp only [zeo] at hvs
  have hx := mul_self_nonneg v.x; have hy := mul_self_nonneg v.y; have hz := mul_self_nonneg v.z
  subst hr
  unfold Mat3.diagMaxIndex
  split_ifs with h1 h2 h2 <;> simp only [zeo] at * <;> intro h0 <;>
    have h0' := congrArg (fun a => a * a) h0 <;> simp only [mul_zero] at h0' <;> linarith

/-- Round trip for every rotation outside the tolerance bands.  `θ` is the rotation angle
(`trace = 1 + 2 cos θ`): the result is exact for the identity, for half turns, and whenever
`2 sin θ` and `θ/√3` exceed the tolerance. -/
theorem C10_roundtrip_partial (τ : ℝ) (hτ : 0 ≤ τ) (hτ' : Real.sqrt 3 * τ < Real.pi)
    (r : Mat3 ℝ) (h : r.IsRot) (θ : ℝ) (h0 : 0 ≤ θ) (h1 : θ ≤ Real.pi)
    (ht : r.toMatrix.trace = 1 + 2 * Real.cos θ)
    (hθ : θ = 0 ∨ θ = Real.pi ∨ (τ < 2 * Real.sin θ ∧ Real.sqrt 3 * τ < θ)) :
    Mat3.fromAA τ (Mat3.toAA τ r) = r := by
  obtain ⟨φ, v, hφ0, hφ1, hv, hr, hu⟩ := h.polar
  obtain ⟨p1, p2, p3, p4⟩ := toAA_parts hφ0 hφ1 hv r hr
  have hθφ : θ = 2 * φ := by
    apply Real.injOn_cos ⟨h0, h1⟩ ⟨by linarith, by linarith⟩
    have : r.toMatrix.trace = r.x.x + r.y.y + r.z.z := by
      simp [Matrix.trace, Mat3.toMatrix, Fin.sum_univ_three]
    linarith
  have h13 : (1:ℝ) ≤ Real.sqrt 3 := by rw [Real.one_le_sqrt]; norm_num
  have hτ3 : τ ≤ Real.sqrt 3 * τ := by nlinarith
  simp only [Mat3.toAA]
  rw [p1, p2, p3, p4]
  rcases hθ with rfl | rfl | ⟨hl, ha⟩
  · -- identity
    have hφ : φ = 0 := by linarith
    subst hφ
    have hv0 : v = .zero := norm_eq_zero (by rw [hv, Real.sin_zero])
    rw [if_pos (by simp [zIsTol, hτ]), Mat3.fromAA, if_pos (by simp [Vec3.isTol, zIsTol, zeo, hτ]), hr, hv0,
      Real.cos_zero]
    ext <;> simp [zeo]
  · -- half turn
    have hφ : φ = Real.pi / 2 := by linarith
    subst hφ
    have hπ : 2 * (Real.pi / 2) = Real.pi := by ring
    rw [Real.cos_pi_div_two] at hr
    rw [Real.sin_pi_div_two] at hv
    rw [hπ, if_neg (by simp only [zIsTol, abs_of_pos Real.pi_pos, not_le]; linarith),
      if_neg (by simp [zIsTol, hτ])]
    have hd := diag_nonzero hv r hr
    have hh := half_turn_aux hv _ hd r hr (v.mul (4 * Real.cos (Real.pi/2)))
    have fin : ∀ u : Vec3 ℝ, u.norm = 1 → Mat3.fromAA τ (u.mul Real.pi) = EP.toMat ⟨0, u⟩ := by
      intro u hu1
      have := fromAA_polar (φ := Real.pi/2) hτ (by linarith) u (by rw [Real.sin_pi_div_two]; norm_num)
        (by rw [Real.sin_pi_div_two]; exact hu1)
      rw [Real.sin_pi_div_two, Real.cos_pi_div_two, div_one, hπ] at this
      exact this
    rcases hh with hh | hh
    · rw [hh, fin v hv, ← hr]
    · have hrev : v.rev.norm = 1 := by
        have e : v.rev.sqrNorm = v.sqrNorm := by vring
        rw [← hv, Vec3.norm, Vec3.norm, e]
      have e2 : EP.toMat (⟨0, v.rev⟩ : EP ℝ) = EP.toMat ⟨0, v⟩ := by vring
      rw [hh, fin _ hrev, e2, ← hr]
  · -- generic
    rw [hθφ] at hl ha
    have hsc : 0 < Real.sin (2 * φ) := by linarith
    rw [Real.sin_two_mul] at hsc
    have hs0 : 0 ≤ Real.sin φ := by rw [← hv]; exact v.norm_nonneg
    have hc0 : 0 ≤ Real.cos φ := Real.cos_nonneg_of_mem_Icc ⟨by linarith, hφ1⟩
    have hs : 0 < Real.sin φ := lt_of_le_of_ne hs0 (fun e => by rw [← e] at hsc; linarith)
    have hc : 0 < Real.cos φ := lt_of_le_of_ne hc0 (fun e => by rw [← e] at hsc; linarith)
    rw [if_neg (by simp only [zIsTol, abs_of_nonneg (by linarith : 0 ≤ 2 * φ), not_le]; linarith),
      if_pos (by simp only [zIsTol, not_le]; exact lt_of_lt_of_le hl (le_abs_self _))]
    have e : (v.mul (4 * Real.cos φ)).mul (2 * φ / (2 * Real.sin (2 * φ))) =
        v.mul (2 * φ / Real.sin φ) := by
      have e' : 2 * φ / (2 * Real.sin (2 * φ)) * (4 * Real.cos φ) = 2 * φ / Real.sin φ := by
        rw [Real.sin_two_mul]; field_simp; ring
      ext <;> simp only [zeo] <;> rw [← mul_assoc, e']
    rw [e, fromAA_polar hτ ha v hs hv, hr]

/-- With zero tolerance the round trip is exact for every rotation matrix. -/
theorem C10_roundtrip_exact (r : Mat3 ℝ) (h : r.IsRot) :
    Mat3.fromAA 0 (Mat3.toAA 0 r) = r := by
  obtain ⟨φ, v, hφ0, hφ1, hv, hr, hu⟩ := h.polar
  obtain ⟨p1, p2, p3, p4⟩ := toAA_parts hφ0 hφ1 hv r hr
  have htr : r.toMatrix.trace = r.x.x + r.y.y + r.z.z := by
    simp [Matrix.trace, Mat3.toMatrix, Fin.sum_univ_three]
  refine C10_roundtrip_partial 0 le_rfl (by rw [mul_zero]; exact Real.pi_pos) r h (2 * φ) (by linarith) (by linarith)
    (by rw [htr]; linarith) ?_
  rcases eq_or_lt_of_le (by linarith : 0 ≤ 2 * φ) with h0 | h0
  · left; exact h0.symm
  rcases eq_or_lt_of_le (by linarith : 2 * φ ≤ Real.pi) with h1 | h1
  · right; left; exact h1
  · right; right
    exact ⟨by have := Real.sin_pos_of_pos_of_lt_pi h0 h1; linarith, by rw [mul_zero]; exact h0⟩

/-- The angle-axis vector has length equal to the rotation angle (in [0,π]) for exact
tolerance, so it is the shortest one. -/
theorem C10_length (r : Mat3 ℝ) (h : r.IsRot) :
    (Mat3.toAA 0 r).norm ≤ Real.pi ∧ r.toMatrix.trace = 1 + 2 * Real.cos (Mat3.toAA 0 r).norm := by
  obtain ⟨φ, v, hφ0, hφ1, hv, hr, hu⟩ := h.polar
  obtain ⟨p1, p2, p3, p4⟩ := toAA_parts hφ0 hφ1 hv r hr
  have htr : r.toMatrix.trace = r.x.x + r.y.y + r.z.z := by
    simp [Matrix.trace, Mat3.toMatrix, Fin.sum_univ_three]
  have key : (Mat3.toAA 0 r).norm = 2 * φ := by
    simp only [Mat3.toAA]
    rw [p1, p2, p3, p4]
    by_cases ha : zIsTol (2 * φ) 0
    · rw [if_pos ha]
      have : 2 * φ = 0 := abs_nonpos_iff.1 ha
      rw [this]; simp [Vec3.norm, zeo]
    rw [if_neg ha]
    by_cases hl : zIsTol (2 * Real.sin (2 * φ)) 0
    · rw [if_neg (not_not.2 hl)]
      have h2 : 2 * Real.sin (2 * φ) = 0 := abs_nonpos_iff.1 hl
      have h3 : 2 * φ = Real.pi := by
        by_contra hne
        have h4 : 0 < 2 * φ := lt_of_le_of_ne (by linarith) (fun e => ha (by rw [← e]; simp [zIsTol]))
        have := Real.sin_pos_of_pos_of_lt_pi h4 (lt_of_le_of_ne (by linarith) hne)
        linarith
      have hφ : φ = Real.pi / 2 := by linarith
      subst hφ
      rw [Real.cos_pi_div_two] at hr
      rw [Real.sin_pi_div_two] at hv
      have hd := diag_nonzero hv r hr
      have hh := half_turn_aux hv _ hd r hr (v.mul (4 * Real.cos (Real.pi/2)))
      have hrev : v.rev.norm = 1 := by
        have e : v.rev.sqrNorm = v.sqrNorm := by vring
        rw [← hv, Vec3.norm, Vec3.norm, e]
      rcases hh with hh | hh
      · rw [hh, Vec3.norm_mul, hv, abs_of_nonneg (by linarith [Real.pi_pos]), mul_one]
      · rw [hh, Vec3.norm_mul, hrev, abs_of_nonneg (by linarith [Real.pi_pos]), mul_one]
    · rw [if_pos hl, Vec3.norm_mul, p2]
      have h2 : 2 * Real.sin (2 * φ) ≠ 0 := fun e => hl (by rw [e]; simp [zIsTol])
      have h3 : 0 < 2 * Real.sin (2 * φ) := lt_of_le_of_ne
        (by have := Real.sin_nonneg_of_nonneg_of_le_pi (by linarith : 0 ≤ 2 * φ) (by linarith); linarith) h2.symm
      rw [abs_of_nonneg (div_nonneg (by linarith) h3.le), div_mul_cancel₀ _ h2]
  rw [key]
  exact ⟨by linarith, by rw [htr]; linarith⟩

/-- Rotating a vector by an angle-axis vector is multiplication by `zMat3DFromAA`. -/
theorem C10_vec3Rot (τ : ℝ) (hτ : 0 ≤ τ) (hτ' : Real.sqrt 3 * τ < 1) (v aa : Vec3 ℝ) :
    Vec3.rot τ v aa = some ((Mat3.fromAA τ aa).mulVec v) := by
  by_cases h : aa.isTol τ
  · rw [Vec3.rot, if_pos h, Mat3.fromAA, if_pos h]; congr 1; vring
  · have hp := Vec3.norm_pos_of_not_isTol hτ h
    have hs : aa.x * aa.x + aa.y * aa.y + aa.z * aa.z = aa.norm ^ 2 := by
      rw [Vec3.norm_sq]; simp only [zeo]
    have hn1 : (aa.mul (1 / aa.norm)).norm = 1 := by
      rw [Vec3.norm_mul, abs_of_pos (by positivity)]; field_simp
    have hnt : ¬ (aa.mul (1 / aa.norm)).isTol τ := fun h' => by
      have := Vec3.norm_le_of_isTol h'; linarith
    have hsq : (aa.mul (1 / aa.norm)).sqrNorm = 1 := by rw [← Vec3.norm_sq, hn1, one_pow]
    rw [Vec3.rot, if_neg h, Mat3.fromAA, if_neg h]
    simp only [Vec3.normalizeNC, Vec3.proj, if_neg hnt, hsq, div_one]
    congr 1
    generalize hl : aa.norm = l at *
    simp only [zeo] at hsq
    ext <;> simp only [zeo]
    · linear_combination (1 - Real.cos l) * v.x * hsq
    · linear_combination (1 - Real.cos l) * v.y * hsq
    · linear_combination (1 - Real.cos l) * v.z * hsq

/-- The quaternion of an angle-axis vector has the same matrix, for every vector. -/
theorem C10_ofAA (τ : ℝ) (hτ : 0 ≤ τ) (aa : Vec3 ℝ) :
    (EP.ofAA τ aa).toMat = Mat3.fromAA τ aa ∧ (EP.ofAA τ aa).IsUnit := by
  by_cases h : aa.isTol τ
  · rw [EP.ofAA, EP.createAA, if_pos h, Mat3.fromAA, if_pos h]
    exact ⟨by ext <;> simp [zeo], by simp [EP.IsUnit, zeo]⟩
  · have := Mat3.fromAA_eq_toMat hτ h
    rw [EP.ofAA, EP.createAA, if_neg h, this.1]
    have e : 1/2 * aa.norm = aa.norm / 2 := by ring
    rw [e]; exact ⟨rfl, this.2⟩

/-- The angle-axis vector of a unit quaternion has the same matrix whenever its vector part is
zero or above the tolerance. -/
theorem C10_EPtoAA (τ : ℝ) (hτ : 0 ≤ τ) (q : EP ℝ) (h : q.IsUnit)
    (hv : q.v.norm = 0 ∨ τ < q.v.norm) : Mat3.fromAA τ (EP.toAA τ q) = q.toMat := by
  rcases hv with hv | hv
  · have hz := norm_eq_zero hv
    rw [EP.toAA]; simp only [hv]
    rw [if_pos (by simp [zIsTol, hτ]), Mat3.fromAA, if_pos (by simp [Vec3.isTol, zIsTol, zeo, hτ])]
    unfold EP.IsUnit at h
    have hw : q.w * q.w = 1 := by rw [hz] at h; simp only [zeo] at h; linear_combination h
    ext <;> simp only [EP.toMat, hz] <;> simp only [zeo] <;> first | ring1 | linear_combination -hw
  · have hpos : 0 < q.v.norm := lt_of_le_of_lt hτ hv
    have hu : q.w * q.w + q.v.norm * q.v.norm = 1 := by
      unfold EP.IsUnit at h
      have := q.v.norm_sq; simp only [zeo] at this
      nlinarith
    obtain ⟨c1, c2⟩ := atan2_unit hu
    have hn : 0 ≤ atan2 q.v.norm q.w := atan2_nonneg hpos.le
    have hsin : q.v.norm ≤ atan2 q.v.norm q.w := by
      conv_lhs => rw [← c2]
      exact Real.sin_le hn
    simp only [EP.toAA]
    rw [if_neg (by simp only [zIsTol, not_le]; exact lt_of_lt_of_le hv (le_abs_self _))]
    have h32 : Real.sqrt 3 < 2 := by
      rw [Real.sqrt_lt' two_pos]; norm_num
    have := fromAA_polar (φ := atan2 q.v.norm q.w) hτ (by nlinarith) q.v (by rw [c2]; exact hpos) c2.symm
    rw [c2, c1] at this; exact this

/-- `zMat3DError(m1,m2)` is the rotation taking attitude `m2` to `m1`; `zAACascade(a1,a2)` is
the rotation `a1` followed by `a2` (zero tolerance). -/
theorem C10_error_cascade (m1 m2 : Mat3 ℝ) (h1 : m1.IsRot) (h2 : m2.IsRot) (a1 a2 : Vec3 ℝ) :
    Mat3.rot 0 m2 (Mat3.error 0 m1 m2) = m1 ∧
    Mat3.fromAA 0 (Mat3.aaCascade 0 a1 a2) = (Mat3.fromAA 0 a2).mulMat (Mat3.fromAA 0 a1) := by
  constructor
  · have e : m1.mulMatT m2 = m1.mulMat m2.t := by vring
    rw [Mat3.rot, Mat3.error, e, C10_roundtrip_exact _ (h1.mulMat h2.t)]
    have e2 : (m1.mulMat m2.t).mulMat m2 = m1.mulMat (m2.t.mulMat m2) := by vring
    have e3 : m1.mulMat Mat3.ident = m1 := by vring
    rw [e2, h2.tm, e3]
  · exact C10_roundtrip_exact _ ((C08_fromAA 0 le_rfl a2).mulMat (C08_fromAA 0 le_rfl a1))

/-- With a positive tolerance the round trip is not exact: rotations by less than the
tolerance are flattened to the identity. -/
theorem C10_flattened (τ : ℝ) (hτ : 0 < τ) (hτ1 : τ < 1) :
    ∃ r : Mat3 ℝ, r.IsRot ∧ Mat3.fromAA τ (Mat3.toAA τ r) ≠ r := by
  have hpi := Real.two_le_pi
  have hrot : (rzSC (Real.sin τ) (Real.cos τ)).IsRot := rzSC_isRot (by nlinarith [Real.sin_sq_add_cos_sq τ])
  refine ⟨rzSC (Real.sin τ) (Real.cos τ), hrot, ?_⟩
  have hs : 0 < Real.sin τ := Real.sin_pos_of_pos_of_lt_pi hτ (by linarith)
  have haa : (⟨0, 0, Real.sin τ - -Real.sin τ⟩ : Vec3 ℝ).norm = 2 * Real.sin τ := by
    rw [Vec3.norm]
    have : (⟨0, 0, Real.sin τ - -Real.sin τ⟩ : Vec3 ℝ).sqrNorm = (2 * Real.sin τ) * (2 * Real.sin τ) := by
      simp only [zeo]; ring
    rw [this, Real.sqrt_mul_self (by linarith)]
  have hA : Mat3.toAA τ (rzSC (Real.sin τ) (Real.cos τ)) = .zero := by
    have e : atan2 (2 * Real.sin τ) (Real.cos τ + Real.cos τ + 1 - 1) = τ := by
      have := atan2_of_polar (r := 2) two_pos (θ := τ) (by linarith) (by linarith)
      rw [show Real.cos τ + Real.cos τ + 1 - 1 = 2 * Real.cos τ by ring]; exact this
    simp only [Mat3.toAA, rzSC, zeo, sub_self]
    rw [haa, e, if_pos (by simp [zIsTol, abs_of_pos hτ])]
  rw [hA, Mat3.fromAA, if_pos (by simp [Vec3.isTol, zIsTol, zeo, hτ.le])]
  intro h
  have := congrArg (fun m => m.x.y) h
  simp [rzSC, zeo] at this
  linarith

/-- Hypotheses of the partial round trip: a quarter turn with tolerance 1e-12. -/
example : (1e-12 : ℝ) < 2 * Real.sin (Real.pi / 2) ∧ Real.sqrt 3 * 1e-12 < Real.pi / 2 := by
  rw [Real.sin_pi_div_two]
  have h32 : Real.sqrt 3 < 2 := by rw [Real.sqrt_lt' two_pos]; norm_num
  exact ⟨by norm_num, by nlinarith [Real.two_le_pi]⟩

end Zeo
