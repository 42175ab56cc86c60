import Verif.Props.C08
import Verif.Props.C10
import Verif.Props.C58
import Verif.Lemmas.Atan2
import Verif.Lemmas.Ortho
import Verif.Model.Frame

/-! # C64: angles, polar coordinates and conversions between representations -/

open Matrix

namespace Zeo
open Moment
noncomputable section

private theorem sqrt_sq_mul {a b : ℝ} (ha : 0 ≤ a) (hb : 0 ≤ b) {x : ℝ} (h : x = (a * b) ^ 2) : Real.sqrt x = a * b := by
  rw [h, Real.sqrt_sq (mul_nonneg ha hb)]

/-! ## Polar coordinates -/

/-- **C64** (`zVec2DCreatePolar`, `zVec3DCreatePolar`): the point is at distance `r` from the origin, and the angles
are recovered from its coordinates. -/
theorem C64_polar {r θ φ : ℝ} (hr : 0 < r) :
    ((Vec2.createPolar r θ).norm = r ∧ (-Real.pi < θ → θ ≤ Real.pi →
      atan2 (Vec2.createPolar r θ).y (Vec2.createPolar r θ).x = θ)) ∧
    ((Vec3.createPolar r θ φ).norm = r ∧ (0 ≤ θ → θ ≤ Real.pi → (Vec3.createPolar r θ φ).angle .ez none = θ) ∧
      (0 < θ → θ < Real.pi → -Real.pi < φ → φ ≤ Real.pi →
        atan2 (Vec3.createPolar r θ φ).y (Vec3.createPolar r θ φ).x = φ)) := by
  have h := Real.sin_sq_add_cos_sq θ
  have h' := Real.sin_sq_add_cos_sq φ
  refine ⟨⟨?_, fun h1 h2 => atan2_of_polar hr h1 h2⟩, ?_, fun h1 h2 => ?_, fun h1 h2 h3 h4 => ?_⟩
  · rw [Vec2.norm, show (Vec2.createPolar r θ).sqrNorm = r ^ 2 by
      simp only [Vec2.createPolar, Vec2.sqrNorm, Vec2.inner]; linear_combination r ^ 2 * h, Real.sqrt_sq hr.le]
  · rw [Vec3.norm, show (Vec3.createPolar r θ φ).sqrNorm = r ^ 2 by
      simp only [Vec3.createPolar, Vec3.sqrNorm, Vec3.inner]
      linear_combination r ^ 2 * h + r ^ 2 * Real.sin θ ^ 2 * h', Real.sqrt_sq hr.le]
  · have e1 : ((Vec3.createPolar r θ φ).outer .ez).norm = r * Real.sin θ := by
      rw [Vec3.norm]
      refine sqrt_sq_mul hr.le (Real.sin_nonneg_of_nonneg_of_le_pi h1 h2) ?_
      simp only [Vec3.createPolar, zeo]; linear_combination r ^ 2 * Real.sin θ ^ 2 * h'
    have e2 : (Vec3.createPolar r θ φ).inner .ez = r * Real.cos θ := by simp only [Vec3.createPolar, zeo]; ring
    simp only [Vec3.angle, e1, e2]
    exact atan2_of_polar hr (by linarith [Real.pi_pos]) h2
  · exact atan2_of_polar (mul_pos hr (Real.sin_pos_of_pos_of_lt_pi h1 h2)) h3 h4

/-! ## Angles between vectors -/

private theorem nsq2 (v : Vec2 ℝ) : v.norm ^ 2 = v.x * v.x + v.y * v.y := by
  unfold Vec2.norm; rw [Real.sq_sqrt (by simp only [Vec2.sqrNorm, Vec2.inner]; nlinarith [mul_self_nonneg v.x, mul_self_nonneg v.y])]
  simp only [Vec2.sqrNorm, Vec2.inner]

private theorem nsq3 (v : Vec3 ℝ) : v.norm ^ 2 = v.x * v.x + v.y * v.y + v.z * v.z := by
  rw [Vec3.norm_sq]; simp only [zeo]

/-- **C64** (`zVec2DAngle`, `zVec2DRot`): turning `v1` by the angle from `v1` to `v2` brings it onto the ray of `v2`;
the angle is between `-π` and `π`. -/
theorem C64_angle2 (v1 v2 : Vec2 ℝ) :
    v2.norm • (v1.rot (v1.angle v2)).toFin = v1.norm • v2.toFin ∧
    -Real.pi < v1.angle v2 ∧ v1.angle v2 ≤ Real.pi := by
  refine ⟨?_, atan2_mem _ _⟩
  have h := atan2_cos_sin (v1.inner v2) (v1.outer v2)
  have e : Real.sqrt (v1.inner v2 * v1.inner v2 + v1.outer v2 * v1.outer v2) = v1.norm * v2.norm := by
    refine sqrt_sq_mul (a := v1.norm) (b := v2.norm) (Real.sqrt_nonneg _) (Real.sqrt_nonneg _) ?_
    rw [mul_pow, nsq2, nsq2]; simp only [Vec2.inner, Vec2.outer]; ring
  rw [e] at h
  obtain ⟨h1, h2⟩ := h
  have e1 := nsq2 v1
  change _ * Real.cos (v1.angle v2) = _ at h1
  change _ * Real.sin (v1.angle v2) = _ at h2
  simp only [Vec2.inner, Vec2.outer] at h1 h2
  unfold Vec2.rot
  generalize Real.cos (v1.angle v2) = c at *
  generalize Real.sin (v1.angle v2) = s at *
  by_cases h0 : v1.norm = 0
  · rw [h0] at e1
    have hx : v1.x = 0 := by nlinarith [mul_self_nonneg v1.x, mul_self_nonneg v1.y]
    have hy : v1.y = 0 := by nlinarith [mul_self_nonneg v1.x, mul_self_nonneg v1.y]
    ext i; fin_cases i <;> simp [Vec2.toFin, hx, hy, h0]
  · ext i; fin_cases i <;> simp [Vec2.toFin] <;> refine mul_left_cancel₀ h0 ?_
    · linear_combination v1.x * h1 - v1.y * h2 - v2.x * e1
    · linear_combination v1.y * h1 + v1.x * h2 - v2.y * e1

/-- **C64** (`zVec3DAngle`): without a reference normal the angle is in `[0, π]` and satisfies
`⟨v1, v2⟩ = |v1||v2| cos θ`; with a normal `n` its sign tells whether `v1 × v2` points to the side of `n`. -/
theorem C64_angle3 (v1 v2 n : Vec3 ℝ) :
    v1.toFin ⬝ᵥ v2.toFin = v1.norm * v2.norm * Real.cos (v1.angle v2 none) ∧
    0 ≤ v1.angle v2 none ∧ v1.angle v2 none ≤ Real.pi ∧
    (0 ≤ (v1.toFin ⨯₃ v2.toFin) ⬝ᵥ n.toFin → v1.angle v2 (some n) = v1.angle v2 none) ∧
    ((v1.toFin ⨯₃ v2.toFin) ⬝ᵥ n.toFin < 0 → v1.angle v2 (some n) = -v1.angle v2 none) := by
  have ei : v1.toFin ⬝ᵥ v2.toFin = v1.inner v2 := by simp [Vec3.toFin, Vec3.inner, dotProduct, Fin.sum_univ_three]
  have eo : (v1.toFin ⨯₃ v2.toFin) ⬝ᵥ n.toFin = (v1.outer v2).inner n := by
    simp [Vec3.toFin, Vec3.inner, Vec3.outer, dotProduct, Fin.sum_univ_three, crossProduct]
  have hs : 0 ≤ (v1.outer v2).norm := Real.sqrt_nonneg _
  rw [ei, eo]
  refine ⟨?_, atan2_nonneg hs, (atan2_mem _ _).2, fun h => ?_, fun h => ?_⟩
  · have h := (atan2_cos_sin (v1.inner v2) (v1.outer v2).norm).1
    rw [show Real.sqrt (v1.inner v2 * v1.inner v2 + (v1.outer v2).norm * (v1.outer v2).norm) = v1.norm * v2.norm from
      sqrt_sq_mul (a := v1.norm) (b := v2.norm) (Real.sqrt_nonneg _) (Real.sqrt_nonneg _) (by
        rw [mul_pow, nsq3, nsq3, ← sq (v1.outer v2).norm, nsq3]; simp only [zeo]; ring)] at h
    exact h.symm
  · simp only [Vec3.angle, if_neg (not_lt.2 h)]
  · simp only [Vec3.angle, if_pos h]
    have hpos : (v1.outer v2).norm ≠ 0 := fun h0 => by
      have := nsq3 (v1.outer v2)
      rw [h0] at this
      generalize v1.outer v2 = d at *
      have a1 : d.x = 0 := by nlinarith [mul_self_nonneg d.x, mul_self_nonneg d.y, mul_self_nonneg d.z]
      have a2 : d.y = 0 := by nlinarith [mul_self_nonneg d.x, mul_self_nonneg d.y, mul_self_nonneg d.z]
      have a3 : d.z = 0 := by nlinarith [mul_self_nonneg d.x, mul_self_nonneg d.y, mul_self_nonneg d.z]
      simp [Vec3.inner, a1, a2, a3] at h
    generalize (v1.outer v2).norm = s at *
    have : (⟨v1.inner v2, -s⟩ : ℂ) = (starRingEnd ℂ) ⟨v1.inner v2, s⟩ := by apply Complex.ext <;> simp
    rw [atan2, this, Complex.arg_conj, if_neg]
    · rfl
    · intro h0
      rw [Complex.arg_eq_pi_iff] at h0
      exact hpos h0.2

/-- **C64** (`zVec3DAAError`): the rotation described by the angle-axis error from `v1` to `v2` brings `v1` onto the
ray of `v2`, unless `v1 × v2` is within the tolerance. -/
theorem C64_aaError_partial {τ : ℝ} (hτ : 0 ≤ τ) (v1 v2 : Vec3 ℝ) (h : ¬ (v1.outer v2).isTol τ)
    (h' : ¬ (v1.aaError τ v2).isTol τ) :
    v2.norm • ((Mat3.fromAA τ (v1.aaError τ v2)).toMatrix *ᵥ v1.toFin) = v1.norm • v2.toFin := by
  rw [(C08_fromAA_rodrigues τ hτ (v1.aaError τ v2) v1).1 h']
  have hs := Vec3.norm_pos_of_not_isTol hτ h
  have hd := nsq3 (v1.outer v2)
  have ha : v1.aaError τ v2 = (v1.outer v2).mul (atan2 (v1.outer v2).norm (v1.inner v2) / (v1.outer v2).norm) := by
    simp only [Vec3.aaError, if_neg h]
  have hc := atan2_cos_sin (v1.inner v2) (v1.outer v2).norm
  rw [show Real.sqrt (v1.inner v2 * v1.inner v2 + (v1.outer v2).norm * (v1.outer v2).norm) = v1.norm * v2.norm from
    sqrt_sq_mul (a := v1.norm) (b := v2.norm) (Real.sqrt_nonneg _) (Real.sqrt_nonneg _) (by
      rw [mul_pow, nsq3, nsq3, ← sq (v1.outer v2).norm, nsq3]; simp only [zeo]; ring)] at hc
  have h0 : v1.norm ≠ 0 := fun e => by rw [e, zero_mul, zero_mul] at hc; linarith [hc.2]
  have hθ : 0 < atan2 (v1.outer v2).norm (v1.inner v2) := by
    refine lt_of_le_of_ne (atan2_nonneg hs.le) fun e => ?_
    rw [← e, Real.sin_zero, mul_zero] at hc; linarith [hc.2]
  have e1 := nsq3 v1
  generalize atan2 (v1.outer v2).norm (v1.inner v2) = θ at *
  rw [ha]
  set S := (v1.outer v2).norm with hS
  have hl : Real.sqrt (((v1.outer v2).mul (θ / S)).toFin ⬝ᵥ ((v1.outer v2).mul (θ / S)).toFin) = θ := by
    have : ((v1.outer v2).mul (θ / S)).toFin ⬝ᵥ ((v1.outer v2).mul (θ / S)).toFin = θ ^ 2 := by
      have : ((v1.outer v2).mul (θ / S)).toFin ⬝ᵥ ((v1.outer v2).mul (θ / S)).toFin = (θ / S) ^ 2 * S ^ 2 := by
        rw [hd]; simp [Vec3.toFin, Vec3.mul, dotProduct, Fin.sum_univ_three]; ring
      rw [this]; field_simp
    rw [this, Real.sqrt_sq hθ.le]
  rw [hl]
  have hn : θ⁻¹ • ((v1.outer v2).mul (θ / S)).toFin = S⁻¹ • (v1.outer v2).toFin := by
    ext i; fin_cases i <;> simp [Vec3.toFin, Vec3.mul] <;> field_simp
  rw [hn]
  obtain ⟨h1, h2⟩ := hc
  simp only [Vec3.inner] at h1
  have hd2 : (v1.outer v2).toFin ⬝ᵥ v1.toFin = 0 := by
    simp [Vec3.toFin, Vec3.outer, dotProduct, Fin.sum_univ_three]; ring
  have hz : S⁻¹ • (v1.outer v2).toFin ⬝ᵥ v1.toFin = 0 := by rw [smul_dotProduct, hd2, smul_zero]
  unfold Spec.rodrigues
  rw [hz, mul_zero, zero_smul, add_zero]
  generalize Real.cos θ = c at *
  have hsn : Real.sin θ * S⁻¹ * (v1.norm * v2.norm) = 1 := by
    rw [mul_comm, ← mul_assoc, h2]; exact mul_inv_cancel₀ hs.ne'
  generalize Real.sin θ = sn at *
  ext i
  fin_cases i <;> simp [Vec3.toFin, Vec3.outer, crossProduct] <;> refine mul_left_cancel₀ h0 ?_
  · linear_combination v1.x * h1 + ((v1.z * v2.x - v1.x * v2.z) * v1.z - (v1.x * v2.y - v1.y * v2.x) * v1.y) * hsn - v2.x * e1
  · linear_combination v1.y * h1 + ((v1.x * v2.y - v1.y * v2.x) * v1.x - (v1.y * v2.z - v1.z * v2.y) * v1.z) * hsn - v2.y * e1
  · linear_combination v1.z * h1 + ((v1.y * v2.z - v1.z * v2.y) * v1.y - (v1.z * v2.x - v1.x * v2.z) * v1.x) * hsn - v2.z * e1

/-- **C64** (`zVec3DAAError`): for opposite vectors the error is reported as zero. -/
theorem C64_aaError_opposite {τ : ℝ} (hτ : 0 ≤ τ) (v : Vec3 ℝ) (k : ℝ) : v.aaError τ (v.mul (-k)) = .zero := by
  have : v.outer (v.mul (-k)) = .zero := by ext <;> simp only [zeo] <;> ring
  simp only [Vec3.aaError, this]
  rw [if_pos]
  simp [Vec3.isTol, Vec3.zero, zIsTol, hτ]

/-! ## Planar rotations and poses -/

private theorem rot2 {m : Mat2 ℝ} (h : m.IsRot) :
    m.x.x * m.x.x + m.x.y * m.x.y = 1 ∧ m.y.x = -m.x.y ∧ m.y.y = m.x.x := by
  obtain ⟨h1, h2⟩ := h
  have a := congrFun (congrFun h1 0) 0
  have b := congrFun (congrFun h1 0) 1
  simp [Mat2.toMatrix, Matrix.mul_apply, Fin.sum_univ_two] at a b
  rw [Mat2.toMatrix, det_fin_two] at h2
  simp at h2
  refine ⟨a, ?_, ?_⟩
  · linear_combination (-m.y.x) * a + m.x.x * b - m.x.y * h2
  · linear_combination (-m.y.y) * a + m.x.y * b + m.x.x * h2

/-- **C64** (`zMat2DAngle`, `zMat2DCreateAngle`, `zMat2DRot`, `zMat2DError`): the angle of a planar rotation matrix
gives the matrix back, every angle in `(-π, π]` is recovered, turning a matrix adds its angle, and the error is the angle of the
rotation from `m2` to `m1`. -/
theorem C64_mat2 (m m2 : Mat2 ℝ) (hm : m.IsRot) (hm2 : m2.IsRot) (θ φ : ℝ) :
    Mat2.createAngle m.angle = m ∧ (-Real.pi < θ → θ ≤ Real.pi → (Mat2.createAngle θ).angle = θ) ∧
    (Mat2.createAngle θ).rot φ = Mat2.createAngle (θ + φ) ∧ m2.rot (m.error m2) = m := by
  have key : ∀ m : Mat2 ℝ, m.IsRot → Mat2.createAngle m.angle = m := fun m hm => by
    obtain ⟨a, b, c⟩ := rot2 hm
    have h := atan2_cos_sin (2 * m.x.x) (2 * m.x.y)
    rw [show 2 * m.x.x * (2 * m.x.x) + 2 * m.x.y * (2 * m.x.y) = 2 ^ 2 by linear_combination 4 * a,
      Real.sqrt_sq (by norm_num)] at h
    have e : m.angle = atan2 (2 * m.x.y) (2 * m.x.x) := by rw [Mat2.angle, b, c]; congr 1 <;> ring
    rw [← e] at h
    unfold Mat2.createAngle Mat2.create
    ext <;> dsimp only <;> linarith [h.1, h.2]
  refine ⟨key m hm, fun h1 h2 => ?_, ?_, ?_⟩
  · rw [Mat2.angle]
    simp only [Mat2.createAngle, Mat2.create, sub_neg_eq_add, ← two_mul]
    exact atan2_of_polar two_pos h1 h2
  · unfold Mat2.rot Mat2.rotSC Mat2.createAngle Mat2.create
    rw [Real.cos_add, Real.sin_add]
    ext <;> dsimp only <;> ring
  · obtain ⟨a, b, c⟩ := rot2 hm
    obtain ⟨a', b', c'⟩ := rot2 hm2
    have h := atan2_cos_sin (2 * (m2.x.x * m.x.x + m2.x.y * m.x.y)) (2 * (m2.x.x * m.x.y - m2.x.y * m.x.x))
    rw [show 2 * (m2.x.x * m.x.x + m2.x.y * m.x.y) * (2 * (m2.x.x * m.x.x + m2.x.y * m.x.y)) +
        2 * (m2.x.x * m.x.y - m2.x.y * m.x.x) * (2 * (m2.x.x * m.x.y - m2.x.y * m.x.x)) = 2 ^ 2 by
        linear_combination 4 * (m2.x.x * m2.x.x + m2.x.y * m2.x.y) * a + 4 * a',
      Real.sqrt_sq (by norm_num)] at h
    have e : m.error m2 = atan2 (2 * (m2.x.x * m.x.y - m2.x.y * m.x.x)) (2 * (m2.x.x * m.x.x + m2.x.y * m.x.y)) := by
      rw [Mat2.error, b, c, b', c']; congr 1 <;> ring
    rw [← e] at h
    unfold Mat2.rot Mat2.rotSC Mat2.create
    obtain ⟨h1, h2⟩ := h
    replace h1 : Real.cos (m.error m2) = m2.x.x * m.x.x + m2.x.y * m.x.y := by linarith
    replace h2 : Real.sin (m.error m2) = m2.x.x * m.x.y - m2.x.y * m.x.x := by linarith
    rw [h1, h2]
    ext <;> dsimp only <;> try simp only [b, c, b', c']
    · linear_combination m.x.x * a'
    · linear_combination m.x.y * a'
    · linear_combination (-m.x.y) * a'
    · linear_combination m.x.x * a'


/-- **C64** (`zFrame2DFromCoord2D`, `zCoord2DFromFrame2D`): a pose and its frame determine each other, for angles in
`(-π, π]` and rotations. -/
theorem C64_coord2 (c : Coord2 ℝ) (hc : -Real.pi < c.angle ∧ c.angle ≤ Real.pi) (f : Frame2 ℝ) (hf : f.att.IsRot) :
    Coord2.ofFrame c.toFrame = c ∧ (Coord2.ofFrame f).toFrame = f := by
  constructor
  · unfold Coord2.ofFrame Coord2.toFrame Frame2.createAngle
    dsimp only
    rw [(C64_mat2 f.att f.att hf hf c.angle 0).2.1 hc.1 hc.2]
  · unfold Coord2.ofFrame Coord2.toFrame Frame2.createAngle
    dsimp only
    rw [(C64_mat2 f.att f.att hf hf 0 0).1]


/-! ## Tests and errors of attitudes -/

/-- **C64** (`zMat3DIsOrthonormal`, `zMat3DIsRightHand`): with zero tolerance the two tests together decide whether a
matrix is a rotation. -/
theorem C64_isRot (m : Mat3 ℝ) : (m.isOrthonormal 0 ∧ m.isRightHand) ↔ m.IsRot := by
  have z : ∀ x : ℝ, zIsTol x 0 ↔ x = 0 := fun x => by simp [zIsTol]
  have hdet : m.toMatrix.det = (m.v 0).grassmann (m.v 1) (m.v 2) := by
    rw [det_fin_three]; simp [Mat3.toMatrix, Mat3.v, Vec3.grassmann, Vec3.inner, Vec3.outer]; ring
  unfold Mat3.isOrthonormal Mat3.isRightHand Mat3.IsRot
  simp only [z]
  rw [hdet]
  constructor
  · rintro ⟨⟨a, b, c, d, e, f⟩, g⟩
    have ht : m.toMatrixᵀ * m.toMatrix = 1 := by
      ext i j; fin_cases i <;> fin_cases j <;>
        simp [Mat3.toMatrix, Mat3.v, Vec3.inner, Matrix.mul_apply, Fin.sum_univ_three] at a b c d e f ⊢ <;> linarith
    refine ⟨ht, ?_⟩
    have h2 := congrArg Matrix.det ht
    rw [Matrix.det_mul, Matrix.det_transpose, Matrix.det_one, hdet] at h2
    nlinarith
  · rintro ⟨h, hd⟩
    have e : ∀ i j, (m.toMatrixᵀ * m.toMatrix) i j = (1 : Matrix (Fin 3) (Fin 3) ℝ) i j := fun i j => by rw [h]
    have a := e 0 0
    have b := e 1 1
    have c := e 2 2
    have d := e 0 1
    have e' := e 1 2
    have f := e 2 0
    simp [Mat3.toMatrix, Matrix.mul_apply, Fin.sum_univ_three] at a b c d e' f
    refine ⟨⟨?_, ?_, ?_, ?_, ?_, ?_⟩, by rw [hd]; norm_num⟩ <;> simp only [Mat3.v, Vec3.inner] <;> linarith

/-- **C64** (`zAAError`): the error between two angle-axis vectors is the rotation which, applied after the second one,
gives the first one (zero tolerance). -/
theorem C64_aaErr (a1 a2 : Vec3 ℝ) :
    (Mat3.fromAA 0 (Mat3.aaErr 0 a1 a2)).mulMat (Mat3.fromAA 0 a2) = Mat3.fromAA 0 a1 :=
  (C10_error_cascade (Mat3.fromAA 0 a1) (Mat3.fromAA 0 a2) (C08_fromAA 0 le_rfl a1) (C08_fromAA 0 le_rfl a2) a1 a2).1

/-! ## Solids as more general solids -/

/-- **C64** (`zSphere3DToEllips3D`, `zEllips3DCreateAlign`): the ellipsoid made from a sphere is the same solid. -/
theorem C64_sphere_ellips (s : Sphere3 ℝ) (hr : 0 < s.radius) :
    Spec.ellipsoid s.toEllips = Spec.ball s.center s.radius := by
  ext q
  simp only [Sphere3.toEllips, Ellips.createAlign, Ellips.create, Spec.ellipsoid, Set.mem_setOf_eq, Spec.ball, abs_of_pos hr]
  have hb : ∀ X Y Z : ℝ, (X / s.radius) ^ 2 + (Y / s.radius) ^ 2 + (Z / s.radius) ^ 2 ≤ 1 ↔ X ^ 2 + Y ^ 2 + Z ^ 2 ≤ s.radius ^ 2 := by
    intro X Y Z
    rw [div_pow, div_pow, div_pow, ← add_div, ← add_div, div_le_one (by positivity)]
  rw [ed_le hr.le, Spec.sqd]
  constructor
  · rintro ⟨X, Y, Z, h, h1, h2, h3⟩
    rw [hb] at h
    simp only [Vec3.ex, Vec3.ey, Vec3.ez] at h1 h2 h3
    rw [h1, h2, h3]; nlinarith
  · intro h
    refine ⟨q.x - s.center.x, q.y - s.center.y, q.z - s.center.z, (hb _ _ _).2 (by nlinarith), ?_, ?_, ?_⟩ <;>
      simp only [Vec3.ex, Vec3.ey, Vec3.ez] <;> ring

private theorem not_tol {τ : ℝ} {v : Vec3 ℝ} (h : 3 * τ ^ 2 < v.sqrNorm) : ¬ v.isTol τ := by
  intro ht
  have h3 : |v.x| ≤ τ ∧ |v.y| ≤ τ ∧ |v.z| ≤ τ := by
    simpa [Vec3.isTol, zIsTol, and_assoc] using ht
  have hx := sq_le_sq' (by linarith [abs_nonneg v.x]) h3.1
  have hy := sq_le_sq' (by linarith [abs_nonneg v.y]) h3.2.1
  have hz := sq_le_sq' (by linarith [abs_nonneg v.z]) h3.2.2
  rw [sq_abs] at hx hy hz
  simp only [Vec3.sqrNorm, Vec3.inner] at h
  nlinarith

private theorem normalize_scaled {τ : ℝ} (hτ : 0 ≤ τ) {u old : Vec3 ℝ} {k : ℝ} (hu : u.sqrNorm = 1) (hk : 0 < k) (h : 3 * τ ^ 2 < k ^ 2) :
    ((u.mul k).normalize τ old).2 = u := by
  have hs : (u.mul k).sqrNorm = k ^ 2 := by
    have : (u.mul k).sqrNorm = k ^ 2 * u.sqrNorm := by simp only [zeo]; ring
    rw [this, hu, mul_one]
  have ht : ¬ (u.mul k).isTol τ := not_tol (by rw [hs]; exact h)
  obtain ⟨-, h2, -⟩ := normalize_unit hτ (old := old) ht
  have hn : (u.mul k).norm = k := by rw [Vec3.norm, hs, Real.sqrt_sq hk.le]
  rw [hn] at h2
  generalize ((u.mul k).normalize τ old).2 = w at *
  have e1 := congrArg Vec3.x h2
  have e2 := congrArg Vec3.y h2
  have e3 := congrArg Vec3.z h2
  simp only [zeo] at e1 e2 e3
  ext <;> refine mul_left_cancel₀ hk.ne' ?_ <;> linarith

/-- **C64** (`zCyl3DToECyl3D`): the elliptic cylinder made from a cylinder longer than four tolerances has proper radial
vectors and is the same solid. -/
theorem C64_cyl_ecyl {τ : ℝ} (hτ : 0 ≤ τ) (hτ' : τ ≤ 1/4) (c : Cyl ℝ) (hl : 4 * τ < c.axis.norm) (hr : 0 < c.radius) (old : ECyl ℝ) :
    ∃ e, c.toECyl τ old = some e ∧ Spec.ProperECyl e ∧
      Spec.ecylinder e.c0 e.c1 e.r0 e.r1 e.rv0 e.rv1 = Spec.cylinder c.c0 c.c1 c.radius := by
  obtain ⟨s1, s2, -, h2, hE⟩ := orthonormalSpace_spec hτ hτ' hl
  have hn : 0 < c.axis.norm := by linarith
  have hk : 3 * τ ^ 2 < c.axis.norm ^ 2 := by nlinarith
  have hax : c.axis = (c.axis.mul (1 / c.axis.norm)).mul c.axis.norm := by
    ext <;> simp only [zeo] <;> field_simp
  obtain ⟨⟨c1, c2, c3⟩, c4, c5, c6⟩ := cols_of hE.tm
  have hcof := hE.cof
  have hu1 : s1.sqrNorm = 1 := by simp only [zeo]; linarith
  have hu2 : s2.sqrNorm = 1 := by simp only [zeo]; linarith
  set a := c.axis.mul (1 / c.axis.norm) with ha
  set k := c.axis.norm with hkdef
  have hout : c.axis.outer s1 = s2.mul k := by
    have : a.outer s1 = s2 := by
      obtain ⟨-, ⟨q1, q2, q3⟩, -⟩ := hcof
      ext <;> simp only [zeo] <;> linarith
    rw [hax]
    rw [← this]; ext <;> simp only [zeo] <;> ring
  have ht : ¬ c.axis.isTol τ := not_tol (by rw [← Vec3.norm_sq]; exact hk)
  have hin : c.axis.inner s1 = 0 := by
    rw [hax]; simp only [zeo]; linear_combination k * c5
  have ho : Vec3.orthogonalize τ s1 c.axis = some s1 := by
    rw [Vec3.orthogonalize, if_neg ht, hin]
    congr 1; ext <;> simp only [zeo] <;> ring
  have hs1 : ¬ s1.isTol τ := not_tol (by rw [hu1]; nlinarith)
  have n1 : (s1.normalize τ s1).2 = s1 := by
    have := normalize_scaled hτ (old := s1) hu1 one_pos (by nlinarith)
    rwa [show s1.mul 1 = s1 by ext <;> simp only [zeo] <;> ring] at this
  have n2 : ((s2.mul k).normalize τ (s2.mul k)).2 = s2 := normalize_scaled hτ hu2 hn hk
  refine ⟨⟨c.c0, c.c1, c.radius, c.radius, s1, s2⟩, ?_, ⟨⟨by linarith, by linarith, by linarith⟩, ?_, ?_⟩, ?_⟩
  · have e : (ECyl.mk c.c0 c.c1 c.radius c.radius old.rv0 old.rv1).axis = c.axis := rfl
    rw [Cyl.toECyl, h2, Option.map_some]
    simp only [ECyl.create, ECyl.defAxis, e, if_neg hs1, ho, Option.getD_some, n1, hout, n2]
  · have := hin
    simp only [Cyl.axis, zeo] at this; linarith
  · have : c.axis.inner s2 = 0 := by
      rw [hax]; simp only [zeo]; linear_combination k * c6
    simp only [Cyl.axis, zeo] at this; linarith
  · have hp : ∀ m q : Vec3 ℝ, Spec.Perp m q c.c0 c.c1 ↔ (q.x - m.x) * a.x + (q.y - m.y) * a.y + (q.z - m.z) * a.z = 0 := by
      intro m q
      have e1 := congrArg Vec3.x hax
      have e2 := congrArg Vec3.y hax
      have e3 := congrArg Vec3.z hax
      simp only [Cyl.axis, Vec3.sub, Vec3.mul] at e1 e2 e3
      unfold Spec.Perp
      rw [e1, e2, e3]
      rw [show (q.x - m.x) * (k * a.x) + (q.y - m.y) * (k * a.y) + (q.z - m.z) * (k * a.z) =
        k * ((q.x - m.x) * a.x + (q.y - m.y) * a.y + (q.z - m.z) * a.z) by ring, mul_eq_zero]
      exact ⟨fun h => h.resolve_left hn.ne', Or.inr⟩
    ext q
    simp only [Spec.ecylinder, Spec.cylinder, Set.mem_setOf_eq]
    refine exists_congr fun m => and_congr_right fun _ => ?_
    obtain ⟨X, Y, Z, rfl⟩ := pt_surj hE.tm m q
    rw [ed_le hr.le, hp]
    have hb : ∀ s t : ℝ, (s / c.radius) ^ 2 + (t / c.radius) ^ 2 ≤ 1 ↔ s ^ 2 + t ^ 2 ≤ c.radius ^ 2 := by
      intro X Y
      rw [div_pow, div_pow, ← add_div, div_le_one (by positivity)]
    have h0 : pt m ⟨s1, s2, a⟩ 0 0 0 = m := by ext <;> simp [pt]
    have hs : Spec.sqd m (pt m ⟨s1, s2, a⟩ X Y Z) = X ^ 2 + Y ^ 2 + Z ^ 2 := by
      have := sqd_pt (b := m) hE.tm 0 0 0 X Y Z
      rw [h0] at this; rw [this]; ring
    have hz : ((pt m ⟨s1, s2, a⟩ X Y Z).x - m.x) * a.x + ((pt m ⟨s1, s2, a⟩ X Y Z).y - m.y) * a.y + ((pt m ⟨s1, s2, a⟩ X Y Z).z - m.z) * a.z = Z := by
      simp only [pt]; linear_combination X * c5 + Y * c6 + Z * c3
    rw [hs, hz]
    constructor
    · rintro ⟨s, t, h, h1, h2, h3⟩
      obtain ⟨rfl, rfl, rfl⟩ := pt_inj hE.tm (show pt m ⟨s1, s2, a⟩ X Y Z = pt m ⟨s1, s2, a⟩ s t 0 from
        Vec3.ext (by rw [h1]; simp [pt]) (by rw [h2]; simp [pt]) (by rw [h3]; simp [pt]))
      exact ⟨rfl, by have := (hb _ _).1 h; linarith⟩
    · rintro ⟨rfl, h⟩
      exact ⟨X, Y, (hb _ _).2 (by linarith), by simp [pt], by simp [pt], by simp [pt]⟩

/-- The hypotheses are met: two perpendicular vectors, a quarter turn, and a cylinder of length 2. -/
example : ¬ ((⟨1, 0, 0⟩ : Vec3 ℝ).outer ⟨0, 2, 0⟩).isTol (1/1000) ∧ ¬ ((⟨1, 0, 0⟩ : Vec3 ℝ).aaError (1/1000) ⟨0, 2, 0⟩).isTol (1/1000) := by
  have h : ¬ ((⟨1, 0, 0⟩ : Vec3 ℝ).outer ⟨0, 2, 0⟩).isTol (1/1000) := by
    rintro ⟨-, -, h⟩
    simp only [Vec3.outer, zIsTol] at h
    norm_num at h
  refine ⟨h, ?_⟩
  have hn : ((⟨1, 0, 0⟩ : Vec3 ℝ).outer ⟨0, 2, 0⟩).norm = 2 := by
    rw [Vec3.norm, show ((⟨1, 0, 0⟩ : Vec3 ℝ).outer ⟨0, 2, 0⟩).sqrNorm = 2 ^ 2 by simp only [zeo]; norm_num, Real.sqrt_sq (by norm_num)]
  have hi : (⟨1, 0, 0⟩ : Vec3 ℝ).inner ⟨0, 2, 0⟩ = 0 := by simp only [zeo]; norm_num
  have ha : atan2 2 0 = Real.pi / 2 := by
    have := atan2_of_polar (r := 2) (θ := Real.pi / 2) two_pos (by linarith [Real.pi_pos]) (by linarith [Real.pi_pos])
    simpa using this
  simp only [Vec3.aaError, if_neg h, hn, hi, ha]
  rintro ⟨-, -, h⟩
  simp only [Vec3.outer, Vec3.mul, zIsTol] at h
  rw [abs_le] at h
  have := Real.two_le_pi
  linarith [h.2]

example : (Mat2.createAngle 1).IsRot := (C08_mat2 1).2

example : 4 * (1/1000 : ℝ) < (Cyl.axis ⟨⟨0, 0, 0⟩, ⟨0, 0, 2⟩, 1⟩ : Vec3 ℝ).norm := by
  rw [Vec3.norm, show (Cyl.axis ⟨⟨0, 0, 0⟩, ⟨0, 0, 2⟩, 1⟩ : Vec3 ℝ).sqrNorm = 2 ^ 2 by simp only [Cyl.axis, zeo]; norm_num,
    Real.sqrt_sq (by norm_num)]
  norm_num

end
end Zeo
