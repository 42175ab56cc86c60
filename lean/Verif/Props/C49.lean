import Verif.Lemmas.TetraInt
import Verif.Props.C40

/-! # C49: mass properties of polyhedra -/

namespace Zeo
open Spec

/-! ## The cone of one face, against integrals -/

/-- `zTri3DConeVolume` (apex at the origin) is the integral of one over the cone. -/
theorem C49_cone_volume_integral (a b c : Vec3 ℝ) : Tri3.coneVolume a b c .zero = tetraInt a b c fun _ => 1 := by
  have h := tetraInt_aev a b c aOne aOne
  have e : (fun x : Vec3 ℝ => aev aOne x * aev aOne x) = fun _ => 1 := by funext x; simp [aev, aOne, Vec3.zero]
  rw [e] at h
  rw [h]
  simp only [Tri3.coneVolume, coneMom, quad20, aev, aOne, det3, zeo]
  ring

/-- Volume times `zTri3DConeBarycenter` is the first moment of the cone. -/
theorem C49_cone_barycenter_integral (a b c : Vec3 ℝ) :
    (Tri3.coneBarycenter a b c .zero).mul (Tri3.coneVolume a b c .zero) =
      ⟨tetraInt a b c fun p => p.x, tetraInt a b c fun p => p.y, tetraInt a b c fun p => p.z⟩ := by
  have hx := tetraInt_aev a b c aX aOne
  have hy := tetraInt_aev a b c aY aOne
  have hz := tetraInt_aev a b c aZ aOne
  have ex : (fun x : Vec3 ℝ => aev aX x * aev aOne x) = fun p => p.x := by funext x; simp [aev, aOne, aX, Vec3.zero, Vec3.ex]
  have ey : (fun x : Vec3 ℝ => aev aY x * aev aOne x) = fun p => p.y := by funext x; simp [aev, aOne, aY, Vec3.zero, Vec3.ey]
  have ez : (fun x : Vec3 ℝ => aev aZ x * aev aOne x) = fun p => p.z := by funext x; simp [aev, aOne, aZ, Vec3.zero, Vec3.ez]
  rw [ex] at hx; rw [ey] at hy; rw [ez] at hz
  rw [hx, hy, hz]
  ext <;> simp only [Tri3.coneVolume, Tri3.coneBarycenter, coneMom, quad20, aev, aOne, aX, aY, aZ, det3, zeo] <;> ring

private theorem second_mom (a b c : Vec3 ℝ) (A B : Vec3 ℝ × ℝ) (f : Vec3 ℝ → ℝ) (h : ∀ p, f p = aev A p * aev B p) :
    tetraInt a b c f = coneMom .zero A B (a, b, c) := by
  rw [← tetraInt_aev]; congr 1; funext p; exact h p

/-- `zTri3DConeInertia` is the inertia tensor of the cone about the origin: its entries are the density times
the integrals of `y²`, `z²` (summed), `-xy`, and so on. -/
theorem C49_cone_inertia_integral (a b c : Vec3 ℝ) (ρ : ℝ) :
    Tri3.coneInertia a b c ρ =
      let I := tetraInt a b c
      ⟨⟨ρ * (I (fun p => p.y^2) + I fun p => p.z^2), - (ρ * I fun p => p.x * p.y), - (ρ * I fun p => p.x * p.z)⟩,
       ⟨- (ρ * I fun p => p.x * p.y), ρ * (I (fun p => p.x^2) + I fun p => p.z^2), - (ρ * I fun p => p.y * p.z)⟩,
       ⟨- (ρ * I fun p => p.x * p.z), - (ρ * I fun p => p.y * p.z), ρ * (I (fun p => p.x^2) + I fun p => p.y^2)⟩⟩ := by
  dsimp only
  rw [second_mom a b c aX aX (fun p => p.x^2) (by intro p; simp [aev, aX, Vec3.ex]; ring),
    second_mom a b c aY aY (fun p => p.y^2) (by intro p; simp [aev, aY, Vec3.ey]; ring),
    second_mom a b c aZ aZ (fun p => p.z^2) (by intro p; simp [aev, aZ, Vec3.ez]; ring),
    second_mom a b c aX aY (fun p => p.x * p.y) (by intro p; simp [aev, aX, aY, Vec3.ex, Vec3.ey]),
    second_mom a b c aX aZ (fun p => p.x * p.z) (by intro p; simp [aev, aX, aZ, Vec3.ex, Vec3.ez]),
    second_mom a b c aY aZ (fun p => p.y * p.z) (by intro p; simp [aev, aY, aZ, Vec3.ey, Vec3.ez])]
  refine Mat3.ext (Vec3.ext ?_ ?_ ?_) (Vec3.ext ?_ ?_ ?_) (Vec3.ext ?_ ?_ ?_)
  all_goals simp only [Tri3.coneInertia, Tri3.coneInertiaStep, coneMom, quad20, aev, aX, aY, aZ, det3, zeo]
  all_goals ring

/-! ## The whole mesh -/

/-- Volume, first and second moments of a closed mesh do not depend on the apex of the cones: translating the
apex to `q` gives the same numbers. Stated for products of affine functions, which covers all of them. -/
theorem C49_apex (ph : PH ℝ) (h : Closed (facePts ph)) (q : Vec3 ℝ) (A B : Vec3 ℝ × ℝ) :
    ((facePts ph).map fun f => tetraInt (f.1.sub q) (f.2.1.sub q) (f.2.2.sub q) fun x => aev A (x.add q) * aev B (x.add q)).sum =
    ((facePts ph).map fun f => tetraInt f.1 f.2.1 f.2.2 fun x => aev A x * aev B x).sum := by
  have e : ∀ (A : Vec3 ℝ × ℝ) (x : Vec3 ℝ), aev A (x.add q) = aev (A.1, aev A q) x := by
    intro A x; simp only [aev, zeo]; ring
  have e2 : ∀ (A : Vec3 ℝ × ℝ) (x : Vec3 ℝ), aev (A.1, aev A q) (x.sub q) = aev A x := by
    intro A x; simp only [aev, zeo]; ring
  have e3 : ∀ (A : Vec3 ℝ × ℝ), aev (A.1, aev A q) .zero = aev A q := by
    intro A; simp only [aev, zeo]; ring
  have e4 : ∀ x : Vec3 ℝ, x.sub .zero = x := by intro x; ext <;> simp [Vec3.sub, Vec3.zero]
  have hm := mom_apex h q A B
  unfold mom at hm
  simp only [e, tetraInt_aev]
  refine Eq.trans ?_ hm
  congr 1
  apply List.map_congr_left
  rintro ⟨a, b, c⟩ _
  simp only [coneMom, e2, e3, e4]

/-- The volume is the integral of one. -/
theorem C49_volume_integral (ph : PH ℝ) :
    ph.volume = ((facePts ph).map fun f => tetraInt f.1 f.2.1 f.2.2 fun _ => 1).sum := by
  unfold PH.volume
  rw [foldl_add_sum, zero_add, ← facePts_sum ph]
  congr 1
  apply List.map_congr_left
  intro f _
  exact C49_cone_volume_integral _ _ _

/-- The barycenter times the volume is the first moment (every mesh of non-zero volume). -/
theorem C49_barycenter_integral (ph : PH ℝ) (hv : ph.volume ≠ 0) :
    ph.barycenter.mul ph.volume =
      ⟨((facePts ph).map fun f => tetraInt f.1 f.2.1 f.2.2 fun p => p.x).sum,
       ((facePts ph).map fun f => tetraInt f.1 f.2.1 f.2.2 fun p => p.y).sum,
       ((facePts ph).map fun f => tetraInt f.1 f.2.1 f.2.2 fun p => p.z).sum⟩ := by
  have m : ∀ (A : Vec3 ℝ × ℝ) (g : Vec3 ℝ → ℝ), (∀ p, g p = aev A p * aev aOne p) →
      ((facePts ph).map fun f => tetraInt f.1 f.2.1 f.2.2 g).sum = mom (facePts ph) .zero A aOne := by
    intro A g hg
    unfold mom
    congr 1
    apply List.map_congr_left
    intro f _
    rw [second_mom f.1 f.2.1 f.2.2 A aOne g hg]
  rw [m aX (fun p => p.x) (by intro p; simp [aev, aOne, aX, Vec3.zero, Vec3.ex]),
    m aY (fun p => p.y) (by intro p; simp [aev, aOne, aY, Vec3.zero, Vec3.ey]),
    m aZ (fun p => p.z) (by intro p; simp [aev, aOne, aZ, Vec3.zero, Vec3.ez]), bary_eq_mom ph hv]
  ext <;> simp only [zeo] <;> field_simp

/-- `zPH3DInertia` is the density times the second moments of the solid. -/
theorem C49_inertia_integral (ph : PH ℝ) (ρ : ℝ) :
    ph.inertia ρ =
      let I := fun g : Vec3 ℝ → ℝ => ((facePts ph).map fun f => tetraInt f.1 f.2.1 f.2.2 g).sum
      ⟨⟨ρ * (I (fun p => p.y^2) + I fun p => p.z^2), - (ρ * I fun p => p.x * p.y), - (ρ * I fun p => p.x * p.z)⟩,
       ⟨- (ρ * I fun p => p.x * p.y), ρ * (I (fun p => p.x^2) + I fun p => p.z^2), - (ρ * I fun p => p.y * p.z)⟩,
       ⟨- (ρ * I fun p => p.x * p.z), - (ρ * I fun p => p.y * p.z), ρ * (I (fun p => p.x^2) + I fun p => p.y^2)⟩⟩ := by
  have m : ∀ (A B : Vec3 ℝ × ℝ) (g : Vec3 ℝ → ℝ), (∀ p, g p = aev A p * aev B p) →
      ((facePts ph).map fun f => tetraInt f.1 f.2.1 f.2.2 g).sum = mom (facePts ph) .zero A B := by
    intro A B g hg
    unfold mom
    congr 1
    apply List.map_congr_left
    intro f _
    rw [second_mom f.1 f.2.1 f.2.2 A B g hg]
  dsimp only
  rw [inertia_eq_mom, m aX aX (fun p => p.x^2) (by intro p; simp [aev, aX, Vec3.ex]; ring),
    m aY aY (fun p => p.y^2) (by intro p; simp [aev, aY, Vec3.ey]; ring),
    m aZ aZ (fun p => p.z^2) (by intro p; simp [aev, aZ, Vec3.ez]; ring),
    m aX aY (fun p => p.x * p.y) (by intro p; simp [aev, aX, aY, Vec3.ex, Vec3.ey]),
    m aX aZ (fun p => p.x * p.z) (by intro p; simp [aev, aX, aZ, Vec3.ex, Vec3.ez]),
    m aY aZ (fun p => p.y * p.z) (by intro p; simp [aev, aY, aZ, Vec3.ey, Vec3.ez])]

/-- The inertia tensors are symmetric. -/
theorem C49_symmetric (ph : PH ℝ) (ρ : ℝ) : (ph.inertia ρ).t = ph.inertia ρ ∧ (ph.baryInertia ρ).t = ph.baryInertia ρ := by
  unfold PH.baryInertia
  rw [inertia_eq_mom]
  constructor
  · rfl
  · rfl

/-- Parallel-axis theorem: the tensor about the origin is the tensor about the barycenter plus that of a point
mass at the barycenter, `m (|c|² 1 - c cᵀ)`. -/
theorem C49_parallel_axis (ph : PH ℝ) (ρ : ℝ) :
    (ph.inertia ρ).toMatrix = (ph.baryInertia ρ).toMatrix +
      (ρ * ph.volume) • (ph.barycenter.sqrNorm • (1 : Matrix (Fin 3) (Fin 3) ℝ) -
        Matrix.vecMulVec ph.barycenter.toFin ph.barycenter.toFin) := by
  unfold PH.baryInertia
  ext i j
  fin_cases i <;> fin_cases j <;>
    simp [Mat3.toMatrix, Mat3.catDoubleOuter, Vec3.sqrNorm, Vec3.inner, Vec3.toFin, Matrix.vecMulVec] <;> ring

/-- `zPH3DInertiaMass`/`zPH3DBaryInertiaMass` are the density variants at density mass/volume. -/
theorem C49_mass (ph : PH ℝ) (mass : ℝ) (hv : ph.volume ≠ 0) :
    ph.inertiaMass mass = some (ph.inertia (mass / ph.volume)) ∧
    ph.baryInertiaMass mass = some (ph.baryInertia (mass / ph.volume)) := by
  unfold PH.baryInertiaMass PH.inertiaMass PH.baryInertia
  rw [if_neg hv, div_mul_cancel₀ _ hv]
  exact ⟨rfl, rfl⟩

/-- The generic shape functions undo `zPH3DBaryInertia`: for a polyhedron `zShape3DInertiaMass` equals
`zPH3DInertiaMass` and `zShape3DInertia` equals `zPH3DInertia`. -/
theorem C49_shape_inertia (ph : PH ℝ) (m ρ : ℝ) (hv : ph.volume ≠ 0) :
    some (Shape.inertiaMass ph.barycenter (fun m => ((ph.inertia (m / ph.volume)).catDoubleOuter m ph.barycenter)) m) = ph.inertiaMass m ∧
    Shape.inertia ph.barycenter ph.volume (fun m => ((ph.inertia (m / ph.volume)).catDoubleOuter m ph.barycenter)) ρ = ph.inertia ρ := by
  have e : ∀ (M : Mat3 ℝ) (k : ℝ) (c : Vec3 ℝ), (M.catDoubleOuter k c).catDoubleOuter (-k) c = M := by
    intro M k c
    refine Mat3.ext (Vec3.ext ?_ ?_ ?_) (Vec3.ext ?_ ?_ ?_) (Vec3.ext ?_ ?_ ?_) <;> simp only [Mat3.catDoubleOuter] <;> ring
  constructor
  · rw [(C49_mass ph m hv).1]; unfold Shape.inertiaMass; rw [e]
  · unfold Shape.inertia; rw [e, mul_div_cancel_right₀ _ hv]

/-! ## Rigid motions -/

private theorem bary_moved (V mx my mz ax ay az p : ℝ) (hV : V ≠ 0) :
    (ax * mx + ay * my + az * mz + p * V) / V = ax * (mx / V) + ay * (my / V) + az * (mz / V) + p := by
  field_simp

private theorem pull_one (fr : Frame3 ℝ) : pullA fr aOne = aOne := by
  simp [pullA, aOne, Mat3.mulTVec, Vec3.inner, Vec3.zero]

private theorem pull_x (fr : Frame3 ℝ) : pullA fr aX = (⟨fr.att.x.x, fr.att.y.x, fr.att.z.x⟩, fr.pos.x) := by
  simp [pullA, aX, Mat3.mulTVec, Vec3.inner, Vec3.ex]
private theorem pull_y (fr : Frame3 ℝ) : pullA fr aY = (⟨fr.att.x.y, fr.att.y.y, fr.att.z.y⟩, fr.pos.y) := by
  simp [pullA, aY, Mat3.mulTVec, Vec3.inner, Vec3.ey]
private theorem pull_z (fr : Frame3 ℝ) : pullA fr aZ = (⟨fr.att.x.z, fr.att.y.z, fr.att.z.z⟩, fr.pos.z) := by
  simp [pullA, aZ, Mat3.mulTVec, Vec3.inner, Vec3.ez]

/-- The barycenter of a closed mesh moves with the mesh. -/
theorem C49_barycenter_xform (τ : ℝ) (src dest : PH ℝ) (fr : Frame3 ℝ) (hr : fr.att.IsRot) (hv : Valid src)
    (hc : Closed (facePts src)) (hn : dest.nv = src.nv) (hf : faceIdx dest = faceIdx src) (h0 : src.volume ≠ 0) :
    (PH.xform τ src fr dest).barycenter = fr.xform src.barycenter := by
  have hV := (C40_xform τ src dest fr hr hv hc hn hf).1
  have hm := volume_eq_mom src
  rw [bary_eq_mom _ (by rw [hV]; exact h0), bary_eq_mom _ h0, hV, xform_facePts τ src dest fr hv hn hf]
  simp only [mom_xform hr hc, pull_one, pull_x, pull_y, pull_z]
  ext
  · simp only [zeo]
    rw [mom_expand_left]; simp only []
    rw [show mom (facePts src) ⟨0, 0, 0⟩ aOne aOne = src.volume from hm.symm, bary_moved _ _ _ _ _ _ _ _ h0]
  · simp only [zeo]
    rw [mom_expand_left]; simp only []
    rw [show mom (facePts src) ⟨0, 0, 0⟩ aOne aOne = src.volume from hm.symm, bary_moved _ _ _ _ _ _ _ _ h0]
  · simp only [zeo]
    rw [mom_expand_left]; simp only []
    rw [show mom (facePts src) ⟨0, 0, 0⟩ aOne aOne = src.volume from hm.symm, bary_moved _ _ _ _ _ _ _ _ h0]

/-- Central second moment of two coordinates. -/
private noncomputable def cm (T : List (Vec3 ℝ × Vec3 ℝ × Vec3 ℝ)) (A B : Vec3 ℝ × ℝ) : ℝ :=
  mom T .zero A B - mom T .zero A aOne * mom T .zero B aOne / mom T .zero aOne aOne

private theorem cm_lin (T : List (Vec3 ℝ × Vec3 ℝ × Vec3 ℝ)) (h0 : mom T .zero aOne aOne ≠ 0) (A B : Vec3 ℝ × ℝ) :
    cm T A B = A.1.x * (B.1.x * cm T aX aX + B.1.y * cm T aX aY + B.1.z * cm T aX aZ) +
      A.1.y * (B.1.x * cm T aX aY + B.1.y * cm T aY aY + B.1.z * cm T aY aZ) +
      A.1.z * (B.1.x * cm T aX aZ + B.1.y * cm T aY aZ + B.1.z * cm T aZ aZ) := by
  unfold cm
  rw [mom_expand_left T .zero A B, mom_expand_left T .zero A aOne, mom_expand_right T .zero aX B,
    mom_expand_right T .zero aY B, mom_expand_right T .zero aZ B, mom_comm T .zero aOne B, mom_expand_left T .zero B aOne,
    mom_comm T .zero aY aX, mom_comm T .zero aZ aX, mom_comm T .zero aZ aY]
  field_simp
  ring

private theorem baryInertia_cm (ph : PH ℝ) (ρ : ℝ) (h0 : ph.volume ≠ 0) :
    ph.baryInertia ρ =
      let C := cm (facePts ph)
      ⟨⟨ρ * (C aY aY + C aZ aZ), - (ρ * C aX aY), - (ρ * C aX aZ)⟩,
       ⟨- (ρ * C aX aY), ρ * (C aX aX + C aZ aZ), - (ρ * C aY aZ)⟩,
       ⟨- (ρ * C aX aZ), - (ρ * C aY aZ), ρ * (C aX aX + C aY aY)⟩⟩ := by
  have hm := volume_eq_mom ph
  unfold PH.baryInertia
  rw [inertia_eq_mom, bary_eq_mom ph h0]
  unfold cm
  rw [← hm]
  refine Mat3.ext (Vec3.ext ?_ ?_ ?_) (Vec3.ext ?_ ?_ ?_) (Vec3.ext ?_ ?_ ?_)
  all_goals simp only [Mat3.catDoubleOuter]
  all_goals field_simp
  all_goals ring

private def tens (ρ xx xy xz yy yz zz : ℝ) : Mat3 ℝ :=
  ⟨⟨ρ * (yy + zz), - (ρ * xy), - (ρ * xz)⟩, ⟨- (ρ * xy), ρ * (xx + zz), - (ρ * yz)⟩, ⟨- (ρ * xz), - (ρ * yz), ρ * (xx + yy)⟩⟩

private def rr (a b : Vec3 ℝ) (xx xy xz yy yz zz : ℝ) : ℝ :=
  a.x * (b.x * xx + b.y * xy + b.z * xz) + a.y * (b.x * xy + b.y * yy + b.z * yz) + a.z * (b.x * xz + b.y * yz + b.z * zz)

private theorem tensor_rot (m : Mat3 ℝ) (hr : m.IsRot) (ρ xx xy xz yy yz zz : ℝ) :
    (let R := fun a b => rr a b xx xy xz yy yz zz
     let x := (⟨m.x.x, m.y.x, m.z.x⟩ : Vec3 ℝ); let y := (⟨m.x.y, m.y.y, m.z.y⟩ : Vec3 ℝ); let z := (⟨m.x.z, m.y.z, m.z.z⟩ : Vec3 ℝ)
     tens ρ (R x x) (R x y) (R x z) (R y y) (R y z) (R z z)).toMatrix =
      m.toMatrix * (tens ρ xx xy xz yy yz zz).toMatrix * m.toMatrix.transpose := by
  obtain ⟨r1, r2, r3, r4, r5, r6⟩ := hr.rows
  obtain ⟨c1, c2, c3, c4, c5, c6⟩ := hr.cols
  have htr : rr ⟨m.x.x, m.y.x, m.z.x⟩ ⟨m.x.x, m.y.x, m.z.x⟩ xx xy xz yy yz zz +
      rr ⟨m.x.y, m.y.y, m.z.y⟩ ⟨m.x.y, m.y.y, m.z.y⟩ xx xy xz yy yz zz +
      rr ⟨m.x.z, m.y.z, m.z.z⟩ ⟨m.x.z, m.y.z, m.z.z⟩ xx xy xz yy yz zz = xx + yy + zz := by
    simp only [rr]
    linear_combination xx * c1 + yy * c2 + zz * c3 + 2 * xy * c4 + 2 * yz * c5 + 2 * xz * c6
  have e : ∀ i j, (m.toMatrix * (tens ρ xx xy xz yy yz zz).toMatrix * m.toMatrix.transpose) i j =
      ρ * ((xx + yy + zz) * (m.toMatrix i 0 * m.toMatrix j 0 + m.toMatrix i 1 * m.toMatrix j 1 + m.toMatrix i 2 * m.toMatrix j 2) -
        rr ⟨m.toMatrix i 0, m.toMatrix i 1, m.toMatrix i 2⟩ ⟨m.toMatrix j 0, m.toMatrix j 1, m.toMatrix j 2⟩ xx xy xz yy yz zz) := by
    intro i j
    simp only [Matrix.mul_apply, Fin.sum_univ_three, Matrix.transpose_apply, rr]
    simp only [tens, Mat3.toMatrix, Matrix.of_apply, Matrix.cons_val', Matrix.cons_val_zero, Matrix.cons_val_one, Matrix.cons_val]
    ring
  ext i j
  rw [e]
  fin_cases i <;> fin_cases j <;> simp [Mat3.toMatrix, tens]
  · left; linear_combination htr - (xx + yy + zz) * r1
  · simp only [rr]; linear_combination - ρ * (xx + yy + zz) * r4
  · simp only [rr]; linear_combination - ρ * (xx + yy + zz) * r6
  · simp only [rr]; linear_combination - ρ * (xx + yy + zz) * r4
  · left; linear_combination htr - (xx + yy + zz) * r2
  · simp only [rr]; linear_combination - ρ * (xx + yy + zz) * r5
  · simp only [rr]; linear_combination - ρ * (xx + yy + zz) * r6
  · simp only [rr]; linear_combination - ρ * (xx + yy + zz) * r5
  · left; linear_combination htr - (xx + yy + zz) * r3

/-- The inertia tensor about the barycenter of a closed mesh turns with the mesh, `I' = R I Rᵀ`, and is not
affected by the translation. -/
theorem C49_baryInertia_xform (τ : ℝ) (src dest : PH ℝ) (fr : Frame3 ℝ) (hr : fr.att.IsRot) (hv : Valid src)
    (hc : Closed (facePts src)) (hn : dest.nv = src.nv) (hf : faceIdx dest = faceIdx src) (h0 : src.volume ≠ 0) (ρ : ℝ) :
    ((PH.xform τ src fr dest).baryInertia ρ).toMatrix = fr.att.toMatrix * (src.baryInertia ρ).toMatrix * fr.att.toMatrix.transpose := by
  have hV := (C40_xform τ src dest fr hr hv hc hn hf).1
  have hm0 : mom (facePts src) .zero aOne aOne ≠ 0 := by rw [← volume_eq_mom]; exact h0
  have hcm : ∀ A B, cm (facePts (PH.xform τ src fr dest)) A B = cm (facePts src) (pullA fr A) (pullA fr B) := by
    intro A B
    unfold cm
    rw [xform_facePts τ src dest fr hv hn hf]
    simp only [mom_xform hr hc, pull_one]
  rw [baryInertia_cm _ ρ (by rw [hV]; exact h0), baryInertia_cm _ ρ h0]
  simp only [hcm]
  rw [cm_lin _ hm0 (pullA fr aX) (pullA fr aX), cm_lin _ hm0 (pullA fr aX) (pullA fr aY), cm_lin _ hm0 (pullA fr aX) (pullA fr aZ),
    cm_lin _ hm0 (pullA fr aY) (pullA fr aY), cm_lin _ hm0 (pullA fr aY) (pullA fr aZ), cm_lin _ hm0 (pullA fr aZ) (pullA fr aZ)]
  simp only [pull_x, pull_y, pull_z]
  have hC := tensor_rot fr.att hr ρ (cm (facePts src) aX aX) (cm (facePts src) aX aY) (cm (facePts src) aX aZ)
    (cm (facePts src) aY aY) (cm (facePts src) aY aZ) (cm (facePts src) aZ aZ)
  simp only [tens, rr] at hC
  exact hC

/-- A mesh of zero volume has no barycenter; the code returns the undivided first moment (the failure of
`zVec3DDivDRC` is not reported), and the per-mass tensor divides by zero. -/
theorem C49_zero_volume (ph : PH ℝ) (h : ph.volume = 0) (mass : ℝ) :
    ph.barycenter = (ph.face.foldl ph.baryStep (0, .zero)).2 ∧ ph.inertiaMass mass = none ∧ ph.baryInertiaMass mass = none := by
  have h1 : (ph.face.foldl ph.baryStep (0, .zero)).1 = 0 := by
    have h2 := volume_eq_mom ph
    unfold mom at h2
    rw [← facePts_sum, h] at h2
    rw [bary_fold, ← h2]
    exact add_zero _
  refine ⟨?_, ?_, ?_⟩
  · unfold PH.barycenter Vec3.div
    simp only [h1, if_true]
  · unfold PH.inertiaMass; rw [if_pos h]
  · unfold PH.baryInertiaMass PH.inertiaMass; rw [if_pos h]; rfl

/-! ## Non-vacuity -/

private theorem exT_vol : exTetra.volume = 1/6 := by
  simp [exTetra, PH.volume, PH.coneVolume, Tri3.coneVolume, zeo]

/-- The unit tetrahedron is closed, has volume one sixth, and its barycenter is at one quarter on each axis. -/
example : Closed (facePts exTetra) ∧ exTetra.volume ≠ 0 ∧ exTetra.barycenter = ⟨1/4, 1/4, 1/4⟩ := by
  refine ⟨exTetra_closed, by rw [exT_vol]; norm_num, ?_⟩
  rw [bary_eq_mom _ (by rw [exT_vol]; norm_num), exT_vol]
  ext <;> simp [exTetra, facePts, mom, coneMom, quad20, aev, aOne, aX, aY, aZ, det3, zeo] <;> norm_num

/-- The equivariance theorems apply to it. -/
example (τ : ℝ) : (PH.xform τ exTetra ⟨⟨1, 2, 3⟩, ⟨.ey, Vec3.ex.rev, .ez⟩⟩ exTetra).barycenter =
    (⟨⟨1, 2, 3⟩, ⟨.ey, Vec3.ex.rev, .ez⟩⟩ : Frame3 ℝ).xform exTetra.barycenter := by
  refine C49_barycenter_xform τ _ _ _ ?_ exTetra_valid exTetra_closed rfl rfl (by rw [exT_vol]; norm_num)
  rw [Mat3.isRot_iff]
  constructor <;> simp [zeo]

/-- The empty mesh has zero volume. -/
example : (⟨0, fun _ => .zero, []⟩ : PH ℝ).volume = 0 := rfl

end Zeo
