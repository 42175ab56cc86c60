import Verif.Props.C06

/-! # C13: coordinate frames form a group acting on points -/

namespace Zeo
open Matrix
variable {K : Type*} [Field K]

/-- The attitude is an orthogonal matrix (both reflections and rotations allowed). -/
def Frame3.Orthonormal (f : Frame3 K) : Prop := f.att.toMatrixᵀ * f.att.toMatrix = 1
/-- The attitude is an orthogonal matrix. -/
def Frame2.Orthonormal (f : Frame2 K) : Prop := f.att.toMatrixᵀ * f.att.toMatrix = 1

theorem Mat3.orth_iff (m : Mat3 K) : m.toMatrixᵀ * m.toMatrix = 1 ↔ m.t.mulMat m = .ident := by
  rw [← Mat3.toMatrix_injective.eq_iff, (C06_mat3_products _ _ .zero).1,
    (C06_mat3_linear m m 1 .zero .zero).2.2.2.2.2.1, (C06_mat3_linear m m 1 .zero .zero).2.2.2.2.2.2.2.2.1]

theorem Mat3.orth_iff' (m : Mat3 K) : m.toMatrixᵀ * m.toMatrix = 1 ↔ m.mulMat m.t = .ident := by
  rw [← Mat3.toMatrix_injective.eq_iff, (C06_mat3_products _ _ .zero).1,
    (C06_mat3_linear m m 1 .zero .zero).2.2.2.2.2.1, (C06_mat3_linear m m 1 .zero .zero).2.2.2.2.2.2.2.2.1,
    mul_eq_one_comm]

theorem Mat3.orth_mulTVec_mulVec {m : Mat3 K} (h : m.toMatrixᵀ * m.toMatrix = 1) (v : Vec3 K) :
    m.mulTVec (m.mulVec v) = v := by
  have := (Mat3.orth_iff m).1 h
  rw [(C06_mat3_laws m m m (m.mulVec v)).2.2.2.2.2.2.2.2.2.1, ← (C06_mat3_laws m.t m m v).2.1, this]
  vring

theorem Mat3.orth_mulVec_mulTVec {m : Mat3 K} (h : m.toMatrixᵀ * m.toMatrix = 1) (v : Vec3 K) :
    m.mulVec (m.mulTVec v) = v := by
  have := (Mat3.orth_iff' m).1 h
  rw [(C06_mat3_laws m m m v).2.2.2.2.2.2.2.2.2.1, ← (C06_mat3_laws m m.t m v).2.1, this]
  vring

/-- `zXform3DInv` undoes `zXform3D` and conversely. -/
theorem C13_xform_inv (f : Frame3 K) (hf : f.Orthonormal) (v : Vec3 K) :
    f.xformInv (f.xform v) = v ∧ f.xform (f.xformInv v) = v := by
  constructor
  · have : (((f.att.mulVec v).add f.pos).sub f.pos) = f.att.mulVec v := by vring
    rw [Frame3.xform, Frame3.xformInv, this, Mat3.orth_mulTVec_mulVec hf]
  · rw [Frame3.xform, Frame3.xformInv, Mat3.orth_mulVec_mulTVec hf]; vring

/-- A frame acts as the affine map `v ↦ R v + p`. -/
theorem C13_xform_affine (f : Frame3 K) (v : Vec3 K) :
    (f.xform v).toFin = f.att.toMatrix *ᵥ v.toFin + f.pos.toFin := by
  rw [← (C06_mat3_products f.att f.att v).2.2.2.1]
  ext i; fin_cases i <;> simp [Vec3.toFin, zeo]

/-- Cascading composes the actions; it is associative with `zFrame3DIdent` as unit. -/
theorem C13_cascade (f g h : Frame3 K) (v : Vec3 K) :
    (f.cascade g).xform v = f.xform (g.xform v) ∧
    (f.cascade g).cascade h = f.cascade (g.cascade h) ∧
    f.cascade .ident = f ∧ (Frame3.ident).cascade f = f := by
  refine ⟨?_, ?_, ?_, ?_⟩ <;> vring

/-- `zFrame3DInv` is the group inverse and acts as the inverse transformation;
`zFrame3DXform(f1,f2)` is `inv(f1) f2`. -/
theorem C13_inv (f g : Frame3 K) (hf : f.Orthonormal) (v : Vec3 K) :
    f.cascade f.inv = .ident ∧ f.inv.cascade f = .ident ∧ f.inv.xform v = f.xformInv v ∧
    f.relative g = f.inv.cascade g ∧ f.cascade (f.relative g) = g ∧ f.inv.inv = f := by
  have h1 := (Mat3.orth_iff f.att).1 hf
  have h2 := (Mat3.orth_iff' f.att).1 hf
  have e3 : ∀ v, f.inv.xform v = f.xformInv v := by intro v; vring
  have e4 : f.relative g = f.inv.cascade g := by vring
  have e1 : f.cascade f.inv = .ident := by
    ext1
    · have : (f.cascade f.inv).pos = f.pos.sub ((f.att.mulMat f.att.t).mulVec f.pos) := by vring
      rw [this, h2]; vring
    · exact h2
  have e2 : f.inv.cascade f = .ident := by
    ext1
    · vring
    · exact h1
  refine ⟨e1, e2, e3 v, e4, ?_, ?_⟩
  · rw [e4, ← (C13_cascade f f.inv g v).2.1, e1, (C13_cascade g g g v).2.2.2]
  · ext1
    · have : f.inv.inv.pos = (f.att.mulMat f.att.t).mulVec f.pos := by vring
      rw [this, h2]; vring
    · vring

/-- Orthonormality is preserved by cascade, inverse and relative frame, so every chain of
frames built from orthonormal ones is covered by the theorems above. -/
theorem C13_closed (f g : Frame3 K) (hf : f.Orthonormal) (hg : g.Orthonormal) :
    (f.cascade g).Orthonormal ∧ f.inv.Orthonormal ∧ (f.relative g).Orthonormal := by
  have hi : f.inv.Orthonormal := by
    unfold Frame3.Orthonormal
    rw [Mat3.orth_iff]
    have : f.inv.att.t.mulMat f.inv.att = f.att.mulMat f.att.t := by vring
    rw [this]; exact (Mat3.orth_iff' f.att).1 hf
  have hc : ∀ f g : Frame3 K, f.Orthonormal → g.Orthonormal → (f.cascade g).Orthonormal := by
    intro f g hf hg
    unfold Frame3.Orthonormal at *
    have : (f.cascade g).att.toMatrix = f.att.toMatrix * g.att.toMatrix :=
      (C06_mat3_products f.att g.att .zero).1
    rw [this, transpose_mul, Matrix.mul_assoc, ← Matrix.mul_assoc f.att.toMatrixᵀ, hf, Matrix.one_mul, hg]
  refine ⟨hc f g hf hg, hi, ?_⟩
  have : f.relative g = f.inv.cascade g := by vring
  rw [this]; exact hc _ _ hi hg

/-- A chain of frames: cascading a list from the left, as nested kinematic chains do. -/
theorem C13_chain (l : List (Frame3 K)) (v : Vec3 K) :
    (l.foldl Frame3.cascade .ident).xform v = l.foldr Frame3.xform v := by
  have : ∀ (l : List (Frame3 K)) (a : Frame3 K),
      (l.foldl Frame3.cascade a).xform v = a.xform (l.foldr Frame3.xform v) := by
    intro l
    induction l with
    | nil => intro a; rfl
    | cons b l ih => intro a; rw [List.foldl_cons, ih, (C13_cascade a b b _).1, List.foldr_cons]
  rw [this]; vring

/-- Distances between points are preserved by the transformation. -/
theorem C13_isometry (f : Frame3 K) (hf : f.Orthonormal) (u v : Vec3 K) :
    (f.xform u).sqrDist (f.xform v) = u.sqrDist v := by
  have : (f.xform u).sqrDist (f.xform v) = (u.sub v).inner ((f.att.t.mulMat f.att).mulVec (u.sub v)) := by
    vring
  rw [this, (Mat3.orth_iff f.att).1 hf]; vring

theorem C13_isometry_dist (f : Frame3 ℝ) (hf : f.Orthonormal) (u v : Vec3 ℝ) :
    (f.xform u).dist (f.xform v) = u.dist v := by
  rw [Vec3.dist, Vec3.dist, C13_isometry f hf]

/-! ## Planar frames -/

omit [Field K] in
theorem Mat2.toMatrix_injective : Function.Injective (Mat2.toMatrix (K := K)) := by
  intro a b h
  have e : ∀ i j, a.toMatrix i j = b.toMatrix i j := fun i j => by rw [h]
  ext
  · simpa [Mat2.toMatrix] using e 0 0
  · simpa [Mat2.toMatrix] using e 1 0
  · simpa [Mat2.toMatrix] using e 0 1
  · simpa [Mat2.toMatrix] using e 1 1

theorem Mat2.orth_iff (m : Mat2 K) : m.toMatrixᵀ * m.toMatrix = 1 ↔ m.t.mulMat m = .ident := by
  rw [← Mat2.toMatrix_injective.eq_iff, (C06_mat2_products _ _ .zero).1,
    (C06_mat2_linear m m 1 .zero .zero).2.2.2.2.2.1, (C06_mat2_linear m m 1 .zero .zero).2.2.2.2.2.2.2.1]

theorem Mat2.orth_iff' (m : Mat2 K) : m.toMatrixᵀ * m.toMatrix = 1 ↔ m.mulMat m.t = .ident := by
  rw [← Mat2.toMatrix_injective.eq_iff, (C06_mat2_products _ _ .zero).1,
    (C06_mat2_linear m m 1 .zero .zero).2.2.2.2.2.1, (C06_mat2_linear m m 1 .zero .zero).2.2.2.2.2.2.2.1,
    mul_eq_one_comm]

/-- The 2D group laws. -/
theorem C13_2D (f g h : Frame2 K) (hf : f.Orthonormal) (v w : Vec2 K) :
    f.xformInv (f.xform v) = v ∧ f.xform (f.xformInv v) = v ∧
    (f.cascade g).xform v = f.xform (g.xform v) ∧
    (f.cascade g).cascade h = f.cascade (g.cascade h) ∧
    f.cascade f.inv = .ident ∧ f.inv.cascade f = .ident ∧ f.inv.xform v = f.xformInv v ∧
    f.relative g = f.inv.cascade g ∧ (f.xform v).sqrDist (f.xform w) = v.sqrDist w := by
  have h1 := (Mat2.orth_iff f.att).1 hf
  have h2 := (Mat2.orth_iff' f.att).1 hf
  refine ⟨?_, ?_, ?_, ?_, ?_, ?_, ?_, ?_, ?_⟩
  · have : f.xformInv (f.xform v) = (f.att.t.mulMat f.att).mulVec v := by vring
    rw [this, h1]; vring
  · have : f.xform (f.xformInv v) = ((f.att.mulMat f.att.t).mulVec (v.sub f.pos)).add f.pos := by vring
    rw [this, h2]; vring
  · vring
  · vring
  · ext1
    · have : (f.cascade f.inv).pos = f.pos.sub ((f.att.mulMat f.att.t).mulVec f.pos) := by vring
      rw [this, h2]; vring
    · exact h2
  · ext1
    · vring
    · exact h1
  · vring
  · vring
  · have : (f.xform v).sqrDist (f.xform w) = (v.sub w).inner ((f.att.t.mulMat f.att).mulVec (v.sub w)) := by
      vring
    rw [this, h1]; vring

/-- The C++ product `f1 * f2` of planar frames is **not** the composition: it is the relative
frame `inv(f1) f2`, unlike `f1 *= f2`. -/
theorem C13_2D_opMul_not_cascade :
    ∃ f g : Frame2 ℚ, f.Orthonormal ∧ g.Orthonormal ∧ f.opMul g ≠ f.cascade g ∧
      f.opMulAssign g = f.cascade g := by
  refine ⟨⟨⟨1, 0⟩, .ident⟩, ⟨⟨0, 0⟩, .ident⟩, ?_, ?_, ?_, rfl⟩
  · unfold Frame2.Orthonormal; rw [Mat2.orth_iff]; vring
  · unfold Frame2.Orthonormal; rw [Mat2.orth_iff]; vring
  · intro h
    have := congrArg (fun f => f.pos.x) h
    norm_num [Frame2.opMul, zeo] at this

/-- A frame with a genuine rotation (3-4-5 triangle) meets the hypothesis. -/
example : (⟨⟨1, 2, 3⟩, Mat3.create (3/5) (-4/5) 0 (4/5) (3/5) 0 0 0 1⟩ : Frame3 ℚ).Orthonormal := by
  unfold Frame3.Orthonormal; rw [Mat3.orth_iff]; ext <;> norm_num [zeo]

end Zeo
