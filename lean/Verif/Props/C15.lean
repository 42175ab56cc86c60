import Verif.Props.C13

/-! # C15: power is invariant under change of reference point and frame -/

namespace Zeo
variable {K : Type*} [Field K]

/-- Moving the twist to the point `p` and the wrench to the same point (its moment taken
about `p`, i.e. shifted by `-p`) leaves their power unchanged. -/
theorem C15_shift (v w : Vec6 K) (p : Vec3 K) :
    (v.linShift p).inner (w.angShift p.rev) = v.inner w := by vring

/-- The two shifts are adjoint: power of the shifted twist = power of the wrench shifted back. -/
theorem C15_shift_adjoint (v w : Vec6 K) (p : Vec3 K) :
    (v.linShift p).inner w = v.inner (w.angShift p) := by vring

/-- Shifts compose additively. -/
theorem C15_shift_comp (v : Vec6 K) (p q : Vec3 K) :
    (v.linShift p).linShift q = v.linShift (p.add q) ∧
    (v.angShift p).angShift q = v.angShift (p.add q) ∧
    v.linShift .zero = v ∧ v.angShift .zero = v := by
  refine ⟨?_, ?_, ?_, ?_⟩ <;> vring

/-- `zXform6DLin` brings a twist into a frame; `zXform6DAng` takes a wrench out of it.  The
power computed inside the frame equals the power computed outside, for any attitude. -/
theorem C15_xform_adjoint (f : Frame3 K) (v w : Vec6 K) :
    (f.xform6Lin v).inner w = v.inner (f.xform6Ang w) := by vring

/-- Transforming both the twist and the wrench into the frame (the wrench by the inverse
frame) preserves their power, for every frame whose attitude is a proper rotation. -/
theorem C15_xform (f : Frame3 K) (hf : f.att.IsRot) (v w : Vec6 K) :
    (f.xform6Lin v).inner (f.inv.xform6Ang w) = v.inner w := by
  have h2 := (Mat3.orth_iff' f.att).1 hf.1
  have hd : f.att.det = 1 := by rw [(C06_mat3_det_adj f.att f.att .zero).1]; exact hf.2
  have : (f.xform6Lin v).inner (f.inv.xform6Ang w) =
      (v.lin.add (v.ang.outer f.pos)).inner ((f.att.mulMat f.att.t).mulVec w.lin) +
      v.ang.inner ((f.att.mulMat f.att.t).mulVec w.ang) -
      f.att.det * v.ang.grassmann f.pos w.lin := by vring
  rw [this, h2, hd]; vring

/-- Both transformations compose along a chain of frames. -/
theorem C15_chain (f g : Frame3 K) (hf : f.att.IsRot) (v : Vec6 K) :
    (f.cascade g).xform6Ang v = f.xform6Ang (g.xform6Ang v) := by
  have hd : f.att.det = 1 := by rw [(C06_mat3_det_adj f.att f.att .zero).1]; exact hf.2
  have h1 := (Mat3.orth_iff f.att).1 hf.1
  have hadj : f.att.adj = f.att.t := by
    have e : (f.att.t.mulMat f.att).mulMat f.att.adj = f.att.t.mul f.att.det := by vring
    rw [h1, hd] at e
    have e1 : Mat3.ident.mulMat f.att.adj = f.att.adj := by vring
    have e2 : f.att.t.mul 1 = f.att.t := by vring
    rw [e1, e2] at e; exact e
  have hx : ∀ a b : Vec3 K, f.att.mulVec (a.outer b) = (f.att.mulVec a).outer (f.att.mulVec b) := by
    intro a b
    have : (f.att.mulVec a).outer (f.att.mulVec b) = f.att.adj.t.mulVec (a.outer b) := by vring
    rw [this, hadj]; vring
  have e1 : f.xform6Ang (g.xform6Ang v) =
      ⟨f.att.mulVec (g.att.mulVec v.lin),
       ((f.att.mulVec (g.att.mulVec v.ang)).add (f.att.mulVec (g.pos.outer (g.att.mulVec v.lin)))).add
         (f.pos.outer (f.att.mulVec (g.att.mulVec v.lin)))⟩ := by
    ext1
    · rfl
    · vring
  rw [e1, hx]
  vring

/-- A proper rotation that is not the identity. -/
example : (Mat3.create (3/5) (-4/5) 0 (4/5) (3/5) 0 0 0 (1:ℚ)).IsRot := by
  constructor
  · rw [Mat3.orth_iff]; ext <;> norm_num [zeo]
  · rw [← (C06_mat3_det_adj _ .zero .zero).1]; norm_num [zeo]

end Zeo
