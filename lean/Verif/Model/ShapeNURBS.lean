import Verif.Model.NURBS
import Verif.Model.Mat3

/-! # NURBS surfaces as shapes

The table of methods `zeo_shape3d_nurbs_com`, src/zeo_shape3d_nurbs.c:58-77, and the functions of src/zeo_shape3d.c that call it.
Simplifications: allocation of memory succeeds; names, optical informations and textures are left out. -/

namespace Zeo
noncomputable section

/-- A NURBS whose memory is filled with zeros, as `zAlloc` of ZEDA leaves it (src/zeo_shape3d_nurbs.c:13-20), without knots and
without control points. -/
def NURBS.zeroed : NURBS := ⟨⟨0, [], 0⟩, ⟨0, [], 0⟩, 0, 0, fun _ _ => .zero, fun _ _ => 0⟩

/-- `zShape3D`, include/zeo/zeo_shape3d.h:42-47, of the type NURBS or without type. `body = none`: the null pointer. -/
structure NShape where
  body : Option NURBS
  typed : Bool

namespace NShape

/-- `zShape3DInit`, src/zeo_shape3d.c:15-23. -/
def init : NShape := ⟨none, false⟩

/-- `zShape3DNURBSAlloc`, src/zeo_shape3d_nurbs.c:80-87: (non-NULL, shape). The value of `zNURBS3DAlloc` is not looked at; where it is
false, the body is left as it was allocated. -/
def alloc (size1 size2 order1 order2 : ℕ) : Bool × NShape :=
  (true, ⟨some ((NURBS.alloc size1 size2 order1 order2).getD .zeroed), true⟩)

/-- `zShape3DClone`, src/zeo_shape3d.c:50-61, with `_zShape3DNURBSClone`, src/zeo_shape3d_nurbs.c:21-23: (non-NULL, clone). `none`:
a null pointer is followed. -/
def clone (src : NShape) : Option (Bool × NShape) :=
  match src.typed, src.body with
  | true, some n => some (n.clone.isSome, ⟨n.clone, true⟩)
  | _, _ => none

/-- `zShape3DMirror`, src/zeo_shape3d.c:64-80, into a shape without type and for a valid axis, with `_zShape3DNURBSMirror`,
src/zeo_shape3d_nurbs.c:24-26: (non-NULL, image). -/
def mirror (src : NShape) (axis : Fin 3) : Option (Bool × NShape) :=
  match src.typed, src.body with
  | true, some n => some ((n.mirror .zeroed axis).isSome, ⟨n.mirror .zeroed axis, true⟩)
  | _, _ => none

/-- `zShape3DDestroy`, src/zeo_shape3d.c:39-47, with `zNURBS3DDestroy`, src/zeo_nurbs3d.c:50-56, which reads the members of the
body. `none`: a null pointer is followed. -/
def destroy (s : NShape) : Option NShape :=
  match s.typed, s.body with
  | true, some _ => some ⟨none, true⟩
  | _, _ => none

/-- `zShape3DXform`, src/zeo_shape3d.c:83-87, with `_zShape3DNURBSXform`, src/zeo_shape3d_nurbs.c:29-30: the destination, which is also
what is returned. The value of `zNURBS3DXform` is not looked at. Where that is NULL the destination may already have got the knots of
the source; it is taken to be left as it was. -/
def xform (src : NShape) (f : Frame3 ℝ) (dest : NShape) : Option NShape :=
  match src.typed, src.body, dest.body with
  | true, some n, some d => some { dest with body := some ((n.xform f d).getD d) }
  | _, _, _ => none

/-- `zShape3DXformInv`, src/zeo_shape3d.c:90-94, with `_zShape3DNURBSXformInv`, src/zeo_shape3d_nurbs.c:31-32. -/
def xformInv (src : NShape) (f : Frame3 ℝ) (dest : NShape) : Option NShape :=
  match src.typed, src.body, dest.body with
  | true, some n, some d => some { dest with body := some ((n.xformInv f d).getD d) }
  | _, _, _ => none

/-- `zShape3DClosest`, src/zeo_shape3d.c:96-99, with `_zShape3DNURBSClosest`, src/zeo_shape3d_nurbs.c:33-34. -/
def closest (seg : BSpline → ℝ → ℕ) (τ : ℝ) (iter : ℕ) (n : NURBS) (p old : Vec3 ℝ) : Option (ℝ × Vec3 ℝ) :=
  (n.closest seg τ iter p old).map fun r => (r.1, r.2.1)
/-- `zShape3DDistFromPoint`, src/zeo_shape3d.c:102-105, with `_zShape3DNURBSDistFromPoint`, src/zeo_shape3d_nurbs.c:35-37. `junk` is
what the local variable `nn` holds before it is written. -/
def distFromPoint (seg : BSpline → ℝ → ℕ) (τ : ℝ) (iter : ℕ) (n : NURBS) (p junk : Vec3 ℝ) : Option ℝ :=
  (n.closest seg τ iter p junk).map fun r => r.1

/-- `zShape3DPointIsInside`, src/zeo_shape3d.c:108-111, with `_zShape3DNURBSPointIsInside`, src/zeo_shape3d_nurbs.c:40-41. -/
def pointIsInside (_ : NURBS) (_ : Vec3 ℝ) (_ : ℝ) : Bool := false
/-- `zShape3DVolume`, src/zeo_shape3d.c:114-117, with `_zShape3DNURBSVolume`, src/zeo_shape3d_nurbs.c:42-43. -/
def volume (_ : NURBS) : ℝ := 0
/-- `zShape3DBarycenter`, src/zeo_shape3d.c:120-123, with `_zShape3DNURBSBarycenter`, src/zeo_shape3d_nurbs.c:44-45: (non-NULL, `*center`),
where `*center` was `old`. -/
def barycenter (_ : NURBS) (old : Vec3 ℝ) : Bool × Vec3 ℝ := (false, old)
/-- `zShape3DBaryInertiaMass`, src/zeo_shape3d.c:126-129, with `_zShape3DNURBSBaryInertiaMass`, src/zeo_shape3d_nurbs.c:46-47: (non-NULL,
`*inertia`), where `*inertia` was `old`. -/
def baryInertiaMass (_ : NURBS) (_ : ℝ) (old : Mat3 ℝ) : Bool × Mat3 ℝ := (false, old)
/-- `zShape3DBaryInertia`, src/zeo_shape3d.c:132-135, with `_zShape3DNURBSBaryInertia`, src/zeo_shape3d_nurbs.c:48-49. -/
def baryInertia (_ : NURBS) (_ : ℝ) (old : Mat3 ℝ) : Bool × Mat3 ℝ := (false, old)
/-- `zShape3DInertiaMass`, src/zeo_shape3d.c:138-145: (non-NULL, `*inertia`). `junk` is what the local variable `c` holds before it
is written, `old` is what `*inertia` was. -/
def inertiaMass (n : NURBS) (mass : ℝ) (junk : Vec3 ℝ) (old : Mat3 ℝ) : Bool × Mat3 ℝ :=
  (true, (baryInertiaMass n mass old).2.catDoubleOuter (-mass) (barycenter n junk).2)
/-- `zShape3DInertia`, src/zeo_shape3d.c:148-157: (non-NULL, `*inertia`). -/
def inertia (n : NURBS) (density : ℝ) (junk : Vec3 ℝ) (old : Mat3 ℝ) : Bool × Mat3 ℝ :=
  let mass := density * volume n
  (true, (baryInertiaMass n mass old).2.catDoubleOuter (-mass) (barycenter n junk).2)

end NShape
end
end Zeo
