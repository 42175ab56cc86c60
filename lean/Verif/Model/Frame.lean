import Verif.Model.Vec6
import Verif.Model.Mat2

/-! # Coordinate frames: zeo_frame3d.h/.c, zeo_frame2d.h/.c, zeo_coord2d.h/.c -/

namespace Zeo

/-- `zFrame3D`, include/zeo/zeo_frame3d.h:16-63: position and attitude. -/
@[ext] structure Frame3 (K : Type*) where
  pos : Vec3 K
  att : Mat3 K
deriving DecidableEq

namespace Frame3
section Ring
variable {K : Type*} [Field K]

/-- `ZFRAME3DIDENT`, src/zeo_frame3d.c:10-14. -/
def ident : Frame3 K := ⟨.zero, .ident⟩
/-- `zXform3D(frame,v,tv)`, src/zeo_frame3d.c:50-54, macro include/zeo/zeo_frame3d.h:136-139. -/
def xform (f : Frame3 K) (v : Vec3 K) : Vec3 K := (f.att.mulVec v).add f.pos
/-- `zXform3DInv(frame,v,tv)`, src/zeo_frame3d.c:57-61, macro include/zeo/zeo_frame3d.h:142-145. -/
def xformInv (f : Frame3 K) (v : Vec3 K) : Vec3 K := f.att.mulTVec (v.sub f.pos)
/-- `zFrame3DInv(frame,invframe)`, src/zeo_frame3d.c:64-68, macro include/zeo/zeo_frame3d.h:172-176. -/
def inv (f : Frame3 K) : Frame3 K := ⟨(f.att.t.mulVec f.pos).rev, f.att.t⟩
/-- `zFrame3DCascade(f1,f2,f)`, src/zeo_frame3d.c:71-75, macro include/zeo/zeo_frame3d.h:179-182. -/
def cascade (f1 f2 : Frame3 K) : Frame3 K := ⟨f1.xform f2.pos, f1.att.mulMat f2.att⟩
/-- `zFrame3DXform(f1,f2,f)`, src/zeo_frame3d.c:78-82, macro include/zeo/zeo_frame3d.h:185-188. -/
def relative (f1 f2 : Frame3 K) : Frame3 K := ⟨f1.xformInv f2.pos, f1.att.mulTMat f2.att⟩
/-- `zXform6DLin(frame,v,vc)`, src/zeo_frame3d.c:87-93. -/
def xform6Lin (f : Frame3 K) (v : Vec6 K) : Vec6 K := Vec6.mulMat3T f.att (v.linShift f.pos)
/-- `zXform6DAng(frame,v,vc)`, src/zeo_frame3d.c:98-102. -/
def xform6Ang (f : Frame3 K) (v : Vec6 K) : Vec6 K := (Vec6.mulMat3 f.att v).angShift f.pos
/-- `zFrame3DTranslateView`, src/zeo_frame3d.c:163-171. -/
def translateView (f : Frame3 K) (x y z : K) : Frame3 K :=
  { f with pos := f.pos.add (f.att.mulVec ⟨x, y, z⟩) }
end Ring

noncomputable section Real
/-- `zFrame3DTwist`, src/zeo_frame3d.c:105-110. -/
def twist (τ : ℝ) (f : Frame3 ℝ) (w : Vec6 ℝ) : Frame3 ℝ :=
  ⟨f.pos.add w.lin, Mat3.rot τ f.att w.ang⟩
/-- `zFrame3DError`, src/zeo_frame3d.c:113-118. -/
def error (τ : ℝ) (f1 f2 : Frame3 ℝ) : Vec6 ℝ := ⟨f1.pos.sub f2.pos, Mat3.error τ f1.att f2.att⟩
/-- `zFrame3DFromPosZYX`, src/zeo_frame3d.c:121-126. -/
def fromPosZYX (x y z azim elev tilt : ℝ) : Frame3 ℝ := ⟨⟨x, y, z⟩, Mat3.fromZYX azim elev tilt⟩
/-- `zFrame3DFromPosZYZ`, src/zeo_frame3d.c:129-134. -/
def fromPosZYZ (x y z heading pitch bank : ℝ) : Frame3 ℝ := ⟨⟨x, y, z⟩, Mat3.fromZYZ heading pitch bank⟩
/-- `zFrame3DFromPosAA`, src/zeo_frame3d.c:137-145. -/
def fromPosAA (τ : ℝ) (x y z xa ya za : ℝ) : Frame3 ℝ := ⟨⟨x, y, z⟩, Mat3.fromAA τ ⟨xa, ya, za⟩⟩
/-- `zFrame3DFromDH`, src/zeo_frame3d.c:148-160. -/
def fromDH (a alpha d theta : ℝ) : Frame3 ℝ :=
  let sa := Real.sin alpha; let ca := Real.cos alpha
  let st := Real.sin theta; let ct := Real.cos theta
  ⟨⟨a, -d * sa, d * ca⟩,
   Mat3.create ct (-st) 0 (ca * st) (ca * ct) (-sa) (sa * st) (sa * ct) ca⟩

open Classical in
/-- `zFrame3DRotateView`, src/zeo_frame3d.c:174-186 (`zVec3DNormalizeDRC` keeps a tiny
vector and returns 0). -/
def rotateView (τ : ℝ) (f : Frame3 ℝ) (angle x y z : ℝ) : Frame3 ℝ :=
  let aa : Vec3 ℝ := ⟨x, y, z⟩
  let r := Vec3.normalize τ aa aa
  if ¬ zIsTol r.1 τ then { f with att := f.att.mulMat (Mat3.fromAA τ (r.2.mul angle)) } else f

/-- `zFrame3DLookAtView`, src/zeo_frame3d.c:189-201; `old` is the frame's previous content.
`zVec3DOrthogonalize` leaves `uppervec` unchanged when the gaze vector is tiny. -/
def lookAtView (τ : ℝ) (old : Frame3 ℝ) (eye center up : Vec3 ℝ) : Frame3 ℝ :=
  let gaze := eye.sub center
  let upper := (Vec3.orthogonalize τ up gaze).getD up
  let ax := (Vec3.normalize τ gaze old.att.x).2
  let az := (Vec3.normalize τ upper old.att.z).2
  ⟨eye, ⟨ax, az.outer ax, az⟩⟩

/-- `zFrame3DGazeAndRotateView`, src/zeo_frame3d.c:204-214. -/
def gazeAndRotateView (f : Frame3 ℝ) (center : Vec3 ℝ) (distance pan tilt roll : ℝ) : Frame3 ℝ :=
  let att := f.att.mulMat (Mat3.fromZYX pan tilt roll)
  ⟨center.cat distance att.x, att⟩

/-- `zVec6DToFrame3DZYX`, src/zeo_frame3d.c:237-240 (through `zArrayToFrame3DZYX`, 217-220). -/
def ofVec6ZYX (v : Vec6 ℝ) : Frame3 ℝ := fromPosZYX v.lin.x v.lin.y v.lin.z v.ang.x v.ang.y v.ang.z
/-- `zFrame3DToVec6DZYX`, src/zeo_frame3d.c:243-247 (through 223-234). -/
def toVec6ZYX (f : Frame3 ℝ) : Vec6 ℝ := ⟨f.pos, Mat3.toZYX f.att⟩
/-- `zVec6DToFrame3DZYZ`, src/zeo_frame3d.c:270-273. -/
def ofVec6ZYZ (v : Vec6 ℝ) : Frame3 ℝ := fromPosZYZ v.lin.x v.lin.y v.lin.z v.ang.x v.ang.y v.ang.z
/-- `zFrame3DToVec6DZYZ`, src/zeo_frame3d.c:276-280. -/
def toVec6ZYZ (f : Frame3 ℝ) : Vec6 ℝ := ⟨f.pos, Mat3.toZYZ f.att⟩
/-- `zVec6DToFrame3DAA`, src/zeo_frame3d.c:303-306. -/
def ofVec6AA (τ : ℝ) (v : Vec6 ℝ) : Frame3 ℝ :=
  fromPosAA τ v.lin.x v.lin.y v.lin.z v.ang.x v.ang.y v.ang.z
/-- `zFrame3DToVec6DAA`, src/zeo_frame3d.c:309-313. -/
def toVec6AA (τ : ℝ) (f : Frame3 ℝ) : Vec6 ℝ := ⟨f.pos, Mat3.toAA τ f.att⟩
end Real
end Frame3

/-- `zFrame2D`, include/zeo/zeo_frame2d.h:16-43. -/
@[ext] structure Frame2 (K : Type*) where
  pos : Vec2 K
  att : Mat2 K
deriving DecidableEq

namespace Frame2
variable {K : Type*} [Field K]
/-- `ZFRAME2DIDENT`, src/zeo_frame2d.c:10-14. -/
def ident : Frame2 K := ⟨.zero, .ident⟩
/-- `zXform2D`, src/zeo_frame2d.c:52-56, macro include/zeo/zeo_frame2d.h:117-120
(the local-variable version of the matrix-vector product). -/
def xform (f : Frame2 K) (v : Vec2 K) : Vec2 K := (f.att.mulVec v).add f.pos
/-- `zXform2DInv`, src/zeo_frame2d.c:59-63, macro include/zeo/zeo_frame2d.h:123-126. -/
def xformInv (f : Frame2 K) (v : Vec2 K) : Vec2 K := f.att.mulTVec (v.sub f.pos)
/-- `zFrame2DInv`, src/zeo_frame2d.c:66-70, macro include/zeo/zeo_frame2d.h:153-157. -/
def inv (f : Frame2 K) : Frame2 K := ⟨(f.att.t.mulVec f.pos).rev, f.att.t⟩
/-- `zFrame2DCascade`, src/zeo_frame2d.c:73-77, macro include/zeo/zeo_frame2d.h:160-163. -/
def cascade (f1 f2 : Frame2 K) : Frame2 K := ⟨f1.xform f2.pos, f1.att.mulMat f2.att⟩
/-- `zFrame2DXform`, src/zeo_frame2d.c:80-84, macro include/zeo/zeo_frame2d.h:166-169. -/
def relative (f1 f2 : Frame2 K) : Frame2 K := ⟨f1.xformInv f2.pos, f1.att.mulTMat f2.att⟩
/-- C++ `zFrame2D &operator*=`, include/zeo/zeo_frame2d.h:224. -/
def opMulAssign (f1 f2 : Frame2 K) : Frame2 K := cascade f1 f2
/-- C++ `operator*(zFrame2D,zFrame2D)`, include/zeo/zeo_frame2d.h:233: calls
`_zFrame2DXform`, not `_zFrame2DCascade`. -/
def opMul (f1 f2 : Frame2 K) : Frame2 K := relative f1 f2

/-- `zFrame2DCreateAngle`, src/zeo_frame2d.c:25-30. -/
noncomputable def createAngle (p : Vec2 ℝ) (angle : ℝ) : Frame2 ℝ := ⟨p, Mat2.createAngle angle⟩
end Frame2

/-- `zCoord2D`, include/zeo/zeo_coord2d.h:17-37: a 2D pose (position, angle). -/
@[ext] structure Coord2 (K : Type*) where
  pos : Vec2 K
  angle : K
deriving DecidableEq

namespace Coord2
section
variable {K : Type*} [Field K]
/-- `zCoord2DAdd`, src/zeo_coord2d.c:38-42. -/
def add (a b : Coord2 K) : Coord2 K := ⟨a.pos.add b.pos, a.angle + b.angle⟩
/-- `zCoord2DSub`, src/zeo_coord2d.c:45-49. -/
def sub (a b : Coord2 K) : Coord2 K := ⟨a.pos.sub b.pos, a.angle - b.angle⟩
/-- `zCoord2DMul`, src/zeo_coord2d.c:52-56. -/
def mul (a : Coord2 K) (k : K) : Coord2 K := ⟨a.pos.mul k, k * a.angle⟩
/-- `zCoord2DCat`, src/zeo_coord2d.c:71-75. -/
def cat (a : Coord2 K) (k : K) (b : Coord2 K) : Coord2 K := ⟨a.pos.cat k b.pos, a.angle + k * b.angle⟩
/-- `zCoord2DDiv`, src/zeo_coord2d.c:59-68 (and the DRC version, 99-108). -/
def div [DecidableEq K] (a : Coord2 K) (k : K) (old : Coord2 K) : Bool × Coord2 K :=
  if k = 0 then (false, old) else (true, mul a (1 / k))
/-- `zCoord2DInterDiv`, src/zeo_coord2d.c:118-123 (outputs distinct from the inputs). -/
def interDiv (a b : Coord2 K) (r : K) : Coord2 K :=
  ⟨a.pos.interDiv b.pos r, a.angle + r * (b.angle - a.angle)⟩
end
noncomputable section
/-- `zCoord2DXform(src,target,xform)`, src/zeo_coord2d.c:126-134. -/
def xform (src target : Coord2 ℝ) : Coord2 ℝ :=
  ⟨(target.pos.sub src.pos).rot (-src.angle), target.angle - src.angle⟩
/-- `zCoord2DCascade(src,xform,dest)`, src/zeo_coord2d.c:137-143 (`dest` distinct from
the inputs). -/
def cascade (src x : Coord2 ℝ) : Coord2 ℝ :=
  ⟨(x.pos.rot src.angle).add src.pos, src.angle + x.angle⟩
/-- `zFrame2DFromCoord2D`, src/zeo_frame2d.c:87-90. -/
def toFrame (c : Coord2 ℝ) : Frame2 ℝ := Frame2.createAngle c.pos c.angle
/-- `zCoord2DFromFrame2D`, src/zeo_frame2d.c:93-98. -/
def ofFrame (f : Frame2 ℝ) : Coord2 ℝ := ⟨f.pos, Mat2.angle f.att⟩
end
end Coord2
end Zeo
