import Verif.Model.Frame
import Verif.Model.EP
import Verif.Model.Octree

/-! # Methods and operators of the C++ classes

The methods call the C functions or macros modelled elsewhere; what is modelled here is which function is called, on which
objects, and what becomes of the object itself. A method that may write to its object returns the object behind it as well.
`none` is a reference bound to NULL or an indeterminate pointer: undefined behaviour. The default constructors of vectors and
matrices set zeros (include/zeo/zeo_vec2d.h:430, zeo_vec3d.h:642, zeo_vec6d.h:347, zeo_mat2d.h:483, zeo_mat3d.h:952,
zeo_coord2d.h:21). -/

namespace Zeo.Cpp
variable {K : Type*} [Field K]

section Div
variable [DecidableEq K]
/-- `operator/(const zVec2D&,double)`, include/zeo/zeo_vec2d.h:464. -/
def divVec2 (v : Vec2 K) (k : K) : Vec2 K := (v.div k .zero).2
/-- `zVec2D::operator/=(double)`, include/zeo/zeo_vec2d.h:445. -/
def divAssignVec2 (v : Vec2 K) (k : K) : Vec2 K := (v.div k v).2
/-- `operator/(const zVec3D&,double)`, include/zeo/zeo_vec3d.h:676. -/
def divVec3 (v : Vec3 K) (k : K) : Vec3 K := (v.div k .zero).2
/-- `zVec3D::operator/=(double)`, include/zeo/zeo_vec3d.h:657. -/
def divAssignVec3 (v : Vec3 K) (k : K) : Vec3 K := (v.div k v).2
/-- `operator/(const zVec6D&,double)`, include/zeo/zeo_vec6d.h:367. -/
def divVec6 (v : Vec6 K) (k : K) : Vec6 K := (v.div k .zero).2
/-- `zVec6D::div`, include/zeo/zeo_vec6d.h:361: the returned pointer is dereferenced. -/
def divMethodVec6 (v : Vec6 K) (k : K) : Option (Vec6 K) :=
  if (v.div k v).1 then some (v.div k v).2 else none
/-- `operator/(const zMat2D&,double)`, include/zeo/zeo_mat2d.h:529. -/
def divMat2 (m : Mat2 K) (k : K) : Mat2 K := (m.div k (.create 0 0 0 0)).2
/-- `zMat2D::operator/=(double)`, include/zeo/zeo_mat2d.h:511. -/
def divAssignMat2 (m : Mat2 K) (k : K) : Mat2 K := (m.div k m).2
/-- `operator/(const zMat3D&,double)`, include/zeo/zeo_mat3d.h:1017. -/
def divMat3 (m : Mat3 K) (k : K) : Mat3 K := (m.div k .zero).2
/-- `zMat3D::operator/=(double)`, include/zeo/zeo_mat3d.h:984. -/
def divAssignMat3 (m : Mat3 K) (k : K) : Mat3 K := (m.div k m).2
/-- `operator/(const zCoord2D&,double)`, include/zeo/zeo_coord2d.h:227. -/
def divCoord2 (c : Coord2 K) (k : K) : Coord2 K := (c.div k ⟨.zero, 0⟩).2
/-- `zCoord2D::operator/=(double)`, include/zeo/zeo_coord2d.h:219. -/
def divAssignCoord2 (c : Coord2 K) (k : K) : Coord2 K := (c.div k c).2
end Div

/-- `zMat2D zMat2D::transpose()`, include/zeo/zeo_mat2d.h:506: the object behind the call, and the result. -/
def transposeMat2 (m : Mat2 K) : Mat2 K × Mat2 K := (m.t, m.t)
/-- `zMat3D zMat3D::transpose()`, include/zeo/zeo_mat3d.h:978: the object behind the call, and the result. -/
def transposeMat3 (m : Mat3 K) : Mat3 K × Mat3 K := (m, m.t)
/-- `zMat3D::transposeDirect`, include/zeo/zeo_mat3d.h:979: the object behind the call, to which a reference is returned. -/
def transposeDirectMat3 (m : Mat3 K) : Mat3 K := m.tDRC

/-- `zVec3D zMat3D::mulT(const zVec3D&)`, include/zeo/zeo_mat3d.h:995. -/
def mulTVec3 (m : Mat3 K) (v : Vec3 K) : Vec3 K := m.mulTVec v
/-- `zMat3D zMat3D::mulT(const zMat3D&)`, include/zeo/zeo_mat3d.h:997. -/
def mulTMat3 (m a : Mat3 K) : Mat3 K := m.mulTMat a
/-- `zVec6D zMat3D::mulT(const zVec6D&)`, include/zeo/zeo_mat3d.h:999: it calls `zMulMat3DVec6D`. -/
def mulTVec6 (m : Mat3 K) (v : Vec6 K) : Vec6 K := v.mulMat3 m
/-- `zVec2D zMat2D::mulT(zVec2D&)`, include/zeo/zeo_mat2d.h:517. -/
def mulTVec2 (m : Mat2 K) (v : Vec2 K) : Vec2 K := m.mulTVec v

/-- `operator*(const zFrame3D&,const zVec3D&)`, include/zeo/zeo_frame3d.h:419. -/
def frame3Vec (f : Frame3 K) (v : Vec3 K) : Vec3 K := f.xform v
/-- `operator*(const zFrame3D&,const zFrame3D&)`, include/zeo/zeo_frame3d.h:420. -/
def frame3Mul (f1 f2 : Frame3 K) : Frame3 K := f1.cascade f2
/-- `zFrame3D::operator*=`, include/zeo/zeo_frame3d.h:402: through a temporary. -/
def frame3MulAssign (f1 f2 : Frame3 K) : Frame3 K := f1.cascade f2

section Order
variable [LinearOrder K] [IsStrictOrderedRing K]
/-- `zMat2D::inv(zMat2D &m)`, include/zeo/zeo_mat2d.h:516: the object and the argument behind the call. -/
def invMat2 (τ : K) (self m : Mat2 K) : Mat2 K × Mat2 K :=
  match Mat2.inv τ m with
  | some i => (i, m)
  | none => (self, m)
/-- `zMat3D::inv(zMat3D &m)`, include/zeo/zeo_mat3d.h:993: the object and the argument behind the call; the argument is
`none` if it is contaminated by a division by zero. -/
def invMat3 (τ : K) (self m : Mat3 K) : Mat3 K × Option (Mat3 K) := (self, (Mat3.inv τ self m).2)
/-- `zMat3D zMat3D::inv()`, include/zeo/zeo_mat3d.h:994. -/
def invMat3Value (τ : K) (self : Mat3 K) : Option (Mat3 K) := (Mat3.inv τ self .zero).2
end Order

noncomputable section
/-- `zEP::create`, include/zeo/zeo_ep.h:223. -/
def createEP (τ w x y z : ℝ) : Option (EP ℝ) := if (EP.create τ w x y z).1 then some (EP.create τ w x y z).2 else none
/-- `zEP::fromMat3D`, include/zeo/zeo_ep.h:231. -/
def fromMat3D (m : Mat3 ℝ) : Option (EP ℝ) := EP.ofMat m
/-- `zVec3DOctree::nearestNeighbor(const zVec3D*)`, include/zeo/zeo_vec3d_octree.h:125-126: the pointer is local to the method and
not initialised. -/
def nearestNeighbor (τ : ℝ) (t : Oct ℝ) (p : Vec3 ℝ) : Option (Vec3 ℝ) := (Oct.nn τ t p).map Prod.fst
end
end Zeo.Cpp
