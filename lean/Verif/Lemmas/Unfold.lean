import Verif.Lemmas.Attr
import Verif.Model.Mat2
import Verif.Model.EP
import Verif.Model.Frame

/-! Unfolding set and small tactics for component-wise algebra. -/

namespace Zeo

attribute [zeo] Vec2.zero Vec2.add Vec2.sub Vec2.rev Vec2.mul Vec2.amp Vec2.dem Vec2.cat
  Vec2.inner Vec2.outer Vec2.sqrNorm Vec2.sqrDist Vec2.interDiv Vec2.mid Vec2.rot90CW Vec2.rot90CCW
attribute [zeo] Vec3.zero Vec3.ex Vec3.ey Vec3.ez Vec3.add Vec3.sub Vec3.rev Vec3.mul Vec3.amp
  Vec3.dem Vec3.cat Vec3.inner Vec3.outer Vec3.grassmann Vec3.triple Vec3.sqrNorm Vec3.wSqrNorm
  Vec3.sqrDist Vec3.interDiv Vec3.mid
attribute [zeo] Mat2.create Mat2.ident Mat2.t Mat2.add Mat2.sub Mat2.rev Mat2.mul Mat2.cat Mat2.dyad
  Mat2.sqrNorm Mat2.det Mat2.adj Mat2.mulVec Mat2.mulTVec Mat2.mulAdjVec Mat2.mulMat Mat2.mulTMat
  Mat2.mulMatT Mat2.rotSC
attribute [zeo] Mat3.create Mat3.zero Mat3.ident Mat3.row Mat3.t Mat3.symmetrize Mat3.add Mat3.sub
  Mat3.rev Mat3.mul Mat3.cat Mat3.dyad Mat3.addDyad Mat3.subDyad Mat3.ofOuter Mat3.ofTriple
  Mat3.ofDoubleOuter Mat3.catDoubleOuter Mat3.outerMat Mat3.sqrNorm Mat3.det Mat3.adjRow Mat3.adj
  Mat3.mulVec Mat3.mulTVec Mat3.mulAdjVecRow Mat3.mulAdjVec Mat3.mulMat Mat3.mulTMat
  Mat3.mulMatTElem Mat3.mulMatT Mat3.mulAdjMat Mat3.rotMat Mat3.rotMatInv Mat3.fromZYXSC
  Mat3.fromZYZSC
attribute [zeo] EP.toMat EP.rotVec EP.velToAngVel EP.angVelToVel EP.add EP.sub EP.rev EP.mul EP.lin
  EP.inner EP.cascade

attribute [zeo] Vec6.zero Vec6.add Vec6.sub Vec6.rev Vec6.mul Vec6.cat Vec6.inner Vec6.linShift
  Vec6.angShift Vec6.mulMat3 Vec6.mulMat3T
attribute [zeo] Mat6.create Mat6.ctor Mat6.zero Mat6.t Mat6.add Mat6.sub Mat6.mul Mat6.mulVec
  Mat6.mulTVec Mat6.mulMat Mat6.mulTMat Mat6.mulMatT Mat6.dyad
attribute [zeo] Frame3.ident Frame3.xform Frame3.xformInv Frame3.inv Frame3.cascade
  Frame3.relative Frame3.xform6Lin Frame3.xform6Ang Frame3.translateView
attribute [zeo] Frame2.ident Frame2.xform Frame2.xformInv Frame2.inv Frame2.cascade
  Frame2.relative
attribute [zeo] Coord2.add Coord2.sub Coord2.mul Coord2.cat Coord2.interDiv

@[zeo] theorem Vec3.e_zero {K : Type*} (v : Vec3 K) : v.e 0 = v.x := rfl
@[zeo] theorem Vec3.e_one {K : Type*} (v : Vec3 K) : v.e 1 = v.y := rfl
@[zeo] theorem Vec3.e_two {K : Type*} (v : Vec3 K) : v.e 2 = v.z := rfl
@[zeo] theorem Mat3.v_zero {K : Type*} (m : Mat3 K) : m.v 0 = m.x := rfl
@[zeo] theorem Mat3.v_one {K : Type*} (m : Mat3 K) : m.v 1 = m.y := rfl
@[zeo] theorem Mat3.v_two {K : Type*} (m : Mat3 K) : m.v 2 = m.z := rfl
@[zeo] theorem Mat3.e_def {K : Type*} (m : Mat3 K) (i j : Fin 3) : m.e i j = (m.v i).e j := rfl
@[zeo] theorem Mat3.setE_def {K : Type*} (m : Mat3 K) (i j : Fin 3) (a : K) :
    m.setE i j a = m.setV i ((m.v i).setE j a) := rfl
@[zeo] theorem Mat3.setV_zero {K : Type*} (m : Mat3 K) (c) : m.setV 0 c = { m with x := c } := rfl
@[zeo] theorem Mat3.setV_one {K : Type*} (m : Mat3 K) (c) : m.setV 1 c = { m with y := c } := rfl
@[zeo] theorem Mat3.setV_two {K : Type*} (m : Mat3 K) (c) : m.setV 2 c = { m with z := c } := rfl
@[zeo] theorem Vec3.setE_zero {K : Type*} (m : Vec3 K) (c) : m.setE 0 c = { m with x := c } := rfl
@[zeo] theorem Vec3.setE_one {K : Type*} (m : Vec3 K) (c) : m.setE 1 c = { m with y := c } := rfl
@[zeo] theorem Vec3.setE_two {K : Type*} (m : Vec3 K) (c) : m.setE 2 c = { m with z := c } := rfl

/-- Split an equation between vectors / matrices into components and normalize them. -/
macro "vring" : tactic =>
  `(tactic| first
    | (simp only [zeo]; ring1)
    | (ext <;> (try simp only [zeo]) <;> ring1))

end Zeo
