import Verif.Model.Vec3

/-! # 3x3 matrices: include/zeo/zeo_mat3d.h, src/zeo_mat3d.c -/

namespace Zeo

/-- `zMat3D`, include/zeo/zeo_mat3d.h:22-86: three column vectors `b.x`, `b.y`, `b.z`
(`e[i][j]` = column i, row j; `c.yx` = `x` component of column `y`). -/
@[ext] structure Mat3 (K : Type*) where
  x : Vec3 K
  y : Vec3 K
  z : Vec3 K
deriving DecidableEq

namespace Mat3

/-- `zMat3DVec(m,axis)` = `&m->v[axis]`, include/zeo/zeo_mat3d.h:89. -/
def v {K : Type*} (m : Mat3 K) : Fin 3 → Vec3 K
  | 0 => m.x
  | 1 => m.y
  | 2 => m.z

/-- `m->e[i][j]`, include/zeo/zeo_mat3d.h:23: column `i`, row `j`. -/
def e {K : Type*} (m : Mat3 K) (i j : Fin 3) : K := (m.v i).e j

/-- Assignment to the column `m->v[i]`. -/
def setV {K : Type*} (m : Mat3 K) (i : Fin 3) (c : Vec3 K) : Mat3 K :=
  match i with
  | 0 => { m with x := c }
  | 1 => { m with y := c }
  | 2 => { m with z := c }

/-- Assignment `m->e[i][j] = a`. -/
def setE {K : Type*} (m : Mat3 K) (i j : Fin 3) (a : K) : Mat3 K := m.setV i ((m.v i).setE j a)

section Ring
variable {K : Type*} [Field K]

/-- `zMat3DCreate(m,a11,a12,...,a33)` (row by row), include/zeo/zeo_mat3d.h:119-123. -/
def create (a11 a12 a13 a21 a22 a23 a31 a32 a33 : K) : Mat3 K :=
  ⟨⟨a11, a21, a31⟩, ⟨a12, a22, a32⟩, ⟨a13, a23, a33⟩⟩
/-- `ZMAT3DZERO`, include/zeo/zeo_mat3d.h:130. -/
def zero : Mat3 K := ⟨.zero, .zero, .zero⟩
/-- `ZMAT3DIDENT`, include/zeo/zeo_mat3d.h:131. -/
def ident : Mat3 K := ⟨.ex, .ey, .ez⟩
/-- `zMat3DRow(m,i,v)`, include/zeo/zeo_mat3d.h:178. -/
def row (m : Mat3 K) (i : Fin 3) : Vec3 K := ⟨m.e 0 i, m.e 1 i, m.e 2 i⟩
/-- `zMat3DT(m,tm)`, src/zeo_mat3d.c:67-75, macro include/zeo/zeo_mat3d.h:194-198. -/
def t (m : Mat3 K) : Mat3 K := ⟨m.row 0, m.row 1, m.row 2⟩
/-- `zMat3DTDRC(m)`, src/zeo_mat3d.c:78-82, macro include/zeo/zeo_mat3d.h:199-204:
three sequential swaps. -/
def tDRC (m : Mat3 K) : Mat3 K :=
  let t1 := m.e 1 0; let m1 := (m.setE 1 0 (m.e 0 1)).setE 0 1 t1
  let t2 := m1.e 2 0; let m2 := (m1.setE 2 0 (m1.e 0 2)).setE 0 2 t2
  let t3 := m2.e 2 1; (m2.setE 2 1 (m2.e 1 2)).setE 1 2 t3
/-- `zMat3DSymmetrize`, include/zeo/zeo_mat3d.h:209-216. -/
def symmetrize (m : Mat3 K) : Mat3 K :=
  let xy := 1/2 * (m.x.y + m.y.x)
  let yz := 1/2 * (m.y.z + m.z.y)
  let zx := 1/2 * (m.z.x + m.x.z)
  ⟨⟨m.x.x, xy, zx⟩, ⟨xy, m.y.y, yz⟩, ⟨zx, yz, m.z.z⟩⟩
/-- `zMat3DAdd`, include/zeo/zeo_mat3d.h:264-268. -/
def add (a b : Mat3 K) : Mat3 K := ⟨a.x.add b.x, a.y.add b.y, a.z.add b.z⟩
/-- `zMat3DSub`, include/zeo/zeo_mat3d.h:270-274. -/
def sub (a b : Mat3 K) : Mat3 K := ⟨a.x.sub b.x, a.y.sub b.y, a.z.sub b.z⟩
/-- `zMat3DRev`, include/zeo/zeo_mat3d.h:276-280. -/
def rev (m : Mat3 K) : Mat3 K := ⟨m.x.rev, m.y.rev, m.z.rev⟩
/-- `zMat3DMul(m,k)`, include/zeo/zeo_mat3d.h:282-286. -/
def mul (m : Mat3 K) (k : K) : Mat3 K := ⟨m.x.mul k, m.y.mul k, m.z.mul k⟩
/-- `zMat3DCat(m1,k,m2)`, include/zeo/zeo_mat3d.h:289-293. -/
def cat (a : Mat3 K) (k : K) (b : Mat3 K) : Mat3 K :=
  ⟨a.x.cat k b.x, a.y.cat k b.y, a.z.cat k b.z⟩
/-- `zMat3DDyad(m,v1,v2)`, include/zeo/zeo_mat3d.h:336-340. -/
def dyad (v1 v2 : Vec3 K) : Mat3 K := ⟨v1.mul v2.x, v1.mul v2.y, v1.mul v2.z⟩
/-- `zMat3DAddDyad(m,v1,v2)`, include/zeo/zeo_mat3d.h:351-355. -/
def addDyad (m : Mat3 K) (v1 v2 : Vec3 K) : Mat3 K :=
  ⟨m.x.cat v2.x v1, m.y.cat v2.y v1, m.z.cat v2.z v1⟩
/-- `zMat3DSubDyad(m,v1,v2)`, include/zeo/zeo_mat3d.h:366-370. -/
def subDyad (m : Mat3 K) (v1 v2 : Vec3 K) : Mat3 K :=
  ⟨m.x.cat (-v2.x) v1, m.y.cat (-v2.y) v1, m.z.cat (-v2.z) v1⟩
/-- `zVec3DOuterProdToMat3D(v,m)`, include/zeo/zeo_mat3d.h:390-394. -/
def ofOuter (w : Vec3 K) : Mat3 K :=
  create 0 (-w.z) w.y w.z 0 (-w.x) (-w.y) w.x 0
/-- `zVec3DTripleProdToMat3D(v1,v2,m)`, include/zeo/zeo_mat3d.h:396-400. -/
def ofTriple (v1 v2 : Vec3 K) : Mat3 K :=
  create
    (-v1.y * v2.y - v1.z * v2.z) (v1.y * v2.x) (v1.z * v2.x)
    (v1.x * v2.y) (-v1.z * v2.z - v1.x * v2.x) (v1.z * v2.y)
    (v1.x * v2.z) (v1.y * v2.z) (-v1.x * v2.x - v1.y * v2.y)
/-- `zVec3DDoubleOuterProdToMat3D(v,m)`, include/zeo/zeo_mat3d.h:402-413. -/
def ofDoubleOuter (w : Vec3 K) : Mat3 K :=
  let xx := w.x * w.x; let yy := w.y * w.y; let zz := w.z * w.z
  ⟨⟨-yy - zz, w.x * w.y, w.z * w.x⟩, ⟨w.x * w.y, -zz - xx, w.y * w.z⟩,
   ⟨w.z * w.x, w.y * w.z, -xx - yy⟩⟩
/-- `zMat3DCatVec3DDoubleOuterProd(m,k,v,dm)`, include/zeo/zeo_mat3d.h:417-434. -/
def catDoubleOuter (m : Mat3 K) (k : K) (w : Vec3 K) : Mat3 K :=
  let kxx := k * w.x * w.x; let kyy := k * w.y * w.y; let kzz := k * w.z * w.z
  let kxy := k * w.x * w.y; let kyz := k * w.y * w.z; let kzx := k * w.z * w.x
  ⟨⟨m.x.x - kyy - kzz, m.x.y + kxy, m.x.z + kzx⟩,
   ⟨m.y.x + kxy, m.y.y - kzz - kxx, m.y.z + kyz⟩,
   ⟨m.z.x + kzx, m.z.y + kyz, m.z.z - kxx - kyy⟩⟩
/-- `zMulVec3DOuterProdMat3D(ohm,m,mv)`, src/zeo_mat3d.c:198-204. -/
def outerMat (ohm : Vec3 K) (m : Mat3 K) : Mat3 K :=
  ⟨ohm.outer m.x, ohm.outer m.y, ohm.outer m.z⟩
/-- `zMat3DSqrNorm`, include/zeo/zeo_mat3d.h:462. -/
def sqrNorm (m : Mat3 K) : K := m.x.sqrNorm + m.y.sqrNorm + m.z.sqrNorm
/-- `zMat3DDet`, src/zeo_mat3d.c:336-339, macro include/zeo/zeo_mat3d.h:488-490. -/
def det (m : Mat3 K) : K :=
  (m.y.y * m.z.z - m.y.z * m.z.y) * m.x.x
  + (m.x.z * m.z.y - m.x.y * m.z.z) * m.y.x
  + (m.x.y * m.y.z - m.x.z * m.y.y) * m.z.x
/-- The macro `_zMat3DAdjRow(mat,adj,i,j,k)`, src/zeo_mat3d.c:255-259: row `i` of the
adjugate, i.e. `adj.e[i][i]`, `adj.e[j][i]`, `adj.e[k][i]`. -/
def adjRow (m : Mat3 K) (i j k : Fin 3) : K × K × K :=
  (m.e j j * m.e k k - m.e k j * m.e j k,
   m.e k i * m.e j k - m.e j i * m.e k k,
   m.e j i * m.e k j - m.e k i * m.e j j)
/-- `zMat3DAdj`, src/zeo_mat3d.c:262-272. -/
def adj (m : Mat3 K) : Mat3 K :=
  let r0 := adjRow m 0 1 2
  let r1 := adjRow m 1 2 0
  let r2 := adjRow m 2 0 1
  ⟨⟨r0.1, r1.2.2, r2.2.1⟩, ⟨r0.2.1, r1.1, r2.2.2⟩, ⟨r0.2.2, r1.2.1, r2.1⟩⟩
/-- `zMulMat3DVec3D(m,v)`, src/zeo_mat3d.c:386-390, macro include/zeo/zeo_mat3d.h:524-530. -/
def mulVec (m : Mat3 K) (w : Vec3 K) : Vec3 K :=
  ⟨m.x.x * w.x + m.y.x * w.y + m.z.x * w.z,
   m.x.y * w.x + m.y.y * w.y + m.z.y * w.z,
   m.x.z * w.x + m.y.z * w.y + m.z.z * w.z⟩
/-- `zMulMat3DTVec3D(m,v)`, src/zeo_mat3d.c:393-397, macro include/zeo/zeo_mat3d.h:532-538. -/
def mulTVec (m : Mat3 K) (w : Vec3 K) : Vec3 K := ⟨m.x.inner w, m.y.inner w, m.z.inner w⟩
/-- `_zMulAdjMat3DVec3DRow`, src/zeo_mat3d.c:414-419. -/
def mulAdjVecRow (m : Mat3 K) (w : Vec3 K) (i j k : Fin 3) : K :=
  (m.e j j * m.e k k - m.e k j * m.e j k) * w.e i
  + (m.e k i * m.e j k - m.e j i * m.e k k) * w.e j
  + (m.e j i * m.e k j - m.e k i * m.e j j) * w.e k
/-- `zMulAdjMat3DVec3D`, src/zeo_mat3d.c:421-431 (output distinct from `vec`). -/
def mulAdjVec (m : Mat3 K) (w : Vec3 K) : Vec3 K :=
  ⟨mulAdjVecRow m w 0 1 2, mulAdjVecRow m w 1 2 0, mulAdjVecRow m w 2 0 1⟩
/-- `zMulMat3DMat3D`, src/zeo_mat3d.c:487-495. -/
def mulMat (a b : Mat3 K) : Mat3 K := ⟨mulVec a b.x, mulVec a b.y, mulVec a b.z⟩
/-- `zMulMat3DTMat3D`, src/zeo_mat3d.c:498-506. -/
def mulTMat (a b : Mat3 K) : Mat3 K := ⟨mulTVec a b.x, mulTVec a b.y, mulTVec a b.z⟩
/-- `__zMulMat3DMat3DTElem(m1,m2,i,j,m)`, src/zeo_mat3d.c:509-510. -/
def mulMatTElem (a b : Mat3 K) (i j : Fin 3) : K :=
  a.e 0 j * b.e 0 i + a.e 1 j * b.e 1 i + a.e 2 j * b.e 2 i
/-- `zMulMat3DMat3DT`, src/zeo_mat3d.c:511-525. -/
def mulMatT (a b : Mat3 K) : Mat3 K :=
  ⟨⟨mulMatTElem a b 0 0, mulMatTElem a b 0 1, mulMatTElem a b 0 2⟩,
   ⟨mulMatTElem a b 1 0, mulMatTElem a b 1 1, mulMatTElem a b 1 2⟩,
   ⟨mulMatTElem a b 2 0, mulMatTElem a b 2 1, mulMatTElem a b 2 2⟩⟩
/-- `zMulAdjMat3DMat3D`, src/zeo_mat3d.c:528-539 (output distinct from the inputs). -/
def mulAdjMat (a b : Mat3 K) : Mat3 K := ⟨mulAdjVec a b.x, mulAdjVec a b.y, mulAdjVec a b.z⟩
/-- `zRotMat3D(r,m,rm)`, src/zeo_mat3d.c:803-807. -/
def rotMat (r m : Mat3 K) : Mat3 K := mulMatT (mulMat r m) r
/-- `zRotMat3DInv(r,m,rm)`, src/zeo_mat3d.c:810-814. -/
def rotMatInv (r m : Mat3 K) : Mat3 K := mulTMat r (mulMat m r)

/-- `_zMat3DRotRPYSC(m,a0,a1,a2,s,c,rm)`, src/zeo_mat3d.c:602-614: nine writes into `rm`
(distinct from `m`); `old` is what `rm` held. -/
def rotRPYSC (m : Mat3 K) (a0 a1 a2 : Fin 3) (s c : K) (old : Mat3 K) : Mat3 K :=
  ((((((((old.setE a0 a0 (m.e a0 a0 * c - m.e a0 a1 * s)).setE
    a1 a0 (m.e a1 a0 * c - m.e a1 a1 * s)).setE
    a2 a0 (m.e a2 a0 * c - m.e a2 a1 * s)).setE
    a0 a1 (m.e a0 a0 * s + m.e a0 a1 * c)).setE
    a1 a1 (m.e a1 a0 * s + m.e a1 a1 * c)).setE
    a2 a1 (m.e a2 a0 * s + m.e a2 a1 * c)).setE
    a0 a2 (m.e a0 a2)).setE
    a1 a2 (m.e a1 a2)).setE
    a2 a2 (m.e a2 a2)
/-- `_zMat3DRotRPYSCDRC(m,a0,a1,a2,s,c)`, src/zeo_mat3d.c:617-634. -/
def rotRPYSCDRC (m : Mat3 K) (a0 a1 a2 : Fin 3) (s c : K) : Mat3 K :=
  let r00 := m.e a0 a0; let r01 := m.e a1 a0; let r02 := m.e a2 a0
  let r10 := m.e a0 a1; let r11 := m.e a1 a1; let r12 := m.e a2 a1
  (((((m.setE a0 a0 (r00 * c - r10 * s)).setE a1 a0 (r01 * c - r11 * s)).setE
    a2 a0 (r02 * c - r12 * s)).setE a0 a1 (r00 * s + r10 * c)).setE
    a1 a1 (r01 * s + r11 * c)).setE a2 a1 (r02 * s + r12 * c)
/-- `zMat3DRotRollSC`, src/zeo_mat3d.c:637-639. -/
def rotRollSC (m : Mat3 K) (s c : K) (old : Mat3 K) : Mat3 K := rotRPYSC m 1 2 0 s c old
/-- `zMat3DRotPitchSC`, src/zeo_mat3d.c:655-657. -/
def rotPitchSC (m : Mat3 K) (s c : K) (old : Mat3 K) : Mat3 K := rotRPYSC m 2 0 1 s c old
/-- `zMat3DRotYawSC`, src/zeo_mat3d.c:673-675. -/
def rotYawSC (m : Mat3 K) (s c : K) (old : Mat3 K) : Mat3 K := rotRPYSC m 0 1 2 s c old
/-- `zMat3DRotRollSCDRC`, src/zeo_mat3d.c:645-647. -/
def rotRollSCDRC (m : Mat3 K) (s c : K) : Mat3 K := rotRPYSCDRC m 1 2 0 s c
/-- `zMat3DRotPitchSCDRC`, src/zeo_mat3d.c:663-665. -/
def rotPitchSCDRC (m : Mat3 K) (s c : K) : Mat3 K := rotRPYSCDRC m 2 0 1 s c
/-- `zMat3DRotYawSCDRC`, src/zeo_mat3d.c:681-683. -/
def rotYawSCDRC (m : Mat3 K) (s c : K) : Mat3 K := rotRPYSCDRC m 0 1 2 s c

/-- `zMat3DFromZYXSC`, src/zeo_mat3d.c:691-698. -/
def fromZYXSC (sa ca se ce st ct : K) : Mat3 K :=
  create
    (ce * ca) (st * se * ca - ct * sa) (ct * se * ca + st * sa)
    (ce * sa) (st * se * sa + ct * ca) (ct * se * sa - st * ca)
    (-se) (st * ce) (ct * ce)
/-- `zMat3DFromZYZSC`, src/zeo_mat3d.c:723-730. -/
def fromZYZSC (sh ch sp cp sb cb : K) : Mat3 K :=
  create
    (ch * cp * cb - sh * sb) (-ch * cp * sb - sh * cb) (ch * sp)
    (sh * cp * cb + ch * sb) (-sh * cp * sb + ch * cb) (sh * sp)
    (-sp * cb) (sp * sb) cp

/-- `zMat3DDiv`, src/zeo_mat3d.c:130-139: (non-NULL, contents of `*dm`). -/
def div [DecidableEq K] (m : Mat3 K) (k : K) (old : Mat3 K) : Bool × Mat3 K :=
  if k = 0 then (false, old) else (true, mul m (1 / k))
end Ring

section Order
variable {K : Type*} [Field K] [LinearOrder K] [IsStrictOrderedRing K]

/-- `zMat3DIsOrthonormal`, src/zeo_mat3d.c:213-221. -/
def isOrthonormal (τ : K) (m : Mat3 K) : Prop :=
  zIsTol ((m.v 0).inner (m.v 0) - 1) τ ∧ zIsTol ((m.v 1).inner (m.v 1) - 1) τ ∧
  zIsTol ((m.v 2).inner (m.v 2) - 1) τ ∧ zIsTol ((m.v 0).inner (m.v 1)) τ ∧
  zIsTol ((m.v 1).inner (m.v 2)) τ ∧ zIsTol ((m.v 2).inner (m.v 0)) τ

/-- `zMat3DIsRightHand`, src/zeo_mat3d.c:224-227. -/
def isRightHand (m : Mat3 K) : Prop := 0 < (m.v 0).grassmann (m.v 1) (m.v 2)

/-- `_zMat3DBalancingMinMaxIndex(v,&imax,&imin)`, src/zeo_mat3d.c:275-289: (imax, imin). -/
def minMaxIndex (w : Vec3 K) : Fin 3 × Fin 3 :=
  let p : Fin 3 × Fin 3 := if w.e 0 > w.e 1 then (0, 1) else (1, 0)
  if w.e p.1 < w.e 2 then (2, p.2)
  else if w.e p.2 > w.e 2 then (p.1, 2) else p

/-- Largest absolute value of a row/column as computed at src/zeo_mat3d.c:297-302. -/
def maxAbs (a b c : K) : K :=
  let w : Vec3 K := ⟨|a|, |b|, |c|⟩
  w.e (minMaxIndex w).1

/-- `_zMat3DRowBalancingScale(m,&s)`, src/zeo_mat3d.c:292-305: the scaling vector. -/
def rowScale (m : Mat3 K) : Vec3 K :=
  ⟨maxAbs (m.e 0 0) (m.e 1 0) (m.e 2 0), maxAbs (m.e 0 1) (m.e 1 1) (m.e 2 1),
   maxAbs (m.e 0 2) (m.e 1 2) (m.e 2 2)⟩
/-- `_zMat3DColBalancingScale(m,&s)`, src/zeo_mat3d.c:308-321: the scaling vector. -/
def colScale (m : Mat3 K) : Vec3 K :=
  ⟨maxAbs (m.e 0 0) (m.e 0 1) (m.e 0 2), maxAbs (m.e 1 0) (m.e 1 1) (m.e 1 2),
   maxAbs (m.e 2 0) (m.e 2 1) (m.e 2 2)⟩
/-- The return value `s->e[imin] / s->e[imax]` of the two functions above
(src/zeo_mat3d.c:303-304, 319-320).  Not a number when `s` is zero: see `balanceOK`. -/
def scaleRatio (s : Vec3 K) : K := s.e (minMaxIndex s).2 / s.e (minMaxIndex s).1

/-- `_zMat3DRowBalancing(m,s,mb)`, src/zeo_mat3d.c:324-327. -/
def rowBalancing (m : Mat3 K) (s : Vec3 K) : Mat3 K :=
  create (m.e 0 0 / s.e 0) (m.e 1 0 / s.e 0) (m.e 2 0 / s.e 0)
         (m.e 0 1 / s.e 1) (m.e 1 1 / s.e 1) (m.e 2 1 / s.e 1)
         (m.e 0 2 / s.e 2) (m.e 1 2 / s.e 2) (m.e 2 2 / s.e 2)
/-- `_zMat3DColBalancing(m,s,mb)`, src/zeo_mat3d.c:330-333. -/
def colBalancing (m : Mat3 K) (s : Vec3 K) : Mat3 K :=
  create (m.e 0 0 / s.e 0) (m.e 1 0 / s.e 1) (m.e 2 0 / s.e 2)
         (m.e 0 1 / s.e 0) (m.e 1 1 / s.e 1) (m.e 2 1 / s.e 2)
         (m.e 0 2 / s.e 0) (m.e 1 2 / s.e 1) (m.e 2 2 / s.e 2)

/-- All components are non-zero, so that dividing by them is well defined. -/
def allNonzero (s : Vec3 K) : Prop := s.x ≠ 0 ∧ s.y ≠ 0 ∧ s.z ≠ 0

instance (s : Vec3 K) : Decidable (allNonzero s) := inferInstanceAs (Decidable (_ ∧ _ ∧ _))

/-- The balancing step shared by src/zeo_mat3d.c:363-373, 454-462 and 562-570:
the balanced matrix with its row and column scales.  `none` = a division by zero happens
(the C code then continues with Inf/NaN); this is the case exactly when a row or a
column of the matrix is zero. -/
def balance (m : Mat3 K) : Option (Mat3 K × Vec3 K × Vec3 K) :=
  if ¬ allNonzero (rowScale m) ∨ ¬ allNonzero (colScale m) then none
  else if scaleRatio (rowScale m) < scaleRatio (colScale m) then
    let sr := rowScale m
    let tmp := rowBalancing m sr
    let sc := colScale tmp
    some (colBalancing tmp sc, sr, sc)
  else
    let sc := colScale m
    let tmp := colBalancing m sc
    let sr := rowScale tmp
    some (rowBalancing tmp sr, sr, sc)

/-- `_zMat3DInv(mat,inv_mat)`, src/zeo_mat3d.c:342-355: (non-NULL, contents of `inv_mat`). -/
def invCore (τ : K) (m old : Mat3 K) : Bool × Mat3 K :=
  if zIsTol (det m) τ then (false, old) else (true, (adj m).mul (1 / det m))

/-- `zMat3DInv(m,im)`, src/zeo_mat3d.c:358-379.  The first component says whether the
returned pointer is non-NULL; the second is the content of `*im`, `none` when it is
contaminated by a division by zero.  The result of `_zMat3DInv` is ignored by the code. -/
def inv (τ : K) (m old : Mat3 K) : Bool × Option (Mat3 K) :=
  (true,
   match balance m with
   | none => none
   | some (mb, sr, sc) => some (colBalancing (rowBalancing (invCore τ mb old).2 sc) sr))

/-- `_zMulInvMat3DVec3D`, src/zeo_mat3d.c:434-446. -/
def mulInvVecCore (τ : K) (m : Mat3 K) (w old : Vec3 K) : Bool × Vec3 K :=
  if zIsTol (det m) τ then (false, old) else (true, (mulAdjVec m w).mul (1 / det m))
/-- `zMulInvMat3DVec3D`, src/zeo_mat3d.c:449-467. -/
def mulInvVec (τ : K) (m : Mat3 K) (w old : Vec3 K) : Bool × Option (Vec3 K) :=
  (true,
   match balance m with
   | none => none
   | some (mb, sr, sc) =>
     let r := mulInvVecCore τ mb (w.dem sr) old
     some (if r.1 then r.2.dem sc else r.2))

/-- `_zMulInvMat3DMat3D`, src/zeo_mat3d.c:542-554. -/
def mulInvMatCore (τ : K) (a b old : Mat3 K) : Bool × Mat3 K :=
  if zIsTol (det a) τ then (false, old) else (true, (mulAdjMat a b).mul (1 / det a))
/-- `zMulInvMat3DMat3D`, src/zeo_mat3d.c:557-575. -/
def mulInvMat (τ : K) (a b old : Mat3 K) : Bool × Option (Mat3 K) :=
  (true,
   match balance a with
   | none => none
   | some (mb, sr, sc) =>
     let r := mulInvMatCore τ mb (rowBalancing b sr) old
     some (if r.1 then rowBalancing r.2 sc else r.2))

/-- `zVec3DCatRatio(v1,v2,v3,v,ratio)`, src/zeo_mat3d.c:470-480 (the matrix `im` is a
local, `old` its uninitialised content). -/
def catRatio (τ : K) (v1 v2 v3 w : Vec3 K) (old : Mat3 K) : Option (Vec3 K) :=
  (inv τ ⟨v1, v2, v3⟩ old).2.map (fun im => mulVec im w)
end Order

noncomputable section Real

/-- `zMat3DRotRoll`, src/zeo_mat3d.c:640-644. -/
def rotRoll (m : Mat3 ℝ) (θ : ℝ) (old : Mat3 ℝ) : Mat3 ℝ := rotRollSC m (Real.sin θ) (Real.cos θ) old
/-- `zMat3DRotPitch`, src/zeo_mat3d.c:658-662. -/
def rotPitch (m : Mat3 ℝ) (θ : ℝ) (old : Mat3 ℝ) : Mat3 ℝ := rotPitchSC m (Real.sin θ) (Real.cos θ) old
/-- `zMat3DRotYaw`, src/zeo_mat3d.c:676-680. -/
def rotYaw (m : Mat3 ℝ) (θ : ℝ) (old : Mat3 ℝ) : Mat3 ℝ := rotYawSC m (Real.sin θ) (Real.cos θ) old

/-- `zMat3DFromZYX`, src/zeo_mat3d.c:699-707. -/
def fromZYX (azim elev tilt : ℝ) : Mat3 ℝ :=
  fromZYXSC (Real.sin azim) (Real.cos azim) (Real.sin elev) (Real.cos elev)
    (Real.sin tilt) (Real.cos tilt)
/-- `zMat3DToZYX`, src/zeo_mat3d.c:710-720. -/
def toZYX (m : Mat3 ℝ) : Vec3 ℝ :=
  let azim := atan2 m.x.y m.x.x
  let sa := Real.sin azim
  let ca := Real.cos azim
  ⟨azim, atan2 (-m.x.z) (m.x.x * ca + m.x.y * sa),
   atan2 (m.z.x * sa - m.z.y * ca) (-m.y.x * sa + m.y.y * ca)⟩
/-- `zMat3DFromZYZ`, src/zeo_mat3d.c:731-739. -/
def fromZYZ (heading pitch bank : ℝ) : Mat3 ℝ :=
  fromZYZSC (Real.sin heading) (Real.cos heading) (Real.sin pitch) (Real.cos pitch)
    (Real.sin bank) (Real.cos bank)
/-- `zMat3DToZYZ`, src/zeo_mat3d.c:742-752. -/
def toZYZ (m : Mat3 ℝ) : Vec3 ℝ :=
  let heading := atan2 m.z.y m.z.x
  let sh := Real.sin heading
  let ch := Real.cos heading
  ⟨heading, atan2 (m.z.x * ch + m.z.y * sh) m.z.z,
   atan2 (-m.x.x * sh + m.x.y * ch) (-m.y.x * sh + m.y.y * ch)⟩

open Classical in
/-- `zMat3DFromAA`, src/zeo_mat3d.c:755-779. -/
def fromAA (τ : ℝ) (aa : Vec3 ℝ) : Mat3 ℝ :=
  if aa.isTol τ then ident
  else
    let l := aa.norm
    let s := Real.sin l
    let c := Real.cos l
    let n := aa.mul (1 / l)
    let nl := n.mul (1 - c)
    let m := ofTriple n nl
    let r1 := s * n.x; let r2 := s * n.y; let r3 := s * n.z
    ⟨⟨m.x.x + 1, m.x.y + r3, m.x.z - r2⟩, ⟨m.y.x - r3, m.y.y + 1, m.y.z + r1⟩,
     ⟨m.z.x + r2, m.z.y - r1, m.z.z + 1⟩⟩

open Classical in
/-- The axis with the largest diagonal entry, src/zeo_mat3d.c:793. -/
def diagMaxIndex (m : Mat3 ℝ) : Fin 3 :=
  if m.x.x > m.y.y then (if m.x.x > m.z.z then 0 else 2) else (if m.y.y > m.z.z then 1 else 2)

open Classical in
/-- `zMat3DToAA`, src/zeo_mat3d.c:782-800. -/
def toAA (τ : ℝ) (m : Mat3 ℝ) : Vec3 ℝ :=
  let aa : Vec3 ℝ := ⟨m.y.z - m.z.y, m.z.x - m.x.z, m.x.y - m.y.x⟩
  let l := aa.norm
  let a := atan2 l (m.x.x + m.y.y + m.z.z - 1)
  if zIsTol a τ then .zero
  else if ¬ zIsTol l τ then aa.mul (a / l)
  else
    let i0 := diagMaxIndex m
    let i1 := i0 + 1
    let i2 := i0 + 2
    let aa := aa.setE i0 (Real.sqrt (1/2 * m.e i0 i0 + 1/2))
    let aa := aa.setE i1 (1/2 * m.e i0 i1 / aa.e i0)
    let aa := aa.setE i2 (1/2 * m.e i0 i2 / aa.e i0)
    aa.mul a

/-- `zMat3DRot(m,aa,rm)`, src/zeo_mat3d.c:817-823. -/
def rot (τ : ℝ) (m : Mat3 ℝ) (aa : Vec3 ℝ) : Mat3 ℝ := mulMat (fromAA τ aa) m
/-- `zMat3DRotCat(m,omega,dt,rm)`, src/zeo_mat3d.c:826-832. -/
def rotCat (τ : ℝ) (m : Mat3 ℝ) (omega : Vec3 ℝ) (dt : ℝ) : Mat3 ℝ := rot τ m (omega.mul dt)
/-- `zAACascade(aa1,aa2,aa)`, src/zeo_mat3d.c:835-843. -/
def aaCascade (τ : ℝ) (aa1 aa2 : Vec3 ℝ) : Vec3 ℝ := toAA τ (mulMat (fromAA τ aa2) (fromAA τ aa1))
/-- `zMat3DError(m1,m2,err)`, src/zeo_mat3d.c:846-852. -/
def error (τ : ℝ) (m1 m2 : Mat3 ℝ) : Vec3 ℝ := toAA τ (mulMatT m1 m2)
/-- `zAAError(a1,a2,err)`, src/zeo_mat3d.c:855-862. -/
def aaErr (τ : ℝ) (a1 a2 : Vec3 ℝ) : Vec3 ℝ := error τ (fromAA τ a1) (fromAA τ a2)
end Real
end Mat3
end Zeo
