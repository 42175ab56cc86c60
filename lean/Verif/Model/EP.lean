import Verif.Model.Mat3
import Mathlib.Analysis.SpecialFunctions.Trigonometric.Inverse

/-! # Euler parameters (unit quaternions): include/zeo/zeo_ep.h, src/zeo_ep.c -/

namespace Zeo

/-- `zEP`, include/zeo/zeo_ep.h:17-44: scalar part `w` = `e[0]`, vector part `v` = `e[1..3]`. -/
@[ext] structure EP (K : Type*) where
  w : K
  v : Vec3 K
deriving DecidableEq

namespace EP
section Ring
variable {K : Type*} [Field K]

/-- `zMat3DFromEP`, src/zeo_ep.c:65-83. -/
def toMat (q : EP K) : Mat3 K :=
  let e00 := q.w * q.w; let e11 := q.v.x * q.v.x; let e22 := q.v.y * q.v.y; let e33 := q.v.z * q.v.z
  let e12 := q.v.x * q.v.y; let e23 := q.v.y * q.v.z; let e31 := q.v.z * q.v.x
  let e01 := q.w * q.v.x; let e02 := q.w * q.v.y; let e03 := q.w * q.v.z
  Mat3.create
    (e00 + e11 - e22 - e33) (2 * (e12 - e03)) (2 * (e31 + e02))
    (2 * (e12 + e03)) (e00 - e11 + e22 - e33) (2 * (e23 - e01))
    (2 * (e31 - e02)) (2 * (e23 + e01)) (e00 - e11 - e22 + e33)

/-- `zEPRotVec3D(ep,v,rv)`, src/zeo_ep.c:128-135 (output distinct from `v`). -/
def rotVec (q : EP K) (u : Vec3 K) : Vec3 K :=
  let r := q.v.outer u
  let r := r.mul (2 * q.w)
  let r := r.cat (q.w * q.w - q.v.sqrNorm) u
  r.cat (2 * q.v.inner u) q.v

/-- `zEPVel2AngVel(epvel,ep,angvel)`, src/zeo_ep.c:138-144. -/
def velToAngVel (qd q : EP K) : Vec3 K :=
  (((q.v.outer qd.v).cat q.w qd.v).cat (-qd.w) q.v).mul 2

/-- `zAngVel2EPVel(angvel,ep,epvel)`, src/zeo_ep.c:147-154. -/
def angVelToVel (w : Vec3 K) (q : EP K) : EP K :=
  ⟨-(1/2) * q.v.inner w, ((w.outer q.v).cat q.w w).mul (1/2)⟩

/-- `zEPAdd`, src/zeo_ep.c:157-162. -/
def add (a b : EP K) : EP K := ⟨a.w + b.w, a.v.add b.v⟩
/-- `zEPSub`, src/zeo_ep.c:165-170. -/
def sub (a b : EP K) : EP K := ⟨a.w - b.w, a.v.sub b.v⟩
/-- `zEPRev`, src/zeo_ep.c:173-178. -/
def rev (a : EP K) : EP K := ⟨-a.w, a.v.rev⟩
/-- `zEPMul`, src/zeo_ep.c:181-186. -/
def mul (a : EP K) (k : K) : EP K := ⟨k * a.w, a.v.mul k⟩
/-- The linear combination formed at src/zeo_ep.c:191-192 (before normalization). -/
def lin (a : EP K) (k : K) (b : EP K) : EP K := ⟨a.w + k * b.w, a.v.cat k b.v⟩
/-- `zEPInnerProd`, src/zeo_ep.c:208-211. -/
def inner (a b : EP K) : K := a.w * b.w + a.v.inner b.v
/-- `zEPCascade(ep1,ep2,ep)`, src/zeo_ep.c:234-244. -/
def cascade (e1 e2 : EP K) : EP K :=
  ⟨e1.w * e2.w - e1.v.inner e2.v, ((e2.v.outer e1.v).cat e1.w e2.v).cat e2.w e1.v⟩
end Ring

noncomputable section Real

/-- `zEPNorm`, src/zeo_ep.c:214-217. -/
def norm (q : EP ℝ) : ℝ := Real.sqrt (inner q q)

open Classical in
/-- `zEPNormalize(ep)`, src/zeo_ep.c:220-231: (non-NULL, contents afterwards). -/
def normalize (τ : ℝ) (q : EP ℝ) : Bool × EP ℝ :=
  if zIsTol (norm q) τ then (false, q)
  else (true, ⟨q.w / norm q, (Vec3.div q.v (norm q) q.v).2⟩)

/-- `zEPCreate(ep,w,x,y,z)`, src/zeo_ep.c:10-17. -/
def create (τ : ℝ) (w x y z : ℝ) : Bool × EP ℝ := normalize τ ⟨w, ⟨x, y, z⟩⟩

open Classical in
/-- `zEPCreateAA(ep,theta,axis)`, src/zeo_ep.c:20-33. -/
def createAA (τ : ℝ) (θ : ℝ) (axis : Vec3 ℝ) : EP ℝ :=
  if axis.isTol τ then ⟨1, .zero⟩
  else ⟨Real.cos (1/2 * θ), axis.mul (Real.sin (1/2 * θ) / axis.norm)⟩

/-- `zAA2EP(aa,ep)`, src/zeo_ep.c:59-62. -/
def ofAA (τ : ℝ) (aa : Vec3 ℝ) : EP ℝ := createAA τ aa.norm aa

open Classical in
/-- `zEP2AA(ep,aa)`, src/zeo_ep.c:49-56. -/
def toAA (τ : ℝ) (q : EP ℝ) : Vec3 ℝ :=
  let sh := q.v.norm
  let θ := 2 * atan2 sh q.w
  if zIsTol sh τ then .zero else q.v.mul (θ / sh)

/-- The four sums `s[0..3]` of src/zeo_ep.c:91-94. -/
def matS (m : Mat3 ℝ) : Fin 4 → ℝ
  | 0 => m.x.x + m.y.y + m.z.z + 1
  | 1 => m.x.x - m.y.y - m.z.z + 1
  | 2 => -m.x.x + m.y.y - m.z.z + 1
  | 3 => -m.x.x - m.y.y + m.z.z + 1

open Classical in
/-- The loop at src/zeo_ep.c:95-96: index of the first maximum. -/
def matImax (m : Mat3 ℝ) : Fin 4 :=
  let i : Fin 4 := 0
  let i := if matS m 1 > matS m i then 1 else i
  let i := if matS m 2 > matS m i then 2 else i
  if matS m 3 > matS m i then 3 else i

open Classical in
/-- `zMat3DToEP(m,ep)`, src/zeo_ep.c:86-125 (`none` = NULL). -/
def ofMat (m : Mat3 ℝ) : Option (EP ℝ) :=
  let i := matImax m
  if matS m i ≤ 0 then none
  else
    let h := 1/2 * Real.sqrt (matS m i)
    let k := 1/4 / h
    some (match i with
    | 0 => ⟨h, ⟨k * (m.y.z - m.z.y), k * (m.z.x - m.x.z), k * (m.x.y - m.y.x)⟩⟩
    | 1 => ⟨k * (m.y.z - m.z.y), ⟨h, k * (m.y.x + m.x.y), k * (m.x.z + m.z.x)⟩⟩
    | 2 => ⟨k * (m.z.x - m.x.z), ⟨k * (m.y.x + m.x.y), h, k * (m.z.y + m.y.z)⟩⟩
    | 3 => ⟨k * (m.x.y - m.y.x), ⟨k * (m.x.z + m.z.x), k * (m.z.y + m.y.z), h⟩⟩)

/-- `zEPCat(ep1,k,ep2,ep)`, src/zeo_ep.c:189-194: normalizes its result. -/
def cat (τ : ℝ) (a : EP ℝ) (k : ℝ) (b : EP ℝ) : Bool × EP ℝ := normalize τ (lin a k b)

open Classical in
/-- `zEPDif(ep1,ep2,dt,ep_vel)`, src/zeo_ep.c:197-205 (`none` = NULL). -/
def dif (τ : ℝ) (e1 e2 : EP ℝ) (dt : ℝ) : Option (EP ℝ) :=
  if zIsTol dt τ then none else some (mul (sub e2 e1) (1 / dt))

open Classical in
/-- `zEPInterDiv(ep1,ep2,t,ep)`, src/zeo_ep.c:247-269: (non-NULL, contents). -/
def interDiv (τ : ℝ) (e1 e2 : EP ℝ) (t : ℝ) : Bool × EP ℝ :=
  let c0 := inner e1 e2
  let e2' := if c0 < 0 then rev e2 else e2
  let c1 := if c0 < 0 then -c0 else c0
  let cth := if c1 > 1 then 1 else c1
  let th := Real.arccos cth
  let sth := Real.sin th
  if zIsTol sth τ then
    normalize τ (cat τ (mul e1 (1 - t)) t e2').2
  else
    let th2 := th * t
    normalize τ (cat τ (mul e1 (Real.sin (th - th2))) (Real.sin th2) e2').2

/-- `zMat3DInterDiv(m1,m2,t,m)`, src/zeo_ep.c:272-280; `none` = one of the conversions
failed and an uninitialised quaternion is used. -/
def matInterDiv (τ : ℝ) (m1 m2 : Mat3 ℝ) (t : ℝ) : Option (Mat3 ℝ) :=
  match ofMat m1, ofMat m2 with
  | some e1, some e2 => some (toMat (interDiv τ e1 e2 t).2)
  | _, _ => none
end Real
end EP
end Zeo
