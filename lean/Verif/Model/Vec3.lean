import Verif.Model.Vec2

/-! # 3D vectors: include/zeo/zeo_vec3d.h, src/zeo_vec3d.c -/

namespace Zeo

/-- `zVec3D`, include/zeo/zeo_vec3d.h:17-58 (`union { struct{x,y,z} c; double e[3]; }`). -/
@[ext] structure Vec3 (K : Type*) where
  x : K
  y : K
  z : K
deriving DecidableEq

namespace Vec3

/-- The array view `v->e[i]` of the union, include/zeo/zeo_vec3d.h:21. -/
def e {K : Type*} (v : Vec3 K) : Fin 3 → K
  | 0 => v.x
  | 1 => v.y
  | 2 => v.z

/-- Write `v->e[i] = a`, include/zeo/zeo_vec3d.h:21. -/
def setE {K : Type*} (v : Vec3 K) (i : Fin 3) (a : K) : Vec3 K :=
  match i with
  | 0 => { v with x := a }
  | 1 => { v with y := a }
  | 2 => { v with z := a }

section Ring
variable {K : Type*} [Field K]

/-- `ZVEC3DZERO`, `zVec3DZero`, src/zeo_vec3d.c:16, include/zeo/zeo_vec3d.h:116-117. -/
def zero : Vec3 K := ⟨0, 0, 0⟩
/-- `ZVEC3DX`, src/zeo_vec3d.c:17. -/
def ex : Vec3 K := ⟨1, 0, 0⟩
/-- `ZVEC3DY`, src/zeo_vec3d.c:18. -/
def ey : Vec3 K := ⟨0, 1, 0⟩
/-- `ZVEC3DZ`, src/zeo_vec3d.c:19. -/
def ez : Vec3 K := ⟨0, 0, 1⟩
/-- `zVec3DAdd`, src/zeo_vec3d.c:77-81, macro include/zeo/zeo_vec3d.h:215-219
(also `zVec3DAddDRC`, 267-271). -/
def add (v1 v2 : Vec3 K) : Vec3 K := ⟨v1.x + v2.x, v1.y + v2.y, v1.z + v2.z⟩
/-- `zVec3DSub`, src/zeo_vec3d.c:84-88, macro include/zeo/zeo_vec3d.h:222-226. -/
def sub (v1 v2 : Vec3 K) : Vec3 K := ⟨v1.x - v2.x, v1.y - v2.y, v1.z - v2.z⟩
/-- `zVec3DRev`, src/zeo_vec3d.c:91-95, macro include/zeo/zeo_vec3d.h:229-233. -/
def rev (v : Vec3 K) : Vec3 K := ⟨-v.x, -v.y, -v.z⟩
/-- `zVec3DMul(v,k)`, src/zeo_vec3d.c:98-102, macro include/zeo/zeo_vec3d.h:236-240. -/
def mul (v : Vec3 K) (k : K) : Vec3 K := ⟨k * v.x, k * v.y, k * v.z⟩
/-- `zVec3DAmp`, src/zeo_vec3d.c:117-121, macro include/zeo/zeo_vec3d.h:245-249. -/
def amp (v a : Vec3 K) : Vec3 K := ⟨a.x * v.x, a.y * v.y, a.z * v.z⟩
/-- `zVec3DDem`, src/zeo_vec3d.c:124-128, macro include/zeo/zeo_vec3d.h:252-256.
Division by zero is not flagged by the code. -/
def dem (v d : Vec3 K) : Vec3 K := ⟨v.x / d.x, v.y / d.y, v.z / d.z⟩
/-- `zVec3DCat(v1,k,v2)`, src/zeo_vec3d.c:131-135, macro include/zeo/zeo_vec3d.h:259-263. -/
def cat (v1 : Vec3 K) (k : K) (v2 : Vec3 K) : Vec3 K :=
  ⟨v1.x + k * v2.x, v1.y + k * v2.y, v1.z + k * v2.z⟩
/-- `zVec3DInnerProd`, src/zeo_vec3d.c:199-202, macro include/zeo/zeo_vec3d.h:346. -/
def inner (v1 v2 : Vec3 K) : K := v1.x * v2.x + v1.y * v2.y + v1.z * v2.z
/-- `zVec3DOuterProd`, src/zeo_vec3d.c:205-211, macros include/zeo/zeo_vec3d.h:348-357. -/
def outer (v1 v2 : Vec3 K) : Vec3 K :=
  ⟨v1.y * v2.z - v1.z * v2.y, v1.z * v2.x - v1.x * v2.z, v1.x * v2.y - v1.y * v2.x⟩
/-- `zVec3DGrassmannProd`, src/zeo_vec3d.c:223-229. -/
def grassmann (v1 v2 v3 : Vec3 K) : K := inner v1 (outer v2 v3)
/-- `zVec3DTripleProd`, src/zeo_vec3d.c:232-236, macro include/zeo/zeo_vec3d.h:361-365. -/
def triple (v1 v2 v3 : Vec3 K) : Vec3 K := outer v1 (outer v2 v3)
/-- `zVec3DSqrNorm`, src/zeo_vec3d.c:239-242. -/
def sqrNorm (v : Vec3 K) : K := inner v v
/-- `zVec3DWSqrNorm`, src/zeo_vec3d.c:245-248, macro include/zeo/zeo_vec3d.h:381. -/
def wSqrNorm (v w : Vec3 K) : K := v.x * v.x * w.x + v.y * v.y * w.y + v.z * v.z * w.z
/-- `zVec3DSqrDist`, src/zeo_vec3d.c:251-257. -/
def sqrDist (v1 v2 : Vec3 K) : K := sqrNorm (sub v1 v2)
/-- `zVec3DInterDiv`, src/zeo_vec3d.c:287-291, macro include/zeo/zeo_vec3d.h:443-447. -/
def interDiv (v1 v2 : Vec3 K) (r : K) : Vec3 K :=
  ⟨v1.x + r * (v2.x - v1.x), v1.y + r * (v2.y - v1.y), v1.z + r * (v2.z - v1.z)⟩
/-- `zVec3DMid`, src/zeo_vec3d.c:294-298, macro include/zeo/zeo_vec3d.h:450-454. -/
def mid (v1 v2 : Vec3 K) : Vec3 K :=
  ⟨1/2 * (v1.x + v2.x), 1/2 * (v1.y + v2.y), 1/2 * (v1.z + v2.z)⟩

/-- `zZYXVelToAngVelSC`, src/zeo_vec3d.c:430-436. -/
def zyxVelToAngVelSC (vel : Vec3 K) (sa ca sb cb : K) : Vec3 K :=
  ⟨-sa * vel.y + ca * cb * vel.z, ca * vel.y + sa * cb * vel.z, vel.x - sb * vel.z⟩
/-- `zZYZVelToAngVelSC`, src/zeo_vec3d.c:473-479. -/
def zyzVelToAngVelSC (vel : Vec3 K) (sa ca sb cb : K) : Vec3 K :=
  ⟨-sa * vel.y + ca * sb * vel.z, ca * vel.y + sa * sb * vel.z, vel.x + cb * vel.z⟩

variable [DecidableEq K]

/-- `zVec3DDiv(v,k,dv)`, src/zeo_vec3d.c:105-114 (and `zVec3DDivDRC`, 166-175):
(return value is non-NULL, contents of `*dv` afterwards); `old` is `*dv` before. -/
def div (v : Vec3 K) (k : K) (old : Vec3 K) : Bool × Vec3 K :=
  if k = 0 then (false, old) else (true, mul v (1 / k))

/-- `zVec3DDif(v,vnew,dt,vel)`, src/zeo_vec3d.c:413-417: note that `vel` receives the
difference before the division is attempted. -/
def dif (v vnew : Vec3 K) (dt : K) : Bool × Vec3 K := div (sub vnew v) dt (sub vnew v)
end Ring

section Order
variable {K : Type*} [Field K] [LinearOrder K] [IsStrictOrderedRing K]

/-- `zVec3DIsTol`, src/zeo_vec3d.c:59-62, macro include/zeo/zeo_vec3d.h:153.
`zVec3DIsTiny(v)` is `zVec3DIsTol(v,zTOL)` (155-156). -/
def isTol (v : Vec3 K) (tol : K) : Prop := zIsTol v.x tol ∧ zIsTol v.y tol ∧ zIsTol v.z tol

instance (v : Vec3 K) (tol : K) : Decidable (isTol v tol) :=
  inferInstanceAs (Decidable (_ ∧ _ ∧ _))

/-- `zVec3DEqual`, src/zeo_vec3d.c:53-56, macro include/zeo/zeo_vec3d.h:133. -/
def equal (τ : K) (v1 v2 : Vec3 K) : Prop :=
  zIsTol (v1.x - v2.x) τ ∧ zIsTol (v1.y - v2.y) τ ∧ zIsTol (v1.z - v2.z) τ

/-- `zVec3DProj(v,n,pv)`, src/zeo_vec3d.c:331-342 (`none` = NULL, `pv` untouched). -/
def proj (τ : K) (v n : Vec3 K) : Option (Vec3 K) :=
  if isTol n τ then none else some (mul n (inner n v / sqrNorm n))

/-- `zVec3DOrthogonalize(v,n,ov)`, src/zeo_vec3d.c:360-371. -/
def orthogonalize (τ : K) (v n : Vec3 K) : Option (Vec3 K) :=
  if isTol n τ then none else some (cat v (-inner n v / sqrNorm n) n)

/-- `zAngVelToZYXVelSC`, src/zeo_vec3d.c:449-460; `old` is the previous content of `zyxvel`. -/
def angVelToZYXVelSC (τ : K) (w : Vec3 K) (sa ca sb cb : K) (old : Vec3 K) : Vec3 K :=
  if zIsTol cb τ then old
  else
    let t := (ca * w.x + sa * w.y) / cb
    ⟨t * sb + w.z, -sa * w.x + ca * w.y, t⟩

/-- `zAngVelToZYZVelSC`, src/zeo_vec3d.c:492-503. -/
def angVelToZYZVelSC (τ : K) (w : Vec3 K) (sa ca sb cb : K) (old : Vec3 K) : Vec3 K :=
  if zIsTol sb τ then old
  else
    let t := (ca * w.x + sa * w.y) / sb
    ⟨w.z - t * cb, -sa * w.x + ca * w.y, t⟩
end Order

noncomputable section Real

/-- `zVec3DNorm`, include/zeo/zeo_vec3d.h:379. -/
def norm (v : Vec3 ℝ) : ℝ := Real.sqrt (sqrNorm v)
/-- `zVec3DDist`, include/zeo/zeo_vec3d.h:398. -/
def dist (v1 v2 : Vec3 ℝ) : ℝ := Real.sqrt (sqrDist v1 v2)
/-- `zVec3DOuterProdNorm`, src/zeo_vec3d.c:214-220. -/
def outerNorm (v1 v2 : Vec3 ℝ) : ℝ := norm (outer v1 v2)

/-- `zVec3DNormalizeNC(v,nv)`, src/zeo_vec3d.c:259-270. -/
def normalizeNC (v : Vec3 ℝ) : ℝ × Vec3 ℝ := (norm v, mul v (1 / norm v))

open Classical in
/-- `zVec3DNormalize(v,nv)`, src/zeo_vec3d.c:273-280: (return value, contents of `*nv`). -/
def normalize (τ : ℝ) (v old : Vec3 ℝ) : ℝ × Vec3 ℝ :=
  if isTol v τ then (0, old) else normalizeNC v

/-- `zVec3DCreatePolar`, src/zeo_vec3d.c:30-37. -/
def createPolar (r theta phi : ℝ) : Vec3 ℝ :=
  ⟨r * Real.sin theta * Real.cos phi, r * Real.sin theta * Real.sin phi, r * Real.cos theta⟩

open Classical in
/-- `zVec3DAngle(v1,v2,n)`, src/zeo_vec3d.c:301-311 (`n = none` is a NULL pointer). -/
def angle (v1 v2 : Vec3 ℝ) (n : Option (Vec3 ℝ)) : ℝ :=
  let c := inner v1 v2
  let d := outer v1 v2
  let s := norm d
  match n with
  | none => atan2 s c
  | some n => if inner d n < 0 then atan2 (-s) c else atan2 s c

open Classical in
/-- `zVec3DAAError(v1,v2,aa)`, src/zeo_vec3d.c:314-328. -/
def aaError (τ : ℝ) (v1 v2 : Vec3 ℝ) : Vec3 ℝ :=
  let d := outer v1 v2
  if isTol d τ then zero else mul d (atan2 (norm d) (inner v1 v2) / norm d)

open Classical in
/-- `zVec3DOrthonormal(v,ov)`, src/zeo_vec3d.c:345-357: (success, contents of `*ov`);
on failure `*ov` has already received the unnormalized vector. -/
def orthonormal (τ : ℝ) (v : Vec3 ℝ) : Bool × Vec3 ℝ :=
  let ov : Vec3 ℝ :=
    if ¬ zIsTol v.x τ ∨ ¬ zIsTol v.y τ then ⟨v.y, -v.x, 0⟩
    else ⟨v.y - v.z, v.z - v.x, v.x - v.y⟩
  if isTol ov τ then (false, ov) else (true, (normalize τ ov ov).2)

/-- `zVec3DOrthoSpace(v,sv1,sv2)`, src/zeo_vec3d.c:374-379 (`none` = false). -/
def orthoSpace (τ : ℝ) (v : Vec3 ℝ) : Option (Vec3 ℝ × Vec3 ℝ) :=
  let o := orthonormal τ v
  if o.1 = false then none else some (o.2, outer v o.2)

/-- `zVec3DOrthonormalSpace(v,sv1,sv2)`, src/zeo_vec3d.c:382-389; the three vectors
afterwards (`none` = false).  The in-place normalizations keep a vector that is tiny. -/
def orthonormalSpace (τ : ℝ) (v : Vec3 ℝ) : Option (Vec3 ℝ × Vec3 ℝ × Vec3 ℝ) :=
  match orthoSpace τ v with
  | none => none
  | some (s1, s2) => some ((normalize τ v v).2, (normalize τ s1 s1).2, (normalize τ s2 s2).2)

open Classical in
/-- `zVec3DRot(v,aa,rv)`, src/zeo_vec3d.c:392-406 (Rodrigues' formula).  The inner call
`zVec3DProj(v,&n,&v0)` tests `n` for tininess; if it failed `v0` would be uninitialised
(`none`). -/
def rot (τ : ℝ) (v aa : Vec3 ℝ) : Option (Vec3 ℝ) :=
  if isTol aa τ then some v
  else
    let a := (normalizeNC aa).1
    let n := (normalizeNC aa).2
    match proj τ v n with
    | none => none
    | some v0 =>
      let v1 := sub v v0
      let v2 := outer n v
      some (cat (cat v0 (Real.cos a) v1) (Real.sin a) v2)

/-- `zZYXVelToAngVel`, src/zeo_vec3d.c:420-427. -/
def zyxVelToAngVel (vel zyx : Vec3 ℝ) : Vec3 ℝ :=
  zyxVelToAngVelSC vel (Real.sin zyx.x) (Real.cos zyx.x) (Real.sin zyx.y) (Real.cos zyx.y)
/-- `zAngVelToZYXVel`, src/zeo_vec3d.c:439-446. -/
def angVelToZYXVel (τ : ℝ) (w zyx old : Vec3 ℝ) : Vec3 ℝ :=
  angVelToZYXVelSC τ w (Real.sin zyx.x) (Real.cos zyx.x) (Real.sin zyx.y) (Real.cos zyx.y) old
/-- `zZYZVelToAngVel`, src/zeo_vec3d.c:463-470. -/
def zyzVelToAngVel (vel zyz : Vec3 ℝ) : Vec3 ℝ :=
  zyzVelToAngVelSC vel (Real.sin zyz.x) (Real.cos zyz.x) (Real.sin zyz.y) (Real.cos zyz.y)
/-- `zAngVelToZYZVel`, src/zeo_vec3d.c:482-489. -/
def angVelToZYZVel (τ : ℝ) (w zyz old : Vec3 ℝ) : Vec3 ℝ :=
  angVelToZYZVelSC τ w (Real.sin zyz.x) (Real.cos zyz.x) (Real.sin zyz.y) (Real.cos zyz.y) old
end Real
end Vec3
end Zeo
