import Verif.Model.Basic
import Mathlib.Analysis.SpecialFunctions.Complex.Arg

/-! # 2D vectors: include/zeo/zeo_vec2d.h, src/zeo_vec2d.c -/

namespace Zeo

/-- `zVec2D`, include/zeo/zeo_vec2d.h:17-57 (`union { struct{x,y} c; double e[2]; }`). -/
@[ext] structure Vec2 (K : Type*) where
  x : K
  y : K
deriving DecidableEq

namespace Vec2

section Ring
variable {K : Type*} [Field K]

/-- `zVec2DZero`, include/zeo/zeo_vec2d.h:93-94. -/
def zero : Vec2 K := ⟨0, 0⟩
/-- `zVec2DAdd`, src/zeo_vec2d.c:71-75, macro include/zeo/zeo_vec2d.h:188-191. -/
def add (v1 v2 : Vec2 K) : Vec2 K := ⟨v1.x + v2.x, v1.y + v2.y⟩
/-- `zVec2DSub`, src/zeo_vec2d.c:78-82, macro include/zeo/zeo_vec2d.h:194-197. -/
def sub (v1 v2 : Vec2 K) : Vec2 K := ⟨v1.x - v2.x, v1.y - v2.y⟩
/-- `zVec2DRev`, src/zeo_vec2d.c:85-89, macro include/zeo/zeo_vec2d.h:200-203. -/
def rev (v : Vec2 K) : Vec2 K := ⟨-v.x, -v.y⟩
/-- `zVec2DMul(v,k)`, src/zeo_vec2d.c:92-96, macro include/zeo/zeo_vec2d.h:206-209. -/
def mul (v : Vec2 K) (k : K) : Vec2 K := ⟨k * v.x, k * v.y⟩
/-- `zVec2DAmp`, src/zeo_vec2d.c:111-115, macro include/zeo/zeo_vec2d.h:214-217. -/
def amp (v a : Vec2 K) : Vec2 K := ⟨a.x * v.x, a.y * v.y⟩
/-- `zVec2DDem`, src/zeo_vec2d.c:118-122, macro include/zeo/zeo_vec2d.h:220-223.
Division by zero is not flagged by the code; theorems must assume non-zero divisors. -/
def dem (v d : Vec2 K) : Vec2 K := ⟨v.x / d.x, v.y / d.y⟩
/-- `zVec2DCat(v1,k,v2)`, src/zeo_vec2d.c:125-129, macro include/zeo/zeo_vec2d.h:226-229. -/
def cat (v1 : Vec2 K) (k : K) (v2 : Vec2 K) : Vec2 K := ⟨v1.x + k * v2.x, v1.y + k * v2.y⟩
/-- `zVec2DInnerProd`, src/zeo_vec2d.c:193-196, macro include/zeo/zeo_vec2d.h:289. -/
def inner (v1 v2 : Vec2 K) : K := v1.x * v2.x + v1.y * v2.y
/-- `zVec2DOuterProd`, src/zeo_vec2d.c:199-202, macro include/zeo/zeo_vec2d.h:291. -/
def outer (v1 v2 : Vec2 K) : K := v1.x * v2.y - v1.y * v2.x
/-- `zVec2DSqrNorm`, src/zeo_vec2d.c:205-208. -/
def sqrNorm (v : Vec2 K) : K := inner v v
/-- `zVec2DSqrDist`, src/zeo_vec2d.c:211-216. -/
def sqrDist (v1 v2 : Vec2 K) : K := sqrNorm (sub v1 v2)
/-- `zVec2DInterDiv`, src/zeo_vec2d.c:247-252 (output distinct from `v1`; for the aliased
call see `Verif/Model/Alias.lean`). -/
def interDiv (v1 v2 : Vec2 K) (ratio : K) : Vec2 K := cat v1 ratio (sub v2 v1)
/-- `zVec2DMid`, src/zeo_vec2d.c:255-258. -/
def mid (v1 v2 : Vec2 K) : Vec2 K := interDiv v1 v2 (1/2)
/-- `zVec2DRot90CW`, src/zeo_vec2d.c:287-291, macro include/zeo/zeo_vec2d.h:381. -/
def rot90CW (v : Vec2 K) : Vec2 K := ⟨v.y, -v.x⟩
/-- `zVec2DRot90CCW`, src/zeo_vec2d.c:294-298, macro include/zeo/zeo_vec2d.h:382. -/
def rot90CCW (v : Vec2 K) : Vec2 K := ⟨-v.y, v.x⟩

variable [DecidableEq K]

/-- `zVec2DDiv(v,k,dv)`, src/zeo_vec2d.c:99-108 (and `zVec2DDivDRC`, 160-169).
The result is the pair (return value is non-NULL, contents of `*dv` afterwards);
`old` is what `*dv` held before the call. -/
def div (v : Vec2 K) (k : K) (old : Vec2 K) : Bool × Vec2 K :=
  if k = 0 then (false, old) else (true, mul v (1 / k))
end Ring

section Order
variable {K : Type*} [Field K] [LinearOrder K] [IsStrictOrderedRing K]

/-- `zVec2DIsTol`, src/zeo_vec2d.c:54-57, macro include/zeo/zeo_vec2d.h:142.
`zVec2DIsTiny(v)` is `zVec2DIsTol(v,zTOL)` (145). -/
def isTol (v : Vec2 K) (tol : K) : Prop := zIsTol v.x tol ∧ zIsTol v.y tol

instance (v : Vec2 K) (tol : K) : Decidable (isTol v tol) :=
  inferInstanceAs (Decidable (_ ∧ _))

/-- `zVec2DEqual`, src/zeo_vec2d.c:48-51, macro include/zeo/zeo_vec2d.h:123. -/
def equal (τ : K) (v1 v2 : Vec2 K) : Prop := zIsTol (v1.x - v2.x) τ ∧ zIsTol (v1.y - v2.y) τ
end Order

noncomputable section Real

/-- `zVec2DNorm`, include/zeo/zeo_vec2d.h:317. -/
def norm (v : Vec2 ℝ) : ℝ := Real.sqrt (sqrNorm v)
/-- `zVec2DDist`, include/zeo/zeo_vec2d.h:319. -/
def dist (v1 v2 : Vec2 ℝ) : ℝ := Real.sqrt (sqrDist v1 v2)

open Classical in
/-- `zVec2DNormalize(v,nv)`, src/zeo_vec2d.c:229-240: (return value, contents of `*nv`). -/
def normalize (τ : ℝ) (v old : Vec2 ℝ) : ℝ × Vec2 ℝ :=
  if isTol v τ then (-1, old) else (norm v, mul v (1 / norm v))

/-- `atan2(y,x)` of the C library: the argument of x+iy, in (-π,π], 0 at the origin. -/
def _root_.Zeo.atan2 (y x : ℝ) : ℝ := Complex.arg ⟨x, y⟩

/-- `zVec2DAngle`, src/zeo_vec2d.c:261-264. -/
def angle (v1 v2 : Vec2 ℝ) : ℝ := atan2 (outer v1 v2) (inner v1 v2)

open Classical in
/-- `zVec2DProj(v,n,pv)`, src/zeo_vec2d.c:267-274 (`none` = NULL). -/
def proj (τ : ℝ) (v n : Vec2 ℝ) : Option (Vec2 ℝ) :=
  if (normalize τ n zero).1 < 0 then none
  else let d := (normalize τ n zero).2; some (mul d (inner d v))

/-- `zVec2DRot(v,angle,rv)`, src/zeo_vec2d.c:277-284 (output distinct from `v`). -/
def rot (v : Vec2 ℝ) (angle : ℝ) : Vec2 ℝ :=
  ⟨Real.cos angle * v.x - Real.sin angle * v.y, Real.sin angle * v.x + Real.cos angle * v.y⟩

/-- `zVec2DCreatePolar`, src/zeo_vec2d.c:35-39, macro include/zeo/zeo_vec2d.h:105. -/
def createPolar (r theta : ℝ) : Vec2 ℝ := ⟨r * Real.cos theta, r * Real.sin theta⟩
end Real
end Vec2
end Zeo
