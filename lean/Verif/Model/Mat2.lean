import Verif.Model.Vec2

/-! # 2x2 matrices: include/zeo/zeo_mat2d.h, src/zeo_mat2d.c -/

namespace Zeo

/-- `zMat2D`, include/zeo/zeo_mat2d.h:21-68: two column vectors `b.x`, `b.y`.
The scalar name `c.yx` is the `x` component of column `y`. -/
@[ext] structure Mat2 (K : Type*) where
  x : Vec2 K
  y : Vec2 K
deriving DecidableEq

namespace Mat2
section Ring
variable {K : Type*} [Field K]

/-- `zMat2DCreate(m,a11,a12,a21,a22)`, include/zeo/zeo_mat2d.h:100-103. -/
def create (a11 a12 a21 a22 : K) : Mat2 K := ⟨⟨a11, a21⟩, ⟨a12, a22⟩⟩
/-- `ZMAT2DIDENT`, src/zeo_mat2d.c:10-16, include/zeo/zeo_mat2d.h:109. -/
def ident : Mat2 K := ⟨⟨1, 0⟩, ⟨0, 1⟩⟩
/-- `zMat2DT(m,tm)`, include/zeo/zeo_mat2d.h:165-168 (output distinct from the input). -/
def t (m : Mat2 K) : Mat2 K := ⟨⟨m.x.x, m.y.x⟩, ⟨m.x.y, m.y.y⟩⟩
/-- `zMat2DAdd`, include/zeo/zeo_mat2d.h:214-215. -/
def add (a b : Mat2 K) : Mat2 K := create (a.x.x + b.x.x) (a.y.x + b.y.x) (a.x.y + b.x.y) (a.y.y + b.y.y)
/-- `zMat2DSub`, include/zeo/zeo_mat2d.h:216-217. -/
def sub (a b : Mat2 K) : Mat2 K := create (a.x.x - b.x.x) (a.y.x - b.y.x) (a.x.y - b.x.y) (a.y.y - b.y.y)
/-- `zMat2DRev`, include/zeo/zeo_mat2d.h:218-219. -/
def rev (m : Mat2 K) : Mat2 K := create (-m.x.x) (-m.y.x) (-m.x.y) (-m.y.y)
/-- `zMat2DMul(m,k)`, include/zeo/zeo_mat2d.h:220-221. -/
def mul (m : Mat2 K) (k : K) : Mat2 K := create (k * m.x.x) (k * m.y.x) (k * m.x.y) (k * m.y.y)
/-- `zMat2DCat(m1,k,m2)`, include/zeo/zeo_mat2d.h:222-223. -/
def cat (a : Mat2 K) (k : K) (b : Mat2 K) : Mat2 K :=
  create (a.x.x + k * b.x.x) (a.y.x + k * b.y.x) (a.x.y + k * b.x.y) (a.y.y + k * b.y.y)
/-- `zMat2DDyad(d,v1,v2)`, include/zeo/zeo_mat2d.h:254-255. -/
def dyad (v1 v2 : Vec2 K) : Mat2 K := create (v1.x * v2.x) (v1.x * v2.y) (v1.y * v2.x) (v1.y * v2.y)
/-- `zMat2DSqrNorm`, include/zeo/zeo_mat2d.h:266. -/
def sqrNorm (m : Mat2 K) : K := m.x.sqrNorm + m.y.sqrNorm
/-- `zMat2DDet`, include/zeo/zeo_mat2d.h:281. -/
def det (m : Mat2 K) : K := m.x.x * m.y.y - m.y.x * m.x.y
/-- `zMat2DAdj`, include/zeo/zeo_mat2d.h:290. -/
def adj (m : Mat2 K) : Mat2 K := create m.y.y (-m.y.x) (-m.x.y) m.x.x
/-- `zMulMat2DVec2D(m,v)`, src/zeo_mat2d.c:181-185 (output distinct from `v`) and the
macro include/zeo/zeo_mat2d.h:318-323. -/
def mulVec (m : Mat2 K) (v : Vec2 K) : Vec2 K :=
  ⟨m.x.x * v.x + m.y.x * v.y, m.x.y * v.x + m.y.y * v.y⟩
/-- `zMulMat2DTVec2D(m,v)`, src/zeo_mat2d.c:188-192, macro include/zeo/zeo_mat2d.h:327-332. -/
def mulTVec (m : Mat2 K) (v : Vec2 K) : Vec2 K :=
  ⟨m.x.x * v.x + m.x.y * v.y, m.y.x * v.x + m.y.y * v.y⟩
/-- `zMulAdjMat2DVec2D`, src/zeo_mat2d.c:209-213, macro include/zeo/zeo_mat2d.h:344-349. -/
def mulAdjVec (m : Mat2 K) (v : Vec2 K) : Vec2 K :=
  ⟨m.y.y * v.x - m.y.x * v.y, -m.x.y * v.x + m.x.x * v.y⟩
/-- `zMulMat2DMat2D`, src/zeo_mat2d.c:235-242. -/
def mulMat (a b : Mat2 K) : Mat2 K := ⟨mulVec a b.x, mulVec a b.y⟩
/-- `zMulMat2DTMat2D`, src/zeo_mat2d.c:245-252. -/
def mulTMat (a b : Mat2 K) : Mat2 K := ⟨mulTVec a b.x, mulTVec a b.y⟩
/-- `zMulMat2DMat2DT`, src/zeo_mat2d.c:255-266: `m.e[i][j] = Σ_k m1.e[k][j]*m2.e[k][i]`. -/
def mulMatT (a b : Mat2 K) : Mat2 K :=
  ⟨⟨a.x.x * b.x.x + a.y.x * b.y.x, a.x.y * b.x.x + a.y.y * b.y.x⟩,
   ⟨a.x.x * b.x.y + a.y.x * b.y.y, a.x.y * b.x.y + a.y.y * b.y.y⟩⟩
/-- `zMat2DRotSC(m,s,c)`, include/zeo/zeo_mat2d.h:431-436. -/
def rotSC (m : Mat2 K) (s c : K) : Mat2 K :=
  create (c * m.x.x - s * m.x.y) (c * m.y.x - s * m.y.y)
         (s * m.x.x + c * m.x.y) (s * m.y.x + c * m.y.y)

/-- `zMat2DDiv`, src/zeo_mat2d.c:113-122: (non-NULL, contents of `*dm`). -/
def div [DecidableEq K] (m : Mat2 K) (k : K) (old : Mat2 K) : Bool × Mat2 K :=
  if k = 0 then (false, old) else (true, mul m (1 / k))
end Ring

section Order
variable {K : Type*} [Field K] [LinearOrder K] [IsStrictOrderedRing K]

/-- `zMat2DInv`, src/zeo_mat2d.c:162-174: `none` = NULL with the output untouched. -/
def inv (τ : K) (m : Mat2 K) : Option (Mat2 K) :=
  if zIsTol (det m) τ then none else some (mul (adj m) (1 / det m))
/-- `zMulInvMat2DVec2D`, src/zeo_mat2d.c:216-228. -/
def mulInvVec (τ : K) (m : Mat2 K) (v : Vec2 K) : Option (Vec2 K) :=
  if zIsTol (det m) τ then none else some ((mulAdjVec m v).mul (1 / det m))
/-- `zMulInvMat2DMat2D`, src/zeo_mat2d.c:269-282 (output distinct from `m1`). -/
def mulInvMat (τ : K) (a b : Mat2 K) : Option (Mat2 K) :=
  if zIsTol (det a) τ then none
  else some (mul ⟨mulAdjVec a b.x, mulAdjVec a b.y⟩ (1 / det a))
end Order

noncomputable section Real
/-- `zMat2DCreateAngle`, src/zeo_mat2d.c:26-32. -/
def createAngle (angle : ℝ) : Mat2 ℝ :=
  create (Real.cos angle) (-Real.sin angle) (Real.sin angle) (Real.cos angle)
/-- `zMat2DAngle`, include/zeo/zeo_mat2d.h:417. -/
def angle (m : Mat2 ℝ) : ℝ := atan2 (m.x.y - m.y.x) (m.x.x + m.y.y)
/-- `zMat2DRot`, src/zeo_mat2d.c:302-308. -/
def rot (m : Mat2 ℝ) (theta : ℝ) : Mat2 ℝ := rotSC m (Real.sin theta) (Real.cos theta)
/-- `zMat2DError`, include/zeo/zeo_mat2d.h:446-448. -/
def error (m1 m2 : Mat2 ℝ) : ℝ :=
  atan2 (m2.x.x * m1.x.y + m2.y.x * m1.y.y - m2.x.y * m1.x.x - m2.y.y * m1.y.x)
        (m2.x.x * m1.x.x + m2.y.x * m1.y.x + m2.x.y * m1.x.y + m2.y.y * m1.y.y)
end Real
end Mat2
end Zeo
