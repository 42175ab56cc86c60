import Verif.Model.Frame
import Verif.Model.EP

/-!
# Operations on memory

The value-level model (`Model/Vec2`, `Vec3`, `Mat2`, `Mat3`, `EP`, `Frame`) cannot say what
happens when the output pointer of a call equals one of its input pointers.  Here the same
operations are modelled on a memory of `double` cells, one store after the other, in the order
of the C text.  Macro arguments are evaluated when the macro body uses them, so an expression
given to `_zVec3DCreate` for the third component is evaluated after the first two components
have been stored.

A pointer is the address of its first cell.  Layouts (offsets in cells):
`zVec2D` 2 cells, `zVec3D` 3 cells, `zMat2D` columns at 0 and 2 (include/zeo/zeo_mat2d.h:17-33),
`zMat3D` columns at 0, 3, 6 (include/zeo/zeo_mat3d.h:17-38), `zVec6D` lin 0, ang 3,
`zEP` w 0, v 1 (include/zeo/zeo_ep.h:17-23), `zFrame2D` pos 0, att 2, `zFrame3D` pos 0, att 3
(include/zeo/zeo_frame3d.h:17-19), `zCoord2D` pos 0, angle 2, `zMat6D` ll 0, la 9, al 18, aa 27
(include/zeo/zeo_mat6d.h:22-27).

Local variables of a function never alias its arguments; they are plain Lean values here.
-/

namespace Zeo

/-- A memory of `double` cells. -/
abbrev Mem (K : Type*) := ℕ → K

namespace Mem
variable {K : Type*}

/-- `*a = x`. -/
def put (μ : Mem K) (a : ℕ) (x : K) : Mem K := fun b => if b = a then x else μ b

/-- `_zVec2DCreate(v,a1,a2)`, include/zeo/zeo_vec2d.h:86-89. -/
def set2 (μ : Mem K) (p : ℕ) (f0 f1 : Mem K → K) : Mem K :=
  let μ1 := μ.put p (f0 μ)
  μ1.put (p + 1) (f1 μ1)

/-- `_zVec3DCreate(v,x,y,z)`, include/zeo/zeo_vec3d.h:84-88. -/
def set3 (μ : Mem K) (p : ℕ) (f0 f1 f2 : Mem K → K) : Mem K :=
  let μ1 := μ.put p (f0 μ)
  let μ2 := μ1.put (p + 1) (f1 μ1)
  μ2.put (p + 2) (f2 μ2)

/-- Read a `zVec2D`. -/
def v2 (μ : Mem K) (p : ℕ) : Vec2 K := ⟨μ p, μ (p + 1)⟩
/-- Read a `zVec3D`. -/
def v3 (μ : Mem K) (p : ℕ) : Vec3 K := ⟨μ p, μ (p + 1), μ (p + 2)⟩
/-- Read a `zMat2D`. -/
def m2 (μ : Mem K) (p : ℕ) : Mat2 K := ⟨μ.v2 p, μ.v2 (p + 2)⟩
/-- Read a `zMat3D`. -/
def m3 (μ : Mem K) (p : ℕ) : Mat3 K := ⟨μ.v3 p, μ.v3 (p + 3), μ.v3 (p + 6)⟩
/-- Read a `zVec6D`. -/
def v6 (μ : Mem K) (p : ℕ) : Vec6 K := ⟨μ.v3 p, μ.v3 (p + 3)⟩
/-- Read a `zEP`. -/
def ep (μ : Mem K) (p : ℕ) : EP K := ⟨μ p, μ.v3 (p + 1)⟩
/-- Read a `zFrame3D`. -/
def f3 (μ : Mem K) (p : ℕ) : Frame3 K := ⟨μ.v3 p, μ.m3 (p + 3)⟩
/-- Read a `zFrame2D`. -/
def f2 (μ : Mem K) (p : ℕ) : Frame2 K := ⟨μ.v2 p, μ.m2 (p + 2)⟩
/-- Read a `zCoord2D`. -/
def c2 (μ : Mem K) (p : ℕ) : Coord2 K := ⟨μ.v2 p, μ (p + 2)⟩
/-- Read a `zMat6D`. -/
def m6 (μ : Mem K) (p : ℕ) : Mat6 K :=
  { ll := μ.m3 p, la := μ.m3 (p + 9), al := μ.m3 (p + 18), aa := μ.m3 (p + 27) }

/-- Copy a local `zVec2D` to memory. -/
def wr2 (μ : Mem K) (p : ℕ) (w : Vec2 K) : Mem K := μ.set2 p (fun _ => w.x) (fun _ => w.y)
/-- Copy a local `zVec3D` to memory. -/
def wr3 (μ : Mem K) (p : ℕ) (w : Vec3 K) : Mem K :=
  μ.set3 p (fun _ => w.x) (fun _ => w.y) (fun _ => w.z)
/-- Copy a local `zMat2D` to memory (`zMat2DCopy(&tmp,m)`). -/
def wrM2 (μ : Mem K) (p : ℕ) (w : Mat2 K) : Mem K := (μ.wr2 p w.x).wr2 (p + 2) w.y
/-- Copy a local `zMat3D` to memory (`zMat3DCopy(&tmp,m)`). -/
def wrM3 (μ : Mem K) (p : ℕ) (w : Mat3 K) : Mem K :=
  ((μ.wr3 p w.x).wr3 (p + 3) w.y).wr3 (p + 6) w.z
/-- Copy a local `zEP` to memory (`zEPCopy(&tmp,ep)`). -/
def wrEP (μ : Mem K) (p : ℕ) (w : EP K) : Mem K := (μ.put p w.w).wr3 (p + 1) w.v

section Ops
variable [Field K]

/-! ### 2D vectors -/

/-- `zVec2DAdd`, macro include/zeo/zeo_vec2d.h; `zVec2DAddDRC(v1,v2)` is `vec2Add v1 v2 v1`. -/
def vec2Add (μ : Mem K) (v1 v2 v : ℕ) : Mem K :=
  μ.set2 v (fun μ => μ v1 + μ v2) (fun μ => μ (v1 + 1) + μ (v2 + 1))
/-- `zVec2DSub`. -/
def vec2Sub (μ : Mem K) (v1 v2 v : ℕ) : Mem K :=
  μ.set2 v (fun μ => μ v1 - μ v2) (fun μ => μ (v1 + 1) - μ (v2 + 1))
/-- `zVec2DRev`. -/
def vec2Rev (μ : Mem K) (v1 v : ℕ) : Mem K :=
  μ.set2 v (fun μ => -μ v1) (fun μ => -μ (v1 + 1))
/-- `zVec2DMul`. -/
def vec2Mul (μ : Mem K) (v1 : ℕ) (k : K) (v : ℕ) : Mem K :=
  μ.set2 v (fun μ => k * μ v1) (fun μ => k * μ (v1 + 1))
/-- `zVec2DCat`. -/
def vec2Cat (μ : Mem K) (v1 : ℕ) (k : K) (v2 v : ℕ) : Mem K :=
  μ.set2 v (fun μ => μ v1 + k * μ v2) (fun μ => μ (v1 + 1) + k * μ (v2 + 1))
/-- `zVec2DInterDiv`, src/zeo_vec2d.c:247-252: the difference is stored into `v` first. -/
def vec2InterDiv (μ : Mem K) (v1 v2 : ℕ) (r : K) (v : ℕ) : Mem K :=
  (μ.vec2Sub v2 v1 v).vec2Cat v1 r v v
/-- `zVec2DRot` with the sine and cosine of the angle, src/zeo_vec2d.c:277-284. -/
def vec2RotSC (μ : Mem K) (v : ℕ) (s c : K) (rv : ℕ) : Mem K :=
  μ.set2 rv (fun μ => c * μ v - s * μ (v + 1)) (fun μ => s * μ v + c * μ (v + 1))
/-- The last store of `zVec2DProj`, src/zeo_vec2d.c:267-274: `d` is the local unit vector along the
axis and the factor `_zVec2DInnerProd(&d,v)` is a macro argument, evaluated at each component. -/
def vec2Proj (μ : Mem K) (v : ℕ) (d : Vec2 K) (pv : ℕ) : Mem K :=
  μ.set2 pv (fun μ => d.inner (μ.v2 v) * d.x) (fun μ => d.inner (μ.v2 v) * d.y)
/-- `zVec2DRot90CW`, include/zeo/zeo_vec2d.h:381. -/
def vec2Rot90CW (μ : Mem K) (s d : ℕ) : Mem K := μ.set2 d (fun μ => μ (s + 1)) (fun μ => -μ s)
/-- `zVec2DRot90CCW`, include/zeo/zeo_vec2d.h:382. -/
def vec2Rot90CCW (μ : Mem K) (s d : ℕ) : Mem K := μ.set2 d (fun μ => -μ (s + 1)) (fun μ => μ s)

/-! ### 3D vectors -/

/-- `zVec3DAdd`, include/zeo/zeo_vec3d.h:215-219 (DRC 267-271). -/
def vec3Add (μ : Mem K) (v1 v2 v : ℕ) : Mem K :=
  μ.set3 v (fun μ => μ v1 + μ v2) (fun μ => μ (v1 + 1) + μ (v2 + 1))
    (fun μ => μ (v1 + 2) + μ (v2 + 2))
/-- `zVec3DSub`, include/zeo/zeo_vec3d.h:222-226. -/
def vec3Sub (μ : Mem K) (v1 v2 v : ℕ) : Mem K :=
  μ.set3 v (fun μ => μ v1 - μ v2) (fun μ => μ (v1 + 1) - μ (v2 + 1))
    (fun μ => μ (v1 + 2) - μ (v2 + 2))
/-- `zVec3DRev`, include/zeo/zeo_vec3d.h:229-233. -/
def vec3Rev (μ : Mem K) (v1 v : ℕ) : Mem K :=
  μ.set3 v (fun μ => -μ v1) (fun μ => -μ (v1 + 1)) (fun μ => -μ (v1 + 2))
/-- `zVec3DMul`, include/zeo/zeo_vec3d.h:236-240. -/
def vec3Mul (μ : Mem K) (v1 : ℕ) (k : K) (v : ℕ) : Mem K :=
  μ.set3 v (fun μ => k * μ v1) (fun μ => k * μ (v1 + 1)) (fun μ => k * μ (v1 + 2))
/-- `zVec3DAmp`, include/zeo/zeo_vec3d.h:245-249. -/
def vec3Amp (μ : Mem K) (v1 a v : ℕ) : Mem K :=
  μ.set3 v (fun μ => μ a * μ v1) (fun μ => μ (a + 1) * μ (v1 + 1))
    (fun μ => μ (a + 2) * μ (v1 + 2))
/-- `zVec3DDem`, include/zeo/zeo_vec3d.h:252-256. -/
def vec3Dem (μ : Mem K) (v1 d v : ℕ) : Mem K :=
  μ.set3 v (fun μ => μ v1 / μ d) (fun μ => μ (v1 + 1) / μ (d + 1))
    (fun μ => μ (v1 + 2) / μ (d + 2))
/-- `zVec3DCat`, include/zeo/zeo_vec3d.h:259-263. -/
def vec3Cat (μ : Mem K) (v1 : ℕ) (k : K) (v2 v : ℕ) : Mem K :=
  μ.set3 v (fun μ => μ v1 + k * μ v2) (fun μ => μ (v1 + 1) + k * μ (v2 + 1))
    (fun μ => μ (v1 + 2) + k * μ (v2 + 2))
/-- `zVec3DOuterProd`, src/zeo_vec3d.c:205-211 and macro include/zeo/zeo_vec3d.h:348-357: the
three components are computed into locals first. -/
def vec3Outer (μ : Mem K) (v1 v2 v : ℕ) : Mem K := μ.wr3 v ((μ.v3 v1).outer (μ.v3 v2))
/-- `zVec3DTripleProd`, include/zeo/zeo_vec3d.h:361-365. -/
def vec3Triple (μ : Mem K) (v1 v2 v3 v : ℕ) : Mem K :=
  μ.wr3 v ((μ.v3 v1).outer ((μ.v3 v2).outer (μ.v3 v3)))
/-- `zVec3DInterDiv`, macro include/zeo/zeo_vec3d.h (`_zVec3DInterDiv`): componentwise. -/
def vec3InterDiv (μ : Mem K) (v1 v2 : ℕ) (r : K) (v : ℕ) : Mem K :=
  μ.set3 v (fun μ => μ v1 + r * (μ v2 - μ v1))
    (fun μ => μ (v1 + 1) + r * (μ (v2 + 1) - μ (v1 + 1)))
    (fun μ => μ (v1 + 2) + r * (μ (v2 + 2) - μ (v1 + 2)))
/-- The stores of `zVec3DProj` for an axis that is not tiny, src/zeo_vec3d.c:327-338. -/
def vec3Proj (μ : Mem K) (v n pv : ℕ) : Mem K :=
  let l := (μ.v3 n).inner (μ.v3 v) / (μ.v3 n).sqrNorm
  μ.vec3Mul n l pv
/-- The stores of `zVec3DOrthogonalize` for an axis that is not tiny, src/zeo_vec3d.c:356-367. -/
def vec3Orthogonalize (μ : Mem K) (v n ov : ℕ) : Mem K :=
  let l := -(μ.v3 n).inner (μ.v3 v) / (μ.v3 n).sqrNorm
  μ.vec3Cat v l n ov
/-- The stores of `zVec3DOrthonormal` before the normalisation, for a vector whose x or y
component is not tiny, src/zeo_vec3d.c:341-345. -/
def vec3Orthonormal0 (μ : Mem K) (v ov : ℕ) : Mem K :=
  μ.set3 ov (fun μ => μ (v + 1)) (fun μ => -μ v) (fun _ => 0)

/-! ### 2x2 matrices -/

/-- `zMat2DT`, src/zeo_mat2d.c:67-71, macro include/zeo/zeo_mat2d.h:156,165-168. -/
def mat2T (μ : Mem K) (m tm : ℕ) : Mem K :=
  (μ.set2 tm (fun μ => μ m) (fun μ => μ (m + 2))).set2 (tm + 2)
    (fun μ => μ (m + 1)) (fun μ => μ (m + 3))
/-- `zMat2DTDRC`, include/zeo/zeo_mat2d.h:169 (`zSwap` of ZEDA uses a temporary). -/
def mat2TDRC (μ : Mem K) (m : ℕ) : Mem K :=
  let t := μ (m + 1)
  (μ.put (m + 1) (μ (m + 2))).put (m + 2) t
/-- `zMat2DAdd`, include/zeo/zeo_mat2d.h (`_zMat2DAdd`), written through `_zMat2DCreate`. -/
def mat2Add (μ : Mem K) (a b m : ℕ) : Mem K :=
  (μ.set2 m (fun μ => μ a + μ b) (fun μ => μ (a + 1) + μ (b + 1))).set2 (m + 2)
    (fun μ => μ (a + 2) + μ (b + 2)) (fun μ => μ (a + 3) + μ (b + 3))
/-- `zMat2DMul`, written through `_zMat2DCreate`. -/
def mat2Mul (μ : Mem K) (a : ℕ) (k : K) (m : ℕ) : Mem K :=
  (μ.set2 m (fun μ => k * μ a) (fun μ => k * μ (a + 1))).set2 (m + 2)
    (fun μ => k * μ (a + 2)) (fun μ => k * μ (a + 3))
/-- `zMat2DAdj`, src/zeo_mat2d.c:155-159, macro include/zeo/zeo_mat2d.h:290. -/
def mat2Adj (μ : Mem K) (m adj : ℕ) : Mem K :=
  (μ.set2 adj (fun μ => μ (m + 3)) (fun μ => -μ (m + 1))).set2 (adj + 2)
    (fun μ => -μ (m + 2)) (fun μ => μ m)
/-- The stores of `zMat2DInv` for a matrix whose determinant is not tiny,
src/zeo_mat2d.c:162-174. -/
def mat2Inv (μ : Mem K) (m inv : ℕ) : Mem K :=
  let det := (μ.m2 m).det
  (μ.mat2Adj m inv).mat2Mul inv (1 / det) inv
/-- The function `zMulMat2DVec2D`, src/zeo_mat2d.c:181-185, which has no temporaries. -/
def mulMat2Vec2 (μ : Mem K) (m v mv : ℕ) : Mem K :=
  μ.set2 mv (fun μ => μ m * μ v + μ (m + 2) * μ (v + 1))
    (fun μ => μ (m + 1) * μ v + μ (m + 3) * μ (v + 1))
/-- The macro `_zMulMat2DVec2D`, include/zeo/zeo_mat2d.h:318-323; `zMulMat2DVec2DDRC` uses it. -/
def mulMat2Vec2Macro (μ : Mem K) (m v mv : ℕ) : Mem K := μ.wr2 mv ((μ.m2 m).mulVec (μ.v2 v))
/-- The function `zMulMat2DTVec2D`, src/zeo_mat2d.c:188-192, which has no temporaries. -/
def mulMat2TVec2 (μ : Mem K) (m v mv : ℕ) : Mem K :=
  μ.set2 mv (fun μ => μ m * μ v + μ (m + 1) * μ (v + 1))
    (fun μ => μ (m + 2) * μ v + μ (m + 3) * μ (v + 1))
/-- The macro `_zMulMat2DTVec2D`, include/zeo/zeo_mat2d.h:327-332. -/
def mulMat2TVec2Macro (μ : Mem K) (m v mv : ℕ) : Mem K := μ.wr2 mv ((μ.m2 m).mulTVec (μ.v2 v))
/-- `zMulMat2DMat2D`, src/zeo_mat2d.c:235-242. -/
def mulMat2Mat2 (μ : Mem K) (a b m : ℕ) : Mem K := μ.wrM2 m ((μ.m2 a).mulMat (μ.m2 b))
/-- `zMulMat2DTMat2D`, src/zeo_mat2d.c:245-252. -/
def mulMat2TMat2 (μ : Mem K) (a b m : ℕ) : Mem K := μ.wrM2 m ((μ.m2 a).mulTMat (μ.m2 b))
/-- `zMulMat2DMat2DT`, src/zeo_mat2d.c:255-266. -/
def mulMat2Mat2T (μ : Mem K) (a b m : ℕ) : Mem K := μ.wrM2 m ((μ.m2 a).mulMatT (μ.m2 b))
/-- `zMat2DRotSC`, src/zeo_mat2d.c:294-298, macro include/zeo/zeo_mat2d.h:431-436. -/
def mat2RotSC (μ : Mem K) (m : ℕ) (s c : K) (rm : ℕ) : Mem K :=
  (μ.set2 rm (fun μ => c * μ m - s * μ (m + 1)) (fun μ => s * μ m + c * μ (m + 1))).set2 (rm + 2)
    (fun μ => c * μ (m + 2) - s * μ (m + 3)) (fun μ => s * μ (m + 2) + c * μ (m + 3))

/-! ### 3x3 matrices -/

/-- The macro `_zMat3DT`, include/zeo/zeo_mat3d.h (`_zMat3DRow` three times). -/
def mat3TMacro (μ : Mem K) (m tm : ℕ) : Mem K :=
  ((μ.set3 tm (fun μ => μ m) (fun μ => μ (m + 3)) (fun μ => μ (m + 6))).set3 (tm + 3)
    (fun μ => μ (m + 1)) (fun μ => μ (m + 4)) (fun μ => μ (m + 7))).set3 (tm + 6)
    (fun μ => μ (m + 2)) (fun μ => μ (m + 5)) (fun μ => μ (m + 8))
/-- `_zMat3DTDRC`, include/zeo/zeo_mat3d.h: three swaps. -/
def mat3TDRC (μ : Mem K) (m : ℕ) : Mem K :=
  let sw := fun (μ : Mem K) (a b : ℕ) => let t := μ a; (μ.put a (μ b)).put b t
  sw (sw (sw μ (m + 3) (m + 1)) (m + 6) (m + 2)) (m + 7) (m + 5)
/-- The function `zMat3DT`, src/zeo_mat3d.c:66-75, which tests `tm == m`. -/
def mat3T (μ : Mem K) (m tm : ℕ) : Mem K := if tm = m then μ.mat3TDRC tm else μ.mat3TMacro m tm
/-- `zMat3DAdd`: three `_zVec3DAdd`. -/
def mat3Add (μ : Mem K) (a b m : ℕ) : Mem K :=
  ((μ.vec3Add a b m).vec3Add (a + 3) (b + 3) (m + 3)).vec3Add (a + 6) (b + 6) (m + 6)
/-- `zMat3DSub`: three `_zVec3DSub`. -/
def mat3Sub (μ : Mem K) (a b m : ℕ) : Mem K :=
  ((μ.vec3Sub a b m).vec3Sub (a + 3) (b + 3) (m + 3)).vec3Sub (a + 6) (b + 6) (m + 6)
/-- `zMat3DMul`: three `_zVec3DMul`. -/
def mat3Mul (μ : Mem K) (a : ℕ) (k : K) (m : ℕ) : Mem K :=
  ((μ.vec3Mul a k m).vec3Mul (a + 3) k (m + 3)).vec3Mul (a + 6) k (m + 6)
/-- `zMat3DCat`: three `_zVec3DCat`. -/
def mat3Cat (μ : Mem K) (a : ℕ) (k : K) (b m : ℕ) : Mem K :=
  ((μ.vec3Cat a k b m).vec3Cat (a + 3) k (b + 3) (m + 3)).vec3Cat (a + 6) k (b + 6) (m + 6)
/-- `_zMulMat3DVec3D`, include/zeo/zeo_mat3d.h, and the function, src/zeo_mat3d.c:390-394. -/
def mulMat3Vec3 (μ : Mem K) (m v mv : ℕ) : Mem K := μ.wr3 mv ((μ.m3 m).mulVec (μ.v3 v))
/-- `_zMulMat3DTVec3D`, include/zeo/zeo_mat3d.h. -/
def mulMat3TVec3 (μ : Mem K) (m v mv : ℕ) : Mem K := μ.wr3 mv ((μ.m3 m).mulTVec (μ.v3 v))
/-- `zMulAdjMat3DVec3D`, src/zeo_mat3d.c:413-431: each row is evaluated when it is stored. -/
def mulAdjMat3Vec3 (μ : Mem K) (m v av : ℕ) : Mem K :=
  μ.set3 av (fun μ => (μ.m3 m).mulAdjVecRow (μ.v3 v) 0 1 2)
    (fun μ => (μ.m3 m).mulAdjVecRow (μ.v3 v) 1 2 0)
    (fun μ => (μ.m3 m).mulAdjVecRow (μ.v3 v) 2 0 1)
/-- `zMulMat3DMat3D`, src/zeo_mat3d.c. -/
def mulMat3Mat3 (μ : Mem K) (a b m : ℕ) : Mem K := μ.wrM3 m ((μ.m3 a).mulMat (μ.m3 b))
/-- `zMulMat3DTMat3D`, src/zeo_mat3d.c. -/
def mulMat3TMat3 (μ : Mem K) (a b m : ℕ) : Mem K := μ.wrM3 m ((μ.m3 a).mulTMat (μ.m3 b))
/-- `zMulMat3DMat3DT`, src/zeo_mat3d.c. -/
def mulMat3Mat3T (μ : Mem K) (a b m : ℕ) : Mem K := μ.wrM3 m ((μ.m3 a).mulMatT (μ.m3 b))
/-- `zRotMat3D`, src/zeo_mat3d.c: two products, the second one reads `r` again. -/
def rotMat3 (μ : Mem K) (r m rm : ℕ) : Mem K := (μ.mulMat3Mat3 r m rm).mulMat3Mat3T rm r rm
/-- `zRotMat3DInv`, src/zeo_mat3d.c. -/
def rotMat3Inv (μ : Mem K) (r m rm : ℕ) : Mem K := (μ.mulMat3Mat3 m r rm).mulMat3TMat3 r rm rm
/-- `zMat3DRotYawSC`: `_zMat3DRotRPYSC(m,0,1,2,s,c,rm)`, src/zeo_mat3d.c. -/
def mat3RotYawSC (μ : Mem K) (m : ℕ) (s c : K) (rm : ℕ) : Mem K :=
  let μ := μ.put rm (μ m * c - μ (m + 1) * s)
  let μ := μ.put (rm + 3) (μ (m + 3) * c - μ (m + 4) * s)
  let μ := μ.put (rm + 6) (μ (m + 6) * c - μ (m + 7) * s)
  let μ := μ.put (rm + 1) (μ m * s + μ (m + 1) * c)
  let μ := μ.put (rm + 4) (μ (m + 3) * s + μ (m + 4) * c)
  let μ := μ.put (rm + 7) (μ (m + 6) * s + μ (m + 7) * c)
  let μ := μ.put (rm + 2) (μ (m + 2))
  let μ := μ.put (rm + 5) (μ (m + 5))
  μ.put (rm + 8) (μ (m + 8))
/-- `zMat3DRotYawSCDRC`: `_zMat3DRotRPYSCDRC(m,0,1,2,s,c)`, src/zeo_mat3d.c. -/
def mat3RotYawSCDRC (μ : Mem K) (m : ℕ) (s c : K) : Mem K :=
  let r00 := μ m; let r01 := μ (m + 3); let r02 := μ (m + 6)
  let r10 := μ (m + 1); let r11 := μ (m + 4); let r12 := μ (m + 7)
  let μ := μ.put m (r00 * c - r10 * s)
  let μ := μ.put (m + 3) (r01 * c - r11 * s)
  let μ := μ.put (m + 6) (r02 * c - r12 * s)
  let μ := μ.put (m + 1) (r00 * s + r10 * c)
  let μ := μ.put (m + 4) (r01 * s + r11 * c)
  μ.put (m + 7) (r02 * s + r12 * c)

/-! ### Euler parameters -/

/-- `zEPRotVec3D`, src/zeo_ep.c:128-135. -/
def epRotVec (μ : Mem K) (q v rv : ℕ) : Mem K :=
  let μ := μ.vec3Outer (q + 1) v rv
  let μ := μ.vec3Mul rv (2 * μ q) rv
  let μ := μ.vec3Cat rv (μ q * μ q - (μ.v3 (q + 1)).sqrNorm) v rv
  μ.vec3Cat rv (2 * (μ.v3 (q + 1)).inner (μ.v3 v)) (q + 1) rv
/-- `zEPCascade`, src/zeo_ep.c: computed into a local. -/
def epCascade (μ : Mem K) (e1 e2 e : ℕ) : Mem K := μ.wrEP e ((μ.ep e1).cascade (μ.ep e2))
/-- `zEPAdd`, src/zeo_ep.c. -/
def epAdd (μ : Mem K) (e1 e2 e : ℕ) : Mem K :=
  (μ.put e (μ e1 + μ e2)).vec3Add (e1 + 1) (e2 + 1) (e + 1)
/-- `zAngVel2EPVel`, src/zeo_ep.c: `w` is stored before `ep->ex.w` is read. -/
def angVelToEPVel (μ : Mem K) (w q qd : ℕ) : Mem K :=
  let μ := μ.put qd (-(1 / 2) * (μ.v3 (q + 1)).inner (μ.v3 w))
  let μ := μ.vec3Outer w (q + 1) (qd + 1)
  let μ := μ.vec3Cat (qd + 1) (μ q) w (qd + 1)
  μ.vec3Mul (qd + 1) (1 / 2) (qd + 1)

/-! ### Frames and coordinates -/

/-- `_zXform3D`, include/zeo/zeo_frame3d.h. -/
def xform3 (μ : Mem K) (f v tv : ℕ) : Mem K := (μ.mulMat3Vec3 (f + 3) v tv).vec3Add tv f tv
/-- `_zXform3DInv`, include/zeo/zeo_frame3d.h. -/
def xform3Inv (μ : Mem K) (f v tv : ℕ) : Mem K :=
  (μ.vec3Sub v f tv).mulMat3TVec3 (f + 3) tv tv
/-- `_zFrame3DInv`, include/zeo/zeo_frame3d.h: uses the macro `_zMat3DT`. -/
def frame3Inv (μ : Mem K) (f g : ℕ) : Mem K :=
  ((μ.mat3TMacro (f + 3) (g + 3)).mulMat3Vec3 (g + 3) f g).vec3Rev g g
/-- `_zFrame3DCascade`, include/zeo/zeo_frame3d.h. -/
def frame3Cascade (μ : Mem K) (f1 f2 f : ℕ) : Mem K :=
  (μ.mulMat3Mat3 (f1 + 3) (f2 + 3) (f + 3)).xform3 f1 f2 f
/-- `_zFrame3DXform`, include/zeo/zeo_frame3d.h. -/
def frame3Xform (μ : Mem K) (f1 f2 f : ℕ) : Mem K :=
  (μ.mulMat3TMat3 (f1 + 3) (f2 + 3) (f + 3)).xform3Inv f1 f2 f
/-- `_zXform2D`, include/zeo/zeo_frame2d.h:117-120. -/
def xform2 (μ : Mem K) (f v tv : ℕ) : Mem K := (μ.mulMat2Vec2Macro (f + 2) v tv).vec2Add tv f tv
/-- `_zFrame2DInv`, include/zeo/zeo_frame2d.h. -/
def frame2Inv (μ : Mem K) (f g : ℕ) : Mem K :=
  ((μ.mat2T (f + 2) (g + 2)).mulMat2Vec2Macro (g + 2) f g).vec2Rev g g
/-- `_zFrame2DCascade`, include/zeo/zeo_frame2d.h. -/
def frame2Cascade (μ : Mem K) (f1 f2 f : ℕ) : Mem K :=
  (μ.mulMat2Mat2 (f1 + 2) (f2 + 2) (f + 2)).xform2 f1 f2 f
/-- `_zXform2DInv`, include/zeo/zeo_frame2d.h:123-126. -/
def xform2Inv (μ : Mem K) (f v tv : ℕ) : Mem K :=
  (μ.vec2Sub v f tv).mulMat2TVec2Macro (f + 2) tv tv
/-- `_zFrame2DXform`, include/zeo/zeo_frame2d.h:166-169. -/
def frame2Xform (μ : Mem K) (f1 f2 f : ℕ) : Mem K :=
  (μ.mulMat2TMat2 (f1 + 2) (f2 + 2) (f + 2)).xform2Inv f1 f2 f
/-- `zCoord2DInterDiv`, src/zeo_coord2d.c:118-123. -/
def coord2InterDiv (μ : Mem K) (a b : ℕ) (r : K) (c : ℕ) : Mem K :=
  let μ := μ.vec2InterDiv a b r c
  μ.put (c + 2) (μ (a + 2) + r * (μ (b + 2) - μ (a + 2)))

/-! ### 6D vectors and matrices -/

/-- `zVec6DLinShift`, src/zeo_vec6d.c. -/
def vec6LinShift (μ : Mem K) (src pos dst : ℕ) : Mem K :=
  let w := (μ.v3 (src + 3)).outer (μ.v3 pos)
  let μ := μ.set3 dst (fun μ => μ src + w.x) (fun μ => μ (src + 1) + w.y)
    (fun μ => μ (src + 2) + w.z)
  μ.wr3 (dst + 3) (μ.v3 (src + 3))
/-- `zVec6DAngShift`, src/zeo_vec6d.c. -/
def vec6AngShift (μ : Mem K) (src pos dst : ℕ) : Mem K :=
  let n := (μ.v3 pos).outer (μ.v3 src)
  let μ := μ.set3 (dst + 3) (fun μ => μ (src + 3) + n.x) (fun μ => μ (src + 4) + n.y)
    (fun μ => μ (src + 5) + n.z)
  μ.wr3 dst (μ.v3 src)
/-- `_zMat6DT`, include/zeo/zeo_mat6d.h: four `_zMat3DT`. -/
def mat6T (μ : Mem K) (m tm : ℕ) : Mem K :=
  (((μ.mat3TMacro m tm).mat3TMacro (m + 9) (tm + 18)).mat3TMacro (m + 18) (tm + 9)).mat3TMacro
    (m + 27) (tm + 27)

end Ops

/-- `zCoord2DCascade`, src/zeo_coord2d.c:136-142.
`zCoord2DCascadeDRC(c,dc)` is `coord2Cascade c dc c` (include/zeo/zeo_coord2d.h:202). -/
noncomputable def coord2Cascade (μ : Mem ℝ) (src x dst : ℕ) : Mem ℝ :=
  let μ := μ.vec2RotSC x (Real.sin (μ (src + 2))) (Real.cos (μ (src + 2))) dst
  let μ := μ.vec2Add dst src dst
  μ.put (dst + 2) (μ (src + 2) + μ (x + 2))
/-- `zCoord2DXform`, src/zeo_coord2d.c:126-133: the angle is stored first. -/
noncomputable def coord2Xform (μ : Mem ℝ) (src tgt x : ℕ) : Mem ℝ :=
  let μ := μ.put (x + 2) (μ (tgt + 2) - μ (src + 2))
  let d := (μ.v2 tgt).sub (μ.v2 src)
  μ.wr2 x (d.rot (-μ (src + 2)))

end Mem
end Zeo
