import Verif.Model.Alias

/-! # Operations on memory: division, normalisation, 6D vectors and matrices, twists

As in `Model/Alias.lean`, one store after the other in the order of the C text. -/

namespace Zeo.Mem
variable {K : Type*}

section Ops
variable [Field K] [DecidableEq K]

/-- `zVec2DDiv`, src/zeo_vec2d.c:99-108: (non-NULL, memory). `zVec2DDivDRC(v,k)` is `vec2Div v k v`. -/
def vec2Div (μ : Mem K) (v : ℕ) (k : K) (dv : ℕ) : Bool × Mem K :=
  if k = 0 then (false, μ) else (true, μ.vec2Mul v (1 / k) dv)
/-- `zVec3DDiv`, src/zeo_vec3d.c:105-114 (DRC 166-175). -/
def vec3Div (μ : Mem K) (v : ℕ) (k : K) (dv : ℕ) : Bool × Mem K :=
  if k = 0 then (false, μ) else (true, μ.vec3Mul v (1 / k) dv)
/-- `zVec3DDif`, src/zeo_vec3d.c:413-417: the difference is stored, then divided in place. -/
def vec3Dif (μ : Mem K) (v vnew : ℕ) (dt : K) (vel : ℕ) : Bool × Mem K := (μ.vec3Sub vnew v vel).vec3Div vel dt vel

/-- `_zVec6DAdd`, include/zeo/zeo_vec6d.h:202-205 (DRC: with `v = v1`). -/
def vec6Add (μ : Mem K) (v1 v2 v : ℕ) : Mem K := (μ.vec3Add v1 v2 v).vec3Add (v1 + 3) (v2 + 3) (v + 3)
/-- `_zVec6DSub`, include/zeo/zeo_vec6d.h:207-210. -/
def vec6Sub (μ : Mem K) (v1 v2 v : ℕ) : Mem K := (μ.vec3Sub v1 v2 v).vec3Sub (v1 + 3) (v2 + 3) (v + 3)
/-- `_zVec6DRev`, include/zeo/zeo_vec6d.h:212-215. -/
def vec6Rev (μ : Mem K) (v1 v : ℕ) : Mem K := (μ.vec3Rev v1 v).vec3Rev (v1 + 3) (v + 3)
/-- `_zVec6DMul`, include/zeo/zeo_vec6d.h:217-220. -/
def vec6Mul (μ : Mem K) (v1 : ℕ) (k : K) (v : ℕ) : Mem K := (μ.vec3Mul v1 k v).vec3Mul (v1 + 3) k (v + 3)
/-- `_zVec6DCat`, include/zeo/zeo_vec6d.h:223-226. -/
def vec6Cat (μ : Mem K) (v1 : ℕ) (k : K) (v2 v : ℕ) : Mem K := (μ.vec3Cat v1 k v2 v).vec3Cat (v1 + 3) k (v2 + 3) (v + 3)
/-- `zVec6DDiv`, src/zeo_vec6d.c:100-110. -/
def vec6Div (μ : Mem K) (v : ℕ) (k : K) (dv : ℕ) : Bool × Mem K :=
  if k = 0 then (false, μ) else (true, μ.vec6Mul v (1 / k) dv)
/-- `zVec6DDif`, src/zeo_vec6d.c:172-176. -/
def vec6Dif (μ : Mem K) (v vnew : ℕ) (dt : K) (vel : ℕ) : Bool × Mem K := (μ.vec6Sub vnew v vel).vec6Div vel dt vel
/-- `zMulMat3DVec6D`, src/zeo_mat3d.c:582-587. -/
def mulMat3Vec6 (μ : Mem K) (m v mv : ℕ) : Mem K := (μ.mulMat3Vec3 m v mv).mulMat3Vec3 m (v + 3) (mv + 3)
/-- `zMulMat3DTVec6D`, src/zeo_mat3d.c:590-595. -/
def mulMat3TVec6 (μ : Mem K) (m v mv : ℕ) : Mem K := (μ.mulMat3TVec3 m v mv).mulMat3TVec3 m (v + 3) (mv + 3)

/-- `zMulMat6DVec6D`, src/zeo_mat6d.c:138-149: four local products, then two sums. -/
def mulMat6Vec6 (μ : Mem K) (m v mv : ℕ) : Mem K :=
  let v1 := (μ.m3 m).mulVec (μ.v3 v)
  let v2 := (μ.m3 (m + 18)).mulVec (μ.v3 (v + 3))
  let v3 := (μ.m3 (m + 9)).mulVec (μ.v3 v)
  let v4 := (μ.m3 (m + 27)).mulVec (μ.v3 (v + 3))
  (μ.wr3 mv (v1.add v2)).wr3 (mv + 3) (v3.add v4)
/-- `zMulMat6DTVec6D`, src/zeo_mat6d.c:152-163. -/
def mulMat6TVec6 (μ : Mem K) (m v mv : ℕ) : Mem K :=
  let v1 := (μ.m3 m).mulTVec (μ.v3 v)
  let v2 := (μ.m3 (m + 9)).mulTVec (μ.v3 (v + 3))
  let v3 := (μ.m3 (m + 18)).mulTVec (μ.v3 v)
  let v4 := (μ.m3 (m + 27)).mulTVec (μ.v3 (v + 3))
  (μ.wr3 mv (v1.add v2)).wr3 (mv + 3) (v3.add v4)
/-- The four sums at the end of the products of 6x6 matrices, src/zeo_mat6d.c:178-181: of locals. -/
def wrM6 (μ : Mem K) (m : ℕ) (ll la al aa : Mat3 K) : Mem K :=
  (((μ.wrM3 m ll).wrM3 (m + 9) la).wrM3 (m + 18) al).wrM3 (m + 27) aa
/-- `zMulMat6DMat6D`, src/zeo_mat6d.c:166-183: eight local products, then four sums. -/
def mulMat6Mat6 (μ : Mem K) (a b m : ℕ) : Mem K :=
  let t1 := (μ.m3 a).mulMat (μ.m3 b)
  let t2 := (μ.m3 (a + 18)).mulMat (μ.m3 (b + 9))
  let t3 := (μ.m3 (a + 9)).mulMat (μ.m3 b)
  let t4 := (μ.m3 (a + 27)).mulMat (μ.m3 (b + 9))
  let t5 := (μ.m3 a).mulMat (μ.m3 (b + 18))
  let t6 := (μ.m3 (a + 18)).mulMat (μ.m3 (b + 27))
  let t7 := (μ.m3 (a + 9)).mulMat (μ.m3 (b + 18))
  let t8 := (μ.m3 (a + 27)).mulMat (μ.m3 (b + 27))
  μ.wrM6 m (t1.add t2) (t3.add t4) (t5.add t6) (t7.add t8)

/-- `zMulMat6DTMat6D`, src/zeo_mat6d.c:186-203. -/
def mulMat6TMat6 (μ : Mem K) (a b m : ℕ) : Mem K :=
  let t1 := (μ.m3 a).mulTMat (μ.m3 b)
  let t2 := (μ.m3 (a + 9)).mulTMat (μ.m3 (b + 9))
  let t3 := (μ.m3 (a + 18)).mulTMat (μ.m3 b)
  let t4 := (μ.m3 (a + 27)).mulTMat (μ.m3 (b + 9))
  let t5 := (μ.m3 a).mulTMat (μ.m3 (b + 18))
  let t6 := (μ.m3 (a + 9)).mulTMat (μ.m3 (b + 27))
  let t7 := (μ.m3 (a + 18)).mulTMat (μ.m3 (b + 18))
  let t8 := (μ.m3 (a + 27)).mulTMat (μ.m3 (b + 27))
  μ.wrM6 m (t1.add t2) (t3.add t4) (t5.add t6) (t7.add t8)
/-- `zMulMat6DMat6DT`, src/zeo_mat6d.c:206-223. -/
def mulMat6Mat6T (μ : Mem K) (a b m : ℕ) : Mem K :=
  let t1 := (μ.m3 a).mulMatT (μ.m3 b)
  let t2 := (μ.m3 (a + 18)).mulMatT (μ.m3 (b + 18))
  let t3 := (μ.m3 (a + 9)).mulMatT (μ.m3 b)
  let t4 := (μ.m3 (a + 27)).mulMatT (μ.m3 (b + 18))
  let t5 := (μ.m3 a).mulMatT (μ.m3 (b + 9))
  let t6 := (μ.m3 (a + 18)).mulMatT (μ.m3 (b + 27))
  let t7 := (μ.m3 (a + 9)).mulMatT (μ.m3 (b + 9))
  let t8 := (μ.m3 (a + 27)).mulMatT (μ.m3 (b + 27))
  μ.wrM6 m (t1.add t2) (t3.add t4) (t5.add t6) (t7.add t8)
/-- `zMat6DAdd`, src/zeo_mat6d.c:72-76: four `_zMat3DAdd`, include/zeo/zeo_mat6d.h. -/
def mat6Add (μ : Mem K) (a b m : ℕ) : Mem K :=
  (((μ.mat3Add a b m).mat3Add (a + 9) (b + 9) (m + 9)).mat3Add (a + 18) (b + 18) (m + 18)).mat3Add (a + 27) (b + 27) (m + 27)

end Ops

section Real
open Classical
noncomputable section

/-- `zVec2DNormalize`, src/zeo_vec2d.c:229-240: (value returned, memory). -/
def vec2Normalize (τ : ℝ) (μ : Mem ℝ) (v nv : ℕ) : ℝ × Mem ℝ :=
  if (μ.v2 v).isTol τ then (-1, μ) else ((μ.v2 v).norm, μ.vec2Mul v (1 / (μ.v2 v).norm) nv)
/-- `zVec3DNormalize`, src/zeo_vec3d.c:273-280, with the macro, 259-264. -/
def vec3Normalize (τ : ℝ) (μ : Mem ℝ) (v nv : ℕ) : ℝ × Mem ℝ :=
  if (μ.v3 v).isTol τ then (0, μ) else ((μ.v3 v).norm, μ.vec3Mul v (1 / (μ.v3 v).norm) nv)
/-- `zMat3DRot`, src/zeo_mat3d.c:817-823: the rotation is local. -/
def mat3Rot (τ : ℝ) (μ : Mem ℝ) (m aa rm : ℕ) : Mem ℝ := μ.wrM3 rm ((Mat3.fromAA τ (μ.v3 aa)).mulMat (μ.m3 m))
/-- `zFrame3DTwist`, src/zeo_frame3d.c:105-110. -/
def frame3Twist (τ : ℝ) (μ : Mem ℝ) (f1 w f2 : ℕ) : Mem ℝ := mat3Rot τ (μ.vec3Add f1 w f2) (f1 + 3) (w + 3) (f2 + 3)

end
end Real
end Zeo.Mem
