import Verif.Model.Box
import Verif.Model.EP

/-! # Comparison of vectors, matrices, frames and boxes

`τ` is `zTOL` of the ZM library. `zIsTol x τ` is `|x| ≤ τ`. Over the reals `==` on doubles is equality: NaN, which is
not equal to itself, and the two zeros are not modelled. -/

namespace Zeo
variable {K : Type*} [Field K] [LinearOrder K] [IsStrictOrderedRing K]

/-- `_zVec2DMatch`, include/zeo/zeo_vec2d.h:121. -/
def Vec2.eqv (v1 v2 : Vec2 K) : Prop := v1.x = v2.x ∧ v1.y = v2.y
/-- `_zVec3DMatch`, include/zeo/zeo_vec3d.h:131. -/
def Vec3.eqv (v1 v2 : Vec3 K) : Prop := v1.x = v2.x ∧ v1.y = v2.y ∧ v1.z = v2.z

/-- `_zVec6DMatch`, include/zeo/zeo_vec6d.h:138. -/
def Vec6.eqv (v1 v2 : Vec6 K) : Prop := v1.lin.eqv v2.lin ∧ v1.ang.eqv v2.ang
/-- `_zVec6DEqual`, include/zeo/zeo_vec6d.h:140. -/
def Vec6.equal (τ : K) (v1 v2 : Vec6 K) : Prop := v1.lin.equal τ v2.lin ∧ v1.ang.equal τ v2.ang
/-- `_zVec6DIsTol`, include/zeo/zeo_vec6d.h:159. -/
def Vec6.isTol (v : Vec6 K) (tol : K) : Prop := v.lin.isTol tol ∧ v.ang.isTol tol

/-- `_zMat2DMatch`, include/zeo/zeo_mat2d.h:121. -/
def Mat2.eqv (m1 m2 : Mat2 K) : Prop := m1.x.eqv m2.x ∧ m1.y.eqv m2.y
/-- `_zMat2DEqual`, include/zeo/zeo_mat2d.h:123. -/
def Mat2.equal (τ : K) (m1 m2 : Mat2 K) : Prop := m1.x.equal τ m2.x ∧ m1.y.equal τ m2.y
/-- `_zMat2DIsIdent`, include/zeo/zeo_mat2d.h:127. -/
def Mat2.isIdent (τ : K) (m : Mat2 K) : Prop := m.equal τ .ident
/-- `_zMat2DIsTol`, include/zeo/zeo_mat2d.h:143. -/
def Mat2.isTol (m : Mat2 K) (tol : K) : Prop := m.x.isTol tol ∧ m.y.isTol tol

/-- `_zMat3DMatch`, include/zeo/zeo_mat3d.h:143. -/
def Mat3.eqv (m1 m2 : Mat3 K) : Prop := m1.x.eqv m2.x ∧ m1.y.eqv m2.y ∧ m1.z.eqv m2.z
/-- `_zMat3DEqual`, include/zeo/zeo_mat3d.h:145. -/
def Mat3.equal (τ : K) (m1 m2 : Mat3 K) : Prop := m1.x.equal τ m2.x ∧ m1.y.equal τ m2.y ∧ m1.z.equal τ m2.z
/-- `_zMat3DIsIdent`, include/zeo/zeo_mat3d.h:149. -/
def Mat3.isIdent (τ : K) (m : Mat3 K) : Prop := m.equal τ .ident
/-- `_zMat3DIsTol`, include/zeo/zeo_mat3d.h:165. -/
def Mat3.isTol (m : Mat3 K) (tol : K) : Prop := m.x.isTol tol ∧ m.y.isTol tol ∧ m.z.isTol tol

/-- `_zFrame2DEqual`, include/zeo/zeo_frame2d.h:93. -/
def Frame2.equal (τ : K) (f1 f2 : Frame2 K) : Prop := f1.pos.equal τ f2.pos ∧ f1.att.equal τ f2.att
/-- `_zFrame2DIsIdent`, include/zeo/zeo_frame2d.h:97. -/
def Frame2.isIdent (τ : K) (f : Frame2 K) : Prop := f.equal τ .ident
/-- `_zFrame3DMatch`, include/zeo/zeo_frame3d.h:109. -/
def Frame3.eqv (f1 f2 : Frame3 K) : Prop := f1.pos.eqv f2.pos ∧ f1.att.eqv f2.att
/-- `_zFrame3DEqual`, include/zeo/zeo_frame3d.h:112. -/
def Frame3.equal (τ : K) (f1 f2 : Frame3 K) : Prop := f1.pos.equal τ f2.pos ∧ f1.att.equal τ f2.att
/-- `_zFrame3DIsIdent`, include/zeo/zeo_frame3d.h:116. -/
def Frame3.isIdent (τ : K) (f : Frame3 K) : Prop := f.equal τ .ident

/-- `zEPIsIdent`, src/zeo_ep.c:43-46. -/
def EP.isIdent (τ : K) (q : EP K) : Prop := zIsTol (q.w - 1) τ ∧ q.v.isTol τ

/-- `zAABox2DEqual`, src/zeo_elem2d_box.c:36-39. -/
def AABox2.equal (τ : K) (b1 b2 : AABox2 K) : Prop := b1.min.equal τ b2.min ∧ b1.max.equal τ b2.max
/-- `zAABox3DEqual`, src/zeo_elem3d_box.c:42-45. -/
def AABox3.equal (τ : K) (b1 b2 : AABox3 K) : Prop := b1.min.equal τ b2.min ∧ b1.max.equal τ b2.max

/-- `zAABox2DCreateFromSize`, src/zeo_elem2d_box.c:26-33. -/
def AABox2.createFromSize (c : Vec2 K) (depth width : K) : AABox2 K :=
  ⟨⟨c.x - 1/2 * |depth|, c.y - 1/2 * |width|⟩, ⟨c.x + 1/2 * |depth|, c.y + 1/2 * |width|⟩⟩
/-- `zAABox2DExpand`, src/zeo_elem2d_box.c:60-70; centre and size macros include/zeo/zeo_elem2d_box.h:53-56. -/
def AABox2.expand (b : AABox2 K) (magnitude : K) : AABox2 K :=
  let m := if magnitude < 0 then magnitude * -1 else magnitude
  createFromSize (b.min.mid b.max) ((b.max.x - b.min.x) * m) ((b.max.y - b.min.y) * m)
/-- `zAABox2DArea`, src/zeo_elem2d_box.c:105-109. -/
def AABox2.area (b : AABox2 K) : K := |(b.max.x - b.min.x) * (b.max.y - b.min.y)|
/-- `zAABox2DVert`, src/zeo_elem2d_box.c:112-118. -/
def AABox2.vert (b : AABox2 K) (i : ℕ) : Vec2 K :=
  ⟨if (i.testBit 0).xor (i.testBit 1) then b.min.x else b.max.x, if i.testBit 1 then b.min.y else b.max.y⟩

/-- The result of `_zVec2DListQuickSortDefaultCmp`, src/zeo_vec2d_list.c:34-41. -/
def Vec2.sortCmp (a b : Vec2 K) : ℤ :=
  if a.x > b.x then 1 else if a.x < b.x then -1 else if a.y > b.y then 1 else if a.y < b.y then -1 else 0
/-- The result of `_zVec3DListQuickSortDefaultCmp`, src/zeo_vec3d_list.c:34-43. -/
def Vec3.sortCmp (a b : Vec3 K) : ℤ :=
  if a.x > b.x then 1 else if a.x < b.x then -1 else if a.y > b.y then 1 else if a.y < b.y then -1
  else if a.z > b.z then 1 else if a.z < b.z then -1 else 0
end Zeo
