import Verif.Model.Frame

/-! # Boxes: src/zeo_elem2d_box.c, src/zeo_elem3d_box.c, src/zeo_col_box.c -/

namespace Zeo

/-- `zAABox3D`, include/zeo/zeo_elem3d_box.h:17-49. -/
@[ext] structure AABox3 (K : Type*) where
  min : Vec3 K
  max : Vec3 K
deriving DecidableEq

/-- `zAABox2D`, include/zeo/zeo_elem2d_box.h. -/
@[ext] structure AABox2 (K : Type*) where
  min : Vec2 K
  max : Vec2 K
deriving DecidableEq

/-- `zBox3D`, include/zeo/zeo_elem3d_box.h:159-186; `zBox3DCenter` is `frame.pos` and
`zBox3DAxis(b,i)` is column `i` of `frame.att` (188-193). -/
@[ext] structure Box3 (K : Type*) where
  span : Vec3 K
  frame : Frame3 K
deriving DecidableEq

section
variable {K : Type*} [Field K] [LinearOrder K] [IsStrictOrderedRing K]

/-- One iteration of the loop of `zAABox3DSqrDistFromPoint`, src/zeo_elem3d_box.c:98-102
(and of the 2D version, src/zeo_elem2d_box.c:88-92). -/
def sqrExcess (p lo hi : K) : K :=
  if p < lo then (p - lo) * (p - lo) else if p > hi then (p - hi) * (p - hi) else 0

namespace AABox3
/-- `zAABox3DInit`, src/zeo_elem3d_box.c:14-19. -/
def init : AABox3 K := ⟨.zero, .zero⟩
/-- `zAABox3DCreate`, src/zeo_elem3d_box.c:22-27. -/
def create (x1 y1 z1 x2 y2 z2 : K) : AABox3 K :=
  ⟨⟨Min.min x1 x2, Min.min y1 y2, Min.min z1 z2⟩, ⟨Max.max x1 x2, Max.max y1 y2, Max.max z1 z2⟩⟩
/-- `zAABox3DCreateFromSize`, src/zeo_elem3d_box.c:30-39. -/
def createFromSize (c : Vec3 K) (depth width height : K) : AABox3 K :=
  ⟨⟨c.x - 1/2 * |depth|, c.y - 1/2 * |width|, c.z - 1/2 * |height|⟩,
   ⟨c.x + 1/2 * |depth|, c.y + 1/2 * |width|, c.z + 1/2 * |height|⟩⟩
/-- `zAABox3DMerge`, src/zeo_elem3d_box.c:56-65. -/
def merge (b1 b2 : AABox3 K) : AABox3 K :=
  create (Min.min b1.min.x b2.min.x) (Min.min b1.min.y b2.min.y) (Min.min b1.min.z b2.min.z)
    (Max.max b1.max.x b2.max.x) (Max.max b1.max.y b2.max.y) (Max.max b1.max.z b2.max.z)
/-- `zAABox3DExpand`, src/zeo_elem3d_box.c:68-79; center and size macros
include/zeo/zeo_elem3d_box.h:58-62. -/
def expand (b : AABox3 K) (magnitude : K) : AABox3 K :=
  let m := if magnitude < 0 then magnitude * -1 else magnitude
  createFromSize (b.min.mid b.max) ((b.max.x - b.min.x) * m) ((b.max.y - b.min.y) * m) ((b.max.z - b.min.z) * m)
/-- The point written by `zAABox3DClosest`, src/zeo_elem3d_box.c:82-87. -/
def closest (b : AABox3 K) (p : Vec3 K) : Vec3 K :=
  ⟨zLimit p.x b.min.x b.max.x, zLimit p.y b.min.y b.max.y, zLimit p.z b.min.z b.max.z⟩
/-- `zAABox3DSqrDistFromPoint`, src/zeo_elem3d_box.c:92-105. -/
def sqrDistFromPoint (b : AABox3 K) (p : Vec3 K) : K :=
  0 + sqrExcess p.x b.min.x b.max.x + sqrExcess p.y b.min.y b.max.y + sqrExcess p.z b.min.z b.max.z
/-- `zAABox3DPointIsInside`, src/zeo_elem3d_box.c:108-113. -/
def pointIsInside (b : AABox3 K) (p : Vec3 K) (margin : K) : Prop :=
  (p.x > b.min.x - margin ∧ p.x ≤ b.max.x + margin) ∧ (p.y > b.min.y - margin ∧ p.y ≤ b.max.y + margin) ∧
  (p.z > b.min.z - margin ∧ p.z ≤ b.max.z + margin)
instance (b : AABox3 K) (p : Vec3 K) (m : K) : Decidable (pointIsInside b p m) :=
  inferInstanceAs (Decidable ((_ ∧ _) ∧ (_ ∧ _) ∧ (_ ∧ _)))
/-- `zAABox3DVolume`, src/zeo_elem3d_box.c:116-121. -/
def volume (b : AABox3 K) : K := |(b.max.x - b.min.x) * (b.max.y - b.min.y) * (b.max.z - b.min.z)|
/-- `zAABox3DVert`, src/zeo_elem3d_box.c:124-131 (bits of `i`). -/
def vert (b : AABox3 K) (i : ℕ) : Vec3 K :=
  ⟨if (i.testBit 0).xor (i.testBit 1) then b.min.x else b.max.x,
   if i.testBit 1 then b.min.y else b.max.y, if i.testBit 2 then b.min.z else b.max.z⟩
/-- `zAABox3DEnlarge`, src/zeo_elem3d_box.c:134-143, on a box with finite sides. -/
def enlarge (b : AABox3 K) (v : Vec3 K) : AABox3 K :=
  ⟨⟨if b.min.x > v.x then v.x else b.min.x, if b.min.y > v.y then v.y else b.min.y,
    if b.min.z > v.z then v.z else b.min.z⟩,
   ⟨if b.max.x < v.x then v.x else b.max.x, if b.max.y < v.y then v.y else b.max.y,
    if b.max.z < v.z then v.z else b.max.z⟩⟩
/-- `zColChkAABox3D`, src/zeo_col_box.c:207-216. -/
def colChk (b1 b2 : AABox3 K) : Prop :=
  b1.min.x < b2.max.x ∧ b2.min.x < b1.max.x ∧ b1.min.y < b2.max.y ∧ b2.min.y < b1.max.y ∧
  b1.min.z < b2.max.z ∧ b2.min.z < b1.max.z
instance (b1 b2 : AABox3 K) : Decidable (colChk b1 b2) :=
  inferInstanceAs (Decidable (_ ∧ _ ∧ _ ∧ _ ∧ _ ∧ _))
/-- `zIntersectAABox3D`, src/zeo_col_box.c:219-229 (`none` = NULL). -/
def intersect (b1 b2 : AABox3 K) : Option (AABox3 K) :=
  if colChk b1 b2 then
    some (create (Max.max b1.min.x b2.min.x) (Max.max b1.min.y b2.min.y) (Max.max b1.min.z b2.min.z)
      (Min.min b1.max.x b2.max.x) (Min.min b1.max.y b2.max.y) (Min.min b1.max.z b2.max.z))
  else none
/-- `zAABox3DToBox3D`, src/zeo_elem3d_box.c:355-363. -/
def toBox (b : AABox3 K) : Box3 K := ⟨b.max.sub b.min, ⟨b.max.mid b.min, ⟨.ex, .ey, .ez⟩⟩⟩
end AABox3

namespace AABox2
/-- `zAABox2DCreate`, src/zeo_elem2d_box.c:18-23. -/
def create (x1 y1 x2 y2 : K) : AABox2 K :=
  ⟨⟨Min.min x1 x2, Min.min y1 y2⟩, ⟨Max.max x1 x2, Max.max y1 y2⟩⟩
/-- `zAABox2DMerge`, src/zeo_elem2d_box.c:50-57. -/
def merge (b1 b2 : AABox2 K) : AABox2 K :=
  create (Min.min b1.min.x b2.min.x) (Min.min b1.min.y b2.min.y)
    (Max.max b1.max.x b2.max.x) (Max.max b1.max.y b2.max.y)
/-- The point written by `zAABox2DClosest`, src/zeo_elem2d_box.c:73-77. -/
def closest (b : AABox2 K) (p : Vec2 K) : Vec2 K :=
  ⟨zLimit p.x b.min.x b.max.x, zLimit p.y b.min.y b.max.y⟩
/-- `zAABox2DSqrDistFromPoint`, src/zeo_elem2d_box.c:82-95. -/
def sqrDistFromPoint (b : AABox2 K) (p : Vec2 K) : K :=
  0 + sqrExcess p.x b.min.x b.max.x + sqrExcess p.y b.min.y b.max.y
/-- `zAABox2DPointIsInside`, src/zeo_elem2d_box.c:98-102 (open, unlike the 3D one). -/
def pointIsInside (b : AABox2 K) (p : Vec2 K) (margin : K) : Prop :=
  (p.x > b.min.x - margin ∧ p.x < b.max.x + margin) ∧ (p.y > b.min.y - margin ∧ p.y < b.max.y + margin)
/-- `zAABox2DEnlarge`, src/zeo_elem2d_box.c:121-128, on a box with finite sides. -/
def enlarge (b : AABox2 K) (v : Vec2 K) : AABox2 K :=
  ⟨⟨if b.min.x > v.x then v.x else b.min.x, if b.min.y > v.y then v.y else b.min.y⟩,
   ⟨if b.max.x < v.x then v.x else b.max.x, if b.max.y < v.y then v.y else b.max.y⟩⟩
end AABox2

namespace Box3
/-- `zBox3DXform`, src/zeo_elem3d_box.c:251-261. -/
def xform (b : Box3 K) (f : Frame3 K) : Box3 K :=
  ⟨b.span, ⟨f.xform b.frame.pos,
    ⟨f.att.mulVec b.frame.att.x, f.att.mulVec b.frame.att.y, f.att.mulVec b.frame.att.z⟩⟩⟩
/-- `zBox3DXformInv`, src/zeo_elem3d_box.c:264-274. -/
def xformInv (b : Box3 K) (f : Frame3 K) : Box3 K :=
  ⟨b.span, ⟨f.xformInv b.frame.pos,
    ⟨f.att.mulTVec b.frame.att.x, f.att.mulTVec b.frame.att.y, f.att.mulTVec b.frame.att.z⟩⟩⟩
/-- The point written by `zBox3DClosest`, src/zeo_elem3d_box.c:277-289 (`cp` distinct from `p`). -/
def closest (b : Box3 K) (p : Vec3 K) : Vec3 K :=
  let q := b.frame.xformInv p
  b.frame.xform ⟨zLimit q.x (-(1/2) * b.span.x) (1/2 * b.span.x),
    zLimit q.y (-(1/2) * b.span.y) (1/2 * b.span.y), zLimit q.z (-(1/2) * b.span.z) (1/2 * b.span.z)⟩
/-- `zBox3DPointIsInside`, src/zeo_elem3d_box.c:301-313. -/
def pointIsInside (b : Box3 K) (p : Vec3 K) (margin : K) : Prop :=
  let q := b.frame.xformInv p
  ¬ (q.x ≥ 1/2 * b.span.x + margin ∨ q.x ≤ -(1/2 * b.span.x + margin)) ∧
  ¬ (q.y ≥ 1/2 * b.span.y + margin ∨ q.y ≤ -(1/2 * b.span.y + margin)) ∧
  ¬ (q.z ≥ 1/2 * b.span.z + margin ∨ q.z ≤ -(1/2 * b.span.z + margin))
/-- `zBox3DVolume`, src/zeo_elem3d_box.c:316-319. -/
def volume (b : Box3 K) : K := b.span.x * b.span.y * b.span.z
/-- `zBox3DVert`, src/zeo_elem3d_box.c:345-352. -/
def vert (b : Box3 K) (i : ℕ) : Vec3 K :=
  b.frame.xform
    ⟨if (i.testBit 0).xor (i.testBit 1) then -(1/2) * b.span.x else 1/2 * b.span.x,
     if i.testBit 1 then -(1/2) * b.span.y else 1/2 * b.span.y,
     if i.testBit 2 then -(1/2) * b.span.z else 1/2 * b.span.z⟩
/-- `zBox3DToAABox3D`, src/zeo_elem3d_box.c:366-378. The infinite initial box makes the first
`zAABox3DEnlarge` set both corners to vertex 0; the remaining seven vertices enlarge it. -/
def toAABox (b : Box3 K) : AABox3 K :=
  ((List.range 7).map (fun i => b.vert (i + 1))).foldl AABox3.enlarge ⟨b.vert 0, b.vert 0⟩

/-- `_zColChkBox3DAlong`, src/zeo_col_box.c:247-259. -/
def colAlong (b1 : Box3 K) (axis : Fin 3) (b2 : Box3 K) (l : Vec3 K) : Prop :=
  let a := b1.frame.att.v axis
  let d := 1/2 * (|(b2.frame.att.v 0).inner a| * b2.span.x + |(b2.frame.att.v 1).inner a| * b2.span.y
    + |(b2.frame.att.v 2).inner a| * b2.span.z + b1.span.e axis)
  |l.inner a| < d
end Box3
end

noncomputable section

/-- `zAABox3DClosest`, src/zeo_elem3d_box.c:82-89: (return value, `*closestpoint`). -/
def AABox3.closestD (b : AABox3 ℝ) (p : Vec3 ℝ) : ℝ × Vec3 ℝ := (p.dist (b.closest p), b.closest p)
/-- `zAABox2DClosest`, src/zeo_elem2d_box.c:73-79: (return value, `*closestpoint`). -/
def AABox2.closestD (b : AABox2 ℝ) (p : Vec2 ℝ) : ℝ × Vec2 ℝ := (p.dist (b.closest p), b.closest p)
/-- `zAABox3DDistFromPoint`, include/zeo/zeo_elem3d_box.h:93. -/
def AABox3.distFromPoint (b : AABox3 ℝ) (p : Vec3 ℝ) : ℝ := Real.sqrt (b.sqrDistFromPoint p)
/-- `zBox3DClosest`, src/zeo_elem3d_box.c:277-291: (return value, `*cp`), `cp` distinct from `p`. -/
def Box3.closestD (b : Box3 ℝ) (p : Vec3 ℝ) : ℝ × Vec3 ℝ := (p.dist (b.closest p), b.closest p)
/-- `zBox3DDistFromPoint`, src/zeo_elem3d_box.c:294-298. -/
def Box3.distFromPoint (b : Box3 ℝ) (p : Vec3 ℝ) : ℝ := (b.closestD p).1

/-- `zBox3DCreate`, src/zeo_elem3d_box.c:208-220; `old` stands for the uninitialised locals
`ux uy uz` that are copied when an axis is too small to be normalized. -/
def Box3.create (τ : ℝ) (center ax ay az : Vec3 ℝ) (depth width height : ℝ) (old : Mat3 ℝ) : Box3 ℝ :=
  ⟨⟨|depth|, |width|, |height|⟩, ⟨center, ⟨(ax.normalize τ old.x).2, (ay.normalize τ old.y).2,
    (az.normalize τ old.z).2⟩⟩⟩

open Classical in
/-- `_zColChkBox3DPerp`, src/zeo_col_box.c:262-282. -/
def Box3.colPerp (τ : ℝ) (b1 : Box3 ℝ) (ax1 : Fin 3) (b2 : Box3 ℝ) (ax2 : Fin 3) (l : Vec3 ℝ) : Prop :=
  let p0 := (b1.frame.att.v ax1).outer (b2.frame.att.v ax2)
  if p0.isTol τ then True
  else
    let p := (p0.normalize τ p0).2
    let d := 1/2 * (|(b1.frame.att.v (ax1 + 1)).inner p| * b1.span.e (ax1 + 1)
      + |(b1.frame.att.v (ax1 + 2)).inner p| * b1.span.e (ax1 + 2)
      + |(b2.frame.att.v (ax2 + 1)).inner p| * b2.span.e (ax2 + 1)
      + |(b2.frame.att.v (ax2 + 2)).inner p| * b2.span.e (ax2 + 2))
    |l.inner p| < d

/-- `zColChkBox3D`, src/zeo_col_box.c:285-305. -/
def Box3.colChk (τ : ℝ) (b1 b2 : Box3 ℝ) : Prop :=
  let l := b1.frame.pos.sub b2.frame.pos
  ¬ (¬ b1.colAlong 0 b2 l ∨ ¬ b1.colAlong 1 b2 l ∨ ¬ b1.colAlong 2 b2 l ∨
     ¬ b2.colAlong 0 b1 l ∨ ¬ b2.colAlong 1 b1 l ∨ ¬ b2.colAlong 2 b1 l ∨
     ¬ b1.colPerp τ 0 b2 0 l ∨ ¬ b1.colPerp τ 1 b2 0 l ∨ ¬ b1.colPerp τ 2 b2 0 l ∨
     ¬ b1.colPerp τ 0 b2 1 l ∨ ¬ b1.colPerp τ 1 b2 1 l ∨ ¬ b1.colPerp τ 2 b2 1 l ∨
     ¬ b1.colPerp τ 0 b2 2 l ∨ ¬ b1.colPerp τ 1 b2 2 l ∨ ¬ b1.colPerp τ 2 b2 2 l)
end
end Zeo
