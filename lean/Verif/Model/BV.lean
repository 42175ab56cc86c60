import Verif.Model.Box
import Verif.Model.Data

/-! # Bounding boxes of point sets and the Minkowski difference

src/zeo_bv3d_aabb.c, src/zeo_bv2d_aabb.c, src/zeo_col_minkowski.c. -/

namespace Zeo
variable {K : Type*} [Field K] [LinearOrder K] [IsStrictOrderedRing K]

/-- `_zAABB3DTest` followed by the assignment of the witness, src/zeo_bv3d_aabb.c:10-21 and 28-30.
The state is the box and the six witnesses `vp[]` (0-2: maxima, 3-5: minima). -/
def AABox3.testInc (p : Vec3 K) (s : AABox3 K × (Fin 6 → Vec3 K)) (i : Fin 3) : AABox3 K × (Fin 6 → Vec3 K) :=
  if s.1.max.e i < p.e i then
    (⟨s.1.min, s.1.max.setE i (p.e i)⟩, Function.update s.2 ⟨i.1, by omega⟩ p)
  else if p.e i < s.1.min.e i then
    (⟨s.1.min.setE i (p.e i), s.1.max⟩, Function.update s.2 ⟨i.1 + 3, by omega⟩ p)
  else s

/-- `_zAABB3DInc`, src/zeo_bv3d_aabb.c:24-32. -/
def AABox3.inc (s : AABox3 K × (Fin 6 → Vec3 K)) (p : Vec3 K) : AABox3 K × (Fin 6 → Vec3 K) :=
  testInc p (testInc p (testInc p s 0) 1) 2

/-- `zVec3DDataAABB`, src/zeo_bv3d_aabb.c:35-53, with non-NULL `vp`: the box and the witnesses;
`none` is NULL (empty set). -/
def aabb3 (d : Data (Vec3 K)) : Option (AABox3 K × (Fin 6 → Vec3 K)) :=
  if d.isEmpty then none
  else
    match d.rewind.fetch with
    | (none, _) => none  -- dereference of NULL; excluded by the emptiness test
    | (some v, d') => some (d'.loop AABox3.inc (d.size + 1) (⟨v, v⟩, fun _ => v)).2

/-- `zVec3DDataAABBXform`, src/zeo_bv3d_aabb.c:56-75 (no witnesses; those carried here are unused). -/
def aabb3Xform (d : Data (Vec3 K)) (f : Frame3 K) : Option (AABox3 K) :=
  if d.isEmpty then none
  else
    match d.rewind.fetch with
    | (none, _) => none
    | (some v, d') =>
      some (d'.loop (fun s p => AABox3.inc s (f.xform p)) (d.size + 1) (⟨f.xform v, f.xform v⟩, fun _ => f.xform v)).2.1

/-- `_zAABB2DTest` followed by the assignment of the witness, src/zeo_bv2d_aabb.c:10-21 and 40-41. -/
def AABox2.testIncX (p : Vec2 K) (s : AABox2 K × (Fin 4 → Vec2 K)) : AABox2 K × (Fin 4 → Vec2 K) :=
  if s.1.max.x < p.x then (⟨s.1.min, ⟨p.x, s.1.max.y⟩⟩, Function.update s.2 0 p)
  else if p.x < s.1.min.x then (⟨⟨p.x, s.1.min.y⟩, s.1.max⟩, Function.update s.2 2 p)
  else s
/-- The same for the second coordinate. -/
def AABox2.testIncY (p : Vec2 K) (s : AABox2 K × (Fin 4 → Vec2 K)) : AABox2 K × (Fin 4 → Vec2 K) :=
  if s.1.max.y < p.y then (⟨s.1.min, ⟨s.1.max.x, p.y⟩⟩, Function.update s.2 1 p)
  else if p.y < s.1.min.y then (⟨⟨s.1.min.x, p.y⟩, s.1.max⟩, Function.update s.2 3 p)
  else s
/-- The body of the loop of `zVec2DDataAABB`, src/zeo_bv2d_aabb.c:39-42. -/
def AABox2.inc (s : AABox2 K × (Fin 4 → Vec2 K)) (p : Vec2 K) : AABox2 K × (Fin 4 → Vec2 K) :=
  testIncY p (testIncX p s)
/-- `zVec2DDataAABB`, src/zeo_bv2d_aabb.c:24-44. -/
def aabb2 (d : Data (Vec2 K)) : Option (AABox2 K × (Fin 4 → Vec2 K)) :=
  if d.isEmpty then none
  else
    match d.rewind.fetch with
    | (none, _) => none
    | (some v, d') => some (d'.loop AABox2.inc (d.size + 1) (⟨v, v⟩, fun _ => v)).2

/-- The inner loop of `zVec3DDataMinkowskiSub`, src/zeo_col_minkowski.c:20-23: the rest of `data2` is
fetched, and the differences with `v1` are added to `data`. -/
def minkowskiInner (st : Data (Vec3 K) × Data (Vec3 K)) (v1 : Vec3 K) : Data (Vec3 K) × Data (Vec3 K) :=
  st.1.loop (fun out v2 => (out.add (v1.sub v2)).2) (st.1.size + 1) st.2

/-- `zVec3DDataMinkowskiSub`, src/zeo_col_minkowski.c:10-28, up to the call of `zVec3DDataConvexHull`:
the point set handed to it. -/
def minkowskiSub (d1 d2 : Data (Vec3 K)) : Data (Vec3 K) :=
  (d1.forEach minkowskiInner (d2.rewind, Data.initArray Vec3.zero (d1.size * d2.size))).2.2

end Zeo
