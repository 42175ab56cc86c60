import Verif.Model.Octree

/-! # Several shapes from an octree: `zMultiShape3DFromOctree` -/

namespace Zeo
variable {K : Type*} [Field K] [LinearOrder K] [IsStrictOrderedRing K]

/-- `zShape3DBoxCreateFromAABox`, src/zeo_shape3d_box.c:183-189, with `zShape3DBoxCreateAlign`, lines 173-180, and
`zBox3DCreateAlign`, include/zeo/zeo_elem3d_box.h:216-217. -/
def Box3.fromAABox (a : AABox3 K) : Box3 K :=
  ⟨⟨a.max.x - a.min.x, a.max.y - a.min.y, a.max.z - a.min.z⟩, ⟨a.min.mid a.max, ⟨.ex, .ey, .ez⟩⟩⟩

/-- One shape made by `zMultiShape3DFromOctree`: its name, its box and the index of its optical information. -/
structure OctShape (K : Type*) where
  name : String
  box : Box3 K
  optic : ℕ

/-- The loop of `zMultiShape3DFromOctree`, src/zeo_multishape3d.c:206-214, from the counter `i`. -/
def octShapes : ℕ → List (AABox3 K) → List (OctShape K)
  | _, [] => []
  | i, a :: l => ⟨"box" ++ toString i, .fromAABox a, 0⟩ :: octShapes (i + 1) l

/-- `zMultiShape3DFromOctree`, src/zeo_multishape3d.c:177-222: the shapes and the optical information; `white` is
what `zOpticalInfoInit` makes, with the name `white`. Allocation is assumed to succeed. A list without boxes (the
warning of line 187) gives nothing. -/
def fromOctree {O : Type*} (white : O) (t : Oct K) (oi : Option O) : List (OctShape K) × List O :=
  if t.leafBoxes = [] then ([], []) else (octShapes 0 t.leafBoxes, [oi.getD white])

end Zeo
