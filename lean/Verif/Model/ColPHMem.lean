import Verif.Model.ColPH
import Verif.Model.DataMem

/-! # The memory of the intersection of polyhedra

What `zIntersectPH3D` does with its local variables `ch`, `data1` and `data2` (src/zeo_col_ph.c:74-133).  The memory
inside of `zVec3DDataConvexHull` and of the polyhedra is left out. -/

namespace Zeo

noncomputable section

/-- Is the local polyhedron `ch` initialised when `TERMINATE` is reached, where it is destroyed
(src/zeo_col_ph.c:102-130)?  `none`: the function returns before (`mem`: is there memory for the array?).  A jump to
`TERMINATE` out of the first two loops (107-116) finds `ch` as it was on the stack; `zVec3DDataConvexHull` (118)
initialises it before anything else (src/zeo_bv3d_convexhull.c:506). -/
def IPH.chAtEnd (mem : Bool) (ph1 ph2 : PH ℝ) (p old : Vec3 ℝ) : Option Bool :=
  if mem then
    some (IPH.fill (fun t => IPH.dualXformA t p old) (ph1.face.map ph1.tri ++ ph2.face.map ph2.tri) .zero
      (Data.initArray .zero (ph1.face.length + ph2.face.length))).isSome
  else none

end

namespace DataMem

/-- How far `zIntersectPH3D` comes. -/
inductive Reach where
  /-- It returns at 88 or 95, before the array is destroyed. -/
  | base
  /-- There is no memory for the array (103); `b`: for its header. -/
  | first (b : Bool)
  /-- It leaves after `k` points of the first array of capacity `n` (109, 114, 118). -/
  | hull (n k : ℕ)
  /-- There is no memory for the second array (121). -/
  | second (n k : ℕ) (b : Bool)
  /-- It leaves after `j` points of the second array of capacity `m` (123, 127). -/
  | last (n k m j : ℕ)

/-- What is done with `data1` (src/zeo_col_ph.c:84-131); `v` is the array of vertices of the first polyhedron.  The
destruction at the end is that of `life`; where the function returns before it the dataset has no memory of its own. -/
def interOps (v : ℕ) : Reach → List Op
  | .base => [.assign (some v)]
  | .first b => [.assign (some v), .destroy, if b then .noBuffer else .noHeader]
  | .hull n k => [.assign (some v), .destroy, .initArray n] ++ List.replicate k .add
  | .second n k b => [.assign (some v), .destroy, .initArray n] ++ List.replicate k .add ++
      [.destroy, if b then .noBuffer else .noHeader]
  | .last n k m j => [.assign (some v), .destroy, .initArray n] ++ List.replicate k .add ++
      ([.destroy, .initArray m] ++ List.replicate j .add)

end DataMem
end Zeo
