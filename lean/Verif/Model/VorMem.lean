import Verif.Model.DelMem

/-! # The memory of the Voronoi diagram

`src/zeo_voronoi2d.c:278-408` on memory.  A list of Voronoi cells is the list of the blocks of the cells, each with the
blocks of the nodes of its loop.  Every allocation may fail.

Simplifications: those of `Model/DelMem.lean`; which Voronoi cell a node goes to is left open, too. -/

namespace Zeo
namespace VorMem

open Life OctMem DelMem

/-- A list of Voronoi cells: block and loop of every cell (include/zeo/zeo_voronoi2d.h:28-57). -/
abbrev VList := List (ℕ × List ℕ)

/-- The blocks of a list of Voronoi cells, in the order in which `zVoronoi2DListDestroy` frees them
(src/zeo_voronoi2d.c:300-309). -/
def blocks : VList → List ℕ
  | [] => []
  | v :: vl => v.2 ++ v.1 :: blocks vl

/-- `zVoronoi2DListDestroy`, src/zeo_voronoi2d.c:300-309. -/
def vdestroy (vl : VList) (h : Heap) : Option Heap := freeCells (blocks vl) h

/-- The loop of `_zVoronoi2DListInit`, src/zeo_voronoi2d.c:287-296: a point is inserted into the triangulation, and a
cell is allocated for it, which succeeds or not.  (value, triangles, Voronoi cells, memory). -/
def vinit : List (Step × Bool) → List ℕ → VList → Heap → Option (Bool × List ℕ × VList × Heap)
  | [], cells, vl, h => some (true, cells, vl, h)
  | (s, ok) :: ss, cells, vl, h =>
    match update s cells h with
    | none => none
    | some (false, cells, h) => some (false, cells, vl, h)
    | some (true, cells, h) =>
      if ok then vinit ss cells ((h.next, []) :: vl) ⟨insert h.next h.live, h.next + 1⟩
      else some (false, cells, vl, h)

/-- `_zVoronoi2DCellAddLoop`, src/zeo_voronoi2d.c:322-335: block `b` is put at the head of the loop of a cell. -/
def addNode (b : ℕ) : ℕ → VList → VList
  | _, [] => []
  | 0, v :: vl => (v.1, b :: v.2) :: vl
  | j + 1, v :: vl => v :: addNode b j vl

/-- `_zVoronoi2DListFromDelaunayTri2DList`, src/zeo_voronoi2d.c:354-376: the corners of the triangles one after
another, each with the Voronoi cell it belongs to (a number beyond the list: none, or no triangle behind the edge) and
whether the node can be allocated.  The loops are sorted afterwards, which moves cells only and is left out. -/
def nodes : List (ℕ × Bool) → VList → Heap → Bool × VList × Heap
  | [], vl, h => (true, vl, h)
  | (j, ok) :: ns, vl, h =>
    if j < vl.length then
      if ok then nodes ns (addNode h.next j vl) ⟨insert h.next h.live, h.next + 1⟩ else (false, vl, h)
    else nodes ns vl h

/-- `zVec2DDataVoronoiDiagram`, src/zeo_voronoi2d.c:394-408.  Whether the nodes were made is not looked at.  `none`
also if the outer triangle is not created. -/
def diagram (outer : Bool) (ss : List (Step × Bool)) (ns : List (ℕ × Bool)) (h : Heap) : Option (Bool × VList × Heap) :=
  if outer then
    (vinit ss [h.next] [] ⟨insert h.next h.live, h.next + 1⟩).bind fun r =>
      let n := if r.1 then (nodes ns r.2.2.1 r.2.2.2).2 else r.2.2
      (freeCells r.2.1 n.2).map fun h => (r.1, n.1, h)
  else none

end VorMem
end Zeo
