import Verif.Model.OctMem

/-! # The memory of the Delaunay triangulation

`src/zeo_voronoi2d.c:62-225` on memory.  The list of triangles is the list of the blocks of its cells, the head first;
the stack of edges likewise.  Every allocation may fail.

Simplifications: which triangle is found, whether an edge has a triangle behind it, which edges are flipped and which
triangles have a corner of the outer one is left open: the operations take it as an argument, and everything is
allowed.  The pointers of triangles to their neighbours are left out (they are in `Model/Delaunay.lean`). -/

namespace Zeo
namespace DelMem

open Life OctMem

/-- What happens when a point is inserted: the place of the triangle that is found, which of the three triangles can
be allocated, the three pushes (`none`: no triangle behind the edge; otherwise whether the cell can be allocated), and
the two pushes of every pair that is taken from the stack. -/
structure Step where
  k : Option ℕ
  a1 : Bool
  a2 : Bool
  a3 : Bool
  push : Option Bool × Option Bool × Option Bool
  flips : List (Option Bool × Option Bool)

/-- `_zDelaunayTri2DListAdd`, src/zeo_voronoi2d.c:73-83: (the new cell, the list, memory). -/
def addTri (ok : Bool) (r : List ℕ × Heap) : Option ℕ × List ℕ × Heap :=
  if ok then (some r.2.next, r.2.next :: r.1, ⟨insert r.2.next r.2.live, r.2.next + 1⟩) else (none, r)

/-- `zFree`: nothing for NULL. -/
def freeOpt (t : Option ℕ) (h : Heap) : Option Heap :=
  match t with
  | none => some h
  | some b => freeBlk h b

/-- `_zDelaunayPair2DStackPush`, src/zeo_voronoi2d.c:107-120, called one after another until one fails (lines 146,
208-210): (all succeeded, the stack, memory). -/
def pushAll : List (Option Bool) → List ℕ → Heap → Bool × List ℕ × Heap
  | [], st, h => (true, st, h)
  | none :: l, st, h => pushAll l st h
  | some true :: l, st, h => pushAll l (h.next :: st) ⟨insert h.next h.live, h.next + 1⟩
  | some false :: _, st, h => (false, st, h)

/-- `_zDelaunay2DLegalize`, src/zeo_voronoi2d.c:150-159: a pair is taken from the stack, up to two are pushed, and its
cell is freed.  Failure to push is not looked at.  When `flips` is used up, nothing is pushed any more. -/
def legal : List (Option Bool × Option Bool) → List ℕ → Heap → Option Heap
  | [], st, h => freeCells st h
  | _ :: _, [], h => some h
  | q :: qs, c :: st, h =>
    let r := pushAll [q.1, q.2] st h
    (freeBlk r.2.2 c).bind fun h => legal qs r.2.1 h

/-- `_zDelaunay2DUpdate`, src/zeo_voronoi2d.c:183-216: (the value, the list, memory). -/
def update (s : Step) (cells : List ℕ) (h : Heap) : Option (Bool × List ℕ × Heap) :=
  match s.k.bind (cells[·]?) with
  | none => some (false, cells, h)
  | some tc =>
    let r1 := addTri s.a1 (cells.erase tc, h)
    let r2 := addTri s.a2 r1.2
    let r3 := addTri s.a3 r2.2
    if s.a1 && s.a2 && s.a3 then
      (freeBlk r3.2.2 tc).bind fun h =>
        let p := pushAll [s.push.1, s.push.2.1, s.push.2.2] [] h
        if p.1 then (legal s.flips p.2.1 p.2.2).map fun h => (true, r3.2.1, h)
        else (freeCells p.2.1 p.2.2).map fun h => (false, r3.2.1, h)
    else
      ((((freeOpt r1.1 r3.2.2).bind (freeOpt r2.1)).bind (freeOpt r3.1)).bind fun h => freeBlk h tc).map fun h =>
        (false, r3.2.1, h)

/-- The loop over the points, src/zeo_voronoi2d.c:242-243. -/
def run : List Step → List ℕ → Heap → Option (Bool × List ℕ × Heap)
  | [], cells, h => some (true, cells, h)
  | s :: ss, cells, h =>
    match update s cells h with
    | some (true, cells, h) => run ss cells h
    | r => r

/-- `zVec2DDataDelaunayTriangulate`, src/zeo_voronoi2d.c:236-246, with `_zDelaunay2DCreateOuter` (lines 162-180) and
`_zDelaunay2DPurgeOuter` (lines 219-233), which keeps the triangles of `keep`.  `none` also if the outer triangle is
not created: the list is then not initialised, which is not looked at. -/
def triangulate (outer : Bool) (ss : List Step) (keep : ℕ → Bool) (h : Heap) : Option (Bool × List ℕ × Heap) :=
  if outer then
    match run ss [h.next] ⟨insert h.next h.live, h.next + 1⟩ with
    | some (true, cells, h) => (freeCells (cells.filter fun x => !keep x) h).map fun h => (true, cells.filter keep, h)
    | r => r
  else none

end DelMem
end Zeo
