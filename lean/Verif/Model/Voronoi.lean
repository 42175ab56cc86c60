import Verif.Model.Delaunay

/-! # Voronoi diagrams in the plane: src/zeo_voronoi2d.c:276-406

The list of cells and the loop of a cell are given from the tail to the head, which is the order of `zListForEach`. Memory
allocation succeeds. -/

namespace Zeo.Del
noncomputable section
open Classical

/-- `zVoronoi2DLoop`, include/zeo/zeo_voronoi2d.h:45-49: `t[0]`, `t[1]` and `node`. -/
structure LoopCell where
  t0 : ℕ
  t1 : ℕ
  node : Vec2 ℝ

/-- `zVoronoi2DData`, include/zeo/zeo_voronoi2d.h:52-56. -/
structure VCell where
  seed : ℕ
  loop : List LoopCell

/-- `_zVoronoi2DListFind`, src/zeo_voronoi2d.c:313-320, followed by `_zVoronoi2DCellAddLoop`, src/zeo_voronoi2d.c:323-336, on
the cell found; nothing is done without one. -/
def addLoop : List VCell → ℕ → LoopCell → List VCell
  | [], _, _ => []
  | c :: l, p, x => if c.seed = p then { c with loop := c.loop ++ [x] } :: l else c :: addLoop l p x

/-- `_zVoronoi2DListFromDelaunayTri2D`, src/zeo_voronoi2d.c:354-361. -/
def addTri (h : Heap) (vl : List VCell) (t : ℕ) (i : Fin 3) (node : Vec2 ℝ) : List VCell :=
  match (h t).adj i with
  | none => vl
  | some a => addLoop vl ((h t).v i) ⟨t, a, node⟩

/-- The loop of `_zVoronoi2DListFromDelaunayTri2DList`, src/zeo_voronoi2d.c:369-374. `none`: a circumcenter is not a number. -/
def addTris (pos : ℕ → Vec2 ℝ) (h : Heap) : List ℕ → List VCell → Option (List VCell)
  | [], vl => some vl
  | t :: l, vl =>
    if divisor (pos ((h t).v 0)) (pos ((h t).v 1)) (pos ((h t).v 2)) = 0 then none
    else
      let node := Tri2.circumcenter (pos ((h t).v 0)) (pos ((h t).v 1)) (pos ((h t).v 2))
      addTris pos h l (addTri h (addTri h (addTri h vl t 0 node) t 1 node) t 2 node)

/-- The inner loop of `_zVoronoi2DListLoopClose`, src/zeo_voronoi2d.c:346-350: `pre ++ suf` is the part of the list after `lc1`,
and `lc2` is the first one of `suf`. After the move of `lc2` the loop goes on with the cell that then follows it. `none`: more
than `fuel` rounds. -/
def closeInner (lc1 : LoopCell) : ℕ → List LoopCell → List LoopCell → Option (List LoopCell)
  | _, pre, [] => some pre
  | 0, _, _ :: _ => none
  | fuel + 1, pre, lc2 :: suf =>
    if lc2.t0 = lc1.t1 then closeInner lc1 fuel [lc2] (pre ++ suf) else closeInner lc1 fuel (pre ++ [lc2]) suf

/-- The middle loop of `_zVoronoi2DListLoopClose`, src/zeo_voronoi2d.c:345, for a list of the given length. -/
def closeLoop (fuel : ℕ) : ℕ → List LoopCell → Option (List LoopCell)
  | 0, l => some l
  | _ + 1, [] => some []
  | n + 1, lc1 :: l => (closeInner lc1 fuel [] l).bind fun r => (closeLoop fuel n r).map (lc1 :: ·)

/-- `_zVoronoi2DListLoopClose`, src/zeo_voronoi2d.c:339-351. -/
def closeAll (fuel : ℕ) : List VCell → Option (List VCell)
  | [] => some []
  | c :: l => (closeLoop fuel c.loop.length c.loop).bind fun r => (closeAll fuel l).map ({ c with loop := r } :: ·)

/-- `zVec2DDataVoronoiDiagram`, src/zeo_voronoi2d.c:394-406, with `_zVoronoi2DListInit`, src/zeo_voronoi2d.c:279-298, and
`_zVoronoi2DListFromDelaunayTri2DList`, src/zeo_voronoi2d.c:364-377. `some none`: false is returned. The pointers `t[0]`, `t[1]`
are left although the triangles are destroyed. -/
def voronoi (τ : ℝ) (fuel : ℕ) (d : Data (Vec2 ℝ)) : Option (Option (List VCell)) :=
  match build τ fuel d with
  | none => none
  | some (_, none) => some none
  | some (b, some s) =>
    let xs := d.toAddrList
    let vl := ((List.range xs.length).map (· + 3)).map fun p => (⟨p, []⟩ : VCell)
    ((addTris (posOf b xs) s.heap s.list vl).bind fun vl => closeAll fuel vl).map some

end
end Zeo.Del
