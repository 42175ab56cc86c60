import Verif.Model.DelMem

/-! # The memory of the boundary representation

`src/zeo_brep.c`, `src/zeo_brep_trunc.c` and `src/zeo_brep_bool.c` on memory.  A B-Rep is the blocks of the cells of
its three lists, taken together.  Every allocation may fail.

Simplifications: which vertices and edges are found, which faces are cut and how, and which cells are garbage is left
open: the operations take what happens to memory as an argument, and everything is allowed.  Coordinates and the
pointers between the cells are left out (they are in `Model/BRep.lean`). -/

namespace Zeo
namespace BRepMem

open Life OctMem DelMem

/-- What can happen to the memory of a B-Rep.
* `cell`: a cell is allocated and put into a list, or the function fails (src/zeo_brep.c:71-74,
  src/zeo_brep_trunc.c:35-38, 94-97, 113-116, src/zeo_brep_bool.c:25-28);
* `reg`: the same, but failure is not looked at (src/zeo_brep.c:75-78 with 29-32 and 56-59);
* `three`: three cells are allocated, or all that were allocated are freed and the function fails
  (src/zeo_brep_trunc.c:56-65);
* `drop`: a cell is taken from its list and freed (src/zeo_brep_trunc.c:160-162, 168-170, 189-191). -/
inductive Ev where
  | cell (ok : Bool)
  | reg (ok : Bool)
  | three (a b c : Bool)
  | drop (i : ℕ)

/-- One event: (the function goes on, the cells, memory). -/
def ev : Ev → List ℕ → Heap → Option (Bool × List ℕ × Heap)
  | .cell ok, c, h => let r := addTri ok (c, h); some (ok, r.2)
  | .reg ok, c, h => let r := addTri ok (c, h); some (true, r.2)
  | .three x y z, c, h =>
    let r := (addTri z (addTri y (addTri x ([], h)).2).2).2
    if x && y && z then some (true, r.1 ++ c, r.2) else (freeCells r.1 r.2).map fun h => (false, c, h)
  | .drop i, c, h =>
    match c[i]? with
    | none => some (true, c, h)
    | some b => (freeBlk h b).map fun h => (true, c.erase b, h)

/-- Events one after another until one fails: `zBREPTrunc` and `zBREPTruncPH3D` (src/zeo_brep_trunc.c:214-239), which
leave the B-Rep as it is when they fail. -/
def evs : List Ev → List ℕ → Heap → Option (Bool × List ℕ × Heap)
  | [], c, h => some (true, c, h)
  | e :: es, c, h =>
    match ev e c h with
    | some (true, c, h) => evs es c h
    | r => r

/-- `zPH3D2BREP` and `zPH3D2BREPInBox`, src/zeo_brep.c:90-124, with `_zBREPFaceInsert` (lines 66-82): the B-Rep is
destroyed (lines 152-157) if a face cannot be allocated. -/
def conv (es : List Ev) (h : Heap) : Option (Bool × List ℕ × Heap) :=
  match evs es [] h with
  | some (false, c, h) => (freeCells c h).map fun h => (false, [], h)
  | r => r

/-- `zBREPMerge`, src/zeo_brep_bool.c:10-62: new edges of the target (`es`), after which the cells of the other B-Rep
are moved (`keep`) or freed.  (value, target, other, memory). -/
def merge (es : List Ev) (keep : ℕ → Bool) (t s : List ℕ) (h : Heap) : Option (Bool × List ℕ × List ℕ × Heap) :=
  (evs es t h).bind fun r =>
    if r.1 then (freeCells (s.filter fun x => !keep x) r.2.2).map fun h => (true, s.filter keep ++ r.2.1, [], h)
    else some (false, r.2.1, s, r.2.2)

/-- `zBREP2PH3D`, src/zeo_brep.c:127-149: the two arrays of the polyhedron, or none of them (`zPH3DAlloc`,
src/zeo_ph3d.c:33-48). -/
def toPH (ok : Bool) (h : Heap) : List ℕ × Heap :=
  if ok then ([h.next + 1, h.next], ⟨insert (h.next + 1) (insert h.next h.live), h.next + 2⟩) else ([], h)

/-- `zPH3DTruncBREP`, src/zeo_brep_bool.c:65-74: (not NULL, the arrays of `dest`, memory). -/
def phTrunc (e t : List Ev) (ok : Bool) (h : Heap) : Option (Bool × List ℕ × Heap) :=
  (conv e h).bind fun r1 => if !r1.1 then some (false, [], r1.2.2) else
  (evs t r1.2.1 r1.2.2).bind fun r2 => if !r2.1 then some (false, [], r2.2.2) else
  let d := toPH ok r2.2.2
  if !ok then some (false, [], d.2) else
  (freeCells r2.2.1 d.2).map fun h => (true, d.1, h)

/-- `zIntersectPH3DBREP`, src/zeo_brep_bool.c:77-89, and `zIntersectPH3DBREPFast` (lines 92-107) once the box is
found. -/
def inter (e1 e2 t1 t2 m : List Ev) (keep : ℕ → Bool) (ok : Bool) (h : Heap) : Option (Bool × List ℕ × Heap) :=
  (conv e1 h).bind fun r1 => if !r1.1 then some (false, [], r1.2.2) else
  (conv e2 r1.2.2).bind fun r2 => if !r2.1 then some (false, [], r2.2.2) else
  (evs t1 r1.2.1 r2.2.2).bind fun r3 => if !r3.1 then some (false, [], r3.2.2) else
  (evs t2 r2.2.1 r3.2.2).bind fun r4 => if !r4.1 then some (false, [], r4.2.2) else
  (merge m keep r3.2.1 r4.2.1 r4.2.2).bind fun r5 => if !r5.1 then some (false, [], r5.2.2.2) else
  let d := toPH ok r5.2.2.2
  if !ok then some (false, [], d.2) else
  ((freeCells r5.2.1 d.2).bind (freeCells r5.2.2.1)).map fun h => (true, d.1, h)

end BRepMem
end Zeo
