import Verif.Model.Life
import Mathlib.Data.Fintype.Basic
import Mathlib.Logic.Function.Basic
import Mathlib.Data.List.FinRange

/-! # The memory of octrees

`src/zeo_vec3d_octree.c` on memory.  An octant is the block it lies in, the blocks of the cells of its list of
points, and what its eight pointers point to.  Suboctants are reached through their parents only, so that the tree
of blocks is kept as a tree.  The root is a member of the octree and not a block of its own; its block number is not
used.

Allocation may fail at any call (`addFail`, `splitFail`).  Simplifications: which suboctant a point goes to, and which octants are smallest, is left open:
the operations take the path of suboctants, and all paths are allowed.  Coordinates and normals are left out. -/

namespace Zeo
namespace OctMem

open Life

/-- What a pointer to an octant points to (include/zeo/zeo_vec3d_octree.h:16-24): nothing, or an octant in block `blk`
with the blocks of its cells and its suboctants. -/
inductive MOct where
  | nil
  | node (blk : ℕ) (cells : List ℕ) (sub : Fin 8 → MOct)

/-- An octree is initialised (src/zeo_vec3d_octree.c:18-31, 217-223): no suboctants, no points. -/
def MOct.init : MOct := .node 0 [] fun _ => .nil

/-- `free` of a block: undefined if the block is not allocated. -/
def freeBlk (h : Heap) (b : ℕ) : Option Heap :=
  if b ∈ h.live then some ⟨h.live.erase b, h.next⟩ else none

/-- `zVec3DListDestroy`: every cell is freed, and the list is empty afterwards. -/
def freeCells : List ℕ → Heap → Option Heap
  | [], h => some h
  | c :: cs, h => (freeBlk h c).bind (freeCells cs)

/-- What `_zVec3DOctantDestroy` does with one of the pointers (src/zeo_vec3d_octree.c:39-41): the octant behind it is
destroyed, which reads it, and freed.  `free( NULL )` does nothing. -/
def release : MOct → Heap → Option Heap
  | .nil, h => some h
  | .node b cells sub, h =>
    if b ∈ h.live then
      (((List.finRange 8).foldlM (fun h i => release (sub i) h) h).bind (freeCells cells)).bind fun h => freeBlk h b
    else none

/-- `_zVec3DOctantDestroy` and `zVec3DOctreeDestroy` (src/zeo_vec3d_octree.c:34-44, 242-245).  The list of points is
empty afterwards; the pointers to the suboctants are left as they are. -/
def destroy : MOct → Heap → Option (MOct × Heap)
  | .nil, _ => none
  | .node b cells sub, h =>
    (((List.finRange 8).foldlM (fun h i => release (sub i) h) h).bind (freeCells cells)).map fun h =>
      (.node b [] sub, h)

/-- `_zVec3DOctantAllocSuboctant` (src/zeo_vec3d_octree.c:47-70): the suboctant, allocated if there is none. -/
def allocSub (t : MOct) (h : Heap) : MOct × Heap :=
  match t with
  | .nil => (.node h.next [] fun _ => .nil, ⟨insert h.next h.live, h.next + 1⟩)
  | t => (t, h)

/-- `_zVec3DOctantAddPoint` (src/zeo_vec3d_octree.c:83-91), along the path of suboctants the point belongs to. -/
def add : List (Fin 8) → MOct → Heap → Option (MOct × Heap)
  | _, .nil, _ => none
  | [], .node b cells sub, h => some (.node b (h.next :: cells) sub, ⟨insert h.next h.live, h.next + 1⟩)
  | i :: p, .node b cells sub, h =>
    let s := allocSub (sub i) h
    (add p s.1 s.2).map fun r => (.node b cells (Function.update sub i r.1), r.2)

/-- `_zVec3DOctantAddPoint` (src/zeo_vec3d_octree.c:83-91), if memory runs out: the suboctants of a path are allocated
where there are none, and the next suboctant or the cell is not. -/
def addFail : List (Fin 8) → MOct → Heap → Option (MOct × Heap)
  | _, .nil, _ => none
  | [], .node b cells sub, h => some (.node b cells sub, h)
  | i :: p, .node b cells sub, h =>
    let s := allocSub (sub i) h
    (addFail p s.1 s.2).map fun r => (.node b cells (Function.update sub i r.1), r.2)

/-- The cells of an octant are moved to its suboctants (src/zeo_vec3d_octree.c:130-134), one after another. -/
def moveCells (c : ℕ → Fin 8) : List ℕ → (Fin 8 → MOct) → Heap → (Fin 8 → MOct) × Heap
  | [], sub, h => (sub, h)
  | x :: xs, sub, h =>
    match allocSub (sub (c x)) h with
    | (.nil, h') => (sub, h')
    | (.node b cells s, h') => moveCells c xs (Function.update sub (c x) (.node b (x :: cells) s)) h'

/-- One octant of `_zVec3DOctantDivide` (src/zeo_vec3d_octree.c:114-138). -/
def split (c : ℕ → Fin 8) : MOct → Heap → Option (MOct × Heap)
  | .nil, _ => none
  | .node b cells sub, h => let r := moveCells c cells sub h; some (.node b [] r.1, r.2)

/-- One octant of `_zVec3DOctantDivide` (src/zeo_vec3d_octree.c:130-133), if memory runs out: `n` cells are moved, and
there is no memory for the suboctant of the next one, which is no longer in the list of the octant.  (Whether that
suboctant is there already, so that nothing has to be allocated, is not looked at.) -/
def splitFail (c : ℕ → Fin 8) (n : ℕ) : MOct → Heap → Option (MOct × Heap)
  | .nil, _ => none
  | .node b cells sub, h => let r := moveCells c (cells.take n) sub h; some (.node b (cells.drop (n + 1)) r.1, r.2)

/-- `_zVec3DOctantMergeSuboctant` (src/zeo_vec3d_octree.c:141-148) where there is a suboctant: its cells are appended
to those of the octant, it is destroyed and freed, and the pointer is `NULL`. -/
def mergeSub (t : MOct) (i : Fin 8) (h : Heap) : Option (MOct × Heap) :=
  match t with
  | .nil => none
  | .node b cells sub =>
    match sub i with
    | .nil => some (.node b cells sub, h)
    | .node b' cells' sub' =>
      (release (.node b' [] sub') h).map fun h => (.node b (cells ++ cells') (Function.update sub i .nil), h)

/-- The suboctants of one octant in `_zVec3DOctantMerge` and `_zVec3DOctantUnify`
(src/zeo_vec3d_octree.c:159-161, 180-181). -/
def merge (t : MOct) (h : Heap) : Option (MOct × Heap) :=
  (List.finRange 8).foldlM (fun r i => mergeSub r.1 i r.2) (t, h)

/-- An operation on the octant at the end of a path; nothing is done if there is none. -/
def atPath (f : MOct → Heap → Option (MOct × Heap)) : List (Fin 8) → MOct → Heap → Option (MOct × Heap)
  | _, .nil, h => some (.nil, h)
  | [], .node b cells sub, h => f (.node b cells sub) h
  | i :: p, .node b cells sub, h =>
    (atPath f p (sub i) h).map fun r => (.node b cells (Function.update sub i r.1), r.2)

/-- The operations that change the memory of an octree: points are added, with success or not, octants are divided,
suboctants are merged.
`zVec3DOctreeAddData`, `zVec3DOctreeChangeResolution` and `zVec3DOctreeUnifyOctant` are sequences of them. -/
inductive Op where
  | add (p : List (Fin 8))
  | addFail (p : List (Fin 8))
  | split (p : List (Fin 8)) (c : ℕ → Fin 8)
  | merge (p : List (Fin 8))

/-- One operation. -/
def Op.run : Op → MOct → Heap → Option (MOct × Heap)
  | .add p, t, h => OctMem.add p t h
  | .addFail p, t, h => OctMem.addFail p t h
  | .split p c, t, h => atPath (OctMem.split c) p t h
  | .merge p, t, h => atPath OctMem.merge p t h

/-- One operation after another. -/
def runs : List Op → MOct → Heap → Option (MOct × Heap)
  | [], t, h => some (t, h)
  | o :: os, t, h => (o.run t h).bind fun r => runs os r.1 r.2

end OctMem
end Zeo
