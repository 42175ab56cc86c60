import Verif.Model.OctMem

/-! # The memory of datasets of vectors

`include/zeo/zeo_vecxd_data.h` on memory: the header of the array or list a dataset makes for itself, the buffer of
the array or the cells of the list, and what belongs to the caller.

Allocation may fail at any call; which calls fail is part of the sequence of operations.  Simplification: coordinates
are left out, so that adding to an array (which has its memory from the start) changes nothing here. -/

namespace Zeo
namespace DataMem

open Life OctMem

/-- The tables of methods (include/zeo/zeo_vecxd_data.h:121-330).  The three tables for arrays, lists and lists of
addresses of the caller differ in nothing that concerns memory. -/
inductive Meth | dummy | array | direct | list | ref
deriving DecidableEq

/-- A dataset (include/zeo/zeo_vecxd_data.h:40-58): the method, the header, and the blocks the header points to, which
are the buffer or the cells; for `direct` and `ref` they belong to the caller. -/
structure D where
  meth : Meth
  hd : ℕ
  bufs : List ℕ

/-- The constructor (include/zeo/zeo_vecxd_data.h:598). -/
def D.ctor : D := ⟨.dummy, 0, []⟩

/-- `zVecXDDataDestroy` (include/zeo/zeo_vecxd_data.h:101) with the methods of each kind (113, 132-136, 169-173,
185-189, 216-220, 246-249, 277-280, 305-308); also the destructor (604). -/
def destroy (d : D) (h : Heap) : Option (D × Heap) :=
  match d.meth with
  | .dummy => some (d, h)
  | .array => ((freeCells d.bufs h).bind fun h => freeBlk h d.hd).map fun h => (⟨.dummy, 0, []⟩, h)
  | .direct => (freeBlk h d.hd).map fun h => (⟨.dummy, 0, []⟩, h)
  | .list => ((freeCells d.bufs h).bind fun h => freeBlk h d.hd).map fun h => (⟨.dummy, 0, []⟩, h)
  | .ref => some (⟨.dummy, 0, []⟩, h)

/-- What is done to a dataset. -/
inductive Op where
  /-- `zVecXDDataInitArray` with a capacity. -/
  | initArray (n : ℕ)
  /-- `zVecXDDataInitList` and `zVecXDDataInitAddrList`. -/
  | initList
  /-- `zVecXDDataAssignArrayDirect`; `none` for a null pointer or no capacity. -/
  | assignDirect (v : Option ℕ)
  /-- `zVecXDDataAssignArray`, `zVecXDDataAssignList` and `zVecXDDataAssignAddrList`; `none` for a null pointer. -/
  | assign (v : Option ℕ)
  /-- `zVecXDDataAdd`. -/
  | add
  /-- One of the four functions that make a header, if there is no memory for the header. -/
  | noHeader
  /-- `zVecXDDataInitArray`, if there is no memory for the buffer or the capacity is negative. -/
  | noBuffer
  /-- `zVecXDDataAdd`, if there is no memory for the cell. -/
  | noCell
  /-- `zVecXDDataDestroy`. -/
  | destroy

/-- One operation (include/zeo/zeo_vecxd_data.h:334-353, 356-369, 372-385, 388-406, 409-421, 424-436, 439-451; adding:
117, 140-146, 193, 225).  None of those that initialise or assign looks at what the dataset was before. -/
def Op.run : Op → D → Heap → Option (D × Heap)
  | .initArray 0, _, h => some (⟨.array, h.next, []⟩, ⟨insert h.next h.live, h.next + 1⟩)
  | .initArray (_ + 1), _, h =>
    some (⟨.array, h.next, [h.next + 1]⟩, ⟨insert (h.next + 1) (insert h.next h.live), h.next + 1 + 1⟩)
  | .initList, _, h => some (⟨.list, h.next, []⟩, ⟨insert h.next h.live, h.next + 1⟩)
  | .assignDirect none, d, h => some (⟨.dummy, d.hd, d.bufs⟩, h)
  | .assignDirect (some v), _, h => some (⟨.direct, h.next, [v]⟩, ⟨insert h.next h.live, h.next + 1⟩)
  | .assign none, _, h => some (⟨.dummy, 0, []⟩, h)
  | .assign (some v), _, h => some (⟨.ref, 0, [v]⟩, h)
  | .add, d, h =>
    match d.meth with
    | .list => some (⟨.list, d.hd, h.next :: d.bufs⟩, ⟨insert h.next h.live, h.next + 1⟩)
    | _ => some (d, h)
  | .noHeader, _, h => some (⟨.dummy, 0, []⟩, h)
  | .noBuffer, _, h =>
    (freeBlk ⟨insert h.next h.live, h.next + 1⟩ h.next).map fun h => (⟨.dummy, 0, []⟩, h)
  | .noCell, d, h => some (d, h)
  | .destroy, d, h => DataMem.destroy d h

/-- One operation after another, and the destructor at last. -/
def life : List Op → D → Heap → Option Heap
  | [], d, h => (DataMem.destroy d h).map Prod.snd
  | o :: os, d, h => (o.run d h).bind fun r => life os r.1 r.2

/-- What `zMultiShape3DBoundingBall` does with its local dataset (src/zeo_multishape3d.c:131-174): the list is
initialised, which may fail unnoticed; `n` vertices are added; if then one cannot be added the dataset is destroyed
by `zMultiShape3DVertData`; and it is destroyed at the end in any case, which is what `life` does. -/
def ballOps (header : Bool) (n : ℕ) (cell : Bool) : List Op :=
  (if header then .initList else .noHeader) :: List.replicate n .add ++ if cell then [] else [.noCell, .destroy]

/-- Samples are added to both lists of `zVec3DDataICP` (src/zeo_vec3d_profile.c:152-158). -/
def addBoth : ℕ → D → D → Heap → Option (D × D × Heap)
  | 0, a, b, h => some (a, b, h)
  | n + 1, a, b, h =>
    (Op.add.run a h).bind fun r => (Op.add.run b r.2).bind fun s => addBoth n r.1 s.1 s.2

/-- One iteration up to the test of the error, with `n` samples (src/zeo_vec3d_profile.c:148-158). -/
def icpIter (n : ℕ) (a b : D) (h : Heap) : Option (D × D × Heap) :=
  (Op.initList.run a h).bind fun r => (Op.initList.run b r.2).bind fun s => addBoth n r.1 s.1 s.2

/-- The loop of `zVec3DDataICP` (src/zeo_vec3d_profile.c:147-163) on memory: the numbers of samples of the iterations
that go on, and that of the one in which the error is small enough, unless all iterations are used up.  The tree is left
out, and allocation succeeds.  The datasets are local variables of C: nothing is done with them when they go. -/
def icpMem : List ℕ → Option ℕ → D → D → Heap → Option Heap
  | [], none, _, _, h => some h
  | [], some n, a, b, h => (icpIter n a b h).map fun r => r.2.2
  | n :: ns, l, a, b, h =>
    (icpIter n a b h).bind fun r => (destroy r.1 r.2.2).bind fun s => (destroy r.2.1 s.2).bind fun u =>
      icpMem ns l s.1 u.1 u.2

end DataMem
end Zeo
