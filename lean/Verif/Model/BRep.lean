import Verif.Model.Intersect
import Verif.Model.PH
import Verif.Model.BV

/-! # Boundary representation

src/zeo_brep.c, src/zeo_brep_trunc.c, src/zeo_brep_bool.c.

Cells of the vertex and edge lists are referred to by pointers in the code.  Here a cell is a number; the
contents of the cells are the functions `vert` and `edge`, the lists `vlist` and `elist` say which cells are
alive and in which order `zListForEach` visits them (from the tail to the head: `zListInsertHead` puts a cell
at the end of the order, `zListInsertTail` at the beginning).  `nv`, `ne` are the numbers of the next cells
to be allocated; allocation always succeeds.

The member `_p` of a vertex is set by every function that reads it before it is read (src/zeo_brep.c:137,
src/zeo_brep_trunc.c:143 and 148, src/zeo_brep_bool.c:18), so it is not part of the state.  The member `norm`
of a face is written only (src/zeo_brep.c:79, "to be used") and is left out. -/

namespace Zeo
noncomputable section
open Classical

/-- `zBREPVert`, include/zeo/zeo_brep.h:20-24: position and signed distance `_d` from the cutting plane. -/
structure BVert where
  p : Vec3 ℝ
  d : ℝ
/-- `zBREPEdge`, include/zeo/zeo_brep.h:43-46: end points, and `_v` (`none` = NULL). -/
structure BEdge where
  v0 : ℕ
  v1 : ℕ
  x : Option ℕ
/-- `zBREPFace`, include/zeo/zeo_brep.h:65-69. -/
structure BFace where
  v : Fin 3 → ℕ
  e : Fin 3 → ℕ
/-- `zBREP`, include/zeo/zeo_brep.h:77-81, with the memory of the cells. -/
structure BRep where
  vert : ℕ → BVert
  edge : ℕ → BEdge
  vlist : List ℕ
  elist : List ℕ
  flist : List BFace
  nv : ℕ
  ne : ℕ

namespace BRep

/-- Position of a vertex cell. -/
def pos (b : BRep) (i : ℕ) : Vec3 ℝ := (b.vert i).p
/-- Signed distance stored in a vertex cell. -/
def dist (b : BRep) (i : ℕ) : ℝ := (b.vert i).d

/-- Allocation of a vertex cell that is inserted at the head of `vlist`. -/
def newVert (b : BRep) (v : BVert) : BRep :=
  { b with vert := Function.update b.vert b.nv v, vlist := b.vlist ++ [b.nv], nv := b.nv + 1 }
/-- Allocation of an edge cell by `zBREPEdgeListCellInit` (include/zeo/zeo_brep.h:49-53) that is inserted at
the head of `elist`. -/
def newEdge (b : BRep) (v1 v2 : ℕ) : BRep :=
  { b with edge := Function.update b.edge b.ne ⟨v1, v2, none⟩, elist := b.elist ++ [b.ne], ne := b.ne + 1 }

/-! ## src/zeo_brep.c -/

/-- `zBREPVertListFind`, src/zeo_brep.c:15-22. -/
def vertFind (τ : ℝ) (b : BRep) (q : Vec3 ℝ) : Option ℕ := b.vlist.find? fun i => decide ((b.pos i).equal τ q)
/-- `_zBREPVertListFindnReg`, src/zeo_brep.c:25-37 with `zBREPVertListCellInit`, include/zeo/zeo_brep.h:27-31. -/
def vertReg (τ : ℝ) (b : BRep) (q : Vec3 ℝ) : BRep × ℕ :=
  match b.vertFind τ q with
  | some i => (b, i)
  | none => (b.newVert ⟨q, 0⟩, b.nv)
/-- `zBREPEdgeListFind`, src/zeo_brep.c:40-48. -/
def edgeFind (b : BRep) (v1 v2 : ℕ) : Option ℕ := b.elist.find? fun e =>
  decide (((b.edge e).v0 = v1 ∧ (b.edge e).v1 = v2) ∨ ((b.edge e).v0 = v2 ∧ (b.edge e).v1 = v1))
/-- `_zBREPEdgeListFindnReg`, src/zeo_brep.c:51-63. -/
def edgeReg (b : BRep) (v1 v2 : ℕ) : BRep × ℕ :=
  match b.edgeFind v1 v2 with
  | some e => (b, e)
  | none => (b.newEdge v1 v2, b.ne)
/-- `_zBREPFaceInsert`, src/zeo_brep.c:66-82, of a triangle with the corners `q0`, `q1`, `q2`. -/
def faceInsert (τ : ℝ) (b : BRep) (q0 q1 q2 : Vec3 ℝ) : BRep :=
  let r0 := b.vertReg τ q0
  let r1 := r0.1.vertReg τ q1
  let r2 := r1.1.vertReg τ q2
  let s0 := r2.1.edgeReg r1.2 r2.2
  let s1 := s0.1.edgeReg r2.2 r0.2
  let s2 := s1.1.edgeReg r0.2 r1.2
  { s2.1 with flist := s2.1.flist ++ [⟨![r0.2, r1.2, r2.2], ![s0.2, s1.2, s2.2]⟩] }
/-- The three empty lists, src/zeo_brep.c:94-96. -/
def empty : BRep := ⟨fun _ => ⟨.zero, 0⟩, fun _ => ⟨0, 0, none⟩, [], [], [], 0, 0⟩
/-- The loop of `zPH3D2BREP` over some of the faces. -/
def insertFaces (τ : ℝ) (ph : PH ℝ) (fs : List (Face ℝ)) : BRep :=
  fs.foldl (fun b f => b.faceInsert τ (ph.vert f.i0) (ph.vert f.i1) (ph.vert f.i2)) empty
/-- `zPH3D2BREP`, src/zeo_brep.c:90-104. -/
def ofPH (τ : ℝ) (ph : PH ℝ) : BRep := insertFaces τ ph ph.face
/-- `zPH3D2BREPInBox`, src/zeo_brep.c:107-125.  `none`: the box test of a degenerate face reads an
uninitialised plane. -/
def ofPHInBox (τ : ℝ) (ph : PH ℝ) (box : AABox3 ℝ) : Option BRep :=
  if ∀ f ∈ ph.face, (colChkTriBox τ (ph.tri f) box).isSome then
    some (insertFaces τ ph (ph.face.filter fun f => decide (colChkTriBox τ (ph.tri f) box = some True)))
  else none
/-- One face of `zBREP2PH3D`, src/zeo_brep.c:143: the pointers `_p` lead to the vertices of the polyhedron. -/
def toFace (τ : ℝ) (b : BRep) (f : BFace) : Face ℝ :=
  ⟨b.vlist.idxOf (f.v 0), b.vlist.idxOf (f.v 1), b.vlist.idxOf (f.v 2),
   (Tri3.create τ (b.pos (f.v 0)) (b.pos (f.v 1)) (b.pos (f.v 2))).2.norm⟩
/-- `zBREP2PH3D`, src/zeo_brep.c:128-148.  `none`: a face refers to a vertex outside the list, whose `_p` is
not set. -/
def toPH (τ : ℝ) (b : BRep) : Option (PH ℝ) :=
  if ∀ f ∈ b.flist, ∀ i, f.v i ∈ b.vlist then
    some ⟨b.vlist.length, fun i => b.pos (b.vlist.getD i 0), b.flist.map (b.toFace τ)⟩
  else none

/-! ## src/zeo_brep_trunc.c -/

/-- The value of `_d`, src/zeo_brep_trunc.c:17-19. -/
def planeDist (τ : ℝ) (pl : Plane3 ℝ) (q : Vec3 ℝ) : ℝ :=
  let d := (q.sub pl.org).inner pl.norm
  if zIsTol d τ then 0 else d
/-- The values stored by `_zBREPTruncBBCheck`, src/zeo_brep_trunc.c:10-23. -/
def bbMark (τ : ℝ) (b : BRep) (pl : Plane3 ℝ) : BRep :=
  { b with vert := fun i => if i ∈ b.vlist then ⟨b.pos i, planeDist τ pl (b.pos i)⟩ else b.vert i }
/-- The value returned by `_zBREPTruncBBCheck`, src/zeo_brep_trunc.c:20-22. -/
def bbCount (b : BRep) : ℕ := (b.vlist.filter fun i => decide (0 < b.dist i)).length
/-- One round of `_zBREPTruncIntersect`, src/zeo_brep_trunc.c:33-46. -/
def cutEdge (b : BRep) (e : ℕ) : BRep :=
  let d0 := b.dist (b.edge e).v0
  let d1 := b.dist (b.edge e).v1
  if d0 * d1 < 0 then
    let b' := b.newVert
      ⟨(b.pos (b.edge e).v0).interDiv (b.pos (b.edge e).v1) (|d0| / (|d0| + |d1|)), 0⟩
    { b' with edge := Function.update b.edge e { b.edge e with x := some b.nv } }
  else b
/-- `_zBREPTruncIntersect`, src/zeo_brep_trunc.c:26-48. -/
def cutEdges (b : BRep) : BRep := b.elist.foldl cutEdge b

/-- `_zBREPTruncFaceA`, src/zeo_brep_trunc.c:51-87: the B-Rep with the new edges, the new face and the
modified face.  `none`: the code goes on with a NULL vertex. -/
def faceA (b : BRep) (f : BFace) (i1 i2 i3 : Fin 3) : Option (BRep × List BFace × List BFace) := do
  let x2 ← (b.edge (f.e i2)).x
  let x3 ← (b.edge (f.e i3)).x
  let e4 := b.ne
  let b := b.newEdge x2 x3
  let e5 := b.ne
  let b := b.newEdge x2 (f.v i2)
  return (b, [⟨![f.v i2, x2, x3], ![e4, f.e i3, e5]⟩],
    [⟨Function.update f.v i1 x2, Function.update f.e i3 e5⟩])
/-- `_zBREPTruncFaceV`, src/zeo_brep_trunc.c:90-106. -/
def faceV (b : BRep) (f : BFace) (i1 i2 i3 : Fin 3) : Option (BRep × List BFace × List BFace) := do
  let x2 ← (b.edge (f.e i2)).x
  let x3 ← (b.edge (f.e i3)).x
  let e4 := b.ne
  let b := b.newEdge x3 x2
  return (b, [], [⟨Function.update (Function.update f.v i2 x3) i3 x2, Function.update f.e i1 e4⟩])
/-- `_zBREPTruncFaceE`, src/zeo_brep_trunc.c:109-124. -/
def faceE (b : BRep) (f : BFace) (i1 i2 i3 : Fin 3) : Option (BRep × List BFace × List BFace) := do
  let x1 ← (b.edge (f.e i1)).x
  let e4 := b.ne
  let b := b.newEdge (f.v i1) x1
  return (b, [], [⟨Function.update f.v i3 x1, Function.update f.e i2 e4⟩])

/-- `__z_brep_trunc_pat`, src/zeo_brep_trunc.c:176. -/
def pat (d : ℝ) : ℕ := if d < 0 then 3 else if 0 < d then 1 else 0
/-- `_zBREPTruncFace`, src/zeo_brep_trunc.c:177-211: the B-Rep with the new edges, the faces inserted at the
tail of the list and what remains of the face itself.  The two-bit patterns are combined by `|` on disjoint
bits, which is the sum. -/
def truncFace (b : BRep) (f : BFace) : Option (BRep × List BFace × List BFace) :=
  match pat (b.dist (f.v 0)) + 4 * pat (b.dist (f.v 1)) + 16 * pat (b.dist (f.v 2)) with
  | 0x01 | 0x04 | 0x05 | 0x10 | 0x11 | 0x14 | 0x15 => some (b, [], [])
  | 0x00 | 0x03 | 0x0c | 0x0f | 0x30 | 0x33 | 0x3c | 0x3f => some (b, [], [f])
  | 0x1f => b.faceA f 2 0 1
  | 0x37 => b.faceA f 1 2 0
  | 0x3d => b.faceA f 0 1 2
  | 0x07 => b.faceE f 2 0 1
  | 0x0d => b.faceE f 2 1 0
  | 0x13 => b.faceE f 1 0 2
  | 0x1c => b.faceE f 0 1 2
  | 0x31 => b.faceE f 1 2 0
  | 0x34 => b.faceE f 0 2 1
  | 0x17 => b.faceV f 0 1 2
  | 0x1d => b.faceV f 1 2 0
  | 0x35 => b.faceV f 2 0 1
  | _ => none
/-- The loop over the faces, src/zeo_brep_trunc.c:221-222.  The faces inserted at the tail of the list are not
visited. -/
def truncFaces : BRep → List BFace → Option (BRep × List BFace × List BFace)
  | b, [] => some (b, [], [])
  | b, f :: fs => do
    let (b1, new1, old1) ← b.truncFace f
    let (b2, new2, old2) ← truncFaces b1 fs
    return (b2, new2 ++ new1, old1 ++ old2)
/-- `_zBREPTruncEdgeShrink` on one edge, src/zeo_brep_trunc.c:132-137. -/
def shrinkEdge (b : BRep) (e : BEdge) : BEdge :=
  match e.x with
  | none => e
  | some n => if 0 < b.dist e.v0 then ⟨n, e.v1, none⟩ else ⟨e.v0, n, none⟩
/-- `_zBREPTruncEdgeShrink`, src/zeo_brep_trunc.c:127-139. -/
def edgeShrink (b : BRep) : BRep :=
  { b with edge := fun e => if e ∈ b.elist then b.shrinkEdge (b.edge e) else b.edge e }
/-- `_zBREPTruncGR`, src/zeo_brep_trunc.c:142-174. -/
def release (b : BRep) : BRep :=
  { b with
    edge := fun e => if e ∈ b.elist then { b.edge e with x := none } else b.edge e
    vlist := b.vlist.filter fun i => decide (∃ f ∈ b.flist, ∃ j, f.v j = i)
    elist := b.elist.filter fun e => decide (∃ f ∈ b.flist, ∃ j, f.e j = e) }
/-- `zBREPTrunc`, src/zeo_brep_trunc.c:214-227.  `none`: NULL returned, or a NULL vertex dereferenced. -/
def trunc (τ : ℝ) (b : BRep) (pl : Plane3 ℝ) : Option BRep :=
  let b1 := b.bbMark τ pl
  if b1.bbCount = 0 then some b1
  else
    let b2 := b1.cutEdges
    (b2.truncFaces b2.flist).map fun r => { r.1 with flist := r.2.1 ++ r.2.2 }.edgeShrink.release
/-- The loop of `zBREPTruncPH3D`, src/zeo_brep_trunc.c:235-238.  When a face has no plane (`zTri3DToPlane3D`
fails and its result is ignored) the variable keeps its contents `pl`. -/
def truncPlanes (τ : ℝ) (ph : PH ℝ) : List (Face ℝ) → Plane3 ℝ → BRep → Option BRep
  | [], _, b => some b
  | f :: fs, pl, b => do
    let pl' := ((ph.tri f).toPlane τ).getD pl
    let b' ← b.trunc τ pl'
    truncPlanes τ ph fs pl' b'
/-- `zBREPTruncPH3D`, src/zeo_brep_trunc.c:230-240; `junk` is the initial content of the variable `pl`. -/
def truncPH (τ : ℝ) (b : BRep) (ph : PH ℝ) (junk : Plane3 ℝ) : Option BRep :=
  truncPlanes τ ph ph.face junk b

/-! ## src/zeo_brep_bool.c -/

/-- The marks `_p` of the vertices of `sub` set by the first loop of `zBREPMerge`, src/zeo_brep_bool.c:17-18. -/
def vmark (τ : ℝ) (target sub : BRep) (i : ℕ) : Option ℕ :=
  if i ∈ sub.vlist then target.vertFind τ (sub.pos i) else none

/-- State of the loop over the edges of `sub` in `zBREPMerge`: the target, and the marks `_v`. -/
structure MergeSt where
  b : BRep
  mark : ℕ → Option ℕ

/-- One round of the second loop of `zBREPMerge`, src/zeo_brep_bool.c:22-33; `vm` are the marks `_p` of the
vertices of `sub`. -/
def mergeEdge (vm : ℕ → Option ℕ) (sub : BRep) (s : MergeSt) (e : ℕ) : MergeSt :=
  match vm (sub.edge e).v0, vm (sub.edge e).v1 with
  | some v0, some v1 =>
    match s.b.edgeFind v0 v1 with
    | some e' => { s with mark := Function.update s.mark e (some e') }
    | none => ⟨s.b.newEdge v0 v1, Function.update s.mark e (some s.b.ne)⟩
  | _, _ => { s with mark := Function.update s.mark e none }

/-- `zBREPMerge`, src/zeo_brep_bool.c:10-62.  The cells of `sub` that are moved to the target keep their
contents; their numbers are shifted behind those of the target, which is only a renaming.  The end points of
a moved edge are not reassigned: they may be cells that were freed, whose numbers are then not in the list.
The faces of `sub` follow those of the target. -/
def merge (τ : ℝ) (target sub : BRep) : BRep :=
  let vm := vmark τ target sub
  let s := sub.elist.foldl (mergeEdge vm sub) ⟨target, fun _ => none⟩
  let t := s.b
  { vert := fun i => if i < t.nv then t.vert i else sub.vert (i - t.nv)
    edge := fun e => if e < t.ne then t.edge e else
      ⟨t.nv + (sub.edge (e - t.ne)).v0, t.nv + (sub.edge (e - t.ne)).v1, none⟩
    vlist := t.vlist ++ ((sub.vlist.reverse.filter fun i => (vm i).isNone).map (t.nv + ·))
    elist := t.elist ++ ((sub.elist.reverse.filter fun e => (s.mark e).isNone).map (t.ne + ·))
    flist := t.flist ++ sub.flist.map fun f =>
      ⟨fun i => (vm (f.v i)).getD (t.nv + f.v i), fun i => (s.mark (f.e i)).getD (t.ne + f.e i)⟩
    nv := t.nv + sub.nv
    ne := t.ne + sub.ne }

/-- `zPH3DTruncBREP`, src/zeo_brep_bool.c:65-74. -/
def phTrunc (τ : ℝ) (src cut : PH ℝ) (junk : Plane3 ℝ) : Option (PH ℝ) := do
  let b ← (ofPH τ src).truncPH τ cut junk
  b.toPH τ
/-- `zIntersectPH3DBREP`, src/zeo_brep_bool.c:77-89. -/
def phIntersect (τ : ℝ) (src1 src2 : PH ℝ) (junk : Plane3 ℝ) : Option (PH ℝ) := do
  let b1 ← (ofPH τ src1).truncPH τ src2 junk
  let b2 ← (ofPH τ src2).truncPH τ src1 junk
  (b1.merge τ b2).toPH τ
/-- `zIntersectPH3DBox`, src/zeo_col_box.c:232-242.  `none` is NULL, or a polyhedron without vertices, whose
bounding box stays uninitialised. -/
def intersectBox (ph1 ph2 : PH ℝ) : Option (AABox3 ℝ) := do
  let a1 ← aabb3 (.assignArray ((List.range ph1.nv).map ph1.vert))
  let a2 ← aabb3 (.assignArray ((List.range ph2.nv).map ph2.vert))
  a1.1.intersect a2.1
/-- `zIntersectPH3DBREPFast`, src/zeo_brep_bool.c:92-108. -/
def phIntersectFast (τ : ℝ) (src1 src2 : PH ℝ) (junk : Plane3 ℝ) : Option (PH ℝ) := do
  let ib ← intersectBox src1 src2
  let b1 ← ofPHInBox τ src1 ib
  let b2 ← ofPHInBox τ src2 ib
  let b1 ← b1.truncPH τ src2 junk
  let b2 ← b2.truncPH τ src1 junk
  (b1.merge τ b2).toPH τ

end BRep
end
end Zeo
