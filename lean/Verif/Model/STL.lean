import Verif.Model.Kd
import Verif.Model.PH
import Verif.Model.ZTK

/-! # Reading and writing polyhedra in the STL format: src/zeo_ph3d_stl.c

A text file is the list of its words and numbers.  Cutting a file into words (`zFToken`) and reading a number
(`zFDouble`) belong to the ZEDA library and are not part of /repo; blanks, line ends and commas separate words.
`zFDouble` on something that is not a number is not modelled.  Printing a number and reading it back is the
function `fmt` (`%.10g`), left arbitrary.

A binary file is the list of its typed cells.  Storing a number in a `float` is the function `f32`, left
arbitrary.

A pointer to a node of the tree of vertices is the identifier of the node; the root, which exists before any
point was added, is 0.  `zVec3DTreeInit` does not initialise the point of the root (src/zeo_vec3d_tree.c:10-16);
what the memory happens to hold there is `junk`.  Allocations succeed. -/

namespace Zeo.STL
noncomputable section
open Classical

/-- A word or a number of a text file. -/
inductive Tok
  | word (s : String)
  | num (x : ℝ)

/-- `node->data.point` for the node with identifier `i`. -/
def find (i : ℕ) : Kd → Option (Vec3 ℝ)
  | .nil => none
  | .node _ j _ q _ c0 c1 =>
    if j = i then some q else
      match find i c0 with
      | some x => some x
      | none => find i c1
/-- `vc->data.point`, src/zeo_ph3d_stl.c:43; the root of an empty tree holds `junk`. -/
def pointOf (junk : Vec3 ℝ) (t : Kd) (i : ℕ) : Vec3 ℝ :=
  match t with
  | .nil => junk
  | .node .. => (find i t).getD junk

/-- `_zSTLVertReg`, src/zeo_ph3d_stl.c:9-17: the tree and the node.  On an empty tree `zVec3DTreeNN` reads
`point->e[-1]` to choose between two NULL branches and then finds the root itself, whatever its point holds
(src/zeo_vec3d_tree.c:113-126). -/
def vertReg (τ : ℝ) (junk : Vec3 ℝ) (t : Kd) (v : Vec3 ℝ) : Kd × ℕ :=
  match t with
  | .nil => if Vec3.equal τ v junk then (.nil, 0) else (Kd.add .nil v, 0)
  | .node .. =>
    match t.nn v with
    | some h => if Vec3.equal τ v h.pt then (t, h.id) else (t.add v, t.size)
    | none => (t.add v, t.size)

/-- The tree of vertices and the list of facets, in the order of reading. -/
structure St where
  tree : Kd
  facets : List (Face ℝ)

/-- `zVec3DTreeInit`, `zListInit`, src/zeo_ph3d_stl.c:151-152, 263-264. -/
def St.init : St := ⟨.nil, []⟩

/-- `_zSTLFacetListReg`, src/zeo_ph3d_stl.c:27-47.  The normal vector of the file is not used. -/
def facetReg (τ : ℝ) (junk : Vec3 ℝ) (s : St) (v0 v1 v2 : Vec3 ℝ) : St :=
  let r0 := vertReg τ junk s.tree v0
  let r1 := vertReg τ junk r0.1 v1
  let r2 := vertReg τ junk r1.1 v2
  let n := (Tri3.create τ (pointOf junk r2.1 r0.2) (pointOf junk r2.1 r1.2) (pointOf junk r2.1 r2.2)).2.norm
  ⟨r2.1, s.facets ++ [⟨r0.2, r1.2, r2.2, n⟩]⟩

/-- `_zSTLToPH3D` with `_zSTLFacetListToTri3DArray`, src/zeo_ph3d_stl.c:50-80.  On an empty tree
`zVec3DTreeToArray` sets the element -1 of an array and fails. -/
def toPH (s : St) : Option (PH ℝ) :=
  match s.tree with
  | .nil => none
  | .node .. =>
    match s.tree.toArray with
    | none => none
    | some a => some ⟨a.size, fun i => a.getD i .zero, s.facets⟩

/-- The local `zVec3D v[3]` of a facet, src/zeo_ph3d_stl.c:123; `none`: not written yet. -/
abbrev Loop := Fin 3 → Option (Vec3 ℝ)

/-- The loop of `_zPH3DFReadSTL_ASCIIloop`, src/zeo_ph3d_stl.c:97-117, from `i` vertices on: what the array holds
and the words that are left.  The callers do not use the returned boolean. -/
def loopBody : ℕ → Loop → List Tok → Except ZTK.Err (Loop × List Tok)
  | _, v, [] => .ok (v, [])
  | i, v, .num _ :: r => loopBody i v r
  | i, v, .word s :: r =>
    if s = "vertex" then
      if h : i < 3 then
        match r with
        | .num x :: .num y :: .num z :: r' => loopBody (i + 1) (Function.update v ⟨i, h⟩ (some ⟨x, y, z⟩)) r'
        | _ => .error .unmodelled
      else loopBody i v r
    else if s = "endloop" then .ok (v, r)
    else loopBody i v r

/-- `_zPH3DFReadSTL_ASCIIloop`, src/zeo_ph3d_stl.c:85-118. -/
def readLoop (v : Loop) : List Tok → Except ZTK.Err (Loop × List Tok)
  | [] => .ok (v, [])
  | .num _ :: r => .ok (v, r)
  | .word s :: r => if s = "loop" then loopBody 0 v r else .ok (v, r)

/-- `_zPH3DFReadSTL_ASCIIfacet`, src/zeo_ph3d_stl.c:121-142.  `none`: NULL.  The first argument bounds the number
of words (every round of the loop reads at least one).  Registering a vertex that was never written is
undefined. -/
def readFacet (τ : ℝ) (junk : Vec3 ℝ) : ℕ → Loop → St → List Tok → Except ZTK.Err (Option St × List Tok)
  | 0, _, _, ts => .ok (none, ts)
  | _, _, _, [] => .ok (none, [])
  | k + 1, v, s, .num _ :: r => readFacet τ junk k v s r
  | k + 1, v, s, .word w :: r =>
    if w = "normal" then
      match r with
      | .num _ :: .num _ :: .num _ :: r' => readFacet τ junk k v s r'
      | _ => .error .unmodelled
    else if w = "outer" then
      match readLoop v r with
      | .ok (v', r') => readFacet τ junk k v' s r'
      | .error e => .error e
    else if w = "endfacet" then
      match v 0, v 1, v 2 with
      | some v0, some v1, some v2 => .ok (some (facetReg τ junk s v0 v1 v2), r)
      | _, _, _ => .error .undef
    else readFacet τ junk k v s r

/-- The loop of `_zPH3DFReadSTL_ASCIIsolid`, src/zeo_ph3d_stl.c:155-168. -/
def readSolid (τ : ℝ) (junk : Vec3 ℝ) : ℕ → St → List Tok → Except ZTK.Err (Option (PH ℝ))
  | 0, _, _ => .ok none
  | _, _, [] => .ok none
  | k + 1, s, .num _ :: r => readSolid τ junk k s r
  | k + 1, s, .word w :: r =>
    if w = "endsolid" then .ok (toPH s)
    else if w = "facet" then
      match readFacet τ junk (r.length + 1) (fun _ => none) s r with
      | .ok (some s', r') => readSolid τ junk k s' r'
      | .ok (none, _) => .ok none
      | .error e => .error e
    else readSolid τ junk k s r

/-- `zPH3DFReadSTL_ASCII`, src/zeo_ph3d_stl.c:172-183, with the head of `_zPH3DFReadSTL_ASCIIsolid`, lines 145-154:
the polyhedron and the name of the shape. -/
def readASCII (τ : ℝ) (junk : Vec3 ℝ) : List Tok → Except ZTK.Err (Option (PH ℝ × Tok))
  | [] => .ok none
  | .num _ :: r => readASCII τ junk r
  | .word w :: r =>
    if w = "solid" then
      match r with
      | [] => .ok none
      | name :: r' =>
        match readSolid τ junk (r'.length + 1) .init r' with
        | .ok (some ph) => .ok (some (ph, name))
        | .ok none => .ok none
        | .error e => .error e
    else readASCII τ junk r

/-- `zVec3DValueFPrint`, src/zeo_vec3d.c:547-552. -/
def printVec (fmt : ℝ → ℝ) (v : Vec3 ℝ) : List Tok := [.num (fmt v.x), .num (fmt v.y), .num (fmt v.z)]
/-- The body of the loop of `zPH3DFWriteSTL_ASCII`, src/zeo_ph3d_stl.c:191-202. -/
def printFacet (fmt : ℝ → ℝ) (t : Tri3 ℝ) : List Tok :=
  [.word "facet", .word "normal"] ++ printVec fmt t.norm ++ [.word "outer", .word "loop"] ++
    (.word "vertex" :: printVec fmt t.v0) ++ (.word "vertex" :: printVec fmt t.v1) ++
    (.word "vertex" :: printVec fmt t.v2) ++ [.word "endloop", .word "endfacet"]
/-- `zPH3DFWriteSTL_ASCII`, src/zeo_ph3d_stl.c:186-204; `name` is the list of the words of the given name. -/
def writeASCII (fmt : ℝ → ℝ) (ph : PH ℝ) (name : List String) : List Tok :=
  .word "solid" :: name.map .word ++ ph.face.flatMap (fun f => printFacet fmt (ph.tri f)) ++ [.word "endsolid"]

/-- A cell of a binary file after the head: a `float` or a `uint16_t`. -/
inductive Cell
  | f32 (x : ℝ)
  | u16

/-- A binary file: the bytes of the head, the number of facets, and the rest. -/
structure Bin where
  head : List UInt8
  nf : ℕ
  body : List Cell

/-- The size of a cell in bytes. -/
def Cell.size : Cell → ℕ
  | .f32 _ => 4
  | .u16 => 2
/-- `zFileSize`: the size of the file in bytes. -/
def Bin.size (b : Bin) : ℕ := b.head.length + 4 + (b.body.map Cell.size).sum

/-- `zSTLIsBin`, src/zeo_ph3d_stl.c:236-251. -/
def isBin (b : Bin) : Bool := decide (b.size = 80 + 4 + b.nf * (4 * 12 + 2))

/-- `_zPH3DFWriteSTL_BinVec`, src/zeo_ph3d_stl.c:221-231. -/
def writeVec (f32 : ℝ → ℝ) (v : Vec3 ℝ) : List Cell := [.f32 (f32 v.x), .f32 (f32 v.y), .f32 (f32 v.z)]
/-- The body of the loop of `zPH3DFWriteSTL_Bin`, src/zeo_ph3d_stl.c:295-302. -/
def writeFacet (f32 : ℝ → ℝ) (t : Tri3 ℝ) : List Cell :=
  writeVec f32 t.norm ++ writeVec f32 t.v0 ++ writeVec f32 t.v1 ++ writeVec f32 t.v2 ++ [.u16]
/-- `zPH3DFWriteSTL_Bin`, src/zeo_ph3d_stl.c:285-303, for fewer than 2^31 faces.  `mem` is the memory that starts at
`shapename`; `none`: `fwrite` reads beyond it. -/
def writeBin (f32 : ℝ → ℝ) (ph : PH ℝ) (mem : List UInt8) : Option Bin :=
  if 80 ≤ mem.length then
    some ⟨mem.take 80, ph.face.length, ph.face.flatMap fun f => writeFacet f32 (ph.tri f)⟩
  else none

/-- `_zPH3DFReadSTL_BinVec`, src/zeo_ph3d_stl.c:207-218: at the end of the file the vector is left as it was.
A cell of another type does not occur at this place of a file. -/
def readVec (v : Option (Vec3 ℝ)) : List Cell → Except ZTK.Err (Option (Vec3 ℝ) × List Cell)
  | .f32 x :: .f32 y :: .f32 z :: r => .ok (some ⟨x, y, z⟩, r)
  | [.f32 _, .f32 _] => .ok (v, [])
  | [.f32 _] => .ok (v, [])
  | [] => .ok (v, [])
  | _ => .error .unmodelled

/-- `fread( &dummy, sizeof(uint16_t), 1, fp )`, src/zeo_ph3d_stl.c:276. -/
def readDummy : List Cell → Except ZTK.Err (List Cell)
  | .u16 :: r => .ok r
  | [] => .ok []
  | _ => .error .unmodelled

/-- The loop of `zPH3DFReadSTL_Bin`, src/zeo_ph3d_stl.c:270-279, for the remaining number of facets.  `normal` and
`v` are declared outside the loop. -/
def readBody (τ : ℝ) (junk : Vec3 ℝ) :
    ℕ → Option (Vec3 ℝ) → Option (Vec3 ℝ) → Option (Vec3 ℝ) → Option (Vec3 ℝ) → St → List Cell → Except ZTK.Err St
  | 0, _, _, _, _, s, _ => .ok s
  | k + 1, n, v0, v1, v2, s, cs => do
    let (n, cs) ← readVec n cs
    let (v0, cs) ← readVec v0 cs
    let (v1, cs) ← readVec v1 cs
    let (v2, cs) ← readVec v2 cs
    let cs ← readDummy cs
    match v0, v1, v2 with
    | some a, some b, some c => readBody τ junk k n v0 v1 v2 (facetReg τ junk s a b c) cs
    | _, _, _ => .error .undef

/-- `zPH3DFReadSTL_Bin`, src/zeo_ph3d_stl.c:254-282, for a file with a complete head: the polyhedron and the bytes
written to `shapenamebuf`.  `i<(int)nf` fails at once when the number does not fit in an `int`. -/
def readBin (τ : ℝ) (junk : Vec3 ℝ) (b : Bin) : Except ZTK.Err (Option (PH ℝ × List UInt8)) :=
  if b.nf = 0 then .ok none else
    match readBody τ junk (if b.nf < 2 ^ 31 then b.nf else 0) none none none none .init b.body with
    | .ok s =>
      match toPH s with
      | some ph => .ok (some (ph, b.head))
      | none => .ok none
    | .error e => .error e

/-- `zPH3DReadFileSTL`, src/zeo_ph3d_stl.c:306-327, on a file that can be opened: `b` and `ts` are its bytes seen as
a binary file and its words. -/
def readFile (τ : ℝ) (junk : Vec3 ℝ) (b : Bin) (ts : List Tok) : Except ZTK.Err (Option (PH ℝ)) :=
  if isBin b then (readBin τ junk b).map (Option.map Prod.fst)
  else (readASCII τ junk ts).map (Option.map Prod.fst)

end
end Zeo.STL
