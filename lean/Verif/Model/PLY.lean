import Verif.Model.PH

/-! # Reading and writing polyhedra in the PLY format: src/zeo_ph3d_ply.c

A file is three letters, the lines of the header and the data that follow the line `end_header`.  Cutting a line
into words and reading a number of a text (`zSToken`, `zSInt`, `zFInt`, `zFDouble`) belong to the ZEDA library.  A
line is the list of its words; the model compares the whole first word with a keyword where the code compares its
beginning.  Every line of the header ends with a line break.

The data of a text file are its numbers; those of a binary file are typed cells, each with the byte order of the
machine that wrote it.  `fread_byte` and its relatives of the ZEDA library read one cell of their type; reading a
cell of another type is the outcome `misread`.  Allocations succeed. -/

namespace Zeo.PLY
noncomputable section
open Classical

/-- How reading can fail: NULL is returned; the behaviour is undefined; bytes are taken for a value of another
type; not modelled. -/
inductive Err
  | null
  | undef
  | misread
  | unmodelled
  deriving DecidableEq

/-- `zPLYDATA`, src/zeo_ph3d_ply.c:68-80. -/
inductive DType
  | char | uchar | short | ushort | int | uint | float | double | list
  deriving DecidableEq

/-- `zeo_ply_prp_type_name`, src/zeo_ph3d_ply.c:82-92. -/
def DType.name : DType → String
  | char => "char"
  | uchar => "uchar"
  | short => "short"
  | ushort => "ushort"
  | int => "int"
  | uint => "uint"
  | float => "float"
  | double => "double"
  | list => "list"

/-- `_zPLYPrpFind`, src/zeo_ph3d_ply.c:241-249. -/
def DType.find (s : String) : Option DType :=
  [char, uchar, short, ushort, int, uint, float, double, list].find? fun t => t.name = s

/-- `zPLYElemType`, `zeo_ply_elem`, src/zeo_ph3d_ply.c:101-118. -/
inductive EType
  | vertex | face | edge | material | rangeGrid
  deriving DecidableEq

/-- The name of an element. -/
def EType.name : EType → String
  | vertex => "vertex"
  | face => "face"
  | edge => "edge"
  | material => "material"
  | rangeGrid => "range_grid"

/-- The search in `_zPLYFReadElement`, src/zeo_ph3d_ply.c:321-331. -/
def EType.find (s : String) : Option EType :=
  [vertex, face, edge, material, rangeGrid].find? fun t => t.name = s

/-- `zPLYFormat`, src/zeo_ph3d_ply.c:154-157. -/
inductive Format
  | ascii | bin | binRev
  deriving DecidableEq

/-- `zPLYElement`, src/zeo_ph3d_ply.c:123-128. -/
structure Elem where
  type : EType
  num : ℤ
  prp : List DType

/-- `zPLY`, src/zeo_ph3d_ply.c:159-168, without the version.  `elem` holds the elements up to `elemnum`. -/
structure Ply where
  format : Option Format
  elem : List Elem
  ix : ℕ
  iy : ℕ
  iz : ℕ
  listNum : Option DType
  listElem : Option DType

/-- `_zPLYInit`, src/zeo_ph3d_ply.c:170-180.  The types of the list are not initialised: `none`. -/
def Ply.init : Ply := ⟨none, [], 0, 0, 0, none, none⟩

/-- A word of a line of the header. -/
inductive Tok
  | word (s : String)
  | int (n : ℤ)
  deriving DecidableEq

/-- `zSToken`: the next word of a line, empty at its end. -/
def next : List Tok → String × List Tok
  | [] => ("", [])
  | .word s :: r => (s, r)
  | .int n :: r => (toString n, r)

/-- `_zPLYFReadFormat`, src/zeo_ph3d_ply.c:288-308; `big`: the byte order of this machine. -/
def readFormat (big : Bool) (p : Ply) (l : List Tok) : Except Err Ply :=
  let w := (next l).1
  let f : Option Format :=
    if w = "ascii" then some .ascii
    else if w = "binary_big_endian" then some (if big then .bin else .binRev)
    else if w = "binary_little_endian" then some (if big then .binRev else .bin)
    else none
  match f with
  | none => .error .null
  | some f => if (next (next l).2).1 = "" then .error .null else .ok { p with format := some f }

/-- `_zPLYFReadElement`, src/zeo_ph3d_ply.c:310-335. -/
def readElement (p : Ply) (l : List Tok) : Except Err Ply :=
  if 5 ≤ p.elem.length then .error .null
  else match EType.find (next l).1 with
    | none => .error .null
    | some t =>
      match (next l).2 with
      | .int n :: _ => .ok { p with elem := p.elem ++ [⟨t, n, []⟩] }
      | [] => .error .null
      | _ => .error .unmodelled

/-- Adding a property to an element, and the test of the number of properties, src/zeo_ph3d_ply.c:371-375. -/
def addPrp (p : Ply) (es : List Elem) (e : Elem) (t : DType) : Except Err Ply :=
  if 12 ≤ e.prp.length + 1 then .error .null
  else .ok { p with elem := es ++ [{ e with prp := e.prp ++ [t] }] }

/-- `_zPLYFReadProperty`, src/zeo_ph3d_ply.c:337-376.  Without an element the code writes before the array of
elements; without a format it compares with strings that are not initialised. -/
def readProperty (p : Ply) (l : List Tok) : Except Err Ply :=
  match p.elem.getLast? with
  | none => .error .undef
  | some e =>
    if p.format = none then .error .undef
    else match DType.find (next l).1 with
      | none => .error .null
      | some .list =>
        let l1 := next (next l).2
        let l2 := next l1.2
        if (next l2.2).1 = "vertex_indices" then
          addPrp { p with listNum := DType.find l1.1, listElem := DType.find l2.1 } p.elem.dropLast e .list
        else .error .null
      | some t =>
        let s := (next (next l).2).1
        let p' : Ply :=
          if e.type = .vertex then
            if s = "x" then { p with ix := e.prp.length }
            else if s = "y" then { p with iy := e.prp.length }
            else if s = "z" then { p with iz := e.prp.length }
            else p
          else p
        addPrp p' p.elem.dropLast e t

/-- `_zPLYFReadHeader`, src/zeo_ph3d_ply.c:378-404, on the lines from the second on. -/
def readHeader (big : Bool) : Ply → List (List Tok) → Except Err Ply
  | _, [] => .error .null
  | p, l :: ls =>
    if (next l).1 = "end_header" then .ok p
    else if (next l).1 = "format" then
      match readFormat big p (next l).2 with
      | .ok p' => readHeader big p' ls
      | .error e => .error e
    else if (next l).1 = "element" then
      match readElement p (next l).2 with
      | .ok p' => readHeader big p' ls
      | .error e => .error e
    else if (next l).1 = "property" then
      match readProperty p (next l).2 with
      | .ok p' => readHeader big p' ls
      | .error e => .error e
    else readHeader big p ls

/-- A binary cell. -/
inductive Cell
  | byte (n : ℕ)
  | word (n : ℕ)
  | dword (n : ℕ)
  | float (x : ℝ)
  | double (x : ℝ)

/-- A value of the data: a number of a text, or a cell with the byte order of its writer (`true`: big). -/
inductive Val
  | num (x : ℝ)
  | int (n : ℤ)
  | cell (big : Bool) (c : Cell)

/-- One cell of type `t` as a `double`: `zPLY_fread_double_byte` and its relatives, src/zeo_ph3d_ply.c:13-28,
190-201. -/
def cellDouble : DType → Cell → Except Err ℝ
  | .char, .byte n | .uchar, .byte n => .ok n
  | .short, .word n | .ushort, .word n => .ok n
  | .int, .dword n | .uint, .dword n => .ok n
  | .float, .float x => .ok x
  | .double, .double x => .ok x
  | .list, _ => .error .undef
  | _, _ => .error .misread

/-- One cell of type `t` as an `int`: `zPLY_fread_int_byte` and its relatives, src/zeo_ph3d_ply.c:30-45, 208-219.
The conversion of a `dword` to `int` keeps the bits. -/
def cellInt : DType → Cell → Except Err ℤ
  | .char, .byte n | .uchar, .byte n => .ok n
  | .short, .word n | .ushort, .word n => .ok n
  | .int, .dword n | .uint, .dword n => .ok (if n < 2 ^ 31 then (n : ℤ) else (n : ℤ) - 2 ^ 32)
  | .float, .float _ | .double, .double _ => .error .unmodelled
  | .list, _ => .error .undef
  | _, _ => .error .misread

/-- The bytes of the cell come in the order the format expects: src/zeo_ph3d_ply.c:224-232. -/
def orderOK (big : Bool) (f : Format) (b : Bool) : Cell → Prop
  | .byte _ => True
  | _ => (f = .bin ∧ b = big) ∨ (f = .binRev ∧ b ≠ big)

/-- The type is read by `zPLY_fread_ASCII_double_double`, src/zeo_ph3d_ply.c:184-189. -/
def DType.isReal : DType → Prop
  | .float | .double => True
  | _ => False

/-- `prp->read_double( fp )`, src/zeo_ph3d_ply.c:184-201.  A text reader at the end of the file leaves its variable
uninitialised. -/
def readDouble (big : Bool) (f : Format) (t : DType) : List Val → Except Err (ℝ × List Val)
  | [] => .error .undef
  | .num x :: r =>
    if t = .list then .error .undef else if f = .ascii then
      if t.isReal then .ok (x, r) else .error .unmodelled
    else .error .misread
  | .int n :: r =>
    if t = .list then .error .undef else if f = .ascii then .ok ((n : ℝ), r) else .error .misread
  | .cell b c :: r =>
    if t = .list then .error .undef else if f ≠ .ascii ∧ orderOK big f b c then
      match cellDouble t c with
      | .ok x => .ok (x, r)
      | .error e => .error e
    else .error .misread

/-- `prp->read_int( fp )`, src/zeo_ph3d_ply.c:202-219. -/
def readInt (big : Bool) (f : Format) (t : DType) : List Val → Except Err (ℤ × List Val)
  | [] => .error .undef
  | .num _ :: _ => if t = .list then .error .undef else if f = .ascii then .error .unmodelled else .error .misread
  | .int n :: r => if t = .list then .error .undef else if f = .ascii then .ok (n, r) else .error .misread
  | .cell b c :: r =>
    if t = .list then .error .undef else if f ≠ .ascii ∧ orderOK big f b c then
      match cellInt t c with
      | .ok x => .ok (x, r)
      | .error e => .error e
    else .error .misread

/-- `k` values of the type `t`. -/
def readInts (big : Bool) (f : Format) (t : DType) : ℕ → List Val → Except Err (List ℤ × List Val)
  | 0, s => .ok ([], s)
  | k + 1, s =>
    match readInt big f t s with
    | .error e => .error e
    | .ok (n, s1) =>
      match readInts big f t k s1 with
      | .error e => .error e
      | .ok (ns, s2) => .ok (n :: ns, s2)

/-- `_zPH3DSetPLYVert`, src/zeo_ph3d_ply.c:406-411. -/
def setVert (p : Ply) (v : Vec3 ℝ) (j : ℕ) (x : ℝ) : Vec3 ℝ :=
  ⟨if j = p.ix then x else v.x, if j = p.iy then x else v.y, if j = p.iz then x else v.z⟩

/-- The properties of one vertex from the `j`-th on, src/zeo_ph3d_ply.c:422-429. -/
def readVertPrp (big : Bool) (p : Ply) (f : Format) : ℕ → List DType → Vec3 ℝ → List Val →
    Except Err (Vec3 ℝ × List Val)
  | _, [], v, s => .ok (v, s)
  | j, t :: ts, v, s =>
    if t = .list then .error .null
    else match readDouble big f t s with
      | .error e => .error e
      | .ok (x, s1) => readVertPrp big p f (j + 1) ts (setVert p v j x) s1

/-- The vertices, src/zeo_ph3d_ply.c:421-431.  A component that is never set keeps the zero of the allocation. -/
def readVerts (big : Bool) (p : Ply) (f : Format) (ts : List DType) : ℕ → List Val →
    Except Err (List (Vec3 ℝ) × List Val)
  | 0, s => .ok ([], s)
  | k + 1, s =>
    match readVertPrp big p f 0 ts .zero s with
    | .error e => .error e
    | .ok (v, s1) =>
      match readVerts big p f ts k s1 with
      | .error e => .error e
      | .ok (vs, s2) => .ok (v :: vs, s2)

/-- The triangles made of one list of vertices, src/zeo_ph3d_ply.c:468-476: `v1` and `v2` stay, `v3` runs. -/
def fan : List ℤ → List (ℤ × ℤ × ℤ)
  | v1 :: v2 :: r => r.map fun v3 => (v1, v2, v3)
  | _ => []

/-- A list: the number of its members and the members, src/zeo_ph3d_ply.c:451-453, 468-474. -/
def readList (big : Bool) (f : Format) (tn te : Option DType) (s : List Val) : Except Err (List ℤ × List Val) :=
  match tn, te with
  | some tn, some te =>
    match readInt big f tn s with
    | .error e => .error e
    | .ok (n, s1) => readInts big f te n.toNat s1
  | _, _ => .error .undef

/-- The properties of one face, src/zeo_ph3d_ply.c:446-455, 463-477.  The code goes twice over the data: first to
count the triangles. -/
def readFacePrp (big : Bool) (p : Ply) (f : Format) : List DType → List Val →
    Except Err (List (ℤ × ℤ × ℤ) × List Val)
  | [], s => .ok ([], s)
  | t :: ts, s =>
    if t = .list then
      match readList big f p.listNum p.listElem s with
      | .error e => .error e
      | .ok (vs, s1) =>
        match readFacePrp big p f ts s1 with
        | .error e => .error e
        | .ok (r, s2) => .ok (fan vs ++ r, s2)
    else match readDouble big f t s with
      | .error e => .error e
      | .ok (_, s1) => readFacePrp big p f ts s1

/-- The faces, src/zeo_ph3d_ply.c:445-456, 462-479. -/
def readFaces (big : Bool) (p : Ply) (f : Format) (ts : List DType) : ℕ → List Val →
    Except Err (List (ℤ × ℤ × ℤ) × List Val)
  | 0, s => .ok ([], s)
  | k + 1, s =>
    match readFacePrp big p f ts s with
    | .error e => .error e
    | .ok (a, s1) =>
      match readFaces big p f ts k s1 with
      | .error e => .error e
      | .ok (r, s2) => .ok (a ++ r, s2)

/-- `zTri3DCreate( zPH3DFace(ph,nf++), zPH3DVert(ph,v1), … )`, src/zeo_ph3d_ply.c:475.  The index is not checked:
outside the vertices the behaviour is undefined. -/
def mkFace (τ : ℝ) (ph : PH ℝ) (t : ℤ × ℤ × ℤ) : Except Err (Face ℝ) :=
  if 0 ≤ t.1 ∧ t.1 < ph.nv ∧ 0 ≤ t.2.1 ∧ t.2.1 < ph.nv ∧ 0 ≤ t.2.2 ∧ t.2.2 < ph.nv then
    .ok ⟨t.1.toNat, t.2.1.toNat, t.2.2.toNat,
      (Tri3.create τ (ph.vert t.1.toNat) (ph.vert t.2.1.toNat) (ph.vert t.2.2.toNat)).2.norm⟩
  else .error .undef

/-- The faces of the polyhedron. -/
def mkFaces (τ : ℝ) (ph : PH ℝ) : List (ℤ × ℤ × ℤ) → Except Err (List (Face ℝ))
  | [] => .ok []
  | t :: ts =>
    match mkFace τ ph t with
    | .error e => .error e
    | .ok a =>
      match mkFaces τ ph ts with
      | .error e => .error e
      | .ok r => .ok (a :: r)

/-- The properties of one cell of a range grid, src/zeo_ph3d_ply.c:490-498: the members of the list are read with
the type of their number. -/
def readGridPrp (big : Bool) (p : Ply) (f : Format) : List DType → List Val → Except Err (List Val)
  | [], s => .ok s
  | t :: ts, s =>
    if t = .list then
      match readList big f p.listNum p.listNum s with
      | .error e => .error e
      | .ok (_, s1) => readGridPrp big p f ts s1
    else match readDouble big f t s with
      | .error e => .error e
      | .ok (_, s1) => readGridPrp big p f ts s1

/-- `_zPH3DFReadPLYRangeGrid`, src/zeo_ph3d_ply.c:484-501. -/
def readGrid (big : Bool) (p : Ply) (f : Format) (ts : List DType) : ℕ → List Val → Except Err (List Val)
  | 0, s => .ok s
  | k + 1, s =>
    match readGridPrp big p f ts s with
    | .error e => .error e
    | .ok s1 => readGrid big p f ts k s1

/-- The properties of one other element, src/zeo_ph3d_ply.c:508-514. -/
def readOtherPrp (big : Bool) (f : Format) : List DType → List Val → Except Err (List Val)
  | [], s => .ok s
  | t :: ts, s =>
    if t = .list then .error .null
    else match readDouble big f t s with
      | .error e => .error e
      | .ok (_, s1) => readOtherPrp big f ts s1

/-- `_zPH3DFReadPLYElem`, src/zeo_ph3d_ply.c:503-517. -/
def readOther (big : Bool) (f : Format) (ts : List DType) : ℕ → List Val → Except Err (List Val)
  | 0, s => .ok s
  | k + 1, s =>
    match readOtherPrp big f ts s with
    | .error e => .error e
    | .ok s1 => readOther big f ts k s1

/-- One element: `_zPH3DFReadPLYVert`, `_zPH3DFReadPLYFace` and the others, src/zeo_ph3d_ply.c:413-517, 524-536.
An array is allocated if it is not empty. -/
def readElem (τ : ℝ) (big : Bool) (p : Ply) (f : Format) (ph : PH ℝ) (s : List Val) (e : Elem) :
    Except Err (PH ℝ × List Val) :=
  match e.type with
  | .vertex =>
    match readVerts big p f e.prp e.num.toNat s with
    | .error x => .error x
    | .ok (vs, s1) =>
      if vs = [] then .ok (ph, s1) else .ok ({ ph with nv := vs.length, vert := fun i => vs.getD i .zero }, s1)
  | .face =>
    match readFaces big p f e.prp e.num.toNat s with
    | .error x => .error x
    | .ok (ts, s1) =>
      match mkFaces τ ph ts with
      | .error x => .error x
      | .ok fs => if fs = [] then .ok (ph, s1) else .ok ({ ph with face := fs }, s1)
  | .rangeGrid =>
    match readGrid big p f e.prp e.num.toNat s with
    | .error x => .error x
    | .ok s1 => .ok (ph, s1)
  | _ =>
    match readOther big f e.prp e.num.toNat s with
    | .error x => .error x
    | .ok s1 => .ok (ph, s1)

/-- `_zPH3DFReadPLYData`, src/zeo_ph3d_ply.c:519-539. -/
def readData (τ : ℝ) (big : Bool) (p : Ply) (f : Format) : List Elem → PH ℝ → List Val → Except Err (PH ℝ)
  | [], ph, _ => .ok ph
  | e :: es, ph, s =>
    match readElem τ big p f ph s e with
    | .error x => .error x
    | .ok (ph1, s1) => readData τ big p f es ph1 s1

/-- A file: whether it begins with `ply`, the lines of its header from the second on, the data. -/
structure File where
  magic : Bool
  header : List (List Tok)
  data : List Val

/-- `zPH3DReadFilePLY`, src/zeo_ph3d_ply.c:542-573.  A header without a format has no elements with properties:
nothing is read from the data. -/
def read (τ : ℝ) (big : Bool) (x : File) : Except Err (PH ℝ) :=
  if x.magic then
    match readHeader big .init x.header with
    | .error e => .error e
    | .ok p => readData τ big p (p.format.getD .ascii) p.elem ⟨0, fun _ => .zero, []⟩ x.data
  else .error .null

/-- `_zPH3DFWritePLYHeader`, src/zeo_ph3d_ply.c:575-586. -/
def header (ph : PH ℝ) (format : String) : List (List Tok) :=
  [[.word "format", .word format, .word "1.0"],
   [.word "element", .word "vertex", .int ph.nv],
   [.word "property", .word "float", .word "x"],
   [.word "property", .word "float", .word "y"],
   [.word "property", .word "float", .word "z"],
   [.word "element", .word "face", .int ph.face.length],
   [.word "property", .word "list", .word "uchar", .word "int", .word "vertex_indices"],
   [.word "end_header"]]

/-- `zPH3DWriteFilePLY_ASCII`, src/zeo_ph3d_ply.c:588-599, 619-631; `fmt`: a number printed and read again. -/
def writeASCII (fmt : ℝ → ℝ) (ph : PH ℝ) : File :=
  ⟨true, header ph "ascii",
    (List.range ph.nv).flatMap (fun i =>
      [.num (fmt (ph.vert i).x), .num (fmt (ph.vert i).y), .num (fmt (ph.vert i).z)]) ++
    ph.face.flatMap fun f => [.int 3, .int f.i0, .int f.i1, .int f.i2]⟩

/-- `zPH3DWriteFilePLY_Bin`, src/zeo_ph3d_ply.c:601-616, 634-652, on a machine with byte order `big`; `f32`: a
number stored in a `float`. -/
def writeBin (f32 : ℝ → ℝ) (big : Bool) (ph : PH ℝ) : File :=
  ⟨true, header ph (if big then "binary_big_endian" else "binary_little_endian"),
    (List.range ph.nv).flatMap (fun i =>
      [.cell big (.float (f32 (ph.vert i).x)), .cell big (.float (f32 (ph.vert i).y)),
       .cell big (.float (f32 (ph.vert i).z))]) ++
    ph.face.flatMap fun f =>
      [.cell big (.byte 3), .cell big (.dword f.i0), .cell big (.dword f.i1), .cell big (.dword f.i2)]⟩

end
end Zeo.PLY
