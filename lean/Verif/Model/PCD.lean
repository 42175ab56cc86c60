import Verif.Model.Data
import Verif.Model.EP

/-! # Reading and writing sets of points in the PCD format: src/zeo_vec3d_pcd.c

A file is the lines of its header up to the line `DATA`, and the data: lines of words for a text, typed cells for a
binary file.  Cutting a line into words (`zSToken` of the ZEDA library), `atoi` and `atof` are not part of /repo; the
model gives a word, an integer, a number or `nan`.  A value that is not finite (`nan` or infinite) is `none`.  Storing a number in a
`float` is the function `f32`, left arbitrary.  Allocations succeed.  Compressed binary files need a library that is
off by default (src/zeo_vec3d_pcd.c:493-495). -/

namespace Zeo.PCD
noncomputable section
open Classical

/-- How reading can fail: false is returned; the behaviour is undefined; bytes are taken for a value of another
type; not modelled. -/
inductive Err
  | no
  | undef
  | misread
  | unmodelled
  deriving DecidableEq

/-- A word of a line. -/
inductive Tok
  | word (s : String)
  | int (n : ℤ)
  | num (x : ℝ)
  | nan

/-- `atoi`: a number is cut at its point. -/
def atoi : Tok → ℤ
  | .int n => n
  | .num x => if 0 ≤ x then ⌊x⌋ else ⌈x⌉
  | _ => 0

/-- `atof`; `none` is `nan`. -/
def atof : Tok → Option ℝ
  | .int n => some n
  | .num x => some x
  | .word _ => some 0
  | .nan => none

/-- `_zPCDValueType`, src/zeo_vec3d_pcd.c:36-42. -/
inductive VType
  | I | U | F
  deriving DecidableEq

/-- `_zPCDField`, src/zeo_vec3d_pcd.c:44-53: the coordinate, if it is one, the size and the type, `none` before it
is set. -/
structure Field where
  axis : Option (Fin 3)
  size : ℕ
  type : Option VType

/-- `_zPCDFieldAttrFind( tkn, __z_pcd_field_type )`, src/zeo_vec3d_pcd.c:31-34, 282. -/
def axisOf : Tok → Option (Fin 3)
  | .word "x" => some 0
  | .word "y" => some 1
  | .word "z" => some 2
  | _ => none

/-- `_zPCDFieldAttrFind( tkn, __z_pcd_value_type )`, src/zeo_vec3d_pcd.c:42, 319. -/
def typeOf : Tok → Option VType
  | .word "I" => some .I
  | .word "U" => some .U
  | .word "F" => some .F
  | _ => none

/-- `_zPCDDataType`, src/zeo_vec3d_pcd.c:14-20. -/
inductive DataType
  | ascii | binary | compressed
  deriving DecidableEq

/-- `_zPCD`, src/zeo_vec3d_pcd.c:220-229, without the version. -/
structure Pcd where
  field : List Field
  width : ℤ
  height : ℤ
  viewpoint : Frame3 ℝ
  datatype : Option DataType

/-- `_zPCDInit`, src/zeo_vec3d_pcd.c:231-239. -/
def Pcd.init : Pcd := ⟨[], 0, 0, .ident, none⟩

/-- A line of the header: a comment, an empty line, or a key with its arguments. -/
inductive Line
  | comment
  | blank
  | key (k : String) (args : List Tok)

/-- `__z_pcd_property`, src/zeo_vec3d_pcd.c:409-424. -/
def keys : List String :=
  ["VERSION", "FIELDS", "SIZE", "TYPE", "COUNT", "WIDTH", "HEIGHT", "VIEWPOINT", "POINTS", "DATA"]

/-- `_zPCDSizeFRead`, src/zeo_vec3d_pcd.c:296-312. -/
def readSize : List Field → List Tok → Option (List Field)
  | [], _ => some []
  | _ :: _, [] => none
  | f :: fs, t :: ts =>
    if atoi t = 1 ∨ atoi t = 2 ∨ atoi t = 4 ∨ atoi t = 8 then
      (readSize fs ts).map fun r => { f with size := (atoi t).toNat } :: r
    else none

/-- `_zPCDValueTypeFRead`, src/zeo_vec3d_pcd.c:314-325. -/
def readType : List Field → List Tok → Option (List Field)
  | [], _ => some []
  | _ :: _, [] => none
  | f :: fs, t :: ts =>
    match typeOf t with
    | none => none
    | some v => (readType fs ts).map fun r => { f with type := some v } :: r

/-- `_zPCDCountFRead`, src/zeo_vec3d_pcd.c:327-338: only the count 1 is accepted. -/
def readCount : List Field → List Tok → Bool
  | [], _ => true
  | _ :: _, [] => false
  | _ :: fs, t :: ts => decide (atoi t = 1) && readCount fs ts

/-- `_zPCDViewpointFRead`, src/zeo_vec3d_pcd.c:360-378. -/
def readViewpoint (τ : ℝ) : List Tok → Except Err (Frame3 ℝ)
  | a :: b :: c :: d :: e :: f :: g :: _ =>
    match atof a, atof b, atof c, atof d, atof e, atof f, atof g with
    | some a, some b, some c, some d, some e, some f, some g =>
      .ok ⟨⟨a, b, c⟩, (EP.normalize τ ⟨d, ⟨e, f, g⟩⟩).2.toMat⟩
    | _, _, _, _, _, _, _ => .error .unmodelled
  | _ => .error .no

/-- `property->read( fp, pcd, buf, tkn )`, src/zeo_vec3d_pcd.c:250-407. -/
def readKey (τ : ℝ) (p : Pcd) (k : String) (as : List Tok) : Except Err Pcd :=
  if k = "VERSION" then
    match as with
    | .word s :: _ => if '.' ∈ s.toList then .ok p else .error .no
    | .num _ :: _ => .ok p
    | _ => .error .no
  else if k = "FIELDS" then
    if as = [] then .error .unmodelled else .ok { p with field := as.map fun t => ⟨axisOf t, 0, none⟩ }
  else if k = "SIZE" then
    match readSize p.field as with
    | some f => .ok { p with field := f }
    | none => .error .no
  else if k = "TYPE" then
    match readType p.field as with
    | some f => .ok { p with field := f }
    | none => .error .no
  else if k = "COUNT" then
    if readCount p.field as then .ok p else .error .no
  else if k = "WIDTH" then
    match as with
    | t :: _ => .ok { p with width := atoi t }
    | [] => .error .no
  else if k = "HEIGHT" then
    match as with
    | t :: _ => .ok { p with height := atoi t }
    | [] => .error .no
  else if k = "VIEWPOINT" then
    match readViewpoint τ as with
    | .ok f => .ok { p with viewpoint := f }
    | .error e => .error e
  else if k = "POINTS" then
    match as with
    | t :: _ => if atoi t = p.width * p.height then .ok p else .error .no
    | [] => .error .no
  else
    match as with
    | .word "ascii" :: _ => .ok { p with datatype := some .ascii }
    | .word "binary" :: _ => .ok { p with datatype := some .binary }
    | .word "binary_compressed" :: _ => .ok { p with datatype := some .compressed }
    | _ => .error .no

/-- `_zPCDHeaderFRead`, src/zeo_vec3d_pcd.c:426-446, from the property `ks` on: a key is looked for from the previous
key on; at the end of the table it is compared with NULL before the test. -/
def readHeader (τ : ℝ) : List String → Pcd → List Line → Except Err Pcd
  | [], _, _ => .error .no
  | _, _, [] => .error .no
  | ks, p, .comment :: ls => readHeader τ ks p ls
  | _, _, .blank :: _ => .error .no
  | ks, p, .key k as :: ls =>
    match ks.dropWhile fun s => s ≠ k with
    | [] => .error .undef
    | k' :: ks' =>
      match readKey τ p k' as with
      | .error e => .error e
      | .ok p' => if k' = "DATA" then .ok p' else readHeader τ (k' :: ks') p' ls

/-- The entry of the tables `__z_pcd_read_ascii`, `__z_pcd_read_bin`, `__z_pcd_skip_bin`,
src/zeo_vec3d_pcd.c:72-85, 115-128, 146-159; `none`: NULL.  Without a type the index is below the table. -/
def entry (f : Field) : Except Err (Option (VType × ℕ)) :=
  match f.type with
  | none => .error .undef
  | some .F => if f.size = 4 ∨ f.size = 8 then .ok (some (.F, f.size))
      else if f.size = 0 then .error .unmodelled else .ok none
  | some v => if f.size = 0 then .error .unmodelled else .ok (some (v, f.size))

/-- The values of an integer type. -/
def inRange : VType → ℕ → ℤ → Prop
  | .I, s, n => -(2 ^ (8 * s - 1)) ≤ n ∧ n < 2 ^ (8 * s - 1)
  | .U, s, n => 0 ≤ n ∧ n < 2 ^ (8 * s)
  | .F, _, _ => True

/-- `_zPCDFieldReadASCIIint8_t` and its relatives, src/zeo_vec3d_pcd.c:55-70.  Integers outside the type are not
modelled. -/
def asciiVal (f32 : ℝ → ℝ) : VType → ℕ → Tok → Except Err (Option ℝ)
  | .F, s, t => .ok ((atof t).map fun x => if s = 4 then f32 x else x)
  | v, s, t =>
    if inRange v s (atoi t) ∧ -(2 ^ 31) ≤ atoi t ∧ atoi t < 2 ^ 31 then .ok (some (atoi t)) else .error .unmodelled

/-- A point while it is read. -/
abbrev Raw := Fin 3 → Option ℝ

/-- `zVec3DZero`. -/
def Raw.zero : Raw := fun _ => some 0

/-- `!zVec3DIsNan( &v )`, and the transformed point, src/zeo_vec3d_pcd.c:464-467, 483-486: what is added. -/
def Raw.point (vp : Frame3 ℝ) (r : Raw) : List (Vec3 ℝ) :=
  match r 0, r 1, r 2 with
  | some x, some y, some z => [vp.xform ⟨x, y, z⟩]
  | _, _, _ => []

/-- The words of a line, src/zeo_vec3d_pcd.c:456-463: a line that is too short leaves zeros. -/
def readRow (f32 : ℝ → ℝ) : List Field → List Tok → Raw → Except Err Raw
  | [], _, r => .ok r
  | _, [], r => .ok r
  | f :: fs, t :: ts, r =>
    match f.axis with
    | none => readRow f32 fs ts r
    | some a =>
      match entry f with
      | .error e => .error e
      | .ok none => readRow f32 fs ts r
      | .ok (some (v, s)) =>
        match asciiVal f32 v s t with
        | .error e => .error e
        | .ok x => readRow f32 fs ts (Function.update r a x)

/-- `_zPCDDataASCIIFRead`, src/zeo_vec3d_pcd.c:448-470: the points that are added, in order. -/
def readRows (f32 : ℝ → ℝ) (p : Pcd) : List (List Tok) → Except Err (List (Vec3 ℝ))
  | [] => .ok []
  | l :: ls =>
    match readRow f32 p.field l .zero with
    | .error e => .error e
    | .ok r =>
      match readRows f32 p ls with
      | .error e => .error e
      | .ok ps => .ok (r.point p.viewpoint ++ ps)

/-- A cell of a binary file: its type, its size in bytes and its value. -/
structure Cell where
  type : VType
  size : ℕ
  val : Option ℝ

/-- The fields of one point of a binary file, src/zeo_vec3d_pcd.c:479-482: the point, the rest of the file and
whether its end was met.  At the end of the file nothing is stored. -/
def readCells : List Field → List Cell → Raw → Bool → Except Err (Raw × List Cell × Bool)
  | [], cs, r, e => .ok (r, cs, e)
  | f :: fs, cs, r, e =>
    match entry f with
    | .error x => .error x
    | .ok none => readCells fs cs r e
    | .ok (some (v, s)) =>
      match cs with
      | [] => readCells fs [] r true
      | c :: cs' =>
        if c.type = v ∧ c.size = s then
          match f.axis with
          | some a => readCells fs cs' (Function.update r a c.val) e
          | none => readCells fs cs' r e
        else .error .misread

/-- `_zPCDDataBINFRead`, src/zeo_vec3d_pcd.c:472-489: the points that are added, in order.  The first argument
bounds the rounds: a round that meets no end of the file reads at least one cell, unless no field has a reader; then
the loop does not end. -/
def readBin (p : Pcd) : ℕ → List Cell → Except Err (List (Vec3 ℝ))
  | 0, _ => .error .undef
  | k + 1, cs =>
    match readCells p.field cs .zero false with
    | .error x => .error x
    | .ok (r, cs', e) =>
      if e then .ok (r.point p.viewpoint)
      else match readBin p k cs' with
        | .error x => .error x
        | .ok ps => .ok (r.point p.viewpoint ++ ps)

/-- A file. -/
structure File where
  header : List Line
  rows : List (List Tok)
  cells : List Cell

/-- `zVec3DDataAdd` of all points. -/
def addAll (d : Data (Vec3 ℝ)) (ps : List (Vec3 ℝ)) : Data (Vec3 ℝ) := ps.foldl (fun d p => (d.add p).2) d

/-- The readers of all fields are looked up before the data are read, src/zeo_vec3d_pcd.c:92-96, 161-166, 556-562. -/
def assign (coordOnly : Bool) : List Field → Except Err Unit
  | [] => .ok ()
  | f :: fs =>
    if coordOnly ∧ f.axis = none then assign coordOnly fs
    else match entry f with
      | .error e => .error e
      | .ok _ => assign coordOnly fs

/-- `zVec3DDataFReadPCD`, `zVec3DDataReadPCDFile`, src/zeo_vec3d_pcd.c:545-589. -/
def read (τ : ℝ) (f32 : ℝ → ℝ) (x : File) : Except Err (Data (Vec3 ℝ)) :=
  match readHeader τ keys .init x.header with
  | .error e => .error e
  | .ok p =>
    if p.width * p.height < 0 then .error .unmodelled
    else
      match p.datatype with
      | some .ascii =>
        match assign true p.field with
        | .error e => .error e
        | .ok _ =>
          match readRows f32 p x.rows with
          | .error e => .error e
          | .ok ps => .ok (addAll (.initArray .zero (p.width * p.height).toNat) ps)
      | some .binary =>
        match assign false p.field with
        | .error e => .error e
        | .ok _ =>
          match readBin p (x.cells.length + 1) x.cells with
          | .error e => .error e
          | .ok ps => .ok (addAll (.initArray .zero (p.width * p.height).toNat) ps)
      | _ => .error .no

/-- `_zPCDHeaderFWrite`, src/zeo_vec3d_pcd.c:595-607, and the line `DATA`. -/
def header (n : ℕ) (data : String) : List Line :=
  [.comment, .key "VERSION" [.word ".7"], .key "FIELDS" [.word "x", .word "y", .word "z"],
   .key "SIZE" [.int 8, .int 8, .int 8], .key "TYPE" [.word "F", .word "F", .word "F"],
   .key "COUNT" [.int 1, .int 1, .int 1], .key "WIDTH" [.int n], .key "HEIGHT" [.int 1],
   .key "VIEWPOINT" [.int 0, .int 0, .int 0, .int 1, .int 0, .int 0, .int 0], .key "POINTS" [.int n],
   .key "DATA" [.word data]]

/-- `zVec3DDataFWritePCD`, src/zeo_vec3d_pcd.c:609-641; `none`: false, the format is unknown.  `fmt`: a number printed
and read again. -/
def write (fmt : ℝ → ℝ) (d : Data (Vec3 ℝ)) (format : String) : Option File :=
  if format = "ascii" then
    some ⟨header d.size "ascii",
      (d.forEach (fun l v => l ++ [[Tok.num (fmt v.x), .num (fmt v.y), .num (fmt v.z)]]) []).2, []⟩
  else if format = "binary" then
    some ⟨header d.size "binary", [],
      (d.forEach (fun l v => l ++ [Cell.mk .F 8 (some v.x), ⟨.F, 8, some v.y⟩, ⟨.F, 8, some v.z⟩]) []).2⟩
  else none

end
end Zeo.PCD
