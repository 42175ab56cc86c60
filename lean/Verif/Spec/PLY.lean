import Verif.Model.PLY

/-! # What the PLY format says: types, byte order, the layout of vertices and faces -/

namespace Zeo.Spec
open PLY

/-- The encoding of a file: text, or binary with the given byte order (`true`: big). -/
abbrev Enc := Option Bool

/-- The name of the encoding in the header. -/
def encName : Enc → String
  | none => "ascii"
  | some true => "binary_big_endian"
  | some false => "binary_little_endian"

/-- The value `v` of the data stands for the number `x` of type `t`. -/
inductive Stores : Enc → DType → Val → ℝ → Prop
  | text (t : DType) (x : ℝ) : t = .float ∨ t = .double → Stores none t (.num x) x
  | textInt (t : DType) (n : ℤ) : t ≠ .list → Stores none t (.int n) n
  | byte (b b' : Bool) (t : DType) (n : ℕ) : t = .char ∨ t = .uchar → Stores (some b) t (.cell b' (.byte n)) n
  | word (b : Bool) (t : DType) (n : ℕ) : t = .short ∨ t = .ushort → Stores (some b) t (.cell b (.word n)) n
  | dword (b : Bool) (t : DType) (n : ℕ) : t = .int ∨ t = .uint → Stores (some b) t (.cell b (.dword n)) n
  | float (b : Bool) (x : ℝ) : Stores (some b) .float (.cell b (.float x)) x
  | double (b : Bool) (x : ℝ) : Stores (some b) .double (.cell b (.double x)) x

/-- The value `v` of the data stands for the index or the count `n` of type `t`. -/
inductive StoresNat : Enc → DType → Val → ℕ → Prop
  | text (t : DType) (n : ℕ) : t ≠ .list → StoresNat none t (.int n) n
  | byte (b b' : Bool) (t : DType) (n : ℕ) : t = .char ∨ t = .uchar → StoresNat (some b) t (.cell b' (.byte n)) n
  | word (b : Bool) (t : DType) (n : ℕ) : t = .short ∨ t = .ushort → StoresNat (some b) t (.cell b (.word n)) n
  | dword (b : Bool) (t : DType) (n : ℕ) : t = .int ∨ t = .uint → n < 2 ^ 31 →
      StoresNat (some b) t (.cell b (.dword n)) n

/-- A column of the data: its type and its name. -/
abbrev Column := DType × String

/-- The line of the header that declares a column. -/
def columnLine (c : Column) : List Tok := [.word "property", .word c.1.name, .word c.2]

/-- A row of the data: the values of the file and the numbers they stand for. -/
abbrev Row := List (Val × ℝ)

/-- The row has the values of the columns. -/
def RowOf (o : Enc) (cs : List Column) (r : Row) : Prop :=
  List.Forall₂ (fun (c : Column) (x : Val × ℝ) => Stores o c.1 x.1 x.2) cs r

/-- The number in the column `name` of a row is `x`. -/
def InColumn (cs : List Column) (name : String) (r : Row) (x : ℝ) : Prop :=
  ∃ (a : ℕ) (t : DType) (v : Val), cs[a]? = some (t, name) ∧ r[a]? = some (v, x)

/-- A triangle of the data: columns before the list, the count and the three indices, columns after it. -/
structure TriRow where
  pre : Row
  cnt : Val
  v0 : Val
  v1 : Val
  v2 : Val
  post : Row
  i0 : ℕ
  i1 : ℕ
  i2 : ℕ

/-- The values of the row. -/
def TriRow.vals (r : TriRow) : List Val :=
  r.pre.map Prod.fst ++ [r.cnt, r.v0, r.v1, r.v2] ++ r.post.map Prod.fst

/-- The row describes the triangle `i0`, `i1`, `i2`, all below `n`. -/
structure TriRow.Good (o : Enc) (tn te : DType) (pre post : List Column) (n : ℕ) (r : TriRow) : Prop where
  pre : RowOf o pre r.pre
  post : RowOf o post r.post
  cnt : StoresNat o tn r.cnt 3
  s0 : StoresNat o te r.v0 r.i0
  s1 : StoresNat o te r.v1 r.i1
  s2 : StoresNat o te r.v2 r.i2
  l0 : r.i0 < n
  l1 : r.i1 < n
  l2 : r.i2 < n

end Zeo.Spec
