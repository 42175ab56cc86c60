import Verif.Model.PCD

/-! # What the PCD format says -/

namespace Zeo.Spec
open PCD

/-- The names of the coordinates. -/
def axisName : Fin 3 → String
  | 0 => "x"
  | 1 => "y"
  | 2 => "z"

/-- A field: its name, its type and its size in bytes. -/
structure Col where
  name : String
  type : VType
  size : ℕ

/-- The types of the format. -/
def Col.Valid (c : Col) : Prop :=
  (c.size = 1 ∨ c.size = 2 ∨ c.size = 4 ∨ c.size = 8) ∧ (c.type = .F → c.size = 4 ∨ c.size = 8)

/-- The letter of a type. -/
def letter : VType → String
  | .I => "I"
  | .U => "U"
  | .F => "F"

/-- The word stands for the value (`none`: not finite) in the field; `f32` rounds to single precision. -/
inductive WordOf (f32 : ℝ → ℝ) : Col → Tok → Option ℝ → Prop
  | double (c : Col) (x : ℝ) : c.type = .F → c.size = 8 → WordOf f32 c (.num x) (some x)
  | float (c : Col) (x : ℝ) : c.type = .F → c.size = 4 → WordOf f32 c (.num x) (some (f32 x))
  | nan (c : Col) : c.type = .F → WordOf f32 c .nan none
  | signed (c : Col) (n : ℤ) : c.type = .I → -(2 ^ (8 * c.size - 1)) ≤ n → n < 2 ^ (8 * c.size - 1) →
      -(2 ^ 31) ≤ n → n < 2 ^ 31 → WordOf f32 c (.int n) (some n)
  | unsigned (c : Col) (n : ℤ) : c.type = .U → 0 ≤ n → n < 2 ^ (8 * c.size) → n < 2 ^ 31 →
      WordOf f32 c (.int n) (some n)

/-- The value of the coordinate `a` in a row of values. -/
def HasCoord (cs : List Col) (row : List (Option ℝ)) (a : Fin 3) (x : Option ℝ) : Prop :=
  ∃ (k : ℕ) (c : Col), cs[k]? = some c ∧ c.name = axisName a ∧ row[k]? = some x

/-- The point of a row of values: `none` if a coordinate is not finite. -/
inductive PointOf (cs : List Col) (row : List (Option ℝ)) : Option (Vec3 ℝ) → Prop
  | point (x y z : ℝ) : HasCoord cs row 0 (some x) → HasCoord cs row 1 (some y) → HasCoord cs row 2 (some z) →
      PointOf cs row (some ⟨x, y, z⟩)
  | nan (x y z : Option ℝ) : HasCoord cs row 0 x → HasCoord cs row 1 y → HasCoord cs row 2 z →
      x = none ∨ y = none ∨ z = none → PointOf cs row none

end Zeo.Spec
