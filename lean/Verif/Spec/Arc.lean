import Verif.Model.Vec2
import Mathlib.Analysis.SpecialFunctions.Trigonometric.Basic

/-! What an outline of points and arcs is, for C88. -/

namespace Zeo.Spec
noncomputable section

/-- `p` turned about `c` by the angle `θ`, counterclockwise. -/
def turnAbout (c : Vec2 ℝ) (θ : ℝ) (p : Vec2 ℝ) : Vec2 ℝ :=
  ⟨c.x + (Real.cos θ * (p.x - c.x) - Real.sin θ * (p.y - c.y)), c.y + (Real.sin θ * (p.x - c.x) + Real.cos θ * (p.y - c.y))⟩

/-- `pts` are the ends of the `m` equal steps along the arc of radius `r` that goes from `v1` to `v2` in the direction
given and is shorter than a half circle. -/
def IsArc (ccw : Bool) (v1 v2 : Vec2 ℝ) (r : ℝ) (m : ℕ) (pts : List (Vec2 ℝ)) : Prop :=
  ∃ c : Vec2 ℝ, ∃ a : ℝ, 0 < a ∧ a < Real.pi ∧ (v1.x - c.x) ^ 2 + (v1.y - c.y) ^ 2 = r ^ 2 ∧
    turnAbout c (if ccw then a else -a) v1 = v2 ∧
    pts = (List.range m).map fun i : ℕ => turnAbout c ((if ccw then a else -a) * ((i + 1) / m)) v1

/-- A piece of an outline: a point; an arc from the point before to the next one; an arc back to the first point. -/
inductive Piece
  | pt (p : Vec2 ℝ)
  | arc (ccw : Bool) (r : ℝ) (m : ℕ) (v : Vec2 ℝ)
  | close (ccw : Bool) (r : ℝ) (m : ℕ)

/-- There is an arc of radius `r` shorter than a half circle between the two points. -/
def Spans (v1 v2 : Vec2 ℝ) (r : ℝ) : Prop :=
  v1 ≠ v2 ∧ (v2.x - v1.x) ^ 2 + (v2.y - v1.y) ^ 2 < 4 * r ^ 2

/-- Every arc begins at a point, is divided, and has a radius large enough; only the last one goes back.  The argument
is the first point and the last one. -/
def Feasible : Option (Vec2 ℝ × Vec2 ℝ) → List Piece → Prop
  | _, [] => True
  | none, .pt p :: ps => Feasible (some (p, p)) ps
  | some (f, _), .pt p :: ps => Feasible (some (f, p)) ps
  | none, _ :: _ => False
  | some (f, v1), .arc _ r m v :: ps => 1 ≤ m ∧ Spans v1 v r ∧ Feasible (some (f, v)) ps
  | some (f, v1), .close _ r m :: ps => 1 ≤ m ∧ Spans v1 f r ∧ ps = []

/-- The pieces, drawn behind the points `l`, give the points `l'`. -/
inductive Draws : List (Vec2 ℝ) → List Piece → List (Vec2 ℝ) → Prop
  | nil (l) : Draws l [] l
  | pt (l p ps l') : Draws (l ++ [p]) ps l' → Draws l (.pt p :: ps) l'
  | arc (l v1 ccw r m v ps l' pts) : IsArc ccw v1 v r m pts → Draws (l ++ [v1] ++ pts) ps l' →
      Draws (l ++ [v1]) (.arc ccw r m v :: ps) l'
  | close (l f v1 ccw r m pts) : l.head? = some f → l.getLast? = some v1 → IsArc ccw v1 f r m (pts ++ [f]) →
      Draws l [.close ccw r m] (l ++ pts)

end
end Zeo.Spec
