import Verif.Model.Vec3
import Mathlib.Algebra.BigOperators.Group.List.Basic

/-! # What fitting a sphere means -/

namespace Zeo.Spec
open Zeo

/-- No plane contains all the points. -/
def NotCoplanar (xs : List (Vec3 ℝ)) : Prop :=
  ∀ a b c k : ℝ, (∀ v ∈ xs, a * v.x + b * v.y + c * v.z = k) → a = 0 ∧ b = 0 ∧ c = 0

/-- Every point is at the distance `R` from `q`. -/
def OnSphere (q : Vec3 ℝ) (R : ℝ) (xs : List (Vec3 ℝ)) : Prop :=
  ∀ v ∈ xs, (v.x - q.x) ^ 2 + (v.y - q.y) ^ 2 + (v.z - q.z) ^ 2 = R ^ 2

/-- The left side of a linear equation in four unknowns. -/
def lhs (a x : Vec3 ℝ × ℝ) : ℝ := a.1.x * x.1.x + a.1.y * x.1.y + a.1.z * x.1.z + a.2 * x.2

/-- A solver which satisfies all equations whenever that is possible. -/
def Solves (solve : List ((Vec3 ℝ × ℝ) × ℝ) → Vec3 ℝ × ℝ) : Prop :=
  ∀ sys, (∃ x, ∀ p ∈ sys, lhs p.1 x = p.2) → ∀ p ∈ sys, lhs p.1 (solve sys) = p.2

/-- The sum of the squared errors of the equations. -/
def sqErr (sys : List ((Vec3 ℝ × ℝ) × ℝ)) (x : Vec3 ℝ × ℝ) : ℝ := (sys.map fun p => (lhs p.1 x - p.2) ^ 2).sum

/-- How badly a sphere fits: the sum of (squared distance from the centre − squared radius)². -/
def misfit (xs : List (Vec3 ℝ)) (q : Vec3 ℝ) (r : ℝ) : ℝ :=
  (xs.map fun v => ((v.x - q.x) ^ 2 + (v.y - q.y) ^ 2 + (v.z - q.z) ^ 2 - r ^ 2) ^ 2).sum

end Zeo.Spec
