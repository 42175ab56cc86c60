import Verif.Spec.Delaunay
import Mathlib.Algebra.BigOperators.Fin

/-! # Voronoi diagrams -/

namespace Zeo.Spec

/-- `q` is a convex combination of points of `S`. -/
def InHull2 (S : Set (Vec2 ℝ)) (q : Vec2 ℝ) : Prop :=
  ∃ (n : ℕ) (L : Fin n → ℝ) (p : Fin n → Vec2 ℝ), (∀ i, p i ∈ S) ∧ (∀ i, 0 ≤ L i) ∧ ∑ i, L i = 1 ∧
    q = ⟨∑ i, L i * (p i).x, ∑ i, L i * (p i).y⟩

/-- The points with none of `ps` nearer than `p`. -/
def voronoiCell (ps : List (Vec2 ℝ)) (p : Vec2 ℝ) : Set (Vec2 ℝ) := {x | ∀ q ∈ ps, sqd2 x p ≤ sqd2 x q}

/-- The edges of a closed polygon. -/
def loopEdges : List (Vec2 ℝ) → List (Vec2 ℝ × Vec2 ℝ)
  | [] => []
  | a :: l => (a :: l).zip (l ++ [a])

/-- A list of points with polygons around them is the Voronoi diagram of `xs` in the presence of the points `sp`: the
polygon of a point spans the cell of the point, each edge is a part of the bisector of the point and another one, and the
polygon is to the right of its edges. -/
structure IsVoronoi (xs sp : List (Vec2 ℝ)) (cs : List (Vec2 ℝ × List (Vec2 ℝ))) : Prop where
  seeds : cs.map Prod.fst = xs
  cell : ∀ c ∈ cs, ∀ x, InHull2 {m | m ∈ c.2} x ↔ x ∈ voronoiCell (xs ++ sp) c.1
  bisector : ∀ c ∈ cs, ∀ e ∈ loopEdges c.2, ∃ q ∈ xs ++ sp, q ≠ c.1 ∧ sqd2 e.1 q = sqd2 e.1 c.1 ∧ sqd2 e.2 q = sqd2 e.2 c.1
  right : ∀ c ∈ cs, ∀ e ∈ loopEdges c.2, ∀ m ∈ c.2, area2 e.1 e.2 m ≤ 0

end Zeo.Spec
