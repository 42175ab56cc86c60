import Verif.Spec.Geometry

/-! # Delaunay triangulations -/

namespace Zeo.Spec

/-- Twice the signed area of the triangle, positive when it is counterclockwise. -/
def area2 (a b c : Vec2 ℝ) : ℝ := (b.x - a.x) * (c.y - a.y) - (b.y - a.y) * (c.x - a.x)

/-- The points of the triangle off its edges. -/
def inner2 (a b c : Vec2 ℝ) : Set (Vec2 ℝ) :=
  {q | ∃ x y z, 0 < x ∧ 0 < y ∧ 0 < z ∧ x + y + z = 1 ∧ q = comb2 x y z a b c}

/-- There is a circle through the three points with no point of the list inside it. -/
def EmptyCircle (ps : List (Vec2 ℝ)) (a b c : Vec2 ℝ) : Prop :=
  ∃ m, sqd2 m b = sqd2 m a ∧ sqd2 m c = sqd2 m a ∧ ∀ p ∈ ps, sqd2 m a ≤ sqd2 m p

/-- There is a circle through the three points with all other points of the list outside it. -/
def LonelyCircle (ps : List (Vec2 ℝ)) (a b c : Vec2 ℝ) : Prop :=
  ∃ m, sqd2 m b = sqd2 m a ∧ sqd2 m c = sqd2 m a ∧ ∀ p ∈ ps, p = a ∨ p = b ∨ p = c ∨ sqd2 m a < sqd2 m p

/-- A list of triangles is a Delaunay triangulation of `xs` in the presence of the points `sp`. -/
structure IsDelaunay (xs sp : List (Vec2 ℝ)) (ts : List (Vec2 ℝ × Vec2 ℝ × Vec2 ℝ)) : Prop where
  corners : ∀ t ∈ ts, t.1 ∈ xs ∧ t.2.1 ∈ xs ∧ t.2.2 ∈ xs
  ccw : ∀ t ∈ ts, 0 < area2 t.1 t.2.1 t.2.2
  empty : ∀ t ∈ ts, EmptyCircle (xs ++ sp) t.1 t.2.1 t.2.2
  disjoint : ts.Pairwise fun s t => ∀ q, q ∈ inner2 s.1 s.2.1 s.2.2 → q ∉ inner2 t.1 t.2.1 t.2.2
  complete : ∀ a ∈ xs, ∀ b ∈ xs, ∀ c ∈ xs, 0 < area2 a b c → LonelyCircle (xs ++ sp) a b c →
    (a, b, c) ∈ ts ∨ (b, c, a) ∈ ts ∨ (c, a, b) ∈ ts

/-- Every point is in, or at a distance of at least `τ` from, every triangle of the points. -/
def Resolves2 (τ : ℝ) (ps : List (Vec2 ℝ)) : Prop :=
  ∀ a ∈ ps, ∀ b ∈ ps, ∀ c ∈ ps, ∀ p ∈ ps, 0 < area2 a b c →
    p ∈ triangle2 a b c ∨ ∀ q ∈ triangle2 a b c, τ ≤ ed2 p q

end Zeo.Spec
