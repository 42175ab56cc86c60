import Verif.Spec.Hull

/-! # Specification vocabulary for the penetration depth -/

namespace Zeo.Spec

/-- The differences of a point of the first and a point of the second set. -/
def differences (xs ys : List (Vec3 ℝ)) : Set (Vec3 ℝ) := {w | ∃ a ∈ xs, ∃ b ∈ ys, w = a.sub b}

/-- `c1` and `c2` are points of the two convex hulls, and `c1 - c2` is a shortest translation of the second set that takes the
two hulls apart: after it, a plane has them on different sides, while after every translation not longer than it the hulls
still have a point in common. -/
structure IsDepth (xs ys : List (Vec3 ℝ)) (c1 c2 : Vec3 ℝ) : Prop where
  in1 : InHull {x | x ∈ xs} c1
  in2 : InHull {x | x ∈ ys} c2
  apart : ∃ u h, 0 ≤ h ∧ dot u u = 1 ∧ c1.sub c2 = u.mul h ∧
    ∀ a b, InHull {x | x ∈ xs} a → InHull {x | x ∈ ys} b → dot u a ≤ dot u (b.add (c1.sub c2))
  least : ∀ s, dot s s ≤ dot (c1.sub c2) (c1.sub c2) →
    ∃ a b, InHull {x | x ∈ xs} a ∧ InHull {x | x ∈ ys} b ∧ a = b.add s

end Zeo.Spec
