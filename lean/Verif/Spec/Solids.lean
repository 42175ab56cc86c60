import Verif.Spec.Geometry

/-! # Specification side: solids of revolution -/

namespace Zeo.Spec

/-- The segments `pq` and `rs` are perpendicular. -/
def Perp (p q r s : Vec3 ℝ) : Prop :=
  (q.x - p.x) * (s.x - r.x) + (q.y - p.y) * (s.y - r.y) + (q.z - p.z) * (s.z - r.z) = 0

/-- The solid cylinder: points whose foot on the axis lies between the base centers, within distance
`R` of that foot. -/
def cylinder (c0 c1 : Vec3 ℝ) (R : ℝ) : Set (Vec3 ℝ) :=
  {q | ∃ m ∈ segment c0 c1, Perp m q c0 c1 ∧ ed m q ≤ R}

/-- The solid cone with base center `c`, apex `v` and base radius `R`: the cross section at the
fraction `b` of the height is a disk of radius `(1 - b) R`. -/
def cone (c v : Vec3 ℝ) (R : ℝ) : Set (Vec3 ℝ) :=
  {q | ∃ a b, 0 ≤ a ∧ 0 ≤ b ∧ a + b = 1 ∧ Perp (comb a b 0 0 c v c c) q c v ∧ ed (comb a b 0 0 c v c c) q ≤ a * R}

/-- The capsule: points within distance `R` of the segment. -/
def capsule (c0 c1 : Vec3 ℝ) (R : ℝ) : Set (Vec3 ℝ) := {q | ∃ m ∈ segment c0 c1, ed m q ≤ R}

end Zeo.Spec
