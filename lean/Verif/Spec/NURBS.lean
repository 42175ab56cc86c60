import Verif.Spec.Hull
import Verif.Model.NURBS
import Verif.Spec.QHull
import Mathlib.Analysis.Calculus.Deriv.Basic

/-! # Specification vocabulary for NURBS surfaces -/

namespace Zeo.Spec
noncomputable section

/-- Knots that make sense for `n` control points: there are `n + order + 1` of them, they do not decrease, and the
domain between the knots `order` and `n` is not a point. -/
structure KnotsOK (b : BSpline) (n : ℕ) : Prop where
  len : b.knot.length = n + b.order + 1
  mono : b.knot.Pairwise (· ≤ ·)
  wide : b.kn b.order < b.kn n

/-- The parameter is in the domain of the knots for `n` control points. -/
def InDomain (b : BSpline) (n : ℕ) (t : ℝ) : Prop := b.kn b.order ≤ t ∧ t ≤ b.kn n

/-- The search of a segment works: for a parameter in the domain it finds two different neighbouring knots with the
parameter between them, not before the knot `order`, and not after the knot `n`. -/
def IsSegment (seg : BSpline → ℝ → ℕ) : Prop :=
  ∀ (b : BSpline) (n : ℕ) (t : ℝ), KnotsOK b n → InDomain b n t →
    b.order ≤ seg b t ∧ seg b t < n ∧ b.kn (seg b t) < b.kn (seg b t + 1) ∧
    b.kn (seg b t) ≤ t ∧ t ≤ b.kn (seg b t + 1)

/-- Knots and net of a NURBS surface fit together. -/
structure NurbsOK (n : NURBS) : Prop where
  k0 : KnotsOK n.p0 n.n0
  k1 : KnotsOK n.p1 n.n1

/-- The end knots are repeated as often as the order says, so that the curve starts and ends in control points. -/
structure Clamped (b : BSpline) (n : ℕ) : Prop where
  first : ∀ i, i ≤ b.order → b.kn i = b.kn b.order
  start : b.kn b.order < b.kn (b.order + 1)
  last : ∀ i, n ≤ i → i ≤ n + b.order → b.kn i = b.kn n
  stop : b.kn (n - 1) < b.kn n

/-- The surface as a set: all points that are computed for parameters in the domain. -/
def nurbsSurface (seg : BSpline → ℝ → ℕ) (τ : ℝ) (n : NURBS) : Set (Vec3 ℝ) :=
  {p | ∃ u v, InDomain n.p0 n.n0 u ∧ InDomain n.p1 n.n1 v ∧ n.vec seg τ u v = some p}

/-- `d` is the derivative at `t` of a point that is defined about `t`. -/
def IsVelocity (f : ℝ → Option (Vec3 ℝ)) (d : Vec3 ℝ) (t : ℝ) : Prop :=
  (∀ᶠ s in nhds t, (f s).isSome) ∧ HasDerivAt (fun s => ((f s).getD .zero).x) d.x t ∧
  HasDerivAt (fun s => ((f s).getD .zero).y) d.y t ∧ HasDerivAt (fun s => ((f s).getD .zero).z) d.z t

/-- The point with coordinates `x`, `y`, `z` about the center `c` along the vectors `a`, `b`, `d`. -/
def at3 (c a b d : Vec3 ℝ) (x y z : ℝ) : Vec3 ℝ :=
  ⟨c.x + x * a.x + y * b.x + z * d.x, c.y + x * a.y + y * b.y + z * d.y, c.z + x * a.z + y * b.z + z * d.z⟩

/-- The surface of an ellipsoid with given center, axes and radii. -/
def ellipsoidSurface (c a b d : Vec3 ℝ) (rx ry rz : ℝ) : Set (Vec3 ℝ) :=
  {p | ∃ x y z, x ^ 2 + y ^ 2 + z ^ 2 = 1 ∧ p = at3 c a b d (rx * x) (ry * y) (rz * z)}
/-- The surface of a torus with given center, axes, radius of the ring and radius of the cross-section. -/
def torus (c a b d : Vec3 ℝ) (rr ri : ℝ) : Set (Vec3 ℝ) :=
  {p | ∃ x y r z, x ^ 2 + y ^ 2 = 1 ∧ r ^ 2 + z ^ 2 = 1 ∧
    p = at3 c a b d ((rr + ri * r) * x) ((rr + ri * r) * y) (ri * z)}
/-- The surface of a cone: the points of the base, and the points on the segments from the rim to the apex. -/
def coneSurface (c a b d : Vec3 ℝ) (r : ℝ) : Set (Vec3 ℝ) :=
  {p | ∃ x y z, 0 ≤ z ∧ z ≤ 1 ∧ (z = 0 ∧ x ^ 2 + y ^ 2 ≤ 1 ∨ x ^ 2 + y ^ 2 = (1 - z) ^ 2) ∧
    p = at3 c a b d (r * x) (r * y) z}
/-- The two bases of an elliptic cylinder. -/
def ecylBases (c a b d : Vec3 ℝ) (rx ry : ℝ) : Set (Vec3 ℝ) :=
  {p | ∃ x y z, (z = 0 ∨ z = 1) ∧ x ^ 2 + y ^ 2 ≤ 1 ∧ p = at3 c a b d (rx * x) (ry * y) z}
/-- The lateral surface of an elliptic cylinder. -/
def ecylWall (c a b d : Vec3 ℝ) (rx ry : ℝ) : Set (Vec3 ℝ) :=
  {p | ∃ x y z, 0 ≤ z ∧ z ≤ 1 ∧ x ^ 2 + y ^ 2 = 1 ∧ p = at3 c a b d (rx * x) (ry * y) z}
/-- The two faces of a box across its third axis. -/
def boxEnds (c a b d : Vec3 ℝ) (sx sy sz : ℝ) : Set (Vec3 ℝ) :=
  {p | ∃ x y z, |x| ≤ 1 / 2 ∧ |y| ≤ 1 / 2 ∧ |z| = 1 / 2 ∧ p = at3 c a b d (sx * x) (sy * y) (sz * z)}
/-- The surface of a box. -/
def boxSurface (c a b d : Vec3 ℝ) (sx sy sz : ℝ) : Set (Vec3 ℝ) :=
  {p | ∃ x y z, |x| ≤ 1 / 2 ∧ |y| ≤ 1 / 2 ∧ |z| ≤ 1 / 2 ∧ (|x| = 1 / 2 ∨ |y| = 1 / 2 ∨ |z| = 1 / 2) ∧
    p = at3 c a b d (sx * x) (sy * y) (sz * z)}

end
end Zeo.Spec
