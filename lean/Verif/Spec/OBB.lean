import Verif.Spec.QHull
import Verif.Model.Shape

/-! # Specification of oriented bounding boxes -/

namespace Zeo.Spec

/-- The extent of a set of points along a direction. -/
def Width (S : Set (Vec3 ℝ)) (u : Vec3 ℝ) (w : ℝ) : Prop :=
  ∃ a ∈ S, ∃ b ∈ S, (∀ p ∈ S, dot u a ≤ dot u p ∧ dot u p ≤ dot u b) ∧ w = dot u b - dot u a

/-- A plane with unit normal vector `n` carries three points of the set that are not on a line, and no point of the
set is beyond it. -/
def Supports (S : Set (Vec3 ℝ)) (n : Vec3 ℝ) : Prop :=
  dot n n = 1 ∧ ∃ a ∈ S, ∃ b ∈ S, ∃ c ∈ S, triNormal (a, b, c) ≠ .zero ∧ dot n b = dot n a ∧ dot n c = dot n a ∧
    ∀ p ∈ S, dot n p ≤ dot n a

/-- A box encloses the points tightly along an axis: no point is further from the centre than half of the span, and
some points are that far on either side. -/
def Tight (S : Set (Vec3 ℝ)) (centre axis : Vec3 ℝ) (span : ℝ) : Prop :=
  (∀ p ∈ S, |dot axis (p.sub centre)| ≤ span / 2) ∧
    (∃ p ∈ S, dot axis (p.sub centre) = span / 2) ∧ ∃ p ∈ S, dot axis (p.sub centre) = -(span / 2)

end Zeo.Spec
