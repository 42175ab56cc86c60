import Verif.Spec.Hull
import Verif.Spec.BRep

/-! # Specification vocabulary for convex hulls of points in space -/

namespace Zeo.Spec
noncomputable section

/-- Cross product. -/
def crossP (p q : Vec3 ℝ) : Vec3 ℝ := ⟨p.y * q.z - p.z * q.y, p.z * q.x - p.x * q.z, p.x * q.y - p.y * q.x⟩
/-- The vector divided by its length. -/
def unitV (v : Vec3 ℝ) : Vec3 ℝ :=
  ⟨v.x / Real.sqrt (v.x ^ 2 + v.y ^ 2 + v.z ^ 2), v.y / Real.sqrt (v.x ^ 2 + v.y ^ 2 + v.z ^ 2),
   v.z / Real.sqrt (v.x ^ 2 + v.y ^ 2 + v.z ^ 2)⟩
/-- Unit normal vector of a triangle. -/
def unitNormal (a b c : Vec3 ℝ) : Vec3 ℝ := unitV (triNormal (a, b, c))

/-- No four of the points lie in a plane. -/
def NoFourCoplanar (l : List (Vec3 ℝ)) : Prop :=
  ∀ a ∈ l, ∀ b ∈ l, ∀ c ∈ l, ∀ d ∈ l, a ≠ b → a ≠ c → a ≠ d → b ≠ c → b ≠ d → c ≠ d →
    det3 (b.sub a) (c.sub a) (d.sub a) ≠ 0

/-- The tolerance resolves the points. It is not above 1/4. Points that are equal up to the tolerance are equal.
Three points are in a line if the normal vector of the triangle vanishes up to the tolerance, or if the unit vectors
from one to the other two are parallel up to the tolerance. A point not further than the tolerance from the plane of
a proper triangle is in that plane, and if it is also closer than the tolerance to the triangle then it is in the
triangle. Two proper triangles on a common edge are in a plane if their unit normal vectors are equal or parallel up
to the tolerance. -/
structure Resolves (τ : ℝ) (l : List (Vec3 ℝ)) : Prop where
  small : τ ≤ 1 / 4
  same : ∀ a ∈ l, ∀ b ∈ l, Near τ a b → a = b
  big : ∀ a ∈ l, ∀ b ∈ l, ∀ c ∈ l, Near τ (triNormal (a, b, c)) .zero → triNormal (a, b, c) = .zero
  bend : ∀ a ∈ l, ∀ b ∈ l, ∀ c ∈ l, Near τ (crossP (unitV (b.sub a)) (unitV (c.sub a))) .zero →
    triNormal (a, b, c) = .zero
  off : ∀ a ∈ l, ∀ b ∈ l, ∀ c ∈ l, ∀ d ∈ l, triNormal (a, b, c) ≠ .zero →
    |dot (unitNormal a b c) (d.sub a)| ≤ τ → det3 (b.sub a) (c.sub a) (d.sub a) = 0
  fold : ∀ a ∈ l, ∀ b ∈ l, ∀ c ∈ l, ∀ d ∈ l, triNormal (a, b, c) ≠ .zero → triNormal (b, a, d) ≠ .zero →
    Near τ (unitNormal a b c) (unitNormal b a d) ∨ Near τ (crossP (unitNormal a b c) (unitNormal b a d)) .zero →
    det3 (b.sub a) (c.sub a) (d.sub a) = 0
  on : ∀ a ∈ l, ∀ b ∈ l, ∀ c ∈ l, ∀ d ∈ l, triNormal (a, b, c) ≠ .zero →
    det3 (b.sub a) (c.sub a) (d.sub a) = 0 → (∃ p ∈ triangle a b c, ed d p < τ) → d ∈ triangle a b c

end
end Zeo.Spec
