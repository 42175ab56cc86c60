import Verif.Model.Frame
import Mathlib.Data.Set.Basic
import Mathlib.Analysis.Real.Sqrt

/-! # Specification side: Euclidean distance and nearest points

Independent of the model's own distance functions. -/

namespace Zeo.Spec
variable {K : Type*} [Field K] [LinearOrder K] [IsStrictOrderedRing K]

/-- Squared Euclidean distance in space. -/
def sqd (p q : Vec3 K) : K := (p.x - q.x)^2 + (p.y - q.y)^2 + (p.z - q.z)^2
/-- Squared Euclidean distance in the plane. -/
def sqd2 (p q : Vec2 K) : K := (p.x - q.x)^2 + (p.y - q.y)^2
/-- Euclidean distance in space. -/
noncomputable def ed (p q : Vec3 ℝ) : ℝ := Real.sqrt (sqd p q)
/-- Euclidean distance in the plane. -/
noncomputable def ed2 (p q : Vec2 ℝ) : ℝ := Real.sqrt (sqd2 p q)

/-- `c` is a point of `S`, and no point of `S` is nearer to `p`. -/
def IsNearest (S : Set (Vec3 K)) (p c : Vec3 K) : Prop := c ∈ S ∧ ∀ q ∈ S, sqd p c ≤ sqd p q
/-- `c` is a point of `S`, and no point of `S` is nearer to `p` (plane). -/
def IsNearest2 (S : Set (Vec2 K)) (p c : Vec2 K) : Prop := c ∈ S ∧ ∀ q ∈ S, sqd2 p c ≤ sqd2 p q

/-- `a v0 + b v1 + c v2 + d v3` in space. -/
def comb (a b c d : K) (v0 v1 v2 v3 : Vec3 K) : Vec3 K :=
  ⟨a * v0.x + b * v1.x + c * v2.x + d * v3.x, a * v0.y + b * v1.y + c * v2.y + d * v3.y,
   a * v0.z + b * v1.z + c * v2.z + d * v3.z⟩
/-- `a v0 + b v1 + c v2` in the plane. -/
def comb2 (a b c : K) (v0 v1 v2 : Vec2 K) : Vec2 K :=
  ⟨a * v0.x + b * v1.x + c * v2.x, a * v0.y + b * v1.y + c * v2.y⟩
/-- The segment with ends `v0`, `v1`. -/
def segment (v0 v1 : Vec3 K) : Set (Vec3 K) :=
  {q | ∃ a b, 0 ≤ a ∧ 0 ≤ b ∧ a + b = 1 ∧ q = comb a b 0 0 v0 v1 v0 v0}
/-- The segment with ends `v0`, `v1` in the plane. -/
def segment2 (v0 v1 : Vec2 K) : Set (Vec2 K) :=
  {q | ∃ a b, 0 ≤ a ∧ 0 ≤ b ∧ a + b = 1 ∧ q = comb2 a b 0 v0 v1 v0}
/-- The filled triangle with the given vertices. -/
def triangle (v0 v1 v2 : Vec3 K) : Set (Vec3 K) :=
  {q | ∃ a b c, 0 ≤ a ∧ 0 ≤ b ∧ 0 ≤ c ∧ a + b + c = 1 ∧ q = comb a b c 0 v0 v1 v2 v0}
/-- The filled triangle with the given vertices in the plane. -/
def triangle2 (v0 v1 v2 : Vec2 K) : Set (Vec2 K) :=
  {q | ∃ a b c, 0 ≤ a ∧ 0 ≤ b ∧ 0 ≤ c ∧ a + b + c = 1 ∧ q = comb2 a b c v0 v1 v2}
/-- The solid tetrahedron with the given vertices. -/
def tetra (v0 v1 v2 v3 : Vec3 K) : Set (Vec3 K) :=
  {q | ∃ a b c d, 0 ≤ a ∧ 0 ≤ b ∧ 0 ≤ c ∧ 0 ≤ d ∧ a + b + c + d = 1 ∧ q = comb a b c d v0 v1 v2 v3}

/-- The straight line through `a` with direction `d`. -/
def line (a d : Vec3 K) : Set (Vec3 K) := {q | ∃ t, q = ⟨a.x + t * d.x, a.y + t * d.y, a.z + t * d.z⟩}
/-- The straight line through `a` with direction `d` in the plane. -/
def line2 (a d : Vec2 K) : Set (Vec2 K) := {q | ∃ t, q = ⟨a.x + t * d.x, a.y + t * d.y⟩}
/-- The plane through `a` with normal `n`. -/
def plane (a n : Vec3 K) : Set (Vec3 K) := {q | (q.x - a.x) * n.x + (q.y - a.y) * n.y + (q.z - a.z) * n.z = 0}

end Zeo.Spec
