import Verif.Spec.Geometry
import Mathlib.Algebra.BigOperators.Fin

/-! # Specification side: convex hulls -/

namespace Zeo.Spec

/-- `q` is a convex combination of points of `S`. -/
def InHull (S : Set (Vec3 ℝ)) (q : Vec3 ℝ) : Prop :=
  ∃ (n : ℕ) (L : Fin n → ℝ) (p : Fin n → Vec3 ℝ), (∀ i, p i ∈ S) ∧ (∀ i, 0 ≤ L i) ∧ ∑ i, L i = 1 ∧
    q = ⟨∑ i, L i * (p i).x, ∑ i, L i * (p i).y, ∑ i, L i * (p i).z⟩

/-- The inner product. -/
noncomputable def dot (p q : Vec3 ℝ) : ℝ := p.x * q.x + p.y * q.y + p.z * q.z

end Zeo.Spec
