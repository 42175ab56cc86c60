import Verif.Spec.Geometry
import Verif.Spec.Linear
import Mathlib.MeasureTheory.Measure.Lebesgue.Basic
import Mathlib.MeasureTheory.Integral.Bochner.Set

/-! # Specification side: mass properties as integrals

Lebesgue integrals over a set of points of space (coordinates `p 0, p 1, p 2`). -/

namespace Zeo.Spec
open MeasureTheory

/-- The coordinates of the points of a set. -/
def pts (S : Set (Vec3 ℝ)) : Set (Fin 3 → ℝ) := {p | (⟨p 0, p 1, p 2⟩ : Vec3 ℝ) ∈ S}

/-- `∫_S f dV`. -/
noncomputable def integral (S : Set (Vec3 ℝ)) (f : Vec3 ℝ → ℝ) : ℝ := ∫ p in pts S, f ⟨p 0, p 1, p 2⟩

/-- `V` is the volume of `S`: `V = ∫_S dV`. -/
def IsVolume (S : Set (Vec3 ℝ)) (V : ℝ) : Prop := integral S (fun _ => 1) = V

/-- `c` is the centroid of `S`: `c ∫_S dV = ∫_S q dV` with non-zero volume. -/
def IsCentroid (S : Set (Vec3 ℝ)) (c : Vec3 ℝ) : Prop :=
  integral S (fun _ => 1) ≠ 0 ∧
  integral S (fun q => q.x) = integral S (fun _ => 1) * c.x ∧ integral S (fun q => q.y) = integral S (fun _ => 1) * c.y ∧
  integral S (fun q => q.z) = integral S (fun _ => 1) * c.z

/-- The entry `(i,j)` of the inertia tensor about `c` of the solid `S` with uniform density `ρ`:
`ρ ∫_S (|q-c|² δ_ij - (q-c)_i (q-c)_j) dV`. -/
noncomputable def inertia (S : Set (Vec3 ℝ)) (ρ : ℝ) (c : Vec3 ℝ) (i j : Fin 3) : ℝ :=
  ρ * integral S (fun q => (if i = j then sqd q c else 0) - (q.toFin i - c.toFin i) * (q.toFin j - c.toFin j))

/-- `I` is the inertia tensor of `S` about `c`. -/
def IsInertia (S : Set (Vec3 ℝ)) (ρ : ℝ) (c : Vec3 ℝ) (I : Mat3 ℝ) : Prop := ∀ i j, I.toMatrix i j = inertia S ρ c i j

end Zeo.Spec
