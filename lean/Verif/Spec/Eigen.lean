import Verif.Spec.Linear
import Mathlib.Data.Real.Basic

/-! Specification of an orthonormal eigenbasis, in coordinates. -/

namespace Zeo
open Matrix

/-- `u 0`, `u 1`, `u 2` are orthonormal eigenvectors of `m` for the eigenvalues `l`. -/
structure Eigenbasis (m : Mat3 ℝ) (u : Fin 3 → Vec3 ℝ) (l : Fin 3 → ℝ) : Prop where
  orth : ∀ i j, (u i).toFin ⬝ᵥ (u j).toFin = if i = j then 1 else 0
  eig : ∀ i, m.toMatrix *ᵥ (u i).toFin = l i • (u i).toFin

end Zeo
