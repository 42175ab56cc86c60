import Mathlib.Analysis.SpecialFunctions.Trigonometric.Basic
import Mathlib.LinearAlgebra.Matrix.Notation
import Mathlib.LinearAlgebra.CrossProduct

/-! # Specification: elementary rotation matrices (row index first) -/

namespace Zeo.Spec
open Real

/-- Rotation by `θ` about the x axis. -/
noncomputable def Rx (θ : ℝ) : Matrix (Fin 3) (Fin 3) ℝ :=
  !![1, 0, 0; 0, cos θ, -sin θ; 0, sin θ, cos θ]
/-- Rotation by `θ` about the y axis. -/
noncomputable def Ry (θ : ℝ) : Matrix (Fin 3) (Fin 3) ℝ :=
  !![cos θ, 0, sin θ; 0, 1, 0; -sin θ, 0, cos θ]
/-- Rotation by `θ` about the z axis. -/
noncomputable def Rz (θ : ℝ) : Matrix (Fin 3) (Fin 3) ℝ :=
  !![cos θ, -sin θ, 0; sin θ, cos θ, 0; 0, 0, 1]
/-- Rotation of the plane by `θ`. -/
noncomputable def R2 (θ : ℝ) : Matrix (Fin 2) (Fin 2) ℝ := !![cos θ, -sin θ; sin θ, cos θ]

/-- Rodrigues' formula: `w` rotated by `θ` about the unit axis `n`. -/
noncomputable def rodrigues (n : Fin 3 → ℝ) (θ : ℝ) (w : Fin 3 → ℝ) : Fin 3 → ℝ :=
  cos θ • w + sin θ • (crossProduct n w) + ((1 - cos θ) * (n ⬝ᵥ w)) • n

end Zeo.Spec
