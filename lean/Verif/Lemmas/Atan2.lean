import Verif.Model.Vec3
import Mathlib.Analysis.SpecialFunctions.Complex.Arg

/-! Facts about `atan2 y x = Complex.arg (x + iy)`. -/

namespace Zeo

theorem atan2_cos_sin (x y : ℝ) :
    Real.sqrt (x * x + y * y) * Real.cos (atan2 y x) = x ∧
    Real.sqrt (x * x + y * y) * Real.sin (atan2 y x) = y := by
  have hn : ‖(⟨x, y⟩ : ℂ)‖ = Real.sqrt (x * x + y * y) := by
    rw [Complex.norm_def, Complex.normSq_mk]
  exact ⟨by rw [← hn]; exact Complex.norm_mul_cos_arg _, by rw [← hn]; exact Complex.norm_mul_sin_arg _⟩

theorem atan2_unit {x y : ℝ} (h : x * x + y * y = 1) :
    Real.cos (atan2 y x) = x ∧ Real.sin (atan2 y x) = y := by
  have := atan2_cos_sin x y
  rw [h, Real.sqrt_one, one_mul, one_mul] at this; exact this

theorem atan2_of_polar {r θ : ℝ} (hr : 0 < r) (h1 : -Real.pi < θ) (h2 : θ ≤ Real.pi) :
    atan2 (r * Real.sin θ) (r * Real.cos θ) = θ := by
  have e : (⟨r * Real.cos θ, r * Real.sin θ⟩ : ℂ) = r * (Complex.cos θ + Complex.sin θ * Complex.I) := by
    apply Complex.ext <;> simp [← Complex.ofReal_cos, ← Complex.ofReal_sin]
  rw [atan2, e]
  exact Complex.arg_mul_cos_add_sin_mul_I hr ⟨h1, h2⟩

theorem atan2_mem (x y : ℝ) : -Real.pi < atan2 y x ∧ atan2 y x ≤ Real.pi :=
  ⟨Complex.neg_pi_lt_arg _, Complex.arg_le_pi _⟩

theorem atan2_nonneg {x y : ℝ} (h : 0 ≤ y) : 0 ≤ atan2 y x := Complex.arg_nonneg_iff.2 h

end Zeo
