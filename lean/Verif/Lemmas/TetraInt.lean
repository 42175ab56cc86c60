import Verif.Lemmas.Mesh
import Mathlib.MeasureTheory.Integral.IntervalIntegral.FundThmCalculus
import Mathlib.Analysis.SpecialFunctions.Integrals.Basic

/-! Integral of a product of two affine functions over a tetrahedron. -/

namespace Zeo
open Spec

private theorem int_poly (a b c d e L : ℝ) :
    ∫ u in (0:ℝ)..L, (a + b * u + c * u^2 + d * u^3 + e * u^4) = a * L + b * L^2 / 2 + c * L^3 / 3 + d * L^4 / 4 + e * L^5 / 5 := by
  have hd : ∀ x ∈ Set.uIcc (0:ℝ) L, HasDerivAt (fun u : ℝ => a * u + b * u^2 / 2 + c * u^3 / 3 + d * u^4 / 4 + e * u^5 / 5)
      (a + b * x + c * x^2 + d * x^3 + e * x^4) x := by
    intro x _
    have h1 := (hasDerivAt_id x).const_mul a
    have h2 := ((hasDerivAt_pow 2 x).const_mul b).div_const 2
    have h3 := ((hasDerivAt_pow 3 x).const_mul c).div_const 3
    have h4 := ((hasDerivAt_pow 4 x).const_mul d).div_const 4
    have h5 := ((hasDerivAt_pow 5 x).const_mul e).div_const 5
    have h := ((((h1.add h2).add h3).add h4).add h5)
    refine h.congr_deriv ?_
    norm_num
    ring
  rw [intervalIntegral.integral_eq_sub_of_hasDerivAt hd (by apply Continuous.intervalIntegrable; fun_prop)]
  ring

private theorem int_rev (g : ℝ → ℝ) (L : ℝ) : ∫ t in (0:ℝ)..L, g (L - t) = ∫ t in (0:ℝ)..L, g t := by
  rw [intervalIntegral.integral_comp_sub_left]; simp

private theorem int_simplex (a0 p1 p2 p3 b0 q1 q2 q3 : ℝ) :
    ∫ s in (0:ℝ)..1, ∫ t in (0:ℝ)..(1 - s), ∫ u in (0:ℝ)..(1 - s - t),
      (a0 + s * p1 + t * p2 + u * p3) * (b0 + s * q1 + t * q2 + u * q3) =
    quad20 (a0 + p1) (a0 + p2) (a0 + p3) a0 (b0 + q1) (b0 + q2) (b0 + q3) b0 / 120 := by
  have h1 : ∀ s t : ℝ, ∫ u in (0:ℝ)..(1 - s - t), (a0 + s * p1 + t * p2 + u * p3) * (b0 + s * q1 + t * q2 + u * q3) =
      (fun w : ℝ => 0 + ((a0 + s * p1 + (1 - s) * p2) * (b0 + s * q1 + (1 - s) * q2)) * w +
        (-(a0 + s * p1 + (1 - s) * p2) * q2 - (b0 + s * q1 + (1 - s) * q2) * p2 +
          ((a0 + s * p1 + (1 - s) * p2) * q3 + (b0 + s * q1 + (1 - s) * q2) * p3) / 2) * w^2 +
        (p2 * q2 - (p2 * q3 + q2 * p3) / 2 + p3 * q3 / 3) * w^3 + 0 * w^4) (1 - s - t) := by
    intro s t
    have := int_poly ((a0 + s * p1 + t * p2) * (b0 + s * q1 + t * q2))
      ((a0 + s * p1 + t * p2) * q3 + (b0 + s * q1 + t * q2) * p3) (p3 * q3) 0 0 (1 - s - t)
    rw [show (fun u : ℝ => (a0 + s * p1 + t * p2 + u * p3) * (b0 + s * q1 + t * q2 + u * q3)) =
      fun u => ((a0 + s * p1 + t * p2) * (b0 + s * q1 + t * q2)) +
        ((a0 + s * p1 + t * p2) * q3 + (b0 + s * q1 + t * q2) * p3) * u + (p3 * q3) * u^2 + 0 * u^3 + 0 * u^4 from by
        funext u; ring, this]
    ring
  have h2 : ∀ s : ℝ, (∫ t in (0:ℝ)..(1 - s), ∫ u in (0:ℝ)..(1 - s - t),
      (a0 + s * p1 + t * p2 + u * p3) * (b0 + s * q1 + t * q2 + u * q3)) =
      (fun r : ℝ => 0 + 0 * r + ((a0 + p1) * (b0 + q1) / 2) * r^2 +
        (((a0 + p1) * (q2 - q1) + (b0 + q1) * (p2 - p1)) / 2 + ((a0 + p1) * (-q2 + q3 / 2) + (b0 + q1) * (-p2 + p3 / 2)) / 3) * r^3 +
        ((p2 - p1) * (q2 - q1) / 2 + ((p2 - p1) * (-q2 + q3 / 2) + (q2 - q1) * (-p2 + p3 / 2)) / 3 +
          (p2 * q2 - (p2 * q3 + q2 * p3) / 2 + p3 * q3 / 3) / 4) * r^4) (1 - s) := by
    intro s
    simp only [h1]
    rw [int_rev (fun w : ℝ => 0 + ((a0 + s * p1 + (1 - s) * p2) * (b0 + s * q1 + (1 - s) * q2)) * w +
        (-(a0 + s * p1 + (1 - s) * p2) * q2 - (b0 + s * q1 + (1 - s) * q2) * p2 +
          ((a0 + s * p1 + (1 - s) * p2) * q3 + (b0 + s * q1 + (1 - s) * q2) * p3) / 2) * w^2 +
        (p2 * q2 - (p2 * q3 + q2 * p3) / 2 + p3 * q3 / 3) * w^3 + 0 * w^4) (1 - s), int_poly]
    ring
  simp only [h2]
  rw [int_rev (fun r : ℝ => 0 + 0 * r + ((a0 + p1) * (b0 + q1) / 2) * r^2 +
        (((a0 + p1) * (q2 - q1) + (b0 + q1) * (p2 - p1)) / 2 + ((a0 + p1) * (-q2 + q3 / 2) + (b0 + q1) * (-p2 + p3 / 2)) / 3) * r^3 +
        ((p2 - p1) * (q2 - q1) / 2 + ((p2 - p1) * (-q2 + q3 / 2) + (q2 - q1) * (-p2 + p3 / 2)) / 3 +
          (p2 * q2 - (p2 * q3 + q2 * p3) / 2 + p3 * q3 / 3) / 4) * r^4) 1, int_poly]
  unfold quad20
  ring

/-- The moments used for polyhedra are integrals over the cones. -/
theorem tetraInt_aev (a b c : Vec3 ℝ) (A B : Vec3 ℝ × ℝ) :
    tetraInt a b c (fun x => aev A x * aev B x) = coneMom .zero A B (a, b, c) := by
  unfold tetraInt
  have e : ∀ s t u : ℝ, aev A ⟨s * a.x + t * b.x + u * c.x, s * a.y + t * b.y + u * c.y, s * a.z + t * b.z + u * c.z⟩ *
      aev B ⟨s * a.x + t * b.x + u * c.x, s * a.y + t * b.y + u * c.y, s * a.z + t * b.z + u * c.z⟩ =
      (A.2 + s * (aev A a - A.2) + t * (aev A b - A.2) + u * (aev A c - A.2)) *
      (B.2 + s * (aev B a - B.2) + t * (aev B b - B.2) + u * (aev B c - B.2)) := by
    intro s t u; simp only [aev]; ring
  simp only [e]
  rw [int_simplex]
  have z : ∀ A : Vec3 ℝ × ℝ, aev A .zero = A.2 := by intro A; simp [aev, Vec3.zero]
  have zz : ∀ a : Vec3 ℝ, a.sub .zero = a := by intro a; ext <;> simp [Vec3.sub, Vec3.zero]
  simp only [coneMom, z, zz, add_sub_cancel]
  ring

end Zeo
