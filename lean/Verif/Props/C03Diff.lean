import Verif.Props.C03
import Verif.Model.EP

/-! # C03, continued: numerical differentiation of 6D vectors and Euler parameters -/

namespace Zeo

/-- For 6D vectors: the quotient of the difference, with which the new vector is got back; failure exactly on `dt = 0`, when the
difference has already been stored. -/
theorem C03_dif6 {K : Type*} [Field K] [DecidableEq K] (v w : Vec6 K) (dt : K) :
    ((v.dif w dt).1 = false ↔ dt = 0) ∧ (dt = 0 → (v.dif w dt).2 = w.sub v) ∧ (dt ≠ 0 → v.cat dt (v.dif w dt).2 = w) := by
  by_cases h : dt = 0
  · simp [Vec6.dif, Vec6.div, h]
  · simp only [Vec6.dif, Vec6.div, h, if_false]
    refine ⟨by simp, fun e => e.elim, fun _ => ?_⟩
    ext <;> simp only [zeo] <;> field_simp <;> ring

/-- For Euler parameters: the quotient of the difference, with which the new parameters are got back; failure exactly for times within
the tolerance, unlike for vectors. -/
theorem C03_difEP (τ : ℝ) (a b : EP ℝ) (dt : ℝ) :
    (a.dif τ b dt = none ↔ |dt| ≤ τ) ∧
    (0 ≤ τ → ∀ d, a.dif τ b dt = some d → a.w + dt * d.w = b.w ∧ a.v.x + dt * d.v.x = b.v.x ∧ a.v.y + dt * d.v.y = b.v.y ∧
      a.v.z + dt * d.v.z = b.v.z) := by
  by_cases h : zIsTol dt τ
  · have e : a.dif τ b dt = none := by rw [EP.dif, if_pos h]
    rw [e]
    exact ⟨⟨fun _ => h, fun _ => rfl⟩, by simp⟩
  · have e : a.dif τ b dt = some ((b.sub a).mul (1 / dt)) := by rw [EP.dif, if_neg h]
    rw [e]
    refine ⟨⟨fun h => by simp at h, fun k => absurd k h⟩, fun hτ d e => ?_⟩
    have hd : dt ≠ 0 := by rintro rfl; exact h (by simpa [zIsTol] using hτ)
    obtain rfl := Option.some.inj e
    simp only [EP.mul, EP.sub, zeo]
    refine ⟨?_, ?_, ?_, ?_⟩ <;> field_simp <;> ring

/-- A time within the tolerance and one beyond it. -/
example : EP.dif (1/10) ⟨1, .zero⟩ ⟨0, .ex⟩ (1/20) = none ∧ ∃ d, EP.dif (1/10) ⟨1, .zero⟩ ⟨0, .ex⟩ (1/2) = some d := by
  constructor
  · exact (C03_difEP _ _ _ _).1.2 (by rw [abs_of_pos] <;> norm_num)
  · refine Option.ne_none_iff_exists'.1 fun h => ?_
    have := (C03_difEP _ _ _ _).1.1 h
    rw [abs_of_pos (by norm_num)] at this
    norm_num at this

end Zeo
