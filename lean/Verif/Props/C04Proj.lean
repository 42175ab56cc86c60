import Verif.Props.C04

/-! # C04, continued: projection onto a direction in the plane -/

namespace Zeo
open Matrix

/-- `zVec2DProj` gives a vector along the direction such that the rest is perpendicular to it, and fails exactly if the direction is
within the tolerance. -/
theorem C04_proj2 (τ : ℝ) (hτ : 0 ≤ τ) (v n : Vec2 ℝ) :
    (v.proj τ n = none ↔ |n.x| ≤ τ ∧ |n.y| ≤ τ) ∧
    ∀ p, v.proj τ n = some p → (∃ k, p = ⟨k * n.x, k * n.y⟩) ∧ (v.x - p.x) * n.x + (v.y - p.y) * n.y = 0 := by
  by_cases h : |n.x| ≤ τ ∧ |n.y| ≤ τ
  · have e : v.proj τ n = none := by
      unfold Vec2.proj
      rw [C04_vec2_degenerate τ n .zero h]
      norm_num
    rw [e]
    exact ⟨by simp [h], by simp⟩
  · have h' : τ < |n.x| ∨ τ < |n.y| := by
      rcases not_and_or.1 h with h | h
      · exact .inl (not_le.1 h)
      · exact .inr (not_le.1 h)
    obtain ⟨-, hp, hm, hu⟩ := C04_vec2_success τ hτ n .zero h'
    set r := (n.normalize τ .zero).1
    set d := (n.normalize τ .zero).2
    have hx : r * d.x = n.x := by simpa [Vec2.toFin] using congrFun hm 0
    have hy : r * d.y = n.y := by simpa [Vec2.toFin] using congrFun hm 1
    have hu' : d.x * d.x + d.y * d.y = 1 := by simpa [Vec2.toFin, dotProduct, Fin.sum_univ_two] using hu
    have e : v.proj τ n = some (d.mul (d.inner v)) := by
      unfold Vec2.proj
      rw [if_neg (not_lt.2 hp.le)]
    rw [e]
    refine ⟨by simp [h], fun p hpp => ?_⟩
    cases hpp
    refine ⟨⟨(d.x * v.x + d.y * v.y) / r, ?_⟩, ?_⟩
    · rw [← hx, ← hy]
      ext <;> simp only [zeo] <;> field_simp
    · rw [← hx, ← hy]
      simp only [zeo]
      linear_combination (-(r * (d.x * v.x + d.y * v.y))) * hu'

/-- The projection of (1, 2) onto the direction (2, 0), and a direction within the tolerance. -/
example : (∃ p, Vec2.proj 0 ⟨1, 2⟩ ⟨2, 0⟩ = some p ∧ p = ⟨1, 0⟩) ∧ Vec2.proj 0 ⟨1, 2⟩ ⟨0, 0⟩ = none := by
  constructor
  · cases e : Vec2.proj 0 ⟨1, 2⟩ ⟨2, 0⟩ with
    | none => have := (C04_proj2 0 le_rfl ⟨1, 2⟩ ⟨2, 0⟩).1.1 e; norm_num at this
    | some p =>
      obtain ⟨⟨k, rfl⟩, h⟩ := (C04_proj2 0 le_rfl ⟨1, 2⟩ ⟨2, 0⟩).2 p e
      refine ⟨_, rfl, ?_⟩
      ext <;> norm_num at h ⊢
      linarith
  · exact (C04_proj2 0 le_rfl ⟨1, 2⟩ ⟨0, 0⟩).1.2 (by norm_num)

end Zeo
