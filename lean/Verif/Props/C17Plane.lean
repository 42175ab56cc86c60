import Verif.Props.C17

/-! # C17: containment in a rectangle -/

namespace Zeo
variable {K : Type*} [Field K] [LinearOrder K] [IsStrictOrderedRing K]

/-- **C17** (`zAABox2DPointIsInside`): without a margin the test accepts the rectangle except all of its sides; with a
positive margin it accepts every point of the rectangle, and no point that is the margin or more away from it along an axis. -/
theorem C17_inside_plane (b : AABox2 K) (p : Vec2 K) :
    (b.pointIsInside p 0 ↔ p ∈ Spec.aabox2 b ∧ p.x ≠ b.min.x ∧ p.x ≠ b.max.x ∧ p.y ≠ b.min.y ∧ p.y ≠ b.max.y) ∧
    (∀ m, 0 < m → p ∈ Spec.aabox2 b → b.pointIsInside p m) ∧
    (∀ m, Spec.Proper2 b → b.pointIsInside p m → |p.x - (b.closest p).x| < m ∨ p.x = (b.closest p).x) ∧
    (∀ m, Spec.Proper2 b → b.pointIsInside p m → |p.y - (b.closest p).y| < m ∨ p.y = (b.closest p).y) ∧
    (∀ m, Spec.Proper2 b → 0 < m → |p.x - (b.closest p).x| < m → |p.y - (b.closest p).y| < m → b.pointIsInside p m) := by
  refine ⟨?_, ?_, ?_, ?_, ?_⟩
  · simp only [AABox2.pointIsInside, Spec.aabox2, Set.mem_setOf_eq, sub_zero, add_zero, gt_iff_lt, lt_iff_le_and_ne]
    constructor
    · rintro ⟨⟨⟨a, b⟩, c, d⟩, ⟨e, f⟩, g, h⟩
      exact ⟨⟨⟨a, c⟩, e, g⟩, b.symm, d, f.symm, h⟩
    · rintro ⟨⟨⟨a, c⟩, e, g⟩, b, d, f, h⟩
      exact ⟨⟨⟨a, b.symm⟩, c, d⟩, ⟨e, f.symm⟩, g, h⟩
  · rintro m hm ⟨⟨a, b⟩, c, d⟩
    exact ⟨⟨by linarith, by linarith⟩, by linarith, by linarith⟩
  · rintro m ⟨h1, h2⟩ ⟨⟨a, b⟩, c, d⟩
    simp only [AABox2.closest, zLimit]
    split_ifs with h3 h4
    · left; rw [abs_lt]; constructor <;> linarith
    · left; rw [abs_lt]; constructor <;> linarith
    · right; rfl
  · rintro m ⟨h1, h2⟩ ⟨⟨a, b⟩, c, d⟩
    simp only [AABox2.closest, zLimit]
    split_ifs with h3 h4
    · left; rw [abs_lt]; constructor <;> linarith
    · left; rw [abs_lt]; constructor <;> linarith
    · right; rfl
  · rintro m ⟨h1, h2⟩ hm hx hy
    rw [abs_lt] at hx hy
    have kx := zLimit_bounds (x := p.x) h1
    have ky := zLimit_bounds (x := p.y) h2
    simp only [AABox2.closest] at hx hy
    exact ⟨⟨by linarith, by linarith⟩, by linarith, by linarith⟩

/-- A point on a side is accepted with a margin and refused without. -/
example : ¬ (⟨⟨0, 0⟩, ⟨2, 1⟩⟩ : AABox2 ℚ).pointIsInside ⟨2, 1/2⟩ 0 ∧ (⟨⟨0, 0⟩, ⟨2, 1⟩⟩ : AABox2 ℚ).pointIsInside ⟨2, 1/2⟩ (1/10) := by
  simp only [AABox2.pointIsInside]; norm_num

/-- The rectangle and the box treat their upper sides differently: the corner of a box is inside of the box, but not
inside of its rectangle. -/
theorem C17_upper_differ (b : AABox3 K) (h : b.min.x < b.max.x ∧ b.min.y < b.max.y ∧ b.min.z < b.max.z) :
    b.pointIsInside b.max 0 ∧ ¬ (⟨⟨b.min.x, b.min.y⟩, ⟨b.max.x, b.max.y⟩⟩ : AABox2 K).pointIsInside ⟨b.max.x, b.max.y⟩ 0 := by
  obtain ⟨h1, h2, h3⟩ := h
  refine ⟨⟨⟨by simpa using h1, by simp⟩, ⟨by simpa using h2, by simp⟩, ⟨by simpa using h3, by simp⟩⟩, ?_⟩
  rintro ⟨⟨-, h⟩, -⟩
  simp at h

example : ((⟨⟨0, 0, 0⟩, ⟨1, 1, 1⟩⟩ : AABox3 ℚ).min.x < (⟨⟨0, 0, 0⟩, ⟨1, 1, 1⟩⟩ : AABox3 ℚ).max.x) := by norm_num

end Zeo
