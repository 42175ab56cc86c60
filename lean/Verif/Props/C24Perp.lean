import Verif.Model.Small
import Verif.Props.C24
import Verif.Lemmas.Unfold
import Mathlib.Tactic

/-! # C24: the common perpendicular of two lines -/

namespace Zeo

/-- The **common perpendicular** of two lines that are apart: it has a unit direction normal to both, begins on the first and meets the second. -/
theorem C24_commonPerpLine (τ : ℝ) (hτ : 0 ≤ τ) (l1 l2 : Line3 ℝ) (h1 : l1.dir.sqrNorm = 1) (h2 : l2.dir.sqrNorm = 1)
    (hdet : τ < 1 - (l1.dir.inner l2.dir)^2 ∨ 1 - (l1.dir.inner l2.dir)^2 = 0)
    (hd : ∀ q1 ∈ Spec.line l1.org l1.dir, ∀ q2 ∈ Spec.line l2.org l2.dir, Real.sqrt 3 * τ < Spec.ed q1 q2) :
    let c := l1.commonPerp τ l2
    c.2.dir.sqrNorm = 1 ∧ c.2.dir.inner l1.dir = 0 ∧ c.2.dir.inner l2.dir = 0 ∧ c.2.org = c.1 ∧ c.1 ∈ Spec.line l1.org l1.dir ∧
      ∃ q ∈ Spec.line l2.org l2.dir, q ∈ Spec.line c.2.org c.2.dir := by
  obtain ⟨a1, a2, a3, a4, -, -⟩ := C24_commonPerp τ hτ l1 l2 h1 h2 hdet
  generalize hp : (l1.commonPerpEnd τ l2).1 = p at *
  generalize hq : (l1.commonPerpEnd τ l2).2 = q at *
  have hnt : ¬ (q.sub p).isTol τ := by
    rintro ⟨b1, b2, b3⟩
    have := hd p a1 q a2
    have e : Spec.ed p q ≤ Real.sqrt 3 * τ := by
      rw [show Real.sqrt 3 * τ = Real.sqrt (3 * τ^2) by rw [Real.sqrt_mul (by norm_num), Real.sqrt_sq hτ]]
      rw [Spec.ed]
      apply Real.sqrt_le_sqrt
      have c1 := sq_le_sq' (abs_le.1 b1).1 (abs_le.1 b1).2
      have c2 := sq_le_sq' (abs_le.1 b2).1 (abs_le.1 b2).2
      have c3 := sq_le_sq' (abs_le.1 b3).1 (abs_le.1 b3).2
      simp only [zeo] at c1 c2 c3
      simp only [Spec.sqd]
      nlinarith [c1, c2, c3]
    linarith
  obtain ⟨u1, u2, u3⟩ := normalize_unit hτ (old := q.sub p) hnt
  simp only [Line3.commonPerp, hp, hq, Line3.createTwoPoints]
  generalize ((q.sub p).normalize τ (q.sub p)).2 = d at *
  have e1 : (p.sub q).inner l1.dir = -((q.sub p).norm * d.inner l1.dir) := by
    have : (p.sub q).inner l1.dir = -((q.sub p).inner l1.dir) := by simp only [zeo]; ring
    rw [this]; congr 1; conv_lhs => rw [u2]
    simp only [Vec3.mul, Vec3.inner]; ring
  have e2 : (p.sub q).inner l2.dir = -((q.sub p).norm * d.inner l2.dir) := by
    have : (p.sub q).inner l2.dir = -((q.sub p).inner l2.dir) := by simp only [zeo]; ring
    rw [this]; congr 1; conv_lhs => rw [u2]
    simp only [Vec3.mul, Vec3.inner]; ring
  rw [e1] at a3; rw [e2] at a4
  refine ⟨u1, ?_, ?_, trivial, a1, q, a2, (q.sub p).norm, ?_⟩
  · rcases mul_eq_zero.1 (neg_eq_zero.1 a3) with h | h
    · exact absurd h u3.ne'
    · exact h
  · rcases mul_eq_zero.1 (neg_eq_zero.1 a4) with h | h
    · exact absurd h u3.ne'
    · exact h
  · have v1 : q.x - p.x = (q.sub p).norm * d.x := congrArg Vec3.x u2
    have v2 : q.y - p.y = (q.sub p).norm * d.y := congrArg Vec3.y u2
    have v3 : q.z - p.z = (q.sub p).norm * d.z := congrArg Vec3.z u2
    ext <;> simp only <;> linarith

/-- Lines that **meet** are given a "perpendicular" without direction, although there is exactly one. -/
theorem C24_commonPerpLine_false (τ : ℝ) (hτ : 0 ≤ τ) (h1 : τ < 1) : ∃ l1 l2 : Line3 ℝ, l1.dir.sqrNorm = 1 ∧ l2.dir.sqrNorm = 1 ∧
    l1.dir.inner l2.dir = 0 ∧ (l1.commonPerp τ l2).2.dir = .zero := by
  refine ⟨⟨.zero, .ex⟩, ⟨.zero, .ey⟩, by simp [Vec3.sqrNorm, Vec3.inner, Vec3.ex], by simp [Vec3.sqrNorm, Vec3.inner, Vec3.ey],
    by simp [Vec3.inner, Vec3.ex, Vec3.ey], ?_⟩
  have ht : ¬ zIsTol (1 : ℝ) τ := by simpa [zIsTol] using h1
  have e : (⟨.zero, .ex⟩ : Line3 ℝ).commonPerpEnd τ ⟨.zero, .ey⟩ = (.zero, .zero) := by
    simp [Line3.commonPerpEnd, Vec3.inner, Vec3.ex, Vec3.ey, ht, Line3.point, zeo]
  simp only [Line3.commonPerp, e]
  simp [Line3.createTwoPoints, Vec3.normalize, Vec3.sub, Vec3.isTol, Vec3.zero, zIsTol, hτ]

/-- Two skew lines meet the hypotheses. -/
example : let c := (⟨.zero, .ex⟩ : Line3 ℝ).commonPerp (1/100) ⟨⟨0, 0, 1⟩, .ey⟩
    c.2.dir.inner .ex = 0 ∧ c.2.dir.inner .ey = 0 ∧ c.2.dir.sqrNorm = 1 := by
  have := C24_commonPerpLine (1/100) (by norm_num) ⟨.zero, .ex⟩ ⟨⟨0, 0, 1⟩, .ey⟩ (by simp [Vec3.sqrNorm, Vec3.inner, Vec3.ex])
    (by simp [Vec3.sqrNorm, Vec3.inner, Vec3.ey]) (by left; norm_num [Vec3.inner, Vec3.ex, Vec3.ey]) (by
      rintro q1 ⟨s, rfl⟩ q2 ⟨t, rfl⟩
      have h3 : Real.sqrt 3 ≤ 2 := by rw [Real.sqrt_le_left (by norm_num)]; norm_num
      have : (1 : ℝ) ≤ Spec.ed ⟨Vec3.zero.x + s * Vec3.ex.x, Vec3.zero.y + s * Vec3.ex.y, Vec3.zero.z + s * Vec3.ex.z⟩
          ⟨0 + t * Vec3.ey.x, 0 + t * Vec3.ey.y, 1 + t * Vec3.ey.z⟩ := by
        rw [Spec.ed, Real.one_le_sqrt]
        simp only [Spec.sqd, Vec3.zero, Vec3.ex, Vec3.ey]
        nlinarith [sq_nonneg s, sq_nonneg t]
      simp only at this ⊢
      linarith)
  exact ⟨this.2.1, this.2.2.1, this.1⟩

end Zeo
