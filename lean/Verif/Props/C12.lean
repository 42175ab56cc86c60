import Verif.Props.C11
import Mathlib.Analysis.SpecialFunctions.Trigonometric.Inverse

/-! # C12: spherical interpolation of quaternions -/

namespace Zeo
open Matrix

theorem EP.isUnit_iff (q : EP ℝ) : q.IsUnit ↔ q.inner q = 1 := by
  simp only [EP.IsUnit, zeo]; constructor <;> intro h <;> linear_combination h

theorem EP.inner_self_nonneg (q : EP ℝ) : 0 ≤ q.inner q := by
  simp only [zeo]
  nlinarith [mul_self_nonneg q.w, mul_self_nonneg q.v.x, mul_self_nonneg q.v.y, mul_self_nonneg q.v.z]

/-- Normalizing a quaternion whose norm is `n > τ`. -/
theorem EP.normalize_of_norm {τ : ℝ} (hτ : 0 ≤ τ) {q : EP ℝ} {n : ℝ} (hn : τ < n)
    (hq : q.inner q = n * n) : q.normalize τ = (true, q.mul (1 / n)) ∧ (q.mul (1 / n)).IsUnit := by
  have hp : 0 < n := lt_of_le_of_lt hτ hn
  have hnn : q.norm = n := by rw [EP.norm, hq, Real.sqrt_mul_self hp.le]
  constructor
  · rw [EP.normalize, hnn, if_neg (by simp only [zIsTol, not_le]; exact lt_of_lt_of_le hn (le_abs_self _)),
      Vec3.div, if_neg hp.ne']
    have e : q.w / n = 1 / n * q.w := by ring
    rw [e]; rfl
  · rw [EP.isUnit_iff]
    have e : (q.mul (1 / n)).inner (q.mul (1 / n)) = 1 / n * (1 / n) * q.inner q := by vring
    rw [e, hq]; field_simp

theorem EP.normalize_unit {τ : ℝ} (hτ : 0 ≤ τ) (hτ1 : τ < 1) {q : EP ℝ} (hq : q.IsUnit) :
    q.normalize τ = (true, q) := by
  have := (EP.normalize_of_norm hτ hτ1 (q := q) (by rw [(EP.isUnit_iff q).1 hq, one_mul])).1
  rw [this]; congr 1; ext <;> simp [zeo]

theorem EP.inner_lin (a b : EP ℝ) (ha : a.inner a = 1) (hb : b.inner b = 1) (s t : ℝ) :
    ((a.mul s).lin t b).inner ((a.mul s).lin t b) = s^2 + t^2 + 2 * s * t * a.inner b := by
  simp only [zeo] at *
  linear_combination s^2 * ha + t^2 * hb

theorem EP.inner_le_one (a b : EP ℝ) (ha : a.inner a = 1) (hb : b.inner b = 1) : a.inner b ≤ 1 := by
  have h := EP.inner_self_nonneg (a.sub b)
  have e : (a.sub b).inner (a.sub b) = a.inner a + b.inner b - 2 * a.inner b := by vring
  rw [e, ha, hb] at h; linarith

theorem EP.inner_rev (a b : EP ℝ) : a.inner b.rev = -a.inner b := by vring

/-- The whole behaviour of `zEPInterDiv` for unit quaternions: with `θ = arccos |e1·e2|` and
`e2' = ±e2` chosen with `e1·e2' ≥ 0`, the result is the normalized chord (`sin θ ≤ τ`) or
the spherical interpolant. -/
theorem EP.interDiv_spec {τ : ℝ} (hτ : 0 ≤ τ) (hτ1 : τ < 1/2) {e1 e2 : EP ℝ} (h1 : e1.IsUnit)
    (h2 : e2.IsUnit) (t : ℝ) :
    ∃ e2', (e2' = e2 ∨ e2' = e2.rev) ∧ e2'.IsUnit ∧ e1.inner e2' = |e1.inner e2| ∧
      let θ := Real.arccos |e1.inner e2|
      Real.cos θ = |e1.inner e2| ∧
      ((Real.sin θ ≤ τ ∧ ∃ n, τ < n ∧ n * n = 1 - 2 * t * (1 - t) * (1 - |e1.inner e2|) ∧
          EP.interDiv τ e1 e2 t = (true, ((e1.mul (1 - t)).lin t e2').mul (1 / n)) ∧
          (((e1.mul (1 - t)).lin t e2').mul (1 / n)).IsUnit) ∨
       (τ < Real.sin θ ∧
          EP.interDiv τ e1 e2 t =
            (true, ((e1.mul (Real.sin (θ - θ * t))).lin (Real.sin (θ * t)) e2').mul (1 / Real.sin θ)) ∧
          (((e1.mul (Real.sin (θ - θ * t))).lin (Real.sin (θ * t)) e2').mul (1 / Real.sin θ)).IsUnit)) := by
  set e2' := if e1.inner e2 < 0 then e2.rev else e2 with he2'
  have hor : e2' = e2 ∨ e2' = e2.rev := by rw [he2']; split_ifs <;> simp
  have hu1 := (EP.isUnit_iff e1).1 h1
  have hu2 : e2'.inner e2' = 1 := by
    have h2' := (EP.isUnit_iff e2).1 h2
    rcases hor with h | h <;> rw [h]
    · exact h2'
    · have : e2.rev.inner e2.rev = e2.inner e2 := by vring
      rw [this]; exact h2'
  have hc1 : (if e1.inner e2 < 0 then -e1.inner e2 else e1.inner e2) = |e1.inner e2| := by
    split_ifs with h
    · rw [abs_of_neg h]
    · rw [abs_of_nonneg (not_lt.1 h)]
  have hin : e1.inner e2' = |e1.inner e2| := by
    rw [he2', ← hc1]; split_ifs with h
    · exact EP.inner_rev _ _
    · rfl
  have hle : |e1.inner e2| ≤ 1 := by rw [← hin]; exact EP.inner_le_one _ _ hu1 hu2
  have h0 : 0 ≤ |e1.inner e2| := abs_nonneg _
  have hcos : Real.cos (Real.arccos |e1.inner e2|) = |e1.inner e2| := Real.cos_arccos (by linarith) hle
  have hsn : 0 ≤ Real.sin (Real.arccos |e1.inner e2|) :=
    Real.sin_nonneg_of_nonneg_of_le_pi (Real.arccos_nonneg _) (Real.arccos_le_pi _)
  refine ⟨e2', hor, (EP.isUnit_iff _).2 hu2, hin, hcos, ?_⟩
  have hdef : EP.interDiv τ e1 e2 t =
      if zIsTol (Real.sin (Real.arccos |e1.inner e2|)) τ then
        EP.normalize τ (EP.cat τ (EP.mul e1 (1 - t)) t e2').2
      else EP.normalize τ (EP.cat τ (EP.mul e1 (Real.sin (Real.arccos |e1.inner e2| - Real.arccos |e1.inner e2| * t)))
        (Real.sin (Real.arccos |e1.inner e2| * t)) e2').2 := by
    unfold EP.interDiv
    simp only [hc1]
    rw [if_neg (not_lt.2 hle : ¬ |e1.inner e2| > 1)]
  rw [hdef]
  generalize hθ : Real.arccos |e1.inner e2| = θ at *
  by_cases hs : Real.sin θ ≤ τ
  · left
    rw [if_pos (show zIsTol (Real.sin θ) τ by simpa [zIsTol, abs_of_nonneg hsn] using hs)]
    have hge : (1:ℝ)/4 < 1 - 2 * t * (1 - t) * (1 - |e1.inner e2|) := by
      nlinarith [sq_nonneg (2 * t - 1)]
    refine ⟨hs, Real.sqrt (1 - 2 * t * (1 - t) * (1 - |e1.inner e2|)), ?_, Real.mul_self_sqrt (by linarith), ?_⟩
    · refine lt_trans hτ1 (Real.lt_sqrt_of_sq_lt (by norm_num; linarith))
    · have hn : τ < Real.sqrt (1 - 2 * t * (1 - t) * (1 - |e1.inner e2|)) :=
        lt_trans hτ1 (Real.lt_sqrt_of_sq_lt (by norm_num; linarith))
      have hq : ((e1.mul (1 - t)).lin t e2').inner ((e1.mul (1 - t)).lin t e2') =
          Real.sqrt (1 - 2 * t * (1 - t) * (1 - |e1.inner e2|)) *
          Real.sqrt (1 - 2 * t * (1 - t) * (1 - |e1.inner e2|)) := by
        rw [EP.inner_lin _ _ hu1 hu2, hin, Real.mul_self_sqrt (by linarith)]; ring
      obtain ⟨n1, n2⟩ := EP.normalize_of_norm hτ hn hq
      refine ⟨?_, n2⟩
      rw [EP.cat, n1]; exact EP.normalize_unit hτ (by linarith) n2
  · right
    rw [not_le] at hs
    rw [if_neg (show ¬ zIsTol (Real.sin θ) τ by simpa [zIsTol, abs_of_nonneg hsn] using hs)]
    have hq : ((e1.mul (Real.sin (θ - θ * t))).lin (Real.sin (θ * t)) e2').inner
        ((e1.mul (Real.sin (θ - θ * t))).lin (Real.sin (θ * t)) e2') = Real.sin θ * Real.sin θ := by
      rw [EP.inner_lin _ _ hu1 hu2, hin, ← hcos]
      have e : θ = (θ - θ * t) + θ * t := by ring
      generalize θ - θ * t = A at *
      generalize θ * t = B at *
      rw [e, Real.sin_add, Real.cos_add]
      have pA := Real.sin_sq_add_cos_sq A
      have pB := Real.sin_sq_add_cos_sq B
      linear_combination -(Real.sin A)^2 * pB - (Real.sin B)^2 * pA
    obtain ⟨n1, n2⟩ := EP.normalize_of_norm hτ hs hq
    refine ⟨hs, ?_, n2⟩
    rw [EP.cat, n1]; exact EP.normalize_unit hτ (by linarith) n2

/-- For every pair of unit quaternions and every parameter value, interpolation succeeds and
yields a unit quaternion. -/
theorem C12_unit (τ : ℝ) (hτ : 0 ≤ τ) (hτ1 : τ < 1/2) (e1 e2 : EP ℝ) (h1 : e1.IsUnit) (h2 : e2.IsUnit)
    (t : ℝ) : (EP.interDiv τ e1 e2 t).1 = true ∧ (EP.interDiv τ e1 e2 t).2.IsUnit := by
  obtain ⟨e2', -, -, -, -, h⟩ := EP.interDiv_spec hτ hτ1 h1 h2 t
  rcases h with ⟨-, n, -, -, h, hu⟩ | ⟨-, h, hu⟩ <;> rw [h] <;> exact ⟨rfl, hu⟩

/-- At `t = 0` it is `e1` and at `t = 1` it is `e2` up to sign, so the same rotation. -/
theorem C12_endpoints (τ : ℝ) (hτ : 0 ≤ τ) (hτ1 : τ < 1/2) (e1 e2 : EP ℝ) (h1 : e1.IsUnit)
    (h2 : e2.IsUnit) :
    (EP.interDiv τ e1 e2 0).2 = e1 ∧ (EP.interDiv τ e1 e2 1).2.toMat = e2.toMat := by
  constructor
  · obtain ⟨e2', -, -, -, -, h⟩ := EP.interDiv_spec hτ hτ1 h1 h2 0
    rcases h with ⟨-, n, hn, hnn, h, hu⟩ | ⟨hs, h, hu⟩ <;> rw [h]
    · have : n = 1 := by
        have hn0 : 0 < n := lt_of_le_of_lt hτ hn
        have : n * n = 1 := by rw [hnn]; ring
        nlinarith
      rw [this]; ext <;> simp [zeo]
    · have hp : Real.sin (Real.arccos |e1.inner e2|) ≠ 0 := (lt_of_le_of_lt hτ hs).ne'
      simp only [mul_zero, sub_zero, Real.sin_zero]
      generalize Real.sin (Real.arccos |e1.inner e2|) = s at *
      ext <;> simp only [zeo] <;> field_simp <;> ring
  · obtain ⟨e2', hor, -, -, -, h⟩ := EP.interDiv_spec hτ hτ1 h1 h2 1
    have key : (EP.interDiv τ e1 e2 1).2 = e2' := by
      rcases h with ⟨-, n, hn, hnn, h, hu⟩ | ⟨hs, h, hu⟩ <;> rw [h]
      · have : n = 1 := by
          have hn0 : 0 < n := lt_of_le_of_lt hτ hn
          have : n * n = 1 := by rw [hnn]; ring
          nlinarith
        rw [this]; ext <;> simp [zeo]
      · have hp : Real.sin (Real.arccos |e1.inner e2|) ≠ 0 := (lt_of_le_of_lt hτ hs).ne'
        simp only [mul_one, sub_self, Real.sin_zero]
        generalize Real.sin (Real.arccos |e1.inner e2|) = s at *
        ext <;> simp only [zeo] <;> field_simp <;> ring
    rw [key]
    rcases hor with rfl | rfl
    · rfl
    · vring

/-- Constant angular speed: outside the nearly-parallel branch the interpolant makes the angle
`t θ` with `e1` on the unit sphere, `θ ≤ π/2` being the angle between the two rotations'
quaternions (the shorter way round). -/
theorem C12_speed (τ : ℝ) (hτ : 0 ≤ τ) (hτ1 : τ < 1/2) (e1 e2 : EP ℝ) (h1 : e1.IsUnit) (h2 : e2.IsUnit)
    (t : ℝ) (hs : τ < Real.sin (Real.arccos |e1.inner e2|)) :
    (EP.interDiv τ e1 e2 t).2.inner e1 = Real.cos (t * Real.arccos |e1.inner e2|) ∧
    Real.arccos |e1.inner e2| ≤ Real.pi / 2 := by
  refine ⟨?_, Real.arccos_le_pi_div_two.2 (abs_nonneg _)⟩
  obtain ⟨e2', -, -, hin, hcos, h⟩ := EP.interDiv_spec hτ hτ1 h1 h2 t
  rcases h with ⟨h', -⟩ | ⟨-, h, -⟩
  · exact absurd hs (not_lt.2 h')
  rw [h]
  have hp : Real.sin (Real.arccos |e1.inner e2|) ≠ 0 := (lt_of_le_of_lt hτ hs).ne'
  generalize Real.arccos |e1.inner e2| = θ at *
  have hu1 := (EP.isUnit_iff e1).1 h1
  have e : (((e1.mul (Real.sin (θ - θ * t))).lin (Real.sin (θ * t)) e2').mul (1 / Real.sin θ)).inner e1 =
      1 / Real.sin θ * (Real.sin (θ - θ * t) * e1.inner e1 + Real.sin (θ * t) * e1.inner e2') := by vring
  rw [e, hu1, hin, ← hcos, Real.sin_sub, mul_comm t θ]
  field_simp; ring

/-- Interpolating two attitude matrices: defined for every pair of rotations and every `t`,
a proper rotation, the first matrix at 0, the second at 1. -/
theorem C12_mat (τ : ℝ) (hτ : 0 ≤ τ) (hτ1 : τ < 1/2) (m1 m2 : Mat3 ℝ) (h1 : m1.IsRot) (h2 : m2.IsRot) :
    (∀ t, ∃ m, EP.matInterDiv τ m1 m2 t = some m ∧ m.IsRot) ∧
    EP.matInterDiv τ m1 m2 0 = some m1 ∧ EP.matInterDiv τ m1 m2 1 = some m2 := by
  obtain ⟨q1, e1, u1, t1⟩ := C11_ofMat m1 h1
  obtain ⟨q2, e2, u2, t2⟩ := C11_ofMat m2 h2
  have h : ∀ t, EP.matInterDiv τ m1 m2 t = some (EP.interDiv τ q1 q2 t).2.toMat := by
    intro t; rw [EP.matInterDiv, e1, e2]
  refine ⟨fun t => ⟨_, h t, EP.toMat_isRot (C12_unit τ hτ hτ1 q1 q2 u1 u2 t).2⟩, ?_, ?_⟩
  · rw [h, (C12_endpoints τ hτ hτ1 q1 q2 u1 u2).1, t1]
  · rw [h, (C12_endpoints τ hτ hτ1 q1 q2 u1 u2).2, t2]

/-- Two different unit quaternions (a right angle apart) and the real tolerance. -/
example : EP.IsUnit (⟨1, ⟨0,0,0⟩⟩ : EP ℝ) ∧ EP.IsUnit (⟨0, ⟨1,0,0⟩⟩ : EP ℝ) ∧ (1e-12 : ℝ) < 1/2 ∧
    (1e-12 : ℝ) < Real.sin (Real.arccos |EP.inner (⟨1, ⟨0,0,0⟩⟩ : EP ℝ) ⟨0, ⟨1,0,0⟩⟩|) := by
  refine ⟨by norm_num [EP.IsUnit], by norm_num [EP.IsUnit], by norm_num, ?_⟩
  simp [zeo]; norm_num

end Zeo
