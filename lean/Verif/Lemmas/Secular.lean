import Verif.Model.Ellips
import Mathlib.Analysis.Complex.Basic
import Mathlib.Topology.Order.IntermediateValue
import Mathlib.Topology.Algebra.Order.Field
import Mathlib.Tactic.FieldSimp
import Mathlib.Tactic.FinCases
import Mathlib.Algebra.BigOperators.Fin
import Mathlib.Algebra.BigOperators.Field

/-! # The secular equation of the nearest point of an ellipsoid -/

namespace Zeo.Secular
open Finset

/-- The value of the polynomial with the given coefficients (constant term first). -/
def evalC (cs : List ℝ) (z : ℂ) : ℂ := cs.foldr (fun (c : ℝ) (acc : ℂ) => (c : ℂ) + z * acc) 0

theorem one_add_ne {z : ℂ} (hz : 0 ≤ z.re) {p : ℝ} (hp : 0 < p) : 1 + z / p ≠ 0 := by
  intro h
  have := congrArg Complex.re h
  rw [Complex.add_re, Complex.div_ofReal_re, Complex.one_re, Complex.zero_re] at this
  have : 0 ≤ z.re / p := by positivity
  linarith

/-- Each term of the secular sum pulls the imaginary part to the other side. -/
theorem im_term {z : ℂ} (hz : 0 ≤ z.re) {p a : ℝ} (hp : 0 < p) (ha : 0 ≤ a) :
    z.im * ((a : ℂ) / (1 + z / p) ^ 2).im ≤ 0 ∧ (z.im * ((a : ℂ) / (1 + z / p) ^ 2).im = 0 → z.im ≠ 0 → a = 0) := by
  set w : ℂ := 1 + z / p with hw
  have hwre : w.re = 1 + z.re / p := by rw [hw, Complex.add_re, Complex.div_ofReal_re, Complex.one_re]
  have hwim : w.im = z.im / p := by rw [hw, Complex.add_im, Complex.div_ofReal_im, Complex.one_im, zero_add]
  have hw0 : w ≠ 0 := one_add_ne hz hp
  have hN : 0 < Complex.normSq (w ^ 2) := Complex.normSq_pos.2 (pow_ne_zero 2 hw0)
  have him : ((a : ℂ) / w ^ 2).im = -(a * (2 * w.re * w.im)) / Complex.normSq (w ^ 2) := by
    rw [Complex.div_im]
    have e1 : (w ^ 2).im = 2 * w.re * w.im := by rw [sq, Complex.mul_im]; ring
    rw [e1, Complex.ofReal_im, Complex.ofReal_re]; ring
  have hre : 0 < w.re := by rw [hwre]; positivity
  have key : z.im * ((a : ℂ) / w ^ 2).im = -(a * (2 * w.re * (z.im ^ 2 / p)) / Complex.normSq (w ^ 2)) := by
    rw [him, hwim]; ring
  rw [key]
  constructor
  · rw [neg_nonpos]; positivity
  · intro h hz0
    by_contra hne
    have : 0 < a := lt_of_le_of_ne ha (Ne.symm hne)
    have : 0 < a * (2 * w.re * (z.im ^ 2 / p)) / Complex.normSq (w ^ 2) := by positivity
    linarith

/-- Solutions of the secular equation in the right half plane are real. -/
theorem real_root {n : ℕ} {a p : Fin n → ℝ} (ha : ∀ i, 0 ≤ a i) (hp : ∀ i, 0 < p i) {z : ℂ} (hz : 0 ≤ z.re)
    (h : ∑ i, (a i : ℂ) / (1 + z / p i) ^ 2 = 1) : z.im = 0 := by
  by_contra hne
  have h1 : ∑ i, z.im * ((a i : ℂ) / (1 + z / p i) ^ 2).im = 0 := by
    rw [← Finset.mul_sum, ← Complex.im_sum, h, Complex.one_im, mul_zero]
  have h2 := (Finset.sum_eq_zero_iff_of_nonpos fun i _ => (im_term hz (hp i) (ha i)).1).1 h1
  have h3 : ∀ i, a i = 0 := fun i => (im_term hz (hp i) (ha i)).2 (h2 i (mem_univ _)) hne
  simp [h3] at h

/-- The secular equation has a non-negative solution if the point is not inside. -/
theorem exists_root {n : ℕ} {a p : Fin n → ℝ} (ha : ∀ i, 0 ≤ a i) (hp : ∀ i, 0 < p i) (h : 1 ≤ ∑ i, a i) :
    ∃ l, 0 ≤ l ∧ ∑ i, a i / (1 + l / p i) ^ 2 = 1 := by
  set f : ℝ → ℝ := fun l => ∑ i, a i / (1 + l / p i) ^ 2 with hf
  have f0 : 1 ≤ f 0 := by simpa [hf] using h
  -- far away the sum is small
  set S := ∑ i, a i * p i with hS
  have hS0 : 0 ≤ S := Finset.sum_nonneg fun i _ => mul_nonneg (ha i) (hp i).le
  have fS : f S ≤ 1 := by
    rcases hS0.eq_or_lt with h0 | h0
    · have : ∀ i, a i = 0 := fun i => by
        have := (Finset.sum_eq_zero_iff_of_nonneg fun i _ => mul_nonneg (ha i) (hp i).le).1 h0.symm i (mem_univ _)
        exact (mul_eq_zero.1 this).resolve_right (hp i).ne'
      simp [hf, this]
    · have : f S ≤ ∑ i, a i * p i / S := by
        refine Finset.sum_le_sum fun i _ => ?_
        have hx : 0 < S / p i := div_pos h0 (hp i)
        have h1 : S / p i ≤ (1 + S / p i) ^ 2 := by nlinarith
        calc a i / (1 + S / p i) ^ 2 ≤ a i / (S / p i) := div_le_div_of_nonneg_left (ha i) hx h1
          _ = a i * p i / S := by rw [div_div_eq_mul_div]
      rw [← Finset.sum_div, div_self h0.ne'] at this
      exact this
  have hcont : ContinuousOn f (Set.Icc 0 S) := by
    refine continuousOn_finset_sum _ fun i _ => ?_
    refine ContinuousOn.div continuousOn_const (by fun_prop) fun x hx => ?_
    have : 0 ≤ x / p i := div_nonneg hx.1 (hp i).le
    positivity
  obtain ⟨l, hl, he⟩ := intermediate_value_Icc' hS0 hcont ⟨fS, f0⟩
  exact ⟨l, hl.1, he⟩

/-- The point with coordinates `v i / (1 + l / p i)` is the nearest one of the ellipsoid. -/
theorem nearest {n : ℕ} {p v : Fin n → ℝ} (hp : ∀ i, 0 < p i) {l : ℝ} (hl : 0 ≤ l)
    (h : ∑ i, v i ^ 2 / p i / (1 + l / p i) ^ 2 = 1) {q : Fin n → ℝ} (hq : ∑ i, q i ^ 2 / p i ≤ 1) :
    ∑ i, (v i / (1 + l / p i)) ^ 2 / p i = 1 ∧ ∑ i, (v i - v i / (1 + l / p i)) ^ 2 ≤ ∑ i, (v i - q i) ^ 2 := by
  set c : Fin n → ℝ := fun i => v i / (1 + l / p i) with hc
  have hden : ∀ i, 0 < 1 + l / p i := fun i => by have := hp i; positivity
  have hc1 : ∑ i, c i ^ 2 / p i = 1 := by
    rw [← h]; refine Finset.sum_congr rfl fun i _ => ?_
    simp only [hc, div_pow]; rw [div_right_comm]
  have hvc : ∀ i, v i - c i = l * (c i / p i) := fun i => by
    have h1 := (hden i).ne'; have h2 := (hp i).ne'
    have : v i = c i * (1 + l / p i) := by simp only [hc]; rw [div_mul_cancel₀ _ h1]
    rw [this]; ring
  refine ⟨hc1, ?_⟩
  have hcs : ∑ i, c i * q i / p i ≤ 1 := by
    have : ∑ i, c i * q i / p i ≤ ∑ i, (c i ^ 2 / p i + q i ^ 2 / p i) / 2 := by
      refine Finset.sum_le_sum fun i _ => ?_
      rw [← add_div, div_div, div_le_div_iff₀ (hp i) (by have := hp i; positivity)]
      nlinarith [sq_nonneg (c i - q i), hp i]
    rw [← Finset.sum_div, Finset.sum_add_distrib, hc1] at this
    linarith
  have e : ∑ i, (v i - q i) ^ 2 - ∑ i, (v i - c i) ^ 2 = ∑ i, (c i - q i) ^ 2 + 2 * l * (∑ i, c i ^ 2 / p i - ∑ i, c i * q i / p i) := by
    rw [← Finset.sum_sub_distrib, ← Finset.sum_sub_distrib, Finset.mul_sum, ← Finset.sum_add_distrib]
    refine Finset.sum_congr rfl fun i _ => ?_
    linear_combination 2 * (c i - q i) * hvc i
  have : 0 ≤ ∑ i, (c i - q i) ^ 2 := Finset.sum_nonneg fun i _ => sq_nonneg _
  rw [hc1] at e
  nlinarith [mul_nonneg hl (sub_nonneg.2 hcs)]

/-- The root finder is exact: it lists the complex roots of every monic polynomial, and nothing else. -/
def _root_.Zeo.Spec.ExactSolver (solve : List ℝ → List ℂ) : Prop :=
  ∀ cs : List ℝ, cs.getLast? = some 1 → ∀ z, z ∈ solve cs ↔ evalC cs z = 0

/-- What the root-picking loop finds when the roots are exact. -/
theorem pick {n : ℕ} {a p : Fin n → ℝ} (ha : ∀ i, 0 ≤ a i) (hp : ∀ i, 0 < p i) (h : 1 ≤ ∑ i, a i) {roots : List ℂ} {τ : ℝ} (hτ : 0 ≤ τ)
    (hr : ∀ z : ℂ, 0 ≤ z.re → (z ∈ roots ↔ ∑ i, (a i : ℂ) / (1 + z / p i) ^ 2 = 1)) :
    ∃ l, pickRoot τ roots = some l ∧ 0 ≤ l ∧ ∑ i, a i / (1 + l / p i) ^ 2 = 1 := by
  obtain ⟨l0, hl0, he0⟩ := exists_root ha hp h
  have hm0 : (l0 : ℂ) ∈ roots := (hr _ (by simpa using hl0)).2 (by
    have := congrArg (fun x : ℝ => (x : ℂ)) he0
    push_cast at this; exact this)
  unfold pickRoot
  cases hf : roots.find? (fun z => decide (0 ≤ z.re)) with
  | none =>
    rw [List.find?_eq_none] at hf
    exact absurd (by simpa using hl0) (hf _ hm0)
  | some z =>
    have hz : 0 ≤ z.re := by simpa using List.find?_some hf
    have hmem := List.mem_of_find?_eq_some hf
    have hs := (hr z hz).1 hmem
    have him := real_root ha hp hz hs
    refine ⟨z.re, ?_, hz, ?_⟩
    · dsimp only
      rw [if_pos (by rw [him]; simpa [zIsTol] using hτ)]
    · have hzr : z = (z.re : ℂ) := Complex.ext rfl (by rw [him]; simp)
      rw [hzr] at hs
      exact_mod_cast hs

theorem eval3 (a b c p q r : ℝ) (z : ℂ) : evalC (ellipsCoeff a b c p q r) z =
    (z + p) ^ 2 * (z + q) ^ 2 * (z + r) ^ 2 - a * p ^ 2 * (z + q) ^ 2 * (z + r) ^ 2 - b * q ^ 2 * (z + p) ^ 2 * (z + r) ^ 2
      - c * r ^ 2 * (z + p) ^ 2 * (z + q) ^ 2 := by
  simp only [evalC, ellipsCoeff, List.foldr]
  push_cast
  ring

theorem eval2 (x2 y2 p q : ℝ) (z : ℂ) : evalC (ellips2Coeff x2 y2 p q) z =
    (z + p) ^ 2 * (z + q) ^ 2 - x2 * p * (z + q) ^ 2 - y2 * q * (z + p) ^ 2 := by
  simp only [evalC, ellips2Coeff, List.foldr]
  push_cast
  ring

theorem roots3 {solve : List ℝ → List ℂ} (hs : Spec.ExactSolver solve) {a b c p q r : ℝ} (hp : 0 < p) (hq : 0 < q) (hr : 0 < r) (z : ℂ) (hz : 0 ≤ z.re) :
    z ∈ solve (ellipsCoeff a b c p q r) ↔ ∑ i, ((![a, b, c] i : ℝ) : ℂ) / (1 + z / ((![p, q, r] i : ℝ) : ℂ)) ^ 2 = 1 := by
  rw [hs _ rfl, eval3]
  have k : ∀ {p : ℝ}, 0 < p → z + p = p * (1 + z / p) ∧ (p : ℂ) ≠ 0 ∧ 1 + z / p ≠ 0 := fun {p} hp => by
    have : (p : ℂ) ≠ 0 := by exact_mod_cast hp.ne'
    refine ⟨by field_simp; ring, this, one_add_ne hz hp⟩
  obtain ⟨e1, p0, w1⟩ := k hp
  obtain ⟨e2, q0, w2⟩ := k hq
  obtain ⟨e3, r0, w3⟩ := k hr
  simp only [Fin.sum_univ_three, Matrix.cons_val_zero, Matrix.cons_val_one, Matrix.cons_val]
  rw [e1, e2, e3]
  set u := 1 + z / (p : ℂ)
  set v := 1 + z / (q : ℂ)
  set w := 1 + z / (r : ℂ)
  have : ((p : ℂ) * u) ^ 2 * (q * v) ^ 2 * (r * w) ^ 2 - a * p ^ 2 * (q * v) ^ 2 * (r * w) ^ 2 - b * q ^ 2 * (p * u) ^ 2 * (r * w) ^ 2
      - c * r ^ 2 * (p * u) ^ 2 * (q * v) ^ 2 = (p * q * r * (u * v * w)) ^ 2 * (1 - (a / u ^ 2 + b / v ^ 2 + c / w ^ 2)) := by
    field_simp
    ring
  rw [this, mul_eq_zero, or_iff_right (by positivity), sub_eq_zero, eq_comm]

theorem roots2 {solve : List ℝ → List ℂ} (hs : Spec.ExactSolver solve) {x2 y2 p q : ℝ} (hp : 0 < p) (hq : 0 < q) (z : ℂ) (hz : 0 ≤ z.re) :
    z ∈ solve (ellips2Coeff x2 y2 p q) ↔ ∑ i, ((![x2 / p, y2 / q] i : ℝ) : ℂ) / (1 + z / ((![p, q] i : ℝ) : ℂ)) ^ 2 = 1 := by
  rw [hs _ rfl, eval2]
  have k : ∀ {p : ℝ}, 0 < p → z + p = p * (1 + z / p) ∧ (p : ℂ) ≠ 0 ∧ 1 + z / p ≠ 0 := fun {p} hp => by
    have : (p : ℂ) ≠ 0 := by exact_mod_cast hp.ne'
    refine ⟨by field_simp; ring, this, one_add_ne hz hp⟩
  obtain ⟨e1, p0, w1⟩ := k hp
  obtain ⟨e2, q0, w2⟩ := k hq
  simp only [Fin.sum_univ_two, Matrix.cons_val_zero, Matrix.cons_val_one, Complex.ofReal_div]
  rw [e1, e2]
  set u := 1 + z / (p : ℂ)
  set v := 1 + z / (q : ℂ)
  have : ((p : ℂ) * u) ^ 2 * (q * v) ^ 2 - x2 * p * (q * v) ^ 2 - y2 * q * (p * u) ^ 2
      = (p * q * (u * v)) ^ 2 * (1 - (x2 / p / u ^ 2 + y2 / q / v ^ 2)) := by
    field_simp
    ring
  rw [this, mul_eq_zero, or_iff_right (by positivity), sub_eq_zero, eq_comm]

end Zeo.Secular
