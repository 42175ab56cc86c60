import Verif.Spec.QHull
import Mathlib.Topology.Order.Lattice
import Mathlib.Topology.Instances.Real.Lemmas
import Mathlib.Topology.MetricSpace.Bounded
import Mathlib.Topology.MetricSpace.ProperSpace.Real
import Mathlib.Topology.Algebra.Ring.Real
import Mathlib.Tactic.LinearCombination
import Mathlib.Tactic.Positivity

/-! # The smallest rectangle around points of a plane

The product of the widths in two orthogonal directions is smallest when one of the four sides meets two points. -/

namespace Zeo.Caliper
open Spec
noncomputable section
open Classical

/-- Largest value of a linear function on a list of points. -/
def hi (c : List (Vec3 ℝ)) (h : c ≠ []) (n : Vec3 ℝ) : ℝ :=
  c.toFinset.sup' (List.toFinset_nonempty_iff _ |>.2 h) fun p => dot n p

variable {c : List (Vec3 ℝ)} {h : c ≠ []}

theorem le_hi {n p : Vec3 ℝ} (hp : p ∈ c) : dot n p ≤ hi c h n :=
  Finset.le_sup' (fun p => dot n p) (List.mem_toFinset.2 hp)

theorem hi_mem (n : Vec3 ℝ) : ∃ p ∈ c, hi c h n = dot n p := by
  obtain ⟨p, hp, e⟩ := Finset.exists_mem_eq_sup' (List.toFinset_nonempty_iff _ |>.2 h) fun p => dot n p
  exact ⟨p, List.mem_toFinset.1 hp, e⟩

theorem hi_eq {n p : Vec3 ℝ} (hp : p ∈ c) (hm : ∀ q ∈ c, dot n q ≤ dot n p) : hi c h n = dot n p := by
  obtain ⟨q, hq, e⟩ := hi_mem (h := h) n
  exact le_antisymm (e ▸ hm q hq) (le_hi hp)

/-- Linear combinations of two directions. -/
def lc (x : ℝ) (u : Vec3 ℝ) (y : ℝ) (v : Vec3 ℝ) : Vec3 ℝ := ⟨x * u.x + y * v.x, x * u.y + y * v.y, x * u.z + y * v.z⟩

theorem dot_lc (x : ℝ) (u : Vec3 ℝ) (y : ℝ) (v p : Vec3 ℝ) : dot (lc x u y v) p = x * dot u p + y * dot v p := by
  simp only [dot, lc]; ring

/-- Width in a direction. -/
def wd (c : List (Vec3 ℝ)) (h : c ≠ []) (n : Vec3 ℝ) : ℝ := hi c h n + hi c h (lc (-1) n 0 n)

theorem hi_smul {k : ℝ} (hk : 0 ≤ k) (n : Vec3 ℝ) : hi c h (lc k n 0 n) = k * hi c h n := by
  obtain ⟨p, hp, e⟩ := hi_mem (h := h) n
  rw [e, hi_eq hp fun q hq => ?_, dot_lc]
  · ring
  · rw [dot_lc, dot_lc]
    have : dot n q ≤ dot n p := e ▸ le_hi hq
    nlinarith

theorem wd_smul (k : ℝ) (n : Vec3 ℝ) : wd c h (lc k n 0 n) = |k| * wd c h n := by
  unfold wd
  rcases le_total 0 k with hk | hk
  · rw [abs_of_nonneg hk, hi_smul hk]
    have : lc (-1) (lc k n 0 n) 0 (lc k n 0 n) = lc k (lc (-1) n 0 n) 0 (lc (-1) n 0 n) := by
      simp only [lc]; ext <;> simp only <;> ring
    rw [this, hi_smul hk]; ring
  · rw [abs_of_nonpos hk]
    have e1 : lc k n 0 n = lc (-k) (lc (-1) n 0 n) 0 (lc (-1) n 0 n) := by simp only [lc]; ext <;> simp only <;> ring
    have e2 : lc (-1) (lc k n 0 n) 0 (lc k n 0 n) = lc (-k) n 0 n := by simp only [lc]; ext <;> simp only <;> ring
    have k1 := hi_smul (c := c) (h := h) (k := -k) (by linarith) (lc (-1) n 0 n)
    have k2 := hi_smul (c := c) (h := h) (k := -k) (by linarith) n
    rw [e2, e1, k1, k2]; ring

theorem continuous_hi (u v : Vec3 ℝ) : Continuous fun q : ℝ × ℝ => hi c h (lc q.1 u q.2 v) := by
  unfold hi
  have : ∀ p ∈ c.toFinset, Continuous fun q : ℝ × ℝ => dot (lc q.1 u q.2 v) p := by
    intro p _
    simp only [dot_lc]
    fun_prop
  exact Continuous.finset_sup'_apply _ this

theorem continuous_wd (u v : Vec3 ℝ) : Continuous fun q : ℝ × ℝ => wd c h (lc q.1 u q.2 v) := by
  unfold wd
  refine (continuous_hi u v).add ?_
  have e : (fun q : ℝ × ℝ => hi c h (lc (-1) (lc q.1 u q.2 v) 0 (lc q.1 u q.2 v))) =
      (fun q : ℝ × ℝ => hi c h (lc q.1 u q.2 v)) ∘ fun q : ℝ × ℝ => (-q.1, -q.2) := by
    funext q
    simp only [Function.comp]
    congr 1
    simp only [lc]; ext <;> simp only <;> ring
  rw [e]
  exact (continuous_hi u v).comp (by fun_prop)

/-- Two points maximise the function. -/
def Flush (c : List (Vec3 ℝ)) (n : Vec3 ℝ) : Prop :=
  ∃ p ∈ c, ∃ q ∈ c, p ≠ q ∧ dot n p = dot n q ∧ ∀ r ∈ c, dot n r ≤ dot n p

theorem support (h : c ≠ []) {n : Vec3 ℝ} (hn : ¬ Flush c n) (m : Vec3 ℝ) :
    ∃ a ∈ c, ∀ᶠ s in nhds (0:ℝ), ∀ r ∈ c, dot (lc 1 n s m) r ≤ dot (lc 1 n s m) a := by
  obtain ⟨a, ha, e⟩ := hi_mem (h := h) n
  refine ⟨a, ha, ?_⟩
  have : ∀ᶠ s in nhds (0:ℝ), ∀ r ∈ c.toFinset, dot (lc 1 n s m) r ≤ dot (lc 1 n s m) a := by
    rw [Filter.eventually_all_finset]
    intro r hr
    rw [List.mem_toFinset] at hr
    by_cases hra : r = a
    · exact Filter.Eventually.of_forall fun s => by rw [hra]
    · have hlt : dot n r < dot n a := by
        refine lt_of_le_of_ne (e ▸ le_hi hr) fun he => hn ⟨a, ha, r, hr, Ne.symm hra, he.symm, fun q hq => ?_⟩
        rw [← e]; exact le_hi hq
      have hc : Continuous fun s : ℝ => dot (lc 1 n s m) a - dot (lc 1 n s m) r := by
        simp only [dot_lc]; fun_prop
      have h0 : 0 < dot (lc 1 n 0 m) a - dot (lc 1 n 0 m) r := by
        simp only [dot_lc]; linarith
      exact (hc.continuousAt.eventually (lt_mem_nhds h0)).mono fun s hs => by linarith
  exact this.mono fun s hs r hr => hs r (List.mem_toFinset.2 hr)

/-- The product of the widths in two orthogonal directions. -/
def area (c : List (Vec3 ℝ)) (h : c ≠ []) (u v : Vec3 ℝ) (x y : ℝ) : ℝ := wd c h (lc x u y v) * wd c h (lc (-y) u x v)

theorem area_smul (k : ℝ) (u v : Vec3 ℝ) (x y : ℝ) : area c h u v (k * x) (k * y) = k ^ 2 * area c h u v x y := by
  unfold area
  have e1 : lc (k * x) u (k * y) v = lc k (lc x u y v) 0 (lc x u y v) := by simp only [lc]; ext <;> simp only <;> ring
  have e2 : lc (-(k * y)) u (k * x) v = lc k (lc (-y) u x v) 0 (lc (-y) u x v) := by
    simp only [lc]; ext <;> simp only <;> ring
  rw [e1, e2, wd_smul, wd_smul, ← sq_abs k]; ring

theorem wd_nonneg (n : Vec3 ℝ) : 0 ≤ wd c h n := by
  obtain ⟨p, hp, e⟩ := hi_mem (h := h) n
  have := le_hi (h := h) (n := lc (-1) n 0 n) hp
  unfold wd
  rw [dot_lc] at this
  linarith

/-- Where two supports are constant the width is linear. -/
theorem wd_lin {n m a b : Vec3 ℝ} {s : ℝ} (ha : a ∈ c) (hb : b ∈ c)
    (h1 : ∀ r ∈ c, dot (lc 1 n s m) r ≤ dot (lc 1 n s m) a)
    (h2 : ∀ r ∈ c, dot (lc 1 (lc (-1) n 0 n) s (lc (-1) m 0 m)) r ≤ dot (lc 1 (lc (-1) n 0 n) s (lc (-1) m 0 m)) b) :
    wd c h (lc 1 n s m) = (dot n a - dot n b) + s * (dot m a - dot m b) := by
  unfold wd
  have e : lc (-1) (lc 1 n s m) 0 (lc 1 n s m) = lc 1 (lc (-1) n 0 n) s (lc (-1) m 0 m) := by
    simp only [lc]; ext <;> simp only <;> ring
  rw [e, hi_eq ha h1, hi_eq hb h2]
  simp only [dot_lc]; ring

/-- A product of two linear functions has no minimum relative to the square of the length. -/
theorem amgm {f g f' g' s M : ℝ} (hs : 0 < s) (hM : 0 < M) (hm : M = f * g) (a1 : 0 ≤ f + s * f') (a2 : 0 ≤ g - s * g')
    (a3 : (1 + s ^ 2) * M ≤ (f + s * f') * (g - s * g')) (b1 : 0 ≤ f - s * f') (b2 : 0 ≤ g + s * g')
    (b3 : (1 + s ^ 2) * M ≤ (f - s * f') * (g + s * g')) : False := by
  obtain ⟨f1, h1⟩ : ∃ f1, f1 = f + s * f' := ⟨_, rfl⟩
  obtain ⟨f2, h2⟩ : ∃ f2, f2 = f - s * f' := ⟨_, rfl⟩
  obtain ⟨g1, h3⟩ : ∃ g1, g1 = g - s * g' := ⟨_, rfl⟩
  obtain ⟨g2, h4⟩ : ∃ g2, g2 = g + s * g' := ⟨_, rfl⟩
  rw [← h1, ← h3] at a3
  rw [← h2, ← h4] at b3
  rw [← h1] at a1
  rw [← h3] at a2
  rw [← h2] at b1
  rw [← h4] at b2
  have hsum : (f1 + f2) * (g1 + g2) = 4 * M := by rw [hm, h1, h2, h3, h4]; ring
  obtain ⟨m, hm'⟩ : ∃ m, m = (1 + s ^ 2) * M := ⟨_, rfl⟩
  have hMs : 0 < m := by rw [hm']; positivity
  rw [← hm'] at a3 b3
  have hprod : m ^ 2 ≤ (f1 * g2) * (f2 * g1) := by
    calc m ^ 2 = m * m := by ring
      _ ≤ (f1 * g1) * (f2 * g2) := mul_le_mul a3 b3 hMs.le (hMs.le.trans a3)
      _ = _ := by ring
  have hx : 0 ≤ f1 * g2 := mul_nonneg a1 b2
  have hy : 0 ≤ f2 * g1 := mul_nonneg b1 a2
  have hgm : 2 * m ≤ f1 * g2 + f2 * g1 := by
    refine le_of_sq_le_sq ?_ (by positivity)
    nlinarith [sq_nonneg (f1 * g2 - f2 * g1)]
  have h5 : 0 < s ^ 2 * M := by positivity
  have h6 : (f1 + f2) * (g1 + g2) = f1 * g1 + f2 * g2 + (f1 * g2 + f2 * g1) := by ring
  have h7 : m = M + s ^ 2 * M := by rw [hm']; ring
  linarith

private theorem circle : IsCompact {q : ℝ × ℝ | q.1 ^ 2 + q.2 ^ 2 = 1} := by
  refine Metric.isCompact_of_isClosed_isBounded (isClosed_eq (by fun_prop) continuous_const) ?_
  refine (Metric.isBounded_closedBall (x := (0 : ℝ × ℝ)) (r := 1)).subset ?_
  rintro ⟨x, y⟩ hq
  have hq : x ^ 2 + y ^ 2 = 1 := hq
  rw [mem_closedBall_zero_iff, Prod.norm_def]
  refine max_le ?_ ?_
  · rw [Real.norm_eq_abs]; exact abs_le_of_sq_le_sq (by nlinarith [sq_nonneg y]) zero_le_one
  · rw [Real.norm_eq_abs]; exact abs_le_of_sq_le_sq (by nlinarith [sq_nonneg x]) zero_le_one

private theorem continuous_area (u v : Vec3 ℝ) : Continuous fun q : ℝ × ℝ => area c h u v q.1 q.2 := by
  unfold area
  refine (continuous_wd u v).mul ?_
  exact (continuous_wd (c := c) (h := h) u v).comp (g := fun q : ℝ × ℝ => wd c h (lc q.1 u q.2 v))
    (f := fun q : ℝ × ℝ => (-q.2, q.1)) (by fun_prop)

private theorem exists_min (u v : Vec3 ℝ) : ∃ x y : ℝ, x ^ 2 + y ^ 2 = 1 ∧
    ∀ a b : ℝ, a ^ 2 + b ^ 2 = 1 → area c h u v x y ≤ area c h u v a b := by
  obtain ⟨q, hq, hmin⟩ := circle.exists_isMinOn ⟨(1, 0), by simp⟩ (continuous_area (c := c) (h := h) u v).continuousOn
  exact ⟨q.1, q.2, hq, fun a b hab => hmin (a := (a, b)) hab⟩

set_option maxHeartbeats 1000000 in
/-- Some pair of directions with two points on a side has no larger rectangle. -/
theorem caliper (c : List (Vec3 ℝ)) (h : c ≠ []) (u v : Vec3 ℝ)
    (hpos : ∀ x y : ℝ, x ^ 2 + y ^ 2 = 1 → 0 < wd c h (lc x u y v)) :
    ∃ x y : ℝ, x ^ 2 + y ^ 2 = 1 ∧ area c h u v x y ≤ area c h u v 1 0 ∧
      (Flush c (lc x u y v) ∨ Flush c (lc (-1) (lc x u y v) 0 (lc x u y v)) ∨
        Flush c (lc (-y) u x v) ∨ Flush c (lc (-1) (lc (-y) u x v) 0 (lc (-y) u x v))) := by
  obtain ⟨x, y, hq, hmin'⟩ := exists_min (c := c) (h := h) u v
  refine ⟨x, y, hq, hmin' 1 0 (by norm_num), ?_⟩
  by_contra hno
  push Not at hno
  obtain ⟨n1, n2, n3, n4⟩ := hno
  set U := lc x u y v with hU
  set V := lc (-y) u x v with hV
  -- the product in all directions of the plane
  have hall : ∀ a b : ℝ, (a ^ 2 + b ^ 2) * area c h u v x y ≤ area c h u v a b := by
    intro a b
    rcases eq_or_ne (a ^ 2 + b ^ 2) 0 with h0 | h0
    · rw [h0, zero_mul]; exact mul_nonneg (wd_nonneg _) (wd_nonneg _)
    · have hp : 0 < a ^ 2 + b ^ 2 := lt_of_le_of_ne (by positivity) (Ne.symm h0)
      have hs : Real.sqrt (a ^ 2 + b ^ 2) ≠ 0 := (Real.sqrt_pos.2 hp).ne'
      have hss := Real.sq_sqrt hp.le
      have := hmin' (a / Real.sqrt (a ^ 2 + b ^ 2)) (b / Real.sqrt (a ^ 2 + b ^ 2))
        (by rw [div_pow, div_pow, hss]; field_simp)
      have e := area_smul (c := c) (h := h) (Real.sqrt (a ^ 2 + b ^ 2)) u v (a / Real.sqrt (a ^ 2 + b ^ 2)) (b / Real.sqrt (a ^ 2 + b ^ 2))
      rw [mul_div_cancel₀ _ hs, mul_div_cancel₀ _ hs, hss] at e
      rw [e]
      exact mul_le_mul_of_nonneg_left this hp.le
  obtain ⟨a, ha, ea⟩ := support h n1 V
  obtain ⟨b, hb, eb⟩ := support h n2 (lc (-1) V 0 V)
  obtain ⟨a', ha', ea'⟩ := support h n3 (lc (-1) U 0 U)
  obtain ⟨b', hb', eb'⟩ := support h n4 (lc (-1) (lc (-1) U 0 U) 0 (lc (-1) U 0 U))
  have hev := ((ea.and eb).and ea').and eb'
  obtain ⟨ε, hε, hball⟩ := Metric.eventually_nhds_iff.1 hev
  -- the widths on both sides of the minimum
  have key : ∀ s : ℝ, |s| < ε → 0 ≤ (dot U a - dot U b) + s * (dot V a - dot V b) ∧
      0 ≤ (dot V a' - dot V b') - s * (dot U a' - dot U b') ∧
      (1 + s ^ 2) * area c h u v x y ≤ ((dot U a - dot U b) + s * (dot V a - dot V b)) *
        ((dot V a' - dot V b') - s * (dot U a' - dot U b')) := by
    intro s hs
    obtain ⟨⟨⟨k1, k2⟩, k3⟩, k4⟩ := hball (show dist s 0 < ε by simpa using hs)
    have w1 := wd_lin (h := h) ha hb k1 k2
    have w2 := wd_lin (h := h) ha' hb' k3 k4
    simp only [dot_lc, zero_mul, add_zero] at w2
    have p1 : lc 1 U s V = lc (x - s * y) u (y + s * x) v := by
      simp only [hU, hV, lc]; ext <;> simp only <;> ring
    have p2 : lc 1 V s (lc (-1) U 0 U) = lc (-(y + s * x)) u (x - s * y) v := by
      simp only [hU, hV, lc]; ext <;> simp only <;> ring
    have hA := hall (x - s * y) (y + s * x)
    have e0 : (x - s * y) ^ 2 + (y + s * x) ^ 2 = 1 + s ^ 2 := by linear_combination (1 + s ^ 2) * hq
    rw [e0] at hA
    unfold area at hA
    rw [← p1, ← p2, w1, w2] at hA
    refine ⟨by rw [← w1]; exact wd_nonneg _, ?_, ?_⟩
    · have := wd_nonneg (h := h) (lc 1 V s (lc (-1) U 0 U))
      rw [w2] at this; linarith
    · unfold area; rw [show dot V a' - dot V b' - s * (dot U a' - dot U b') =
        dot V a' - dot V b' + s * (-1 * dot U a' - -1 * dot U b') by ring]
      exact hA
  -- at the minimum
  have hm : area c h u v x y = (dot U a - dot U b) * (dot V a' - dot V b') := by
    obtain ⟨⟨⟨k1, k2⟩, k3⟩, k4⟩ := hball (show dist (0:ℝ) 0 < ε by simpa using hε)
    have w1 := wd_lin (h := h) ha hb k1 k2
    have w2 := wd_lin (h := h) ha' hb' k3 k4
    have q1 : lc 1 U 0 V = U := by simp only [lc]; ext <;> simp only <;> ring
    have q2 : lc 1 V 0 (lc (-1) U 0 U) = V := by simp only [lc]; ext <;> simp only <;> ring
    rw [q1, zero_mul, add_zero] at w1
    rw [q2, zero_mul, add_zero] at w2
    unfold area
    rw [← hU, ← hV, w1, w2]
  have hmpos : 0 < area c h u v x y := by
    unfold area
    exact mul_pos (hpos x y hq) (hpos (-y) x (by linarith))
  have s0 : |ε / 2| < ε := by rw [abs_of_pos (by linarith)]; linarith
  obtain ⟨a1, a2, a3⟩ := key (ε / 2) s0
  obtain ⟨b1, b2, b3⟩ := key (-(ε / 2)) (by rwa [abs_neg])
  rw [neg_sq] at b3
  rw [neg_mul, ← sub_eq_add_neg] at b1 b3
  rw [neg_mul, sub_neg_eq_add] at b2 b3
  exact amgm (by linarith) hmpos hm a1 a2 a3 b1 b2 b3

end
end Zeo.Caliper
