import Verif.Model.Delaunay
import Verif.Props.C22
import Verif.Props.C21
import Mathlib.Tactic.LinearCombination
import Mathlib.Tactic.Linarith
import Mathlib.Topology.Order.Basic
import Mathlib.Topology.Algebra.Order.Field
import Mathlib.Analysis.SpecialFunctions.Pow.Real

/-! # Orientation and circles in the plane -/

namespace Zeo.DelG
open Filter Topology

/-- Twice the signed area. -/
def o (a b c : Vec2 ℝ) : ℝ := (b.x - a.x) * (c.y - a.y) - (b.y - a.y) * (c.x - a.x)

/-- Signed area times power. -/
def inc (a b c d : Vec2 ℝ) : ℝ :=
  -(((a.x - d.x)^2 + (a.y - d.y)^2) * ((b.x - d.x) * (c.y - d.y) - (c.x - d.x) * (b.y - d.y)) -
    ((b.x - d.x)^2 + (b.y - d.y)^2) * ((a.x - d.x) * (c.y - d.y) - (c.x - d.x) * (a.y - d.y)) +
    ((c.x - d.x)^2 + (c.y - d.y)^2) * ((a.x - d.x) * (b.y - d.y) - (b.x - d.x) * (a.y - d.y)))

theorem o_cyc (a b c : Vec2 ℝ) : o b c a = o a b c := by simp only [o]; ring
theorem o_swap (a b c : Vec2 ℝ) : o b a c = -o a b c := by simp only [o]; ring
theorem o_self (a b : Vec2 ℝ) : o a b a = 0 := by simp only [o]; ring
theorem o_self' (a b : Vec2 ℝ) : o a b b = 0 := by simp only [o]; ring
theorem inc_cyc (a b c d : Vec2 ℝ) : inc b c a d = inc a b c d := by simp only [inc]; ring
theorem inc_swap (a b c d : Vec2 ℝ) : inc b a c d = -inc a b c d := by simp only [inc]; ring
theorem inc_swap' (a b c d : Vec2 ℝ) : inc a b d c = -inc a b c d := by simp only [inc]; ring
theorem inc_flip (a b c d : Vec2 ℝ) : inc b a d c = inc a b c d := by simp only [inc]; ring
theorem inc_a (a b c : Vec2 ℝ) : inc a b c a = 0 := by simp only [inc]; ring
theorem inc_b (a b c : Vec2 ℝ) : inc a b c b = 0 := by simp only [inc]; ring
theorem inc_c (a b c : Vec2 ℝ) : inc a b c c = 0 := by simp only [inc]; ring

/-- Circles through two points. -/
theorem pencil (u v x p s : Vec2 ℝ) :
    o u v x * inc u v p s = o u v p * inc u v x s + o u v s * inc u v p x := by simp only [inc, o]; ring

theorem affine (a b c d e x : Vec2 ℝ) :
    o a b c * o d e x = o b c x * o d e a + o c a x * o d e b + o a b x * o d e c := by simp only [o]; ring

theorem o_sum (a b c x : Vec2 ℝ) : o a b x + o b c x + o c a x = o a b c := by simp only [o]; ring

theorem inc_pow (a b c d m : Vec2 ℝ) (h1 : Spec.sqd2 m b = Spec.sqd2 m a) (h2 : Spec.sqd2 m c = Spec.sqd2 m a) :
    inc a b c d = o a b c * (Spec.sqd2 m d - Spec.sqd2 m a) := by
  simp only [inc, o, Spec.sqd2] at *
  linear_combination ((a.x - d.x) * (c.y - d.y) - (c.x - d.x) * (a.y - d.y)) * h1 -
    ((a.x - d.x) * (b.y - d.y) - (b.x - d.x) * (a.y - d.y)) * h2

theorem divisor_eq (a b c : Vec2 ℝ) : Del.divisor a b c = 4 * o a b c ^ 2 := by
  simp only [Del.divisor, o, zeo]; ring

theorem o_outer (a b c : Vec2 ℝ) : (b.sub a).outer (c.sub a) = o a b c := by simp only [o, zeo]

theorem legal_iff (pos : ℕ → Vec2 ℝ) (c : Del.Cell) (n : ℕ) (h : 0 < o (pos (c.v 0)) (pos (c.v 1)) (pos (c.v 2))) :
    Del.legal pos c n ↔ 0 < inc (pos (c.v 0)) (pos (c.v 1)) (pos (c.v 2)) (pos n) := by
  obtain ⟨h1, h2⟩ := circumcenter2_bisect (pos (c.v 0)) (pos (c.v 1)) (pos (c.v 2)) (by rw [o_outer]; exact h.ne')
  rw [Del.legal, divisor_eq, inc_pow _ _ _ _ _ h1 h2, dist_eq_ed2, dist_eq_ed2, Spec.ed2, Spec.ed2, gt_iff_lt,
    Real.sqrt_lt_sqrt_iff (by simp only [Spec.sqd2]; positivity)]
  have e : ∀ a b : Vec2 ℝ, Spec.sqd2 a b = Spec.sqd2 b a := by intro a b; simp only [Spec.sqd2]; ring
  rw [e (pos (c.v 0)), e (pos n)]
  constructor
  · rintro ⟨-, h3⟩; exact mul_pos h (by linarith)
  · intro h3
    exact ⟨by positivity, by have := pos_of_mul_pos_right h3 h.le; linarith⟩

theorem not_legal (pos : ℕ → Vec2 ℝ) (c : Del.Cell) (n : ℕ) (h : o (pos (c.v 0)) (pos (c.v 1)) (pos (c.v 2)) = 0) :
    ¬ Del.legal pos c n := by
  rintro ⟨h1, -⟩; apply h1; rw [divisor_eq, h]; norm_num

theorem eq_of_sq {a b : Vec2 ℝ} (h : (a.x - b.x)^2 + (a.y - b.y)^2 ≤ 0) : a = b := by
  have h1 : (a.x - b.x)^2 = 0 := by nlinarith [sq_nonneg (a.x - b.x), sq_nonneg (a.y - b.y)]
  have h2 : (a.y - b.y)^2 = 0 := by nlinarith [sq_nonneg (a.x - b.x), sq_nonneg (a.y - b.y)]
  ext
  · exact sub_eq_zero.1 (pow_eq_zero_iff (by norm_num) |>.1 h1)
  · exact sub_eq_zero.1 (pow_eq_zero_iff (by norm_num) |>.1 h2)

/-- A point in the circle, beyond the edge `v u`, is beyond no other edge. -/
theorem conv_u (u v n p : Vec2 ℝ) (hA : 0 < o v u n) (hb : o v u p ≤ 0) (hi : inc v u n p ≤ 0) (hpu : p ≠ u) :
    0 < o u n p := by
  by_contra hc
  push Not at hc
  have key : o v u n * inc v u n p = (o v u n)^2 * ((p.x - u.x)^2 + (p.y - u.y)^2) -
      o v u n * o u n p * ((v.x - u.x)^2 + (v.y - u.y)^2) - o v u n * o v u p * ((n.x - u.x)^2 + (n.y - u.y)^2) := by
    simp only [inc, o]; ring
  apply hpu
  apply eq_of_sq
  have h1 : 0 ≤ -(o v u n * o u n p * ((v.x - u.x)^2 + (v.y - u.y)^2)) := by
    have := mul_nonneg (mul_nonneg hA.le (neg_nonneg.2 hc)) (by positivity : 0 ≤ (v.x - u.x)^2 + (v.y - u.y)^2)
    linarith
  have h2 : 0 ≤ -(o v u n * o v u p * ((n.x - u.x)^2 + (n.y - u.y)^2)) := by
    have := mul_nonneg (mul_nonneg hA.le (neg_nonneg.2 hb)) (by positivity : 0 ≤ (n.x - u.x)^2 + (n.y - u.y)^2)
    linarith
  have h3 : o v u n * inc v u n p ≤ 0 := mul_nonpos_of_nonneg_of_nonpos hA.le hi
  by_contra hq
  push Not at hq
  have := mul_pos (pow_pos hA 2) hq
  linarith

theorem conv_v (u v n p : Vec2 ℝ) (hA : 0 < o v u n) (hb : o v u p ≤ 0) (hi : inc v u n p ≤ 0) (hpv : p ≠ v) :
    0 < o n v p := by
  by_contra hc
  push Not at hc
  have key : o v u n * inc v u n p = (o v u n)^2 * ((p.x - v.x)^2 + (p.y - v.y)^2) -
      o v u n * o n v p * ((u.x - v.x)^2 + (u.y - v.y)^2) - o v u n * o v u p * ((n.x - v.x)^2 + (n.y - v.y)^2) := by
    simp only [inc, o]; ring
  apply hpv
  apply eq_of_sq
  have h1 : 0 ≤ -(o v u n * o n v p * ((u.x - v.x)^2 + (u.y - v.y)^2)) := by
    have := mul_nonneg (mul_nonneg hA.le (neg_nonneg.2 hc)) (by positivity : 0 ≤ (u.x - v.x)^2 + (u.y - v.y)^2)
    linarith
  have h2 : 0 ≤ -(o v u n * o v u p * ((n.x - v.x)^2 + (n.y - v.y)^2)) := by
    have := mul_nonneg (mul_nonneg hA.le (neg_nonneg.2 hb)) (by positivity : 0 ≤ (n.x - v.x)^2 + (n.y - v.y)^2)
    linarith
  have h3 : o v u n * inc v u n p ≤ 0 := mul_nonpos_of_nonneg_of_nonpos hA.le hi
  by_contra hq
  push Not at hq
  have := mul_pos (pow_pos hA 2) hq
  linarith

/-- The point is strictly inside. -/
def Ins (a b c x : Vec2 ℝ) : Prop := 0 < o a b x ∧ 0 < o b c x ∧ 0 < o c a x
/-- The point is inside or on the edges. -/
def Cl (a b c x : Vec2 ℝ) : Prop := 0 ≤ o a b x ∧ 0 ≤ o b c x ∧ 0 ≤ o c a x

open Classical in
/-- 1 inside, 0 outside. -/
noncomputable def ind (a b c x : Vec2 ℝ) : ℕ := if Ins a b c x then 1 else 0

theorem Ins.o_pos {a b c x : Vec2 ℝ} (h : Ins a b c x) : 0 < o a b c := by
  have := o_sum a b c x; obtain ⟨h1, h2, h3⟩ := h; linarith

/-- The sign at the corners is the sign inside. -/
theorem Ins.pos {a b c x : Vec2 ℝ} (h : Ins a b c x) {d e : Vec2 ℝ} (ha : 0 ≤ o d e a) (hb : 0 ≤ o d e b)
    (hc : 0 ≤ o d e c) (hs : 0 < o d e a ∨ 0 < o d e b ∨ 0 < o d e c) : 0 < o d e x := by
  have hp := h.o_pos
  obtain ⟨h1, h2, h3⟩ := h
  have e1 := affine a b c d e x
  have q1 := mul_nonneg h2.le ha
  have q2 := mul_nonneg h3.le hb
  have q3 := mul_nonneg h1.le hc
  refine pos_of_mul_pos_right (a := o a b c) ?_ hp.le
  rcases hs with hs | hs | hs
  · have := mul_pos h2 hs; linarith
  · have := mul_pos h3 hs; linarith
  · have := mul_pos h1 hs; linarith

theorem ind_flip {u v p n x : Vec2 ℝ} (h0 : 0 ≤ o u v p) (hA : 0 < o v u n) (h1 : 0 < o u n p) (h2 : 0 < o n v p)
    (g1 : o u v x ≠ 0) (g2 : o n p x ≠ 0) :
    ind u v p x + ind v u n x = ind u n p x + ind n v p x := by
  have s1 : o v u x = -o u v x := o_swap u v x
  have s2 : o p n x = -o n p x := o_swap n p x
  have a1 := o_self u n
  have a2 := o_self n v
  have a3 := o_self v p
  have a4 := o_self p u
  have b1 := o_self' u n
  have b2 := o_self' n v
  have b3 := o_self' v p
  have b4 := o_self' p u
  have e1 : o u n v = o v u n := by simp only [o]; ring
  have e2 : o n v u = o v u n := by simp only [o]; ring
  have e3 : o v p u = o u v p := by simp only [o]; ring
  have e4 : o p u v = o u v p := by simp only [o]; ring
  have e5 : o v p n = o n v p := by simp only [o]; ring
  have e6 : o p u n = o u n p := by simp only [o]; ring
  have k1 : Ins u v p x ↔ (0 < o u n x ∧ 0 < o n v x ∧ 0 < o v p x ∧ 0 < o p u x) ∧ 0 < o u v x := by
    constructor
    · intro h
      exact ⟨⟨h.pos (by linarith) (by linarith) h1.le (by right; right; linarith), h.pos (by linarith) (by linarith) h2.le (by right; right; linarith), h.2.1, h.2.2⟩, h.1⟩
    · rintro ⟨⟨-, -, h3, h4⟩, h5⟩; exact ⟨h5, h3, h4⟩
  have k2 : Ins v u n x ↔ (0 < o u n x ∧ 0 < o n v x ∧ 0 < o v p x ∧ 0 < o p u x) ∧ o u v x < 0 := by
    constructor
    · intro h
      exact ⟨⟨h.2.1, h.2.2, h.pos (by linarith) (by linarith) (by linarith) (by right; right; linarith), h.pos (by linarith) (by linarith) (by linarith) (by right; right; linarith)⟩, by linarith [h.1]⟩
    · rintro ⟨⟨h3, h4, -, -⟩, h5⟩; exact ⟨by linarith, h3, h4⟩
  have k3 : Ins u n p x ↔ (0 < o u n x ∧ 0 < o n v x ∧ 0 < o v p x ∧ 0 < o p u x) ∧ 0 < o n p x := by
    constructor
    · intro h
      exact ⟨⟨h.1, h.pos (by linarith) (by linarith) (by linarith) (by left; linarith), h.pos (by linarith) (by linarith) (by linarith) (by right; left; linarith), h.2.2⟩, h.2.1⟩
    · rintro ⟨⟨h3, -, -, h4⟩, h5⟩; exact ⟨h3, h5, h4⟩
  have k4 : Ins n v p x ↔ (0 < o u n x ∧ 0 < o n v x ∧ 0 < o v p x ∧ 0 < o p u x) ∧ o n p x < 0 := by
    constructor
    · intro h
      exact ⟨⟨h.pos (by linarith) (by linarith) (by linarith) (by right; left; linarith), h.1, h.2.1, h.pos (by linarith) (by linarith) (by linarith) (by left; linarith)⟩, by linarith [h.2.2]⟩
    · rintro ⟨⟨-, h3, h4, -⟩, h5⟩; exact ⟨h3, h4, by linarith⟩
  simp only [ind, k1, k2, k3, k4]
  by_cases hq : 0 < o u n x ∧ 0 < o n v x ∧ 0 < o v p x ∧ 0 < o p u x
  · simp only [hq, and_self, true_and]
    rcases lt_or_gt_of_ne g1 with k | k <;> rcases lt_or_gt_of_ne g2 with l | l <;>
      simp [k, l, k.le, l.le, not_lt.2 k.le, not_lt.2 l.le]
  · simp [hq]

theorem ind_split {a b c p x : Vec2 ℝ} (hp : Cl a b c p) (hA : 0 < o a b c)
    (g0 : o p a x ≠ 0) (g1 : o p b x ≠ 0) (g2 : o p c x ≠ 0) :
    ind a b c x = ind a b p x + ind p b c x + ind a p c x := by
  have sa : o a p x = -o p a x := o_swap _ _ _
  have sb : o b p x = -o p b x := o_swap _ _ _
  have sc : o c p x = -o p c x := o_swap _ _ _
  obtain ⟨p1, p2, p3⟩ := hp
  have c1 := o_cyc a b c
  have c2 := o_cyc b c a
  have a1 := o_self a b
  have a2 := o_self b c
  have a3 := o_self c a
  have b1 := o_self' a b
  have b2 := o_self' b c
  have b3 := o_self' c a
  have rel : o b c p * o p a x + o c a p * o p b x + o a b p * o p c x = 0 := by simp only [o]; ring
  have sm := o_sum a b c p
  have k1 : Ins a b p x ↔ Ins a b c x ∧ 0 < o p a x ∧ o p b x < 0 := by
    constructor
    · intro h
      exact ⟨⟨h.1, h.pos (by linarith) (by linarith) p2 (by left; linarith), h.pos (by linarith) (by linarith) p3 (by right; left; linarith)⟩, h.2.2, by linarith [h.2.1]⟩
    · rintro ⟨h, h1, h2⟩; exact ⟨h.1, by linarith, h1⟩
  have k2 : Ins p b c x ↔ Ins a b c x ∧ 0 < o p b x ∧ o p c x < 0 := by
    constructor
    · intro h
      exact ⟨⟨h.pos p1 (by linarith) (by linarith) (by right; right; linarith), h.2.1, h.pos p3 (by linarith) (by linarith) (by right; left; linarith)⟩, h.1, by linarith [h.2.2]⟩
    · rintro ⟨h, h1, h2⟩; exact ⟨h1, h.2.1, by linarith⟩
  have k3 : Ins a p c x ↔ Ins a b c x ∧ 0 < o p c x ∧ o p a x < 0 := by
    constructor
    · intro h
      exact ⟨⟨h.pos (by linarith) p1 (by linarith) (by right; right; linarith), h.pos (by linarith) p2 (by linarith) (by left; linarith), h.2.2⟩, h.2.1, by linarith [h.1]⟩
    · rintro ⟨h, h1, h2⟩; exact ⟨by linarith, h1, h.2.2⟩
  simp only [ind]
  by_cases hq : Ins a b c x
  · simp only [hq, true_and] at k1 k2 k3
    rw [if_pos hq]
    rcases lt_or_gt_of_ne g0 with l0 | l0 <;> rcases lt_or_gt_of_ne g1 with l1 | l1 <;> rcases lt_or_gt_of_ne g2 with l2 | l2 <;>
      simp only [l0, l1, l2, not_lt.2 l0.le, not_lt.2 l1.le, not_lt.2 l2.le, and_true, and_false, iff_false, iff_true, and_self, true_and, false_and] at k1 k2 k3 <;>
      simp [k1, k2, k3]
    · have q1 := mul_nonneg p2 (neg_nonneg.2 l0.le)
      have q2 := mul_nonneg p3 (neg_nonneg.2 l1.le)
      have q3 := mul_nonneg p1 (neg_nonneg.2 l2.le)
      have r1 : o b c p * o p a x = 0 := by linarith
      have r2 : o c a p * o p b x = 0 := by linarith
      have r3 : o a b p * o p c x = 0 := by linarith
      have r1 := (mul_eq_zero.1 r1).resolve_right g0
      have r2 := (mul_eq_zero.1 r2).resolve_right g1
      have r3 := (mul_eq_zero.1 r3).resolve_right g2
      linarith
    · have q1 := mul_nonneg p2 l0.le
      have q2 := mul_nonneg p3 l1.le
      have q3 := mul_nonneg p1 l2.le
      have r1 : o b c p * o p a x = 0 := by linarith
      have r2 : o c a p * o p b x = 0 := by linarith
      have r3 : o a b p * o p c x = 0 := by linarith
      have r1 := (mul_eq_zero.1 r1).resolve_right g0
      have r2 := (mul_eq_zero.1 r2).resolve_right g1
      have r3 := (mul_eq_zero.1 r3).resolve_right g2
      linarith
  · simp only [hq, false_and, iff_false] at k1 k2 k3
    simp [k1, k2, k3, hq]

theorem ind_cyc (a b c x : Vec2 ℝ) : ind b c a x = ind a b c x := by
  simp only [ind]
  congr 1
  apply propext
  simp only [Ins]; tauto

/-! ## Points off all lines -/

/-- The point is on no line through two of the vertices. -/
def Gen (pos : ℕ → Vec2 ℝ) (N : ℕ) (x : Vec2 ℝ) : Prop :=
  ∀ i < N, ∀ j < N, pos i ≠ pos j → o (pos i) (pos j) x ≠ 0

theorem Gen.mono {pos : ℕ → Vec2 ℝ} {M N : ℕ} (h : M ≤ N) {x : Vec2 ℝ} (g : Gen pos N x) : Gen pos M x :=
  fun i hi j hj => g i (hi.trans_le h) j (hj.trans_le h)

/-- A step. -/
def stp (y d : Vec2 ℝ) (ε : ℝ) : Vec2 ℝ := ⟨y.x + ε * d.x, y.y + ε * d.y⟩

theorem o_stp (a b y d : Vec2 ℝ) (ε : ℝ) :
    o a b (stp y d ε) = o a b y + ε * ((b.x - a.x) * d.y - (b.y - a.y) * d.x) := by simp only [o, stp]; ring

theorem gen_dir (pos : ℕ → Vec2 ℝ) (N : ℕ) :
    ∃ d : Vec2 ℝ, ∀ i < N, ∀ j < N, pos i ≠ pos j →
      ((pos j).x - (pos i).x) * d.y - ((pos j).y - (pos i).y) * d.x ≠ 0 := by
  obtain ⟨s, hs⟩ := Infinite.exists_notMem_finset
    (((Finset.range N) ×ˢ (Finset.range N)).image fun q : ℕ × ℕ =>
      ((pos q.2).y - (pos q.1).y) / ((pos q.2).x - (pos q.1).x))
  refine ⟨⟨1, s⟩, fun i hi j hj hne h0 => ?_⟩
  simp only [mul_one] at h0
  by_cases hx : (pos j).x - (pos i).x = 0
  · apply hne
    rw [hx] at h0
    ext
    · linarith
    · linarith
  · apply hs
    simp only [Finset.mem_image, Finset.mem_product, Finset.mem_range, Prod.exists]
    exact ⟨i, j, ⟨hi, hj⟩, by field_simp; linarith⟩

theorem ev_ne {c0 c1 : ℝ} (h : c1 ≠ 0) : ∀ᶠ ε in 𝓝[>] (0 : ℝ), c0 + ε * c1 ≠ 0 := by
  by_cases h0 : c0 = 0
  · filter_upwards [self_mem_nhdsWithin] with ε he
    have he : 0 < ε := he
    rw [h0, zero_add]; exact mul_ne_zero he.ne' h
  · have : Tendsto (fun ε : ℝ => c0 + ε * c1) (𝓝[>] 0) (𝓝 (c0 + 0 * c1)) :=
      ((by fun_prop : Continuous fun ε : ℝ => c0 + ε * c1).tendsto 0).mono_left nhdsWithin_le_nhds
    exact this.eventually_ne (by simpa using h0)

theorem ev_gen (pos : ℕ → Vec2 ℝ) (N : ℕ) : ∃ d : Vec2 ℝ, ∀ y, ∀ᶠ ε in 𝓝[>] (0 : ℝ), Gen pos N (stp y d ε) := by
  obtain ⟨d, hd⟩ := gen_dir pos N
  refine ⟨d, fun y => ?_⟩
  have : ∀ᶠ ε in 𝓝[>] (0 : ℝ), ∀ q ∈ (Finset.range N) ×ˢ (Finset.range N), pos q.1 ≠ pos q.2 →
      o (pos q.1) (pos q.2) (stp y d ε) ≠ 0 := by
    rw [Filter.eventually_all_finset]
    intro q hq
    simp only [Finset.mem_product, Finset.mem_range] at hq
    by_cases hne : pos q.1 = pos q.2
    · simp [hne]
    · filter_upwards [ev_ne (c0 := o (pos q.1) (pos q.2) y) (hd q.1 hq.1 q.2 hq.2 hne)] with ε he _
      rw [o_stp]; exact he
  filter_upwards [this] with ε he i hi j hj
  exact he (i, j) (by simp [hi, hj])

theorem ev_pos {a b y : Vec2 ℝ} (d : Vec2 ℝ) (h : 0 < o a b y) : ∀ᶠ ε in 𝓝[>] (0 : ℝ), 0 < o a b (stp y d ε) := by
  have : Tendsto (fun ε : ℝ => o a b y + ε * ((b.x - a.x) * d.y - (b.y - a.y) * d.x)) (𝓝[>] 0)
      (𝓝 (o a b y + 0 * ((b.x - a.x) * d.y - (b.y - a.y) * d.x))) :=
    ((by fun_prop : Continuous fun ε : ℝ => o a b y + ε * ((b.x - a.x) * d.y - (b.y - a.y) * d.x)).tendsto 0).mono_left nhdsWithin_le_nhds
  have := this.eventually (lt_mem_nhds (a := 0) (by simpa using h))
  simpa only [o_stp] using this

theorem ev_neg {a b y : Vec2 ℝ} (d : Vec2 ℝ) (h : o a b y < 0) : ∀ᶠ ε in 𝓝[>] (0 : ℝ), o a b (stp y d ε) < 0 := by
  have := ev_pos (a := b) (b := a) d (y := y) (by rw [o_swap]; linarith)
  filter_upwards [this] with ε he
  rw [o_swap] at he; linarith

/-- Near every point there is one off all lines, with open conditions. -/
theorem gen_near (pos : ℕ → Vec2 ℝ) (N : ℕ) (y : Vec2 ℝ) (P : Vec2 ℝ → Prop)
    (hP : ∀ d, ∀ᶠ ε in 𝓝[>] (0 : ℝ), P (stp y d ε)) : ∃ x, Gen pos N x ∧ P x := by
  obtain ⟨d, hd⟩ := ev_gen pos N
  obtain ⟨ε, h1, h2⟩ := ((hd y).and (hP d)).exists
  exact ⟨_, h1, h2⟩

end Zeo.DelG
