import Verif.Spec.Geometry
import Verif.Lemmas.Norm
import Mathlib.Data.Finset.Max
import Mathlib.Tactic.Linarith
import Mathlib.Tactic.FieldSimp

/-! Exit points from a simplex, translations of nearest points. -/

namespace Zeo
variable {K : Type*} [Field K] [LinearOrder K] [IsStrictOrderedRing K]

/-- Moving from a point with non-negative coordinates in a direction with some negative component,
there is a first coordinate that vanishes while the others are still non-negative. -/
theorem exit_dir {n : ℕ} (l m : Fin n → K) (hl : ∀ i, 0 ≤ l i) (hm : ∃ i, m i < 0) :
    ∃ t i, 0 ≤ t ∧ m i < 0 ∧ l i + t * m i = 0 ∧ ∀ j, 0 ≤ l j + t * m j := by
  classical
  obtain ⟨i0, hi0⟩ := hm
  obtain ⟨i, hi, hmin⟩ := Finset.exists_min_image (Finset.univ.filter fun i => m i < 0) (fun i => l i / (-m i))
    ⟨i0, by simp [hi0]⟩
  have hmi : m i < 0 := by simpa using hi
  refine ⟨l i / (-m i), i, div_nonneg (hl i) (by linarith), hmi, by field_simp [hmi.ne]; ring, fun j => ?_⟩
  by_cases hj : m j < 0
  · have := hmin j (by simp [hj])
    rw [div_le_div_iff₀ (by linarith) (by linarith)] at this
    have h2 : l j + l i / (-m i) * m j = (l j * (-m i) - l i * (-m j)) / (-m i) := by
      have : m i ≠ 0 := hmi.ne
      field_simp
      ring
    rw [h2]
    exact div_nonneg (by linarith) (by linarith)
  · have := div_nonneg (hl i) (show (0:K) ≤ -m i by linarith)
    exact add_nonneg (hl j) (mul_nonneg this (not_lt.1 hj))

/-- Walking from non-negative coordinates `l` to coordinates `m` having a negative component: the
exit point. -/
theorem exit_seg {n : ℕ} (l m : Fin n → K) (hl : ∀ i, 0 ≤ l i) (hm : ∃ i, m i < 0) :
    ∃ t i, 0 ≤ t ∧ t ≤ 1 ∧ m i < 0 ∧ l i + t * (m i - l i) = 0 ∧ ∀ j, 0 ≤ l j + t * (m j - l j) := by
  -- only coordinates that end negative can vanish first
  classical
  obtain ⟨i0, hi0⟩ := hm
  obtain ⟨t, i, ht, hi, he, hj⟩ := exit_dir l (fun j => m j - l j) hl ⟨i0, by linarith [hl i0]⟩
  -- the exit parameter is at most that of i0, hence at most 1
  have ht1 : t ≤ 1 := by
    have := hj i0
    by_contra hc
    have : l i0 + t * (m i0 - l i0) < 0 := by nlinarith [hl i0]
    linarith
  by_cases hmi : m i < 0
  · exact ⟨t, i, ht, ht1, hmi, he, hj⟩
  · -- then the coordinate only vanishes at t = 1, where m i0 < 0 contradicts
    exfalso
    have h1 : t = 1 := by
      by_contra hne
      have hlt : t < 1 := lt_of_le_of_ne ht1 hne
      have : 0 < l i + t * (m i - l i) := by
        have hli : 0 < l i := by linarith [not_lt.1 hmi]
        have : l i + t * (m i - l i) = (1 - t) * l i + t * m i := by ring
        rw [this]
        have := mul_pos (sub_pos.2 hlt) hli
        have := mul_nonneg ht (not_lt.1 hmi)
        linarith
      linarith
    have := hj i0
    rw [h1] at this
    linarith

theorem sqd_nonneg (p q : Vec3 K) : 0 ≤ Spec.sqd p q := by unfold Spec.sqd; positivity
theorem sqd2_nonneg (p q : Vec2 K) : 0 ≤ Spec.sqd2 p q := by unfold Spec.sqd2; positivity

theorem dist_eq_ed (p q : Vec3 ℝ) : p.dist q = Spec.ed p q := by
  simp only [Vec3.dist, Spec.ed, Spec.sqd, zeo]; congr 1; ring
theorem dist_eq_ed2 (p q : Vec2 ℝ) : p.dist q = Spec.ed2 p q := by
  simp only [Vec2.dist, Spec.ed2, Spec.sqd2, zeo]; congr 1; ring
theorem norm_eq_ed (p c : Vec3 ℝ) : c.norm = Spec.ed p (c.add p) := by
  simp only [Vec3.norm, Spec.ed, Spec.sqd, zeo]; congr 1; ring
theorem norm_eq_ed2 (p c : Vec2 ℝ) : c.norm = Spec.ed2 p (c.add p) := by
  simp only [Vec2.norm, Spec.ed2, Spec.sqd2, zeo]; congr 1; ring
theorem norm_eq_ed_zero (c : Vec3 ℝ) : c.norm = Spec.ed .zero c := by
  simp only [Vec3.norm, Spec.ed, Spec.sqd, zeo]; congr 1; ring
theorem norm_eq_ed2_zero (c : Vec2 ℝ) : c.norm = Spec.ed2 .zero c := by
  simp only [Vec2.norm, Spec.ed2, Spec.sqd2, zeo]; congr 1; ring
theorem sqd_zero (c : Vec3 K) : Spec.sqd .zero c = c.sqrNorm := by
  simp only [Spec.sqd, zeo]; ring
theorem sqd2_zero (c : Vec2 K) : Spec.sqd2 .zero c = c.sqrNorm := by
  simp only [Spec.sqd2, zeo]; ring

/-- Translating the query to the origin. -/
theorem isNearest_translate {S S' : Set (Vec3 K)} (p c : Vec3 K)
    (h : ∀ q, q ∈ S ↔ q.sub p ∈ S') (hc : Spec.IsNearest S' .zero c) : Spec.IsNearest S p (c.add p) := by
  obtain ⟨h1, h2⟩ := hc
  refine ⟨(h _).2 ?_, fun q hq => ?_⟩
  · have : (c.add p).sub p = c := by vring
    rw [this]; exact h1
  · have := h2 _ ((h q).1 hq)
    have e1 : Spec.sqd p (c.add p) = Spec.sqd .zero c := by simp only [Spec.sqd, zeo]; ring
    have e2 : Spec.sqd p q = Spec.sqd .zero (q.sub p) := by simp only [Spec.sqd, zeo]; ring
    rw [e1, e2]; exact this

/-- Translating the query to the origin (plane). -/
theorem isNearest2_translate {S S' : Set (Vec2 K)} (p c : Vec2 K)
    (h : ∀ q, q ∈ S ↔ q.sub p ∈ S') (hc : Spec.IsNearest2 S' .zero c) : Spec.IsNearest2 S p (c.add p) := by
  obtain ⟨h1, h2⟩ := hc
  refine ⟨(h _).2 ?_, fun q hq => ?_⟩
  · have : (c.add p).sub p = c := by vring
    rw [this]; exact h1
  · have := h2 _ ((h q).1 hq)
    have e1 : Spec.sqd2 p (c.add p) = Spec.sqd2 .zero c := by simp only [Spec.sqd2, zeo]; ring
    have e2 : Spec.sqd2 p q = Spec.sqd2 .zero (q.sub p) := by simp only [Spec.sqd2, zeo]; ring
    rw [e1, e2]; exact this

theorem mem_tetra_sub (v0 v1 v2 v3 p q : Vec3 K) :
    q ∈ Spec.tetra v0 v1 v2 v3 ↔ q.sub p ∈ Spec.tetra (v0.sub p) (v1.sub p) (v2.sub p) (v3.sub p) := by
  constructor
  · rintro ⟨a, b, c, d, ha, hb, hc, hd, hs, rfl⟩
    refine ⟨a, b, c, d, ha, hb, hc, hd, hs, ?_⟩
    ext <;> simp only [Spec.comb, zeo]
    · linear_combination p.x * hs
    · linear_combination p.y * hs
    · linear_combination p.z * hs
  · rintro ⟨a, b, c, d, ha, hb, hc, hd, hs, e⟩
    refine ⟨a, b, c, d, ha, hb, hc, hd, hs, ?_⟩
    have e1 := congrArg Vec3.x e
    have e2 := congrArg Vec3.y e
    have e3 := congrArg Vec3.z e
    simp only [Spec.comb, zeo] at e1 e2 e3
    ext <;> simp only [Spec.comb]
    · linear_combination e1 - p.x * hs
    · linear_combination e2 - p.y * hs
    · linear_combination e3 - p.z * hs

theorem mem_triangle_sub (v0 v1 v2 p q : Vec3 K) :
    q ∈ Spec.triangle v0 v1 v2 ↔ q.sub p ∈ Spec.triangle (v0.sub p) (v1.sub p) (v2.sub p) := by
  constructor
  · rintro ⟨a, b, c, ha, hb, hc, hs, rfl⟩
    refine ⟨a, b, c, ha, hb, hc, hs, ?_⟩
    ext <;> simp only [Spec.comb, zeo]
    · linear_combination p.x * hs
    · linear_combination p.y * hs
    · linear_combination p.z * hs
  · rintro ⟨a, b, c, ha, hb, hc, hs, e⟩
    refine ⟨a, b, c, ha, hb, hc, hs, ?_⟩
    have e1 := congrArg Vec3.x e
    have e2 := congrArg Vec3.y e
    have e3 := congrArg Vec3.z e
    simp only [Spec.comb, zeo] at e1 e2 e3
    ext <;> simp only [Spec.comb]
    · linear_combination e1 - p.x * hs
    · linear_combination e2 - p.y * hs
    · linear_combination e3 - p.z * hs

theorem mem_segment_sub (v0 v1 p q : Vec3 K) :
    q ∈ Spec.segment v0 v1 ↔ q.sub p ∈ Spec.segment (v0.sub p) (v1.sub p) := by
  constructor
  · rintro ⟨a, b, ha, hb, hs, rfl⟩
    refine ⟨a, b, ha, hb, hs, ?_⟩
    ext <;> simp only [Spec.comb, zeo]
    · linear_combination p.x * hs
    · linear_combination p.y * hs
    · linear_combination p.z * hs
  · rintro ⟨a, b, ha, hb, hs, e⟩
    refine ⟨a, b, ha, hb, hs, ?_⟩
    have e1 := congrArg Vec3.x e
    have e2 := congrArg Vec3.y e
    have e3 := congrArg Vec3.z e
    simp only [Spec.comb, zeo] at e1 e2 e3
    ext <;> simp only [Spec.comb]
    · linear_combination e1 - p.x * hs
    · linear_combination e2 - p.y * hs
    · linear_combination e3 - p.z * hs

theorem mem_segment2_sub (v0 v1 p q : Vec2 K) :
    q ∈ Spec.segment2 v0 v1 ↔ q.sub p ∈ Spec.segment2 (v0.sub p) (v1.sub p) := by
  constructor
  · rintro ⟨a, b, ha, hb, hs, rfl⟩
    refine ⟨a, b, ha, hb, hs, ?_⟩
    ext <;> simp only [Spec.comb2, zeo]
    · linear_combination p.x * hs
    · linear_combination p.y * hs
  · rintro ⟨a, b, ha, hb, hs, e⟩
    refine ⟨a, b, ha, hb, hs, ?_⟩
    have e1 := congrArg Vec2.x e
    have e2 := congrArg Vec2.y e
    simp only [Spec.comb2, zeo] at e1 e2
    ext <;> simp only [Spec.comb2]
    · linear_combination e1 - p.x * hs
    · linear_combination e2 - p.y * hs

theorem mem_triangle2_sub (v0 v1 v2 p q : Vec2 K) :
    q ∈ Spec.triangle2 v0 v1 v2 ↔ q.sub p ∈ Spec.triangle2 (v0.sub p) (v1.sub p) (v2.sub p) := by
  constructor
  · rintro ⟨a, b, c, ha, hb, hc, hs, rfl⟩
    refine ⟨a, b, c, ha, hb, hc, hs, ?_⟩
    ext <;> simp only [Spec.comb2, zeo]
    · linear_combination p.x * hs
    · linear_combination p.y * hs
  · rintro ⟨a, b, c, ha, hb, hc, hs, e⟩
    refine ⟨a, b, c, ha, hb, hc, hs, ?_⟩
    have e1 := congrArg Vec2.x e
    have e2 := congrArg Vec2.y e
    simp only [Spec.comb2, zeo] at e1 e2
    ext <;> simp only [Spec.comb2]
    · linear_combination e1 - p.x * hs
    · linear_combination e2 - p.y * hs

/-- Scalar core of the segment case: with `s1` the unconstrained minimiser, clamping is optimal. -/
theorem edge_quadratic {xx xy yy a b D s0 s1 : K} (hD : D = xx - 2 * xy + yy) (hpos : 0 < D)
    (h0 : s0 * D = yy - xy) (h1 : s1 * D = xx - xy) (ha : 0 ≤ a) (hb : 0 ≤ b) (hs : a + b = 1) :
    (s0 < 0 → yy ≤ a^2 * xx + 2 * a * b * xy + b^2 * yy) ∧
    (s1 < 0 → xx ≤ a^2 * xx + 2 * a * b * xy + b^2 * yy) ∧
    (s0^2 * xx + 2 * s0 * s1 * xy + s1^2 * yy ≤ a^2 * xx + 2 * a * b * xy + b^2 * yy) := by
  obtain rfl : a = 1 - b := by linarith
  have hs1 : s0 = 1 - s1 := by
    have : (s0 + s1) * D = 1 * D := by rw [add_mul, h0, h1, hD]; ring
    have := mul_right_cancel₀ hpos.ne' this
    linarith
  have key : (1 - b)^2 * xx + 2 * (1 - b) * b * xy + b^2 * yy = xx - 2 * b * (s1 * D) + b^2 * D := by
    rw [h1, hD]; ring
  refine ⟨fun h => ?_, fun h => ?_, ?_⟩
  · have : yy = xx - 2 * (s1 * D) + D := by rw [h1, hD]; ring
    rw [key, this]
    have h2 : 1 < s1 := by linarith
    nlinarith [mul_nonneg (mul_nonneg ha hpos.le) (show (0:K) ≤ 2 * s1 - 1 - b by linarith)]
  · rw [key]
    nlinarith [mul_nonneg hb hpos.le, mul_nonneg (mul_nonneg hb hpos.le) (show (0:K) ≤ -s1 by linarith)]
  · have e : s0^2 * xx + 2 * s0 * s1 * xy + s1^2 * yy = xx - 2 * s1 * (s1 * D) + s1^2 * D := by
      rw [hs1, h1, hD]; ring
    rw [key, e]
    nlinarith [mul_nonneg hpos.le (sq_nonneg (b - s1))]

end Zeo
