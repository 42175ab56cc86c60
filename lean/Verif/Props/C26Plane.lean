import Verif.Props.C26
import Verif.Props.C24

/-! # C26: axis-aligned rectangles; C24: lines through two points -/

namespace Zeo
variable {K : Type*} [Field K] [LinearOrder K] [IsStrictOrderedRing K]

/-- **C26** (`zAABox2DCreate`, `zAABox2DMerge`, `zAABox2DEnlarge`): the rectangle created from two corners is proper and
is the smallest one containing both; the merge of two rectangles is the smallest one containing both; enlarging is
merging with a point. -/
theorem C26_rect (x1 y1 x2 y2 : K) (b1 b2 : AABox2 K) (h1 : Spec.Proper2 b1) (h2 : Spec.Proper2 b2) (v : Vec2 K) :
    (Spec.Proper2 (AABox2.create x1 y1 x2 y2) ∧ ⟨x1, y1⟩ ∈ Spec.aabox2 (AABox2.create x1 y1 x2 y2) ∧
      ⟨x2, y2⟩ ∈ Spec.aabox2 (AABox2.create x1 y1 x2 y2) ∧
      ∀ c : AABox2 K, ⟨x1, y1⟩ ∈ Spec.aabox2 c → ⟨x2, y2⟩ ∈ Spec.aabox2 c →
        Spec.aabox2 (AABox2.create x1 y1 x2 y2) ⊆ Spec.aabox2 c) ∧
    (Spec.Proper2 (b1.merge b2) ∧ Spec.aabox2 b1 ⊆ Spec.aabox2 (b1.merge b2) ∧
      Spec.aabox2 b2 ⊆ Spec.aabox2 (b1.merge b2) ∧
      ∀ c : AABox2 K, Spec.aabox2 b1 ⊆ Spec.aabox2 c → Spec.aabox2 b2 ⊆ Spec.aabox2 c →
        Spec.aabox2 (b1.merge b2) ⊆ Spec.aabox2 c) ∧
    (Spec.Proper2 (b1.enlarge v) ∧ Spec.aabox2 b1 ⊆ Spec.aabox2 (b1.enlarge v) ∧ v ∈ Spec.aabox2 (b1.enlarge v) ∧
      ∀ c : AABox2 K, Spec.aabox2 b1 ⊆ Spec.aabox2 c → v ∈ Spec.aabox2 c →
        Spec.aabox2 (b1.enlarge v) ⊆ Spec.aabox2 c) := by
  obtain ⟨p1, p2⟩ := h1
  obtain ⟨q1, q2⟩ := h2
  have k1 : ∀ c : AABox2 K, Spec.aabox2 b1 ⊆ Spec.aabox2 c →
      c.min.x ≤ b1.min.x ∧ b1.max.x ≤ c.max.x ∧ c.min.y ≤ b1.min.y ∧ b1.max.y ≤ c.max.y := fun c h => by
    have l := h (show b1.min ∈ Spec.aabox2 b1 from ⟨⟨le_rfl, p1⟩, le_rfl, p2⟩)
    have u := h (show b1.max ∈ Spec.aabox2 b1 from ⟨⟨p1, le_rfl⟩, p2, le_rfl⟩)
    exact ⟨l.1.1, u.1.2, l.2.1, u.2.2⟩
  have k2 : ∀ c : AABox2 K, Spec.aabox2 b2 ⊆ Spec.aabox2 c →
      c.min.x ≤ b2.min.x ∧ b2.max.x ≤ c.max.x ∧ c.min.y ≤ b2.min.y ∧ b2.max.y ≤ c.max.y := fun c h => by
    have l := h (show b2.min ∈ Spec.aabox2 b2 from ⟨⟨le_rfl, q1⟩, le_rfl, q2⟩)
    have u := h (show b2.max ∈ Spec.aabox2 b2 from ⟨⟨q1, le_rfl⟩, q2, le_rfl⟩)
    exact ⟨l.1.1, u.1.2, l.2.1, u.2.2⟩
  have hm : b1.merge b2 = ⟨⟨Min.min b1.min.x b2.min.x, Min.min b1.min.y b2.min.y⟩,
      ⟨Max.max b1.max.x b2.max.x, Max.max b1.max.y b2.max.y⟩⟩ := by
    have ex : Min.min b1.min.x b2.min.x ≤ Max.max b1.max.x b2.max.x := (min_le_left _ _).trans (p1.trans (le_max_left _ _))
    have ey : Min.min b1.min.y b2.min.y ≤ Max.max b1.max.y b2.max.y := (min_le_left _ _).trans (p2.trans (le_max_left _ _))
    simp only [AABox2.merge, AABox2.create, min_eq_left ex, max_eq_right ex, min_eq_left ey, max_eq_right ey]
  refine ⟨⟨⟨min_le_max, min_le_max⟩, ⟨⟨min_le_left _ _, le_max_left _ _⟩, min_le_left _ _, le_max_left _ _⟩,
      ⟨⟨min_le_right _ _, le_max_right _ _⟩, min_le_right _ _, le_max_right _ _⟩, ?_⟩, ?_, ?_⟩
  · rintro c ⟨⟨a1, a2⟩, a3, a4⟩ ⟨⟨b1, b2⟩, b3, b4⟩ q ⟨⟨r1, r2⟩, r3, r4⟩
    exact ⟨⟨(le_min a1 b1).trans r1, r2.trans (max_le a2 b2)⟩, (le_min a3 b3).trans r3, r4.trans (max_le a4 b4)⟩
  · rw [hm]
    refine ⟨⟨(min_le_left _ _).trans (p1.trans (le_max_left _ _)), (min_le_left _ _).trans (p2.trans (le_max_left _ _))⟩, ?_, ?_, ?_⟩
    · rintro q ⟨⟨r1, r2⟩, r3, r4⟩
      exact ⟨⟨(min_le_left _ _).trans r1, r2.trans (le_max_left _ _)⟩, (min_le_left _ _).trans r3, r4.trans (le_max_left _ _)⟩
    · rintro q ⟨⟨r1, r2⟩, r3, r4⟩
      exact ⟨⟨(min_le_right _ _).trans r1, r2.trans (le_max_right _ _)⟩, (min_le_right _ _).trans r3, r4.trans (le_max_right _ _)⟩
    · rintro c h h' q ⟨⟨r1, r2⟩, r3, r4⟩
      obtain ⟨a1, a2, a3, a4⟩ := k1 c h
      obtain ⟨b1, b2, b3, b4⟩ := k2 c h'
      exact ⟨⟨(le_min a1 b1).trans r1, r2.trans (max_le a2 b2)⟩, (le_min a3 b3).trans r3, r4.trans (max_le a4 b4)⟩
  · have e : ∀ lo hi a : K, lo ≤ hi → (if lo > a then a else lo) ≤ lo ∧ (if lo > a then a else lo) ≤ a ∧
        hi ≤ (if hi < a then a else hi) ∧ a ≤ (if hi < a then a else hi) ∧
        (∀ x, x ≤ lo → x ≤ a → x ≤ (if lo > a then a else lo)) ∧ (∀ x, hi ≤ x → a ≤ x → (if hi < a then a else hi) ≤ x) := by
      intro lo hi a hl
      split_ifs <;> refine ⟨?_, ?_, ?_, ?_, ?_, ?_⟩ <;> intros <;> linarith
    obtain ⟨a1, a2, a3, a4, a5, a6⟩ := e b1.min.x b1.max.x v.x p1
    obtain ⟨c1, c2, c3, c4, c5, c6⟩ := e b1.min.y b1.max.y v.y p2
    unfold AABox2.enlarge
    refine ⟨⟨a1.trans (p1.trans a3), c1.trans (p2.trans c3)⟩, ?_, ⟨⟨a2, a4⟩, c2, c4⟩, ?_⟩
    · rintro q ⟨⟨r1, r2⟩, r3, r4⟩
      exact ⟨⟨a1.trans r1, r2.trans a3⟩, c1.trans r3, r4.trans c3⟩
    · rintro c h ⟨⟨v1, v2⟩, v3, v4⟩ q ⟨⟨r1, r2⟩, r3, r4⟩
      obtain ⟨d1, d2, d3, d4⟩ := k1 c h
      exact ⟨⟨(a5 _ d1 v1).trans r1, r2.trans (a6 _ d2 v2)⟩, (c5 _ d3 v3).trans r3, r4.trans (c6 _ d4 v4)⟩

/-- **C26** (`zAABox2DPointIsInside`): without margin the test accepts exactly the interior; a positive margin accepts
exactly the interior of the rectangle with the sides moved outward by the margin. -/
theorem C26_rect_inside (b : AABox2 K) (p : Vec2 K) (m : K) :
    b.pointIsInside p m ↔ (b.min.x < p.x + m ∧ p.x < b.max.x + m) ∧ (b.min.y < p.y + m ∧ p.y < b.max.y + m) := by
  unfold AABox2.pointIsInside
  constructor <;> rintro ⟨⟨a, b⟩, c, d⟩ <;> exact ⟨⟨by linarith, by linarith⟩, by linarith, by linarith⟩

example : Spec.Proper2 (⟨⟨0, 0⟩, ⟨2, 1⟩⟩ : AABox2 ℚ) ∧ Spec.Proper2 (⟨⟨1, 0⟩, ⟨3, 3⟩⟩ : AABox2 ℚ) ∧
    (⟨⟨0, 0⟩, ⟨2, 1⟩⟩ : AABox2 ℚ).merge ⟨⟨1, 0⟩, ⟨3, 3⟩⟩ = ⟨⟨0, 0⟩, ⟨3, 3⟩⟩ := by
  refine ⟨⟨by norm_num, by norm_num⟩, ⟨by norm_num, by norm_num⟩, by decide +kernel⟩

/-- **C24** (`zLine3DCreateTwoPoints`, `zLine3DPointIsOn`): the line through two points farther apart than the tolerance
has a unit direction and is the line through both; a point is on it, for a positive margin, exactly when some point of the
line is nearer than the margin. -/
theorem C24_twoPoints {τ : ℝ} (hτ : 0 ≤ τ) (p1 p2 : Vec3 ℝ) (h : ¬ (p2.sub p1).isTol τ) (q : Vec3 ℝ) (m : ℝ) :
    (Line3.createTwoPoints τ p1 p2).dir.sqrNorm = 1 ∧
    Spec.line (Line3.createTwoPoints τ p1 p2).org (Line3.createTwoPoints τ p1 p2).dir = Spec.line p1 (p2.sub p1) ∧
    ((Line3.createTwoPoints τ p1 p2).pointIsOn q m ↔ ∃ r ∈ Spec.line p1 (p2.sub p1), Spec.ed q r < m) := by
  obtain ⟨n1, n2, n3⟩ := normalize_unit hτ (old := p2.sub p1) h
  have hl : Spec.line (Line3.createTwoPoints τ p1 p2).org (Line3.createTwoPoints τ p1 p2).dir = Spec.line p1 (p2.sub p1) := by
    unfold Line3.createTwoPoints
    dsimp only
    generalize ((p2.sub p1).normalize τ (p2.sub p1)).2 = u at *
    generalize (p2.sub p1).norm = k at *
    rw [n2]
    ext r
    constructor
    · rintro ⟨t, rfl⟩
      refine ⟨t / k, ?_⟩
      ext <;> simp only [zeo] <;> field_simp
    · rintro ⟨t, rfl⟩
      refine ⟨t * k, ?_⟩
      ext <;> simp only [zeo] <;> ring
  refine ⟨n1, hl, ?_⟩
  obtain ⟨⟨a, b⟩, c⟩ := C24_lineProj (Line3.createTwoPoints τ p1 p2) q n1
  rw [hl] at a b
  rw [Line3.pointIsOn, c]
  constructor
  · intro h; exact ⟨_, a, h⟩
  · rintro ⟨r, hr, h⟩; exact (Real.sqrt_le_sqrt (b r hr)).trans_lt h

example : ¬ ((⟨1, 2, 3⟩ : Vec3 ℝ).sub ⟨1, 0, 3⟩).isTol (1/1000) := by
  rintro ⟨-, h, -⟩
  simp only [Vec3.sub, zIsTol] at h
  norm_num at h

end Zeo
