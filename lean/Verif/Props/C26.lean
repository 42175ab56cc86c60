import Verif.Props.C17

/-! # C26: axis-aligned boxes form a lattice under merge and intersection -/

namespace Zeo
variable {K : Type*} [Field K] [LinearOrder K] [IsStrictOrderedRing K]

/-- The open interior of a box. -/
def Spec.aaboxInterior (b : AABox3 K) : Set (Vec3 K) :=
  {p | (b.min.x < p.x ∧ p.x < b.max.x) ∧ (b.min.y < p.y ∧ p.y < b.max.y) ∧ (b.min.z < p.z ∧ p.z < b.max.z)}

/-- `zAABox3DMerge` gives a box containing both, and every box containing both contains it. -/
theorem C26_merge (b1 b2 : AABox3 K) (h1 : Spec.Proper b1) (h2 : Spec.Proper b2) :
    Spec.aabox b1 ⊆ Spec.aabox (b1.merge b2) ∧ Spec.aabox b2 ⊆ Spec.aabox (b1.merge b2) ∧
    ∀ c : AABox3 K, Spec.aabox b1 ⊆ Spec.aabox c → Spec.aabox b2 ⊆ Spec.aabox c →
      Spec.aabox (b1.merge b2) ⊆ Spec.aabox c := by
  obtain ⟨x1, y1, z1⟩ := h1
  obtain ⟨x2, y2, z2⟩ := h2
  have ex : Min.min (Min.min b1.min.x b2.min.x) (Max.max b1.max.x b2.max.x) = Min.min b1.min.x b2.min.x :=
    min_eq_left ((min_le_left _ _).trans (x1.trans (le_max_left _ _)))
  have ex' : Max.max (Min.min b1.min.x b2.min.x) (Max.max b1.max.x b2.max.x) = Max.max b1.max.x b2.max.x :=
    max_eq_right ((min_le_left _ _).trans (x1.trans (le_max_left _ _)))
  have ey : Min.min (Min.min b1.min.y b2.min.y) (Max.max b1.max.y b2.max.y) = Min.min b1.min.y b2.min.y :=
    min_eq_left ((min_le_left _ _).trans (y1.trans (le_max_left _ _)))
  have ey' : Max.max (Min.min b1.min.y b2.min.y) (Max.max b1.max.y b2.max.y) = Max.max b1.max.y b2.max.y :=
    max_eq_right ((min_le_left _ _).trans (y1.trans (le_max_left _ _)))
  have ez : Min.min (Min.min b1.min.z b2.min.z) (Max.max b1.max.z b2.max.z) = Min.min b1.min.z b2.min.z :=
    min_eq_left ((min_le_left _ _).trans (z1.trans (le_max_left _ _)))
  have ez' : Max.max (Min.min b1.min.z b2.min.z) (Max.max b1.max.z b2.max.z) = Max.max b1.max.z b2.max.z :=
    max_eq_right ((min_le_left _ _).trans (z1.trans (le_max_left _ _)))
  have mem : ∀ p, p ∈ Spec.aabox (b1.merge b2) ↔
      (Min.min b1.min.x b2.min.x ≤ p.x ∧ p.x ≤ Max.max b1.max.x b2.max.x) ∧
      (Min.min b1.min.y b2.min.y ≤ p.y ∧ p.y ≤ Max.max b1.max.y b2.max.y) ∧
      (Min.min b1.min.z b2.min.z ≤ p.z ∧ p.z ≤ Max.max b1.max.z b2.max.z) := by
    intro p; simp only [Spec.aabox, AABox3.merge, AABox3.create, Set.mem_setOf_eq, ex, ex', ey, ey', ez, ez']
  refine ⟨fun p hp => ?_, fun p hp => ?_, fun c hc1 hc2 p hp => ?_⟩
  · obtain ⟨⟨a, a'⟩, ⟨b, b'⟩, ⟨c, c'⟩⟩ := hp
    exact (mem p).2 ⟨⟨(min_le_left _ _).trans a, a'.trans (le_max_left _ _)⟩,
      ⟨(min_le_left _ _).trans b, b'.trans (le_max_left _ _)⟩, ⟨(min_le_left _ _).trans c, c'.trans (le_max_left _ _)⟩⟩
  · obtain ⟨⟨a, a'⟩, ⟨b, b'⟩, ⟨c, c'⟩⟩ := hp
    exact (mem p).2 ⟨⟨(min_le_right _ _).trans a, a'.trans (le_max_right _ _)⟩,
      ⟨(min_le_right _ _).trans b, b'.trans (le_max_right _ _)⟩, ⟨(min_le_right _ _).trans c, c'.trans (le_max_right _ _)⟩⟩
  · obtain ⟨⟨a, a'⟩, ⟨b, b'⟩, ⟨d, d'⟩⟩ := (mem p).1 hp
    have l1 := hc1 (show b1.min ∈ Spec.aabox b1 from ⟨⟨le_rfl, x1⟩, ⟨le_rfl, y1⟩, ⟨le_rfl, z1⟩⟩)
    have u1 := hc1 (show b1.max ∈ Spec.aabox b1 from ⟨⟨x1, le_rfl⟩, ⟨y1, le_rfl⟩, ⟨z1, le_rfl⟩⟩)
    have l2 := hc2 (show b2.min ∈ Spec.aabox b2 from ⟨⟨le_rfl, x2⟩, ⟨le_rfl, y2⟩, ⟨le_rfl, z2⟩⟩)
    have u2 := hc2 (show b2.max ∈ Spec.aabox b2 from ⟨⟨x2, le_rfl⟩, ⟨y2, le_rfl⟩, ⟨z2, le_rfl⟩⟩)
    exact ⟨⟨(le_min l1.1.1 l2.1.1).trans a, a'.trans (max_le u1.1.2 u2.1.2)⟩,
      ⟨(le_min l1.2.1.1 l2.2.1.1).trans b, b'.trans (max_le u1.2.1.2 u2.2.1.2)⟩,
      ⟨(le_min l1.2.2.1 l2.2.2.1).trans d, d'.trans (max_le u1.2.2.2 u2.2.2.2)⟩⟩

/-- `zColChkAABox3D` holds exactly when the interiors share a point, for boxes with non-empty
interior. -/
theorem C26_colChk (b1 b2 : AABox3 K)
    (h1 : b1.min.x < b1.max.x ∧ b1.min.y < b1.max.y ∧ b1.min.z < b1.max.z)
    (h2 : b2.min.x < b2.max.x ∧ b2.min.y < b2.max.y ∧ b2.min.z < b2.max.z) :
    b1.colChk b2 ↔ (Spec.aaboxInterior b1 ∩ Spec.aaboxInterior b2).Nonempty := by
  constructor
  · rintro ⟨a, a', b, b', c, c'⟩
    obtain ⟨px, hx⟩ := exists_between (show Max.max b1.min.x b2.min.x < Min.min b1.max.x b2.max.x from
      max_lt (lt_min h1.1 a) (lt_min a' h2.1))
    obtain ⟨py, hy⟩ := exists_between (show Max.max b1.min.y b2.min.y < Min.min b1.max.y b2.max.y from
      max_lt (lt_min h1.2.1 b) (lt_min b' h2.2.1))
    obtain ⟨pz, hz⟩ := exists_between (show Max.max b1.min.z b2.min.z < Min.min b1.max.z b2.max.z from
      max_lt (lt_min h1.2.2 c) (lt_min c' h2.2.2))
    simp only [max_lt_iff, lt_min_iff] at hx hy hz
    exact ⟨⟨px, py, pz⟩, ⟨⟨hx.1.1, hx.2.1⟩, ⟨hy.1.1, hy.2.1⟩, ⟨hz.1.1, hz.2.1⟩⟩,
      ⟨⟨hx.1.2, hx.2.2⟩, ⟨hy.1.2, hy.2.2⟩, ⟨hz.1.2, hz.2.2⟩⟩⟩
  · rintro ⟨p, ⟨⟨a, a'⟩, ⟨b, b'⟩, ⟨c, c'⟩⟩, ⟨⟨d, d'⟩, ⟨e, e'⟩, ⟨f, f'⟩⟩⟩
    exact ⟨a.trans d', d.trans a', b.trans e', e.trans b', c.trans f', f.trans c'⟩

/-- Without assumptions on the boxes, sharing an interior point is detected. -/
theorem C26_colChk_complete (b1 b2 : AABox3 K)
    (h : (Spec.aaboxInterior b1 ∩ Spec.aaboxInterior b2).Nonempty) : b1.colChk b2 := by
  obtain ⟨p, ⟨⟨a, a'⟩, ⟨b, b'⟩, ⟨c, c'⟩⟩, ⟨⟨d, d'⟩, ⟨e, e'⟩, ⟨f, f'⟩⟩⟩ := h
  exact ⟨a.trans d', d.trans a', b.trans e', e.trans b', c.trans f', f.trans c'⟩

/-- `zIntersectAABox3D` returns NULL exactly when the test fails, and otherwise the exact set
intersection. -/
theorem C26_intersect (b1 b2 : AABox3 K) (h1 : Spec.Proper b1) (h2 : Spec.Proper b2) :
    (b1.intersect b2 = none ↔ ¬ b1.colChk b2) ∧
    ∀ c, b1.intersect b2 = some c → Spec.aabox c = Spec.aabox b1 ∩ Spec.aabox b2 := by
  unfold AABox3.intersect
  split_ifs with h
  · refine ⟨by simp [h], fun c hc => ?_⟩
    rw [← Option.some.inj hc]
    obtain ⟨a, a', b, b', d, d'⟩ := h
    obtain ⟨x1, y1, z1⟩ := h1
    obtain ⟨x2, y2, z2⟩ := h2
    have hx : Max.max b1.min.x b2.min.x ≤ Min.min b1.max.x b2.max.x :=
      max_le (le_min x1 a.le) (le_min a'.le x2)
    have hy : Max.max b1.min.y b2.min.y ≤ Min.min b1.max.y b2.max.y :=
      max_le (le_min y1 b.le) (le_min b'.le y2)
    have hz : Max.max b1.min.z b2.min.z ≤ Min.min b1.max.z b2.max.z :=
      max_le (le_min z1 d.le) (le_min d'.le z2)
    ext p
    simp only [Spec.aabox, AABox3.create, Set.mem_setOf_eq, Set.mem_inter_iff, min_eq_left hx, max_eq_right hx,
      min_eq_left hy, max_eq_right hy, min_eq_left hz, max_eq_right hz, max_le_iff, le_min_iff]
    tauto
  · exact ⟨by simp [h], fun c hc => by simp at hc⟩

/-- `zAABox3DEnlarge` is the merge with a single point: the smallest box containing the box and
the point. -/
theorem C26_enlarge (b : AABox3 K) (v : Vec3 K) (h : Spec.Proper b) :
    b.enlarge v = b.merge ⟨v, v⟩ := by
  obtain ⟨hx, hy, hz⟩ := h
  simp only [AABox3.enlarge, AABox3.merge, AABox3.create]
  have e : ∀ lo hi a : K, lo ≤ hi → Min.min (Min.min lo a) (Max.max hi a) = (if lo > a then a else lo) ∧
      Max.max (Min.min lo a) (Max.max hi a) = (if hi < a then a else hi) := by
    intro lo hi a hl
    have hle : Min.min lo a ≤ Max.max hi a := (min_le_right _ _).trans (le_max_right _ _)
    rw [min_eq_left hle, max_eq_right hle]
    constructor
    · split_ifs with h1
      · exact min_eq_right h1.le
      · exact min_eq_left (not_lt.1 h1)
    · split_ifs with h1
      · exact max_eq_right h1.le
      · exact max_eq_left (not_lt.1 h1)
  rw [(e _ _ v.x hx).1, (e _ _ v.x hx).2, (e _ _ v.y hy).1, (e _ _ v.y hy).2, (e _ _ v.z hz).1, (e _ _ v.z hz).2]

/-- `zAABox3DExpand` scales about the center: same center, sides multiplied by |magnitude|; the
result contains the original when |magnitude| ≥ 1 and is contained in it when ≤ 1. -/
theorem C26_expand (b : AABox3 K) (m : K) (h : Spec.Proper b) :
    (b.expand m).min.mid (b.expand m).max = b.min.mid b.max ∧
    (b.expand m).max.sub (b.expand m).min = (b.max.sub b.min).mul |m| ∧
    (1 ≤ |m| → Spec.aabox b ⊆ Spec.aabox (b.expand m)) ∧
    (|m| ≤ 1 → Spec.aabox (b.expand m) ⊆ Spec.aabox b) := by
  obtain ⟨hx, hy, hz⟩ := h
  have hm : (if m < 0 then m * -1 else m) = |m| := by
    split_ifs with h0
    · rw [abs_of_neg h0]; ring
    · rw [abs_of_nonneg (not_lt.1 h0)]
  have e1 : abs ((b.max.x - b.min.x) * abs m) = (b.max.x - b.min.x) * |m| := abs_of_nonneg (mul_nonneg (by linarith) (abs_nonneg m))
  have e2 : abs ((b.max.y - b.min.y) * abs m) = (b.max.y - b.min.y) * |m| := abs_of_nonneg (mul_nonneg (by linarith) (abs_nonneg m))
  have e3 : abs ((b.max.z - b.min.z) * abs m) = (b.max.z - b.min.z) * |m| := abs_of_nonneg (mul_nonneg (by linarith) (abs_nonneg m))
  simp only [AABox3.expand, hm, AABox3.createFromSize, e1, e2, e3]
  generalize |m| = k
  refine ⟨?_, ?_, fun hk p hp => ?_, fun hk p hp => ?_⟩
  · ext <;> simp only [zeo] <;> ring
  · ext <;> simp only [zeo] <;> ring
  · obtain ⟨⟨a, a'⟩, ⟨c, c'⟩, ⟨d, d'⟩⟩ := hp
    refine ⟨⟨?_, ?_⟩, ⟨?_, ?_⟩, ⟨?_, ?_⟩⟩ <;> simp only [zeo] <;> nlinarith
  · obtain ⟨⟨a, a'⟩, ⟨c, c'⟩, ⟨d, d'⟩⟩ := hp
    simp only [zeo] at a a' c c' d d'
    refine ⟨⟨?_, ?_⟩, ⟨?_, ?_⟩, ⟨?_, ?_⟩⟩ <;> nlinarith

/-- `zAABox3DVolume` is the product of the sides. -/
theorem C26_volume (b : AABox3 K) (h : Spec.Proper b) :
    b.volume = (b.max.x - b.min.x) * (b.max.y - b.min.y) * (b.max.z - b.min.z) := by
  obtain ⟨hx, hy, hz⟩ := h
  exact abs_of_nonneg (mul_nonneg (mul_nonneg (by linarith) (by linarith)) (by linarith))

/-- The eight calls `zAABox3DVert(box,i)`, i = 0..7, list the eight corners: every corner is some
vertex, and every vertex is in the box. -/
theorem C26_vert (b : AABox3 K) (h : Spec.Proper b) :
    (∀ i < 8, b.vert i ∈ Spec.aabox b) ∧
    ∀ x y z : K, (x = b.min.x ∨ x = b.max.x) → (y = b.min.y ∨ y = b.max.y) → (z = b.min.z ∨ z = b.max.z) →
      ∃ i < 8, b.vert i = ⟨x, y, z⟩ := by
  obtain ⟨hx, hy, hz⟩ := h
  constructor
  · intro i _
    simp only [AABox3.vert, Spec.aabox, Set.mem_setOf_eq]
    refine ⟨?_, ?_, ?_⟩ <;> split_ifs <;> exact ⟨by first | exact le_rfl | assumption, by first | exact le_rfl | assumption⟩
  · rintro x y z (rfl | rfl) (rfl | rfl) (rfl | rfl)
    · exact ⟨6, by norm_num, rfl⟩
    · exact ⟨2, by norm_num, rfl⟩
    · exact ⟨5, by norm_num, rfl⟩
    · exact ⟨1, by norm_num, rfl⟩
    · exact ⟨7, by norm_num, rfl⟩
    · exact ⟨3, by norm_num, rfl⟩
    · exact ⟨4, by norm_num, rfl⟩
    · exact ⟨0, by norm_num, rfl⟩

/-- Satisfiability: two overlapping boxes with non-empty interiors. -/
example : (⟨⟨0, 0, 0⟩, ⟨2, 2, 2⟩⟩ : AABox3 ℚ).colChk ⟨⟨1, 1, 1⟩, ⟨3, 3, 3⟩⟩ ∧
    (⟨⟨0, 0, 0⟩, ⟨2, 2, 2⟩⟩ : AABox3 ℚ).intersect ⟨⟨1, 1, 1⟩, ⟨3, 3, 3⟩⟩ = some ⟨⟨1, 1, 1⟩, ⟨2, 2, 2⟩⟩ := by
  decide +kernel

end Zeo
