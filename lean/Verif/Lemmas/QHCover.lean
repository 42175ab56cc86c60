import Verif.Lemmas.QHPos

/-! # The facets cover the boundary of the hull -/

namespace Zeo.QHMesh
noncomputable section
open Classical QHGeom Spec QH

/-- The point at `t` on the ray from `K` through `x`. -/
def ray (K x : Vec3 ℝ) (t : ℝ) : Vec3 ℝ :=
  ⟨K.x + t * (x.x - K.x), K.y + t * (x.y - K.y), K.z + t * (x.z - K.z)⟩

theorem vol_ray (a b c K x : Vec3 ℝ) (t : ℝ) : vol a b c (ray K x t) = (1 - t) * vol a b c K + t * vol a b c x := by
  simp only [vol_eq, ray]; ring

theorem ray_one (K x : Vec3 ℝ) : ray K x 1 = x := by
  ext <;> simp only [ray] <;> ring

/-- Coordinates in the plane of a triangle. -/
theorem plane_coords {a b c q : Vec3 ℝ} (hn : triNormal (a, b, c) ≠ .zero) (hq : vol a b c q = 0) :
    ∃ k l m : ℝ, k + l + m = 1 ∧ q = comb k l m 0 a b c a := by
  set n := triNormal (a, b, c) with hnd
  set r := n.x ^ 2 + n.y ^ 2 + n.z ^ 2 with hr
  have hr0 : r ≠ 0 := by
    intro h0
    apply hn
    ext
    · show n.x = 0; nlinarith [sq_nonneg n.x, sq_nonneg n.y, sq_nonneg n.z]
    · show n.y = 0; nlinarith [sq_nonneg n.x, sq_nonneg n.y, sq_nonneg n.z]
    · show n.z = 0; nlinarith [sq_nonneg n.x, sq_nonneg n.y, sq_nonneg n.z]
  have hnx : n.x = (b.y - a.y) * (c.z - a.z) - (b.z - a.z) * (c.y - a.y) := by rw [hnd]; simp [triNormal]
  have hny : n.y = (b.z - a.z) * (c.x - a.x) - (b.x - a.x) * (c.z - a.z) := by rw [hnd]; simp [triNormal]
  have hnz : n.z = (b.x - a.x) * (c.y - a.y) - (b.y - a.y) * (c.x - a.x) := by rw [hnd]; simp [triNormal]
  have hq' : n.x * (q.x - a.x) + n.y * (q.y - a.y) + n.z * (q.z - a.z) = 0 := by
    have := hq; unfold vol at this; rw [← hnd] at this; simpa only [dot, Vec3.sub] using this
  -- `(q - a) × (c - a)` and `(b - a) × (q - a)` along the normal
  set l := (n.x * ((q.y - a.y) * (c.z - a.z) - (q.z - a.z) * (c.y - a.y)) +
    n.y * ((q.z - a.z) * (c.x - a.x) - (q.x - a.x) * (c.z - a.z)) +
    n.z * ((q.x - a.x) * (c.y - a.y) - (q.y - a.y) * (c.x - a.x))) with hl
  set m := (n.x * ((b.y - a.y) * (q.z - a.z) - (b.z - a.z) * (q.y - a.y)) +
    n.y * ((b.z - a.z) * (q.x - a.x) - (b.x - a.x) * (q.z - a.z)) +
    n.z * ((b.x - a.x) * (q.y - a.y) - (b.y - a.y) * (q.x - a.x))) with hm
  have ex : r * (q.x - a.x) = l * (b.x - a.x) + m * (c.x - a.x) := by
    rw [hr, hl, hm]
    have : n.x * (n.x * (q.x - a.x) + n.y * (q.y - a.y) + n.z * (q.z - a.z)) = 0 := by rw [hq', mul_zero]
    rw [hnx, hny, hnz] at this ⊢
    linear_combination this
  have ey : r * (q.y - a.y) = l * (b.y - a.y) + m * (c.y - a.y) := by
    rw [hr, hl, hm]
    have : n.y * (n.x * (q.x - a.x) + n.y * (q.y - a.y) + n.z * (q.z - a.z)) = 0 := by rw [hq', mul_zero]
    rw [hnx, hny, hnz] at this ⊢
    linear_combination this
  have ez : r * (q.z - a.z) = l * (b.z - a.z) + m * (c.z - a.z) := by
    rw [hr, hl, hm]
    have : n.z * (n.x * (q.x - a.x) + n.y * (q.y - a.y) + n.z * (q.z - a.z)) = 0 := by rw [hq', mul_zero]
    rw [hnx, hny, hnz] at this ⊢
    linear_combination this
  refine ⟨1 - l / r - m / r, l / r, m / r, by ring, ?_⟩
  ext
  · simp only [comb]; field_simp; linear_combination ex
  · simp only [comb]; field_simp; linear_combination ey
  · simp only [comb]; field_simp; linear_combination ez

variable {F : Finset ℕ} {p : ℕ → Fin 3 → ℕ} {c : ℕ → Fin 3 → Option ℕ}

/-- In a strictly convex mesh a ray from the inside that leaves a half space meets a triangle on the way. -/
theorem cover_strict (cx : Complex F p c) {ps : ℕ → Vec3 ℝ} {K x : Vec3 ℝ}
    (conv : ∀ f ∈ F, ∀ g ∈ F, ∀ s, (∀ t, p f t ≠ p g s) → D ps p f (p g s) < 0)
    (hK : ∀ f ∈ F, H ps p f K < 0) {f0 : ℕ} (hf0 : f0 ∈ F) (h0 : 0 < H ps p f0 (ray K x 2)) :
    ∃ f ∈ F, ∃ t ∈ Set.Icc (0:ℝ) 2, ray K x t ∈ triangle (ps (p f 0)) (ps (p f 1)) (ps (p f 2)) := by
  have hray : ∀ f t, H ps p f (ray K x t) = H ps p f K + t * (H ps p f x - H ps p f K) := by
    intro f t; unfold H; rw [vol_ray]; ring
  set σ : ℕ → ℝ := fun f => H ps p f x - H ps p f K with hσ
  have hs0 : 0 < σ f0 := by
    have := hray f0 2
    have h1 := hK f0 hf0
    have : H ps p f0 (ray K x 2) = H ps p f0 K + 2 * σ f0 := this
    nlinarith
  obtain ⟨f, hf, hmin⟩ := Finset.exists_min_image (F.filter fun f => 0 < σ f) (fun f => -H ps p f K / σ f)
    ⟨f0, Finset.mem_filter.2 ⟨hf0, hs0⟩⟩
  rw [Finset.mem_filter] at hf
  obtain ⟨hf, hσf⟩ := hf
  set t := -H ps p f K / σ f with ht
  have ht0 : 0 < t := div_pos (neg_pos.2 (hK f hf)) hσf
  have ht2 : t ≤ 2 := by
    refine (hmin f0 (Finset.mem_filter.2 ⟨hf0, hs0⟩)).trans ?_
    show -H ps p f0 K / σ f0 ≤ 2
    rw [div_le_iff₀ hs0]
    have := hray f0 2
    have : H ps p f0 (ray K x 2) = H ps p f0 K + 2 * σ f0 := this
    linarith
  have hq : ∀ g ∈ F, H ps p g (ray K x t) ≤ 0 := by
    intro g hg
    rw [hray]
    change H ps p g K + t * σ g ≤ 0
    by_cases hs : 0 < σ g
    · have := hmin g (Finset.mem_filter.2 ⟨hg, hs⟩)
      have : t ≤ -H ps p g K / σ g := this
      rw [le_div_iff₀ hs] at this
      linarith
    · have := hK g hg
      nlinarith [mul_nonneg ht0.le (neg_nonneg.2 (not_lt.1 hs))]
  have hq0 : H ps p f (ray K x t) = 0 := by
    rw [hray]
    change H ps p f K + t * σ f = 0
    rw [ht]; field_simp; ring
  refine ⟨f, hf, t, ⟨ht0.le, ht2⟩, ?_⟩
  have hn : triNormal (ps (p f 0), ps (p f 1), ps (p f 2)) ≠ .zero := proper_of_vol (x := K) (hK f hf).ne
  obtain ⟨k, l, m, h1, e⟩ := plane_coords hn hq0
  -- each coordinate is nonnegative by the neighbour across the opposite edge
  have side : ∀ s : Fin 3, ∃ g ∈ F, ∃ u : Fin 3, H ps p g (ps (p f s)) < 0 ∧ H ps p g (ps (p f (s + 1))) = 0 ∧
      H ps p g (ps (p f (s + 2))) = 0 := by
    intro s
    obtain ⟨g, hg, u, -, -, e1, e2, e3⟩ := cx.adj f hf s
    refine ⟨g, hg, u, ?_, ?_, ?_⟩
    · refine conv g hg f hf s fun v hv => ?_
      rcases fin3_cases u v with rfl | rfl | rfl
      · exact e3 hv
      · rw [e1] at hv; exact (ne2 s) (cx.inj f hf hv).symm
      · rw [e2] at hv; exact (ne1 s) (cx.inj f hf hv).symm
    · rw [← e2, ← H_rot ps p g _ u]; exact vol_self3 _ _ _
    · rw [← e1, ← H_rot ps p g _ u]; exact vol_self2 _ _ _
  have lin : ∀ g, H ps p g (ray K x t) = k * H ps p g (ps (p f 0)) + l * H ps p g (ps (p f 1)) +
      m * H ps p g (ps (p f 2)) := by
    intro g
    rw [e]
    obtain rfl : k = 1 - l - m := by linarith
    simp only [H, vol_eq, comb]; ring
  refine ⟨k, l, m, ?_, ?_, ?_, h1, e⟩
  · obtain ⟨g, hg, -, a1, a2, a3⟩ := side 0
    have := lin g
    change H ps p g (ps (p f 1)) = 0 at a2
    change H ps p g (ps (p f 2)) = 0 at a3
    rw [a2, a3] at this
    have h2 := hq g hg
    by_contra hc
    nlinarith [mul_pos_of_neg_of_neg (not_le.1 hc) a1]
  · obtain ⟨g, hg, -, a1, a2, a3⟩ := side 1
    have := lin g
    change H ps p g (ps (p f 2)) = 0 at a2
    change H ps p g (ps (p f 0)) = 0 at a3
    rw [a2, a3] at this
    have h2 := hq g hg
    by_contra hc
    nlinarith [mul_pos_of_neg_of_neg (not_le.1 hc) a1]
  · obtain ⟨g, hg, -, a1, a2, a3⟩ := side 2
    have := lin g
    change H ps p g (ps (p f 0)) = 0 at a2
    change H ps p g (ps (p f 1)) = 0 at a3
    rw [a2, a3] at this
    have h2 := hq g hg
    by_contra hc
    nlinarith [mul_pos_of_neg_of_neg (not_le.1 hc) a1]

/-- A part of a ray that misses a triangle misses all the triangles close by. -/
theorem tri_far {K x a b c : Vec3 ℝ} (h : ∀ t ∈ Set.Icc (0:ℝ) 2, ray K x t ∉ triangle a b c) :
    ∀ᶠ δ in nhdsWithin (0:ℝ) (Set.Ioi 0), ∀ a' b' c', Near δ a a' → Near δ b b' → Near δ c c' →
      ∀ t ∈ Set.Icc (0:ℝ) 2, ray K x t ∉ triangle a' b' c' := by
  let φ : ℝ × ℝ × ℝ → ℝ := fun r =>
    |(ray K x r.1).x - (comb (1 - r.2.1 - r.2.2) r.2.1 r.2.2 0 a b c a).x| +
    |(ray K x r.1).y - (comb (1 - r.2.1 - r.2.2) r.2.1 r.2.2 0 a b c a).y| +
    |(ray K x r.1).z - (comb (1 - r.2.1 - r.2.2) r.2.1 r.2.2 0 a b c a).z|
  have hφ : Continuous φ := by simp only [φ, ray, comb]; fun_prop
  let S : Set (ℝ × ℝ × ℝ) := (Set.Icc 0 2 ×ˢ Set.Icc 0 1 ×ˢ Set.Icc 0 1) ∩ {r | r.2.1 + r.2.2 ≤ 1}
  have hS : IsCompact S := by
    refine IsCompact.inter_right (isCompact_Icc.prod (isCompact_Icc.prod isCompact_Icc)) ?_
    exact isClosed_le (by fun_prop) continuous_const
  have hne : S.Nonempty := ⟨(0, 0, 0), by simp [S]⟩
  obtain ⟨r0, hr0, hmin⟩ := hS.exists_isMinOn hne hφ.continuousOn
  have hpos : 0 < φ r0 := by
    by_contra hc
    have h0 : φ r0 = 0 := le_antisymm (not_lt.1 hc) (by positivity)
    obtain ⟨⟨h1, h2, h3⟩, h4⟩ := hr0
    have h4' : r0.2.1 + r0.2.2 ≤ 1 := h4
    refine h r0.1 h1 ⟨1 - r0.2.1 - r0.2.2, r0.2.1, r0.2.2, by linarith, h2.1, h3.1, by ring, ?_⟩
    have n1 := abs_nonneg ((ray K x r0.1).x - (comb (1 - r0.2.1 - r0.2.2) r0.2.1 r0.2.2 0 a b c a).x)
    have n2 := abs_nonneg ((ray K x r0.1).y - (comb (1 - r0.2.1 - r0.2.2) r0.2.1 r0.2.2 0 a b c a).y)
    have n3 := abs_nonneg ((ray K x r0.1).z - (comb (1 - r0.2.1 - r0.2.2) r0.2.1 r0.2.2 0 a b c a).z)
    simp only [φ] at h0
    ext
    · exact sub_eq_zero.1 (abs_eq_zero.1 (by linarith))
    · exact sub_eq_zero.1 (abs_eq_zero.1 (by linarith))
    · exact sub_eq_zero.1 (abs_eq_zero.1 (by linarith))
  filter_upwards [Ioo_mem_nhdsGT (show (0:ℝ) < φ r0 / 3 by linarith)] with δ hδ a' b' c' ha hb hc t ht hm
  obtain ⟨k, l, m, hk, hl, hmm, h1, e⟩ := hm
  have hle := hmin (show (t, l, m) ∈ S from ⟨⟨ht, ⟨hl, show l ≤ 1 by linarith⟩, ⟨hmm, show m ≤ 1 by linarith⟩⟩,
    show l + m ≤ 1 by linarith⟩)
  obtain rfl : k = 1 - l - m := by linarith
  have key : ∀ u v w u' v' w' : ℝ, |u - u'| ≤ δ → |v - v'| ≤ δ → |w - w'| ≤ δ →
      |((1 - l - m) * u' + l * v' + m * w' + 0 * u') - ((1 - l - m) * u + l * v + m * w + 0 * u)| ≤ δ := by
    intro u v w u' v' w' h1 h2 h3
    rw [abs_le] at *
    constructor <;> nlinarith [mul_le_mul_of_nonneg_left h1.1 hk, mul_le_mul_of_nonneg_left h2.1 hl,
      mul_le_mul_of_nonneg_left h3.1 hmm, mul_le_mul_of_nonneg_left h1.2 hk, mul_le_mul_of_nonneg_left h2.2 hl,
      mul_le_mul_of_nonneg_left h3.2 hmm]
  have hb' : φ (t, l, m) ≤ δ + δ + δ := by
    simp only [φ, e]
    exact add_le_add (add_le_add (key _ _ _ _ _ _ ha.1 hb.1 hc.1) (key _ _ _ _ _ _ ha.2.1 hb.2.1 hc.2.1))
      (key _ _ _ _ _ _ ha.2.2 hb.2.2 hc.2.2)
  have : φ r0 ≤ φ (t, l, m) := hle
  have := hδ.2
  linarith

/-- A point on the boundary of the hull is in one of the facets. -/
theorem cover (cx : Complex F p c) {pos : ℕ → Vec3 ℝ} {K x : Vec3 ℝ}
    (pert : ∀ δ > 0, ∃ ps : ℕ → Vec3 ℝ, (∀ v, Near δ (pos v) (ps v)) ∧
      ∀ f ∈ F, ∀ g ∈ F, ∀ s, (∀ t, p f t ≠ p g s) → D ps p f (p g s) < 0)
    (weak : ∀ f ∈ F, ∀ g ∈ F, ∀ s, D pos p f (p g s) ≤ 0)
    (hK : ∀ f ∈ F, H pos p f K < 0) (hx : ∀ f ∈ F, H pos p f x ≤ 0) {f0 : ℕ} (hf0 : f0 ∈ F)
    (h0 : H pos p f0 x = 0) :
    ∃ f ∈ F, x ∈ triangle (pos (p f 0)) (pos (p f 1)) (pos (p f 2)) := by
  by_contra hcon
  push Not at hcon
  have miss : ∀ f ∈ F, ∀ t ∈ Set.Icc (0:ℝ) 2, ray K x t ∉ triangle (pos (p f 0)) (pos (p f 1)) (pos (p f 2)) := by
    intro f hf t ht hm
    have e1 := vol_tri_zero hm
    rw [vol_ray] at e1
    have e2 := vol_tri_le (weak f0 hf0 f hf 0) (weak f0 hf0 f hf 1) (weak f0 hf0 f hf 2) hm
    rw [vol_ray] at e2
    have h1 : vol (pos (p f 0)) (pos (p f 1)) (pos (p f 2)) K < 0 := hK f hf
    have h2 : vol (pos (p f 0)) (pos (p f 1)) (pos (p f 2)) x ≤ 0 := hx f hf
    have h3 : vol (pos (p f0 0)) (pos (p f0 1)) (pos (p f0 2)) K < 0 := hK f0 hf0
    have h4 : vol (pos (p f0 0)) (pos (p f0 1)) (pos (p f0 2)) x = 0 := h0
    rw [h4] at e2
    have t1 : t ≤ 1 := by
      by_contra hc
      nlinarith [mul_pos_of_neg_of_neg (show 1 - t < 0 by linarith [not_le.1 hc]) h3]
    have t2 : 1 ≤ t := by
      by_contra hc
      nlinarith [mul_pos (show 0 < 1 - t by linarith [not_le.1 hc]) (neg_pos.2 h1), mul_nonneg ht.1 (neg_nonneg.2 h2)]
    obtain rfl : t = 1 := le_antisymm t1 t2
    rw [ray_one] at hm
    exact hcon f hf hm
  have ev1 : ∀ᶠ δ in nhdsWithin (0:ℝ) (Set.Ioi 0), ∀ f ∈ F, ∀ a b c, Near δ (pos (p f 0)) a → Near δ (pos (p f 1)) b →
      Near δ (pos (p f 2)) c → (∀ t ∈ Set.Icc (0:ℝ) 2, ray K x t ∉ triangle a b c) ∧ vol a b c K < 0 := by
    rw [Filter.eventually_all_finset]
    intro f hf
    filter_upwards [tri_far (miss f hf), vol_near (hK f hf), self_mem_nhdsWithin] with δ h1 h2 h3 a b c ha hb hc
    exact ⟨h1 a b c ha hb hc, h2 a b c K ha hb hc (by
      have : (0:ℝ) < δ := h3
      refine ⟨?_, ?_, ?_⟩ <;> (rw [sub_self, abs_zero]; exact this.le))⟩
  have hout : 0 < vol (pos (p f0 0)) (pos (p f0 1)) (pos (p f0 2)) (ray K x 2) := by
    rw [vol_ray]
    have h3 : vol (pos (p f0 0)) (pos (p f0 1)) (pos (p f0 2)) K < 0 := hK f0 hf0
    have h4 : vol (pos (p f0 0)) (pos (p f0 1)) (pos (p f0 2)) x = 0 := h0
    rw [h4]; linarith
  obtain ⟨δ, ⟨h1, h2⟩, h3⟩ := ((ev1.and (vol_near' hout)).and self_mem_nhdsWithin).exists
  have hδ : (0:ℝ) < δ := h3
  obtain ⟨ps, hn, hc⟩ := pert δ hδ
  obtain ⟨f, hf, t, ht, hm⟩ := cover_strict (x := x) cx hc
    (fun f hf => (h1 f hf _ _ _ (hn _) (hn _) (hn _)).2) hf0
    (h2 _ _ _ _ (hn _) (hn _) (hn _) (by
      refine ⟨?_, ?_, ?_⟩ <;> (rw [sub_self, abs_zero]; exact hδ.le)))
  exact (h1 f hf _ _ _ (hn _) (hn _) (hn _)).1 t ht hm

/-- The facets of a closed mesh with a point inside of them all bound the convex hull of the corners. -/
theorem closed_hull_le {F : Finset ℕ} {p : ℕ → Fin 3 → ℕ} (pos : ℕ → Vec3 ℝ) (hne : F.Nonempty)
    (hadj : ∀ f ∈ F, ∀ s, ∃ g ∈ F, ∃ t, p g (t + 1) = p f (s + 2) ∧ p g (t + 2) = p f (s + 1))
    (huni : ∀ f ∈ F, ∀ g ∈ F, ∀ s t, p f (s + 1) = p g (t + 1) → p f (s + 2) = p g (t + 2) → f = g ∧ s = t)
    {K x : Vec3 ℝ} (hK : ∀ f ∈ F, H pos p f K < 0) (hx : ∀ f ∈ F, H pos p f x ≤ 0) :
    InHull {v | ∃ f ∈ F, ∃ s, v = pos (p f s)} x := by
  by_contra hcon
  have hfin : {v | ∃ f ∈ F, ∃ s, v = pos (p f s)}.Finite := by
    have : {v | ∃ f ∈ F, ∃ s, v = pos (p f s)} =
        (fun r : ℕ × Fin 3 => pos (p r.1 r.2)) '' (F ×ˢ (Finset.univ : Finset (Fin 3)) : Finset (ℕ × Fin 3)) := by
      ext v
      simp only [Set.mem_setOf_eq, Set.mem_image, Finset.coe_product, Set.mem_prod, Finset.mem_coe, Prod.exists]
      constructor
      · rintro ⟨f, hf, s, rfl⟩; exact ⟨f, s, ⟨hf, Finset.mem_univ _⟩, rfl⟩
      · rintro ⟨f, s, ⟨hf, -⟩, rfl⟩; exact ⟨f, hf, s, rfl⟩
    rw [this]; exact (Finset.finite_toSet _).image _
  obtain ⟨w, hw⟩ := separate hfin hcon
  -- the corners leave a gap
  obtain ⟨k, hk, hkv⟩ : ∃ k, k < 0 ∧ ∀ v ∈ {v | ∃ f ∈ F, ∃ s, v = pos (p f s)}, dot w v ≤ dot w x + k := by
    obtain ⟨f, hf⟩ := hne
    obtain ⟨v, hv, hmax⟩ := hfin.exists_maximalFor (fun v => dot w v) _ ⟨pos (p f 0), f, hf, 0, rfl⟩
    refine ⟨dot w v - dot w x, ?_, fun u hu => ?_⟩
    · have := hw v hv
      simp only [dot, Vec3.sub] at this ⊢
      linarith
    · have : dot w u ≤ dot w v := by
        rcases le_total (dot w u) (dot w v) with e | e
        · exact e
        · exact hmax hu e
      linarith
  -- points of the segment towards the inner point
  have seg : ∀ s : ℝ, 0 < s → s ≤ 1 → s * (dot w K - dot w x) ≤ k := by
    intro s hs hs1
    have hin : InHull {v | ∃ f ∈ F, ∃ s, v = pos (p f s)} (ray x K s) := by
      refine closed_hull (ε := -1) pos hne hadj huni fun f hf => ?_
      rw [vol_ray]
      have h1 := mul_nonneg (sub_nonneg.2 hs1) (neg_nonneg.2 (hx f hf))
      have h2 := mul_pos hs (neg_pos.2 (hK f hf))
      unfold H at h1 h2
      linarith
    have := dot_hull_le hkv hin
    simp only [dot, ray] at this ⊢
    linarith
  set m := dot w K - dot w x with hm
  have hm0 : m < 0 := by have := seg 1 one_pos le_rfl; linarith
  have hmk : m ≤ k := by have := seg 1 one_pos le_rfl; linarith
  have h2 := seg (k / (2 * m)) (div_pos_of_neg_of_neg hk (by linarith)) (by
    rw [div_le_one_of_neg (by linarith)]; linarith)
  have : k / (2 * m) * m = k / 2 := by have := hm0.ne; field_simp
  linarith

/-- A point of a convex hull where a linear function is as large as at a single point of the set is that point. -/
theorem dot_hull_lt {S : Set (Vec3 ℝ)} {w v q : Vec3 ℝ} (hS : ∀ u ∈ S, u ≠ v → dot w u < dot w v) (hq : InHull S q)
    (hne : q ≠ v) : dot w q < dot w v := by
  obtain ⟨n, L, p, hp, hL, h1, e⟩ := hq
  have hle : ∀ i, dot w (p i) ≤ dot w v := by
    intro i
    by_cases h : p i = v
    · rw [h]
    · exact (hS _ (hp i) h).le
  have hd : dot w q = ∑ i, L i * dot w (p i) := by
    rw [e]; simp only [dot, Finset.mul_sum, ← Finset.sum_add_distrib]
    exact Finset.sum_congr rfl fun i _ => by ring
  have hv : dot w v = ∑ i, L i * dot w v := by rw [← Finset.sum_mul, h1, one_mul]
  rw [hd, hv]
  refine Finset.sum_lt_sum (fun i _ => mul_le_mul_of_nonneg_left (hle i) (hL i)) ?_
  by_contra hc
  push Not at hc
  apply hne
  have hz : ∀ i, L i = 0 ∨ p i = v := by
    intro i
    by_contra h
    push Not at h
    have h3 := hS _ (hp i) h.2
    have h4 := hc i (Finset.mem_univ i)
    have h5 := lt_of_le_of_ne (hL i) (Ne.symm h.1)
    nlinarith
  have hx : ∀ g : Vec3 ℝ → ℝ, ∑ i, L i * g (p i) = g v := by
    intro g
    have : ∀ i ∈ Finset.univ, L i * g (p i) = L i * g v := by
      intro i _
      rcases hz i with h | h
      · rw [h, zero_mul, zero_mul]
      · rw [h]
    rw [Finset.sum_congr rfl this, ← Finset.sum_mul, h1, one_mul]
  rw [e]
  ext
  · exact hx Vec3.x
  · exact hx Vec3.y
  · exact hx Vec3.z

end
end Zeo.QHMesh
