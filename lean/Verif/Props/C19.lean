import Verif.Model.Elem
import Verif.Lemmas.Convex

/-! # C19: the closest point of a segment -/

namespace Zeo

/-- From the origin, in space: a segment with distinct ends gives a result; it is the nearest point
of the segment, its weights are barycentric, the returned value is the distance. -/
theorem C19_fromOrigin (v0 v1 : Vec3 ℝ) (hne : v0 ≠ v1) : ∃ r, Edge3.closestFromOrigin v0 v1 = some r ∧
    Spec.IsNearest (Spec.segment v0 v1) .zero r.cp ∧ r.dist = Spec.ed .zero r.cp ∧
    0 ≤ r.s0 ∧ 0 ≤ r.s1 ∧ r.s0 + r.s1 = 1 ∧ r.cp = Spec.comb r.s0 r.s1 0 0 v0 v1 v0 v0 := by
  have hu : ((⟨⟨v0.sqrNorm, v0.inner v1⟩, ⟨v0.inner v1, v1.sqrNorm⟩⟩ : Mat2 ℝ).mulAdjVec ⟨1, 1⟩)
      = ⟨v1.sqrNorm - v0.inner v1, v0.sqrNorm - v0.inner v1⟩ := by vring
  have hD : v1.sqrNorm - v0.inner v1 + (v0.sqrNorm - v0.inner v1) = (v0.x - v1.x)^2 + (v0.y - v1.y)^2 + (v0.z - v1.z)^2 := by
    simp only [zeo]; ring
  have hpos : 0 < v1.sqrNorm - v0.inner v1 + (v0.sqrNorm - v0.inner v1) := by
    rw [hD]
    rcases lt_or_eq_of_le (show 0 ≤ (v0.x - v1.x)^2 + (v0.y - v1.y)^2 + (v0.z - v1.z)^2 by positivity) with h | h
    · exact h
    · exfalso; apply hne
      ext
      · nlinarith [sq_nonneg (v0.x - v1.x), sq_nonneg (v0.y - v1.y), sq_nonneg (v0.z - v1.z)]
      · nlinarith [sq_nonneg (v0.x - v1.x), sq_nonneg (v0.y - v1.y), sq_nonneg (v0.z - v1.z)]
      · nlinarith [sq_nonneg (v0.x - v1.x), sq_nonneg (v0.y - v1.y), sq_nonneg (v0.z - v1.z)]
  have hsq : ∀ a b : ℝ, (Spec.comb a b 0 0 v0 v1 v0 v0).sqrNorm = a^2 * v0.sqrNorm + 2 * a * b * v0.inner v1 + b^2 * v1.sqrNorm := by
    intro a b; simp only [Spec.comb, zeo]; ring
  unfold Edge3.closestFromOrigin
  simp only [hu, if_neg hpos.ne']
  generalize hDD : v1.sqrNorm - v0.inner v1 + (v0.sqrNorm - v0.inner v1) = D at hpos
  have q := fun a b (ha : 0 ≤ a) (hb : 0 ≤ b) (hs : a + b = 1) =>
    edge_quadratic (xx := v0.sqrNorm) (xy := v0.inner v1) (yy := v1.sqrNorm) (a := a) (b := b) (D := D)
      (s0 := (v1.sqrNorm - v0.inner v1) * (1 / D)) (s1 := (v0.sqrNorm - v0.inner v1) * (1 / D)) (by rw [← hDD]; ring) hpos
      (by field_simp) (by field_simp) ha hb hs
  have hsum : (v1.sqrNorm - v0.inner v1) * (1 / D) + (v0.sqrNorm - v0.inner v1) * (1 / D) = 1 := by
    rw [← add_mul, hDD]; field_simp
  generalize (v1.sqrNorm - v0.inner v1) * (1 / D) = s0 at q hsum ⊢
  generalize (v0.sqrNorm - v0.inner v1) * (1 / D) = s1 at q hsum ⊢
  have c01 : v1 = Spec.comb 0 1 0 0 v0 v1 v0 v0 := by simp [Spec.comb]
  have c10 : v0 = Spec.comb 1 0 0 0 v0 v1 v0 v0 := by simp [Spec.comb]
  have cs : (v0.mul s0).cat s1 v1 = Spec.comb s0 s1 0 0 v0 v1 v0 v0 := by simp only [Spec.comb]; vring
  split_ifs with h0 h1
  · refine ⟨_, rfl, ⟨⟨0, 1, le_rfl, zero_le_one, zero_add 1, c01⟩, ?_⟩, norm_eq_ed_zero v1, le_rfl, zero_le_one, zero_add 1, c01⟩
    rintro _ ⟨a, b, ha, hb, hs, rfl⟩
    rw [sqd_zero, sqd_zero, hsq]; exact (q a b ha hb hs).1 h0
  · refine ⟨_, rfl, ⟨⟨1, 0, zero_le_one, le_rfl, add_zero 1, c10⟩, ?_⟩, norm_eq_ed_zero v0, zero_le_one, le_rfl, add_zero 1, c10⟩
    rintro _ ⟨a, b, ha, hb, hs, rfl⟩
    rw [sqd_zero, sqd_zero, hsq]; exact (q a b ha hb hs).2.1 h1
  · refine ⟨_, rfl, ⟨⟨s0, s1, not_lt.1 h0, not_lt.1 h1, hsum, cs⟩, ?_⟩, norm_eq_ed_zero _, not_lt.1 h0, not_lt.1 h1, hsum, cs⟩
    rintro _ ⟨a, b, ha, hb, hs, rfl⟩
    rw [sqd_zero, sqd_zero, cs, hsq, hsq]; exact (q a b ha hb hs).2.2

/-- The same in the plane. -/
theorem C19_fromOrigin2 (v0 v1 : Vec2 ℝ) (hne : v0 ≠ v1) : ∃ r, Edge2.closestFromOrigin v0 v1 = some r ∧
    Spec.IsNearest2 (Spec.segment2 v0 v1) .zero r.cp ∧ r.dist = Spec.ed2 .zero r.cp ∧
    0 ≤ r.s0 ∧ 0 ≤ r.s1 ∧ r.s0 + r.s1 = 1 ∧ r.cp = Spec.comb2 r.s0 r.s1 0 v0 v1 v0 := by
  have hu : ((⟨⟨v0.sqrNorm, v0.inner v1⟩, ⟨v0.inner v1, v1.sqrNorm⟩⟩ : Mat2 ℝ).mulAdjVec ⟨1, 1⟩)
      = ⟨v1.sqrNorm - v0.inner v1, v0.sqrNorm - v0.inner v1⟩ := by vring
  have hD : v1.sqrNorm - v0.inner v1 + (v0.sqrNorm - v0.inner v1) = (v0.x - v1.x)^2 + (v0.y - v1.y)^2 := by
    simp only [zeo]; ring
  have hpos : 0 < v1.sqrNorm - v0.inner v1 + (v0.sqrNorm - v0.inner v1) := by
    rw [hD]
    rcases lt_or_eq_of_le (show 0 ≤ (v0.x - v1.x)^2 + (v0.y - v1.y)^2 by positivity) with h | h
    · exact h
    · exfalso; apply hne
      ext
      · nlinarith [sq_nonneg (v0.x - v1.x), sq_nonneg (v0.y - v1.y)]
      · nlinarith [sq_nonneg (v0.x - v1.x), sq_nonneg (v0.y - v1.y)]
  have hsq : ∀ a b : ℝ, (Spec.comb2 a b 0 v0 v1 v0).sqrNorm = a^2 * v0.sqrNorm + 2 * a * b * v0.inner v1 + b^2 * v1.sqrNorm := by
    intro a b; simp only [Spec.comb2, zeo]; ring
  unfold Edge2.closestFromOrigin
  simp only [hu, if_neg hpos.ne']
  generalize hDD : v1.sqrNorm - v0.inner v1 + (v0.sqrNorm - v0.inner v1) = D at hpos
  have q := fun a b (ha : 0 ≤ a) (hb : 0 ≤ b) (hs : a + b = 1) =>
    edge_quadratic (xx := v0.sqrNorm) (xy := v0.inner v1) (yy := v1.sqrNorm) (a := a) (b := b) (D := D)
      (s0 := (v1.sqrNorm - v0.inner v1) * (1 / D)) (s1 := (v0.sqrNorm - v0.inner v1) * (1 / D)) (by rw [← hDD]; ring) hpos
      (by field_simp) (by field_simp) ha hb hs
  have hsum : (v1.sqrNorm - v0.inner v1) * (1 / D) + (v0.sqrNorm - v0.inner v1) * (1 / D) = 1 := by
    rw [← add_mul, hDD]; field_simp
  generalize (v1.sqrNorm - v0.inner v1) * (1 / D) = s0 at q hsum ⊢
  generalize (v0.sqrNorm - v0.inner v1) * (1 / D) = s1 at q hsum ⊢
  have c01 : v1 = Spec.comb2 0 1 0 v0 v1 v0 := by simp [Spec.comb2]
  have c10 : v0 = Spec.comb2 1 0 0 v0 v1 v0 := by simp [Spec.comb2]
  have cs : (v0.mul s0).cat s1 v1 = Spec.comb2 s0 s1 0 v0 v1 v0 := by simp only [Spec.comb2]; vring
  split_ifs with h0 h1
  · refine ⟨_, rfl, ⟨⟨0, 1, le_rfl, zero_le_one, zero_add 1, c01⟩, ?_⟩, norm_eq_ed2_zero v1, le_rfl, zero_le_one, zero_add 1, c01⟩
    rintro _ ⟨a, b, ha, hb, hs, rfl⟩
    rw [sqd2_zero, sqd2_zero, hsq]; exact (q a b ha hb hs).1 h0
  · refine ⟨_, rfl, ⟨⟨1, 0, zero_le_one, le_rfl, add_zero 1, c10⟩, ?_⟩, norm_eq_ed2_zero v0, zero_le_one, le_rfl, add_zero 1, c10⟩
    rintro _ ⟨a, b, ha, hb, hs, rfl⟩
    rw [sqd2_zero, sqd2_zero, hsq]; exact (q a b ha hb hs).2.1 h1
  · refine ⟨_, rfl, ⟨⟨s0, s1, not_lt.1 h0, not_lt.1 h1, hsum, cs⟩, ?_⟩, norm_eq_ed2_zero _, not_lt.1 h0, not_lt.1 h1, hsum, cs⟩
    rintro _ ⟨a, b, ha, hb, hs, rfl⟩
    rw [sqd2_zero, sqd2_zero, cs, hsq, hsq]; exact (q a b ha hb hs).2.2

private theorem sub_ne {a b : Vec3 ℝ} (p : Vec3 ℝ) (h : a ≠ b) : a.sub p ≠ b.sub p := by
  intro e; apply h
  have e1 := congrArg Vec3.x e
  have e2 := congrArg Vec3.y e
  have e3 := congrArg Vec3.z e
  simp only [zeo] at e1 e2 e3
  ext <;> linarith
private theorem sub_ne2 {a b : Vec2 ℝ} (p : Vec2 ℝ) (h : a ≠ b) : a.sub p ≠ b.sub p := by
  intro e; apply h
  have e1 := congrArg Vec2.x e
  have e2 := congrArg Vec2.y e
  simp only [zeo] at e1 e2
  ext <;> linarith

/-- **Main claim, space**: for every segment with distinct ends and every query point,
`zEdge3DClosest` returns the nearest point and its distance. -/
theorem C19_closest (e0 e1 p : Vec3 ℝ) (hne : e0 ≠ e1) : ∃ r, Edge3.closest e0 e1 p = some r ∧
    Spec.IsNearest (Spec.segment e0 e1) p r.2 ∧ r.1 = Spec.ed p r.2 := by
  obtain ⟨r, hr, hn, hd, -⟩ := C19_fromOrigin (e0.sub p) (e1.sub p) (sub_ne p hne)
  refine ⟨_, by rw [Edge3.closest, hr]; rfl, isNearest_translate p r.cp (mem_segment_sub e0 e1 p) hn, ?_⟩
  show r.dist = Spec.ed p (r.cp.add p)
  rw [hd, ← norm_eq_ed_zero, norm_eq_ed p]

/-- **Main claim, plane.** -/
theorem C19_closest2 (e0 e1 p : Vec2 ℝ) (hne : e0 ≠ e1) : ∃ r, Edge2.closest e0 e1 p = some r ∧
    Spec.IsNearest2 (Spec.segment2 e0 e1) p r.2 ∧ r.1 = Spec.ed2 p r.2 := by
  obtain ⟨r, hr, hn, hd, -⟩ := C19_fromOrigin2 (e0.sub p) (e1.sub p) (sub_ne2 p hne)
  refine ⟨_, by rw [Edge2.closest, hr]; rfl, isNearest2_translate p r.cp (mem_segment2_sub e0 e1 p) hn, ?_⟩
  show r.dist = Spec.ed2 p (r.cp.add p)
  rw [hd, ← norm_eq_ed2_zero, norm_eq_ed2 p]

/-- A degenerate segment (coinciding ends) divides by zero for every query point. -/
theorem C19_degenerate (e p : Vec3 ℝ) : Edge3.closest e e p = none := by
  have : Edge3.closestFromOrigin (e.sub p) (e.sub p) = none := by
    unfold Edge3.closestFromOrigin
    rw [if_pos]
    simp only [zeo]; ring
  rw [Edge3.closest, this]; rfl

/-- `zEdge3DPointIsOn` accepts exactly the points closer to the segment than the margin. -/
theorem C19_pointIsOn (e0 e1 p : Vec3 ℝ) (m : ℝ) (hne : e0 ≠ e1) :
    Edge3.pointIsOn e0 e1 p m ↔ ∃ q ∈ Spec.segment e0 e1, Spec.ed p q < m := by
  obtain ⟨r, hr, ⟨hm, hn⟩, hd⟩ := C19_closest e0 e1 p hne
  have e : Edge3.distFromPoint e0 e1 p = some r.1 := by rw [Edge3.distFromPoint, hr]; rfl
  simp only [Edge3.pointIsOn, e, Option.some.injEq, exists_eq_left']
  constructor
  · intro h; exact ⟨r.2, hm, hd ▸ h⟩
  · rintro ⟨q, hq, h⟩
    rw [hd]
    exact lt_of_le_of_lt (Real.sqrt_le_sqrt (hn q hq)) h

/-- `zEdge3DContigVert` returns the nearer end and its distance. -/
theorem C19_contigVert (e0 e1 p : Vec3 ℝ) :
    Spec.IsNearest {e0, e1} p (Edge3.contigVert e0 e1 p).1 ∧
    (Edge3.contigVert e0 e1 p).2 = Spec.ed p (Edge3.contigVert e0 e1 p).1 := by
  have e : ∀ q, p.sqrDist q = Spec.sqd p q := by intro q; simp only [Spec.sqd, zeo]; ring
  unfold Edge3.contigVert
  simp only [e]
  split_ifs with h
  · refine ⟨⟨Or.inl rfl, ?_⟩, rfl⟩
    rintro q (rfl | rfl)
    · exact le_rfl
    · exact h
  · refine ⟨⟨Or.inr rfl, ?_⟩, rfl⟩
    rintro q (rfl | rfl)
    · exact (not_le.1 h).le
    · exact le_rfl

/-- Satisfiability: distinct ends. -/
example : (⟨0, 0, 0⟩ : Vec3 ℝ) ≠ ⟨1, 2, 0⟩ := by
  intro h; have := congrArg Vec3.x h; norm_num at this

end Zeo
