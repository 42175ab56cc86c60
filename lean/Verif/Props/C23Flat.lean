import Verif.Props.C23

/-! # C23, continued: the incenter in the plane -/

namespace Zeo

private def lift (v : Vec2 ℝ) : Vec3 ℝ := ⟨v.x, v.y, 0⟩

private theorem dist_lift (a b : Vec2 ℝ) : (lift a).dist (lift b) = a.dist b := by
  simp [lift, Vec3.dist, Vec2.dist, zeo]

private theorem incenter_lift (v0 v1 v2 : Vec2 ℝ) :
    Tri3.incenter (lift v0) (lift v1) (lift v2) = lift (Tri2.incenter v0 v1 v2) := by
  unfold Tri3.incenter Tri2.incenter
  rw [dist_lift, dist_lift, dist_lift]
  ext <;> simp [lift, Tri3.weightedCenter, Tri2.weightedCenter]

private theorem near (a b p : Vec2 ℝ) {q : Vec3 ℝ} (h : Spec.IsNearest (Spec.line (lift a) ((lift b).sub (lift a))) (lift p) q) :
    ∃ r : Vec2 ℝ, Spec.IsNearest2 (Spec.line2 a (b.sub a)) p r ∧ Spec.ed2 p r = Spec.ed (lift p) q := by
  obtain ⟨⟨t, rfl⟩, hm⟩ := h
  refine ⟨⟨a.x + t * (b.x - a.x), a.y + t * (b.y - a.y)⟩, ⟨⟨t, rfl⟩, ?_⟩, ?_⟩
  · rintro _ ⟨s, rfl⟩
    have := hm _ ⟨s, rfl⟩
    simpa [Spec.sqd, Spec.sqd2, lift, zeo] using this
  · simp [Spec.ed, Spec.ed2, Spec.sqd, Spec.sqd2, lift, zeo]

/-- In the plane: the incenter is strictly inside, at one common positive distance from the three side lines. -/
theorem C23_incenter2 (v0 v1 v2 : Vec2 ℝ) (h : (v1.sub v0).outer (v2.sub v0) ≠ 0) :
    (∃ a b c, 0 < a ∧ 0 < b ∧ 0 < c ∧ a + b + c = 1 ∧ Tri2.incenter v0 v1 v2 = Spec.comb2 a b c v0 v1 v2) ∧
    ∃ ρ q0 q1 q2, 0 < ρ ∧
      Spec.IsNearest2 (Spec.line2 v0 (v1.sub v0)) (Tri2.incenter v0 v1 v2) q0 ∧ Spec.ed2 (Tri2.incenter v0 v1 v2) q0 = ρ ∧
      Spec.IsNearest2 (Spec.line2 v1 (v2.sub v1)) (Tri2.incenter v0 v1 v2) q1 ∧ Spec.ed2 (Tri2.incenter v0 v1 v2) q1 = ρ ∧
      Spec.IsNearest2 (Spec.line2 v2 (v0.sub v2)) (Tri2.incenter v0 v1 v2) q2 ∧ Spec.ed2 (Tri2.incenter v0 v1 v2) q2 = ρ := by
  have h3 : ((lift v1).sub (lift v0)).outer ((lift v2).sub (lift v0)) ≠ .zero := by
    intro e
    have := congrArg Vec3.z e
    simp only [lift, zeo] at this
    apply h
    simp only [zeo]
    linarith
  obtain ⟨⟨a, b, c, ha, hb, hc, hs, e⟩, ρ, q0, q1, q2, hρ, n0, d0, n1, d1, n2, d2⟩ := C23_incenter _ _ _ h3
  rw [incenter_lift] at e n0 d0 n1 d1 n2 d2
  obtain ⟨r0, m0, e0⟩ := near _ _ _ n0
  obtain ⟨r1, m1, e1⟩ := near _ _ _ n1
  obtain ⟨r2, m2, e2⟩ := near _ _ _ n2
  refine ⟨⟨a, b, c, ha, hb, hc, hs, ?_⟩, ρ, r0, r1, r2, hρ, m0, e0.trans d0, m1, e1.trans d1, m2, e2.trans d2⟩
  have ex := congrArg Vec3.x e
  have ey := congrArg Vec3.y e
  simp only [lift, Spec.comb] at ex ey
  ext
  · rw [ex]; simp [Spec.comb2]
  · rw [ey]; simp [Spec.comb2]

example : ((⟨4, 0⟩ : Vec2 ℝ).sub ⟨0, 0⟩).outer ((⟨1, 3⟩ : Vec2 ℝ).sub ⟨0, 0⟩) ≠ 0 := by norm_num [zeo]

end Zeo
