import Verif.Props.C22

/-! # C23: triangle centers -/

namespace Zeo

/-- Barycenter: the mean of the vertices. -/
theorem C23_barycenter {K : Type*} [Field K] [LinearOrder K] [IsStrictOrderedRing K] (v0 v1 v2 : Vec3 K) :
    Tri3.barycenter v0 v1 v2 = Spec.comb (1/3) (1/3) (1/3) 0 v0 v1 v2 v0 := by
  have h3 : (3 : K) ≠ 0 := by norm_num
  simp only [Tri3.barycenter, Vec3.div, if_neg h3]
  ext <;> simp only [Spec.comb, zeo] <;> ring

/-- Circumcenter of a non-degenerate triangle: in the plane of the triangle and equidistant from the
three vertices. -/
theorem C23_circumcenter (v0 v1 v2 : Vec3 ℝ) (h : (v1.sub v0).outer (v2.sub v0) ≠ .zero) :
    Spec.ed (Tri3.circumcenter v0 v1 v2) v1 = Spec.ed (Tri3.circumcenter v0 v1 v2) v0 ∧
    Spec.ed (Tri3.circumcenter v0 v1 v2) v2 = Spec.ed (Tri3.circumcenter v0 v1 v2) v0 ∧
    Tri3.circumcenter v0 v1 v2 ∈ Spec.plane v0 ((v1.sub v0).outer (v2.sub v0)) := by
  obtain ⟨h1, h2, a, b, h3⟩ := circumcenter_bisect v0 v1 v2 (by rw [lagrange3]; exact sqrNorm_ne_zero h)
  generalize Tri3.circumcenter v0 v1 v2 = c at *
  refine ⟨?_, ?_, ?_⟩
  · unfold Spec.ed; congr 1
    simp only [Spec.sqd]; simp only [zeo] at h1; linear_combination -2 * h1
  · unfold Spec.ed; congr 1
    simp only [Spec.sqd]; simp only [zeo] at h2; linear_combination -2 * h2
  · have e1 := congrArg Vec3.x h3
    have e2 := congrArg Vec3.y h3
    have e3 := congrArg Vec3.z h3
    simp only [zeo] at e1 e2 e3
    show (c.x - v0.x) * _ + (c.y - v0.y) * _ + (c.z - v0.z) * _ = 0
    rw [e1, e2, e3]
    simp only [zeo]; ring

/-- Orthocenter of a non-degenerate triangle: in the plane of the triangle and on the three altitudes. -/
theorem C23_orthocenter (v0 v1 v2 : Vec3 ℝ) (h : (v1.sub v0).outer (v2.sub v0) ≠ .zero) :
    ((Tri3.orthocenter v0 v1 v2).sub v0).inner (v2.sub v1) = 0 ∧
    ((Tri3.orthocenter v0 v1 v2).sub v1).inner (v0.sub v2) = 0 ∧
    ((Tri3.orthocenter v0 v1 v2).sub v2).inner (v1.sub v0) = 0 ∧
    Tri3.orthocenter v0 v1 v2 ∈ Spec.plane v0 ((v1.sub v0).outer (v2.sub v0)) := by
  have hn : (((v1.add v2).sub v0).sub ((v0.add v1).sub v2)).outer (((v2.add v0).sub v1).sub ((v0.add v1).sub v2)) =
      ((v1.sub v0).outer (v2.sub v0)).mul 4 := by
    ext <;> simp only [zeo] <;> ring
  obtain ⟨h1, h2, a, b, h3⟩ := circumcenter_bisect ((v0.add v1).sub v2) ((v1.add v2).sub v0) ((v2.add v0).sub v1)
    (by
      rw [lagrange3, hn]
      have : (((v1.sub v0).outer (v2.sub v0)).mul 4).sqrNorm = 16 * ((v1.sub v0).outer (v2.sub v0)).sqrNorm := by
        generalize (v1.sub v0).outer (v2.sub v0) = w
        simp only [zeo]; ring
      rw [this]; exact mul_ne_zero (by norm_num) (sqrNorm_ne_zero h))
  unfold Tri3.orthocenter
  generalize Tri3.circumcenter ((v0.add v1).sub v2) ((v1.add v2).sub v0) ((v2.add v0).sub v1) = c at *
  simp only [zeo] at h1 h2
  refine ⟨?_, ?_, ?_, ?_⟩
  · simp only [zeo]; linear_combination (1/2) * h2
  · simp only [zeo]; linear_combination -(1/2) * h1
  · simp only [zeo]; linear_combination (1/2) * h1 - (1/2) * h2
  · have e1 := congrArg Vec3.x h3
    have e2 := congrArg Vec3.y h3
    have e3 := congrArg Vec3.z h3
    simp only [zeo] at e1 e2 e3
    show (c.x - v0.x) * _ + (c.y - v0.y) * _ + (c.z - v0.z) * _ = 0
    have e1' : c.x = v0.x + v1.x - v2.x + ((v1.x + v2.x - v0.x - (v0.x + v1.x - v2.x)) * a + (v2.x + v0.x - v1.x - (v0.x + v1.x - v2.x)) * b) := by linear_combination e1
    have e2' : c.y = v0.y + v1.y - v2.y + ((v1.y + v2.y - v0.y - (v0.y + v1.y - v2.y)) * a + (v2.y + v0.y - v1.y - (v0.y + v1.y - v2.y)) * b) := by linear_combination e2
    have e3' : c.z = v0.z + v1.z - v2.z + ((v1.z + v2.z - v0.z - (v0.z + v1.z - v2.z)) * a + (v2.z + v0.z - v1.z - (v0.z + v1.z - v2.z)) * b) := by linear_combination e3
    rw [e1', e2', e3']
    simp only [zeo]; ring

/-- Foot of the perpendicular on a line, with its distance as a cross product. -/
private theorem foot (c a d : Vec3 ℝ) (hd : d.sqrNorm ≠ 0) :
    ∃ q, Spec.IsNearest (Spec.line a d) c q ∧ Spec.sqd c q * d.sqrNorm = ((c.sub a).outer d).sqrNorm := by
  have hp : 0 < d.sqrNorm := lt_of_le_of_ne d.sqrNorm_nonneg (Ne.symm hd)
  have key : ∀ t : ℝ, Spec.sqd c ⟨a.x + t * d.x, a.y + t * d.y, a.z + t * d.z⟩ * d.sqrNorm =
      ((c.sub a).outer d).sqrNorm + (t * d.sqrNorm - (c.sub a).inner d)^2 := by
    intro t; simp only [Spec.sqd, zeo]; ring
  have hfoot := key ((c.sub a).inner d / d.sqrNorm)
  rw [div_mul_cancel₀ _ hd, sub_self] at hfoot
  refine ⟨_, ⟨⟨(c.sub a).inner d / d.sqrNorm, rfl⟩, ?_⟩, by rw [hfoot]; ring⟩
  rintro q ⟨t, rfl⟩
  have := key t
  nlinarith [sq_nonneg (t * d.sqrNorm - (c.sub a).inner d)]

/-- Incenter of a non-degenerate triangle: a strictly interior point of the triangle (positive
weights) at one common positive distance from the three side lines. -/
theorem C23_incenter (v0 v1 v2 : Vec3 ℝ) (h : (v1.sub v0).outer (v2.sub v0) ≠ .zero) :
    (∃ a b c, 0 < a ∧ 0 < b ∧ 0 < c ∧ a + b + c = 1 ∧ Tri3.incenter v0 v1 v2 = Spec.comb a b c 0 v0 v1 v2 v0) ∧
    ∃ ρ q0 q1 q2, 0 < ρ ∧
      Spec.IsNearest (Spec.line v0 (v1.sub v0)) (Tri3.incenter v0 v1 v2) q0 ∧ Spec.ed (Tri3.incenter v0 v1 v2) q0 = ρ ∧
      Spec.IsNearest (Spec.line v1 (v2.sub v1)) (Tri3.incenter v0 v1 v2) q1 ∧ Spec.ed (Tri3.incenter v0 v1 v2) q1 = ρ ∧
      Spec.IsNearest (Spec.line v2 (v0.sub v2)) (Tri3.incenter v0 v1 v2) q2 ∧ Spec.ed (Tri3.incenter v0 v1 v2) q2 = ρ := by
  have hN := sqrNorm_ne_zero h
  have hNp : 0 < ((v1.sub v0).outer (v2.sub v0)).sqrNorm := lt_of_le_of_ne (Vec3.sqrNorm_nonneg _) (Ne.symm hN)
  have pos : ∀ {a b : Vec3 ℝ}, a ≠ b → 0 < a.dist b ∧ (a.dist b)^2 = (b.sub a).sqrNorm ∧ (a.dist b)^2 = (a.sub b).sqrNorm := by
    intro a b hab
    have hs : a.sqrDist b = (b.sub a).sqrNorm := by simp only [zeo]; ring
    have hs' : a.sqrDist b = (a.sub b).sqrNorm := by simp only [zeo]
    have hne : b.sub a ≠ .zero := by
      intro h0; apply hab
      have e1 := congrArg Vec3.x h0
      have e2 := congrArg Vec3.y h0
      have e3 := congrArg Vec3.z h0
      simp only [zeo] at e1 e2 e3
      ext <;> linarith
    have hp : 0 < (b.sub a).sqrNorm := lt_of_le_of_ne (Vec3.sqrNorm_nonneg _) (Ne.symm (sqrNorm_ne_zero hne))
    refine ⟨by rw [Vec3.dist, hs]; exact Real.sqrt_pos.2 hp, ?_, ?_⟩
    · rw [Vec3.dist, hs, Real.sq_sqrt hp.le]
    · rw [Vec3.dist, hs', Real.sq_sqrt]; rw [← hs', hs]; exact hp.le
  have n01 : v0 ≠ v1 := by rintro rfl; apply h; ext <;> simp only [zeo] <;> ring
  have n12 : v1 ≠ v2 := by rintro rfl; apply h; ext <;> simp only [zeo] <;> ring
  have n20 : v2 ≠ v0 := by rintro rfl; apply h; ext <;> simp only [zeo] <;> ring
  obtain ⟨p2, q2, -⟩ := pos n01
  obtain ⟨p0, q0, -⟩ := pos n12
  obtain ⟨p1, q1, -⟩ := pos n20
  unfold Tri3.incenter
  generalize v0.dist v1 = r2 at *
  generalize v1.dist v2 = r0 at *
  generalize v2.dist v0 = r1 at *
  have hP : 0 < r0 + r1 + r2 := by positivity
  have hc : Tri3.weightedCenter v0 v1 v2 r0 r1 r2 = Spec.comb (r0 / (r0 + r1 + r2)) (r1 / (r0 + r1 + r2)) (r2 / (r0 + r1 + r2)) 0 v0 v1 v2 v0 := by
    ext <;> simp only [Tri3.weightedCenter, Spec.comb] <;> ring
  refine ⟨⟨_, _, _, div_pos p0 hP, div_pos p1 hP, div_pos p2 hP, by rw [← add_div, ← add_div, div_self hP.ne'], hc⟩, ?_⟩
  have hs : r0 / (r0 + r1 + r2) = 1 - r1 / (r0 + r1 + r2) - r2 / (r0 + r1 + r2) := by field_simp; ring
  have hs1 : r1 / (r0 + r1 + r2) = 1 - r0 / (r0 + r1 + r2) - r2 / (r0 + r1 + r2) := by field_simp; ring
  have hs2 : r2 / (r0 + r1 + r2) = 1 - r0 / (r0 + r1 + r2) - r1 / (r0 + r1 + r2) := by field_simp; ring
  -- each cross product is the side weight times the normal
  have c0 : (((Tri3.weightedCenter v0 v1 v2 r0 r1 r2).sub v0).outer (v1.sub v0)).sqrNorm =
      (r2 / (r0 + r1 + r2))^2 * ((v1.sub v0).outer (v2.sub v0)).sqrNorm := by
    rw [hc, hs]; generalize r1 / (r0 + r1 + r2) = x; generalize r2 / (r0 + r1 + r2) = y
    simp only [Spec.comb, zeo]; ring
  have c1 : (((Tri3.weightedCenter v0 v1 v2 r0 r1 r2).sub v1).outer (v2.sub v1)).sqrNorm =
      (r0 / (r0 + r1 + r2))^2 * ((v1.sub v0).outer (v2.sub v0)).sqrNorm := by
    rw [hc, hs1]; generalize r0 / (r0 + r1 + r2) = x; generalize r2 / (r0 + r1 + r2) = y
    simp only [Spec.comb, zeo]; ring
  have c2 : (((Tri3.weightedCenter v0 v1 v2 r0 r1 r2).sub v2).outer (v0.sub v2)).sqrNorm =
      (r1 / (r0 + r1 + r2))^2 * ((v1.sub v0).outer (v2.sub v0)).sqrNorm := by
    rw [hc, hs2]; generalize r0 / (r0 + r1 + r2) = x; generalize r1 / (r0 + r1 + r2) = y
    simp only [Spec.comb, zeo]; ring
  obtain ⟨f0, g0, k0⟩ := foot (Tri3.weightedCenter v0 v1 v2 r0 r1 r2) v0 (v1.sub v0) (by rw [← q2]; positivity)
  obtain ⟨f1, g1, k1⟩ := foot (Tri3.weightedCenter v0 v1 v2 r0 r1 r2) v1 (v2.sub v1) (by rw [← q0]; positivity)
  obtain ⟨f2, g2, k2⟩ := foot (Tri3.weightedCenter v0 v1 v2 r0 r1 r2) v2 (v0.sub v2) (by rw [← q1]; positivity)
  rw [c0, ← q2] at k0
  rw [c1, ← q0] at k1
  rw [c2, ← q1] at k2
  have fin : ∀ s r : ℝ, 0 < r → s * r^2 = (r / (r0 + r1 + r2))^2 * ((v1.sub v0).outer (v2.sub v0)).sqrNorm →
      s = ((v1.sub v0).outer (v2.sub v0)).sqrNorm / (r0 + r1 + r2)^2 := by
    intro s r hr he
    have h2 : s * r^2 = ((v1.sub v0).outer (v2.sub v0)).sqrNorm / (r0 + r1 + r2)^2 * r^2 := by
      rw [he, div_pow]; generalize (r0 + r1 + r2)^2 = P; ring
    exact mul_right_cancel₀ (pow_ne_zero 2 hr.ne') h2
  refine ⟨Real.sqrt (((v1.sub v0).outer (v2.sub v0)).sqrNorm / (r0 + r1 + r2)^2), f0, f1, f2, Real.sqrt_pos.2 (by positivity),
    g0, ?_, g1, ?_, g2, ?_⟩
  · rw [Spec.ed, fin _ _ p2 k0]
  · rw [Spec.ed, fin _ _ p0 k1]
  · rw [Spec.ed, fin _ _ p1 k2]

/-- In the plane: the circumcenter is equidistant from the vertices. -/
theorem C23_circumcenter2 (v0 v1 v2 : Vec2 ℝ) (h : (v1.sub v0).outer (v2.sub v0) ≠ 0) :
    Spec.ed2 (Tri2.circumcenter v0 v1 v2) v1 = Spec.ed2 (Tri2.circumcenter v0 v1 v2) v0 ∧
    Spec.ed2 (Tri2.circumcenter v0 v1 v2) v2 = Spec.ed2 (Tri2.circumcenter v0 v1 v2) v0 := by
  obtain ⟨h1, h2⟩ := circumcenter2_bisect v0 v1 v2 h
  simp only [Spec.ed2, h1, h2, and_self]

/-- In the plane: the orthocenter is on the three altitudes. -/
theorem C23_orthocenter2 (v0 v1 v2 : Vec2 ℝ) (h : (v1.sub v0).outer (v2.sub v0) ≠ 0) :
    ((Tri2.orthocenter v0 v1 v2).sub v0).inner (v2.sub v1) = 0 ∧
    ((Tri2.orthocenter v0 v1 v2).sub v1).inner (v0.sub v2) = 0 ∧
    ((Tri2.orthocenter v0 v1 v2).sub v2).inner (v1.sub v0) = 0 := by
  obtain ⟨h1, h2⟩ := circumcenter2_bisect ((v0.add v1).sub v2) ((v1.add v2).sub v0) ((v2.add v0).sub v1) (by
    intro h0; apply h
    simp only [zeo] at h0 ⊢
    linear_combination (1/4) * h0)
  unfold Tri2.orthocenter
  generalize Tri2.circumcenter ((v0.add v1).sub v2) ((v1.add v2).sub v0) ((v2.add v0).sub v1) = c at *
  simp only [Spec.sqd2, zeo] at h1 h2
  simp only [zeo]
  refine ⟨?_, ?_, ?_⟩
  · linear_combination -(1/4) * h2
  · linear_combination (1/4) * h1
  · linear_combination (1/4) * h2 - (1/4) * h1

/-- Satisfiability: a non-degenerate triangle. -/
example : ((⟨4, 0, 0⟩ : Vec3 ℝ).sub ⟨0, 0, 0⟩).outer ((⟨1, 3, 0⟩ : Vec3 ℝ).sub ⟨0, 0, 0⟩) ≠ .zero := by
  intro h; have := congrArg Vec3.z h; simp only [zeo] at this; norm_num at this

end Zeo
