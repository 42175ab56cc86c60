import Verif.Model.Elem
import Verif.Lemmas.Convex
import Verif.Lemmas.Rot
import Mathlib.Tactic.FinCases

/-! # C22: spheres and disks -/

namespace Zeo

/-- The solid ball. -/
def Spec.ball (c : Vec3 ℝ) (r : ℝ) : Set (Vec3 ℝ) := {q | Spec.ed c q ≤ r}
/-- The solid disk. -/
def Spec.disk (c : Vec2 ℝ) (r : ℝ) : Set (Vec2 ℝ) := {q | Spec.ed2 c q ≤ r}

private theorem sub_norm (p c : Vec3 ℝ) : (p.sub c).norm = Spec.ed c p := by
  simp only [Vec3.norm, Spec.ed, Spec.sqd, zeo]; congr 1; ring

private theorem ed_nonneg (p q : Vec3 ℝ) : 0 ≤ Spec.ed p q := Real.sqrt_nonneg _
private theorem ed_sq (p q : Vec3 ℝ) : Spec.ed p q ^ 2 = Spec.sqd p q := Real.sq_sqrt (sqd_nonneg _ _)

/-- Triangle inequality for the specification distance. -/
private theorem ed_triangle (a b c : Vec3 ℝ) : Spec.ed a c ≤ Spec.ed a b + Spec.ed b c := by
  have h1 := ed_sq a b
  have h2 := ed_sq b c
  have h3 := ed_sq a c
  have n1 := ed_nonneg a b
  have n2 := ed_nonneg b c
  -- Cauchy-Schwarz for the two difference vectors
  have cs : (a.x - b.x) * (b.x - c.x) + (a.y - b.y) * (b.y - c.y) + (a.z - b.z) * (b.z - c.z) ≤ Spec.ed a b * Spec.ed b c := by
    apply le_of_sq_le_sq' <;> [skip; positivity]
    rw [mul_pow, h1, h2]
    unfold Spec.sqd
    nlinarith [sq_nonneg ((a.x - b.x) * (b.y - c.y) - (a.y - b.y) * (b.x - c.x)), sq_nonneg ((a.y - b.y) * (b.z - c.z) - (a.z - b.z) * (b.y - c.y)),
      sq_nonneg ((a.x - b.x) * (b.z - c.z) - (a.z - b.z) * (b.x - c.x))]
  apply le_of_sq_le_sq' _ (by positivity)
  rw [h3, add_sq, h1, h2]
  unfold Spec.sqd
  nlinarith
where le_of_sq_le_sq' {x y : ℝ} (h : x^2 ≤ y^2) (hy : 0 ≤ y) : x ≤ y := by nlinarith [sq_nonneg (x - y), sq_nonneg (x+y)]

/-- The signed distance: distance to the center minus the radius. It is negative exactly inside, and
its magnitude is the distance to the nearest point of the surface. -/
theorem C22_distFromPoint (s : Sphere3 ℝ) (p : Vec3 ℝ) (hr : 0 ≤ s.radius) (hp : p ≠ s.center) :
    (s.distFromPoint p < 0 ↔ Spec.ed s.center p < s.radius) ∧
    (∀ q, Spec.ed s.center q = s.radius → |s.distFromPoint p| ≤ Spec.ed p q) ∧
    (∃ q, Spec.ed s.center q = s.radius ∧ |s.distFromPoint p| = Spec.ed p q) := by
  have e : s.distFromPoint p = Spec.ed s.center p - s.radius := by rw [Sphere3.distFromPoint, sub_norm]
  rw [e]
  have hpos : 0 < Spec.ed s.center p := by
    apply Real.sqrt_pos.2
    rcases lt_or_eq_of_le (sqd_nonneg s.center p) with h | h
    · exact h
    · exfalso; apply hp
      unfold Spec.sqd at h
      ext
      · nlinarith [sq_nonneg (s.center.x - p.x), sq_nonneg (s.center.y - p.y), sq_nonneg (s.center.z - p.z)]
      · nlinarith [sq_nonneg (s.center.x - p.x), sq_nonneg (s.center.y - p.y), sq_nonneg (s.center.z - p.z)]
      · nlinarith [sq_nonneg (s.center.x - p.x), sq_nonneg (s.center.y - p.y), sq_nonneg (s.center.z - p.z)]
  refine ⟨sub_neg, fun q hq => ?_, ?_⟩
  · rw [abs_le]
    have h1 := ed_triangle s.center p q
    have h2 := ed_triangle s.center q p
    have h3 : Spec.ed q p = Spec.ed p q := by unfold Spec.ed Spec.sqd; congr 1; ring
    rw [hq] at h1 h2
    constructor <;> linarith
  · have hsq := ed_sq s.center p
    generalize Spec.ed s.center p = l at *
    refine ⟨s.center.add ((p.sub s.center).mul (s.radius / l)), ?_, ?_⟩
    · have : Spec.sqd s.center (s.center.add ((p.sub s.center).mul (s.radius / l))) = s.radius ^ 2 := by
        have : Spec.sqd s.center (s.center.add ((p.sub s.center).mul (s.radius / l))) = (s.radius / l)^2 * Spec.sqd s.center p := by
          simp only [Spec.sqd, zeo]; ring
        rw [this, ← hsq]; field_simp
      rw [Spec.ed, this, Real.sqrt_sq hr]
    · have : Spec.sqd p (s.center.add ((p.sub s.center).mul (s.radius / l))) = (l - s.radius) ^ 2 := by
        have : Spec.sqd p (s.center.add ((p.sub s.center).mul (s.radius / l))) = (1 - s.radius / l)^2 * Spec.sqd s.center p := by
          simp only [Spec.sqd, zeo]; ring
        rw [this, ← hsq]; field_simp
      rw [Spec.ed, this, Real.sqrt_sq_eq_abs]

/-- `zSphere3DClosest` returns the nearest point of the solid ball and the signed distance; outside,
the returned value is the distance to the returned point, inside the query point itself is returned.
The excluded case (query at the center of a sphere of radius 0) divides 0/0. -/
theorem C22_closest (s : Sphere3 ℝ) (p : Vec3 ℝ) (hr : 0 ≤ s.radius) (h : 0 < s.radius ∨ p ≠ s.center) :
    Spec.IsNearest (Spec.ball s.center s.radius) p (s.closest p).2 ∧
    (s.closest p).1 = s.distFromPoint p ∧
    (Spec.ed s.center p < s.radius → (s.closest p).2 = p ∧ (s.closest p).1 < 0) ∧
    (s.radius ≤ Spec.ed s.center p → (s.closest p).1 = Spec.ed p (s.closest p).2 ∧ Spec.ed s.center (s.closest p).2 = s.radius) := by
  have hsq := ed_sq s.center p
  have hn := ed_nonneg s.center p
  have e : s.closest p = (Spec.ed s.center p - s.radius,
      if Spec.ed s.center p < s.radius then p else s.center.add ((p.sub s.center).mul (s.radius / Spec.ed s.center p))) := by
    simp only [Sphere3.closest, sub_norm]
  have e2 : s.distFromPoint p = Spec.ed s.center p - s.radius := by rw [Sphere3.distFromPoint, sub_norm]
  by_cases hin : Spec.ed s.center p < s.radius
  · rw [if_pos hin] at e
    rw [e, e2]
    refine ⟨⟨hin.le, fun q _ => ?_⟩, rfl, fun _ => ⟨rfl, by simp only; linarith⟩, fun hh => absurd hh (not_le.2 hin)⟩
    have : Spec.sqd p p = 0 := by simp [Spec.sqd]
    rw [this]; exact sqd_nonneg _ _
  · rw [if_neg hin] at e
    have hpos : 0 < Spec.ed s.center p := by
      rcases h with h | h
      · linarith [not_lt.1 hin]
      · rcases lt_or_eq_of_le hn with h' | h'
        · exact h'
        · exfalso; apply h
          have h1 := (Real.sqrt_eq_zero (sqd_nonneg s.center p)).1 h'.symm
          unfold Spec.sqd at h1
          ext
          · nlinarith [sq_nonneg (s.center.x - p.x), sq_nonneg (s.center.y - p.y), sq_nonneg (s.center.z - p.z)]
          · nlinarith [sq_nonneg (s.center.x - p.x), sq_nonneg (s.center.y - p.y), sq_nonneg (s.center.z - p.z)]
          · nlinarith [sq_nonneg (s.center.x - p.x), sq_nonneg (s.center.y - p.y), sq_nonneg (s.center.z - p.z)]
    rw [e, e2]
    have c1 : Spec.ed s.center (s.center.add ((p.sub s.center).mul (s.radius / Spec.ed s.center p))) = s.radius := by
      have : Spec.sqd s.center (s.center.add ((p.sub s.center).mul (s.radius / Spec.ed s.center p))) = s.radius ^ 2 := by
        have : Spec.sqd s.center (s.center.add ((p.sub s.center).mul (s.radius / Spec.ed s.center p))) = (s.radius / Spec.ed s.center p)^2 * Spec.sqd s.center p := by
          generalize Spec.ed s.center p = l
          simp only [Spec.sqd, zeo]; ring
        rw [this, ← hsq]; field_simp
      rw [Spec.ed, this, Real.sqrt_sq hr]
    have c2 : Spec.ed p (s.center.add ((p.sub s.center).mul (s.radius / Spec.ed s.center p))) = Spec.ed s.center p - s.radius := by
      have : Spec.sqd p (s.center.add ((p.sub s.center).mul (s.radius / Spec.ed s.center p))) = (Spec.ed s.center p - s.radius) ^ 2 := by
        have : Spec.sqd p (s.center.add ((p.sub s.center).mul (s.radius / Spec.ed s.center p))) = (1 - s.radius / Spec.ed s.center p)^2 * Spec.sqd s.center p := by
          generalize Spec.ed s.center p = l
          simp only [Spec.sqd, zeo]; ring
        rw [this, ← hsq]; field_simp
      rw [Spec.ed, this, Real.sqrt_sq (by linarith [not_lt.1 hin])]
    refine ⟨⟨c1.le, fun q hq => ?_⟩, rfl, fun hh => absurd hh hin, fun _ => ⟨c2.symm, c1⟩⟩
    have ht := ed_triangle s.center q p
    have h3 : Spec.ed q p = Spec.ed p q := by unfold Spec.ed Spec.sqd; congr 1; ring
    have hq' : Spec.ed s.center q ≤ s.radius := hq
    have : Spec.ed p (s.center.add ((p.sub s.center).mul (s.radius / Spec.ed s.center p))) ≤ Spec.ed p q := by rw [c2]; linarith
    exact (Real.sqrt_le_sqrt_iff (sqd_nonneg _ _)).1 this

/-- `zSphere3DPointIsInside` with margin `m` accepts exactly the open ball of radius `r + m`. -/
theorem C22_pointIsInside (s : Sphere3 ℝ) (p : Vec3 ℝ) (m : ℝ) :
    s.pointIsInside p m ↔ Spec.ed s.center p < s.radius + m := by
  rw [Sphere3.pointIsInside, Sphere3.distFromPoint, sub_norm, sub_lt_iff_lt_add']

theorem C22_disk (s : Disk2 ℝ) (p : Vec2 ℝ) (m : ℝ) :
    s.distFromPoint p = Spec.ed2 s.center p - s.radius ∧
    (s.pointIsInside p m ↔ Spec.ed2 s.center p < s.radius + m) := by
  refine ⟨by rw [Disk2.distFromPoint, dist_eq_ed2], ?_⟩
  rw [Disk2.pointIsInside, Disk2.distFromPoint, dist_eq_ed2, sub_lt_iff_lt_add']

/-- From two points: both on the sphere, center at the middle (so no smaller sphere contains both). -/
theorem C22_from2 (v1 v2 : Vec3 ℝ) :
    Spec.ed (Sphere3.from2 v1 v2).center v1 = (Sphere3.from2 v1 v2).radius ∧
    Spec.ed (Sphere3.from2 v1 v2).center v2 = (Sphere3.from2 v1 v2).radius ∧
    2 * (Sphere3.from2 v1 v2).radius = Spec.ed v1 v2 := by
  have h : Spec.sqd (v1.mid v2) v1 = Spec.sqd v1 v2 / 4 ∧ Spec.sqd (v1.mid v2) v2 = Spec.sqd v1 v2 / 4 := by
    constructor <;> (simp only [Spec.sqd, zeo]; ring)
  have hr : Spec.ed (v1.mid v2) v1 = Spec.ed v1 v2 / 2 := by
    rw [Spec.ed, h.1, Spec.ed, show Spec.sqd v1 v2 / 4 = Spec.sqd v1 v2 / 2^2 by norm_num, Real.sqrt_div (sqd_nonneg _ _), Real.sqrt_sq (by norm_num)]
  simp only [Sphere3.from2, dist_eq_ed]
  refine ⟨trivial, ?_, by rw [hr]; ring⟩
  rw [Spec.ed, Spec.ed, h.1, h.2]

/-- The circumcenter satisfies the two perpendicular bisector equations. -/
theorem circumcenter_bisect {K : Type*} [Field K] [CharZero K] (v0 v1 v2 : Vec3 K)
    (h : (v1.sub v0).sqrNorm * (v2.sub v0).sqrNorm - (v1.sub v0).inner (v2.sub v0) ^ 2 ≠ 0) :
    ((Tri3.circumcenter v0 v1 v2).sub v0).inner (v1.sub v0) = (v1.sub v0).sqrNorm / 2 ∧
    ((Tri3.circumcenter v0 v1 v2).sub v0).inner (v2.sub v0) = (v2.sub v0).sqrNorm / 2 ∧
    ∃ a b, (Tri3.circumcenter v0 v1 v2).sub v0 = ((v1.sub v0).mul a).add ((v2.sub v0).mul b) := by
  generalize hA : (v1.sub v0).sqrNorm = A at *
  generalize hB : (v2.sub v0).sqrNorm = B at *
  generalize hC : (v1.sub v0).inner (v2.sub v0) = C at *
  have r0 : v2.sqrDist v1 = A + B - 2 * C := by rw [← hA, ← hB, ← hC]; simp only [zeo]; ring
  have r1 : v0.sqrDist v2 = B := by rw [← hB]; simp only [zeo]; ring
  have r2 : v1.sqrDist v0 = A := by rw [← hA]; simp only [zeo]
  have hc : (Tri3.circumcenter v0 v1 v2).sub v0 =
      ((v1.sub v0).mul ((B * (A - C)) / (2 * (A * B - C^2)))).add ((v2.sub v0).mul ((A * (B - C)) / (2 * (A * B - C^2)))) := by
    unfold Tri3.circumcenter
    simp only [r0, r1, r2]
    have hW : (A + B - 2 * C) * (B + A - (A + B - 2 * C)) + B * (A + (A + B - 2 * C) - B) + A * (A + B - 2 * C + B - A) = 4 * (A * B - C^2) := by ring
    have h2 : (2 : K) ≠ 0 := two_ne_zero
    have h4 : (4 : K) ≠ 0 := by norm_num
    ext <;> simp only [Tri3.weightedCenter, hW, Vec3.sub, Vec3.add, Vec3.mul] <;> field_simp <;> ring
  rw [hc]
  have i1 : ∀ a b : K, (((v1.sub v0).mul a).add ((v2.sub v0).mul b)).inner (v1.sub v0) = a * A + b * C := by
    intro a b; rw [← hA, ← hC]; simp only [zeo]; ring
  have i2 : ∀ a b : K, (((v1.sub v0).mul a).add ((v2.sub v0).mul b)).inner (v2.sub v0) = a * C + b * B := by
    intro a b; rw [← hB, ← hC]; simp only [zeo]; ring
  refine ⟨?_, ?_, _, _, rfl⟩
  · rw [i1, div_mul_eq_mul_div, div_mul_eq_mul_div, ← add_div, div_eq_div_iff (mul_ne_zero two_ne_zero h) two_ne_zero]; ring
  · rw [i2, div_mul_eq_mul_div, div_mul_eq_mul_div, ← add_div, div_eq_div_iff (mul_ne_zero two_ne_zero h) two_ne_zero]; ring

theorem lagrange3 {K : Type*} [Field K] (a b : Vec3 K) : a.sqrNorm * b.sqrNorm - a.inner b ^ 2 = (a.outer b).sqrNorm := by
  simp only [zeo]; ring

theorem sqrNorm_ne_zero {v : Vec3 ℝ} (h : v ≠ .zero) : v.sqrNorm ≠ 0 := by
  intro h0; apply h
  simp only [zeo] at h0
  ext <;> simp only [Vec3.zero] <;> nlinarith [sq_nonneg v.x, sq_nonneg v.y, sq_nonneg v.z]

/-- From three non-collinear points: the sphere passes through them. -/
theorem C22_from3 (v1 v2 v3 : Vec3 ℝ) (h : (v2.sub v1).outer (v3.sub v1) ≠ .zero) :
    Spec.ed (Sphere3.from3 v1 v2 v3).center v1 = (Sphere3.from3 v1 v2 v3).radius ∧
    Spec.ed (Sphere3.from3 v1 v2 v3).center v2 = (Sphere3.from3 v1 v2 v3).radius ∧
    Spec.ed (Sphere3.from3 v1 v2 v3).center v3 = (Sphere3.from3 v1 v2 v3).radius := by
  obtain ⟨h1, h2, -⟩ := circumcenter_bisect v1 v2 v3 (by rw [lagrange3]; exact sqrNorm_ne_zero h)
  simp only [Sphere3.from3, dist_eq_ed]
  generalize Tri3.circumcenter v1 v2 v3 = c at *
  have e2 : Spec.sqd c v2 = Spec.sqd c v1 := by
    simp only [Spec.sqd]; simp only [zeo] at h1; linear_combination -2 * h1
  have e3 : Spec.sqd c v3 = Spec.sqd c v1 := by
    simp only [Spec.sqd]; simp only [zeo] at h2; linear_combination -2 * h2
  simp only [Spec.ed, e2, e3, and_self]

/-- From four non-coplanar points: the sphere exists and passes through them. -/
theorem C22_from4 (v1 v2 v3 v4 : Vec3 ℝ) (h : (v2.sub v1).inner ((v3.sub v1).outer (v4.sub v1)) ≠ 0) :
    ∃ s, Sphere3.from4 v1 v2 v3 v4 = some s ∧ Spec.ed s.center v1 = s.radius ∧ Spec.ed s.center v2 = s.radius ∧
      Spec.ed s.center v3 = s.radius ∧ Spec.ed s.center v4 = s.radius := by
  have hg : Vec3.grassmann (v2.sub v1) (v3.sub v1) (v4.sub v1) = (v2.sub v1).inner ((v3.sub v1).outer (v4.sub v1)) := by
    simp only [zeo]
  generalize ha : v2.sub v1 = a at *
  generalize hb : v3.sub v1 = b at *
  generalize hc : v4.sub v1 = c at *
  have hcc : Tri3.coneCircumcenter a b c = (true, (((Vec3.zero.cat a.sqrNorm (b.outer c)).cat b.sqrNorm (c.outer a)).cat c.sqrNorm (a.outer b)).mul (1 / (2 * Vec3.grassmann a b c))) := by
    have : 2 * Vec3.grassmann a b c ≠ 0 := by rw [hg]; exact mul_ne_zero two_ne_zero h
    simp only [Tri3.coneCircumcenter, Vec3.div, if_neg this]
  have key : ∀ q : Vec3 ℝ, (Tri3.coneCircumcenter a b c).2 = q → q.inner a = a.sqrNorm / 2 ∧ q.inner b = b.sqrNorm / 2 ∧ q.inner c = c.sqrNorm / 2 := by
    intro q hq
    rw [← hq, hcc]
    simp only
    have hd : Vec3.grassmann a b c ≠ 0 := by rw [hg]; exact h
    have m : ∀ w x : Vec3 ℝ, (w.mul (1 / (2 * Vec3.grassmann a b c))).inner x = w.inner x / (2 * Vec3.grassmann a b c) := by
      intro w x
      generalize 2 * Vec3.grassmann a b c = D
      simp only [Vec3.mul, Vec3.inner]; ring
    have n1 : (((Vec3.zero.cat a.sqrNorm (b.outer c)).cat b.sqrNorm (c.outer a)).cat c.sqrNorm (a.outer b)).inner a = a.sqrNorm * Vec3.grassmann a b c := by
      simp only [zeo]; ring
    have n2 : (((Vec3.zero.cat a.sqrNorm (b.outer c)).cat b.sqrNorm (c.outer a)).cat c.sqrNorm (a.outer b)).inner b = b.sqrNorm * Vec3.grassmann a b c := by
      simp only [zeo]; ring
    have n3 : (((Vec3.zero.cat a.sqrNorm (b.outer c)).cat b.sqrNorm (c.outer a)).cat c.sqrNorm (a.outer b)).inner c = c.sqrNorm * Vec3.grassmann a b c := by
      simp only [zeo]; ring
    rw [m, m, m, n1, n2, n3]
    refine ⟨?_, ?_, ?_⟩ <;> field_simp
  have hok : (Tri3.coneCircumcenter a b c).1 = true := by rw [hcc]
  obtain ⟨k1, k2, k3⟩ := key _ rfl
  refine ⟨⟨(Tri3.coneCircumcenter a b c).2.add v1, (Tri3.coneCircumcenter a b c).2.norm⟩, ?_, ?_⟩
  · simp only [Sphere3.from4, ha, hb, hc]
    rw [if_pos hok]
  · generalize (Tri3.coneCircumcenter a b c).2 = q at *
    have r : q.norm = Spec.ed (q.add v1) v1 := by
      simp only [Vec3.norm, Spec.ed, Spec.sqd, zeo]; congr 1; ring
    dsimp only
    rw [r]
    subst ha hb hc
    refine ⟨rfl, ?_, ?_, ?_⟩
    · unfold Spec.ed; congr 1
      simp only [Spec.sqd]; simp only [zeo] at k1 ⊢; linear_combination -2 * k1
    · unfold Spec.ed; congr 1
      simp only [Spec.sqd]; simp only [zeo] at k2 ⊢; linear_combination -2 * k2
    · unfold Spec.ed; congr 1
      simp only [Spec.sqd]; simp only [zeo] at k3 ⊢; linear_combination -2 * k3

/-- Coplanar points: `zSphere3DFrom4` dereferences NULL. -/
theorem C22_from4_coplanar (v1 v2 v3 v4 : Vec3 ℝ) (h : (v2.sub v1).inner ((v3.sub v1).outer (v4.sub v1)) = 0) :
    Sphere3.from4 v1 v2 v3 v4 = none := by
  have : 2 * Vec3.grassmann (v2.sub v1) (v3.sub v1) (v4.sub v1) = 0 := by
    simp only [zeo] at h ⊢; linear_combination 2 * h
  simp only [Sphere3.from4, Tri3.coneCircumcenter, Vec3.div, if_pos this]
  simp

/-- Disk from two points. -/
theorem C22_disk_from2 (v1 v2 : Vec2 ℝ) :
    Spec.ed2 (Disk2.from2 v1 v2).center v1 = (Disk2.from2 v1 v2).radius ∧
    Spec.ed2 (Disk2.from2 v1 v2).center v2 = (Disk2.from2 v1 v2).radius := by
  have h : Spec.sqd2 (v1.mid v2) v1 = Spec.sqd2 v1 v2 / 4 ∧ Spec.sqd2 (v1.mid v2) v2 = Spec.sqd2 v1 v2 / 4 := by
    constructor <;> (simp only [Spec.sqd2, zeo]; ring)
  simp only [Disk2.from2, dist_eq_ed2]
  exact ⟨trivial, by rw [Spec.ed2, Spec.ed2, h.1, h.2]⟩

/-- The circumcenter in the plane is equidistant. -/
theorem circumcenter2_bisect (v0 v1 v2 : Vec2 ℝ) (h : (v1.sub v0).outer (v2.sub v0) ≠ 0) :
    Spec.sqd2 (Tri2.circumcenter v0 v1 v2) v1 = Spec.sqd2 (Tri2.circumcenter v0 v1 v2) v0 ∧
    Spec.sqd2 (Tri2.circumcenter v0 v1 v2) v2 = Spec.sqd2 (Tri2.circumcenter v0 v1 v2) v0 := by
  -- embed in space
  have e : (Tri3.circumcenter ⟨v0.x, v0.y, 0⟩ ⟨v1.x, v1.y, 0⟩ ⟨v2.x, v2.y, 0⟩ : Vec3 ℝ) =
      ⟨(Tri2.circumcenter v0 v1 v2).x, (Tri2.circumcenter v0 v1 v2).y, 0⟩ := by
    have s : ∀ a b : Vec2 ℝ, (⟨a.x, a.y, 0⟩ : Vec3 ℝ).sqrDist ⟨b.x, b.y, 0⟩ = a.sqrDist b := by intro a b; simp only [zeo]; ring
    simp only [Tri3.circumcenter, Tri2.circumcenter, s, Tri3.weightedCenter, Tri2.weightedCenter]
    ext <;> simp
  obtain ⟨h1, h2, -⟩ := circumcenter_bisect (⟨v0.x, v0.y, 0⟩ : Vec3 ℝ) ⟨v1.x, v1.y, 0⟩ ⟨v2.x, v2.y, 0⟩ (by
    rw [lagrange3]
    have : ((Vec3.sub ⟨v1.x, v1.y, 0⟩ ⟨v0.x, v0.y, 0⟩).outer (Vec3.sub ⟨v2.x, v2.y, 0⟩ ⟨v0.x, v0.y, 0⟩) : Vec3 ℝ).sqrNorm = ((v1.sub v0).outer (v2.sub v0))^2 := by
      simp only [zeo]; ring
    rw [this]; exact pow_ne_zero 2 h)
  rw [e] at h1 h2
  generalize Tri2.circumcenter v0 v1 v2 = c at *
  simp only [zeo] at h1 h2
  constructor
  · simp only [Spec.sqd2]; linear_combination -2 * h1
  · simp only [Spec.sqd2]; linear_combination -2 * h2

theorem C22_disk_from3 (v1 v2 v3 : Vec2 ℝ) (h : (v2.sub v1).outer (v3.sub v1) ≠ 0) :
    Spec.ed2 (Disk2.from3 v1 v2 v3).center v1 = (Disk2.from3 v1 v2 v3).radius ∧
    Spec.ed2 (Disk2.from3 v1 v2 v3).center v2 = (Disk2.from3 v1 v2 v3).radius ∧
    Spec.ed2 (Disk2.from3 v1 v2 v3).center v3 = (Disk2.from3 v1 v2 v3).radius := by
  obtain ⟨h1, h2⟩ := circumcenter2_bisect v1 v2 v3 h
  simp only [Disk2.from3, dist_eq_ed2, Spec.ed2, h1, h2, and_self]

/-- Frame changes keep the signed distance. -/
theorem C22_xform (s : Sphere3 ℝ) (f : Frame3 ℝ) (p : Vec3 ℝ) (hf : f.att.IsRot) :
    (s.xform f).distFromPoint (f.xform p) = s.distFromPoint p := by
  simp only [Sphere3.distFromPoint, Sphere3.xform]
  have : ((f.xform p).sub (f.xform s.center)).sqrNorm = (p.sub s.center).sqrNorm := by
    obtain ⟨c1, c2, c3, c4, c5, c6⟩ := hf.cols
    simp only [zeo]
    grind
  rw [Vec3.norm, this]; rfl

/-- Satisfiability of the independence hypotheses. -/
example : ((⟨1, 0, 0⟩ : Vec3 ℝ).sub ⟨0, 0, 0⟩).inner (((⟨0, 1, 0⟩ : Vec3 ℝ).sub ⟨0, 0, 0⟩).outer ((⟨0, 0, 1⟩ : Vec3 ℝ).sub ⟨0, 0, 0⟩)) ≠ 0 := by
  simp only [zeo]; norm_num
example : ((⟨1, 0, 0⟩ : Vec3 ℝ).sub ⟨0, 0, 0⟩).outer ((⟨0, 1, 0⟩ : Vec3 ℝ).sub ⟨0, 0, 0⟩) ≠ .zero := by
  intro h; have := congrArg Vec3.z h; simp only [zeo] at this; norm_num at this

end Zeo
