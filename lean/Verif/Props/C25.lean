import Verif.Model.Shape
import Verif.Lemmas.Revolve

/-! # C25: cylinder, cone and capsule distance queries -/

namespace Zeo

private theorem far_of_sub {u v : Vec3 ℝ} {a : Vec3 ℝ} {L : ℝ} (h : v.sub u = a.mul L) : v = u.cat L a := by
  have hx := congrArg Vec3.x h
  have hy := congrArg Vec3.y h
  have hz := congrArg Vec3.z h
  simp only [zeo] at hx hy hz
  ext <;> simp only [zeo] <;> linarith

private theorem ed_cylPt (c a s : Vec3 ℝ) (d : ℝ) : Spec.ed (c.cat d a) (cylPt c a d s) = s.norm := by
  simp only [Spec.ed, Spec.sqd, cylPt, Vec3.norm, zeo]; congr 1; ring

/-- The cylinder in coordinates along and across a unit axis. -/
private theorem cylinder_iff {u v a : Vec3 ℝ} {L R : ℝ} (ha : a.inner a = 1) (hL : 0 < L) (hv : v = u.cat L a) (q : Vec3 ℝ) :
    q ∈ Spec.cylinder u v R ↔ ∃ d s, q = cylPt u a d s ∧ a.inner s = 0 ∧ (0 ≤ d ∧ d ≤ L ∧ s.norm ≤ R) := by
  constructor
  · rintro ⟨m, ⟨α, β, hα, hβ, hs, rfl⟩, hp, he⟩
    have hm : Spec.comb α β 0 0 u v u u = u.cat (β * L) a := by
      have : α = 1 - β := by linarith
      subst this hv
      ext <;> simp only [Spec.comb, zeo] <;> ring
    rw [hm] at hp he
    have hq : q = cylPt u a (β * L) (q.sub (u.cat (β * L) a)) := by
      ext <;> simp only [cylPt, zeo] <;> ring
    refine ⟨β * L, q.sub (u.cat (β * L) a), hq, ?_, by positivity, by nlinarith, ?_⟩
    · have : L * a.inner (q.sub (u.cat (β * L) a)) = 0 := by
        rw [← hp, hv]; simp only [zeo]; ring
      exact (mul_eq_zero.1 this).resolve_left hL.ne'
    · rw [Vec3.norm_eq_ed]; exact he
  · rintro ⟨d, s, rfl, hs, h0, h1, h2⟩
    have hm : Spec.comb (1 - d / L) (d / L) 0 0 u v u u = u.cat d a := by
      subst hv
      ext <;> simp only [Spec.comb, zeo] <;> field_simp <;> ring
    refine ⟨u.cat d a, ⟨1 - d / L, d / L, ?_, by positivity, by ring, hm.symm⟩, ?_, ?_⟩
    · have : d / L ≤ 1 := (div_le_one hL).2 h1
      linarith
    · subst hv
      simp only [Spec.Perp, cylPt, zeo] at *
      linear_combination L * hs
    · rw [ed_cylPt]; exact h2

/-- The cone in coordinates along and across a unit axis. -/
private theorem cone_iff {u v a : Vec3 ℝ} {L R : ℝ} (ha : a.inner a = 1) (hL : 0 < L) (hv : v = u.cat L a) (q : Vec3 ℝ) :
    q ∈ Spec.cone u v R ↔ ∃ d s, q = cylPt u a d s ∧ a.inner s = 0 ∧ (0 ≤ d ∧ d ≤ L ∧ L * s.norm ≤ (L - d) * R) := by
  constructor
  · rintro ⟨α, β, hα, hβ, hs, hp, he⟩
    have hm : Spec.comb α β 0 0 u v u u = u.cat (β * L) a := by
      have : α = 1 - β := by linarith
      subst this hv
      ext <;> simp only [Spec.comb, zeo] <;> ring
    rw [hm] at hp he
    have hq : q = cylPt u a (β * L) (q.sub (u.cat (β * L) a)) := by
      ext <;> simp only [cylPt, zeo] <;> ring
    refine ⟨β * L, q.sub (u.cat (β * L) a), hq, ?_, by positivity, by nlinarith, ?_⟩
    · have : L * a.inner (q.sub (u.cat (β * L) a)) = 0 := by
        rw [← hp, hv]; simp only [zeo]; ring
      exact (mul_eq_zero.1 this).resolve_left hL.ne'
    · rw [Vec3.norm_eq_ed]
      have : α = 1 - β := by linarith
      subst this
      calc L * Spec.ed (u.cat (β * L) a) q ≤ L * ((1 - β) * R) := mul_le_mul_of_nonneg_left he hL.le
        _ = (L - β * L) * R := by ring
  · rintro ⟨d, s, rfl, hs, h0, h1, h2⟩
    have hm : Spec.comb (1 - d / L) (d / L) 0 0 u v u u = u.cat d a := by
      subst hv
      ext <;> simp only [Spec.comb, zeo] <;> field_simp <;> ring
    refine ⟨1 - d / L, d / L, ?_, by positivity, by ring, ?_, ?_⟩
    · have : d / L ≤ 1 := (div_le_one hL).2 h1
      linarith
    · rw [hm]; subst hv
      simp only [Spec.Perp, cylPt, zeo] at *
      linear_combination L * hs
    · rw [hm, ed_cylPt]
      have : (1 - d / L) * R = (L - d) * R / L := by field_simp
      rw [this, le_div_iff₀ hL]; linarith

private theorem ed_of_sqd {p q : Vec3 ℝ} {x : ℝ} (hx : 0 ≤ x) (h : Spec.sqd p q = x ^ 2) : x = Spec.ed p q := by
  rw [Spec.ed, h, Real.sqrt_sq hx]

/-! ## Cylinder -/

/-- `zCyl3DClosest`: for every cylinder whose axis is not tiny and every query point, the point put
out is a nearest point of the solid cylinder, and the magnitude of the return value is the distance
to it.  The returned sign is right except for a query point above the top base and within its
rim, for which minus the distance is returned (`C25_cyl_negative_distance`). -/
theorem C25_cyl_closest_partial {τ : ℝ} (hτ : 0 ≤ τ) (c : Cyl ℝ) (hR : 0 ≤ c.radius) (hc : ¬ c.axis.isTol τ) (p : Vec3 ℝ) :
    Spec.IsNearest (Spec.cylinder c.c0 c.c1 c.radius) p (c.closest τ p).2 ∧
    |(c.closest τ p).1| = Spec.ed p (c.closest τ p).2 := by
  obtain ⟨hl, -, ha, hax⟩ := axis_normalize hτ (old := c.axis) hc
  unfold Cyl.closest Cyl.prep
  dsimp only
  revert hl ha hax
  generalize (c.axis.normalize τ c.axis).1 = L
  generalize (c.axis.normalize τ c.axis).2 = a
  intro hl ha hax
  have hv : c.c1 = c.c0.cat L a := far_of_sub hax
  rw [outerNorm_radial c.c0 a p ha]
  have hp := cylPt_decomp c.c0 a p
  have hs := inner_radial c.c0 a p ha
  have hcat : (p.sub c.c0).sub (a.mul (a.inner (p.sub c.c0))) = (p.sub c.c0).cat (-(a.inner (p.sub c.c0))) a := by
    ext <;> simp only [zeo] <;> ring
  rw [hcat]
  revert hp hs
  generalize (p.sub c.c0).cat (-(a.inner (p.sub c.c0))) a = s
  generalize a.inner (p.sub c.c0) = d
  intro hp hs
  subst hp
  have mem := cylinder_iff (R := c.radius) ha hl hv
  have hn := s.norm_nonneg
  have near := fun dt k hx hmin => nearest_revolve (S := Spec.cylinder c.c0 c.c1 c.radius) (c := c.c0) (a := a) (sp := s) (dp := d)
    (dt := dt) (k := k) (fun d r => 0 ≤ d ∧ d ≤ L ∧ r ≤ c.radius) ha hs (fun q hq => (mem q).1 hq) hx hmin
  have hsm : ∀ k, a.inner (s.mul k) = 0 := fun k => by simp only [zeo] at *; linear_combination k * hs
  by_cases hd : 0 ≤ d ∧ d ≤ L
  · rw [if_pos hd]
    by_cases hr : s.norm ≤ c.radius
    · rw [if_pos hr]
      have h1 : s.mul 1 = s := by ext <;> simp only [zeo] <;> ring
      have := near d 1 ((mem _).2 ⟨d, s.mul 1, rfl, hsm 1, hd.1, hd.2, by rw [h1]; exact hr⟩) (by
        intro d' r' _ _; nlinarith [sq_nonneg (d - d'), sq_nonneg (s.norm - r')])
      rw [h1] at this
      refine ⟨this.1, ?_⟩
      simp [Spec.ed, Spec.sqd]
    · rw [if_neg hr]
      push Not at hr
      have hpos : 0 < s.norm := lt_of_le_of_lt hR hr
      have e : (cylPt c.c0 a d s).cat (-(s.norm - c.radius) / s.norm) s = cylPt c.c0 a d (s.mul (c.radius / s.norm)) := by
        ext <;> simp only [cylPt, zeo] <;> field_simp <;> ring
      have hk : c.radius / s.norm * s.norm = c.radius := by field_simp
      have := near d (c.radius / s.norm)
        ((mem _).2 ⟨d, _, rfl, hsm _, hd.1, hd.2, by rw [Vec3.norm_mul_nonneg _ (by positivity), hk]⟩) (by
          rintro d' r' h0 ⟨-, -, h3⟩
          rw [hk]
          nlinarith [sq_nonneg (d - d')])
      simp only [e]
      refine ⟨this.1, ?_⟩
      rw [abs_of_pos (by linarith)]
      exact ed_of_sqd (by linarith) (by rw [this.2, hk]; ring)
  · rw [if_neg hd]
    -- the axial coordinate of the nearest base, and its center
    have hcase : ∃ t, (if L < d then d - L else d) = d - t ∧ (if L < d then c.c1 else c.c0) = c.c0.cat t a ∧ 0 ≤ t ∧ t ≤ L ∧
        ∀ d', 0 ≤ d' → d' ≤ L → (d - t)^2 ≤ (d - d')^2 := by
      by_cases h : L < d
      · refine ⟨L, by rw [if_pos h], by rw [if_pos h, hv], hl.le, le_refl _, fun d' _ h2 => by nlinarith⟩
      · have : d < 0 := by
          by_contra hc'; exact hd ⟨not_lt.1 hc', not_lt.1 h⟩
        refine ⟨0, by rw [if_neg h]; ring, by rw [if_neg h]; ext <;> simp only [zeo] <;> ring, le_refl _, hl.le, fun d' h1 _ => by nlinarith⟩
    obtain ⟨t, e1, e2, ht0, ht1, hmin⟩ := hcase
    rw [e1, e2]
    by_cases hr : s.norm ≤ c.radius
    · rw [if_pos hr]
      have h1 : s.mul 1 = s := by ext <;> simp only [zeo] <;> ring
      have e : (cylPt c.c0 a d s).cat (-(d - t)) a = cylPt c.c0 a t (s.mul 1) := by
        ext <;> simp only [cylPt, zeo] <;> ring
      have := near t 1 ((mem _).2 ⟨t, s.mul 1, rfl, hsm 1, ht0, ht1, by rw [h1]; exact hr⟩) (by
        rintro d' r' _ ⟨h2, h3, _⟩
        have := hmin d' h2 h3
        nlinarith [sq_nonneg (s.norm - r')])
      simp only [e]
      refine ⟨this.1, ?_⟩
      rw [abs_neg]
      exact ed_of_sqd (abs_nonneg _) (by rw [this.2, sq_abs]; ring)
    · rw [if_neg hr]
      push Not at hr
      have hpos : 0 < s.norm := lt_of_le_of_lt hR hr
      have e : (c.c0.cat t a).cat (c.radius / s.norm) (((cylPt c.c0 a d s).cat (-(d - t)) a).sub (c.c0.cat t a)) =
          cylPt c.c0 a t (s.mul (c.radius / s.norm)) := by
        ext <;> simp only [cylPt, zeo] <;> ring
      have hk : c.radius / s.norm * s.norm = c.radius := by field_simp
      have := near t (c.radius / s.norm)
        ((mem _).2 ⟨t, _, rfl, hsm _, ht0, ht1, by rw [Vec3.norm_mul_nonneg _ (by positivity), hk]⟩) (by
          rintro d' r' h0 ⟨h2, h3, h4⟩
          rw [hk]
          have := hmin d' h2 h3
          nlinarith)
      simp only [e]
      refine ⟨this.1, ?_⟩
      rw [abs_of_nonneg (Real.sqrt_nonneg _), Spec.ed, this.2, hk]
      congr 1; ring

/-- A cylinder meeting the hypotheses of the theorems of this file. -/
private noncomputable def cyl1 : Cyl ℝ := ⟨⟨0,0,0⟩, ⟨0,0,2⟩, 1⟩
private theorem cyl1_ok : ¬ cyl1.axis.isTol (1/1000) := by
  simp only [Vec3.isTol, zIsTol, Cyl.axis, cyl1, zeo]; norm_num

example : Spec.IsNearest (Spec.cylinder cyl1.c0 cyl1.c1 cyl1.radius) ⟨3,0,1⟩ (Cyl.closest (1/1000) cyl1 ⟨3,0,1⟩).2 :=
  (C25_cyl_closest_partial (τ := 1/1000) (by norm_num) cyl1 (by norm_num [cyl1]) cyl1_ok ⟨3,0,1⟩).1

/-- The query point is strictly beyond the top base, within the rim of the cylinder. -/
def Spec.AboveTop (c0 c1 : Vec3 ℝ) (R : ℝ) (p : Vec3 ℝ) : Prop :=
  ∃ t, 1 < t ∧ Spec.Perp (Spec.comb (1 - t) t 0 0 c0 c1 c0 c0) p c0 c1 ∧
    Spec.ed (Spec.comb (1 - t) t 0 0 c0 c1 c0 c0) p ≤ R

/-- The return value of `zCyl3DClosest` is the (non-negative) distance to the point put out, except
above the top base, where it is minus that distance, hence negative. -/
theorem C25_cyl_return {τ : ℝ} (hτ : 0 ≤ τ) (c : Cyl ℝ) (hR : 0 ≤ c.radius) (hc : ¬ c.axis.isTol τ) (p : Vec3 ℝ) :
    (¬ Spec.AboveTop c.c0 c.c1 c.radius p → (c.closest τ p).1 = Spec.ed p (c.closest τ p).2) ∧
    (Spec.AboveTop c.c0 c.c1 c.radius p →
      (c.closest τ p).1 = -Spec.ed p (c.closest τ p).2 ∧ (c.closest τ p).1 < 0) := by
  have main := (C25_cyl_closest_partial hτ c hR hc p).2
  have above : Spec.AboveTop c.c0 c.c1 c.radius p ↔ (c.prep τ p).l < (c.prep τ p).d ∧ (c.prep τ p).r ≤ c.radius := by
    obtain ⟨hl, -, ha, hax⟩ := axis_normalize hτ (old := c.axis) hc
    unfold Cyl.prep
    dsimp only
    revert hl ha hax
    generalize (c.axis.normalize τ c.axis).1 = L
    generalize (c.axis.normalize τ c.axis).2 = a
    intro hl ha hax
    have hv : c.c1 = c.c0.cat L a := far_of_sub hax
    rw [outerNorm_radial c.c0 a p ha]
    have hm : ∀ t, Spec.comb (1 - t) t 0 0 c.c0 c.c1 c.c0 c.c0 = c.c0.cat (t * L) a := by
      intro t; rw [hv]; ext <;> simp only [Spec.comb, zeo] <;> ring
    constructor
    · rintro ⟨t, ht, hperp, he⟩
      rw [hm] at hperp he
      have hd : a.inner (p.sub c.c0) = t * L := by
        rw [hv] at hperp
        simp only [Spec.Perp, zeo] at *
        have : L * (a.x * (p.x - c.c0.x) + a.y * (p.y - c.c0.y) + a.z * (p.z - c.c0.z) - t * L) = 0 := by
          linear_combination hperp + t * L^2 * ha
        linarith [(mul_eq_zero.1 this).resolve_left hl.ne']
      rw [hd]
      refine ⟨by nlinarith, ?_⟩
      have : (p.sub c.c0).cat (-(t * L)) a = p.sub (c.c0.cat (t * L) a) := by
        ext <;> simp only [zeo] <;> ring
      rw [this, Vec3.norm_eq_ed]; exact he
    · rintro ⟨h1, h2⟩
      refine ⟨a.inner (p.sub c.c0) / L, (one_lt_div hl).2 h1, ?_, ?_⟩
      · rw [hm, div_mul_cancel₀ _ hl.ne', hv]
        simp only [Spec.Perp, zeo] at *
        linear_combination -L * (a.x * (p.x - c.c0.x) + a.y * (p.y - c.c0.y) + a.z * (p.z - c.c0.z)) * ha
      · rw [hm, div_mul_cancel₀ _ hl.ne', ← Vec3.norm_eq_ed]
        have : p.sub (c.c0.cat (a.inner (p.sub c.c0)) a) = (p.sub c.c0).cat (-(a.inner (p.sub c.c0))) a := by
          ext <;> simp only [zeo] <;> ring
        rw [this]; exact h2
  rw [above]
  rw [← main]
  have hl : 0 < (c.prep τ p).l := (axis_normalize hτ (old := c.axis) hc).1
  constructor
  · intro h
    refine (abs_of_nonneg ?_).symm
    unfold Cyl.closest
    dsimp only
    by_cases hd : 0 ≤ (c.prep τ p).d ∧ (c.prep τ p).d ≤ (c.prep τ p).l
    · rw [if_pos hd]
      split_ifs with hr
      · exact le_refl _
      · simp only; linarith
    · rw [if_neg hd]
      by_cases hr : (c.prep τ p).r ≤ c.radius
      · rw [if_pos hr]
        have h1 : ¬ (c.prep τ p).l < (c.prep τ p).d := fun hh => h ⟨hh, hr⟩
        rw [if_neg h1]
        have : (c.prep τ p).d < 0 := by
          by_contra hc'; exact hd ⟨not_lt.1 hc', not_lt.1 h1⟩
        simp only; linarith
      · rw [if_neg hr]; exact Real.sqrt_nonneg _
  · rintro ⟨h1, h2⟩
    have e : (c.closest τ p).1 = -((c.prep τ p).d - (c.prep τ p).l) := by
      unfold Cyl.closest
      dsimp only
      rw [if_neg (by intro hh; linarith [hh.2]), if_pos h2, if_pos h1]
    rw [e]
    have : -((c.prep τ p).d - (c.prep τ p).l) < 0 := by linarith
    exact ⟨by rw [abs_of_neg this]; ring, this⟩

/-- The defect is reachable: above the top of an ordinary cylinder `zCyl3DClosest` and
`zCyl3DDistFromPoint` return a negative number. -/
theorem C25_cyl_negative_distance : ∃ (c : Cyl ℝ) (p : Vec3 ℝ), 0 < c.radius ∧ ¬ c.axis.isTol (1/1000) ∧
    p ∉ Spec.cylinder c.c0 c.c1 c.radius ∧ (c.closest (1/1000) p).1 < 0 ∧ c.distFromPoint (1/1000) p < 0 := by
  have hab : Spec.AboveTop cyl1.c0 cyl1.c1 cyl1.radius ⟨0,0,5⟩ := by
    refine ⟨5/2, by norm_num, ?_, ?_⟩
    · simp only [Spec.Perp, Spec.comb, cyl1]; norm_num
    · simp only [Spec.ed, Spec.sqd, Spec.comb, cyl1]; norm_num
  have h := (C25_cyl_return (τ := 1/1000) (by norm_num) cyl1 (by norm_num [cyl1]) cyl1_ok ⟨0,0,5⟩).2 hab
  refine ⟨cyl1, ⟨0,0,5⟩, by norm_num [cyl1], cyl1_ok, ?_, h.2, ?_⟩
  · rintro ⟨m, ⟨α, β, h1, h2, h3, rfl⟩, hp, -⟩
    simp only [Spec.Perp, Spec.comb, cyl1] at hp
    linarith
  · have : Cyl.distFromPoint (1/1000) cyl1 ⟨0,0,5⟩ = (cyl1.closest (1/1000) ⟨0,0,5⟩).1 := by
      unfold Cyl.distFromPoint Cyl.closest
      dsimp only
      split_ifs <;> rfl
    rw [this]; exact h.2

/-- `zCyl3DDistFromPoint` returns what `zCyl3DClosest` returns: so, by `C25_cyl_return`, the distance to
the solid except above the top base. -/
theorem C25_cyl_dist (τ : ℝ) (c : Cyl ℝ) (p : Vec3 ℝ) : c.distFromPoint τ p = (c.closest τ p).1 := by
  unfold Cyl.distFromPoint Cyl.closest
  dsimp only
  split_ifs <;> rfl

/-- A cylinder whose base centers coincide contains only a disk, yet every query point is reported
to be at distance 0 from it, as its own closest point. -/
theorem C25_cyl_degenerate {τ : ℝ} (hτ : 0 ≤ τ) (u p : Vec3 ℝ) {R : ℝ} (hR : 0 ≤ R) :
    Cyl.closest τ ⟨u, u, R⟩ p = (0, p) := by
  have hax : Cyl.axis ⟨u, u, R⟩ = Vec3.zero := by ext <;> simp only [Cyl.axis, zeo] <;> ring
  have ht : (Vec3.zero : Vec3 ℝ).isTol τ := by
    simp only [Vec3.isTol, zIsTol, zeo, abs_zero]; exact ⟨hτ, hτ, hτ⟩
  have hn : (Vec3.zero : Vec3 ℝ).normalize τ Vec3.zero = (0, Vec3.zero) := by rw [Vec3.normalize, if_pos ht]
  have h1 : (Vec3.zero : Vec3 ℝ).inner (p.sub u) = 0 := by simp only [zeo]; ring
  have h2 : (p.sub u).outerNorm Vec3.zero = 0 := by
    have : (p.sub u).outer Vec3.zero = Vec3.zero := by ext <;> simp only [zeo] <;> ring
    rw [Vec3.outerNorm, this, Vec3.norm]; simp [zeo]
  unfold Cyl.closest Cyl.prep
  dsimp only
  rw [hax, hn]
  dsimp only
  rw [h1, h2, if_pos ⟨le_refl _, le_refl _⟩, if_pos hR]

/-- `zCyl3DPointIsInside` in terms of distances from the solid: with margin 0 it accepts only points
of the solid; with any margin it accepts every point nearer to the solid than the margin; and
every point it accepts is nearer than `√2` times the margin (the accepted region is a larger
cylinder, not a rounded one). -/
theorem C25_cyl_inside {τ : ℝ} (hτ : 0 ≤ τ) (c : Cyl ℝ) (hR : 0 ≤ c.radius) (hc : ¬ c.axis.isTol τ) (p : Vec3 ℝ) :
    (c.pointIsInside τ p 0 → p ∈ Spec.cylinder c.c0 c.c1 c.radius) ∧
    (∀ margin q, q ∈ Spec.cylinder c.c0 c.c1 c.radius → Spec.ed p q < margin → c.pointIsInside τ p margin) ∧
    (∀ margin, 0 < margin → c.pointIsInside τ p margin →
      ∃ q ∈ Spec.cylinder c.c0 c.c1 c.radius, Spec.sqd p q < 2 * margin^2) := by
  obtain ⟨hl, -, ha, hax⟩ := axis_normalize hτ (old := c.axis) hc
  unfold Cyl.pointIsInside Cyl.prep
  dsimp only
  revert hl ha hax
  generalize (c.axis.normalize τ c.axis).1 = L
  generalize (c.axis.normalize τ c.axis).2 = a
  intro hl ha hax
  have hv : c.c1 = c.c0.cat L a := far_of_sub hax
  rw [outerNorm_radial c.c0 a p ha]
  have hp := cylPt_decomp c.c0 a p
  have hs := inner_radial c.c0 a p ha
  revert hp hs
  generalize (p.sub c.c0).cat (-(a.inner (p.sub c.c0))) a = s
  generalize a.inner (p.sub c.c0) = d
  intro hp hs
  subst hp
  have mem := cylinder_iff (R := c.radius) ha hl hv
  have hn := s.norm_nonneg
  have hsm : ∀ k, a.inner (s.mul k) = 0 := fun k => by simp only [zeo] at *; linear_combination k * hs
  refine ⟨?_, ?_, ?_⟩
  · intro h
    split_ifs at h with h1
    refine (mem _).2 ⟨d, s, rfl, hs, ?_, ?_, ?_⟩ <;> linarith [h.1, h.2]
  · intro m q hq hd
    obtain ⟨d', s', rfl, hs', h0, h1, h2⟩ := (mem q).1 hq
    have hm : 0 < m := lt_of_le_of_lt (Real.sqrt_nonneg _) hd
    have hsq : Spec.sqd (cylPt c.c0 a d s) (cylPt c.c0 a d' s') < m^2 := by
      rw [Spec.ed, Real.sqrt_lt' hm] at hd; exact hd
    rw [cylPt_sqd ha hs hs'] at hsq
    have h3 := sub_sqrNorm_ge s s'
    have k1 : (d - d')^2 < m^2 := by nlinarith [sq_nonneg (s.norm - s'.norm)]
    have k2 : (s.norm - s'.norm)^2 < m^2 := by nlinarith [sq_nonneg (d - d')]
    have k1' := abs_lt_of_sq_lt_sq' k1 hm.le
    have k2' := abs_lt_of_sq_lt_sq' k2 hm.le
    rw [if_neg (by push Not; linarith [k2'.2])]
    exact ⟨by linarith [k1'.1], by linarith [k1'.2]⟩
  · intro m hm h
    split_ifs at h with h1
    push Not at h1
    -- clamp the axial coordinate and shrink the radial vector
    have hd : ∃ t, 0 ≤ t ∧ t ≤ L ∧ (d - t)^2 < m^2 := by
      rcases lt_or_ge d 0 with h' | h'
      · exact ⟨0, le_refl _, hl.le, by nlinarith [h.1]⟩
      · rcases le_or_gt d L with h'' | h''
        · exact ⟨d, h', h'', by nlinarith⟩
        · exact ⟨L, hl.le, le_refl _, by nlinarith [h.2]⟩
    have hk : ∃ k, 0 ≤ k ∧ k * s.norm ≤ c.radius ∧ (s.norm - k * s.norm)^2 < m^2 := by
      rcases le_or_gt s.norm c.radius with h' | h'
      · exact ⟨1, zero_le_one, by linarith, by nlinarith⟩
      · have : 0 < s.norm := lt_of_le_of_lt hR h'
        have e : c.radius / s.norm * s.norm = c.radius := by field_simp
        exact ⟨c.radius / s.norm, by positivity, by rw [e], by rw [e]; nlinarith⟩
    obtain ⟨t, t0, t1, t2⟩ := hd
    obtain ⟨k, k0, k1, k2⟩ := hk
    refine ⟨cylPt c.c0 a t (s.mul k), (mem _).2 ⟨t, _, rfl, hsm k, t0, t1, by rw [Vec3.norm_mul_nonneg _ k0]; exact k1⟩, ?_⟩
    rw [cylPt_sqd ha hs (hsm k), sub_mul_sqrNorm]; linarith

/-! ## Capsule -/

private theorem ed_nonneg' (p q : Vec3 ℝ) : 0 ≤ Spec.ed p q := Real.sqrt_nonneg _

private theorem ed_comm' (p q : Vec3 ℝ) : Spec.ed p q = Spec.ed q p := by
  simp only [Spec.ed, Spec.sqd]; congr 1; ring

private theorem ed_tri (x y z : Vec3 ℝ) : Spec.ed x z ≤ Spec.ed x y + Spec.ed y z := by
  have h := sub_sqrNorm_ge (x.sub y) (z.sub y)
  have cs := Vec3.inner_le_norm (x.sub y) (y.sub z)
  rw [Vec3.norm_eq_ed, Vec3.norm_eq_ed] at cs
  have e1 : Spec.ed y x ^ 2 = Spec.sqd y x := Real.sq_sqrt (by simp only [Spec.sqd]; positivity)
  have e2 : Spec.ed z y ^ 2 = Spec.sqd z y := Real.sq_sqrt (by simp only [Spec.sqd]; positivity)
  rw [ed_comm' x y, ed_comm' y z]
  have hs : Spec.sqd x z ≤ (Spec.ed y x + Spec.ed z y)^2 := by
    rw [add_sq, e1, e2]
    simp only [Spec.sqd, zeo] at *
    nlinarith
  calc Spec.ed x z ≤ Real.sqrt ((Spec.ed y x + Spec.ed z y)^2) := Real.sqrt_le_sqrt hs
    _ = _ := Real.sqrt_sq (add_nonneg (ed_nonneg' _ _) (ed_nonneg' _ _))

/-- A nearest point of the axis gives a nearest point of the capsule. -/
private theorem capsule_of_axis {u v m p : Vec3 ℝ} {R : ℝ} (hR : 0 ≤ R) (hm : m ∈ Spec.segment u v)
    (hmin : ∀ q ∈ Spec.segment u v, Spec.ed p m ≤ Spec.ed p q) :
    (Spec.ed p m ≤ R → Spec.IsNearest (Spec.capsule u v R) p p ∧ p ∈ Spec.capsule u v R) ∧
    (R < Spec.ed p m → Spec.IsNearest (Spec.capsule u v R) p (m.cat (R / Spec.ed p m) (p.sub m)) ∧
      Spec.ed p (m.cat (R / Spec.ed p m) (p.sub m)) = Spec.ed p m - R ∧ p ∉ Spec.capsule u v R) := by
  refine ⟨fun h => ?_, fun h => ?_⟩
  · have : p ∈ Spec.capsule u v R := ⟨m, hm, by rw [ed_comm']; exact h⟩
    refine ⟨⟨this, fun q _ => ?_⟩, this⟩
    simp only [Spec.sqd]; nlinarith [sq_nonneg (p.x - q.x), sq_nonneg (p.y - q.y), sq_nonneg (p.z - q.z)]
  · have hpos : 0 < Spec.ed p m := lt_of_le_of_lt hR h
    have esq : Spec.ed p m ^ 2 = Spec.sqd p m := Real.sq_sqrt (by simp only [Spec.sqd]; positivity)
    have e1 : Spec.ed m (m.cat (R / Spec.ed p m) (p.sub m)) = R := by
      refine (ed_of_sqd hR ?_).symm
      have : Spec.sqd m (m.cat (R / Spec.ed p m) (p.sub m)) = (R / Spec.ed p m)^2 * Spec.sqd p m := by
        simp only [Spec.sqd, zeo]; ring
      rw [this, ← esq]; field_simp
    have e2 : Spec.ed p (m.cat (R / Spec.ed p m) (p.sub m)) = Spec.ed p m - R := by
      refine (ed_of_sqd (by linarith) ?_).symm
      have : Spec.sqd p (m.cat (R / Spec.ed p m) (p.sub m)) = (1 - R / Spec.ed p m)^2 * Spec.sqd p m := by
        simp only [Spec.sqd, zeo]; ring
      rw [this, ← esq]; field_simp
    have key : ∀ q ∈ Spec.capsule u v R, Spec.ed p m - R ≤ Spec.ed p q := by
      rintro q ⟨m', hm', hq⟩
      have h1 := hmin m' hm'
      have h2 := ed_tri p q m'
      rw [ed_comm' q m'] at h2
      linarith
    refine ⟨⟨⟨m, hm, e1.le⟩, fun q hq => ?_⟩, e2, fun hp => ?_⟩
    · have := key q hq
      rw [← e2] at this
      exact (Real.sqrt_le_sqrt_iff (by simp only [Spec.sqd]; positivity)).1 this
    · have := key p hp
      have h0 : Spec.ed p p = 0 := by simp [Spec.ed, Spec.sqd]
      linarith

/-- A point of the axis segment, in coordinates along a unit axis. -/
private theorem segment_iff {u v a : Vec3 ℝ} {L : ℝ} (hL : 0 < L) (hv : v = u.cat L a) (q : Vec3 ℝ) :
    q ∈ Spec.segment u v ↔ ∃ d, 0 ≤ d ∧ d ≤ L ∧ q = u.cat d a := by
  subst hv
  constructor
  · rintro ⟨α, β, h1, h2, h3, rfl⟩
    refine ⟨β * L, by positivity, by nlinarith, ?_⟩
    have : α = 1 - β := by linarith
    subst this
    ext <;> simp only [Spec.comb, zeo] <;> ring
  · rintro ⟨d, h1, h2, rfl⟩
    have : d / L ≤ 1 := (div_le_one hL).2 h2
    refine ⟨1 - d / L, d / L, by linarith, by positivity, by ring, ?_⟩
    ext <;> simp only [Spec.comb, zeo] <;> field_simp <;> ring

private theorem sqd_axis {u a s : Vec3 ℝ} {d t : ℝ} (ha : a.inner a = 1) (hs : a.inner s = 0) :
    Spec.sqd (cylPt u a d s) (u.cat t a) = (d - t)^2 + s.sqrNorm := by
  simp only [cylPt, Spec.sqd, zeo] at *
  linear_combination (d - t)^2 * ha + 2 * (d - t) * hs

/-- What both capsule routines see: the nearest axis point `m`, and which branch is taken. -/
private theorem capsule_prep {τ : ℝ} (hτ : 0 ≤ τ) (c : Cyl ℝ) (hc : ¬ c.axis.isTol τ) (p : Vec3 ℝ) :
    ∃ m ∈ Spec.segment c.c0 c.c1, (∀ q ∈ Spec.segment c.c0 c.c1, Spec.ed p m ≤ Spec.ed p q) ∧
    ((0 ≤ (c.prep τ p).d ∧ (c.prep τ p).d ≤ (c.prep τ p).l ∧ (c.prep τ p).r = Spec.ed p m ∧
        (c.prep τ p).v.sub ((c.prep τ p).axis.mul (c.prep τ p).d) = p.sub m) ∨
     ((c.prep τ p).l < (c.prep τ p).d ∧ m = c.c1) ∨ ((c.prep τ p).d < 0 ∧ m = c.c0)) ∧ 0 < (c.prep τ p).l := by
  obtain ⟨hl, -, ha, hax⟩ := axis_normalize hτ (old := c.axis) hc
  unfold Cyl.prep
  dsimp only
  revert hl ha hax
  generalize (c.axis.normalize τ c.axis).1 = L
  generalize (c.axis.normalize τ c.axis).2 = a
  intro hl ha hax
  have hv : c.c1 = c.c0.cat L a := far_of_sub hax
  rw [outerNorm_radial c.c0 a p ha]
  have hp := cylPt_decomp c.c0 a p
  have hs := inner_radial c.c0 a p ha
  have hcat : (p.sub c.c0).sub (a.mul (a.inner (p.sub c.c0))) = (p.sub c.c0).cat (-(a.inner (p.sub c.c0))) a := by
    ext <;> simp only [zeo] <;> ring
  rw [hcat]
  revert hp hs
  generalize (p.sub c.c0).cat (-(a.inner (p.sub c.c0))) a = s
  generalize a.inner (p.sub c.c0) = d
  intro hp hs
  subst hp
  have near : ∀ t, 0 ≤ t → t ≤ L → (∀ t', 0 ≤ t' → t' ≤ L → (d - t)^2 ≤ (d - t')^2) →
      ∀ q ∈ Spec.segment c.c0 c.c1, Spec.ed (cylPt c.c0 a d s) (c.c0.cat t a) ≤ Spec.ed (cylPt c.c0 a d s) q := by
    intro t _ _ hmin q hq
    obtain ⟨t', h0, h1, rfl⟩ := (segment_iff hl hv q).1 hq
    refine Real.sqrt_le_sqrt ?_
    rw [sqd_axis ha hs, sqd_axis ha hs]
    linarith [hmin t' h0 h1]
  rcases lt_or_ge d 0 with h | h
  · refine ⟨c.c0.cat 0 a, (segment_iff hl hv _).2 ⟨0, le_refl _, hl.le, rfl⟩,
      near 0 (le_refl _) hl.le (fun t' h1 _ => by nlinarith), Or.inr (Or.inr ⟨h, ?_⟩), hl⟩
    ext <;> simp only [zeo] <;> ring
  · rcases le_or_gt d L with h' | h'
    · refine ⟨c.c0.cat d a, (segment_iff hl hv _).2 ⟨d, h, h', rfl⟩,
        near d h h' (fun t' _ _ => by nlinarith [sq_nonneg (d - t')]), Or.inl ⟨h, h', ?_, ?_⟩, hl⟩
      · rw [Spec.ed, sqd_axis ha hs]; simp [Vec3.norm]
      · ext <;> simp only [cylPt, zeo] <;> ring
    · exact ⟨c.c0.cat L a, (segment_iff hl hv _).2 ⟨L, hl.le, le_refl _, rfl⟩,
        near L hl.le (le_refl _) (fun t' _ h1 => by nlinarith), Or.inr (Or.inl ⟨h', hv.symm⟩), hl⟩

/-- `zCapsule3DClosest`: for every capsule whose axis is not tiny and every query point, the point put
out is a nearest point of the solid capsule and the return value is its distance. -/
theorem C25_capsule_closest {τ : ℝ} (hτ : 0 ≤ τ) (c : Cyl ℝ) (hR : 0 ≤ c.radius) (hc : ¬ c.axis.isTol τ) (p : Vec3 ℝ) :
    Spec.IsNearest (Spec.capsule c.c0 c.c1 c.radius) p (Capsule.closest τ c p).2 ∧
    (Capsule.closest τ c p).1 = Spec.ed p (Capsule.closest τ c p).2 := by
  obtain ⟨m, hm, hmin, hcase, hl⟩ := capsule_prep hτ c hc p
  obtain ⟨k1, k2⟩ := capsule_of_axis hR hm hmin
  have h0 : Spec.ed p p = 0 := by simp [Spec.ed, Spec.sqd]
  have fin : ∀ x : ℝ × Vec3 ℝ, x = (if Spec.ed p m ≤ c.radius then (0, p)
      else (Spec.ed p m - c.radius, m.cat (c.radius / Spec.ed p m) (p.sub m))) →
      Spec.IsNearest (Spec.capsule c.c0 c.c1 c.radius) p x.2 ∧ x.1 = Spec.ed p x.2 := by
    rintro x rfl
    split_ifs with h
    · exact ⟨(k1 h).1, h0.symm⟩
    · exact ⟨(k2 (not_le.1 h)).1, (k2 (not_le.1 h)).2.1.symm⟩
  apply fin
  unfold Capsule.closest
  dsimp only
  rcases hcase with ⟨h1, h2, h3, h4⟩ | ⟨h1, rfl⟩ | ⟨h1, rfl⟩
  · rw [if_pos ⟨h1, h2⟩, h3, h4]
    split_ifs with h
    · rfl
    · have hpos : 0 < Spec.ed p m := lt_of_le_of_lt hR (not_le.1 h)
      refine Prod.ext rfl ?_
      have : (p.sub m).norm = Spec.ed p m := by rw [Vec3.norm_eq_ed, ed_comm']
      dsimp only
      rw [this]
      ext <;> simp only [zeo] <;> field_simp <;> ring
  · have : (p.sub c.c1).norm = Spec.ed p c.c1 := by rw [Vec3.norm_eq_ed, ed_comm']
    rw [if_neg (by intro hh; linarith [hh.2]), if_pos h1, this]
  · have : (p.sub c.c0).norm = Spec.ed p c.c0 := by rw [Vec3.norm_eq_ed, ed_comm']
    have hn' : ¬ (c.prep τ p).l < (c.prep τ p).d := by linarith
    rw [if_neg (by intro hh; linarith [hh.1]), if_neg hn', this]

example : (Capsule.closest (1/1000) cyl1 ⟨0,0,5⟩).1 = Spec.ed ⟨0,0,5⟩ (Capsule.closest (1/1000) cyl1 ⟨0,0,5⟩).2 :=
  (C25_capsule_closest (τ := 1/1000) (by norm_num) cyl1 (by norm_num [cyl1]) cyl1_ok ⟨0,0,5⟩).2

/-- The query point is beyond an end of the axis: its foot on the axis line is outside the segment. -/
def Spec.BeyondEnd (c0 c1 p : Vec3 ℝ) : Prop :=
  (c1.x - c0.x) * (p.x - c0.x) + (c1.y - c0.y) * (p.y - c0.y) + (c1.z - c0.z) * (p.z - c0.z) < 0 ∨
  0 < (c1.x - c0.x) * (p.x - c1.x) + (c1.y - c0.y) * (p.y - c1.y) + (c1.z - c0.z) * (p.z - c1.z)

private theorem beyond_iff {τ : ℝ} (hτ : 0 ≤ τ) (c : Cyl ℝ) (hc : ¬ c.axis.isTol τ) (p : Vec3 ℝ) :
    Spec.BeyondEnd c.c0 c.c1 p ↔ ¬ (0 ≤ (c.prep τ p).d ∧ (c.prep τ p).d ≤ (c.prep τ p).l) := by
  obtain ⟨hl, -, ha, hax⟩ := axis_normalize hτ (old := c.axis) hc
  unfold Cyl.prep
  dsimp only
  revert hl ha hax
  generalize (c.axis.normalize τ c.axis).1 = L
  generalize (c.axis.normalize τ c.axis).2 = a
  intro hl ha hax
  have hv : c.c1 = c.c0.cat L a := far_of_sub hax
  rw [not_and_or, not_le, not_le, Spec.BeyondEnd, hv]
  have e1 : ((c.c0.cat L a).x - c.c0.x) * (p.x - c.c0.x) + ((c.c0.cat L a).y - c.c0.y) * (p.y - c.c0.y) +
      ((c.c0.cat L a).z - c.c0.z) * (p.z - c.c0.z) = L * a.inner (p.sub c.c0) := by simp only [zeo]; ring
  have e2 : ((c.c0.cat L a).x - c.c0.x) * (p.x - (c.c0.cat L a).x) + ((c.c0.cat L a).y - c.c0.y) * (p.y - (c.c0.cat L a).y) +
      ((c.c0.cat L a).z - c.c0.z) * (p.z - (c.c0.cat L a).z) = L * (a.inner (p.sub c.c0) - L) := by
    simp only [zeo] at *; linear_combination -L^2 * ha
  rw [e1, e2]
  constructor
  · rintro (h | h)
    · left; by_contra hh; push Not at hh; nlinarith [mul_nonneg hl.le hh]
    · right; linarith [pos_of_mul_pos_of_pos_left h hl.le]
  · rintro (h | h)
    · left; nlinarith
    · right; exact mul_pos hl (by linarith)
where pos_of_mul_pos_of_pos_left {x y : ℝ} (h : 0 < x * y) (hx : 0 ≤ x) : 0 < y := by
        by_contra hy; nlinarith

/-- `zCapsule3DDistFromPoint` is the distance to the capsule exactly when the foot of the point is
within the axis segment or the point is in the solid; elsewhere (beyond an end cap, outside) it is
minus the distance. -/
theorem C25_capsule_dist_partial {τ : ℝ} (hτ : 0 ≤ τ) (c : Cyl ℝ) (hR : 0 ≤ c.radius) (hc : ¬ c.axis.isTol τ) (p : Vec3 ℝ) :
    (¬ Spec.BeyondEnd c.c0 c.c1 p ∨ p ∈ Spec.capsule c.c0 c.c1 c.radius →
      Capsule.distFromPoint τ c p = Spec.ed p (Capsule.closest τ c p).2) ∧
    (Spec.BeyondEnd c.c0 c.c1 p → p ∉ Spec.capsule c.c0 c.c1 c.radius →
      Capsule.distFromPoint τ c p = -Spec.ed p (Capsule.closest τ c p).2 ∧ Capsule.distFromPoint τ c p < 0) := by
  obtain ⟨m, hm, hmin, hcase, hl⟩ := capsule_prep hτ c hc p
  obtain ⟨k1, k2⟩ := capsule_of_axis hR hm hmin
  rw [beyond_iff hτ c hc p, not_not]
  rw [← (C25_capsule_closest hτ c hR hc p).2]
  unfold Capsule.distFromPoint Capsule.closest
  dsimp only
  rcases hcase with ⟨h1, h2, h3, h4⟩ | ⟨h1, rfl⟩ | ⟨h1, rfl⟩
  · have hpos : 0 ≤ (c.prep τ p).d ∧ (c.prep τ p).d ≤ (c.prep τ p).l := ⟨h1, h2⟩
    rw [if_pos hpos, if_pos hpos]
    refine ⟨fun _ => by split_ifs <;> rfl, fun hh => absurd ⟨h1, h2⟩ hh⟩
  · have hn : ¬ (0 ≤ (c.prep τ p).d ∧ (c.prep τ p).d ≤ (c.prep τ p).l) := by intro hh; linarith [hh.2]
    have : (p.sub c.c1).norm = Spec.ed p c.c1 := by rw [Vec3.norm_eq_ed, ed_comm']
    rw [if_neg hn, if_pos h1, if_neg hn, if_pos h1, this, Vec3.dist_eq_ed]
    refine ⟨fun hh => ?_, fun _ hout => ?_⟩
    · have hin : Spec.ed p c.c1 ≤ c.radius := by
        by_contra hlt
        exact (k2 (not_le.1 hlt)).2.2 (hh.resolve_left hn)
      rw [if_pos hin]
      split_ifs with h5
      · rfl
      · simp only; linarith
    · have hlt : c.radius < Spec.ed p c.c1 := by
        by_contra hle; exact hout (k1 (not_lt.1 hle)).2
      rw [if_neg (by linarith), if_neg (by linarith)]
      simp only
      constructor <;> linarith
  · have hn : ¬ (0 ≤ (c.prep τ p).d ∧ (c.prep τ p).d ≤ (c.prep τ p).l) := by intro hh; linarith [hh.1]
    have hn' : ¬ (c.prep τ p).l < (c.prep τ p).d := by linarith
    have : (p.sub c.c0).norm = Spec.ed p c.c0 := by rw [Vec3.norm_eq_ed, ed_comm']
    rw [if_neg hn, if_neg hn', if_neg hn, if_neg hn', this, Vec3.dist_eq_ed]
    refine ⟨fun hh => ?_, fun _ hout => ?_⟩
    · have hin : Spec.ed p c.c0 ≤ c.radius := by
        by_contra hlt
        exact (k2 (not_le.1 hlt)).2.2 (hh.resolve_left hn)
      rw [if_pos hin]
      split_ifs with h5
      · rfl
      · simp only; linarith
    · have hlt : c.radius < Spec.ed p c.c0 := by
        by_contra hle; exact hout (k1 (not_lt.1 hle)).2
      rw [if_neg (by linarith), if_neg (by linarith)]
      simp only
      constructor <;> linarith

/-- With margin 0, `zCapsule3DPointIsInside` accepts exactly the points outside the capsule beyond an
end: no point of the capsule is accepted, and every point far beyond an end cap is. -/
theorem C25_capsule_inside_inverted {τ : ℝ} (hτ : 0 ≤ τ) (c : Cyl ℝ) (hR : 0 ≤ c.radius) (hc : ¬ c.axis.isTol τ) (p : Vec3 ℝ) :
    Capsule.pointIsInside τ c p 0 ↔ Spec.BeyondEnd c.c0 c.c1 p ∧ p ∉ Spec.capsule c.c0 c.c1 c.radius := by
  obtain ⟨h1, h2⟩ := C25_capsule_dist_partial hτ c hR hc p
  unfold Capsule.pointIsInside
  constructor
  · intro h
    by_contra hh
    rw [not_and_or, not_not] at hh
    have := h1 hh
    linarith [ed_nonneg' p (Capsule.closest τ c p).2]
  · rintro ⟨hb, hout⟩; exact (h2 hb hout).2

/-- An outside point accepted by `zCapsule3DPointIsInside`, for the capsule from the origin to (0,0,2)
of radius 1 and the point (0,0,5). -/
theorem C25_capsule_inside_wrong : ∃ (c : Cyl ℝ) (p : Vec3 ℝ), 0 < c.radius ∧ ¬ c.axis.isTol (1/1000) ∧
    p ∉ Spec.capsule c.c0 c.c1 c.radius ∧ Capsule.pointIsInside (1/1000) c p 0 := by
  have hb : Spec.BeyondEnd cyl1.c0 cyl1.c1 ⟨0,0,5⟩ := by
    right; simp only [cyl1]; norm_num
  have hout : (⟨0,0,5⟩ : Vec3 ℝ) ∉ Spec.capsule cyl1.c0 cyl1.c1 cyl1.radius := by
    rintro ⟨m, ⟨α, β, h1, h2, h3, rfl⟩, he⟩
    rw [Spec.ed, Real.sqrt_le_iff] at he
    simp only [Spec.sqd, Spec.comb, cyl1] at he
    nlinarith [he.2]
  exact ⟨cyl1, ⟨0,0,5⟩, by norm_num [cyl1], cyl1_ok, hout,
    (C25_capsule_inside_inverted (by norm_num) cyl1 (by norm_num [cyl1]) cyl1_ok _).2 ⟨hb, hout⟩⟩

/-- A capsule whose two centers coincide is a ball, yet every query point is reported at distance 0. -/
theorem C25_capsule_degenerate {τ : ℝ} (hτ : 0 ≤ τ) (u p : Vec3 ℝ) {R : ℝ} (hR : 0 ≤ R) :
    Capsule.closest τ ⟨u, u, R⟩ p = (0, p) := by
  have hax : Cyl.axis ⟨u, u, R⟩ = Vec3.zero := by ext <;> simp only [Cyl.axis, zeo] <;> ring
  have ht : (Vec3.zero : Vec3 ℝ).isTol τ := by
    simp only [Vec3.isTol, zIsTol, zeo, abs_zero]; exact ⟨hτ, hτ, hτ⟩
  have hn : (Vec3.zero : Vec3 ℝ).normalize τ Vec3.zero = (0, Vec3.zero) := by rw [Vec3.normalize, if_pos ht]
  have h1 : (Vec3.zero : Vec3 ℝ).inner (p.sub u) = 0 := by simp only [zeo]; ring
  have h2 : (p.sub u).outerNorm Vec3.zero = 0 := by
    have : (p.sub u).outer Vec3.zero = Vec3.zero := by ext <;> simp only [zeo] <;> ring
    rw [Vec3.outerNorm, this, Vec3.norm]; simp [zeo]
  unfold Capsule.closest Cyl.prep
  dsimp only
  rw [hax, hn]
  dsimp only
  rw [h1, h2, if_pos ⟨le_refl _, le_refl _⟩, if_pos hR]

/-! ## Cone -/

/-- A query point for which the tolerance of `zVec3DNormalize` does not intervene: it is exactly on
the axis line, or farther than `√3 τ` from it. -/
def Spec.ClearOfAxis (τ : ℝ) (c v p : Vec3 ℝ) : Prop :=
  p ∈ Spec.line c ⟨v.x - c.x, v.y - c.y, v.z - c.z⟩ ∨
  ∀ q ∈ Spec.line c ⟨v.x - c.x, v.y - c.y, v.z - c.z⟩, 3 * τ^2 < Spec.sqd p q

private theorem not_isTol_of_sqrNorm {τ : ℝ} {v : Vec3 ℝ} (h : 3 * τ^2 < v.sqrNorm) : ¬ v.isTol τ := by
  rintro ⟨h1, h2, h3⟩
  have k : ∀ x : ℝ, zIsTol x τ → x * x ≤ τ^2 := fun x hx => by
    have := abs_le.1 hx; nlinarith
  simp only [zeo] at h
  linarith [k _ h1, k _ h2, k _ h3]

/-- The numbers computed at the start of the cone routines. -/
private theorem cone_prep {τ : ℝ} (hτ : 0 ≤ τ) (c : Cone ℝ) (hc : 3 * τ^2 < c.axis.sqrNorm) (p : Vec3 ℝ)
    (hp : Spec.ClearOfAxis τ c.center c.vert p) :
    ∃ a L s0, a = (c.axis.normalize τ c.axis).2 ∧ L = (c.axis.normalize τ c.axis).1 ∧
      s0 = (p.sub c.center).cat (-(a.inner (p.sub c.center))) a ∧
      0 < L ∧ a.inner a = 1 ∧ c.vert = c.center.cat L a ∧ 3 * τ^2 < L^2 ∧
      p = cylPt c.center a (a.inner (p.sub c.center)) s0 ∧ a.inner s0 = 0 ∧
      (s0.normalize τ s0).1 = s0.norm ∧ s0 = (s0.normalize τ s0).2.mul s0.norm ∧
      (0 < s0.norm → (s0.normalize τ s0).2.inner (s0.normalize τ s0).2 = 1) := by
  obtain ⟨hl, hl', ha, hax⟩ := axis_normalize hτ (old := c.axis) (not_isTol_of_sqrNorm hc)
  have h3 : 3 * τ^2 < (c.axis.normalize τ c.axis).1^2 := by rw [hl', Vec3.norm_sq]; exact hc
  clear hl'
  refine ⟨_, _, _, rfl, rfl, rfl, hl, ha, far_of_sub hax, h3, cylPt_decomp _ _ _, inner_radial _ _ _ ha, ?_⟩
  revert hl ha hax
  generalize (c.axis.normalize τ c.axis).1 = L
  generalize (c.axis.normalize τ c.axis).2 = a
  intro hl ha hax
  have hv : c.vert = c.center.cat L a := far_of_sub hax
  have hdir : (⟨c.vert.x - c.center.x, c.vert.y - c.center.y, c.vert.z - c.center.z⟩ : Vec3 ℝ) = a.mul L := by
    rw [hv]; ext <;> simp only [zeo] <;> ring
  rw [Spec.ClearOfAxis, hdir] at hp
  rcases hp with ⟨t, ht⟩ | hfar
  · -- on the axis: the radial vector vanishes
    have e0 : (p.sub c.center).cat (-(a.inner (p.sub c.center))) a = Vec3.zero := by
      rw [ht]
      ext <;> simp only [zeo] at *
      · linear_combination -t * L * a.x * ha
      · linear_combination -t * L * a.y * ha
      · linear_combination -t * L * a.z * ha
    rw [e0]
    have hz : (Vec3.zero : Vec3 ℝ).isTol τ := by
      simp only [Vec3.isTol, zIsTol, zeo, abs_zero]; exact ⟨hτ, hτ, hτ⟩
    have hn : (Vec3.zero : Vec3 ℝ).norm = 0 := by simp [Vec3.norm, zeo]
    rw [Vec3.normalize, if_pos hz, hn]
    refine ⟨rfl, ?_, fun h => absurd h (lt_irrefl _)⟩
    ext <;> simp only [zeo] <;> ring
  · have hbig : ¬ ((p.sub c.center).cat (-(a.inner (p.sub c.center))) a).isTol τ := by
      apply not_isTol_of_sqrNorm
      refine lt_of_lt_of_eq (hfar ⟨c.center.x + a.inner (p.sub c.center) / L * (a.mul L).x,
        c.center.y + a.inner (p.sub c.center) / L * (a.mul L).y,
        c.center.z + a.inner (p.sub c.center) / L * (a.mul L).z⟩ ⟨_, rfl⟩) ?_
      generalize a.inner (p.sub c.center) = t
      simp only [Spec.sqd, zeo]
      field_simp
      ring
    obtain ⟨-, n2, n3, n4⟩ := axis_normalize hτ (old := (p.sub c.center).cat (-(a.inner (p.sub c.center))) a) hbig
    exact ⟨n2, by rw [n2] at n4; exact n4, fun _ => n3⟩

set_option maxHeartbeats 1000000 in
/-- `zCone3DClosest`: for every cone with positive radius and a height above the tolerance, and every
query point on or clear of the axis, the routine gives a nearest point of the solid cone and its
distance. -/
theorem C25_cone_closest {τ : ℝ} (hτ : 0 ≤ τ) (c : Cone ℝ) (hR : 0 < c.radius)
    (hc : 3 * τ^2 < Spec.sqd c.center c.vert) (p : Vec3 ℝ) (hp : Spec.ClearOfAxis τ c.center c.vert p) :
    ∃ dist cp, c.closest τ p = some (dist, cp) ∧ c.distFromPoint τ p = some dist ∧
      Spec.IsNearest (Spec.cone c.center c.vert c.radius) p cp ∧ dist = Spec.ed p cp := by
  have hc' : 3 * τ^2 < c.axis.sqrNorm := by
    have : c.axis.sqrNorm = Spec.sqd c.center c.vert := by simp only [Cone.axis, Spec.sqd, zeo]; ring
    rw [this]; exact hc
  obtain ⟨a, L, s0, ea, eL, es, hl, ha, hv, hL3, hpp, hs, hr, hsm, hun⟩ := cone_prep hτ c hc' p hp
  unfold Cone.closest Cone.distFromPoint
  dsimp only
  rw [← ea, ← eL, ← es]
  have hout := outerNorm_radial c.vert (((((s0.normalize τ s0).2.mul c.radius).cat (-L) a).normalize τ
    (((s0.normalize τ s0).2.mul c.radius).cat (-L) a)).2) p
  revert hpp
  clear es hp
  generalize a.inner (p.sub c.center) = d
  intro hpp
  rw [hr]
  revert hsm hun hout
  clear hr
  generalize (s0.normalize τ s0).2 = s
  intro hsm hun hout
  have hn := s0.norm_nonneg
  have mem := cone_iff (R := c.radius) ha hl hv
  have near := fun dt k hx hmin => nearest_revolve (S := Spec.cone c.center c.vert c.radius) (c := c.center) (a := a) (sp := s0) (dp := d)
    (dt := dt) (k := k) (fun d r => 0 ≤ d ∧ d ≤ L ∧ L * r ≤ (L - d) * c.radius) ha hs (fun q hq => (mem q).1 hq) hx hmin
  have hmul : ∀ k, a.inner (s0.mul k) = 0 := fun k => by simp only [zeo] at *; linear_combination k * hs
  have h1 : s0.mul 1 = s0 := by ext <;> simp only [zeo] <;> ring
  rw [← hpp] at near
  have b0 : ¬ (c.radius = 0 ∨ L = 0) := by rintro (h | h) <;> linarith
  rw [if_neg b0, if_neg b0]
  by_cases b1 : d < 0 ∧ s0.norm < c.radius
  · rw [if_pos b1, if_pos b1]
    have := near 0 1 ((mem _).2 ⟨0, _, rfl, hmul 1, le_refl _, hl.le, by rw [h1]; nlinarith⟩) (by
      rintro d' r' h0 ⟨h2, h3, h4⟩
      nlinarith [sq_nonneg (s0.norm - r')])
    have e : p.cat (-d) a = cylPt c.center a 0 (s0.mul 1) := by
      rw [hpp]; ext <;> simp only [cylPt, zeo] <;> ring
    refine ⟨_, _, rfl, rfl, by rw [e]; exact this.1, ?_⟩
    rw [e]
    exact ed_of_sqd (by linarith) (by rw [this.2]; ring)
  rw [if_neg b1, if_neg b1]
  by_cases b2 : 0 ≤ d ∧ s0.norm < L * (d - L) / c.radius
  · rw [if_pos b2, if_pos b2]
    have hb := b2.2
    rw [lt_div_iff₀ hR] at hb
    have n0 : (s0.mul 0).norm = 0 := by rw [Vec3.norm_mul_nonneg _ (le_refl 0)]; ring
    have := near L 0 ((mem _).2 ⟨L, _, rfl, hmul 0, hl.le, le_refl _, by rw [n0]; simp⟩) (by
      rintro d' r' h0 ⟨h2, h3, h4⟩
      have key : s0.norm * r' ≤ (L - d') * (d - L) := by
        have k1 : s0.norm * (L * r') ≤ s0.norm * ((L - d') * c.radius) := mul_le_mul_of_nonneg_left h4 hn
        have k2 : (L - d') * (s0.norm * c.radius) ≤ (L - d') * (L * (d - L)) := mul_le_mul_of_nonneg_left hb.le (by linarith)
        have k3 : L * (s0.norm * r') ≤ L * ((L - d') * (d - L)) := by linarith
        exact le_of_mul_le_mul_left k3 hl
      nlinarith [sq_nonneg (L - d')])
    have e : c.vert = cylPt c.center a L (s0.mul 0) := by
      rw [hv]; ext <;> simp only [cylPt, zeo] <;> ring
    rw [← e] at this
    refine ⟨_, _, rfl, rfl, this.1, ?_⟩
    rw [Spec.ed, this.2]
    congr 1; ring
  rw [if_neg b2, if_neg b2]
  by_cases b3 : 0 ≤ d ∧ d / L + s0.norm / c.radius ≤ 1
  · rw [if_pos b3, if_pos b3]
    have hb : d * c.radius + s0.norm * L ≤ L * c.radius := by
      have := b3.2
      rw [div_add_div _ _ hl.ne' hR.ne', div_le_one (by positivity)] at this
      linarith
    have hdL : d ≤ L := by
      have : d * c.radius ≤ L * c.radius := by nlinarith [mul_nonneg hn hl.le]
      exact le_of_mul_le_mul_right this hR
    have := near d 1 ((mem _).2 ⟨d, _, rfl, hmul 1, b3.1, hdL, by rw [h1]; linarith⟩) (by
      rintro d' r' h0 _
      nlinarith [sq_nonneg (d - d'), sq_nonneg (s0.norm - r')])
    have e : p = cylPt c.center a d (s0.mul 1) := by rw [h1]; exact hpp
    refine ⟨_, _, rfl, rfl, by rw [← e] at this; exact this.1, ?_⟩
    simp [Spec.ed, Spec.sqd]
  rw [if_neg b3, if_neg b3]
  by_cases b4 : 0 ≤ d ∧ s0.norm ≤ L * d / c.radius + c.radius
  · rw [if_pos b4, if_pos b4]
    have hd := b4.1
    have b2' : L * (d - L) / c.radius ≤ s0.norm := by by_contra hh; exact b2 ⟨hd, not_le.1 hh⟩
    have b3' : 1 < d / L + s0.norm / c.radius := by by_contra hh; exact b3 ⟨hd, not_lt.1 hh⟩
    have b4' := b4.2
    rw [div_le_iff₀ hR] at b2'
    rw [div_add_div _ _ hl.ne' hR.ne', one_lt_div (by positivity)] at b3'
    have b4'' : (s0.norm - c.radius) * c.radius ≤ L * d := by
      have : s0.norm - c.radius ≤ L * d / c.radius := by linarith
      rwa [le_div_iff₀ hR] at this
    -- off the axis
    have hrpos : 0 < s0.norm := by
      rcases lt_or_eq_of_le hn with h | h
      · exact h
      · exfalso
        rw [← h] at b2' b3'
        have : L * (d - L) ≤ 0 := by linarith
        have : d ≤ L := by by_contra hh; nlinarith
        nlinarith
    have hss := hun hrpos
    have has : a.inner s = 0 := by
      have : s0.norm * a.inner s = 0 := by
        rw [← hs]; conv_rhs => rw [hsm]
        simp only [zeo]; ring
      exact (mul_eq_zero.1 this).resolve_left hrpos.ne'
    -- the generator direction
    have hg0 : ((s.mul c.radius).cat (-L) a).sqrNorm = c.radius^2 + L^2 := by
      simp only [zeo] at *
      linear_combination c.radius^2 * hss + L^2 * ha - 2 * c.radius * L * has
    have hg : ¬ ((s.mul c.radius).cat (-L) a).isTol τ := by
      apply not_isTol_of_sqrNorm; rw [hg0]; nlinarith
    obtain ⟨g1, g2, g3, g4⟩ := axis_normalize hτ (old := (s.mul c.radius).cat (-L) a) hg
    have hN : ((s.mul c.radius).cat (-L) a).norm ^ 2 = c.radius^2 + L^2 := by rw [Vec3.norm_sq, hg0]
    rw [g2] at g1 g4
    revert g1 g3 g4 hN hout
    generalize ((s.mul c.radius).cat (-L) a).norm = N
    generalize (((s.mul c.radius).cat (-L) a).normalize τ ((s.mul c.radius).cat (-L) a)).2 = g
    intro hout g1 g3 g4 hN
    clear g2
    set w := (c.radius * s0.norm - L * (d - L)) / N^2 with hw
    have hN2 : 0 < N^2 := by positivity
    have hwN : w * N^2 = c.radius * s0.norm - L * (d - L) := by rw [hw]; field_simp
    have hw0 : 0 ≤ w := div_nonneg (by linarith) hN2.le
    have hw1 : w ≤ 1 := by rw [hw, div_le_one hN2, hN]; nlinarith
    -- components of the generator
    have gx := congrArg Vec3.x g4
    have gy := congrArg Vec3.y g4
    have gz := congrArg Vec3.z g4
    have sx := congrArg Vec3.x hsm
    have sy := congrArg Vec3.y hsm
    have sz := congrArg Vec3.z hsm
    simp only [zeo] at gx gy gz sx sy sz
    have hin : (p.sub c.vert).inner g = w * N := by
      have : N * (p.sub c.vert).inner g = N * (w * N) := by
        have e1 : N * (p.sub c.vert).inner g = (p.sub c.vert).inner ((s.mul c.radius).cat (-L) a) := by
          rw [g4]; simp only [zeo]; ring
        rw [e1, hpp, hv]
        have e2 : N * (w * N) = c.radius * s0.norm - L * (d - L) := by rw [← hwN]; ring
        rw [e2]
        have e3 : s0 = s.mul s0.norm := hsm
        generalize s0.norm = r at *
        rw [e3]
        simp only [cylPt, zeo] at *
        linear_combination (-L * (d - L)) * ha + ((d - L) * c.radius - r * L) * has + r * c.radius * hss
      exact mul_left_cancel₀ g1.ne' this
    have e : c.vert.cat ((p.sub c.vert).inner g) g = cylPt c.center a (L - w * L) (s0.mul (w * c.radius / s0.norm)) := by
      rw [hin, hv]
      have hk : w * c.radius / s0.norm * s0.norm = w * c.radius := by field_simp
      ext
      · simp only [cylPt, zeo]
        rw [sx]; linear_combination -w * gx - s.x * hk
      · simp only [cylPt, zeo]
        rw [sy]; linear_combination -w * gy - s.y * hk
      · simp only [cylPt, zeo]
        rw [sz]; linear_combination -w * gz - s.z * hk
    have hk : w * c.radius / s0.norm * s0.norm = w * c.radius := by field_simp
    have := near (L - w * L) (w * c.radius / s0.norm)
      ((mem _).2 ⟨_, _, rfl, hmul _, by nlinarith, by nlinarith, by
        rw [Vec3.norm_mul_nonneg _ (by positivity), hk]; nlinarith⟩) (by
      rintro d' r' h0 ⟨h2, h3, h4⟩
      rw [hk]
      set μ := (c.radius * d + L * s0.norm - L * c.radius) / N^2 with hμ
      have hμ0 : 0 ≤ μ := div_nonneg (by linarith) hN2.le
      have hμN : μ * N^2 = c.radius * d + L * s0.norm - L * c.radius := by rw [hμ]; field_simp
      have e1 : d - (L - w * L) = μ * c.radius := by
        have : N^2 * (d - (L - w * L)) = N^2 * (μ * c.radius) := by
          linear_combination L * hwN - c.radius * hμN + (d - L) * hN
        exact mul_left_cancel₀ hN2.ne' this
      have e2 : s0.norm - w * c.radius = μ * L := by
        have : N^2 * (s0.norm - w * c.radius) = N^2 * (μ * L) := by
          linear_combination -c.radius * hwN - L * hμN + s0.norm * hN
        exact mul_left_cancel₀ hN2.ne' this
      rw [e1, e2]
      have e3 : (μ * c.radius)^2 + (μ * L)^2 = μ^2 * N^2 := by rw [hN]; ring
      rw [e3]
      have e4 : μ * N^2 ≤ (d - d') * c.radius + (s0.norm - r') * L := by rw [hμN]; linarith
      have e5 : (μ * N^2)^2 ≤ ((d - d')^2 + (s0.norm - r')^2) * N^2 := by
        have : (μ * N^2)^2 ≤ ((d - d') * c.radius + (s0.norm - r') * L)^2 :=
          pow_le_pow_left₀ (by positivity) e4 2
        rw [hN] at *
        nlinarith [sq_nonneg ((d - d') * L - (s0.norm - r') * c.radius)]
      have e6 : (μ^2 * N^2) * N^2 ≤ ((d - d')^2 + (s0.norm - r')^2) * N^2 := by linarith
      exact le_of_mul_le_mul_right e6 hN2)
    refine ⟨_, _, rfl, ?_, by rw [e]; exact this.1, ?_⟩
    · rw [hout g3, Vec3.dist_eq_ed]
      congr 1
      rw [ed_comm', ← Vec3.norm_eq_ed]
      congr 1
      ext <;> simp only [zeo] <;> ring
    · rw [Vec3.dist_eq_ed]
  · rw [if_neg b4, if_neg b4]
    have hrR : c.radius ≤ s0.norm ∧ (0 ≤ d → L * d ≤ (s0.norm - c.radius) * c.radius) := by
      by_cases hd : d < 0
      · exact ⟨by by_contra hh; exact b1 ⟨hd, not_le.1 hh⟩, fun h => by linarith⟩
      · push Not at hd
        have : L * d / c.radius + c.radius < s0.norm := by by_contra hh; exact b4 ⟨hd, not_lt.1 hh⟩
        refine ⟨by have : 0 ≤ L * d / c.radius := by positivity
                   linarith, fun _ => ?_⟩
        have h5 : L * d / c.radius ≤ s0.norm - c.radius := by linarith
        rwa [div_le_iff₀ hR] at h5
    have hrpos : 0 < s0.norm := lt_of_lt_of_le hR hrR.1
    have hk : c.radius / s0.norm * s0.norm = c.radius := by field_simp
    have := near 0 (c.radius / s0.norm)
      ((mem _).2 ⟨0, _, rfl, hmul _, le_refl _, hl.le, by
        rw [Vec3.norm_mul_nonneg _ (by positivity), hk]; linarith⟩) (by
      rintro d' r' h0 ⟨h2, h3, h4⟩
      rw [hk]
      have hρ : L * r' ≤ L * c.radius - d' * c.radius := by linarith
      have hr' : r' ≤ c.radius := by nlinarith [mul_nonneg h2 hR.le]
      rcases lt_or_ge d 0 with hd | hd
      · have k1 : d^2 ≤ (d - d')^2 := by nlinarith
        have k2 : (s0.norm - c.radius)^2 ≤ (s0.norm - r')^2 := by nlinarith [hrR.1]
        linarith [k1, k2, show (d - 0)^2 = d^2 by ring]
      · have k1 := hrR.2 hd
        -- (s0.norm - R) (R - r') ≥ d d'
        have k2 : d * d' ≤ (s0.norm - c.radius) * (c.radius - r') := by
          have k3 : d' * (L * d) ≤ d' * ((s0.norm - c.radius) * c.radius) := mul_le_mul_of_nonneg_left k1 h2
          have k4 : (s0.norm - c.radius) * (d' * c.radius) ≤ (s0.norm - c.radius) * (L * (c.radius - r')) :=
            mul_le_mul_of_nonneg_left (by linarith) (by linarith [hrR.1])
          have k5 : L * (d * d') ≤ L * ((s0.norm - c.radius) * (c.radius - r')) := by linarith
          exact le_of_mul_le_mul_left k5 hl
        nlinarith [sq_nonneg (c.radius - r'), sq_nonneg d'])
    have e : c.center.cat c.radius s = cylPt c.center a 0 (s0.mul (c.radius / s0.norm)) := by
      have sx := congrArg Vec3.x hsm
      have sy := congrArg Vec3.y hsm
      have sz := congrArg Vec3.z hsm
      simp only [zeo] at sx sy sz
      ext
      · simp only [cylPt, zeo]; rw [sx]; linear_combination -s.x * hk
      · simp only [cylPt, zeo]; rw [sy]; linear_combination -s.y * hk
      · simp only [cylPt, zeo]; rw [sz]; linear_combination -s.z * hk
    refine ⟨_, _, rfl, rfl, by rw [e]; exact this.1, ?_⟩
    rw [e, Spec.ed, this.2, hk]
    congr 1; ring

/-- A cone and a query point meeting the hypotheses. -/
private noncomputable def cone1 : Cone ℝ := ⟨⟨0,0,0⟩, ⟨0,0,2⟩, 1⟩
private theorem cone1_ok : 3 * (1/1000 : ℝ)^2 < Spec.sqd cone1.center cone1.vert := by
  simp only [Spec.sqd, cone1]; norm_num
private theorem cone1_clear : Spec.ClearOfAxis (1/1000) cone1.center cone1.vert ⟨2,0,1⟩ := by
  right
  rintro q ⟨t, rfl⟩
  simp only [Spec.sqd, cone1]
  nlinarith [sq_nonneg (1 - 2 * t)]

example : ∃ dist cp, cone1.closest (1/1000) ⟨2,0,1⟩ = some (dist, cp) ∧ cone1.distFromPoint (1/1000) ⟨2,0,1⟩ = some dist ∧
    Spec.IsNearest (Spec.cone cone1.center cone1.vert cone1.radius) ⟨2,0,1⟩ cp ∧ dist = Spec.ed ⟨2,0,1⟩ cp :=
  C25_cone_closest (τ := 1/1000) (by norm_num) cone1 (by norm_num [cone1]) cone1_ok _ cone1_clear

/-- `zCone3DPointIsInside`: with margin 0 it accepts only points of the solid cone, and with any margin
it accepts every point nearer to the cone than the margin. -/
theorem C25_cone_inside {τ : ℝ} (hτ : 0 ≤ τ) (c : Cone ℝ) (hR : 0 < c.radius)
    (hc : 3 * τ^2 < Spec.sqd c.center c.vert) (p : Vec3 ℝ) :
    (c.pointIsInside τ p 0 → p ∈ Spec.cone c.center c.vert c.radius) ∧
    (∀ margin q, q ∈ Spec.cone c.center c.vert c.radius → Spec.ed p q < margin → c.pointIsInside τ p margin) := by
  have hc' : ¬ c.axis.isTol τ := by
    apply not_isTol_of_sqrNorm
    have : c.axis.sqrNorm = Spec.sqd c.center c.vert := by simp only [Cone.axis, Spec.sqd, zeo]; ring
    rw [this]; exact hc
  obtain ⟨hl, -, ha, hax⟩ := axis_normalize hτ (old := c.axis) hc'
  unfold Cone.pointIsInside
  dsimp only
  revert hl ha hax
  generalize (c.axis.normalize τ c.axis).1 = L
  generalize (c.axis.normalize τ c.axis).2 = a
  intro hl ha hax
  have hv : c.vert = c.center.cat L a := far_of_sub hax
  have hp := cylPt_decomp c.center a p
  have hs := inner_radial c.center a p ha
  revert hp hs
  generalize (p.sub c.center).cat (-(a.inner (p.sub c.center))) a = s
  generalize a.inner (p.sub c.center) = d
  intro hp hs
  have e1 : -(a.inner (p.sub c.vert)) = L - d := by
    rw [hp, hv]; simp only [cylPt, zeo] at *; linear_combination (L - d) * ha - hs
  have e2 : (p.sub c.vert).sqrNorm - (L - d) * (L - d) = s.norm^2 := by
    rw [hp, hv, Vec3.norm_sq]; simp only [cylPt, zeo] at *
    linear_combination (d - L)^2 * ha + 2 * (d - L) * hs
  rw [e1, e2, Real.sqrt_sq s.norm_nonneg]
  have hN : (Vec2.norm ⟨-c.radius, L⟩)^2 = c.radius^2 + L^2 := by
    rw [Vec2.norm_sq]; simp only [zeo]; ring
  have hN0 := Vec2.norm_nonneg (⟨-c.radius, L⟩ : Vec2 ℝ)
  revert hN hN0
  generalize Vec2.norm ⟨-c.radius, L⟩ = N
  intro hN hN0
  have hNp : 0 < N := by
    rcases lt_or_eq_of_le hN0 with h | h
    · exact h
    · rw [← h] at hN; nlinarith
  have e3 : ((⟨-c.radius, L⟩ : Vec2 ℝ).mul (1 / N)).inner ⟨L - d, s.norm⟩ = (L * s.norm - c.radius * (L - d)) / N := by
    simp only [zeo]; field_simp; ring
  rw [e3]
  have mem := cone_iff (R := c.radius) ha hl hv
  have hn := s.norm_nonneg
  refine ⟨?_, ?_⟩
  · intro h
    split_ifs at h with h1
    push Not at h1
    rw [div_lt_iff₀ hNp] at h
    exact (mem _).2 ⟨d, s, hp, hs, by linarith [h1.2], by linarith [h1.1], by linarith⟩
  · intro m q hq hd
    obtain ⟨d', s', rfl, hs', h0, h1, h2⟩ := (mem q).1 hq
    have hm : 0 < m := lt_of_le_of_lt (Real.sqrt_nonneg _) hd
    have hsq : Spec.sqd p (cylPt c.center a d' s') < m^2 := by
      rw [Spec.ed, Real.sqrt_lt' hm] at hd; exact hd
    rw [hp, cylPt_sqd ha hs hs'] at hsq
    have h3 := sub_sqrNorm_ge s s'
    have k1 : (d - d')^2 < m^2 := by nlinarith [sq_nonneg (s.norm - s'.norm)]
    have k1' := abs_lt_of_sq_lt_sq' k1 hm.le
    rw [if_neg (by push Not; exact ⟨by linarith [k1'.2], by linarith [k1'.1]⟩), div_lt_iff₀ hNp]
    have k2 : (c.radius * (d - d') + L * (s.norm - s'.norm))^2 < (m * N)^2 := by
      rw [mul_pow, hN]
      have : (d - d')^2 + (s.norm - s'.norm)^2 < m^2 := by linarith
      nlinarith [sq_nonneg ((d - d') * L - (s.norm - s'.norm) * c.radius), sq_nonneg c.radius, mul_pos hl hl]
    have k3 := abs_lt_of_sq_lt_sq' k2 (by positivity)
    nlinarith [k3.2]

end Zeo
