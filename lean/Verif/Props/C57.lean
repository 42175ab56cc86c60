import Verif.Lemmas.Secular
import Verif.Lemmas.Cat
import Verif.Props.C56
import Mathlib.Algebra.Polynomial.Roots
import Mathlib.Algebra.Polynomial.Eval.Coeff

/-! # C57: nearest points and inside tests of ellipses, ellipsoids and elliptic cylinders

The nearest point is found from a root of a polynomial of degree 4 or 6.  The root finder belongs to
another library; the theorems assume that it returns exactly the complex roots (`Spec.ExactSolver`).
What is proved is everything zeo contributes: that the polynomial is the right one, that the first root
with a non-negative real part is real and is the one wanted, that the error branch is never taken, and
that the point computed from it is the nearest one. -/

namespace Zeo
open Real Moment

/-! ## Exact root finders exist -/

/-- The list of coefficients as a polynomial. -/
private noncomputable def toPoly (cs : List ℝ) : Polynomial ℂ :=
  cs.foldr (fun (c : ℝ) (acc : Polynomial ℂ) => Polynomial.C (c : ℂ) + Polynomial.X * acc) 0

private theorem eval_toPoly (cs : List ℝ) (z : ℂ) : (toPoly cs).eval z = Secular.evalC cs z := by
  induction cs with
  | nil => simp [toPoly, Secular.evalC]
  | cons c cs ih => simp only [toPoly, Secular.evalC, List.foldr_cons, Polynomial.eval_add, Polynomial.eval_C, Polynomial.eval_mul, Polynomial.eval_X] at ih ⊢; rw [ih]

private theorem toPoly_ne (cs : List ℝ) (h : cs.getLast? = some 1) : toPoly cs ≠ 0 := by
  induction cs with
  | nil => simp at h
  | cons c cs ih =>
    intro h0
    cases cs with
    | nil =>
      simp only [List.getLast?_singleton, Option.some.injEq] at h
      subst h
      simp [toPoly] at h0
    | cons d ds =>
      rw [List.getLast?_cons_cons] at h
      apply ih h
      have h1 : toPoly (c :: d :: ds) = Polynomial.C (c : ℂ) + Polynomial.X * toPoly (d :: ds) := rfl
      rw [h1] at h0
      ext n
      have := congrArg (fun p => p.coeff (n + 1)) h0
      simp only [Polynomial.coeff_add, Polynomial.coeff_C_succ, Polynomial.coeff_X_mul, zero_add, Polynomial.coeff_zero] at this
      simpa using this

/-- The assumption on the root finder can be met. -/
example : ∃ solve, Spec.ExactSolver solve := by
  refine ⟨fun cs => (toPoly cs).roots.toList, fun cs h z => ?_⟩
  rw [Multiset.mem_toList, Polynomial.mem_roots (toPoly_ne cs h), Polynomial.IsRoot, eval_toPoly]

/-! ## Ellipse -/

/-- The filled ellipse. -/
def Spec.ellipse (e : Ellips2 ℝ) : Set (Vec2 ℝ) :=
  {q | ((q.x - e.center.x) / e.r0) ^ 2 + ((q.y - e.center.y) / e.r1) ^ 2 ≤ 1}

/-- **C57** (`zEllips2DClosest`, `zEllips2DDistFromPoint`): for every point the search succeeds, the result
is the nearest point of the filled ellipse, the distance is the distance to it, and a point of the ellipse
is its own nearest point. -/
theorem C57_ellipse_closest {solve : List ℝ → List ℂ} (hs : Spec.ExactSolver solve) {τ : ℝ} (hτ : 0 ≤ τ) (e : Ellips2 ℝ)
    (h0 : 0 < e.r0) (h1 : 0 < e.r1) (p : Vec2 ℝ) :
    ∃ c, e.closest solve τ p = some c ∧ Spec.IsNearest2 (Spec.ellipse e) p c ∧
      e.distFromPoint solve τ p = some (Spec.ed2 p c) ∧ (p ∈ Spec.ellipse e → c = p) := by
  suffices H : ∃ c, e.closest solve τ p = some c ∧ Spec.IsNearest2 (Spec.ellipse e) p c ∧ (p ∈ Spec.ellipse e → c = p) by
    obtain ⟨c, hc, hn, hi⟩ := H
    refine ⟨c, hc, hn, ?_, hi⟩
    rw [Ellips2.distFromPoint, hc, Option.map_some, Vec2.dist, Spec.ed2]
    congr 2
    simp only [Spec.sqd2, Vec2.sqrDist, Vec2.sqrNorm, Vec2.inner, Vec2.sub]; ring
  have p0 : 0 < e.r0 ^ 2 := by positivity
  have p1 : 0 < e.r1 ^ 2 := by positivity
  unfold Ellips2.closest
  simp only [add_zero]
  split
  · rename_i hgt
    set v := p.sub e.center with hv
    have hsum : ∑ i, (![v.x ^ 2 / e.r0 ^ 2, v.y ^ 2 / e.r1 ^ 2] i) = v.x ^ 2 / e.r0 ^ 2 + v.y ^ 2 / e.r1 ^ 2 := by
      simp [Fin.sum_univ_two]
    obtain ⟨l, hl, hl0, he⟩ := Secular.pick (a := ![v.x ^ 2 / e.r0 ^ 2, v.y ^ 2 / e.r1 ^ 2]) (p := ![e.r0 ^ 2, e.r1 ^ 2]) (τ := τ)
      (roots := solve (ellips2Coeff (v.x ^ 2) (v.y ^ 2) (e.r0 ^ 2) (e.r1 ^ 2)))
      (fun i => by fin_cases i <;> simp <;> positivity) (fun i => by fin_cases i <;> simp <;> positivity)
      (by rw [hsum]; exact hgt.le) hτ (fun z hz => Secular.roots2 hs p0 p1 z hz)
    have he' : ∑ i, (![v.x, v.y] i) ^ 2 / (![e.r0 ^ 2, e.r1 ^ 2] i) / (1 + l / (![e.r0 ^ 2, e.r1 ^ 2] i)) ^ 2 = 1 := by
      simpa only [Fin.sum_univ_two, Matrix.cons_val_zero, Matrix.cons_val_one] using he
    have N := fun (q : Fin 2 → ℝ) => Secular.nearest (p := ![e.r0 ^ 2, e.r1 ^ 2]) (v := ![v.x, v.y]) (q := q)
      (fun i => by fin_cases i <;> simp <;> positivity) hl0 he'
    simp only [Fin.sum_univ_two, Matrix.cons_val_zero, Matrix.cons_val_one] at N
    rw [hl]
    refine ⟨_, rfl, ⟨?_, fun q hq => ?_⟩, fun hp => ?_⟩
    · have := (N 0 (by simp)).1
      simp only [Spec.ellipse, Set.mem_setOf_eq, Vec2.add, add_sub_cancel_right, div_pow]
      simp only [div_pow] at this
      exact this.le
    · have := (N ![q.x - e.center.x, q.y - e.center.y] (by
        simpa only [Matrix.cons_val_zero, Matrix.cons_val_one, Spec.ellipse, Set.mem_setOf_eq, div_pow] using hq)).2
      simp only [Matrix.cons_val_zero, Matrix.cons_val_one] at this
      simp only [Spec.sqd2, Vec2.add]
      have e1 : p.x - (v.x / (1 + l / e.r0 ^ 2) + e.center.x) = v.x - v.x / (1 + l / e.r0 ^ 2) := by rw [hv, Vec2.sub]; ring
      have e2 : p.y - (v.y / (1 + l / e.r1 ^ 2) + e.center.y) = v.y - v.y / (1 + l / e.r1 ^ 2) := by rw [hv, Vec2.sub]; ring
      rw [e1, e2]
      have e3 : p.x - q.x = v.x - (q.x - e.center.x) := by rw [hv, Vec2.sub]; ring
      have e4 : p.y - q.y = v.y - (q.y - e.center.y) := by rw [hv, Vec2.sub]; ring
      rw [e3, e4]
      exact this
    · exfalso
      simp only [Spec.ellipse, Set.mem_setOf_eq, div_pow] at hp
      simp only [hv, Vec2.sub] at hgt
      linarith
  · rename_i hle
    push Not at hle
    have hm : p ∈ Spec.ellipse e := by
      simp only [Spec.ellipse, Set.mem_setOf_eq, div_pow]
      simpa only [Vec2.sub] using hle
    refine ⟨p, rfl, ⟨hm, fun q _ => ?_⟩, fun _ => rfl⟩
    simp only [Spec.sqd2, sub_self]
    nlinarith [sq_nonneg (p.x - q.x), sq_nonneg (p.y - q.y)]

private theorem shrink {x r m : ℝ} (hr : 0 < r) (hm : 0 ≤ m) : x * r / (r + m) / r = x / (r + m) ∧ x - x * r / (r + m) = m * (x / (r + m)) := by
  have : r + m ≠ 0 := by positivity
  constructor <;> field_simp <;> ring

private theorem grow {x r m : ℝ} (hr : 0 < r) (hm : 0 ≤ m) : (x / (r + m)) ^ 2 ≤ (x / r) ^ 2 := by
  rw [div_pow, div_pow]
  gcongr
  linarith

private theorem grow_lt {x r m : ℝ} (hr : 0 < r) (hm : 0 < m) (hx : x ≠ 0) : (x / (r + m)) ^ 2 < (x / r) ^ 2 := by
  rw [div_pow, div_pow]
  gcongr
  linarith

private theorem sq_pos_div {x r : ℝ} (hr : 0 < r) (h : (x / r) ^ 2 ≠ 0) : x ≠ 0 := by
  rintro rfl; simp at h

/-- **C57** (`zEllips2DPointIsInside`): with a positive margin every point of the ellipse is accepted; a
point that is accepted lies within the margin of the ellipse; with margin zero the accepted points are
those that stay in the ellipse when pushed away from its center by some factor. -/
theorem C57_ellipse_inside (e : Ellips2 ℝ) (h0 : 0 < e.r0) (h1 : 0 < e.r1) (p : Vec2 ℝ) {m : ℝ} (hm : 0 ≤ m) :
    (0 < m → p ∈ Spec.ellipse e → e.pointIsInside p m) ∧
    (e.pointIsInside p m → ∃ q ∈ Spec.ellipse e, Spec.sqd2 p q ≤ m ^ 2) ∧
    (e.pointIsInside p 0 ↔ ∃ k, 1 < k ∧ (e.center.add ((p.sub e.center).mul k)) ∈ Spec.ellipse e) := by
  refine ⟨fun hm' hp => ?_, fun hp => ?_, ?_⟩
  · simp only [Spec.ellipse, Set.mem_setOf_eq] at hp
    unfold Ellips2.pointIsInside
    by_cases hx : p.x - e.center.x = 0
    · by_cases hy : p.y - e.center.y = 0
      · rw [hx, hy]; norm_num
      · have := grow_lt h1 hm' hy
        have := grow (x := p.x - e.center.x) h0 hm
        linarith
    · have := grow_lt h0 hm' hx
      have := grow (x := p.y - e.center.y) h1 hm
      linarith
  · unfold Ellips2.pointIsInside at hp
    obtain ⟨a1, a2⟩ := shrink (x := p.x - e.center.x) h0 hm
    obtain ⟨b1, b2⟩ := shrink (x := p.y - e.center.y) h1 hm
    refine ⟨⟨e.center.x + (p.x - e.center.x) * e.r0 / (e.r0 + m), e.center.y + (p.y - e.center.y) * e.r1 / (e.r1 + m)⟩, ?_, ?_⟩
    · simp only [Spec.ellipse, Set.mem_setOf_eq, add_sub_cancel_left, a1, b1]
      exact hp.le
    · simp only [Spec.sqd2, ← sub_sub, a2, b2]
      nlinarith [sq_nonneg m]
  · unfold Ellips2.pointIsInside
    simp only [add_zero, Spec.ellipse, Set.mem_setOf_eq, Vec2.add, Vec2.mul, Vec2.sub, add_sub_cancel_left]
    set A := ((p.x - e.center.x) / e.r0) ^ 2 + ((p.y - e.center.y) / e.r1) ^ 2 with hA
    have hk : ∀ k : ℝ, (k * (p.x - e.center.x) / e.r0) ^ 2 + (k * (p.y - e.center.y) / e.r1) ^ 2 = k ^ 2 * A := fun k => by rw [hA]; ring
    have hA0 : 0 ≤ A := by rw [hA]; positivity
    simp only [hk]
    constructor
    · intro h
      refine ⟨1 + (1 - A) / 3, by linarith, ?_⟩
      nlinarith [mul_nonneg hA0 (sub_nonneg.2 h.le)]
    · rintro ⟨k, hk1, hk2⟩
      by_contra hc
      push Not at hc
      nlinarith

/-- The hypotheses hold for an ellipse with half axes 3 and 2, a point outside it and one inside. -/
example : let e : Ellips2 ℝ := ⟨⟨1, 0⟩, 3, 2⟩
    0 < e.r0 ∧ 0 < e.r1 ∧ (⟨9, 0⟩ : Vec2 ℝ) ∉ Spec.ellipse e ∧ (⟨2, 1⟩ : Vec2 ℝ) ∈ Spec.ellipse e := by
  simp only [Spec.ellipse, Set.mem_setOf_eq]; norm_num

/-- The margin is not a distance: a point within the margin of the ellipse may be rejected (half axes 5 and
1, margin 5, point at `(6, 5)`, whose distance to the ellipse is less than 5). -/
theorem C57_ellipse_margin_not_distance :
    ¬ (⟨⟨0, 0⟩, 5, 1⟩ : Ellips2 ℝ).pointIsInside ⟨6, 5⟩ 5 ∧
    ∃ q ∈ Spec.ellipse ⟨⟨0, 0⟩, 5, 1⟩, Spec.sqd2 (⟨6, 5⟩ : Vec2 ℝ) q < 5 ^ 2 := by
  constructor
  · unfold Ellips2.pointIsInside; norm_num
  · exact ⟨⟨4, 3/5⟩, by simp only [Spec.ellipse, Set.mem_setOf_eq]; norm_num, by simp only [Spec.sqd2]; norm_num⟩

/-! ## Ellipsoid -/

private theorem xform_pt (f : Frame3 ℝ) (X Y Z : ℝ) : f.xform ⟨X, Y, Z⟩ = pt f.pos f.att X Y Z := by
  ext <;> simp only [Frame3.xform, pt, zeo] <;> ring

private theorem xformInv_pt {f : Frame3 ℝ} (hf : f.att.t.mulMat f.att = .ident) (X Y Z : ℝ) : f.xformInv (pt f.pos f.att X Y Z) = ⟨X, Y, Z⟩ := by
  obtain ⟨⟨a, b, c⟩, d, e, g⟩ := cols_of hf
  ext <;> simp only [Frame3.xformInv, pt, zeo]
  · linear_combination X * a + Y * d + Z * e
  · linear_combination X * d + Y * b + Z * g
  · linear_combination X * e + Y * g + Z * c

private theorem mem_ellipsoid {e : Ellips ℝ} (he : e.f.att.t.mulMat e.f.att = .ident) (X Y Z : ℝ) :
    pt e.f.pos e.f.att X Y Z ∈ Spec.ellipsoid e ↔ (X / e.radius.x) ^ 2 + (Y / e.radius.y) ^ 2 + (Z / e.radius.z) ^ 2 ≤ 1 := by
  constructor
  · rintro ⟨s, t, u, h, h1, h2, h3⟩
    obtain ⟨rfl, rfl, rfl⟩ := pt_inj he (show pt e.f.pos e.f.att X Y Z = pt e.f.pos e.f.att s t u from Vec3.ext h1 h2 h3)
    exact h
  · intro h
    exact ⟨X, Y, Z, h, rfl, rfl, rfl⟩

private theorem inside_pt {e : Ellips ℝ} (he : e.f.att.t.mulMat e.f.att = .ident) (X Y Z m : ℝ) :
    e.pointIsInside (pt e.f.pos e.f.att X Y Z) m ↔
      (X / (e.radius.x + m)) ^ 2 + (Y / (e.radius.y + m)) ^ 2 + (Z / (e.radius.z + m)) ^ 2 < 1 := by
  rw [Ellips.pointIsInside, xformInv_pt he]

private theorem dist_ed (p q : Vec3 ℝ) : p.dist q = Spec.ed p q := by
  rw [Vec3.dist, Spec.ed]; congr 1; simp only [Spec.sqd, Vec3.sqrDist, Vec3.sqrNorm, Vec3.inner, Vec3.sub]; ring

/-- **C57** (`zEllips3DPointIsInside`): with a positive margin every point of the ellipsoid is accepted; a
point that is accepted lies within the margin of the ellipsoid; with margin zero the accepted points are
those that stay in the ellipsoid when pushed away from its center by some factor. -/
theorem C57_ellips_inside (e : Ellips ℝ) (he : e.f.att.t.mulMat e.f.att = .ident) (hx : 0 < e.radius.x) (hy : 0 < e.radius.y)
    (hz : 0 < e.radius.z) (p : Vec3 ℝ) {m : ℝ} (hm : 0 ≤ m) :
    (0 < m → p ∈ Spec.ellipsoid e → e.pointIsInside p m) ∧
    (e.pointIsInside p m → ∃ q ∈ Spec.ellipsoid e, Spec.ed p q ≤ m) ∧
    (e.pointIsInside p 0 ↔ ∃ k, 1 < k ∧ (e.f.pos.add ((p.sub e.f.pos).mul k)) ∈ Spec.ellipsoid e) := by
  obtain ⟨X, Y, Z, rfl⟩ := pt_surj he e.f.pos p
  refine ⟨fun hm' hp => ?_, fun hp => ?_, ?_⟩
  · rw [mem_ellipsoid he] at hp
    rw [inside_pt he]
    have gx := grow (x := X) hx hm
    have gy := grow (x := Y) hy hm
    have gz := grow (x := Z) hz hm
    by_cases h1 : X = 0
    · by_cases h2 : Y = 0
      · by_cases h3 : Z = 0
        · rw [h1, h2, h3]; norm_num
        · linarith [grow_lt hz hm' h3]
      · linarith [grow_lt hy hm' h2]
    · linarith [grow_lt hx hm' h1]
  · rw [inside_pt he] at hp
    obtain ⟨a1, a2⟩ := shrink (x := X) hx hm
    obtain ⟨b1, b2⟩ := shrink (x := Y) hy hm
    obtain ⟨c1, c2⟩ := shrink (x := Z) hz hm
    refine ⟨pt e.f.pos e.f.att (X * e.radius.x / (e.radius.x + m)) (Y * e.radius.y / (e.radius.y + m)) (Z * e.radius.z / (e.radius.z + m)), ?_, ?_⟩
    · rw [mem_ellipsoid he, a1, b1, c1]; exact hp.le
    · rw [ed_le hm, sqd_pt he, a2, b2, c2]
      nlinarith [sq_nonneg m]
  · rw [inside_pt he]
    have hk : ∀ k : ℝ, e.f.pos.add (((pt e.f.pos e.f.att X Y Z).sub e.f.pos).mul k) = pt e.f.pos e.f.att (k * X) (k * Y) (k * Z) := fun k => by
      ext <;> simp only [pt, zeo] <;> ring
    simp only [hk, mem_ellipsoid he, add_zero]
    set A := (X / e.radius.x) ^ 2 + (Y / e.radius.y) ^ 2 + (Z / e.radius.z) ^ 2 with hA
    have hk : ∀ k : ℝ, (k * X / e.radius.x) ^ 2 + (k * Y / e.radius.y) ^ 2 + (k * Z / e.radius.z) ^ 2 = k ^ 2 * A := fun k => by rw [hA]; ring
    have hA0 : 0 ≤ A := by rw [hA]; positivity
    simp only [hk]
    constructor
    · intro h
      refine ⟨1 + (1 - A) / 3, by linarith, ?_⟩
      nlinarith [mul_nonneg hA0 (sub_nonneg.2 h.le)]
    · rintro ⟨k, hk1, hk2⟩
      by_contra hc
      push Not at hc
      nlinarith

/-- **C57** (`zEllips3DClosest`, `zEllips3DDistFromPoint`): the search succeeds for every point.  A point
that is in the ellipsoid, or is not accepted by the inside test with margin `zTOL`, gets the nearest point
of the ellipsoid and the distance to it.  A point in the thin shell between gets itself and distance 0, and
some point of the ellipsoid is within `zTOL` of it. -/
theorem C57_ellips_closest {solve : List ℝ → List ℂ} (hs : Spec.ExactSolver solve) {τ : ℝ} (hτ : 0 ≤ τ) (e : Ellips ℝ)
    (he : e.f.att.t.mulMat e.f.att = .ident) (hx : 0 < e.radius.x) (hy : 0 < e.radius.y) (hz : 0 < e.radius.z) (p : Vec3 ℝ) :
    ∃ r, e.closest solve τ p = some r ∧ e.distFromPoint solve τ p = some r.1 ∧
      (p ∈ Spec.ellipsoid e ∨ ¬ e.pointIsInside p τ → Spec.IsNearest (Spec.ellipsoid e) p r.2 ∧ r.1 = Spec.ed p r.2) ∧
      (e.pointIsInside p τ → r = (0, p) ∧ ∃ q ∈ Spec.ellipsoid e, Spec.ed p q ≤ τ) := by
  suffices H : ∃ r, e.closest solve τ p = some r ∧
      (p ∈ Spec.ellipsoid e ∨ ¬ e.pointIsInside p τ → Spec.IsNearest (Spec.ellipsoid e) p r.2 ∧ r.1 = Spec.ed p r.2) ∧
      (e.pointIsInside p τ → r = (0, p) ∧ ∃ q ∈ Spec.ellipsoid e, Spec.ed p q ≤ τ) by
    obtain ⟨r, h1, h2⟩ := H
    exact ⟨r, h1, by rw [Ellips.distFromPoint, h1, Option.map_some], h2⟩
  have hself : Spec.sqd p p = 0 := by simp [Spec.sqd]
  unfold Ellips.closest
  split
  · rename_i hin
    refine ⟨_, rfl, fun h => ?_, fun _ => ⟨rfl, (C57_ellips_inside e he hx hy hz p hτ).2.1 hin⟩⟩
    rcases h with h | h
    · refine ⟨⟨h, fun q _ => ?_⟩, ?_⟩
      · dsimp only; rw [hself, Spec.sqd]; positivity
      · dsimp only; rw [Spec.ed, hself, Real.sqrt_zero]
    · exact absurd hin h
  · rename_i hin
    obtain ⟨X, Y, Z, rfl⟩ := pt_surj he e.f.pos p
    have hge : 1 ≤ (X / e.radius.x) ^ 2 + (Y / e.radius.y) ^ 2 + (Z / e.radius.z) ^ 2 := by
      rw [inside_pt he] at hin
      push Not at hin
      linarith [grow (x := X) hx hτ, grow (x := Y) hy hτ, grow (x := Z) hz hτ]
    rw [xformInv_pt he]
    set rx := e.radius.x with hrx
    set ry := e.radius.y with hry
    set rz := e.radius.z with hrz
    have p0 : 0 < rx * rx := by positivity
    have p1 : 0 < ry * ry := by positivity
    have p2 : 0 < rz * rz := by positivity
    obtain ⟨l, hl, hl0, hl1⟩ := Secular.pick (a := ![(X / rx) ^ 2, (Y / ry) ^ 2, (Z / rz) ^ 2]) (p := ![rx * rx, ry * ry, rz * rz]) (τ := τ)
      (roots := solve (ellipsCoeff ((X / rx) ^ 2) ((Y / ry) ^ 2) ((Z / rz) ^ 2) (rx * rx) (ry * ry) (rz * rz)))
      (fun i => by fin_cases i <;> simp <;> positivity) (fun i => by fin_cases i <;> simp <;> positivity)
      (by simpa [Fin.sum_univ_three] using hge) hτ (fun z hz' => Secular.roots3 hs p0 p1 p2 z hz')
    have he' : ∑ i, (![X, Y, Z] i) ^ 2 / (![rx * rx, ry * ry, rz * rz] i) / (1 + l / (![rx * rx, ry * ry, rz * rz] i)) ^ 2 = 1 := by
      simp only [Fin.sum_univ_three, Matrix.cons_val_zero, Matrix.cons_val_one, Matrix.cons_val] at hl1 ⊢
      simpa only [div_pow, sq rx, sq ry, sq rz] using hl1
    have N := fun (q : Fin 3 → ℝ) => Secular.nearest (p := ![rx * rx, ry * ry, rz * rz]) (v := ![X, Y, Z]) (q := q)
      (fun i => by fin_cases i <;> simp <;> positivity) hl0 he'
    simp only [Fin.sum_univ_three, Matrix.cons_val_zero, Matrix.cons_val_one, Matrix.cons_val] at N
    rw [ellipsClosest]
    simp only [hl, Option.map_some]
    refine ⟨_, rfl, fun _ => ⟨⟨?_, fun q hq => ?_⟩, ?_⟩, fun h => absurd h hin⟩
    · dsimp only
      rw [xform_pt, mem_ellipsoid he]
      have := (N 0 (by simp)).1
      simp only [div_pow] at this ⊢
      rw [sq e.radius.x, sq e.radius.y, sq e.radius.z]
      exact this.le
    · dsimp only
      obtain ⟨s, t, u, rfl⟩ := pt_surj he e.f.pos q
      rw [mem_ellipsoid he] at hq
      rw [xform_pt, sqd_pt he, sqd_pt he]
      have := (N ![s, t, u] (by
        simp only [Matrix.cons_val_zero, Matrix.cons_val_one, Matrix.cons_val]
        simp only [div_pow, ← hrx, ← hry, ← hrz, sq rx, sq ry, sq rz] at hq
        exact hq)).2
      simpa only [Matrix.cons_val_zero, Matrix.cons_val_one, Matrix.cons_val] using this
    · exact dist_ed _ _

/-- The hypotheses hold for an ellipsoid with a rotated frame, a point outside and one inside. -/
example : let e : Ellips ℝ := ⟨⟨3, 2, 1⟩, ⟨⟨1, 1, 1⟩, ⟨⟨3/5, 4/5, 0⟩, ⟨-4/5, 3/5, 0⟩, ⟨0, 0, 1⟩⟩⟩⟩
    e.f.att.t.mulMat e.f.att = .ident ∧ 0 < e.radius.x ∧ 0 < e.radius.y ∧ 0 < e.radius.z ∧
      (⟨1, 1, 3/2⟩ : Vec3 ℝ) ∈ Spec.ellipsoid e ∧ ¬ e.pointIsInside ⟨1, 1, 9⟩ (1/100) := by
  refine ⟨by ext <;> simp only [zeo] <;> norm_num, by norm_num, by norm_num, by norm_num, ⟨0, 0, 1/2, by norm_num, by norm_num, by norm_num, by norm_num⟩, ?_⟩
  simp only [Ellips.pointIsInside, Frame3.xformInv, zeo]
  norm_num

/-! ## Elliptic cylinder -/

private theorem ecyl_pt {c : ECyl ℝ} (hc : Spec.ProperECyl c) (h0 : 0 < Spec.ed c.c0 c.c1) :
    ∃ E : Mat3 ℝ, E.t.mulMat E = .ident ∧ E.x = c.rv0 ∧ E.y = c.rv1 ∧ c.axis = E.z.mul (Spec.ed c.c0 c.c1) ∧
      E.z = c.axis.mul (1 / Spec.ed c.c0 c.c1) ∧
      ∀ X Y Z, pt c.c0 E X Y Z ∈ Spec.ecylinder c.c0 c.c1 c.r0 c.r1 c.rv0 c.rv1 ↔
        (X / c.r0) ^ 2 + (Y / c.r1) ^ 2 ≤ 1 ∧ 0 ≤ Z ∧ Z ≤ Spec.ed c.c0 c.c1 := by
  have hE := ecyl_frame hc h0
  set h := Spec.ed c.c0 c.c1 with hh
  set E : Mat3 ℝ := ⟨c.rv0, c.rv1, c.axis.mul (1 / h)⟩ with hEd
  have hax : c.axis = E.z.mul h := by
    ext <;> simp only [hEd, Vec3.mul] <;> field_simp
  refine ⟨E, hE, rfl, rfl, hax, rfl, fun X Y Z => ?_⟩
  have a1 := congrArg Vec3.x hax
  have a2 := congrArg Vec3.y hax
  have a3 := congrArg Vec3.z hax
  simp only [ECyl.axis, Vec3.sub, Vec3.mul] at a1 a2 a3
  have seg : ∀ a b : ℝ, a + b = 1 → ∀ s t, (⟨(Spec.comb a b 0 0 c.c0 c.c1 c.c0 c.c0).x + s * c.rv0.x + t * c.rv1.x,
      (Spec.comb a b 0 0 c.c0 c.c1 c.c0 c.c0).y + s * c.rv0.y + t * c.rv1.y, (Spec.comb a b 0 0 c.c0 c.c1 c.c0 c.c0).z + s * c.rv0.z + t * c.rv1.z⟩ : Vec3 ℝ)
      = pt c.c0 E s t (b * h) := by
    intro a b hab s t
    ext <;> simp only [pt, Spec.comb, hEd, Vec3.mul] <;> simp only [hEd, Vec3.mul] at a1 a2 a3
    · linear_combination c.c0.x * hab + b * a1
    · linear_combination c.c0.y * hab + b * a2
    · linear_combination c.c0.z * hab + b * a3
  constructor
  · rintro ⟨m, ⟨a, b, ha', hb', hab, rfl⟩, s, t, hst, q1, q2, q3⟩
    have he : pt c.c0 E X Y Z = pt c.c0 E s t (b * h) := by
      rw [← seg a b hab s t]
      exact Vec3.ext q1 q2 q3
    obtain ⟨rfl, rfl, rfl⟩ := pt_inj hE he
    refine ⟨hst, by positivity, ?_⟩
    have : b ≤ 1 := by linarith
    nlinarith
  · rintro ⟨hst, hz0, hz1⟩
    refine ⟨Spec.comb (1 - Z / h) (Z / h) 0 0 c.c0 c.c1 c.c0 c.c0, ⟨1 - Z / h, Z / h, ?_, by positivity, by ring, rfl⟩, X, Y, hst, ?_⟩
    · have : Z / h ≤ 1 := by rw [div_le_one h0]; exact hz1
      linarith
    · have := seg (1 - Z / h) (Z / h) (by ring) X Y
      rw [div_mul_cancel₀ _ h0.ne'] at this
      exact ⟨(congrArg Vec3.x this).symm, (congrArg Vec3.y this).symm, (congrArg Vec3.z this).symm⟩

/-- **C57** (`zECyl3DClosest`, `zECyl3DDistFromPoint`): with orthonormal radial vectors, positive radii and
a height below `1 / zTOL`, the search succeeds for every point, and the result is the nearest point of the
elliptic cylinder with the distance to it. -/
theorem C57_ecyl_closest {solve : List ℝ → List ℂ} (hs : Spec.ExactSolver solve) {τ : ℝ} (hτ : 0 ≤ τ) (hτ1 : τ < 1) (c : ECyl ℝ)
    (hc : Spec.ProperECyl c) (h0 : 0 < c.r0) (h1 : 0 < c.r1) (hh : 0 < Spec.ed c.c0 c.c1) (hh' : τ * Spec.ed c.c0 c.c1 < 1)
    (p : Vec3 ℝ) (old : Mat3 ℝ) :
    ∃ r, c.closest solve τ p old = some r ∧ Spec.IsNearest (Spec.ecylinder c.c0 c.c1 c.r0 c.r1 c.rv0 c.rv1) p r.2 ∧ r.1 = Spec.ed p r.2 := by
  obtain ⟨E, hE, ex, ey, hax, -, hmem⟩ := ecyl_pt hc hh
  set h := Spec.ed c.c0 c.c1 with hhd
  obtain ⟨X, Y, Z, rfl⟩ := pt_surj hE c.c0 p
  have hcat : Mat3.catRatio τ c.rv0 c.rv1 c.axis ((pt c.c0 E X Y Z).sub c.c0) old = some ⟨X, Y, Z / h⟩ := by
    have e1 : E.x.mul 1 = c.rv0 := by rw [ex]; ext <;> simp [Vec3.mul]
    have e2 : E.y.mul 1 = c.rv1 := by rw [ey]; ext <;> simp [Vec3.mul]
    have := catRatio_pt (B := max 1 h) hτ hτ1 hE one_pos one_pos hh (le_max_left _ _) (le_max_left _ _) (le_max_right _ _) (by
      rcases le_total h 1 with hl | hl
      · right; rw [max_eq_left hl]; nlinarith
      · left; rw [max_eq_right hl]; nlinarith) c.c0 X Y Z old
    rw [e1, e2, ← hax, div_one, div_one] at this
    exact this
  obtain ⟨v, hv, hn, -, -⟩ := C57_ellipse_closest hs hτ (⟨⟨0, 0⟩, c.r0, c.r1⟩ : Ellips2 ℝ) h0 h1 ⟨X, Y⟩
  rw [ECyl.closest]
  simp only [hcat, hv]
  have hcp : ((c.c0.cat (zLimit (Z / h) 0 1) c.axis).cat v.x c.rv0).cat v.y c.rv1 = pt c.c0 E v.x v.y (zLimit (Z / h) 0 1 * h) := by
    rw [hax, ← ex, ← ey]
    ext <;> simp only [pt, Vec3.cat, Vec3.mul] <;> ring
  have hv' : (v.x / c.r0) ^ 2 + (v.y / c.r1) ^ 2 ≤ 1 := by
    have := hn.1
    simpa only [Spec.ellipse, Set.mem_setOf_eq, sub_zero] using this
  have hlim : 0 ≤ zLimit (Z / h) 0 1 * h ∧ zLimit (Z / h) 0 1 * h ≤ h ∧ ∀ w, 0 ≤ w → w ≤ h → (Z - zLimit (Z / h) 0 1 * h) ^ 2 ≤ (Z - w) ^ 2 := by
    unfold zLimit
    split_ifs with g1 g2
    · have : Z < 0 := by rwa [div_lt_iff₀ hh, zero_mul] at g1
      exact ⟨by simp, by simpa using hh.le, fun w hw _ => by nlinarith⟩
    · have : h < Z := by rwa [lt_div_iff₀ hh, one_mul] at g2
      exact ⟨by simpa using hh.le, by simp, fun w _ hw => by nlinarith⟩
    · rw [div_mul_cancel₀ _ hh.ne']
      push Not at g1 g2
      rw [le_div_iff₀ hh, zero_mul] at g1
      rw [div_le_iff₀ hh, one_mul] at g2
      exact ⟨g1, g2, fun w _ _ => by rw [sub_self]; nlinarith [sq_nonneg (Z - w)]⟩
  refine ⟨_, rfl, ⟨?_, fun q hq => ?_⟩, ?_⟩
  · dsimp only; rw [hcp, hmem]; exact ⟨hv', hlim.1, hlim.2.1⟩
  · dsimp only
    obtain ⟨s, t, u, rfl⟩ := pt_surj hE c.c0 q
    rw [hmem] at hq
    rw [hcp, sqd_pt hE, sqd_pt hE]
    have k1 := hn.2 ⟨s, t⟩ (by simpa only [Spec.ellipse, Set.mem_setOf_eq, sub_zero] using hq.1)
    have k2 := hlim.2.2 u hq.2.1 hq.2.2
    simp only [Spec.sqd2] at k1
    linarith
  · dsimp only
    rw [dist_ed, Spec.ed, Spec.ed]; congr 1; simp only [Spec.sqd]; ring

/-- **C57** (`zECyl3DPointIsInside`): with orthonormal radial vectors and an axis that is not tiny, with a
positive margin every point of the elliptic cylinder is accepted; an accepted point is within the margin of
the elliptic cylinder along the axis and across it; with margin zero accepted points are in it. -/
theorem C57_ecyl_inside {τ : ℝ} (hτ : 0 ≤ τ) (hτ1 : τ < 1) (c : ECyl ℝ) (hc : Spec.ProperECyl c) (h0 : 0 < c.r0) (h1 : 0 < c.r1)
    (ha : ¬ c.axis.isTol τ) (p : Vec3 ℝ) {m : ℝ} (hm : 0 ≤ m) (old : Mat3 ℝ) :
    (0 < m → p ∈ Spec.ecylinder c.c0 c.c1 c.r0 c.r1 c.rv0 c.rv1 → c.pointIsInside τ p m old) ∧
    (c.pointIsInside τ p m old → ∃ q ∈ Spec.ecylinder c.c0 c.c1 c.r0 c.r1 c.rv0 c.rv1, Spec.sqd p q ≤ 2 * m ^ 2) ∧
    (c.pointIsInside τ p 0 old → p ∈ Spec.ecylinder c.c0 c.c1 c.r0 c.r1 c.rv0 c.rv1) := by
  obtain ⟨-, -, hp0⟩ := normalize_unit hτ (old := c.axis) ha
  have hnorm : c.axis.norm = Spec.ed c.c0 c.c1 := by
    rw [← dist_ed, Vec3.dist, ECyl.axis, Vec3.norm]; congr 1; simp only [Vec3.sqrDist, Vec3.sqrNorm, Vec3.inner, Vec3.sub]; ring
  rw [hnorm] at hp0
  obtain ⟨E, hE, ex, ey, hax, ez, hmem⟩ := ecyl_pt hc hp0
  set h := Spec.ed c.c0 c.c1 with hhd
  obtain ⟨X, Y, Z, rfl⟩ := pt_surj hE c.c0 p
  have hn : c.axis.normalize τ c.axis = (h, E.z) := by
    rw [Vec3.normalize, if_neg ha, Vec3.normalizeNC, hnorm, ez]
  have hcat : Mat3.catRatio τ c.rv0 c.rv1 E.z ((pt c.c0 E X Y Z).sub c.c0) old = some ⟨X, Y, Z⟩ := by
    have e1 : ∀ v : Vec3 ℝ, v.mul 1 = v := fun v => by ext <;> simp [Vec3.mul]
    have := catRatio_pt (B := 1) hτ hτ1 hE one_pos one_pos one_pos le_rfl le_rfl le_rfl (by left; linarith) c.c0 X Y Z old
    rw [e1, e1, e1, div_one, div_one, div_one, ex, ey] at this
    exact this
  have hin : ∀ m, c.pointIsInside τ (pt c.c0 E X Y Z) m old ↔ (-m < Z ∧ Z < h + m) ∧
      (X / (c.r0 + m)) ^ 2 + (Y / (c.r1 + m)) ^ 2 < 1 := by
    intro m
    rw [ECyl.pointIsInside]
    simp only [hn, hcat, Ellips2.pointIsInside, sub_zero]
    split
    · rename_i hcond
      refine iff_of_false not_false fun h' => ?_
      rcases hcond with h1 | h1 <;> linarith [h'.1.1, h'.1.2]
    · rename_i hcond
      push Not at hcond
      exact ⟨fun h' => ⟨hcond, h'⟩, fun h' => h'.2⟩
  refine ⟨fun hm' hp => ?_, fun hp => ?_, fun hp => ?_⟩
  · rw [hmem] at hp
    rw [hin]
    refine ⟨⟨by linarith, by linarith⟩, ?_⟩
    have gx := grow (x := X) h0 hm
    have gy := grow (x := Y) h1 hm
    by_cases g1 : X = 0
    · by_cases g2 : Y = 0
      · rw [g1, g2]; norm_num
      · linarith [grow_lt h1 hm' g2]
    · linarith [grow_lt h0 hm' g1]
  · rw [hin] at hp
    obtain ⟨a1, a2⟩ := shrink (x := X) h0 hm
    obtain ⟨b1, b2⟩ := shrink (x := Y) h1 hm
    refine ⟨pt c.c0 E (X * c.r0 / (c.r0 + m)) (Y * c.r1 / (c.r1 + m)) (min (max Z 0) h), ?_, ?_⟩
    · rw [hmem, a1, b1]
      exact ⟨hp.2.le, le_min (le_max_right _ _) hp0.le, min_le_right _ _⟩
    · rw [sqd_pt hE, a2, b2]
      have hz : (Z - min (max Z 0) h) ^ 2 ≤ m ^ 2 := by
        refine sq_le_sq' (by
          rcases le_total Z 0 with g | g
          · rw [max_eq_right g, min_eq_left hp0.le]; linarith [hp.1.1]
          · rw [max_eq_left g]; linarith [min_le_left Z h]) ?_
        rcases le_total Z 0 with g | g
        · rw [max_eq_right g, min_eq_left hp0.le]; linarith
        · rw [max_eq_left g]
          rcases le_total Z h with g' | g'
          · rw [min_eq_left g']; linarith
          · rw [min_eq_right g']; linarith [hp.1.2]
      nlinarith [sq_nonneg m, hp.2]
  · rw [hin] at hp
    rw [hmem]
    simp only [add_zero, neg_zero] at hp
    exact ⟨hp.2.le, hp.1.1.le, hp.1.2.le⟩

/-- The hypotheses hold for an elliptic cylinder with a slanted axis of length 5, and the default
tolerance. -/
example : let c : ECyl ℝ := ⟨⟨1, 0, 0⟩, ⟨4, 4, 0⟩, 2, 1, ⟨-4/5, 3/5, 0⟩, ⟨0, 0, 1⟩⟩
    Spec.ProperECyl c ∧ 0 < c.r0 ∧ 0 < c.r1 ∧ 0 < Spec.ed c.c0 c.c1 ∧ (1e-12 : ℝ) * Spec.ed c.c0 c.c1 < 1 ∧ ¬ c.axis.isTol (1e-12 : ℝ) := by
  have h5 : Spec.ed (⟨1, 0, 0⟩ : Vec3 ℝ) ⟨4, 4, 0⟩ = 5 := by
    rw [Spec.ed, Real.sqrt_eq_iff_mul_self_eq (by simp only [Spec.sqd]; norm_num) (by norm_num), Spec.sqd]; norm_num
  dsimp only
  rw [h5]
  refine ⟨⟨⟨by norm_num, by norm_num, by norm_num⟩, by norm_num, by norm_num⟩, by norm_num, by norm_num, by norm_num, by norm_num, ?_⟩
  rintro ⟨h, -, -⟩
  simp only [ECyl.axis, Vec3.sub, zIsTol] at h
  norm_num at h

/-- The default construction breaks the inside test: an elliptic cylinder with both radii 1 and height 2,
created without a reference vector, accepts the point `(1, 0, 3/2)` at distance `3/2` from its axis. -/
theorem C57_ecyl_noref_inside_wrong {τ : ℝ} (hτ : 0 ≤ τ) (hτ' : τ ≤ 1/4) (old : ECyl ℝ) (junk : Mat3 ℝ) :
    (ECyl.create τ ⟨0, 0, 0⟩ ⟨2, 0, 0⟩ 1 1 none old).pointIsInside τ ⟨1, 0, 3/2⟩ 0 junk ∧
    ∀ q ∈ Spec.line (⟨0, 0, 0⟩ : Vec3 ℝ) ⟨1, 0, 0⟩, (3/2) ^ 2 ≤ Spec.sqd ⟨1, 0, 3/2⟩ q := by
  constructor
  · have n2 : ∀ v : Vec3 ℝ, v.sqrNorm = 4 → v.norm = 2 := fun v hv => by
      rw [Vec3.norm, hv, Real.sqrt_eq_iff_mul_self_eq (by norm_num) (by norm_num)]; norm_num
    have hb : ¬ zIsTol (2 : ℝ) τ := by simp only [zIsTol]; rw [abs_of_pos (by norm_num)]; linarith
    have hb' : ¬ zIsTol (-2 : ℝ) τ := by simp only [zIsTol]; rw [abs_neg, abs_of_pos (by norm_num)]; linarith
    have ho : (⟨2, 0, 0⟩ : Vec3 ℝ).orthoSpace τ = some (⟨0, -1, 0⟩, ⟨0, 0, -2⟩) := by
      have e1 : (⟨2, 0, 0⟩ : Vec3 ℝ).orthonormal τ = (true, ⟨0, -1, 0⟩) := by
        unfold Vec3.orthonormal
        dsimp only
        rw [if_pos (Or.inl hb), if_neg (fun h => hb' h.2.1), Vec3.normalize, if_neg (fun h => hb' h.2.1), Vec3.normalizeNC,
          n2 _ (by simp only [zeo]; norm_num)]
        simp only [Prod.mk.injEq, true_and]
        ext <;> simp only [Vec3.mul] <;> norm_num
      unfold Vec3.orthoSpace
      dsimp only
      rw [e1]
      dsimp only
      rw [if_neg (by decide)]
      simp only [Option.some.injEq, Prod.mk.injEq, true_and]
      ext <;> simp only [zeo] <;> norm_num
    have hcr : ECyl.create τ ⟨0, 0, 0⟩ ⟨2, 0, 0⟩ 1 1 none old = ⟨⟨0, 0, 0⟩, ⟨2, 0, 0⟩, 1, 1, ⟨0, -1, 0⟩, ⟨0, 0, -2⟩⟩ := by
      simp only [ECyl.create, ECyl.defAxis, ECyl.axis, Vec3.sub, sub_zero, ho]
    rw [hcr]
    have hn : (⟨2, 0, 0⟩ : Vec3 ℝ).normalize τ ⟨2, 0, 0⟩ = (2, ⟨1, 0, 0⟩) := by
      rw [Vec3.normalize, if_neg (fun h => hb h.1), Vec3.normalizeNC, n2 _ (by simp only [zeo]; norm_num)]
      simp only [Prod.mk.injEq, true_and]
      ext <;> simp only [Vec3.mul] <;> norm_num
    have hcat := catRatio_pt (E := ⟨⟨0, -1, 0⟩, ⟨0, 0, -1⟩, ⟨1, 0, 0⟩⟩) (d0 := 1) (d1 := 2) (d2 := 1) (B := 2) hτ (by linarith)
      (by ext <;> simp only [zeo] <;> norm_num) one_pos two_pos one_pos (by norm_num) (by norm_num) (by norm_num) (by left; linarith)
      ⟨0, 0, 0⟩ 0 (-(3/2)) 1 junk
    have hcat' : Mat3.catRatio τ (⟨0, -1, 0⟩ : Vec3 ℝ) ⟨0, 0, -2⟩ ⟨1, 0, 0⟩ ⟨1, 0, 3/2⟩ junk = some ⟨0, -(3/4), 1⟩ := by
      convert hcat using 2 <;> ext <;> simp only [pt, Vec3.mul, Vec3.sub] <;> norm_num
    simp only [ECyl.pointIsInside, ECyl.axis, Vec3.sub, sub_zero, hn, hcat', Ellips2.pointIsInside]
    norm_num
  · rintro q ⟨t, rfl⟩
    simp only [Spec.sqd]
    norm_num
    nlinarith [sq_nonneg (1 - t)]

end Zeo
