import Verif.Lemmas.Triangle
import Verif.Props.C22

/-! # C24: lines and planes -/

namespace Zeo

/-- The projection on a plane with unit normal lies on the plane, is the nearest point, and the
returned value is the signed distance along the normal. -/
theorem C24_planeProj (pl : Plane3 ℝ) (p : Vec3 ℝ) (hn : pl.norm.sqrNorm = 1) :
    Spec.IsNearest (Spec.plane pl.org pl.norm) p (pl.projPoint p).2 ∧
    p = ((pl.projPoint p).2).add (pl.norm.mul (pl.projPoint p).1) ∧
    |(pl.projPoint p).1| = Spec.ed p (pl.projPoint p).2 := by
  have hn' : pl.norm.x * pl.norm.x + pl.norm.y * pl.norm.y + pl.norm.z * pl.norm.z = 1 := by simpa only [zeo] using hn
  generalize hd : pl.distFromPoint p = d
  have hd' : (p.x - pl.org.x) * pl.norm.x + (p.y - pl.org.y) * pl.norm.y + (p.z - pl.org.z) * pl.norm.z = d := by
    rw [← hd]; simp only [Plane3.distFromPoint, zeo]
  have e : pl.projPoint p = (d, p.cat (-d) pl.norm) := by simp only [Plane3.projPoint, hd]
  have hsq : Spec.sqd p (p.cat (-d) pl.norm) = d ^ 2 := by
    have : Spec.sqd p (p.cat (-d) pl.norm) = d^2 * pl.norm.sqrNorm := by simp only [Spec.sqd, zeo]; ring
    rw [this, hn, mul_one]
  rw [e]
  refine ⟨⟨?_, fun q hq => ?_⟩, ?_, ?_⟩
  · show ((p.cat (-d) pl.norm).x - _) * _ + ((p.cat (-d) pl.norm).y - _) * _ + ((p.cat (-d) pl.norm).z - _) * _ = 0
    simp only [zeo]
    linear_combination hd' - d * hn'
  · show Spec.sqd p (p.cat (-d) pl.norm) ≤ _
    rw [hsq]
    have hq' : (q.x - pl.org.x) * pl.norm.x + (q.y - pl.org.y) * pl.norm.y + (q.z - pl.org.z) * pl.norm.z = 0 := hq
    -- Cauchy-Schwarz: d = (p - q).n
    have h1 : d = (p.sub q).inner pl.norm := by simp only [zeo]; linear_combination hq' - hd'
    have h2 := lagrange3 (p.sub q) pl.norm
    have h3 := Vec3.sqrNorm_nonneg ((p.sub q).outer pl.norm)
    have h4 : (p.sub q).sqrNorm = Spec.sqd p q := by simp only [Spec.sqd, zeo]; ring
    rw [hn, mul_one, h4, ← h1] at h2
    linarith
  · ext <;> simp only [zeo] <;> ring
  · show |d| = Spec.ed p (p.cat (-d) pl.norm)
    rw [Spec.ed, hsq, Real.sqrt_sq_eq_abs]

/-- The projection on a line with unit direction is the nearest point, and `zLine3DDistFromPoint` its
distance. -/
theorem C24_lineProj (l : Line3 ℝ) (p : Vec3 ℝ) (hd : l.dir.sqrNorm = 1) :
    Spec.IsNearest (Spec.line l.org l.dir) p (l.projPoint p) ∧
    l.distFromPoint p = Spec.ed p (l.projPoint p) := by
  have hd' : l.dir.x * l.dir.x + l.dir.y * l.dir.y + l.dir.z * l.dir.z = 1 := by simpa only [zeo] using hd
  have key : ∀ t : ℝ, Spec.sqd p ⟨l.org.x + t * l.dir.x, l.org.y + t * l.dir.y, l.org.z + t * l.dir.z⟩ =
      ((p.sub l.org).outer l.dir).sqrNorm + (t - l.dir.inner (p.sub l.org))^2 := by
    intro t
    have : Spec.sqd p ⟨l.org.x + t * l.dir.x, l.org.y + t * l.dir.y, l.org.z + t * l.dir.z⟩ =
      (p.sub l.org).sqrNorm - 2 * t * l.dir.inner (p.sub l.org) + t^2 * l.dir.sqrNorm := by
      simp only [Spec.sqd, zeo]; ring
    rw [this, ← lagrange3, hd]
    have : (p.sub l.org).inner l.dir = l.dir.inner (p.sub l.org) := by simp only [zeo]; ring
    rw [this]; ring
  have e : l.projPoint p = ⟨l.org.x + l.dir.inner (p.sub l.org) * l.dir.x, l.org.y + l.dir.inner (p.sub l.org) * l.dir.y, l.org.z + l.dir.inner (p.sub l.org) * l.dir.z⟩ := by
    unfold Line3.projPoint Line3.point
    generalize l.dir.inner (p.sub l.org) = k
    ext <;> simp only [zeo]
  rw [e]
  refine ⟨⟨⟨_, rfl⟩, ?_⟩, ?_⟩
  · rintro q ⟨t, rfl⟩
    rw [key, key, sub_self]
    nlinarith [sq_nonneg (t - l.dir.inner (p.sub l.org))]
  · rw [Spec.ed, key, sub_self, Line3.distFromPoint, Vec3.norm]; congr 1; ring

/-- The same in the plane. -/
theorem C24_line2Proj (l : Line2 ℝ) (p : Vec2 ℝ) (hd : l.dir.sqrNorm = 1) :
    Spec.IsNearest2 (Spec.line2 l.org l.dir) p (l.projPoint p) ∧
    l.distFromPoint p = Spec.ed2 p (l.projPoint p) := by
  have key : ∀ t : ℝ, Spec.sqd2 p ⟨l.org.x + t * l.dir.x, l.org.y + t * l.dir.y⟩ =
      ((p.sub l.org).outer l.dir)^2 + (t - l.dir.inner (p.sub l.org))^2 := by
    intro t
    have : Spec.sqd2 p ⟨l.org.x + t * l.dir.x, l.org.y + t * l.dir.y⟩ =
      (p.sub l.org).sqrNorm - 2 * t * l.dir.inner (p.sub l.org) + t^2 * l.dir.sqrNorm := by
      simp only [Spec.sqd2, zeo]; ring
    have lg : (p.sub l.org).sqrNorm * l.dir.sqrNorm - (l.dir.inner (p.sub l.org))^2 = ((p.sub l.org).outer l.dir)^2 := by
      simp only [zeo]; ring
    rw [this, ← lg, hd]; ring
  have e : l.projPoint p = ⟨l.org.x + l.dir.inner (p.sub l.org) * l.dir.x, l.org.y + l.dir.inner (p.sub l.org) * l.dir.y⟩ := by
    unfold Line2.projPoint Line2.point
    generalize l.dir.inner (p.sub l.org) = k
    ext <;> simp only [zeo]
  rw [e]
  refine ⟨⟨⟨_, rfl⟩, ?_⟩, ?_⟩
  · rintro q ⟨t, rfl⟩
    rw [key, key, sub_self]
    nlinarith [sq_nonneg (t - l.dir.inner (p.sub l.org))]
  · rw [Spec.ed2, key, sub_self, Line2.distFromPoint, ← Real.sqrt_sq_eq_abs]; congr 1; ring

/-- A vector orthogonal to two vectors is along their cross product. -/
private theorem perp_two {n1 n2 x : Vec3 ℝ} (h1 : n1.inner x = 0) (h2 : n2.inner x = 0) :
    x.mul (n1.outer n2).sqrNorm = (n1.outer n2).mul ((n1.outer n2).inner x) := by
  simp only [zeo] at h1 h2
  ext <;> simp only [zeo] <;> grind

/-- **Intersection of planes**: for unit normals whose cross product is above the tolerance, the line
in `*line` at the moment of the return is exactly the intersection of the two planes. Its `origin`
member however points to a local variable of the function that has returned: `_partial`. -/
theorem C24_intersectPlane_partial (τ : ℝ) (hτ : 0 ≤ τ) (pl1 pl2 : Plane3 ℝ) (h1 : pl1.norm.sqrNorm = 1) (h2 : pl2.norm.sqrNorm = 1)
    (hd : ¬ (pl1.norm.outer pl2.norm).isTol τ) :
    (pl1.intersect τ pl2).ret = 1 ∧ ∃ l, (pl1.intersect τ pl2).line = some l ∧ l.dir.sqrNorm = 1 ∧
      Spec.line l.org l.dir = Spec.plane pl1.org pl1.norm ∩ Spec.plane pl2.org pl2.norm := by
  simp only [Plane3.intersect]
  rw [if_neg hd]
  refine ⟨rfl, ?_⟩
  simp only [Line3.create]
  rw [if_neg hd]
  obtain ⟨u1, u2, u3⟩ := normalize_unit hτ (old := pl1.norm.outer pl2.norm) hd
  rw [Vec3.normalize, if_neg hd] at u1 u2
  refine ⟨_, rfl, u1, ?_⟩
  have hlag := lagrange3 pl1.norm pl2.norm
  rw [h1, h2] at hlag
  have hD : 0 < 1 - pl1.norm.inner pl2.norm * pl1.norm.inner pl2.norm := by
    have : 1 - pl1.norm.inner pl2.norm * pl1.norm.inner pl2.norm = (pl1.norm.outer pl2.norm).norm ^ 2 := by
      rw [Vec3.norm_sq, ← hlag]; ring
    rw [this]; positivity
  generalize hn : pl1.norm.inner pl2.norm = n at *
  generalize hs1 : pl1.norm.inner (pl1.org.sub pl2.org) = s1
  generalize hs2 : pl2.norm.inner (pl1.org.sub pl2.org) = s2
  generalize hk1 : (s1 + n * s2) / (2 * (1 - n * n)) = k1
  generalize hk2 : -(n * s1 + s2) / (2 * (1 - n * n)) = k2
  have hD2 : 1 - n^2 ≠ 0 := by intro h; apply hD.ne'; linear_combination h
  have e1 : k1 + n * k2 = s1 / 2 := by rw [← hk1, ← hk2]; field_simp; ring
  have e2 : n * k1 + k2 = -s2 / 2 := by rw [← hk1, ← hk2]; field_simp; ring
  dsimp only
  generalize hu : ((pl1.norm.outer pl2.norm).normalizeNC).2 = u at *
  generalize hN : (pl1.norm.outer pl2.norm).norm = N at *
  generalize hp : ((pl1.org.mid pl2.org).cat k1 pl1.norm).cat k2 pl2.norm = p
  -- the origin is in both planes
  have p1 : pl1.norm.inner (p.sub pl1.org) = 0 := by
    have : pl1.norm.inner (p.sub pl1.org) = -pl1.norm.inner (pl1.org.sub pl2.org) / 2 + k1 * pl1.norm.sqrNorm + k2 * pl1.norm.inner pl2.norm := by
      rw [← hp]; simp only [zeo]; ring
    rw [this, hs1, h1, hn]; linear_combination e1
  have p2 : pl2.norm.inner (p.sub pl2.org) = 0 := by
    have : pl2.norm.inner (p.sub pl2.org) = pl2.norm.inner (pl1.org.sub pl2.org) / 2 + k1 * pl1.norm.inner pl2.norm + k2 * pl2.norm.sqrNorm := by
      rw [← hp]; simp only [zeo]; ring
    rw [this, hs2, h2, hn]; linear_combination e2
  -- the direction is orthogonal to both normals
  have d1 : pl1.norm.inner u = 0 := by
    have h : pl1.norm.inner (pl1.norm.outer pl2.norm) = 0 := by simp only [zeo]; ring
    rw [u2] at h
    have e : pl1.norm.inner (u.mul N) = N * pl1.norm.inner u := by simp only [zeo]; ring
    rw [e] at h; exact (mul_eq_zero.1 h).resolve_left u3.ne'
  have d2 : pl2.norm.inner u = 0 := by
    have h : pl2.norm.inner (pl1.norm.outer pl2.norm) = 0 := by simp only [zeo]; ring
    rw [u2] at h
    have e : pl2.norm.inner (u.mul N) = N * pl2.norm.inner u := by simp only [zeo]; ring
    rw [e] at h; exact (mul_eq_zero.1 h).resolve_left u3.ne'
  have mem : ∀ (o m q : Vec3 ℝ), q ∈ Spec.plane o m ↔ m.inner (q.sub o) = 0 := by
    intro o m q
    show (q.x - o.x) * m.x + (q.y - o.y) * m.y + (q.z - o.z) * m.z = 0 ↔ _
    have : m.inner (q.sub o) = (q.x - o.x) * m.x + (q.y - o.y) * m.y + (q.z - o.z) * m.z := by simp only [zeo]; ring
    rw [this]
  ext q
  rw [Set.mem_inter_iff, mem, mem]
  constructor
  · rintro ⟨t, rfl⟩
    have a1 : pl1.norm.inner (Vec3.sub ⟨p.x + t * u.x, p.y + t * u.y, p.z + t * u.z⟩ pl1.org) = pl1.norm.inner (p.sub pl1.org) + t * pl1.norm.inner u := by
      simp only [zeo]; ring
    have a2 : pl2.norm.inner (Vec3.sub ⟨p.x + t * u.x, p.y + t * u.y, p.z + t * u.z⟩ pl2.org) = pl2.norm.inner (p.sub pl2.org) + t * pl2.norm.inner u := by
      simp only [zeo]; ring
    rw [a1, a2, p1, p2, d1, d2]; simp
  · rintro ⟨q1, q2⟩
    have x1 : pl1.norm.inner (q.sub p) = 0 := by
      have : pl1.norm.inner (q.sub p) = pl1.norm.inner (q.sub pl1.org) - pl1.norm.inner (p.sub pl1.org) := by simp only [zeo]; ring
      rw [this, q1, p1, sub_zero]
    have x2 : pl2.norm.inner (q.sub p) = 0 := by
      have : pl2.norm.inner (q.sub p) = pl2.norm.inner (q.sub pl2.org) - pl2.norm.inner (p.sub pl2.org) := by simp only [zeo]; ring
      rw [this, q2, p2, sub_zero]
    have hx := perp_two x1 x2
    rw [u2] at hx
    have sn : (u.mul N).sqrNorm = N^2 := by
      have : (u.mul N).sqrNorm = N^2 * u.sqrNorm := by simp only [zeo]; ring
      rw [this, u1, mul_one]
    rw [sn] at hx
    have hNN : N^2 ≠ 0 := pow_ne_zero 2 u3.ne'
    have inn : (u.mul N).inner (q.sub p) = N * u.inner (q.sub p) := by simp only [zeo]; ring
    rw [inn] at hx
    have hx' : q.sub p = u.mul (u.inner (q.sub p)) := by
      generalize q.sub p = x at hx
      generalize u.inner x = k at hx
      have e1 := congrArg Vec3.x hx
      have e2 := congrArg Vec3.y hx
      have e3 := congrArg Vec3.z hx
      simp only [Vec3.mul] at e1 e2 e3
      ext <;> simp only [Vec3.mul] <;> apply mul_right_cancel₀ hNN <;> linarith
    have f1 := congrArg Vec3.x hx'
    have f2 := congrArg Vec3.y hx'
    have f3 := congrArg Vec3.z hx'
    generalize u.inner (q.sub p) = k at f1 f2 f3
    simp only [zeo] at f1 f2 f3
    refine ⟨k, ?_⟩
    ext <;> simp only <;> linarith

/-- **Dangling origin**: whenever the planes intersect in a line, `line->origin` is the address of the
function's local variable. -/
theorem C24_intersectPlane_dangling (τ : ℝ) (pl1 pl2 : Plane3 ℝ) (hd : ¬ (pl1.norm.outer pl2.norm).isTol τ) :
    (pl1.intersect τ pl2).ret = 1 ∧ (pl1.intersect τ pl2).orgIsLocal = true := by
  simp only [Plane3.intersect]
  rw [if_neg hd]
  exact ⟨rfl, rfl⟩

/-- Parallel planes, exact comparison: 0 means no common point, -1 means equal planes. -/
theorem C24_parallelPlanes (pl1 pl2 : Plane3 ℝ) (h1 : pl1.norm.sqrNorm = 1) (h2 : pl2.norm.sqrNorm = 1)
    (hd : pl1.norm.outer pl2.norm = .zero) :
    ((pl1.intersect 0 pl2).ret = 0 ∧ Spec.plane pl1.org pl1.norm ∩ Spec.plane pl2.org pl2.norm = ∅) ∨
    ((pl1.intersect 0 pl2).ret = -1 ∧ Spec.plane pl1.org pl1.norm = Spec.plane pl2.org pl2.norm) := by
  have ht : (pl1.norm.outer pl2.norm).isTol 0 := by rw [hd]; simp [Vec3.isTol, zIsTol, Vec3.zero]
  have hlag := lagrange3 pl1.norm pl2.norm
  have hz : (Vec3.zero : Vec3 ℝ).sqrNorm = 0 := by simp only [zeo]; ring
  rw [h1, h2, hd, hz] at hlag
  -- the normals are equal up to sign
  have hpar : pl2.norm = pl1.norm.mul (pl1.norm.inner pl2.norm) := by
    have e : (pl2.norm.sub (pl1.norm.mul (pl1.norm.inner pl2.norm))).sqrNorm = 0 := by
      have : (pl2.norm.sub (pl1.norm.mul (pl1.norm.inner pl2.norm))).sqrNorm = pl2.norm.sqrNorm - 2 * (pl1.norm.inner pl2.norm)^2 + (pl1.norm.inner pl2.norm)^2 * pl1.norm.sqrNorm := by
        generalize hk : pl1.norm.inner pl2.norm = k
        have hk' : pl1.norm.inner pl2.norm = k := hk
        simp only [zeo] at hk' ⊢; linear_combination -2 * k * hk'
      rw [this, h1, h2]; linear_combination hlag
    by_contra hne
    exact sqrNorm_ne_zero (v := pl2.norm.sub (pl1.norm.mul (pl1.norm.inner pl2.norm))) (by
      intro h0; apply hne
      generalize pl1.norm.mul (pl1.norm.inner pl2.norm) = w at *
      have f1 := congrArg Vec3.x h0
      have f2 := congrArg Vec3.y h0
      have f3 := congrArg Vec3.z h0
      simp only [zeo] at f1 f2 f3
      ext <;> linarith) e
  have hk : (pl1.norm.inner pl2.norm)^2 = 1 := by linear_combination -hlag
  have hk0 : pl1.norm.inner pl2.norm ≠ 0 := by intro h; rw [h] at hk; norm_num at hk
  have mem : ∀ (o m q : Vec3 ℝ), q ∈ Spec.plane o m ↔ m.inner (q.sub o) = 0 := by
    intro o m q
    show (q.x - o.x) * m.x + (q.y - o.y) * m.y + (q.z - o.z) * m.z = 0 ↔ _
    have : m.inner (q.sub o) = (q.x - o.x) * m.x + (q.y - o.y) * m.y + (q.z - o.z) * m.z := by simp only [zeo]; ring
    rw [this]
  have m2 : ∀ q, q ∈ Spec.plane pl2.org pl2.norm ↔ pl1.norm.inner (q.sub pl2.org) = 0 := by
    intro q
    rw [mem]
    generalize pl1.norm.inner pl2.norm = k at *
    rw [hpar]
    have : (pl1.norm.mul k).inner (q.sub pl2.org) = k * pl1.norm.inner (q.sub pl2.org) := by simp only [zeo]; ring
    rw [this]
    exact mul_eq_zero_iff_left hk0
  have split : ∀ q : Vec3 ℝ, pl1.norm.inner (q.sub pl2.org) = pl1.norm.inner (q.sub pl1.org) + pl1.norm.inner (pl1.org.sub pl2.org) := by
    intro q; simp only [zeo]; ring
  simp only [Plane3.intersect]
  rw [if_pos ht]
  by_cases hc : zIsTol (pl1.norm.inner (pl1.org.sub pl2.org)) 0
  · right
    rw [if_pos hc]
    refine ⟨rfl, ?_⟩
    have h0 : pl1.norm.inner (pl1.org.sub pl2.org) = 0 := by
      simp only [zIsTol] at hc; exact abs_nonpos_iff.1 hc
    ext q
    rw [mem, m2, split, h0, add_zero]
  · left
    rw [if_neg hc]
    refine ⟨rfl, ?_⟩
    ext q
    simp only [Set.mem_inter_iff, Set.mem_empty_iff_false, iff_false, not_and]
    intro hq1
    rw [mem] at hq1
    rw [m2, split, hq1, zero_add]
    intro h0; apply hc; rw [h0]; simp [zIsTol]

/-- **Common perpendicular of two lines** (unit directions; determinant above the tolerance, or
exactly parallel): the two ends are on their lines, the joint is perpendicular to both, and
`zDistLine3DLine3D` is the smallest distance between points of the two lines. -/
theorem C24_commonPerp (τ : ℝ) (hτ : 0 ≤ τ) (l1 l2 : Line3 ℝ) (h1 : l1.dir.sqrNorm = 1) (h2 : l2.dir.sqrNorm = 1)
    (hdet : τ < 1 - (l1.dir.inner l2.dir)^2 ∨ 1 - (l1.dir.inner l2.dir)^2 = 0) :
    (l1.commonPerpEnd τ l2).1 ∈ Spec.line l1.org l1.dir ∧ (l1.commonPerpEnd τ l2).2 ∈ Spec.line l2.org l2.dir ∧
    ((l1.commonPerpEnd τ l2).1.sub (l1.commonPerpEnd τ l2).2).inner l1.dir = 0 ∧
    ((l1.commonPerpEnd τ l2).1.sub (l1.commonPerpEnd τ l2).2).inner l2.dir = 0 ∧
    l1.distLine τ l2 = Spec.ed (l1.commonPerpEnd τ l2).1 (l1.commonPerpEnd τ l2).2 ∧
    ∀ q1 ∈ Spec.line l1.org l1.dir, ∀ q2 ∈ Spec.line l2.org l2.dir, l1.distLine τ l2 ≤ Spec.ed q1 q2 := by
  have hpt : ∀ (l : Line3 ℝ) (t : ℝ), l.point t ∈ Spec.line l.org l.dir := by
    intro l t; refine ⟨t, ?_⟩; simp only [Line3.point]; ext <;> simp only [zeo]
  have hpt' : ∀ (l : Line3 ℝ) q, q ∈ Spec.line l.org l.dir → ∃ t, q = l.point t := by
    rintro l q ⟨t, rfl⟩; refine ⟨t, ?_⟩; simp only [Line3.point]; ext <;> simp only [zeo]
  -- the two scalar equations suffice
  have main : ∀ s t : ℝ, l1.commonPerpEnd τ l2 = (l1.point s, l2.point t) →
      ((l1.point s).sub (l2.point t)).inner l1.dir = 0 → ((l1.point s).sub (l2.point t)).inner l2.dir = 0 →
      (l1.commonPerpEnd τ l2).1 ∈ Spec.line l1.org l1.dir ∧ (l1.commonPerpEnd τ l2).2 ∈ Spec.line l2.org l2.dir ∧
    ((l1.commonPerpEnd τ l2).1.sub (l1.commonPerpEnd τ l2).2).inner l1.dir = 0 ∧
    ((l1.commonPerpEnd τ l2).1.sub (l1.commonPerpEnd τ l2).2).inner l2.dir = 0 ∧
    l1.distLine τ l2 = Spec.ed (l1.commonPerpEnd τ l2).1 (l1.commonPerpEnd τ l2).2 ∧
    ∀ q1 ∈ Spec.line l1.org l1.dir, ∀ q2 ∈ Spec.line l2.org l2.dir, l1.distLine τ l2 ≤ Spec.ed q1 q2 := by
    intro s t e p1 p2
    have ed : l1.distLine τ l2 = Spec.ed (l1.commonPerpEnd τ l2).1 (l1.commonPerpEnd τ l2).2 := by
      rw [Line3.distLine, dist_eq_ed]
    rw [ed, e]
    refine ⟨hpt _ _, hpt _ _, p1, p2, rfl, ?_⟩
    intro q1 hq1 q2 hq2
    obtain ⟨a, rfl⟩ := hpt' _ _ hq1
    obtain ⟨b, rfl⟩ := hpt' _ _ hq2
    apply Real.sqrt_le_sqrt
    -- Pythagoras: difference = perpendicular + combination of directions
    have : Spec.sqd (l1.point a) (l2.point b) = Spec.sqd (l1.point s) (l2.point t) +
        2 * (a - s) * ((l1.point s).sub (l2.point t)).inner l1.dir - 2 * (b - t) * ((l1.point s).sub (l2.point t)).inner l2.dir +
        ((l1.dir.mul (a - s)).sub (l2.dir.mul (b - t))).sqrNorm := by
      simp only [Line3.point, Spec.sqd, zeo]; ring
    rw [this, p1, p2]
    linarith [Vec3.sqrNorm_nonneg ((l1.dir.mul (a - s)).sub (l2.dir.mul (b - t)))]
  have r11 : l1.dir.inner l1.dir = 1 := by rw [← h1]; simp only [zeo]
  have r22 : l2.dir.inner l2.dir = 1 := by rw [← h2]; simp only [zeo]
  have r21 : l2.dir.inner l1.dir = l1.dir.inner l2.dir := by simp only [zeo]; ring
  have exp1 : ∀ s t, ((l1.point s).sub (l2.point t)).inner l1.dir =
      -(l1.dir.inner (l2.org.sub l1.org)) + s * l1.dir.inner l1.dir - t * l1.dir.inner l2.dir := by
    intro s t; simp only [Line3.point, zeo]; ring
  have exp2 : ∀ s t, ((l1.point s).sub (l2.point t)).inner l2.dir =
      -(l2.dir.inner (l2.org.sub l1.org)) + s * l1.dir.inner l2.dir - t * l2.dir.inner l2.dir := by
    intro s t; simp only [Line3.point, zeo]; ring
  by_cases ht : zIsTol (1 * 1 - l1.dir.inner l2.dir * l1.dir.inner l2.dir) τ
  · have h0 : 1 - (l1.dir.inner l2.dir)^2 = 0 := by
      rcases hdet with h | h
      · exfalso
        simp only [zIsTol, abs_le] at ht
        nlinarith [ht.2]
      · exact h
    have e : l1.commonPerpEnd τ l2 = (l1.point 0, l2.point (l2.dir.inner (l1.org.sub l2.org))) := by
      simp only [Line3.commonPerpEnd, r11, r22]
      rw [if_pos ht]
      simp only [Line3.projPoint]
      congr 1
      simp only [Line3.point]; ext <;> simp only [zeo] <;> ring
    have f : l2.dir.inner (l1.org.sub l2.org) = -l2.dir.inner (l2.org.sub l1.org) := by simp only [zeo]; ring
    -- parallel directions
    have hlag := lagrange3 l1.dir l2.dir
    rw [h1, h2, one_mul, h0] at hlag
    have hcz : l1.dir.outer l2.dir = .zero := by
      by_contra hne; exact sqrNorm_ne_zero hne hlag.symm
    have hpar : l1.dir.inner (l2.org.sub l1.org) = l1.dir.inner l2.dir * l2.dir.inner (l2.org.sub l1.org) := by
      generalize l2.org.sub l1.org = w
      have c1 := congrArg Vec3.x hcz
      have c2 := congrArg Vec3.y hcz
      have c3 := congrArg Vec3.z hcz
      have hb : l2.dir.x * l2.dir.x + l2.dir.y * l2.dir.y + l2.dir.z * l2.dir.z = 1 := by simpa only [zeo] using h2
      simp only [zeo] at c1 c2 c3 ⊢
      grind
    refine main _ _ e ?_ ?_
    · rw [exp1, r11, f, hpar]; ring
    · rw [exp2, r22, f]; ring
  · have hD : 1 - (l1.dir.inner l2.dir)^2 ≠ 0 := by
      intro h0; apply ht
      rw [show (1:ℝ) * 1 - l1.dir.inner l2.dir * l1.dir.inner l2.dir = 1 - (l1.dir.inner l2.dir)^2 by ring, h0]
      simp [zIsTol, hτ]
    have e := show l1.commonPerpEnd τ l2 = _ from by
      simp only [Line3.commonPerpEnd, r11, r22]
      rw [if_neg ht]
    refine main _ _ e ?_ ?_
    all_goals
      have i1 : ((l1.dir.mul 1).cat (-l1.dir.inner l2.dir) l2.dir).inner (l2.org.sub l1.org) = l1.dir.inner (l2.org.sub l1.org) - l1.dir.inner l2.dir * l2.dir.inner (l2.org.sub l1.org) := by
        generalize l1.dir.inner l2.dir = k
        simp only [zeo]; ring
      have i2 : ((l1.dir.mul (l1.dir.inner l2.dir)).cat (-1) l2.dir).inner (l2.org.sub l1.org) = l1.dir.inner l2.dir * l1.dir.inner (l2.org.sub l1.org) - l2.dir.inner (l2.org.sub l1.org) := by
        generalize l1.dir.inner l2.dir = k
        simp only [zeo]; ring
      have hD' : 1 * 1 - l1.dir.inner l2.dir * l1.dir.inner l2.dir ≠ 0 := by
        intro h; apply hD; linear_combination h
      rw [i1, i2]
    · rw [exp1, r11]
      generalize l1.dir.inner (l2.org.sub l1.org) = x
      generalize l2.dir.inner (l2.org.sub l1.org) = y
      generalize l1.dir.inner l2.dir = k at *
      field_simp
      ring
    · rw [exp2, r22]
      generalize l1.dir.inner (l2.org.sub l1.org) = x
      generalize l2.dir.inner (l2.org.sub l1.org) = y
      generalize l1.dir.inner l2.dir = k at *
      field_simp
      ring

/-- **The margin of `zPlane3DPointIsOn` is not a distance**: a point at distance 1 from the plane
is accepted with margin 1/10. -/
theorem C24_pointIsOn_not_distance (τ : ℝ) (hτ : 0 ≤ τ) (hτ' : τ ≤ 1) :
    ∃ (pl : Plane3 ℝ) (p : Vec3 ℝ), pl.norm.sqrNorm = 1 ∧ pl.distFromPoint p = 1 ∧ pl.pointIsOn τ p (1/10) := by
  refine ⟨⟨⟨0, 0, 0⟩, ⟨0, 0, 1⟩⟩, ⟨100, 0, 1⟩, by simp only [zeo]; norm_num, by simp only [Plane3.distFromPoint, zeo]; norm_num, ?_⟩
  have hs : (⟨100, 0, 1⟩ : Vec3 ℝ).sub ⟨0, 0, 0⟩ = ⟨100, 0, 1⟩ := by ext <;> simp only [zeo] <;> norm_num
  have ht : ¬ (⟨100, 0, 1⟩ : Vec3 ℝ).isTol τ := by
    rintro ⟨h, -, -⟩
    simp only [zIsTol] at h
    rw [abs_of_pos (by norm_num)] at h
    linarith
  simp only [Plane3.pointIsOn, hs]
  rw [if_neg ht, Vec3.normalize, if_neg ht]
  have hn : (100 : ℝ) ≤ (⟨100, 0, 1⟩ : Vec3 ℝ).norm := by
    rw [Vec3.norm]
    apply Real.le_sqrt_of_sq_le
    simp only [zeo]; norm_num
  simp only [Vec3.normalizeNC]
  generalize (⟨100, 0, 1⟩ : Vec3 ℝ).norm = N at *
  have : ((⟨100, 0, 1⟩ : Vec3 ℝ).mul (1 / N)).inner ⟨0, 0, 1⟩ = 1 / N := by simp only [zeo]; ring
  rw [this, zIsTol, abs_of_pos (by positivity)]
  exact one_div_le_one_div_of_le (by norm_num) (by linarith)

/-- On the plane itself `zPlane3DPointIsOn` answers true for every non-negative margin. -/
theorem C24_pointIsOn_sound (τ : ℝ) (hτ : 0 ≤ τ) (pl : Plane3 ℝ) (p : Vec3 ℝ) (m : ℝ) (hm : 0 ≤ m)
    (hp : pl.distFromPoint p = 0) : pl.pointIsOn τ p m := by
  simp only [Plane3.pointIsOn]
  by_cases ht : (p.sub pl.org).isTol τ
  · rw [if_pos ht]; trivial
  · rw [if_neg ht]
    obtain ⟨-, h2, h3⟩ := normalize_unit hτ (old := p.sub pl.org) ht
    have : (p.sub pl.org).inner pl.norm = 0 := hp
    rw [h2] at this
    generalize ((p.sub pl.org).normalize τ (p.sub pl.org)).2 = u at *
    generalize (p.sub pl.org).norm = N at *
    have e : (u.mul N).inner pl.norm = N * u.inner pl.norm := by simp only [zeo]; ring
    rw [e] at this
    rw [(mul_eq_zero.1 this).resolve_left h3.ne']
    simp [zIsTol, hm]

/-- Lines in the plane: an intersection point is on both lines; NULL means a zero determinant up to
the tolerance. -/
theorem C24_intersectLine2 (τ : ℝ) (hτ : 0 ≤ τ) (l1 l2 : Line2 ℝ) :
    (∀ p, l1.intersect τ l2 = some p → p ∈ Spec.line2 l1.org l1.dir ∧ p ∈ Spec.line2 l2.org l2.dir) ∧
    (l1.intersect τ l2 = none → |l1.dir.outer l2.dir| ≤ τ) := by
  have hdet : (⟨l1.dir, l2.dir.rev⟩ : Mat2 ℝ).det = -l1.dir.outer l2.dir := by simp only [zeo]; ring
  by_cases ht : zIsTol (⟨l1.dir, l2.dir.rev⟩ : Mat2 ℝ).det τ
  · have hn : (⟨l1.dir, l2.dir.rev⟩ : Mat2 ℝ).mulInvVec τ (l2.org.sub l1.org) = none := by
      simp only [Mat2.mulInvVec, if_pos ht]
    simp only [Line2.intersect, hn]
    refine ⟨(by intro p h; cases h), fun _ => ?_⟩
    simpa only [zIsTol, hdet, abs_neg] using ht
  · have hD : (⟨l1.dir, l2.dir.rev⟩ : Mat2 ℝ).det ≠ 0 := by
      intro h; apply ht; rw [h]; simp [zIsTol, hτ]
    obtain ⟨s, hs, hv⟩ : ∃ s, (⟨l1.dir, l2.dir.rev⟩ : Mat2 ℝ).mulInvVec τ (l2.org.sub l1.org) = some s ∧
        (⟨l1.dir, l2.dir.rev⟩ : Mat2 ℝ).mulVec s = l2.org.sub l1.org := by
      simp only [Mat2.mulInvVec, if_neg ht]
      refine ⟨_, rfl, ?_⟩
      generalize hDD : (⟨l1.dir, l2.dir.rev⟩ : Mat2 ℝ).det = D at *
      simp only [zeo] at hDD
      ext <;> simp only [zeo] <;> field_simp <;> rw [← hDD] <;> ring
    simp only [Line2.intersect, hs]
    refine ⟨?_, (by intro h; cases h)⟩
    rintro p ⟨⟩
    refine ⟨⟨s.x, ?_⟩, ⟨s.y, ?_⟩⟩
    · simp only [Line2.point]; ext <;> simp only [zeo]
    · have e1 := congrArg Vec2.x hv
      have e2 := congrArg Vec2.y hv
      simp only [zeo] at e1 e2
      simp only [Line2.point]; ext <;> simp only [zeo] <;> linarith

/-- Satisfiability: the coordinate planes, and two skew lines. -/
example : ¬ ((⟨1, 0, 0⟩ : Vec3 ℝ).outer ⟨0, 1, 0⟩).isTol (1/4) ∧ (⟨1, 0, 0⟩ : Vec3 ℝ).sqrNorm = 1 ∧
    (1/4 : ℝ) < 1 - ((⟨1, 0, 0⟩ : Vec3 ℝ).inner ⟨0, 1, 0⟩)^2 := by
  simp only [zeo, Vec3.isTol, zIsTol]; norm_num

end Zeo
