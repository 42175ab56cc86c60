import Verif.Lemmas.NurbsShape
import Verif.Lemmas.Ortho
import Verif.Props.C64

/-! # C74: NURBS surfaces of shapes -/

namespace Zeo
open Finset Spec NURBS

variable {sg : BSpline → ℝ → ℕ} {τ : ℝ}

/-! ## Knots -/

private theorem shape_eq {o0 o1 n0 n1 : ℕ} (h0 : o0 < n0) (h1 : o1 < n1) (k0 k1 : List ℝ) (cp : ℕ → ℕ → Vec3 ℝ) (w : ℕ → ℕ → ℝ) :
    shape o0 o1 n0 n1 k0 k1 cp w = some ⟨⟨o0, k0, 0⟩, ⟨o1, k1, 0⟩, n0, n1, cp, w⟩ := by
  unfold shape alloc
  rw [if_neg (by omega)]
  rfl

private theorem ring_knots : ArcKnots ⟨2, ringKnot, 0⟩ 4 := by
  refine ⟨⟨rfl, ?_, ?_⟩, rfl, ?_⟩
  · norm_num [ringKnot]
  · norm_num [ringKnot, BSpline.kn]
  · intro q hq
    interval_cases q <;> norm_num [ringKnot, BSpline.kn]

private theorem half_knots : ArcKnots ⟨2, [0, 0, 0, 1/2, 1/2, 1, 1, 1], 0⟩ 2 := by
  refine ⟨⟨rfl, ?_, ?_⟩, rfl, ?_⟩
  · norm_num
  · norm_num [BSpline.kn]
  · intro q hq
    interval_cases q <;> norm_num [BSpline.kn]

private theorem ringW_pos (i : ℕ) : 0 < ringW i := by
  unfold ringW; split_ifs <;> positivity

private theorem ringW_ge (i : ℕ) : 1 / Real.sqrt 2 ≤ ringW i := by
  unfold ringW; split_ifs
  · rw [div_le_one (by positivity)]
    exact Real.one_le_sqrt.2 (by norm_num)
  · exact le_rfl

private theorem ringW_mul (i j : ℕ) : 1 / 2 ≤ ringW i * ringW j := by
  have h : (1 / Real.sqrt 2) * (1 / Real.sqrt 2) = 1 / 2 := by
    rw [div_mul_div_comm, Real.mul_self_sqrt (by norm_num)]; norm_num
  rw [← h]
  exact mul_le_mul (ringW_ge i) (ringW_ge j) (by positivity) (ringW_pos i).le

private theorem ringW_half (i : ℕ) : 1 / 2 ≤ ringW i := by
  refine le_trans ?_ (ringW_ge i)
  rw [div_le_div_iff_of_pos_left one_pos (by norm_num) (by positivity)]
  exact Real.sqrt_le_iff.2 ⟨by norm_num, by norm_num⟩

private theorem ringCP_eq (c : Vec3 ℝ) (rx ry : ℝ) (ax ay : Vec3 ℝ) (i : ℕ) (hi : i < 9) (d : Vec3 ℝ) :
    ringCP c rx ry ax ay i = at3 c ax ay d (rx * ringX i) (ry * ringY i) 0 := by
  interval_cases i <;> simp [ringCP, at3, ringX, ringY, Vec3.cat] <;> ring_nf <;> simp

/-! ## Ellipsoids and spheres -/

private theorem ring_reach (hs : IsSegment sg) (x y : ℝ) :
    Reach sg ⟨2, ringKnot, 0⟩ 9 ringW ringX ringY x y ↔ x ^ 2 + y ^ 2 = 1 := by
  constructor
  · rintro ⟨t, ht, rfl, rfl⟩
    exact ring_at hs ring_knots ht
  · intro h
    exact ring_meet hs ring_knots h

private theorem half_reach (hs : IsSegment sg) (r z : ℝ) :
    (Reach sg ⟨2, [0, 0, 0, 1/2, 1/2, 1, 1, 1], 0⟩ 5 ringW halfR halfZ r z → r ^ 2 + z ^ 2 = 1) ∧
    (0 ≤ r → r ^ 2 + z ^ 2 = 1 → Reach sg ⟨2, [0, 0, 0, 1/2, 1/2, 1, 1, 1], 0⟩ 5 ringW halfR halfZ r z) := by
  constructor
  · rintro ⟨t, ht, rfl, rfl⟩
    exact half_at hs half_knots ht
  · intro h0 h
    exact half_meet hs half_knots h0 h

private theorem ellips_cp (e : Ellips ℝ) : ∃ cp, ofEllips e = some ⟨⟨2, ringKnot, 0⟩, ⟨2, [0, 0, 0, 1/2, 1/2, 1, 1, 1], 0⟩, 9, 5, cp,
    fun i j => ringW i * ringW j⟩ ∧ ∀ i < 9, ∀ j < 5, cp i j = at3 e.f.pos e.f.att.x e.f.att.y e.f.att.z
      (e.radius.x * (ringX i * halfR j)) (e.radius.y * (ringY i * halfR j)) (e.radius.z * halfZ j) := by
  refine ⟨_, shape_eq (by norm_num) (by norm_num) _ _ _ _, fun i hi j hj => ?_⟩
  rw [ringCP_eq _ _ _ _ _ i hi e.f.att.z]
  interval_cases j <;> simp [at3, halfR, halfZ, Vec3.cat]

/-- The NURBS surface of an ellipsoid is exactly the surface of the ellipsoid. -/
theorem C74_ellips (hs : IsSegment sg) (h0 : 0 ≤ τ) (h1 : τ < 1 / 2) (e : Ellips ℝ) :
    ∃ n, ofEllips e = some n ∧ NurbsOK n ∧ nurbsSurface sg τ n =
      ellipsoidSurface e.f.pos e.f.att.x e.f.att.y e.f.att.z e.radius.x e.radius.y e.radius.z := by
  obtain ⟨cp, hn, hcp⟩ := ellips_cp e
  obtain ⟨ok, e1⟩ := surface_tensor hs h0 ring_knots.ok half_knots.ok ringW ringW (fun i _ => ringW_pos i) (fun i _ => ringW_pos i)
    ringX ringY halfR halfZ e.f.pos e.f.att.x e.f.att.y e.f.att.z e.radius.x e.radius.y e.radius.z
    (fun i _ j _ => h1.trans_le (ringW_mul i j)) (fun _ _ _ _ => rfl) hcp
  refine ⟨_, hn, ok, e1.trans ?_⟩
  ext p
  constructor
  · rintro ⟨x, y, r, z, hxy, hrz, rfl⟩
    have r1 := (ring_reach hs x y).1 hxy
    have r2 := (half_reach hs r z).1 hrz
    exact ⟨x * r, y * r, z, by linear_combination r ^ 2 * r1 + r2, rfl⟩
  · rintro ⟨x, y, z, hxyz, rfl⟩
    obtain ⟨X, Y, hXY, ex, ey⟩ := polar x y
    refine ⟨X, Y, _, z, (ring_reach hs X Y).2 hXY, (half_reach hs (Real.sqrt (x ^ 2 + y ^ 2)) z).2 (Real.sqrt_nonneg _)
      (by rw [Real.sq_sqrt (by positivity)]; exact hxyz), ?_⟩
    rw [mul_comm X, mul_comm Y, ex, ey]

/-- The NURBS surface of a sphere is exactly the set of points at the distance of the radius from the center. -/
theorem C74_sphere (hs : IsSegment sg) (h0 : 0 ≤ τ) (h1 : τ < 1 / 2) (s : Sphere3 ℝ) :
    ∃ n, ofSphere s = some n ∧ NurbsOK n ∧ nurbsSurface sg τ n =
      {p | (p.x - s.center.x) ^ 2 + (p.y - s.center.y) ^ 2 + (p.z - s.center.z) ^ 2 = s.radius ^ 2} := by
  obtain ⟨n, hn, ok, e⟩ := C74_ellips hs h0 h1 s.toEllips
  refine ⟨n, hn, ok, e.trans ?_⟩
  ext p
  simp only [ellipsoidSurface, Sphere3.toEllips, Ellips.createAlign, Ellips.create, at3, Vec3.ex, Vec3.ey, Vec3.ez]
  constructor
  · rintro ⟨x, y, z, h, rfl⟩
    simp only [Set.mem_setOf_eq]
    rw [← sq_abs s.radius]
    linear_combination |s.radius| ^ 2 * h
  · intro h
    simp only [Set.mem_setOf_eq] at h
    by_cases hr : s.radius = 0
    · rw [hr] at h
      refine ⟨1, 0, 0, by norm_num, ?_⟩
      have : p.x - s.center.x = 0 := by nlinarith [sq_nonneg (p.x - s.center.x), sq_nonneg (p.y - s.center.y), sq_nonneg (p.z - s.center.z)]
      have : p.y - s.center.y = 0 := by nlinarith [sq_nonneg (p.x - s.center.x), sq_nonneg (p.y - s.center.y), sq_nonneg (p.z - s.center.z)]
      have : p.z - s.center.z = 0 := by nlinarith [sq_nonneg (p.x - s.center.x), sq_nonneg (p.y - s.center.y), sq_nonneg (p.z - s.center.z)]
      ext <;> simp [hr] <;> linarith
    · have hr' : |s.radius| ≠ 0 := abs_ne_zero.2 hr
      refine ⟨(p.x - s.center.x) / |s.radius|, (p.y - s.center.y) / |s.radius|, (p.z - s.center.z) / |s.radius|, ?_, ?_⟩
      · rw [div_pow, div_pow, div_pow, ← add_div, ← add_div, h, sq_abs, div_self (pow_ne_zero 2 hr)]
      · ext <;> simp <;> field_simp <;> ring

/-! ## Tori -/

private theorem torus_cp (c ax ay az : Vec3 ℝ) (rr ri : ℝ) : ∃ cp, ofTorus c ax ay az rr ri =
    some ⟨⟨2, ringKnot, 0⟩, ⟨2, ringKnot, 0⟩, 9, 9, cp, fun i j => ringW i * ringW j⟩ ∧ ∀ i < 9, ∀ j < 9, cp i j =
      at3 c ax ay az (1 * (ringX i * (rr + ri * ringX j))) (1 * (ringY i * (rr + ri * ringX j))) (ri * ringY j) := by
  refine ⟨_, shape_eq (by norm_num) (by norm_num) _ _ _ _, fun i hi j hj => ?_⟩
  rw [ringCP_eq _ _ _ _ _ i hi az]
  interval_cases j <;> simp [at3, ringX, ringY, torusB, torusR, Vec3.cat] <;> refine ⟨?_, ?_, ?_⟩ <;> ring

/-- The NURBS surface of a torus is exactly the torus. -/
theorem C74_torus (hs : IsSegment sg) (h0 : 0 ≤ τ) (h1 : τ < 1 / 2) (c ax ay az : Vec3 ℝ) (rr ri : ℝ) :
    ∃ n, ofTorus c ax ay az rr ri = some n ∧ NurbsOK n ∧ nurbsSurface sg τ n = torus c ax ay az rr ri := by
  obtain ⟨cp, hn, hcp⟩ := torus_cp c ax ay az rr ri
  obtain ⟨ok, e1⟩ := surface_tensor hs h0 ring_knots.ok ring_knots.ok ringW ringW (fun i _ => ringW_pos i) (fun i _ => ringW_pos i)
    ringX ringY (fun j => rr + ri * ringX j) ringY c ax ay az 1 1 ri
    (fun i _ j _ => h1.trans_le (ringW_mul i j)) (fun _ _ _ _ => rfl) hcp
  refine ⟨_, hn, ok, e1.trans ?_⟩
  have aff : ∀ t, InDomain ⟨2, ringKnot, 0⟩ 9 t → rat ⟨2, ringKnot, 0⟩ 9 (sg ⟨2, ringKnot, 0⟩ t) ringW (fun j => rr + ri * ringX j) t =
      rr + ri * rat ⟨2, ringKnot, 0⟩ 9 (sg ⟨2, ringKnot, 0⟩ t) ringW ringX t := fun t ht =>
    rat_affine (rat_den hs ring_knots.ok (fun i _ => ringW_pos i) ht) rr ri
  ext p
  constructor
  · rintro ⟨x, y, r, z, hxy, ⟨t, ht, rfl, rfl⟩, rfl⟩
    refine ⟨x, y, _, _, (ring_reach hs x y).1 hxy, ring_at hs ring_knots ht, ?_⟩
    rw [show (2 * 4 + 1 : ℕ) = 9 from rfl, aff t ht, one_mul, one_mul, mul_comm x, mul_comm y]
  · rintro ⟨x, y, r, z, hxy, hrz, rfl⟩
    obtain ⟨t, ht, rfl, rfl⟩ := (ring_reach hs r z).2 hrz
    refine ⟨x, y, _, _, (ring_reach hs x y).2 hxy, ⟨t, ht, aff t ht, rfl⟩, ?_⟩
    rw [one_mul, one_mul, mul_comm x, mul_comm y]

/-! ## Cones -/

private theorem two_lines : LineKnots ⟨1, [0, 0, 1, 2, 2], 0⟩ 2 := by
  refine ⟨⟨rfl, by norm_num, by norm_num [BSpline.kn]⟩, rfl, ?_⟩
  intro q hq
  interval_cases q <;> norm_num [BSpline.kn]

/-- The radii and heights of the control points of a cone. -/
private def coneR : ℕ → ℝ | 1 => 1 | _ => 0
private def coneZ : ℕ → ℝ | 2 => 1 | _ => 0

private theorem cone_reach (hs : IsSegment sg) (r z : ℝ) :
    Reach sg ⟨1, [0, 0, 1, 2, 2], 0⟩ 3 (fun _ => 1) coneR coneZ r z ↔
      0 ≤ r ∧ 0 ≤ z ∧ (z = 0 ∧ r ≤ 1 ∨ r = 1 - z) := by
  constructor
  · rintro ⟨t, ht, rfl, rfl⟩
    obtain ⟨q, θ, hq, t0, t1, -, e⟩ := line_at hs two_lines ht
    rw [show (2 + 1 : ℕ) = 3 from rfl] at e
    rw [e, e]
    interval_cases q
    · simp [coneR, coneZ, t0, t1]
    · simp [coneR, coneZ, t0, t1]
      right; ring
  · rintro ⟨h0, h1, (⟨rfl, h2⟩ | rfl)⟩
    · obtain ⟨t, ht, e⟩ := line_meet hs two_lines (q := 0) (by norm_num) h0 h2
      exact ⟨t, ht, (e _).trans (by simp [coneR]), (e _).trans (by simp [coneZ])⟩
    · obtain ⟨t, ht, e⟩ := line_meet hs two_lines (q := 1) (by norm_num) h1 (by linarith)
      exact ⟨t, ht, (e _).trans (by simp [coneR]; ring), (e _).trans (by simp [coneZ])⟩

/-- The NURBS surface of a cone with an axis longer than four tolerances is exactly the surface of the cone: base and
lateral surface, about two unit vectors that make a right-handed frame with the direction of the axis. -/
theorem C74_cone (hs : IsSegment sg) (h0 : 0 ≤ τ) (h1 : τ ≤ 1 / 4) (c : Cone ℝ)
    (hv : 4 * τ < (c.vert.sub c.center).norm) :
    ∃ n a b, ofCone τ c = some n ∧ NurbsOK n ∧
      Mat3.IsRot ⟨a, b, (c.vert.sub c.center).mul (1 / (c.vert.sub c.center).norm)⟩ ∧
      nurbsSurface sg τ n = coneSurface c.center a b (c.vert.sub c.center) c.radius := by
  obtain ⟨s1, s2, o1, o2, o3⟩ := orthonormalSpace_spec h0 h1 (v := c.axis) hv
  have hax : ((s1.normalize τ s1).2, ((s2.mul c.axis.norm).normalize τ (s2.mul c.axis.norm)).2) = (s1, s2) := by
    unfold Vec3.orthonormalSpace at o2
    rw [o1] at o2
    exact congrArg Prod.snd (Option.some.inj o2)
  obtain ⟨ha, hb⟩ := Prod.mk.inj hax
  obtain ⟨cp, hn, hcp⟩ : ∃ cp, ofCone τ c = some ⟨⟨2, ringKnot, 0⟩, ⟨1, [0, 0, 1, 2, 2], 0⟩, 9, 3, cp, fun i _ => ringW i⟩ ∧
      ∀ i < 9, ∀ j < 3, cp i j = at3 c.center s1 s2 c.axis (c.radius * (ringX i * coneR j)) (c.radius * (ringY i * coneR j))
        (1 * coneZ j) := by
    unfold ofCone
    rw [o1]
    dsimp only [Option.bind_some]
    rw [ha, hb]
    refine ⟨_, shape_eq (by norm_num) (by norm_num) _ _ _ _, fun i hi j hj => ?_⟩
    rw [ringCP_eq _ _ _ _ _ i hi c.axis]
    interval_cases j <;> simp [at3, coneR, coneZ, Vec3.add]
  obtain ⟨ok, e1⟩ := surface_tensor hs h0 ring_knots.ok two_lines.ok ringW (fun _ => 1) (fun i _ => ringW_pos i) (fun i _ => one_pos)
    ringX ringY coneR coneZ c.center s1 s2 c.axis c.radius c.radius 1
    (fun i _ j _ => by linarith [ringW_half i]) (fun _ _ _ _ => (mul_one _).symm) hcp
  refine ⟨_, s1, s2, hn, ok, o3, e1.trans ?_⟩
  ext p
  constructor
  · rintro ⟨x, y, r, z, hxy, hrz, rfl⟩
    have r1 := (ring_reach hs x y).1 hxy
    obtain ⟨g0, g1, g2⟩ := (cone_reach hs r z).1 hrz
    refine ⟨x * r, y * r, z, g1, by rcases g2 with ⟨g, -⟩ | g <;> linarith, ?_, by rw [one_mul]; rfl⟩
    rcases g2 with ⟨g2, g3⟩ | g2
    · left
      refine ⟨g2, ?_⟩
      have : (x * r) ^ 2 + (y * r) ^ 2 = r ^ 2 := by linear_combination r ^ 2 * r1
      rw [this]; nlinarith
    · right
      rw [← g2]; linear_combination r ^ 2 * r1
  · rintro ⟨x, y, z, h2, h3, h4, rfl⟩
    obtain ⟨X, Y, hXY, ex, ey⟩ := polar x y
    refine ⟨X, Y, Real.sqrt (x ^ 2 + y ^ 2), z, (ring_reach hs X Y).2 hXY, (cone_reach hs _ z).2 ⟨Real.sqrt_nonneg _, h2, ?_⟩, ?_⟩
    · rcases h4 with ⟨h4, h5⟩ | h4
      · exact Or.inl ⟨h4, Real.sqrt_le_one.2 h5⟩
      · right
        rw [h4, Real.sqrt_sq (by linarith)]
    · rw [mul_comm X, mul_comm Y, ex, ey, one_mul]; rfl

/-! ## Elliptic cylinders -/

/-- The radii and heights of the control points of a cylinder. -/
private def cylR : ℕ → ℝ | 1 => 1 | 2 => 1 | _ => 0
private def cylZ : ℕ → ℝ | 2 => 1 | 3 => 1 | _ => 0

private theorem cyl_reach (hs : IsSegment sg) {r z : ℝ}
    (h : Reach sg ⟨1, [0, 0, 1, 1, 2, 2], 0⟩ 4 (fun _ => 1) cylR cylZ r z) : 0 ≤ r ∧ r ≤ 1 ∧ (z = 0 ∨ z = 1) := by
  obtain ⟨t, ht, rfl, rfl⟩ := h
  rcases split_at' hs ht with ⟨t0, t1, e⟩ | ⟨t0, t1, e⟩
  · rw [e, e]; simp [cylR, cylZ, t0, t1]
  · rw [e, e]; simp [cylR, cylZ]; constructor <;> linarith

private theorem cyl_meet (hs : IsSegment sg) {r z : ℝ} (h0 : 0 ≤ r) (h1 : r < 1) (hz : z = 0 ∨ z = 1) :
    Reach sg ⟨1, [0, 0, 1, 1, 2, 2], 0⟩ 4 (fun _ => 1) cylR cylZ r z := by
  obtain ⟨⟨t, ht, e⟩, ⟨t', ht', e'⟩⟩ := split_meet hs h0 h1
  rcases hz with rfl | rfl
  · exact ⟨t, ht, (e _).trans (by simp [cylR]), (e _).trans (by simp [cylZ])⟩
  · exact ⟨t', ht', (e' _).trans (by simp [cylR]), (e' _).trans (by simp [cylZ])⟩

/-- The NURBS surface of an elliptic cylinder lies in the two bases, and it covers them up to their rims. Missing: the
lateral surface (`C74_ecyl_false`). -/
theorem C74_ecyl_partial (hs : IsSegment sg) (h0 : 0 ≤ τ) (h1 : τ < 1 / 2) (c : ECyl ℝ) :
    ∃ n, ofECyl c = some n ∧ NurbsOK n ∧
      nurbsSurface sg τ n ⊆ ecylBases c.c0 c.rv0 c.rv1 (c.c1.sub c.c0) c.r0 c.r1 ∧
      ∀ x y z : ℝ, x ^ 2 + y ^ 2 < 1 → (z = 0 ∨ z = 1) →
        at3 c.c0 c.rv0 c.rv1 (c.c1.sub c.c0) (c.r0 * x) (c.r1 * y) z ∈ nurbsSurface sg τ n := by
  obtain ⟨cp, hn, hcp⟩ : ∃ cp, ofECyl c = some ⟨⟨2, ringKnot, 0⟩, ⟨1, [0, 0, 1, 1, 2, 2], 0⟩, 9, 4, cp, fun i _ => ringW i⟩ ∧
      ∀ i < 9, ∀ j < 4, cp i j = at3 c.c0 c.rv0 c.rv1 c.axis (c.r0 * (ringX i * cylR j)) (c.r1 * (ringY i * cylR j)) (1 * cylZ j) := by
    refine ⟨_, shape_eq (by norm_num) (by norm_num) _ _ _ _, fun i hi j hj => ?_⟩
    rw [ringCP_eq _ _ _ _ _ i hi c.axis]
    interval_cases j <;> simp [at3, cylR, cylZ, Vec3.add, ECyl.axis, Vec3.sub]
  obtain ⟨ok, e1⟩ := surface_tensor hs h0 ring_knots.ok split_ok ringW (fun _ => 1) (fun i _ => ringW_pos i) (fun i _ => one_pos)
    ringX ringY cylR cylZ c.c0 c.rv0 c.rv1 c.axis c.r0 c.r1 1
    (fun i _ j _ => h1.trans_le (ringW_half i)) (fun _ _ _ _ => (mul_one _).symm) hcp
  refine ⟨_, hn, ok, ?_, ?_⟩
  · refine e1.subset.trans ?_
    rintro p ⟨x, y, r, z, hxy, hrz, rfl⟩
    have r1 := (ring_reach hs x y).1 hxy
    obtain ⟨g0, g1, g2⟩ := cyl_reach hs hrz
    refine ⟨x * r, y * r, z, g2, ?_, by rw [one_mul]; rfl⟩
    have : (x * r) ^ 2 + (y * r) ^ 2 = r ^ 2 := by linear_combination r ^ 2 * r1
    rw [this]; nlinarith
  · intro x y z hxy hz
    refine e1.superset ?_
    obtain ⟨X, Y, hXY, ex, ey⟩ := polar x y
    refine ⟨X, Y, Real.sqrt (x ^ 2 + y ^ 2), z, (ring_reach hs X Y).2 hXY, cyl_meet hs (Real.sqrt_nonneg _) ?_ hz, ?_⟩
    · rw [Real.sqrt_lt' one_pos]; linarith
    · rw [mul_comm X, mul_comm Y, ex, ey, one_mul]; rfl

private theorem at3_along (c a b d : Vec3 ℝ) (x y z : ℝ) : ((at3 c a b d x y z).sub c).inner d =
    x * a.inner d + y * b.inner d + z * d.inner d := by
  simp only [at3, Vec3.sub, Vec3.inner]; ring

/-- The NURBS surface of an elliptic cylinder does not have the lateral surface: the double knot between the two rims
makes the parameters jump from one base to the other. No point of the lateral surface between the bases is met. -/
theorem C74_ecyl_false (hs : IsSegment sg) (h0 : 0 ≤ τ) (h1 : τ < 1 / 2) (c : ECyl ℝ)
    (p0 : c.rv0.inner (c.c1.sub c.c0) = 0) (p1 : c.rv1.inner (c.c1.sub c.c0) = 0)
    (hd : (c.c1.sub c.c0).inner (c.c1.sub c.c0) ≠ 0) :
    ∃ n, ofECyl c = some n ∧ ¬ ecylWall c.c0 c.rv0 c.rv1 (c.c1.sub c.c0) c.r0 c.r1 ⊆ nurbsSurface sg τ n ∧
      ∀ x y z : ℝ, 0 < z → z < 1 →
        at3 c.c0 c.rv0 c.rv1 (c.c1.sub c.c0) (c.r0 * x) (c.r1 * y) z ∉ nurbsSurface sg τ n := by
  obtain ⟨n, hn, -, h2, -⟩ := C74_ecyl_partial hs h0 h1 c
  suffices H : ∀ x y z : ℝ, 0 < z → z < 1 →
      at3 c.c0 c.rv0 c.rv1 (c.c1.sub c.c0) (c.r0 * x) (c.r1 * y) z ∉ nurbsSurface sg τ n from
    ⟨n, hn, fun hw => H 1 0 (1 / 2) (by norm_num) (by norm_num)
      (hw ⟨1, 0, 1 / 2, by norm_num, by norm_num, by norm_num, rfl⟩), H⟩
  intro x y z z0 z1 hm
  obtain ⟨x', y', z', hz', -, e⟩ := h2 hm
  have := congrArg (fun p => (p.sub c.c0).inner (c.c1.sub c.c0)) e
  rw [at3_along, at3_along, p0, p1] at this
  have h3 : z = z' := by
    apply mul_right_cancel₀ hd
    linarith
  rcases hz' with h | h <;> rw [h] at h3 <;> linarith

/-- The NURBS surface of a cylinder longer than four tolerances has no point between the planes of the bases. -/
theorem C74_cyl_false (hs : IsSegment sg) (h0 : 0 ≤ τ) (h1 : τ ≤ 1 / 4) (c : Cyl ℝ) (hl : 4 * τ < c.axis.norm)
    (hr : 0 < c.radius) (old : ECyl ℝ) :
    ∃ n, ofCyl τ c old = some n ∧ ∀ p : Vec3 ℝ, 0 < (p.sub c.c0).inner (c.c1.sub c.c0) →
      (p.sub c.c0).inner (c.c1.sub c.c0) < (c.c1.sub c.c0).inner (c.c1.sub c.c0) → p ∉ nurbsSurface sg τ n := by
  obtain ⟨e, he, ⟨-, q0, q1⟩, -⟩ := C64_cyl_ecyl h0 h1 c hl hr old
  obtain ⟨n, hn, -, h2, -⟩ := C74_ecyl_partial hs h0 (by linarith) e
  have hc : e.c0 = c.c0 ∧ e.c1 = c.c1 := by
    unfold Cyl.toECyl at he
    obtain ⟨s, -, rfl⟩ := Option.map_eq_some_iff.1 he
    unfold ECyl.create ECyl.defAxis
    dsimp only
    split_ifs
    · split <;> exact ⟨rfl, rfl⟩
    · exact ⟨rfl, rfl⟩
  refine ⟨n, by rw [ofCyl, he]; exact hn, fun p p0 p1 hp => ?_⟩
  obtain ⟨x, y, z, hz, -, rfl⟩ := h2 hp
  rw [hc.1, hc.2] at p0 p1 q0 q1
  have r0 : e.rv0.inner (c.c1.sub c.c0) = 0 := by simp only [zeo]; linarith
  have r1 : e.rv1.inner (c.c1.sub c.c0) = 0 := by simp only [zeo]; linarith
  rw [at3_along, r0, r1] at p0 p1
  rcases hz with rfl | rfl <;> linarith

/-! ## Boxes -/

private theorem bits : Nat.testBit 1 0 = true ∧ Nat.testBit 1 1 = false ∧ Nat.testBit 1 2 = false ∧ Nat.testBit 2 0 = false ∧ Nat.testBit 2 1 = true ∧ Nat.testBit 2 2 = false ∧ Nat.testBit 3 0 = true ∧ Nat.testBit 3 1 = true ∧ Nat.testBit 3 2 = false ∧ Nat.testBit 4 0 = false ∧ Nat.testBit 4 1 = false ∧ Nat.testBit 4 2 = true ∧ Nat.testBit 5 0 = true ∧ Nat.testBit 5 1 = false ∧ Nat.testBit 5 2 = true ∧ Nat.testBit 6 0 = false ∧ Nat.testBit 6 1 = true ∧ Nat.testBit 6 2 = true ∧ Nat.testBit 7 0 = true ∧ Nat.testBit 7 1 = true ∧ Nat.testBit 7 2 = true := by decide

private theorem four_lines : LineKnots ⟨1, [0, 0, 1, 2, 3, 4, 4], 0⟩ 4 := by
  refine ⟨⟨rfl, by norm_num, by norm_num [BSpline.kn]⟩, rfl, ?_⟩
  intro q hq
  interval_cases q <;> norm_num [BSpline.kn]

private noncomputable def sqX : ℕ → ℝ | 0 => 1/2 | 1 => -1/2 | 2 => -1/2 | _ => 1/2
private noncomputable def sqY : ℕ → ℝ | 0 => 1/2 | 1 => 1/2 | 2 => -1/2 | 3 => -1/2 | _ => 1/2
private noncomputable def endZ : ℕ → ℝ | 0 => 1/2 | 1 => 1/2 | _ => -1/2

private theorem sq_reach (hs : IsSegment sg) {x y : ℝ}
    (h : Reach sg ⟨1, [0, 0, 1, 2, 3, 4, 4], 0⟩ 5 (fun _ => 1) sqX sqY x y) : |x| ≤ 1 / 2 ∧ |y| ≤ 1 / 2 := by
  obtain ⟨t, ht, rfl, rfl⟩ := h
  obtain ⟨q, θ, hq, t0, t1, -, e⟩ := line_at hs four_lines ht
  rw [show (4 + 1 : ℕ) = 5 from rfl] at e
  rw [e, e]
  rw [abs_le, abs_le]
  interval_cases q <;> norm_num [sqX, sqY] <;> constructor <;> linarith

private theorem sq_meet (hs : IsSegment sg) {x y : ℝ} (hx : |x| ≤ 1 / 2) (hy : |y| ≤ 1 / 2) (h : |x| = 1 / 2 ∨ |y| = 1 / 2) :
    Reach sg ⟨1, [0, 0, 1, 2, 3, 4, 4], 0⟩ 5 (fun _ => 1) sqX sqY x y := by
  obtain ⟨x1, x2⟩ := abs_le.1 hx
  obtain ⟨y1, y2⟩ := abs_le.1 hy
  rcases h with h | h <;> rcases (abs_eq (by norm_num)).1 h with h | h
  · obtain ⟨t, ht, e⟩ := line_meet hs four_lines (q := 3) (θ := y + 1 / 2) (by norm_num) (by linarith) (by linarith)
    exact ⟨t, ht, (e _).trans (by norm_num [sqX]; linarith), (e _).trans (by norm_num [sqY])⟩
  · obtain ⟨t, ht, e⟩ := line_meet hs four_lines (q := 1) (θ := 1 / 2 - y) (by norm_num) (by linarith) (by linarith)
    exact ⟨t, ht, (e _).trans (by norm_num [sqX]; linarith), (e _).trans (by norm_num [sqY])⟩
  · obtain ⟨t, ht, e⟩ := line_meet hs four_lines (q := 0) (θ := 1 / 2 - x) (by norm_num) (by linarith) (by linarith)
    exact ⟨t, ht, (e _).trans (by norm_num [sqX]), (e _).trans (by norm_num [sqY]; linarith)⟩
  · obtain ⟨t, ht, e⟩ := line_meet hs four_lines (q := 2) (θ := x + 1 / 2) (by norm_num) (by linarith) (by linarith)
    exact ⟨t, ht, (e _).trans (by norm_num [sqX]), (e _).trans (by norm_num [sqY]; linarith)⟩

private theorem end_reach (hs : IsSegment sg) {r z : ℝ}
    (h : Reach sg ⟨1, [0, 0, 1, 1, 2, 2], 0⟩ 4 (fun _ => 1) cylR endZ r z) : 0 ≤ r ∧ r ≤ 1 ∧ |z| = 1 / 2 := by
  obtain ⟨t, ht, rfl, rfl⟩ := h
  rcases split_at' hs ht with ⟨t0, t1, e⟩ | ⟨t0, t1, e⟩
  · rw [e, e]; norm_num [cylR, endZ, t0, t1]
  · rw [e, e]
    refine ⟨?_, ?_, ?_⟩
    · simp [cylR]; linarith
    · simp [cylR]; linarith
    · norm_num [endZ]

private theorem end_meet (hs : IsSegment sg) {r z : ℝ} (h0 : 0 ≤ r) (h1 : r < 1) (hz : |z| = 1 / 2) :
    Reach sg ⟨1, [0, 0, 1, 1, 2, 2], 0⟩ 4 (fun _ => 1) cylR endZ r z := by
  obtain ⟨⟨t, ht, e⟩, ⟨t', ht', e'⟩⟩ := split_meet hs h0 h1
  rcases (abs_eq (by norm_num)).1 hz with rfl | rfl
  · exact ⟨t, ht, (e _).trans (by simp [cylR]), (e _).trans (by simp [endZ])⟩
  · exact ⟨t', ht', (e' _).trans (by simp [cylR]), (e' _).trans (by norm_num [endZ])⟩

/-- The NURBS surface of a box lies in the two faces across the third axis, and it covers them up to their edges.
Missing: the four other faces (`C74_box_false`). -/
theorem C74_box_partial (hs : IsSegment sg) (h0 : 0 ≤ τ) (h1 : τ < 1) (b : Box3 ℝ) :
    ∃ n, ofBox b = some n ∧ NurbsOK n ∧
      nurbsSurface sg τ n ⊆ boxEnds b.frame.pos b.frame.att.x b.frame.att.y b.frame.att.z b.span.x b.span.y b.span.z ∧
      ∀ x y z : ℝ, |x| < 1 / 2 → |y| < 1 / 2 → |z| = 1 / 2 →
        at3 b.frame.pos b.frame.att.x b.frame.att.y b.frame.att.z (b.span.x * x) (b.span.y * y) (b.span.z * z) ∈
          nurbsSurface sg τ n := by
  obtain ⟨cp, hn, hcp⟩ : ∃ cp, ofBox b = some ⟨⟨1, [0, 0, 1, 1, 2, 2], 0⟩, ⟨1, [0, 0, 1, 2, 3, 4, 4], 0⟩, 4, 5, cp, fun _ _ => 1⟩ ∧
      ∀ i < 4, ∀ j < 5, cp i j = at3 b.frame.pos b.frame.att.x b.frame.att.y b.frame.att.z (b.span.x * (cylR i * sqX j))
        (b.span.y * (cylR i * sqY j)) (b.span.z * endZ i) := by
    refine ⟨_, shape_eq (by norm_num) (by norm_num) _ _ _ _, fun i hi j hj => ?_⟩
    interval_cases i <;> interval_cases j <;> ext <;>
      simp [at3, cylR, endZ, sqX, sqY, Vec3.cat, Box3.vert, Frame3.xform, Mat3.mulVec, Vec3.add, bits] <;> ring_nf <;> simp
  obtain ⟨ok, e1⟩ := surface_tensor' hs h0 split_ok four_lines.ok (fun _ => 1) (fun _ => 1) (fun i _ => one_pos) (fun i _ => one_pos)
    sqX sqY cylR endZ b.frame.pos b.frame.att.x b.frame.att.y b.frame.att.z b.span.x b.span.y b.span.z
    (fun i _ j _ => h1) (fun _ _ _ _ => (mul_one _).symm) hcp
  refine ⟨_, hn, ok, ?_, ?_⟩
  · refine e1.subset.trans ?_
    rintro p ⟨x, y, r, z, hxy, hrz, rfl⟩
    obtain ⟨s1, s2⟩ := sq_reach hs hxy
    obtain ⟨g0, g1, g2⟩ := end_reach hs hrz
    refine ⟨r * x, r * y, z, ?_, ?_, g2, rfl⟩
    · rw [abs_mul, abs_of_nonneg g0]; nlinarith [abs_nonneg x]
    · rw [abs_mul, abs_of_nonneg g0]; nlinarith [abs_nonneg y]
  · intro x y z hx hy hz
    refine e1.superset ?_
    set r := 2 * max |x| |y| with hr
    have hr1 : r < 1 := by
      have := max_lt hx hy; linarith
    have hr0 : 0 ≤ r := by
      have := le_max_of_le_left (b := |x|) (c := |y|) (abs_nonneg x); linarith
    by_cases h : r = 0
    · have hm : max |x| |y| = 0 := by linarith
      have hx0 : x = 0 := abs_eq_zero.1 (le_antisymm (hm ▸ le_max_left _ _) (abs_nonneg x))
      have hy0 : y = 0 := abs_eq_zero.1 (le_antisymm (hm ▸ le_max_right _ _) (abs_nonneg y))
      refine ⟨1 / 2, 1 / 2, 0, z, sq_meet hs (by rw [abs_of_pos] <;> norm_num) (by rw [abs_of_pos] <;> norm_num)
        (Or.inl (by rw [abs_of_pos]; norm_num)), end_meet hs le_rfl one_pos hz, ?_⟩
      rw [hx0, hy0]; simp
    · have hrp : 0 < r := lt_of_le_of_ne hr0 (Ne.symm h)
      have ax : |x / r| = |x| / r := by rw [abs_div, abs_of_pos hrp]
      have ay : |y / r| = |y| / r := by rw [abs_div, abs_of_pos hrp]
      refine ⟨x / r, y / r, r, z, sq_meet hs ?_ ?_ ?_, end_meet hs hr0 hr1 hz, ?_⟩
      · rw [ax, div_le_iff₀ hrp]; linarith [le_max_left |x| |y|]
      · rw [ay, div_le_iff₀ hrp]; linarith [le_max_right |x| |y|]
      · rw [ax, ay, div_eq_iff h, div_eq_iff h]
        rcases le_total |x| |y| with hl | hl
        · right; rw [hr, max_eq_right hl]; ring
        · left; rw [hr, max_eq_left hl]; ring
      · rw [mul_div_cancel₀ _ h, mul_div_cancel₀ _ h]

/-- The NURBS surface of a box does not have the four faces along the third axis: none of their points between the two
others is met. -/
theorem C74_box_false (hs : IsSegment sg) (h0 : 0 ≤ τ) (h1 : τ < 1) (b : Box3 ℝ) (hR : b.frame.att.IsRot) (hz : 0 < b.span.z) :
    ∃ n, ofBox b = some n ∧
      ¬ boxSurface b.frame.pos b.frame.att.x b.frame.att.y b.frame.att.z b.span.x b.span.y b.span.z ⊆ nurbsSurface sg τ n ∧
      ∀ x y z : ℝ, |z| < 1 / 2 →
        at3 b.frame.pos b.frame.att.x b.frame.att.y b.frame.att.z (b.span.x * x) (b.span.y * y) (b.span.z * z) ∉
          nurbsSurface sg τ n := by
  obtain ⟨n, hn, -, h2, -⟩ := C74_box_partial hs h0 h1 b
  suffices H : ∀ x y z : ℝ, |z| < 1 / 2 →
      at3 b.frame.pos b.frame.att.x b.frame.att.y b.frame.att.z (b.span.x * x) (b.span.y * y) (b.span.z * z) ∉
        nurbsSurface sg τ n from
    ⟨n, hn, fun hw => H (1 / 2) 0 0 (by norm_num) (hw ⟨1 / 2, 0, 0, by norm_num [abs_of_pos], by norm_num, by norm_num,
      Or.inl (by rw [abs_of_pos]; norm_num), rfl⟩), H⟩
  intro x y z z1 hm
  obtain ⟨x', y', z', -, -, hz', e⟩ := h2 hm
  have := congrArg (fun p => (p.sub b.frame.pos).inner b.frame.att.z) e
  rw [at3_along, at3_along] at this
  obtain ⟨q1, q2, q3⟩ : b.frame.att.x.inner b.frame.att.z = 0 ∧ b.frame.att.y.inner b.frame.att.z = 0 ∧
      b.frame.att.z.inner b.frame.att.z = 1 := by
    obtain ⟨-, -, c3, -, c5, c6⟩ := hR.cols
    simp only [Vec3.inner]
    exact ⟨by linarith, by linarith, by linarith⟩
  rw [q1, q2, q3] at this
  have h3 : z = z' := by
    apply mul_left_cancel₀ hz.ne'
    linarith
  rw [h3] at z1
  linarith

/-! ## Instances -/

example : ∃ (sg : BSpline → ℝ → ℕ) (c : Cone ℝ), IsSegment sg ∧ 4 * (1 / 1000000 : ℝ) < (c.vert.sub c.center).norm := by
  obtain ⟨sg, hs⟩ := exists_segment
  refine ⟨sg, ⟨⟨1, 2, 3⟩, ⟨1, 2, 5⟩, 1⟩, hs, ?_⟩
  rw [Vec3.norm, show (Vec3.sub (K := ℝ) ⟨1, 2, 5⟩ ⟨1, 2, 3⟩).sqrNorm = 2 ^ 2 by norm_num [zeo], Real.sqrt_sq (by norm_num)]
  norm_num
example : ∃ (sg : BSpline → ℝ → ℕ) (c : ECyl ℝ), IsSegment sg ∧ c.rv0.inner (c.c1.sub c.c0) = 0 ∧
    c.rv1.inner (c.c1.sub c.c0) = 0 ∧ (c.c1.sub c.c0).inner (c.c1.sub c.c0) ≠ 0 := by
  obtain ⟨sg, hs⟩ := exists_segment
  exact ⟨sg, ⟨⟨0, 0, 0⟩, ⟨0, 0, 2⟩, 1, 3, ⟨1, 0, 0⟩, ⟨0, 1, 0⟩⟩, hs, by norm_num [zeo], by norm_num [zeo], by norm_num [zeo]⟩
example : ∃ (sg : BSpline → ℝ → ℕ) (c : Cyl ℝ), IsSegment sg ∧ 4 * (1 / 1000000 : ℝ) < c.axis.norm ∧ 0 < c.radius := by
  obtain ⟨sg, hs⟩ := exists_segment
  refine ⟨sg, ⟨⟨1, 2, 3⟩, ⟨1, 2, 5⟩, 1⟩, hs, ?_, by norm_num⟩
  rw [Cyl.axis, Vec3.norm, show (Vec3.sub (K := ℝ) ⟨1, 2, 5⟩ ⟨1, 2, 3⟩).sqrNorm = 2 ^ 2 by norm_num [zeo], Real.sqrt_sq (by norm_num)]
  norm_num
example : ∃ (sg : BSpline → ℝ → ℕ) (b : Box3 ℝ), IsSegment sg ∧ b.frame.att.IsRot ∧ 0 < b.span.z := by
  obtain ⟨sg, hs⟩ := exists_segment
  exact ⟨sg, { frame := ⟨⟨1, 2, 3⟩, Mat3.ident⟩, span := ⟨1, 2, 3⟩ }, hs, Mat3.IsRot.ident, by norm_num⟩

end Zeo
