import Verif.Lemmas.OBBRim

/-! # C70: oriented bounding box of points in space

`zVec3DDataOBB` (src/zeo_bv3d_obb.c:103-112), with zero tolerance and a correct sort of lists. -/

namespace Zeo
open Spec Caliper Hull2D C63 QHMesh QHGeom OBB
noncomputable section
open Classical

private theorem core {sort} (hs : IsSort sort) (d : Data (Vec3 ℝ)) (hl : ¬ Collinear {p | p ∈ d.toAddrList}) :
    ∃ ph rim w b t e, convexHull3 0 sort d = some ph ∧ HullPH d.toAddrList ph ∧ b ∈ ph.face ∧
      (∀ f ∈ ph.face, depth ph b ≤ depth ph f) ∧
      RimOf d.toAddrList b.norm ((ph.vert b.i0).cat (-(1 / 2) * depth ph b) b.norm) w rim ∧ t ∈ rim ∧ e ∈ Spec.edges rim ∧
      (∀ f ∈ Spec.edges rim, (rectOf 0 b.norm t rim e).l1 * (rectOf 0 b.norm t rim e).l2 ≤
        (rectOf 0 b.norm t rim f).l1 * (rectOf 0 b.norm t rim f).l2) ∧
      obb 0 sort d = some (some ⟨⟨(rectOf 0 b.norm t rim e).l1, (rectOf 0 b.norm t rim e).l2, depth ph b⟩,
        ⟨((ph.vert b.i0).cat (-(1 / 2) * depth ph b) b.norm).add (rectOf 0 b.norm t rim e).c,
          ⟨(rectOf 0 b.norm t rim e).d1, (rectOf 0 b.norm t rim e).d2, b.norm⟩⟩⟩) := by
  cases hch : convexHull3 0 sort d with
  | none => exact absurd ((C69_null sort d).1 hch) hl
  | some ph =>
    have H := hullPH_of hs hch
    obtain ⟨b, hb, hm, hmin⟩ := minDir_spec H.ne
    obtain ⟨rim, w, hr, R⟩ := rimOf hs H hb ((ph.vert b.i0).cat (-(1 / 2) * depth ph b) b.norm)
    obtain ⟨t, ht, e, he, hml, hbest⟩ := maxLoop_spec (τ := 0) (z := b.norm) R.ne
    refine ⟨ph, rim, w, b, t, e, rfl, H, hb, hmin, R, ht, he, hbest, ?_⟩
    unfold obb
    rw [hch]
    simp only
    rw [hm]
    simp only [Option.bind_some]
    rw [hr]
    simp only
    rw [hml]
    rfl

private theorem depth_eq {l : List (Vec3 ℝ)} {ph : PH ℝ} (H : HullPH l ph) {b : Face ℝ} (hb : b ∈ ph.face) (v : Vec3 ℝ) :
    (ph.tri b).distFromPointToPlane v = dot b.norm v - dot b.norm (ph.vert b.i0) := by
  have : (ph.tri b).distFromPointToPlane v = (3 * dot b.norm v - dot b.norm (ph.vert b.i0) - dot b.norm (ph.vert b.i1) -
      dot b.norm (ph.vert b.i2)) / 3 := by
    simp only [Tri3.distFromPointToPlane, PH.tri, Vec3.inner, Vec3.sub, dot]; ring
  rw [this, (H.flat b hb).1, (H.flat b hb).2]; ring

/-- The depth of a face is the width of the data along its normal vector. -/
private theorem depth_width {l : List (Vec3 ℝ)} {ph : PH ℝ} (H : HullPH l ph) {b : Face ℝ} (hb : b ∈ ph.face) :
    (∀ p ∈ l, dot b.norm (ph.vert b.i0) - depth ph b ≤ dot b.norm p ∧ dot b.norm p ≤ dot b.norm (ph.vert b.i0)) ∧
      ph.vert b.i0 ∈ l ∧ ∃ p ∈ l, dot b.norm p = dot b.norm (ph.vert b.i0) - depth ph b := by
  obtain ⟨i0, i1, i2⟩ := H.valid b hb
  obtain ⟨h1, h2, h3⟩ := depth_spec ph b
  have hlow : ∀ i < ph.nv, dot b.norm (ph.vert b.i0) - depth ph b ≤ dot b.norm (ph.vert i) := by
    intro i hi
    have := h2 i hi
    rw [depth_eq H hb] at this
    linarith
  refine ⟨fun p hp => ⟨?_, H.below b hb p hp⟩, H.sub _ i0, ?_⟩
  · have := dot_hull_le (w := lc (-1) b.norm 0 b.norm) (k := -(dot b.norm (ph.vert b.i0) - depth ph b)) (fun v hv => ?_) (H.hull p hp)
    · rw [dot_lc] at this; linarith
    · obtain ⟨i, hi, rfl⟩ := hv
      rw [dot_lc]
      have := hlow i hi
      linarith
  · rcases h3 with h3 | ⟨i, hi, h3⟩
    · exact ⟨_, H.sub _ i0, by rw [h3]; ring⟩
    · refine ⟨_, H.sub i hi, ?_⟩
      rw [depth_eq H hb] at h3
      linarith

private theorem rot_of {u z : Vec3 ℝ} (hz : dot z z = 1) (hu : dot u u = 1) (h : dot u z = 0) :
    Mat3.IsRot ⟨u, crossP z u, z⟩ := by
  obtain ⟨v1, v2, v3⟩ := cross_unit hz hu h
  have hd : det3 u (crossP z u) z = 1 := by
    have : det3 u (crossP z u) z = dot z z * dot u u - dot u z ^ 2 := by simp only [det3, crossP, dot]; ring
    rw [this, hz, hu, h]; norm_num
  generalize crossP z u = v at *
  rw [Mat3.isRot_iff]
  simp only [dot] at hz hu h v1 v2 v3
  constructor
  · ext <;> simp only [zeo] <;> linarith
  · simp only [det3] at hd
    simp only [zeo]; linarith

/-- **C70 (the box).** For data that are not all on a line the function returns a box. Its axes are orthonormal and
right-handed. The box encloses the data, and each of its six sides meets a point of the data. -/
theorem C70_box {sort} (hs : IsSort sort) (d : Data (Vec3 ℝ)) (hl : ¬ Collinear {p | p ∈ d.toAddrList}) :
    ∃ B, obb 0 sort d = some (some B) ∧ B.frame.att.IsRot ∧
      Tight {p | p ∈ d.toAddrList} B.frame.pos B.frame.att.x B.span.x ∧
      Tight {p | p ∈ d.toAddrList} B.frame.pos B.frame.att.y B.span.y ∧
      Tight {p | p ∈ d.toAddrList} B.frame.pos B.frame.att.z B.span.z := by
  obtain ⟨ph, rim, w, b, t, e, hch, H, hb, hmin, R, ht, he, hbest, hob⟩ := core hs d hl
  refine ⟨_, hob, ?_⟩
  obtain ⟨a1, a2, a3, a4⟩ := R.axes he t
  obtain ⟨b1, b2⟩ := R.lengths ht e
  obtain ⟨v1, v2, v3⟩ := cross_unit R.unit a2 a3
  have hc : (rectOf 0 b.norm t rim e).c = ((rectOf 0 b.norm t rim e).d1.mul (1 / 2 * ((range (rectOf 0 b.norm t rim e).d1 t rim).2 +
      (range (rectOf 0 b.norm t rim e).d1 t rim).1))).cat
      (1 / 2 * ((range (rectOf 0 b.norm t rim e).d2 t rim).2 + (range (rectOf 0 b.norm t rim e).d2 t rim).1))
      (rectOf 0 b.norm t rim e).d2 := rfl
  rw [range_hi ht R.ne, range_hi ht R.ne] at hc
  rw [a1] at b1 hc ⊢
  rw [a4] at b2 hc ⊢
  rw [b1, b2]
  generalize unitV (e.1.sub e.2) = u at *
  generalize (rectOf 0 b.norm t rim e).c = m at *
  have hdm : ∀ x : Vec3 ℝ, ∀ α β : ℝ, dot x ((u.mul α).cat β (crossP b.norm u)) = α * dot x u + β * dot x (crossP b.norm u) := by
    intro x α β; simp only [dot, Vec3.mul, Vec3.cat]; ring
  refine ⟨rot_of R.unit a2 a3, R.tight a3 ?_, R.tight v2 ?_, ?_⟩
  · rw [hc, hdm, a2, dot_comm u, v3]; ring
  · rw [hc, hdm, v3, v1]; ring
  · obtain ⟨h1, h2, p, hp, h3⟩ := depth_width H hb
    have hm : dot b.norm m = 0 := by
      rw [hc, hdm, dot_comm, a3, dot_comm, v2]; ring
    have hcc : ∀ q : Vec3 ℝ, dot b.norm (q.sub (((ph.vert b.i0).cat (-(1 / 2) * depth ph b) b.norm).add m)) =
        dot b.norm q - dot b.norm (ph.vert b.i0) + depth ph b / 2 := by
      intro q
      have : dot b.norm (q.sub (((ph.vert b.i0).cat (-(1 / 2) * depth ph b) b.norm).add m)) =
        dot b.norm q - dot b.norm (ph.vert b.i0) + depth ph b / 2 * dot b.norm b.norm - dot b.norm m := by
        simp only [dot, Vec3.sub, Vec3.add, Vec3.cat]; ring
      rw [this, hm, R.unit]; ring
    refine ⟨fun q hq => ?_, ⟨_, h2, ?_⟩, p, hp, ?_⟩
    · show |dot b.norm (q.sub _)| ≤ depth ph b / 2
      rw [hcc, abs_le]
      have := h1 q hq
      constructor <;> linarith
    · show dot b.norm (Vec3.sub _ _) = depth ph b / 2
      rw [hcc]; ring
    · show dot b.norm (Vec3.sub _ _) = -(depth ph b / 2)
      rw [hcc, h3]; ring

/-- **C70 (degenerate data).** NULL is returned for data on a line, and for no other data. -/
theorem C70_null {sort} (hs : IsSort sort) (d : Data (Vec3 ℝ)) :
    obb 0 sort d = some none ↔ Collinear {p | p ∈ d.toAddrList} := by
  constructor
  · intro h
    by_contra hl
    obtain ⟨B, hB, -⟩ := C70_box hs d hl
    rw [hB] at h
    simp at h
  · intro h
    unfold obb
    rw [(C69_null sort d).2 h]

private theorem not_col {sort} (hs : IsSort sort) {d : Data (Vec3 ℝ)} {B : Box3 ℝ} (h : obb 0 sort d = some (some B)) :
    ¬ Collinear {p | p ∈ d.toAddrList} := by
  intro hl
  rw [(C70_null hs d).2 hl] at h
  simp at h

/-- **C70 (the height).** The third axis is the outward unit normal vector of a supporting plane of the data that
meets three points off a line, and among all such planes one along which the data are narrowest. -/
theorem C70_height {sort} (hs : IsSort sort) {d : Data (Vec3 ℝ)} {B : Box3 ℝ} (h : obb 0 sort d = some (some B)) :
    Supports {p | p ∈ d.toAddrList} B.frame.att.z ∧ Width {p | p ∈ d.toAddrList} B.frame.att.z B.span.z ∧
      ∀ n w, Supports {p | p ∈ d.toAddrList} n → Width {p | p ∈ d.toAddrList} n w → B.span.z ≤ w := by
  obtain ⟨ph, rim, w, b, t, e, hch, H, hb, hmin, R, ht, he, hbest, hob⟩ := core hs d (not_col hs h)
  obtain rfl := Option.some.inj (Option.some.inj (h.symm.trans hob))
  obtain ⟨h1, h2, p, hp, h3⟩ := depth_width H hb
  obtain ⟨i0, i1, i2⟩ := H.valid b hb
  have hw : ∀ f ∈ ph.face, Width {p | p ∈ d.toAddrList} f.norm (depth ph f) := by
    intro f hf
    obtain ⟨k1, k2, q, hq, k3⟩ := depth_width H hf
    exact ⟨q, hq, _, k2, fun r hr => ⟨by linarith [(k1 r hr).1], (k1 r hr).2⟩, by linarith⟩
  refine ⟨⟨R.unit, _, H.sub _ i0, _, H.sub _ i1, _, H.sub _ i2, H.proper b hb, (H.flat b hb).1, (H.flat b hb).2,
    fun q hq => (h1 q hq).2⟩, hw b hb, fun n wn hn hwn => ?_⟩
  by_cases hc : Coplanar {p | p ∈ d.toAddrList}
  · -- the data lie in a plane, and the height is zero
    obtain ⟨m, hm, k, hk⟩ := hc
    have q1 := par_cross (H.proper b hb) (cross_normal (u := b.norm) (H.flat b hb).1 (H.flat b hb).2)
    have q2 := par_cross (H.proper b hb) (cross_normal (u := m) ((hk _ (H.sub _ i1)).trans (hk _ (H.sub _ i0)).symm)
      ((hk _ (H.sub _ i2)).trans (hk _ (H.sub _ i0)).symm))
    set N := triNormal (ph.vert b.i0, ph.vert b.i1, ph.vert b.i2) with hN
    have hm0 : dot m N / dot N N ≠ 0 := by
      intro h0
      rw [h0] at q2
      apply hm
      rw [q2]; simp [Vec3.zero]
    have hcon : ∀ q ∈ d.toAddrList, dot N q = k / (dot m N / dot N N) := by
      intro q hq
      rw [eq_div_iff hm0, ← hk q hq]
      conv_rhs => rw [q2]
      simp only [dot]; ring
    have hz : ∀ q, dot b.norm q = dot b.norm N / dot N N * dot N q := by
      intro q
      conv_lhs => rw [q1]
      simp only [dot]; ring
    have h0 : depth ph b = 0 := by
      have e1 := hz p
      have e2 := hz (ph.vert b.i0)
      rw [hcon p hp] at e1
      rw [hcon _ h2] at e2
      linarith
    obtain ⟨a, ha, c, hc', hac, rfl⟩ := hwn
    show depth ph b ≤ _
    rw [h0]
    linarith [(hac a ha).2]
  · obtain ⟨f, hf, rfl⟩ := H.supports hch hc hn
    rw [width_unique hwn (hw f hf)]
    exact hmin f hf

/-- **C70 (the rectangle).** Among all boxes with the same third axis that enclose the data, the returned one has the
smallest base: for no direction across the third axis is the product of the two widths smaller. -/
theorem C70_rect {sort} (hs : IsSort sort) {d : Data (Vec3 ℝ)} {B : Box3 ℝ} (h : obb 0 sort d = some (some B)) {u : Vec3 ℝ}
    (hu : dot u u = 1) (hz : dot u B.frame.att.z = 0) {w1 w2 : ℝ} (h1 : Width {p | p ∈ d.toAddrList} u w1)
    (h2 : Width {p | p ∈ d.toAddrList} (crossP B.frame.att.z u) w2) : B.span.x * B.span.y ≤ w1 * w2 := by
  obtain ⟨ph, rim, w, b, t, e, hch, H, hb, hmin, R, ht, he, hbest, hob⟩ := core hs d (not_col hs h)
  obtain rfl := Option.some.inj (Option.some.inj (h.symm.trans hob))
  have hz' : dot u b.norm = 0 := hz
  obtain ⟨f, hf, hle⟩ := R.best hz' hu ht
  rw [width_unique h1 (R.width hz'), width_unique h2 (R.width (cross_unit R.unit hu hz').2.1)]
  exact (hbest f hf).trans hle

/-- Four corners of the unit cube that span a regular tetrahedron. -/
def exTetra4 : List (Vec3 ℝ) := [⟨0, 0, 0⟩, ⟨1, 1, 0⟩, ⟨1, 0, 1⟩, ⟨0, 1, 1⟩]

private theorem tetra_ncol : ¬ Collinear {p | p ∈ (Data.assignArray exTetra4).toAddrList} := by
  rw [toAddr]
  rintro ⟨o, dd, h⟩
  obtain ⟨k0, h0⟩ := h ⟨0, 0, 0⟩ (by simp [exTetra4])
  obtain ⟨k1, h1⟩ := h ⟨1, 1, 0⟩ (by simp [exTetra4])
  obtain ⟨k2, h2⟩ := h ⟨1, 0, 1⟩ (by simp [exTetra4])
  simp only [Vec3.mk.injEq] at h0 h1 h2
  have a1 : (k1 - k0) * dd.x = 1 := by linarith [h0.1, h1.1]
  have a2 : (k1 - k0) * dd.z = 0 := by linarith [h0.2.2, h1.2.2]
  have a3 : (k2 - k0) * dd.z = 1 := by linarith [h0.2.2, h2.2.2]
  rcases mul_eq_zero.1 a2 with h | h
  · rw [h] at a1; norm_num at a1
  · rw [h] at a3; norm_num at a3

/-- Data off a line, as the theorems are about. -/
example : ∃ (sort : _) (d : Data (Vec3 ℝ)), IsSort sort ∧ ¬ Collinear {p | p ∈ d.toAddrList} :=
  ⟨exSort, _, exSort_isSort, tetra_ncol⟩

/-- A triangle in a rectangle has at most half of its area. -/
private theorem tri_rect {ax ay bx bY cx cy p q : ℝ} (h1 : |ax| ≤ p / 2) (h2 : |bx| ≤ p / 2) (h3 : |cx| ≤ p / 2)
    (h4 : |ay| ≤ q / 2) (h5 : |bY| ≤ q / 2) (h6 : |cy| ≤ q / 2) :
    |(bx - ax) * (cy - ay) - (cx - ax) * (bY - ay)| ≤ p * q := by
  have e : (bx - ax) * (cy - ay) - (cx - ax) * (bY - ay) = ax * (bY - cy) + bx * (cy - ay) + cx * (ay - bY) := by ring
  have hp : 0 ≤ p := by linarith [abs_nonneg ax]
  have hs : |bY - cy| + |cy - ay| + |ay - bY| ≤ 2 * q := by
    have k4 := abs_le.1 h4
    have k5 := abs_le.1 h5
    have k6 := abs_le.1 h6
    rcases abs_cases (bY - cy) with h | h <;> rcases abs_cases (cy - ay) with h' | h' <;>
      rcases abs_cases (ay - bY) with h'' | h'' <;> linarith
  rw [e]
  calc |ax * (bY - cy) + bx * (cy - ay) + cx * (ay - bY)|
      ≤ |ax| * |bY - cy| + |bx| * |cy - ay| + |cx| * |ay - bY| := by
        rw [← abs_mul, ← abs_mul, ← abs_mul]
        exact (abs_add_le _ _).trans (add_le_add (abs_add_le _ _) le_rfl)
    _ ≤ p / 2 * |bY - cy| + p / 2 * |cy - ay| + p / 2 * |ay - bY| :=
        add_le_add (add_le_add (mul_le_mul_of_nonneg_right h1 (abs_nonneg _)) (mul_le_mul_of_nonneg_right h2 (abs_nonneg _)))
          (mul_le_mul_of_nonneg_right h3 (abs_nonneg _))
    _ = p / 2 * (|bY - cy| + |cy - ay| + |ay - bY|) := by ring
    _ ≤ p / 2 * (2 * q) := mul_le_mul_of_nonneg_left hs (by linarith)
    _ = p * q := by ring

private theorem tetra_det {a b c : Vec3 ℝ} (ha : a ∈ exTetra4) (hb : b ∈ exTetra4) (hc : c ∈ exTetra4)
    (h : triNormal (a, b, c) ≠ .zero) : ∃ p ∈ exTetra4, 2 ≤ |det3 (b.sub a) (c.sub a) (p.sub a)| := by
  have hm : ∀ p, p ∈ exTetra4 ↔ p = ⟨0, 0, 0⟩ ∨ p = ⟨1, 1, 0⟩ ∨ p = ⟨1, 0, 1⟩ ∨ p = ⟨0, 1, 1⟩ := by
    intro p; simp [exTetra4]
  rw [hm] at ha hb hc
  simp only [hm, exists_eq_or_imp, exists_eq_left]
  rcases ha with rfl | rfl | rfl | rfl <;> rcases hb with rfl | rfl | rfl | rfl <;>
    rcases hc with rfl | rfl | rfl | rfl <;>
    first
    | (exfalso; apply h; simp only [triNormal, Vec3.zero]; ext <;> norm_num; done)
    | (simp only [det3, Vec3.sub]; norm_num; done)

/-- **C70 (the volume is not the smallest).** For four corners of the unit cube that span a regular tetrahedron the box
returned, although its base and its height are as small as C70_height and C70_rect say, has at least twice the volume
of the cube, which encloses them too. -/
theorem C70_volume_wrong {sort} (hs : IsSort sort) :
    ∃ B B' : Box3 ℝ, obb 0 sort (Data.assignArray exTetra4) = some (some B) ∧ B'.frame.att.IsRot ∧
      Tight {p | p ∈ exTetra4} B'.frame.pos B'.frame.att.x B'.span.x ∧
      Tight {p | p ∈ exTetra4} B'.frame.pos B'.frame.att.y B'.span.y ∧
      Tight {p | p ∈ exTetra4} B'.frame.pos B'.frame.att.z B'.span.z ∧
      2 * (B'.span.x * B'.span.y * B'.span.z) ≤ B.span.x * B.span.y * B.span.z := by
  obtain ⟨B, hB, hrot, tx, ty, tz⟩ := C70_box hs _ tetra_ncol
  obtain ⟨⟨-, a, ha, b, hb, c, hc, hN, eb, ec, hle⟩, -, -⟩ := C70_height hs hB
  rw [toAddr] at ha hb hc tx ty tz hle
  refine ⟨B, ⟨⟨1, 1, 1⟩, ⟨⟨1 / 2, 1 / 2, 1 / 2⟩, .ident⟩⟩, hB, Mat3.IsRot.ident, ?_, ?_, ?_, ?_⟩
  · refine ⟨fun p hp => ?_, ⟨⟨1, 1, 0⟩, by simp [exTetra4], ?_⟩, ⟨0, 0, 0⟩, by simp [exTetra4], ?_⟩
    · simp only [exTetra4, Set.mem_setOf_eq, List.mem_cons, List.not_mem_nil, or_false] at hp
      rcases hp with rfl | rfl | rfl | rfl <;> norm_num [dot, Vec3.sub, Mat3.ident, Vec3.ex, Vec3.ey, Vec3.ez, abs_le]
    · norm_num [dot, Vec3.sub, Mat3.ident, Vec3.ex, Vec3.ey, Vec3.ez]
    · norm_num [dot, Vec3.sub, Mat3.ident, Vec3.ex, Vec3.ey, Vec3.ez]
  · refine ⟨fun p hp => ?_, ⟨⟨1, 1, 0⟩, by simp [exTetra4], ?_⟩, ⟨0, 0, 0⟩, by simp [exTetra4], ?_⟩
    · simp only [exTetra4, Set.mem_setOf_eq, List.mem_cons, List.not_mem_nil, or_false] at hp
      rcases hp with rfl | rfl | rfl | rfl <;> norm_num [dot, Vec3.sub, Mat3.ident, Vec3.ex, Vec3.ey, Vec3.ez, abs_le]
    · norm_num [dot, Vec3.sub, Mat3.ident, Vec3.ex, Vec3.ey, Vec3.ez]
    · norm_num [dot, Vec3.sub, Mat3.ident, Vec3.ex, Vec3.ey, Vec3.ez]
  · refine ⟨fun p hp => ?_, ⟨⟨1, 0, 1⟩, by simp [exTetra4], ?_⟩, ⟨0, 0, 0⟩, by simp [exTetra4], ?_⟩
    · simp only [exTetra4, Set.mem_setOf_eq, List.mem_cons, List.not_mem_nil, or_false] at hp
      rcases hp with rfl | rfl | rfl | rfl <;> norm_num [dot, Vec3.sub, Mat3.ident, Vec3.ex, Vec3.ey, Vec3.ez, abs_le]
    · norm_num [dot, Vec3.sub, Mat3.ident, Vec3.ex, Vec3.ey, Vec3.ez]
    · norm_num [dot, Vec3.sub, Mat3.ident, Vec3.ex, Vec3.ey, Vec3.ez]
  · obtain ⟨p, hp, hd⟩ := tetra_det ha hb hc hN
    have hdet : det3 B.frame.att.x B.frame.att.y B.frame.att.z = 1 := by
      have := hrot.det_eq
      simp only [zeo] at this
      simp only [det3]; linarith
    have hrep : det3 (b.sub a) (c.sub a) (p.sub a) = det3 B.frame.att.x B.frame.att.y B.frame.att.z *
        det3 (b.sub a) (c.sub a) (p.sub a) := by rw [hdet, one_mul]
    have hexp : det3 B.frame.att.x B.frame.att.y B.frame.att.z * det3 (b.sub a) (c.sub a) (p.sub a) =
        det3 ⟨dot B.frame.att.x (b.sub a), dot B.frame.att.y (b.sub a), dot B.frame.att.z (b.sub a)⟩
          ⟨dot B.frame.att.x (c.sub a), dot B.frame.att.y (c.sub a), dot B.frame.att.z (c.sub a)⟩
          ⟨dot B.frame.att.x (p.sub a), dot B.frame.att.y (p.sub a), dot B.frame.att.z (p.sub a)⟩ := by
      simp only [det3, dot]; ring
    have zb : dot B.frame.att.z (b.sub a) = 0 := by rw [dot_sub]; linarith
    have zc : dot B.frame.att.z (c.sub a) = 0 := by rw [dot_sub]; linarith
    rw [hrep, hexp, zb, zc] at hd
    have hsub : ∀ x q : Vec3 ℝ, dot x (q.sub a) = dot x (q.sub B.frame.pos) - dot x (a.sub B.frame.pos) := by
      intro x q; simp only [dot, Vec3.sub]; ring
    have hin := tri_rect (tx.1 a ha) (tx.1 b hb) (tx.1 c hc) (ty.1 a ha) (ty.1 b hb) (ty.1 c hc)
    rw [← hsub, ← hsub, ← hsub, ← hsub] at hin
    have hz : |dot B.frame.att.z (p.sub a)| ≤ B.span.z := by
      rw [hsub]
      have k1 := abs_le.1 (tz.1 a ha)
      have k2 := abs_le.1 (tz.1 p hp)
      rw [abs_le]; constructor <;> linarith
    have e : det3 ⟨dot B.frame.att.x (b.sub a), dot B.frame.att.y (b.sub a), 0⟩
          ⟨dot B.frame.att.x (c.sub a), dot B.frame.att.y (c.sub a), 0⟩
          ⟨dot B.frame.att.x (p.sub a), dot B.frame.att.y (p.sub a), dot B.frame.att.z (p.sub a)⟩ =
        (dot B.frame.att.x (b.sub a) * dot B.frame.att.y (c.sub a) - dot B.frame.att.x (c.sub a) * dot B.frame.att.y (b.sub a)) *
          dot B.frame.att.z (p.sub a) := by
      simp only [det3]; ring
    rw [e, abs_mul] at hd
    have h0 : 0 ≤ B.span.x * B.span.y := (abs_nonneg _).trans hin
    have := mul_le_mul hin hz (abs_nonneg _) h0
    norm_num
    linarith

end
end Zeo
