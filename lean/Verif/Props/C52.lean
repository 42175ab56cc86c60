import Verif.Lemmas.Meet
import Verif.Props.C17
import Verif.Props.C18
import Verif.Props.C20

/-! # C52: intersections of edges, triangles, planes, boxes and spheres

Specification: the point sets `Spec.segment`, `Spec.triangle`, `Spec.plane`, `Spec.aabox`, `Spec.obox` and
the Euclidean distance `Spec.ed`.  A returned point list is *sound* when its points belong to both sets (or
to one of them and within `zTOL` of the other) and *complete* when it is empty only if the sets are disjoint. -/

namespace Zeo
open Classical Meet

/-! ## Edge and plane -/

private theorem near_plane {τ : ℝ} {pl : Plane3 ℝ} (hn : pl.norm.sqrNorm = 1) {p : Vec3 ℝ} (h : |g pl p| ≤ τ) :
    ∃ q ∈ Spec.plane pl.org pl.norm, Spec.ed p q ≤ τ := by
  have hn' : pl.norm.x * pl.norm.x + pl.norm.y * pl.norm.y + pl.norm.z * pl.norm.z = 1 := by
    simpa only [Vec3.sqrNorm, Vec3.inner] using hn
  refine ⟨p.sub (pl.norm.mul (g pl p)), ?_, ?_⟩
  · rw [mem_plane]
    have : ∀ k, g pl (p.sub (pl.norm.mul k)) = g pl p - k * (pl.norm.x * pl.norm.x + pl.norm.y * pl.norm.y + pl.norm.z * pl.norm.z) := fun k => by
      simp only [g, Vec3.sub, Vec3.inner, Vec3.mul]; ring
    rw [this, hn']; ring
  · have : Spec.sqd p (p.sub (pl.norm.mul (g pl p))) = |g pl p| ^ 2 := by
      rw [sq_abs]
      simp only [Spec.sqd, Vec3.sub, Vec3.mul]
      linear_combination (g pl p) ^ 2 * hn'
    rw [Spec.ed, this, Real.sqrt_sq (abs_nonneg _)]
    exact h

/-- The check decides whether the edge meets the plane. -/
theorem C52_edge_plane (e0 e1 : Vec3 ℝ) (pl : Plane3 ℝ) :
    colChkEdgePlane e0 e1 pl ↔ ∃ q ∈ Spec.segment e0 e1, q ∈ Spec.plane pl.org pl.norm := by
  simp only [mem_plane]; exact seg_plane e0 e1 pl

/-- The reported points are on the edge and within the tolerance of the plane, there are at most two, none is
reported exactly when the two do not meet, and when the ends differ in height by more than the tolerance
the report is exactly the common point. -/
theorem C52_intersectEdgePlane {τ : ℝ} (hτ : 0 ≤ τ) (e0 e1 : Vec3 ℝ) (pl : Plane3 ℝ) (hn : pl.norm.sqrNorm = 1) :
    (∀ p ∈ intersectEdgePlane τ e0 e1 pl, p ∈ Spec.segment e0 e1 ∧ ∃ q ∈ Spec.plane pl.org pl.norm, Spec.ed p q ≤ τ) ∧
    (intersectEdgePlane τ e0 e1 pl).length ≤ 2 ∧
    (intersectEdgePlane τ e0 e1 pl = [] ↔ Disjoint (Spec.segment e0 e1) (Spec.plane pl.org pl.norm)) ∧
    (τ < |pl.norm.inner (e1.sub e0)| → ∀ p, p ∈ intersectEdgePlane τ e0 e1 pl ↔ p ∈ Spec.segment e0 e1 ∧ p ∈ Spec.plane pl.org pl.norm) := by
  refine ⟨fun p hp => ?_, ?_, ?_, fun h p => ?_⟩
  · obtain ⟨h1, h2⟩ := edge_sound hτ hp
    exact ⟨h1, near_plane hn h2⟩
  · rcases edge_cases hτ e0 e1 pl with ⟨h1, -⟩ | ⟨h1, -⟩ | ⟨-, q, -, -, h1, -⟩ <;> simp [h1]
  · rw [edge_nil hτ, Set.disjoint_left]
    simp only [mem_plane]
    push Not
    rfl
  · have h' : τ < |g pl e1 - g pl e0| := by
      rw [← sub_inner]
      convert h using 2
      simp only [Vec3.inner]; ring
    rcases edge_cases hτ e0 e1 pl with ⟨h1, h2⟩ | ⟨-, -, h2, -⟩ | ⟨-, q, hq, hg, h1, hu⟩
    · rw [h1, mem_plane]
      constructor
      · intro h; simp at h
      · rintro ⟨a, b⟩; exact absurd ⟨p, a, b⟩ h2
    · linarith
    · rw [h1, List.mem_singleton, mem_plane]
      constructor
      · rintro rfl; exact ⟨hq, hg⟩
      · rintro ⟨a, b⟩; exact hu p a b

/-- Satisfiability: an edge crossing the plane `z = 1`. -/
example : colChkEdgePlane ⟨0, 0, 0⟩ ⟨0, 0, 3⟩ ⟨⟨5, 5, 1⟩, ⟨0, 0, 1⟩⟩ ∧
    intersectEdgePlane (1/10) ⟨0, 0, 0⟩ ⟨0, 0, 3⟩ ⟨⟨5, 5, 1⟩, ⟨0, 0, 1⟩⟩ = [⟨0, 0, 1⟩] := by
  have h : colChkEdgePlane ⟨0, 0, 0⟩ ⟨0, 0, 3⟩ ⟨⟨5, 5, 1⟩, ⟨0, 0, 1⟩⟩ := by
    simp only [colChkEdgePlane, Vec3.sub, Vec3.inner]; norm_num
  refine ⟨h, ?_⟩
  unfold intersectEdgePlane
  rw [if_neg (not_not.2 h)]
  dsimp only
  rw [if_neg (by simp only [zIsTol, Vec3.sub, Vec3.inner]; norm_num [abs_of_pos])]
  simp only [Vec3.sub, Vec3.inner, Vec3.add, Vec3.mul]; norm_num

/-! ## Triangle and plane -/

/-- The check decides whether the filled triangle meets the plane. -/
theorem C52_tri_plane (v0 v1 v2 : Vec3 ℝ) (pl : Plane3 ℝ) :
    colChkTriPlane v0 v1 v2 pl ↔ ∃ q ∈ Spec.triangle v0 v1 v2, q ∈ Spec.plane pl.org pl.norm := by
  simp only [mem_plane]
  rw [Meet.tri_plane, colChkTriPlane, chk_iff, chk_iff, chk_iff, seg_plane, seg_plane, seg_plane]

/-- The reported points are in the triangle and within the tolerance of the plane, no two are the same, and
none is reported exactly when the two do not meet.  There are at most four. -/
theorem C52_intersectTriPlane {τ : ℝ} (hτ : 0 ≤ τ) (v0 v1 v2 : Vec3 ℝ) (pl : Plane3 ℝ) (hn : pl.norm.sqrNorm = 1) :
    (∀ p ∈ intersectTriPlane τ v0 v1 v2 pl, p ∈ Spec.triangle v0 v1 v2 ∧ ∃ q ∈ Spec.plane pl.org pl.norm, Spec.ed p q ≤ τ) ∧
    (intersectTriPlane τ v0 v1 v2 pl = [] ↔ Disjoint (Spec.triangle v0 v1 v2) (Spec.plane pl.org pl.norm)) ∧
    (intersectTriPlane τ v0 v1 v2 pl).Nodup ∧ (intersectTriPlane τ v0 v1 v2 pl).length ≤ 4 := by
  refine ⟨fun p hp => ?_, ?_, triPlane_nodup hτ _ _ _ _, triPlane_le hτ _ _ _ _⟩
  · have T := @seg_tri v0 v1 v2 p
    rcases triPlane_mem hp with h | h | h <;> obtain ⟨h1, h2⟩ := edge_sound hτ h
    · exact ⟨T.1 h1, near_plane hn h2⟩
    · exact ⟨T.2.1 h1, near_plane hn h2⟩
    · exact ⟨T.2.2 h1, near_plane hn h2⟩
  · have hd : Disjoint (Spec.triangle v0 v1 v2) (Spec.plane pl.org pl.norm) ↔ ¬ ∃ q ∈ Spec.triangle v0 v1 v2, g pl q = 0 := by
      rw [Set.disjoint_left]
      simp only [mem_plane]
      push Not
      rfl
    rw [hd, Meet.tri_plane, not_or, not_or, ← edge_nil hτ, ← edge_nil hτ, ← edge_nil hτ]
    constructor
    · intro h
      have K : ∀ p, ¬ (p ∈ intersectEdgePlane τ v0 v1 pl ∨ p ∈ intersectEdgePlane τ v1 v2 pl ∨ p ∈ intersectEdgePlane τ v2 v0 pl) := fun p hp => by
        obtain ⟨q, hq, -⟩ := triPlane_has hτ hp
        rw [h] at hq; simp at hq
      simp only [not_or] at K
      exact ⟨List.eq_nil_iff_forall_not_mem.2 fun p => (K p).1, List.eq_nil_iff_forall_not_mem.2 fun p => (K p).2.1,
        List.eq_nil_iff_forall_not_mem.2 fun p => (K p).2.2⟩
    · rintro ⟨h1, h2, h3⟩
      refine List.eq_nil_iff_forall_not_mem.2 fun p hp => ?_
      rcases triPlane_mem hp with h | h | h
      · rw [h1] at h; simp at h
      · rw [h2] at h; simp at h
      · rw [h3] at h; simp at h

private theorem edge_flat {τ : ℝ} {e0 e1 : Vec3 ℝ} {pl : Plane3 ℝ} (h : g pl e0 * g pl e1 ≤ 0) (hd : |g pl e1 - g pl e0| ≤ τ) :
    intersectEdgePlane τ e0 e1 pl = [e0, e1] := by
  unfold intersectEdgePlane
  rw [if_neg (not_not.2 ((chk_iff _ _ _).2 h))]
  dsimp only
  rw [sub_inner, if_pos (show zIsTol _ τ from hd)]

private theorem edge_cut {τ : ℝ} {e0 e1 : Vec3 ℝ} {pl : Plane3 ℝ} (h : g pl e0 * g pl e1 ≤ 0) (hd : τ < |g pl e1 - g pl e0|) :
    intersectEdgePlane τ e0 e1 pl = [e0.add ((e1.sub e0).mul (- g pl e0 / (g pl e1 - g pl e0)))] := by
  unfold intersectEdgePlane
  rw [if_neg (not_not.2 ((chk_iff _ _ _).2 h))]
  dsimp only
  rw [sub_inner pl e0 e1, if_neg (show ¬ zIsTol _ τ from not_le.2 hd), org_inner]

/-- Four points are possible, one more than `zIntersectTri3D` (src/zeo_col.c:140, `zVec3D v[2][3]`) has room
for: a triangle nearly parallel to the plane, with heights `0.6 zTOL`, `0` and `-0.6 zTOL`. -/
theorem C52_four_points {τ : ℝ} (hτ : 0 < τ) (hτ' : τ ≤ 1/4) :
    (intersectTriPlane τ ⟨0, 0, 6/10 * τ⟩ ⟨10, 0, 0⟩ ⟨0, 10, -(6/10 * τ)⟩ ⟨⟨0, 0, 0⟩, ⟨0, 0, 1⟩⟩).length = 4 := by
  set pl : Plane3 ℝ := ⟨⟨0, 0, 0⟩, ⟨0, 0, 1⟩⟩ with hpl
  have hg : ∀ v : Vec3 ℝ, g pl v = v.z := fun v => by simp [g, hpl, Vec3.inner, Vec3.sub]
  have e1 : intersectEdgePlane τ ⟨0, 0, 6/10 * τ⟩ ⟨10, 0, 0⟩ pl = [⟨0, 0, 6/10 * τ⟩, ⟨10, 0, 0⟩] := by
    apply edge_flat
    · simp [hg]
    · simp only [hg]; rw [abs_le]; constructor <;> linarith
  have e2 : intersectEdgePlane τ ⟨10, 0, 0⟩ ⟨0, 10, -(6/10 * τ)⟩ pl = [⟨10, 0, 0⟩, ⟨0, 10, -(6/10 * τ)⟩] := by
    apply edge_flat
    · simp [hg]
    · simp only [hg]; rw [abs_le]; constructor <;> linarith
  have e3 : intersectEdgePlane τ ⟨0, 10, -(6/10 * τ)⟩ ⟨0, 0, 6/10 * τ⟩ pl = [⟨0, 5, 0⟩] := by
    rw [edge_cut]
    · simp only [hg, Vec3.add, Vec3.sub, Vec3.mul]
      have : (- -(6 / 10 * τ)) / (6 / 10 * τ - -(6 / 10 * τ)) = 1/2 := by field_simp; norm_num
      rw [this]; ext <;> norm_num; ring
    · simp only [hg]; nlinarith
    · simp only [hg]; rw [abs_of_pos (by linarith)]; linarith
  have big : ∀ {x : ℝ}, 1 ≤ |x| → ¬ zIsTol x τ := fun h => by simp only [zIsTol]; linarith
  rw [triPlane_eq, e1, e2, e3]
  have d1 : ¬ Vec3.equal τ ⟨10, 0, 0⟩ ⟨0, 0, 6/10 * τ⟩ := fun h => big (by norm_num) h.1
  have d2 : ¬ Vec3.equal τ ⟨0, 10, -(6/10 * τ)⟩ ⟨0, 0, 6/10 * τ⟩ := fun h => big (by norm_num) h.2.1
  have d3 : ¬ Vec3.equal τ ⟨0, 10, -(6/10 * τ)⟩ ⟨10, 0, 0⟩ := fun h => big (by norm_num) h.2.1
  have d4 : ¬ Vec3.equal τ ⟨0, 5, 0⟩ ⟨0, 0, 6/10 * τ⟩ := fun h => big (by norm_num) h.2.1
  have d5 : ¬ Vec3.equal τ ⟨0, 5, 0⟩ ⟨10, 0, 0⟩ := fun h => big (by norm_num) h.2.1
  have d6 : ¬ Vec3.equal τ ⟨0, 5, 0⟩ ⟨0, 10, -(6/10 * τ)⟩ := fun h => big (by norm_num) h.2.1
  have r := equal_refl hτ.le (⟨10, 0, 0⟩ : Vec3 ℝ)
  simp [addNew, d1, d2, d3, d4, d5, d6, r]

/-! ## Edge and triangle -/

/-- A triangle as `zTri3DCreate` makes it. -/
noncomputable abbrev mkTri (τ : ℝ) (a b c : Vec3 ℝ) : Tri3 ℝ := (Tri3.create τ a b c).2

private theorem mk_plane {τ : ℝ} (hτ : 0 ≤ τ) (hτ' : τ ≤ 1/4) {a b c : Vec3 ℝ} (h : ¬ (Tri3.outerProd a b c).isTol τ) :
    ∃ n, mkTri τ a b c = ⟨a, b, c, n⟩ ∧ (mkTri τ a b c).toPlane τ = some ⟨a, n⟩ ∧ n.sqrNorm = 1 ∧
      (∃ k, 0 < k ∧ Tri3.outerProd a b c = n.mul k) ∧ ∀ p ∈ Spec.triangle a b c, g ⟨a, n⟩ p = 0 :=
  toPlane_create hτ hτ' h

private theorem mkTri_eq {τ : ℝ} (hτ : 0 ≤ τ) (hτ' : τ ≤ 1/4) {a b c : Vec3 ℝ} (h : ¬ (Tri3.outerProd a b c).isTol τ) :
    (mkTri τ a b c).v0 = a ∧ (mkTri τ a b c).v1 = b ∧ (mkTri τ a b c).v2 = c := by
  obtain ⟨n, h1, -⟩ := mk_plane hτ hτ' h
  rw [h1]; exact ⟨rfl, rfl, rfl⟩

/-- Every reported point is on the edge and nearer to the triangle than the tolerance; and when the ends
of the edge differ in height over the triangle's plane by more than the tolerance, an edge that meets the
triangle is reported with the common point. -/
theorem C52_edge_tri {τ : ℝ} (hτ : 0 < τ) (hτ' : τ ≤ 1/4) (e0 e1 a b c : Vec3 ℝ) (h : ¬ (Tri3.outerProd a b c).isTol τ) :
    (∀ p ∈ intersectEdgeTri τ e0 e1 (mkTri τ a b c), p ∈ Spec.segment e0 e1 ∧ ∃ q ∈ Spec.triangle a b c, Spec.ed p q < τ) ∧
    (τ < |(mkTri τ a b c).norm.inner (e1.sub e0)| → ∀ q, q ∈ Spec.segment e0 e1 → q ∈ Spec.triangle a b c →
      intersectEdgeTri τ e0 e1 (mkTri τ a b c) = [q]) := by
  obtain ⟨n, h1, h2, h3, -, h4⟩ := mk_plane hτ.le hτ' h
  have hin := fun p => C20_pointIsInside τ hτ.le hτ' a b c p τ (Or.inl h)
  unfold intersectEdgeTri
  rw [h2, h1]
  dsimp only
  constructor
  · intro p hp
    rw [List.mem_filter, decide_eq_true_iff, hin] at hp
    exact ⟨(edge_sound hτ.le hp.1).1, hp.2⟩
  · intro ht q hq hqt
    have ht' : τ < |g ⟨a, n⟩ e1 - g ⟨a, n⟩ e0| := by
      rw [← sub_inner]
      convert ht using 2
      simp only [Vec3.inner]; ring
    rcases edge_cases hτ.le e0 e1 ⟨a, n⟩ with ⟨-, k⟩ | ⟨-, -, k, -⟩ | ⟨-, p, hp, hg, k, hu⟩
    · exact absurd ⟨q, hq, h4 q hqt⟩ k
    · linarith
    · rw [k]
      have := hu q hq (h4 q hqt)
      subst this
      rw [List.filter_cons_of_pos]
      · rfl
      · rw [decide_eq_true_iff, hin]
        exact ⟨q, hqt, by simpa [Spec.ed, Spec.sqd] using hτ⟩

/-- The test reports a contact only if the edge comes nearer to the triangle than the tolerance, and always if it
meets the triangle and its ends differ in height over it by more than the tolerance. -/
theorem C52_edge_tri_check {τ : ℝ} (hτ : 0 < τ) (hτ' : τ ≤ 1/4) (e0 e1 a b c : Vec3 ℝ) (h : ¬ (Tri3.outerProd a b c).isTol τ) :
    (colChkEdgeTri τ e0 e1 (mkTri τ a b c) → ∃ p ∈ Spec.segment e0 e1, ∃ q ∈ Spec.triangle a b c, Spec.ed p q < τ) ∧
    (τ < |(mkTri τ a b c).norm.inner (e1.sub e0)| → (∃ q ∈ Spec.segment e0 e1, q ∈ Spec.triangle a b c) → colChkEdgeTri τ e0 e1 (mkTri τ a b c)) := by
  obtain ⟨h1, h2⟩ := C52_edge_tri hτ hτ' e0 e1 a b c h
  constructor
  · intro hc
    obtain ⟨p, hp⟩ := List.exists_mem_of_length_pos hc
    exact ⟨p, h1 p hp⟩
  · rintro ht ⟨q, hq, hqt⟩
    rw [colChkEdgeTri, h2 ht q hq hqt]; exact Nat.one_pos

private theorem not_in {τ : ℝ} (hτ' : τ ≤ 1/4) {a b c p : Vec3 ℝ} {x y z k : ℝ} (hxyz : x ^ 2 + y ^ 2 + z ^ 2 ≤ 9)
    (ha : x * a.x + y * a.y + z * a.z ≤ k) (hb : x * b.x + y * b.y + z * b.z ≤ k) (hc : x * c.x + y * c.y + z * c.z ≤ k)
    (hp : k + 1 ≤ x * p.x + y * p.y + z * p.z) : ¬ ∃ q ∈ Spec.triangle a b c, Spec.ed p q < τ := by
  rintro ⟨q, ⟨l, m, r, hl, hm, hr, hs, rfl⟩, hd⟩
  have hd0 : Spec.sqd p (Spec.comb l m r 0 a b c a) < (1/4) ^ 2 := by
    have := (Real.sqrt_lt' (by norm_num : (0:ℝ) < 1/4)).1 (lt_of_lt_of_le hd hτ')
    exact this
  set q := Spec.comb l m r 0 a b c a with hq
  have hk : x * q.x + y * q.y + z * q.z ≤ k := by
    have : x * q.x + y * q.y + z * q.z = l * (x * a.x + y * a.y + z * a.z) + m * (x * b.x + y * b.y + z * b.z) + r * (x * c.x + y * c.y + z * c.z) := by
      simp only [hq, Spec.comb]; ring
    rw [this, ← one_mul k, ← hs]
    nlinarith
  have h1 : 1 ≤ x * (p.x - q.x) + y * (p.y - q.y) + z * (p.z - q.z) := by linarith
  simp only [Spec.sqd] at hd0
  have cs : (x * (p.x - q.x) + y * (p.y - q.y) + z * (p.z - q.z)) ^ 2 ≤ (x ^ 2 + y ^ 2 + z ^ 2) * ((p.x - q.x) ^ 2 + (p.y - q.y) ^ 2 + (p.z - q.z) ^ 2) := by
    nlinarith [sq_nonneg (x * (p.y - q.y) - y * (p.x - q.x)), sq_nonneg (x * (p.z - q.z) - z * (p.x - q.x)), sq_nonneg (y * (p.z - q.z) - z * (p.y - q.y))]
  have h2 : (x ^ 2 + y ^ 2 + z ^ 2) * ((p.x - q.x) ^ 2 + (p.y - q.y) ^ 2 + (p.z - q.z) ^ 2) ≤ 9 * (1/4) ^ 2 :=
    mul_le_mul hxyz hd0.le (by positivity) (by norm_num)
  nlinarith

private theorem prod_xy (a b c : Vec3 ℝ) (ha : a.z = 0) (hb : b.z = 0) (hc : c.z = 0) :
    Tri3.outerProd a b c = ⟨0, 0, (Tri3.outerProd a b c).z⟩ := by
  ext <;> simp [Tri3.outerProd, zeo, ha, hb, hc]

/-- The normal of a triangle in the plane `z = 0`. -/
private theorem flat_plane {τ : ℝ} (hτ : 0 ≤ τ) (hτ' : τ ≤ 1/4) {a b c : Vec3 ℝ} (h : ¬ (Tri3.outerProd a b c).isTol τ)
    (ha : a.z = 0) (hb : b.z = 0) (hc : c.z = 0) :
    ∃ pl, (mkTri τ a b c).toPlane τ = some pl ∧ ∀ v : Vec3 ℝ, v.z = 0 → g pl v = 0 := by
  obtain ⟨n, -, h2, h3, ⟨k, hk, h4⟩, -⟩ := mk_plane hτ hτ' h
  refine ⟨_, h2, fun v hv => ?_⟩
  have h5 := h4.symm.trans (prod_xy a b c ha hb hc)
  have hx : n.x = 0 := by
    have := congrArg Vec3.x h5
    simp only [Vec3.mul] at this
    rcases mul_eq_zero.1 this with h | h
    · exact absurd h hk.ne'
    · exact h
  have hy : n.y = 0 := by
    have := congrArg Vec3.y h5
    simp only [Vec3.mul] at this
    rcases mul_eq_zero.1 this with h | h
    · exact absurd h hk.ne'
    · exact h
  simp [g, Vec3.inner, Vec3.sub, hx, hy, hv, ha]

/-- An edge lying in the plane of the triangle and running across it is missed when both its ends are outside. -/
theorem C52_edge_tri_missed {τ : ℝ} (hτ : 0 < τ) (hτ' : τ ≤ 1/4) :
    (⟨1, 1, 0⟩ : Vec3 ℝ) ∈ Spec.segment ⟨-4, 1, 0⟩ ⟨6, 1, 0⟩ ∧ (⟨1, 1, 0⟩ : Vec3 ℝ) ∈ Spec.triangle ⟨0, 0, 0⟩ ⟨4, 0, 0⟩ ⟨0, 4, 0⟩ ∧
    ¬ colChkEdgeTri τ ⟨-4, 1, 0⟩ ⟨6, 1, 0⟩ (mkTri τ ⟨0, 0, 0⟩ ⟨4, 0, 0⟩ ⟨0, 4, 0⟩) := by
  refine ⟨⟨1/2, 1/2, by norm_num, by norm_num, by norm_num, by ext <;> norm_num [Spec.comb]⟩,
    ⟨1/2, 1/4, 1/4, by norm_num, by norm_num, by norm_num, by norm_num, by ext <;> norm_num [Spec.comb]⟩, ?_⟩
  have h : ¬ (Tri3.outerProd (⟨0, 0, 0⟩ : Vec3 ℝ) ⟨4, 0, 0⟩ ⟨0, 4, 0⟩).isTol τ := fun h => by
    have := h.2.2
    simp only [Tri3.outerProd, zeo, zIsTol] at this
    norm_num at this
    linarith
  obtain ⟨pl, hp, hg⟩ := flat_plane hτ.le hτ' h rfl rfl rfl
  obtain ⟨v0, v1, v2⟩ := mkTri_eq hτ.le hτ' h
  unfold colChkEdgeTri intersectEdgeTri
  rw [hp, v0, v1, v2]
  dsimp only
  rw [edge_flat (by rw [hg _ rfl, hg _ rfl]; norm_num) (by rw [hg _ rfl, hg _ rfl]; simpa using hτ.le)]
  have i1 : ¬ Tri3.pointIsInside τ ⟨0, 0, 0⟩ ⟨4, 0, 0⟩ ⟨0, 4, 0⟩ ⟨-4, 1, 0⟩ τ := by
    rw [C20_pointIsInside τ hτ.le hτ' _ _ _ _ _ (Or.inl h)]
    exact not_in hτ' (x := -1) (y := 0) (z := 0) (k := 0) (by norm_num) (by norm_num) (by norm_num) (by norm_num) (by norm_num)
  have i2 : ¬ Tri3.pointIsInside τ ⟨0, 0, 0⟩ ⟨4, 0, 0⟩ ⟨0, 4, 0⟩ ⟨6, 1, 0⟩ τ := by
    rw [C20_pointIsInside τ hτ.le hτ' _ _ _ _ _ (Or.inl h)]
    exact not_in hτ' (x := 1) (y := 0) (z := 0) (k := 4) (by norm_num) (by norm_num) (by norm_num) (by norm_num) (by norm_num)
  simp [i1, i2]

/-! ## Two triangles -/

private theorem keep_sub {τ : ℝ} {t : Tri3 ℝ} (pts : List (Vec3 ℝ)) : ∀ {ip : List (Vec3 ℝ)} {p : Vec3 ℝ}, p ∈ keepInside τ t ip pts →
    p ∈ ip ∨ (p ∈ pts ∧ Tri3.pointIsInside τ t.v0 t.v1 t.v2 p τ) := by
  induction pts with
  | nil => intro ip p h; exact Or.inl h
  | cons v l ih =>
    intro ip p h
    unfold keepInside at h
    rw [List.foldl_cons] at h
    rcases ih h with h | h
    · split at h
      · exact Or.inl h
      · rename_i hi
        rcases addNew_sub h with h | h
        · exact Or.inl h
        · subst h; exact Or.inr ⟨by simp, not_not.1 hi⟩
    · exact Or.inr ⟨by simp [h.1], h.2⟩

private theorem sub_keep {τ : ℝ} {t : Tri3 ℝ} (pts : List (Vec3 ℝ)) : ∀ {ip : List (Vec3 ℝ)} {p : Vec3 ℝ}, p ∈ ip → p ∈ keepInside τ t ip pts := by
  induction pts with
  | nil => intro ip p h; exact h
  | cons v l ih =>
    intro ip p h
    unfold keepInside
    rw [List.foldl_cons]
    refine ih ?_
    split
    · exact h
    · exact sub_addNew v h

private theorem keep_has {τ : ℝ} (hτ : 0 ≤ τ) {t : Tri3 ℝ} (pts : List (Vec3 ℝ)) : ∀ (ip : List (Vec3 ℝ)) {p : Vec3 ℝ}, p ∈ pts →
    Tri3.pointIsInside τ t.v0 t.v1 t.v2 p τ → ∃ q ∈ keepInside τ t ip pts, Vec3.equal τ p q := by
  induction pts with
  | nil => intro ip p h; simp at h
  | cons v l ih =>
    intro ip p h hi
    unfold keepInside
    rw [List.foldl_cons]
    rcases List.mem_cons.1 h with rfl | h
    · rw [if_neg (not_not.2 hi)]
      obtain ⟨q, hq, he⟩ := addNew_has hτ ip p
      exact ⟨q, sub_keep l hq, he⟩
    · exact ih _ h hi

/-- Every reported point belongs to one triangle and is nearer than the tolerance to the other. -/
theorem C52_tri_sound {τ : ℝ} (hτ : 0 < τ) (hτ' : τ ≤ 1/4) (a b c a' b' c' : Vec3 ℝ)
    (h : ¬ (Tri3.outerProd a b c).isTol τ) (h' : ¬ (Tri3.outerProd a' b' c').isTol τ) :
    ∃ l, intersectTri τ (mkTri τ a b c) (mkTri τ a' b' c') = some l ∧ colChkTri τ (mkTri τ a b c) (mkTri τ a' b' c') = some (l ≠ [], l.length) ∧
      ∀ p ∈ l, (p ∈ Spec.triangle a b c ∧ ∃ q ∈ Spec.triangle a' b' c', Spec.ed p q < τ) ∨
        (p ∈ Spec.triangle a' b' c' ∧ ∃ q ∈ Spec.triangle a b c, Spec.ed p q < τ) := by
  obtain ⟨n, h1, h2, -⟩ := mk_plane hτ.le hτ' h
  obtain ⟨n', h1', h2', -⟩ := mk_plane hτ.le hτ' h'
  have hin := fun p => C20_pointIsInside τ hτ.le hτ' a b c p τ (Or.inl h)
  have hin' := fun p => C20_pointIsInside τ hτ.le hτ' a' b' c' p τ (Or.inl h')
  refine ⟨_, by unfold intersectTri triCuts; rw [h2', h2]; rfl, ?_, ?_⟩
  · unfold colChkTri intersectTri triCuts
    rw [h2', h2]
    simp only [Option.map_some, Option.some.injEq, Prod.mk.injEq, and_true, eq_iff_iff, List.length_pos_iff]
  · intro p hp
    rw [h1, h1'] at hp
    have T := @seg_tri a b c p
    have T' := @seg_tri a' b' c' p
    rcases keep_sub _ hp with hp | ⟨hp, hi⟩
    · rcases keep_sub _ hp with hp | ⟨hp, hi⟩
      · simp at hp
      · left
        refine ⟨?_, (hin' p).1 hi⟩
        rcases triPlane_mem hp with k | k | k
        · exact T.1 (edge_sound hτ.le k).1
        · exact T.2.1 (edge_sound hτ.le k).1
        · exact T.2.2 (edge_sound hτ.le k).1
    · right
      refine ⟨?_, (hin p).1 hi⟩
      rcases triPlane_mem hp with k | k | k
      · exact T'.1 (edge_sound hτ.le k).1
      · exact T'.2.1 (edge_sound hτ.le k).1
      · exact T'.2.2 (edge_sound hτ.le k).1

/-! ### Completeness for triangles that cross -/

private theorem solve3 {n m w : Vec3 ℝ} (hd : (n.outer m).sqrNorm ≠ 0) (h1 : w.inner n = 0) (h2 : w.inner m = 0) (h3 : w.inner (n.outer m) = 0) :
    w = .zero := by
  have key : w.mul (n.outer m).sqrNorm = .zero := by
    simp only [zeo] at h1 h2 h3 ⊢
    ext
    · simp only
      linear_combination (m.y * (n.x * m.y - n.y * m.x) - m.z * (n.z * m.x - n.x * m.z)) * h1 +
        (n.z * (n.z * m.x - n.x * m.z) - n.y * (n.x * m.y - n.y * m.x)) * h2 + (n.y * m.z - n.z * m.y) * h3
    · simp only
      linear_combination (m.z * (n.y * m.z - n.z * m.y) - m.x * (n.x * m.y - n.y * m.x)) * h1 +
        (n.x * (n.x * m.y - n.y * m.x) - n.z * (n.y * m.z - n.z * m.y)) * h2 + (n.z * m.x - n.x * m.z) * h3
    · simp only
      linear_combination (m.x * (n.z * m.x - n.x * m.z) - m.y * (n.y * m.z - n.z * m.y)) * h1 +
        (n.y * (n.y * m.z - n.z * m.y) - n.x * (n.z * m.x - n.x * m.z)) * h2 + (n.x * m.y - n.y * m.x) * h3
  have kx := congrArg Vec3.x key; have ky := congrArg Vec3.y key; have kz := congrArg Vec3.z key
  simp only [Vec3.mul, Vec3.zero] at kx ky kz
  ext
  · exact (mul_eq_zero.1 kx).resolve_left hd
  · exact (mul_eq_zero.1 ky).resolve_left hd
  · exact (mul_eq_zero.1 kz).resolve_left hd

/-- Three points on both planes, ordered along the common line: the middle one is between the others. -/
private theorem between {pl pl' : Plane3 ℝ} (hd : (pl.norm.outer pl'.norm).sqrNorm ≠ 0) {c a x : Vec3 ℝ} (hc : g pl c = 0 ∧ g pl' c = 0)
    (ha : g pl a = 0 ∧ g pl' a = 0) (hx : g pl x = 0 ∧ g pl' x = 0) (h1 : (pl.norm.outer pl'.norm).inner c ≤ (pl.norm.outer pl'.norm).inner a)
    (h2 : (pl.norm.outer pl'.norm).inner a ≤ (pl.norm.outer pl'.norm).inner x) :
    ∃ s t, 0 ≤ s ∧ 0 ≤ t ∧ s + t = 1 ∧ a = Spec.comb s t 0 0 c x c c := by
  set d := pl.norm.outer pl'.norm with hdd
  obtain ⟨t, ht0, ht1, ht⟩ : ∃ t, 0 ≤ t ∧ t ≤ 1 ∧ d.inner a = (1 - t) * d.inner c + t * d.inner x := by
    rcases eq_or_lt_of_le (h1.trans h2) with h | h
    · exact ⟨0, le_rfl, zero_le_one, by linarith⟩
    · refine ⟨(d.inner a - d.inner c) / (d.inner x - d.inner c), div_nonneg (by linarith) (by linarith), ?_, ?_⟩
      · rw [div_le_one (by linarith)]; linarith
      · have : d.inner x - d.inner c ≠ 0 := by linarith
        field_simp
        ring
  refine ⟨1 - t, t, by linarith, ht0, by ring, ?_⟩
  have hw : a.sub (Spec.comb (1 - t) t 0 0 c x c c) = .zero := by
    refine solve3 hd ?_ ?_ ?_
    · rw [sub_inner, g_comb2 _ (by ring), hc.1, ha.1, hx.1]; ring
    · rw [sub_inner, g_comb2 _ (by ring), hc.2, ha.2, hx.2]; ring
    · rw [← hdd]
      have := inner_comb d (1 - t) t 0 c x c c
      have e : (a.sub (Spec.comb (1 - t) t 0 0 c x c c)).inner d = d.inner a - d.inner (Spec.comb (1 - t) t 0 0 c x c c) := by
        simp only [Vec3.inner, Vec3.sub]; ring
      rw [e, this, ht]; ring
  have wx := congrArg Vec3.x hw; have wy := congrArg Vec3.y hw; have wz := congrArg Vec3.z hw
  simp only [Vec3.sub, Vec3.zero] at wx wy wz
  ext <;> linarith

private theorem transversal_d {τ : ℝ} (hτ : 0 ≤ τ) {n m e : Vec3 ℝ} (hn : n.sqrNorm = 1) (he : n.inner e = 0) (h : τ < |m.inner e|) :
    (n.outer m).sqrNorm ≠ 0 := by
  intro h0
  simp only [zeo] at h0 hn he
  have h1 : n.y * m.z - n.z * m.y = 0 := by nlinarith [sq_nonneg (n.y * m.z - n.z * m.y), sq_nonneg (n.z * m.x - n.x * m.z), sq_nonneg (n.x * m.y - n.y * m.x)]
  have h2 : n.z * m.x - n.x * m.z = 0 := by nlinarith [sq_nonneg (n.y * m.z - n.z * m.y), sq_nonneg (n.z * m.x - n.x * m.z), sq_nonneg (n.x * m.y - n.y * m.x)]
  have h3 : n.x * m.y - n.y * m.x = 0 := by nlinarith [sq_nonneg (n.y * m.z - n.z * m.y), sq_nonneg (n.z * m.x - n.x * m.z), sq_nonneg (n.x * m.y - n.y * m.x)]
  have : m.inner e = 0 := by
    simp only [Vec3.inner]
    linear_combination -(m.x * e.x + m.y * e.y + m.z * e.z) * hn + (n.x * m.x + n.y * m.y + n.z * m.z) * he +
      (e.y * n.z - e.z * n.y) * h1 * (-1) + (e.z * n.x - e.x * n.z) * h2 * (-1) + (e.x * n.y - e.y * n.x) * h3 * (-1)
  rw [this, abs_zero] at h
  linarith

/-- The points where the sides of the triangle `a b c` cross the plane are farther apart than the tolerance. -/
def Spec.CutsApart (τ : ℝ) (a b c : Vec3 ℝ) (o n : Vec3 ℝ) : Prop :=
  ∀ p q, (p ∈ Spec.segment a b ∨ p ∈ Spec.segment b c ∨ p ∈ Spec.segment c a) → (q ∈ Spec.segment a b ∨ q ∈ Spec.segment b c ∨ q ∈ Spec.segment c a) →
    p ∈ Spec.plane o n → q ∈ Spec.plane o n → p ≠ q → τ < |p.x - q.x| ∨ τ < |p.y - q.y| ∨ τ < |p.z - q.z|

private theorem cut_mem {τ : ℝ} (hτ : 0 ≤ τ) {a b c : Vec3 ℝ} {pl : Plane3 ℝ} (h : Spec.CutsApart τ a b c pl.org pl.norm)
    (h1 : τ < |pl.norm.inner (b.sub a)|) (h2 : τ < |pl.norm.inner (c.sub b)|) (h3 : τ < |pl.norm.inner (a.sub c)|) {p : Vec3 ℝ}
    (hp : p ∈ Spec.segment a b ∨ p ∈ Spec.segment b c ∨ p ∈ Spec.segment c a) (hg : g pl p = 0) : p ∈ intersectTriPlane τ a b c pl := by
  have K : ∀ e0 e1 : Vec3 ℝ, τ < |pl.norm.inner (e1.sub e0)| → ∀ p, p ∈ intersectEdgePlane τ e0 e1 pl ↔ p ∈ Spec.segment e0 e1 ∧ g pl p = 0 := by
    intro e0 e1 h p
    have h' : τ < |g pl e1 - g pl e0| := by
      rw [← sub_inner]
      convert h using 2
      simp only [Vec3.inner]; ring
    rcases edge_cases hτ e0 e1 pl with ⟨h1, h2⟩ | ⟨-, -, h2, -⟩ | ⟨-, q, hq, hg, h1, hu⟩
    · rw [h1]
      constructor
      · intro h; simp at h
      · rintro ⟨a, b⟩; exact absurd ⟨p, a, b⟩ h2
    · linarith
    · rw [h1, List.mem_singleton]
      constructor
      · rintro rfl; exact ⟨hq, hg⟩
      · rintro ⟨a, b⟩; exact hu p a b
  obtain ⟨q, hq, he⟩ := triPlane_has hτ (p := p) (v0 := a) (v1 := b) (v2 := c) (pl := pl) (by
    rw [K _ _ h1, K _ _ h2, K _ _ h3]
    rcases hp with hp | hp | hp
    · exact Or.inl ⟨hp, hg⟩
    · exact Or.inr (Or.inl ⟨hp, hg⟩)
    · exact Or.inr (Or.inr ⟨hp, hg⟩))
  have hq' := triPlane_mem hq
  rw [K _ _ h1, K _ _ h2, K _ _ h3] at hq'
  by_cases hpq : p = q
  · rw [hpq]; exact hq
  · exfalso
    have := h p q hp (by tauto) (mem_plane.2 hg) (mem_plane.2 (by tauto)) hpq
    obtain ⟨e1, e2, e3⟩ := he
    simp only [zIsTol] at e1 e2 e3
    rcases this with k | k | k
    · exact absurd e1 (not_le.2 k)
    · exact absurd e2 (not_le.2 k)
    · exact absurd e3 (not_le.2 k)

/-- Two triangles that share a point are reported, provided every side of one differs in height by more
than the tolerance over the plane of the other, and the crossing points are farther apart than the tolerance.
Missing for full completeness: triangles (nearly) in one plane, for which it is false, see `C52_tri_missed`. -/
theorem C52_tri_complete_partial {τ : ℝ} (hτ : 0 < τ) (hτ' : τ ≤ 1/4) (a b c a' b' c' : Vec3 ℝ)
    (h : ¬ (Tri3.outerProd a b c).isTol τ) (h' : ¬ (Tri3.outerProd a' b' c').isTol τ)
    (t1 : τ < |(mkTri τ a' b' c').norm.inner (b.sub a)|) (t2 : τ < |(mkTri τ a' b' c').norm.inner (c.sub b)|) (t3 : τ < |(mkTri τ a' b' c').norm.inner (a.sub c)|)
    (t1' : τ < |(mkTri τ a b c).norm.inner (b'.sub a')|) (t2' : τ < |(mkTri τ a b c).norm.inner (c'.sub b')|) (t3' : τ < |(mkTri τ a b c).norm.inner (a'.sub c')|)
    (ha : Spec.CutsApart τ a b c a' (mkTri τ a' b' c').norm) (ha' : Spec.CutsApart τ a' b' c' a (mkTri τ a b c).norm)
    (x : Vec3 ℝ) (hx : x ∈ Spec.triangle a b c) (hx' : x ∈ Spec.triangle a' b' c') :
    ∃ l, intersectTri τ (mkTri τ a b c) (mkTri τ a' b' c') = some l ∧ l ≠ [] := by
  obtain ⟨n, m1, m2, m3, -, m4⟩ := mk_plane hτ.le hτ' h
  obtain ⟨n', m1', m2', m3', -, m4'⟩ := mk_plane hτ.le hτ' h'
  have hin := fun p => C20_pointIsInside τ hτ.le hτ' a b c p τ (Or.inl h)
  have hin' := fun p => C20_pointIsInside τ hτ.le hτ' a' b' c' p τ (Or.inl h')
  refine ⟨_, by unfold intersectTri triCuts; rw [m2', m2]; rfl, ?_⟩
  have mn : (mkTri τ a b c).norm = n := by rw [m1]
  have mn' : (mkTri τ a' b' c').norm = n' := by rw [m1']
  rw [mn'] at t1 t2 t3 ha
  rw [mn] at t1' t2' t3' ha'
  rw [m1, m1']
  have mem_a : a ∈ Spec.triangle a b c := (@seg_tri a b c a).1 (seg_left _ _)
  have mem_b : b ∈ Spec.triangle a b c := (@seg_tri a b c b).1 (seg_right _ _)
  have hab : n.inner (b.sub a) = 0 := by
    have := m4 b mem_b
    simp only [g, Vec3.inner, Vec3.sub] at this ⊢
    linarith
  set pl : Plane3 ℝ := ⟨a, n⟩ with hpl
  set pl' : Plane3 ℝ := ⟨a', n'⟩ with hpl'
  have hd : (pl.norm.outer pl'.norm).sqrNorm ≠ 0 := transversal_d hτ.le m3 hab t1
  set d := pl.norm.outer pl'.norm with hdd
  have ne1 : ¬ (g pl' a = g pl' b ∧ g pl' b = g pl' c) := fun ⟨k, _⟩ => by
    have e : n'.inner (b.sub a) = g pl' b - g pl' a := by rw [← sub_inner]; simp only [Vec3.inner, hpl']; ring
    rw [e, k, sub_self, abs_zero] at t1; linarith
  have ne2 : ¬ (g pl a' = g pl b' ∧ g pl b' = g pl c') := fun ⟨k, _⟩ => by
    have e : n.inner (b'.sub a') = g pl b' - g pl a' := by rw [← sub_inner]; simp only [Vec3.inner, hpl]; ring
    rw [e, k, sub_self, abs_zero] at t1'; linarith
  obtain ⟨p, hp, hpg, hpd⟩ := push d hx (m4' x hx') ne1
  obtain ⟨q, hq, hqg, hqd⟩ := push d hx' (m4 x hx) ne2
  have hpt : p ∈ Spec.triangle a b c := by
    have T := @seg_tri a b c p
    exact hp.elim T.1 fun k => k.elim T.2.1 T.2.2
  have hqt : q ∈ Spec.triangle a' b' c' := by
    have T := @seg_tri a' b' c' q
    exact hq.elim T.1 fun k => k.elim T.2.1 T.2.2
  have hpc : p ∈ intersectTriPlane τ a b c pl' := cut_mem hτ.le ha t1 t2 t3 hp hpg
  have hqc : q ∈ intersectTriPlane τ a' b' c' pl := cut_mem hτ.le ha' t1' t2' t3' hq hqg
  have zero_dist : ∀ y, Spec.ed y y < τ := fun y => by simpa [Spec.ed, Spec.sqd] using hτ
  rcases le_total (d.inner q) (d.inner p) with k | k
  · obtain ⟨s, t, hs, ht, hst, rfl⟩ := between hd ⟨m4 p hpt |> fun _ => hqg, m4' q hqt⟩ ⟨m4 p hpt, hpg⟩ ⟨m4 x hx, m4' x hx'⟩ k hpd
    have := tri_convex hqt hx' hs ht hst
    have e : Spec.comb s t 0 0 q x q q ∈ Spec.triangle a' b' c' := this
    obtain ⟨y, hy, -⟩ := keep_has hτ.le (t := ⟨a', b', c', n'⟩) _ [] hpc ((hin' _).2 ⟨_, e, zero_dist _⟩)
    exact List.ne_nil_of_mem (sub_keep _ hy)
  · obtain ⟨s, t, hs, ht, hst, rfl⟩ := between hd ⟨m4 p hpt, hpg⟩ ⟨hqg, m4' q hqt⟩ ⟨m4 x hx, m4' x hx'⟩ k hqd
    have e : Spec.comb s t 0 0 p x p p ∈ Spec.triangle a b c := tri_convex hpt hx hs ht hst
    obtain ⟨y, hy, -⟩ := keep_has hτ.le (t := ⟨a, b, c, n⟩) _ (keepInside τ ⟨a', b', c', n'⟩ [] (intersectTriPlane τ a b c pl')) hqc ((hin _).2 ⟨_, e, zero_dist _⟩)
    exact List.ne_nil_of_mem hy

/-- Satisfiability: two triangles that cross at right angles meet all the hypotheses. -/
example : ∃ a b c a' b' c' x : Vec3 ℝ, ∃ τ : ℝ, 0 < τ ∧ τ ≤ 1/4 ∧ ¬ (Tri3.outerProd a b c).isTol τ ∧ ¬ (Tri3.outerProd a' b' c').isTol τ ∧
    τ < |(mkTri τ a' b' c').norm.inner (b.sub a)| ∧ τ < |(mkTri τ a' b' c').norm.inner (c.sub b)| ∧ τ < |(mkTri τ a' b' c').norm.inner (a.sub c)| ∧
    τ < |(mkTri τ a b c).norm.inner (b'.sub a')| ∧ τ < |(mkTri τ a b c).norm.inner (c'.sub b')| ∧ τ < |(mkTri τ a b c).norm.inner (a'.sub c')| ∧
    Spec.CutsApart τ a b c a' (mkTri τ a' b' c').norm ∧ Spec.CutsApart τ a' b' c' a (mkTri τ a b c).norm ∧
    x ∈ Spec.triangle a b c ∧ x ∈ Spec.triangle a' b' c' := by
  have h : ¬ (Tri3.outerProd (⟨0, 0, -1⟩ : Vec3 ℝ) ⟨2, 0, 1⟩ ⟨-2, 0, 3⟩).isTol (1/10) := fun h => by
    have := h.2.1
    simp only [Tri3.outerProd, zeo, zIsTol] at this
    norm_num [abs_le] at this
  have h' : ¬ (Tri3.outerProd (⟨0, -1, 0⟩ : Vec3 ℝ) ⟨2, 1, 0⟩ ⟨-2, 3, 0⟩).isTol (1/10) := fun h => by
    have := h.2.2
    simp only [Tri3.outerProd, zeo, zIsTol] at this
    norm_num [abs_le] at this
  obtain ⟨n, m1, -, m3, ⟨k, hk, m4⟩, -⟩ := mk_plane (by norm_num) (by norm_num) h
  obtain ⟨n', m1', -, m3', ⟨k', hk', m4'⟩, -⟩ := mk_plane (by norm_num) (by norm_num) h'
  have mn : (mkTri (1/10) ⟨0, 0, -1⟩ ⟨2, 0, 1⟩ ⟨-2, 0, 3⟩).norm = n := by rw [m1]
  have mn' : (mkTri (1/10) ⟨0, -1, 0⟩ ⟨2, 1, 0⟩ ⟨-2, 3, 0⟩).norm = n' := by rw [m1']
  have hnx : n.x = 0 := by
    have := congrArg Vec3.x m4
    simp only [Tri3.outerProd, zeo] at this
    norm_num at this
    exact this.resolve_left hk.ne'
  have hnz : n.z = 0 := by
    have := congrArg Vec3.z m4
    simp only [Tri3.outerProd, zeo] at this
    norm_num at this
    exact this.resolve_left hk.ne'
  have hnx' : n'.x = 0 := by
    have := congrArg Vec3.x m4'
    simp only [Tri3.outerProd, zeo] at this
    norm_num at this
    exact this.resolve_left hk'.ne'
  have hny' : n'.y = 0 := by
    have := congrArg Vec3.y m4'
    simp only [Tri3.outerProd, zeo] at this
    norm_num at this
    exact this.resolve_left hk'.ne'
  have hny : |n.y| = 1 := by
    simp only [zeo, hnx, hnz] at m3
    rw [← sq_eq_sq₀ (abs_nonneg _) zero_le_one, sq_abs]; linarith
  have hnz' : |n'.z| = 1 := by
    simp only [zeo, hnx', hny'] at m3'
    rw [← sq_eq_sq₀ (abs_nonneg _) zero_le_one, sq_abs]; linarith
  have hny0 : n.y ≠ 0 := fun k => by rw [k] at hny; norm_num at hny
  have hnz0 : n'.z ≠ 0 := fun k => by rw [k] at hnz'; norm_num at hnz'
  refine ⟨⟨0, 0, -1⟩, ⟨2, 0, 1⟩, ⟨-2, 0, 3⟩, ⟨0, -1, 0⟩, ⟨2, 1, 0⟩, ⟨-2, 3, 0⟩, ⟨1, 0, 0⟩, 1/10, by norm_num, by norm_num, h, h', ?_⟩
  rw [mn, mn']
  simp only [Vec3.inner, Vec3.sub, hnx, hnz, hnx', hny', zero_mul, zero_add, add_zero, abs_mul, hny, hnz', one_mul]
  refine ⟨by norm_num [abs_of_pos], by norm_num [abs_of_pos], by norm_num [abs_of_pos], by norm_num [abs_of_pos], by norm_num [abs_of_pos], by norm_num [abs_of_pos], ?_, ?_, ?_, ?_⟩
  · have K : ∀ p : Vec3 ℝ, (p ∈ Spec.segment (⟨0, 0, -1⟩ : Vec3 ℝ) ⟨2, 0, 1⟩ ∨ p ∈ Spec.segment (⟨2, 0, 1⟩ : Vec3 ℝ) ⟨-2, 0, 3⟩ ∨ p ∈ Spec.segment (⟨-2, 0, 3⟩ : Vec3 ℝ) ⟨0, 0, -1⟩) →
        p ∈ Spec.plane ⟨0, -1, 0⟩ n' → p = ⟨1, 0, 0⟩ ∨ p = ⟨-1/2, 0, 0⟩ := by
      intro p hp hpl
      have hz : p.z = 0 := by
        simp only [Spec.plane, Set.mem_setOf_eq, hnx', hny', sub_zero, mul_zero, zero_add] at hpl
        exact (mul_eq_zero.1 hpl).resolve_right hnz0
      rcases hp with ⟨a, b, ha, hb, hab, rfl⟩ | ⟨a, b, ha, hb, hab, rfl⟩ | ⟨a, b, ha, hb, hab, rfl⟩ <;> simp only [Spec.comb] at hz
      · left; ext <;> simp only [Spec.comb] <;> linarith
      · exfalso; linarith
      · right; ext <;> simp only [Spec.comb] <;> linarith
    intro p q hp hq hpp hqp hne
    rcases K p hp hpp with rfl | rfl <;> rcases K q hq hqp with rfl | rfl
    · exact absurd rfl hne
    · left; norm_num [abs_of_pos]
    · left; norm_num [abs_of_pos]
    · exact absurd rfl hne
  · have K : ∀ p : Vec3 ℝ, (p ∈ Spec.segment (⟨0, -1, 0⟩ : Vec3 ℝ) ⟨2, 1, 0⟩ ∨ p ∈ Spec.segment (⟨2, 1, 0⟩ : Vec3 ℝ) ⟨-2, 3, 0⟩ ∨ p ∈ Spec.segment (⟨-2, 3, 0⟩ : Vec3 ℝ) ⟨0, -1, 0⟩) →
        p ∈ Spec.plane ⟨0, 0, -1⟩ n → p = ⟨1, 0, 0⟩ ∨ p = ⟨-1/2, 0, 0⟩ := by
      intro p hp hpl
      have hz : p.y = 0 := by
        simp only [Spec.plane, Set.mem_setOf_eq, hnx, hnz, sub_zero, mul_zero, zero_add, add_zero] at hpl
        exact (mul_eq_zero.1 hpl).resolve_right hny0
      rcases hp with ⟨a, b, ha, hb, hab, rfl⟩ | ⟨a, b, ha, hb, hab, rfl⟩ | ⟨a, b, ha, hb, hab, rfl⟩ <;> simp only [Spec.comb] at hz
      · left; ext <;> simp only [Spec.comb] <;> linarith
      · exfalso; linarith
      · right; ext <;> simp only [Spec.comb] <;> linarith
    intro p q hp hq hpp hqp hne
    rcases K p hp hpp with rfl | rfl <;> rcases K q hq hqp with rfl | rfl
    · exact absurd rfl hne
    · left; norm_num [abs_of_pos]
    · left; norm_num [abs_of_pos]
    · exact absurd rfl hne
  · exact ⟨1/2, 1/2, 0, by norm_num, by norm_num, by norm_num, by norm_num, by ext <;> norm_num [Spec.comb]⟩
  · exact ⟨1/2, 1/2, 0, by norm_num, by norm_num, by norm_num, by norm_num, by ext <;> norm_num [Spec.comb]⟩

private theorem cuts_flat {τ : ℝ} (hτ : 0 ≤ τ) {a b c : Vec3 ℝ} {pl : Plane3 ℝ} (ha : g pl a = 0) (hb : g pl b = 0) (hc : g pl c = 0)
    (hab : ¬ Vec3.equal τ b a) (hac : ¬ Vec3.equal τ c a) (hbc : ¬ Vec3.equal τ c b) : intersectTriPlane τ a b c pl = [a, b, c] := by
  rw [triPlane_eq, edge_flat (by rw [ha, hb]; norm_num) (by rw [ha, hb]; simpa using hτ),
    edge_flat (by rw [hc, hb]; norm_num) (by rw [hc, hb]; simpa using hτ), edge_flat (by rw [ha, hc]; norm_num) (by rw [ha, hc]; simpa using hτ)]
  simp [addNew, hab, hac, hbc, equal_refl hτ]

/-- Comparing a triangle with itself reports its three vertices.  `zColChkTri3D` passes an array of two
(src/zeo_col.c:130, `zVec3D ip[2]`), so the third is written past its end, for every triangle whose vertices are
farther apart than the tolerance. -/
theorem C52_tri_overflow {τ : ℝ} (hτ : 0 < τ) (hτ' : τ ≤ 1/4) (a b c : Vec3 ℝ) (h : ¬ (Tri3.outerProd a b c).isTol τ)
    (hab : ¬ Vec3.equal τ b a) (hac : ¬ Vec3.equal τ c a) (hbc : ¬ Vec3.equal τ c b) :
    intersectTri τ (mkTri τ a b c) (mkTri τ a b c) = some [a, b, c] := by
  obtain ⟨n, m1, m2, m3, -, m4⟩ := mk_plane hτ.le hτ' h
  have hin := fun p => C20_pointIsInside τ hτ.le hτ' a b c p τ (Or.inl h)
  have zero_dist : ∀ y, Spec.ed y y < τ := fun y => by simpa [Spec.ed, Spec.sqd] using hτ
  have ta : a ∈ Spec.triangle a b c := (@seg_tri a b c a).1 (seg_left _ _)
  have tb : b ∈ Spec.triangle a b c := (@seg_tri a b c b).1 (seg_right _ _)
  have tc : c ∈ Spec.triangle a b c := (@seg_tri a b c c).2.1 (seg_right _ _)
  have ia := (hin a).2 ⟨a, ta, zero_dist a⟩
  have ib := (hin b).2 ⟨b, tb, zero_dist b⟩
  have ic := (hin c).2 ⟨c, tc, zero_dist c⟩
  unfold intersectTri triCuts
  rw [m2, m1]
  simp only [Option.map_some, Option.getD_some]
  rw [cuts_flat hτ.le (m4 a ta) (m4 b tb) (m4 c tc) hab hac hbc]
  simp [keepInside, ia, ib, ic, addNew, hab, hac, hbc, equal_refl hτ.le]

private theorem keep_none {τ : ℝ} {t : Tri3 ℝ} {ip : List (Vec3 ℝ)} {a b c : Vec3 ℝ} (ha : ¬ Tri3.pointIsInside τ t.v0 t.v1 t.v2 a τ)
    (hb : ¬ Tri3.pointIsInside τ t.v0 t.v1 t.v2 b τ) (hc : ¬ Tri3.pointIsInside τ t.v0 t.v1 t.v2 c τ) : keepInside τ t ip [a, b, c] = ip := by
  simp [keepInside, ha, hb, hc]

/-- Two triangles in one plane that form a six-pointed star overlap, but neither has a vertex in the
other, and no intersection is reported. -/
theorem C52_tri_missed {τ : ℝ} (hτ : 0 < τ) (hτ' : τ ≤ 1/4) :
    (⟨0, 0, 0⟩ : Vec3 ℝ) ∈ Spec.triangle ⟨-3, -2, 0⟩ ⟨3, -2, 0⟩ ⟨0, 4, 0⟩ ∧ (⟨0, 0, 0⟩ : Vec3 ℝ) ∈ Spec.triangle ⟨3, 2, 0⟩ ⟨-3, 2, 0⟩ ⟨0, -4, 0⟩ ∧
    intersectTri τ (mkTri τ ⟨-3, -2, 0⟩ ⟨3, -2, 0⟩ ⟨0, 4, 0⟩) (mkTri τ ⟨3, 2, 0⟩ ⟨-3, 2, 0⟩ ⟨0, -4, 0⟩) = some [] := by
  refine ⟨⟨1/3, 1/3, 1/3, by norm_num, by norm_num, by norm_num, by norm_num, by ext <;> norm_num [Spec.comb]⟩,
    ⟨1/3, 1/3, 1/3, by norm_num, by norm_num, by norm_num, by norm_num, by ext <;> norm_num [Spec.comb]⟩, ?_⟩
  have h : ¬ (Tri3.outerProd (⟨-3, -2, 0⟩ : Vec3 ℝ) ⟨3, -2, 0⟩ ⟨0, 4, 0⟩).isTol τ := fun h => by
    have := h.2.2
    simp only [Tri3.outerProd, zeo, zIsTol] at this
    norm_num at this
    linarith
  have h' : ¬ (Tri3.outerProd (⟨3, 2, 0⟩ : Vec3 ℝ) ⟨-3, 2, 0⟩ ⟨0, -4, 0⟩).isTol τ := fun h => by
    have := h.2.2
    simp only [Tri3.outerProd, zeo, zIsTol] at this
    norm_num at this
    linarith
  obtain ⟨pl, hp, hg⟩ := flat_plane hτ.le hτ' h rfl rfl rfl
  obtain ⟨pl', hp', hg'⟩ := flat_plane hτ.le hτ' h' rfl rfl rfl
  obtain ⟨v0, v1, v2⟩ := mkTri_eq hτ.le hτ' h
  obtain ⟨w0, w1, w2⟩ := mkTri_eq hτ.le hτ' h'
  have big : ∀ {x : ℝ}, 1 ≤ |x| → ¬ zIsTol x τ := fun h => by simp only [zIsTol]; linarith
  unfold intersectTri triCuts
  rw [hp, hp', v0, v1, v2, w0, w1, w2]
  simp only [Option.map_some, Option.getD_some]
  have D : intersectTriPlane τ ⟨-3, -2, 0⟩ ⟨3, -2, 0⟩ ⟨0, 4, 0⟩ pl' = [⟨-3, -2, 0⟩, ⟨3, -2, 0⟩, ⟨0, 4, 0⟩] :=
    cuts_flat hτ.le (hg' _ rfl) (hg' _ rfl) (hg' _ rfl) (fun h => big (by norm_num) h.1) (fun h => big (by norm_num) h.1) (fun h => big (by norm_num) h.1)
  have D' : intersectTriPlane τ ⟨3, 2, 0⟩ ⟨-3, 2, 0⟩ ⟨0, -4, 0⟩ pl = [⟨3, 2, 0⟩, ⟨-3, 2, 0⟩, ⟨0, -4, 0⟩] :=
    cuts_flat hτ.le (hg _ rfl) (hg _ rfl) (hg _ rfl) (fun h => big (by norm_num) h.1) (fun h => big (by norm_num) h.1) (fun h => big (by norm_num) h.1)
  rw [D, D', keep_none, keep_none]
  all_goals
    simp only [v0, v1, v2, w0, w1, w2]
    rw [C20_pointIsInside τ hτ.le hτ' _ _ _ _ _ (Or.inl (by assumption))]
  · exact not_in hτ' (x := -2) (y := -1) (z := 0) (k := 4) (by norm_num) (by norm_num) (by norm_num) (by norm_num) (by norm_num)
  · exact not_in hτ' (x := 2) (y := -1) (z := 0) (k := 4) (by norm_num) (by norm_num) (by norm_num) (by norm_num) (by norm_num)
  · exact not_in hτ' (x := 0) (y := 1) (z := 0) (k := 2) (by norm_num) (by norm_num) (by norm_num) (by norm_num) (by norm_num)
  · exact not_in hτ' (x := 2) (y := 1) (z := 0) (k := 4) (by norm_num) (by norm_num) (by norm_num) (by norm_num) (by norm_num)
  · exact not_in hτ' (x := -2) (y := 1) (z := 0) (k := 4) (by norm_num) (by norm_num) (by norm_num) (by norm_num) (by norm_num)
  · exact not_in hτ' (x := 0) (y := -1) (z := 0) (k := 2) (by norm_num) (by norm_num) (by norm_num) (by norm_num) (by norm_num)

end Zeo
