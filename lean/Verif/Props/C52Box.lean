import Verif.Props.C52

/-! # C52, continued: planes, triangles and spheres against boxes -/

namespace Zeo
open Classical Meet

/-! ## Plane and axis-aligned box -/

/-- `n·p - n·o`. -/
private noncomputable def f (pl : Plane3 ℝ) (x y z : ℝ) : ℝ := pl.norm.x * x + pl.norm.y * y + pl.norm.z * z - pl.norm.inner pl.org

private theorem f_plane {pl : Plane3 ℝ} {p : Vec3 ℝ} : p ∈ Spec.plane pl.org pl.norm ↔ f pl p.x p.y p.z = 0 := by
  rw [mem_plane]
  simp only [g, f, Vec3.inner, Vec3.sub]
  constructor <;> intro h <;> linarith

/-- One edge: the plane strictly separates its ends. -/
private theorem edge1 {n lo hi r w : ℝ} (hn : n ≠ 0) (h : lo ≤ hi) (hw : w = (r) / n) : (w > lo ∧ w < hi) ↔ (n * lo - r) * (n * hi - r) < 0 := by
  subst hw
  have e : ∀ x, n * x - r = n * (x - r / n) := fun x => by field_simp
  rw [e, e]
  have h2 : n * (lo - r / n) * (n * (hi - r / n)) = n ^ 2 * ((lo - r / n) * (hi - r / n)) := by ring
  rw [h2]
  have hn2 : 0 < n ^ 2 := by positivity
  constructor
  · rintro ⟨h1, h2⟩
    exact mul_neg_of_pos_of_neg hn2 (mul_neg_of_neg_of_pos (by linarith) (by linarith))
  · intro hlt
    have : (lo - r / n) * (hi - r / n) < 0 := by
      by_contra hc
      push Not at hc
      linarith [mul_nonneg hn2.le hc]
    rcases mul_neg_iff.1 this with ⟨a, b⟩ | ⟨a, b⟩
    · linarith
    · exact ⟨by linarith, by linarith⟩

private theorem ne_of_not_tol {τ n : ℝ} (hτ : 0 ≤ τ) (h : ¬ zIsTol n τ) : n ≠ 0 := fun h0 => h (by simp [zIsTol, h0, hτ])

private theorem boxEdge {τ : ℝ} (hτ : 0 ≤ τ) (pl : Plane3 ℝ) (axis : Fin 3) {lo hi : ℝ} (h : lo ≤ hi) (y z : ℝ) :
    (planeBoxEdge τ pl axis lo hi y z).length ≤ 1 ∧
    (0 < (planeBoxEdge τ pl axis lo hi y z).length ↔ τ < |pl.norm.e axis| ∧
      (pl.norm.e axis * lo + pl.norm.e (axis + 1) * y + pl.norm.e (axis + 2) * z - pl.norm.inner pl.org) *
      (pl.norm.e axis * hi + pl.norm.e (axis + 1) * y + pl.norm.e (axis + 2) * z - pl.norm.inner pl.org) < 0) := by
  unfold planeBoxEdge
  by_cases ht : zIsTol (pl.norm.e axis) τ
  · rw [if_pos ht]
    have : ¬ τ < |pl.norm.e axis| := not_lt.2 ht
    simp [this]
  · rw [if_neg ht]
    dsimp only
    have hne := ne_of_not_tol hτ ht
    have ht' : τ < |pl.norm.e axis| := not_le.1 ht
    have key := edge1 hne h (w := (pl.norm.inner pl.org - pl.norm.e (axis + 1) * y - pl.norm.e (axis + 2) * z) / pl.norm.e axis) rfl
    rw [show pl.norm.e axis * lo + pl.norm.e (axis + 1) * y + pl.norm.e (axis + 2) * z - pl.norm.inner pl.org =
        pl.norm.e axis * lo - (pl.norm.inner pl.org - pl.norm.e (axis + 1) * y - pl.norm.e (axis + 2) * z) by ring,
      show pl.norm.e axis * hi + pl.norm.e (axis + 1) * y + pl.norm.e (axis + 2) * z - pl.norm.inner pl.org =
        pl.norm.e axis * hi - (pl.norm.inner pl.org - pl.norm.e (axis + 1) * y - pl.norm.e (axis + 2) * z) by ring, ← key]
    split
    · rename_i hw
      simp only [List.length_singleton, le_refl, zero_lt_one, true_iff, true_and]
      exact ⟨ht', hw⟩
    · rename_i hw
      simp only [List.length_nil, zero_le_one, lt_self_iff_false, false_iff, true_and, not_and]
      intro _ k1 k2; exact hw ⟨k1, k2⟩

private theorem boxEdge_x {τ : ℝ} (hτ : 0 ≤ τ) (pl : Plane3 ℝ) {lo hi : ℝ} (h : lo ≤ hi) (y z : ℝ) :
    (planeBoxEdge τ pl 0 lo hi y z).length ≤ 1 ∧ (0 < (planeBoxEdge τ pl 0 lo hi y z).length ↔ τ < |pl.norm.x| ∧ f pl lo y z * f pl hi y z < 0) :=
  boxEdge hτ pl 0 h y z

private theorem boxEdge_y {τ : ℝ} (hτ : 0 ≤ τ) (pl : Plane3 ℝ) {lo hi : ℝ} (h : lo ≤ hi) (z x : ℝ) :
    (planeBoxEdge τ pl 1 lo hi z x).length ≤ 1 ∧ (0 < (planeBoxEdge τ pl 1 lo hi z x).length ↔ τ < |pl.norm.y| ∧ f pl x lo z * f pl x hi z < 0) := by
  have := boxEdge hτ pl 1 h z x
  have e : ∀ t, f pl x t z = pl.norm.e 1 * t + pl.norm.e (1 + 1) * z + pl.norm.e (1 + 2) * x - pl.norm.inner pl.org := fun t => by
    show pl.norm.x * x + pl.norm.y * t + pl.norm.z * z - _ = pl.norm.y * t + pl.norm.z * z + pl.norm.x * x - _
    ring
  rw [e, e]; exact this

private theorem boxEdge_z {τ : ℝ} (hτ : 0 ≤ τ) (pl : Plane3 ℝ) {lo hi : ℝ} (h : lo ≤ hi) (x y : ℝ) :
    (planeBoxEdge τ pl 2 lo hi x y).length ≤ 1 ∧ (0 < (planeBoxEdge τ pl 2 lo hi x y).length ↔ τ < |pl.norm.z| ∧ f pl x y lo * f pl x y hi < 0) := by
  have := boxEdge hτ pl 2 h x y
  have e : ∀ t, f pl x y t = pl.norm.e 2 * t + pl.norm.e (2 + 1) * x + pl.norm.e (2 + 2) * y - pl.norm.inner pl.org := fun t => by
    show pl.norm.x * x + pl.norm.y * y + pl.norm.z * t - _ = pl.norm.z * t + pl.norm.x * x + pl.norm.y * y - _
    ring
  rw [e, e]; exact this

private theorem boxEdge_mem {τ : ℝ} (hτ : 0 ≤ τ) (pl : Plane3 ℝ) (axis : Fin 3) {lo hi y z : ℝ} {p : Vec3 ℝ} (h : p ∈ planeBoxEdge τ pl axis lo hi y z) :
    ∃ w, lo < w ∧ w < hi ∧ p = ((Vec3.zero.setE axis w).setE (axis + 1) y).setE (axis + 2) z ∧
      pl.norm.e axis * w + pl.norm.e (axis + 1) * y + pl.norm.e (axis + 2) * z = pl.norm.inner pl.org := by
  unfold planeBoxEdge at h
  by_cases ht : zIsTol (pl.norm.e axis) τ
  · rw [if_pos ht] at h; simp at h
  · rw [if_neg ht] at h
    dsimp only at h
    split at h
    · rename_i hw
      rw [List.mem_singleton] at h
      refine ⟨_, hw.1, hw.2, h, ?_⟩
      have := ne_of_not_tol hτ ht
      field_simp
      ring
    · simp at h

private theorem mem_x {τ : ℝ} (hτ : 0 ≤ τ) {pl : Plane3 ℝ} {lo hi y z : ℝ} {p : Vec3 ℝ} (h : p ∈ planeBoxEdge τ pl 0 lo hi y z) :
    (lo ≤ p.x ∧ p.x ≤ hi) ∧ p.y = y ∧ p.z = z ∧ p ∈ Spec.plane pl.org pl.norm := by
  obtain ⟨w, h1, h2, rfl, h3⟩ := boxEdge_mem hτ pl 0 h
  rw [f_plane]
  refine ⟨⟨h1.le, h2.le⟩, rfl, rfl, ?_⟩
  replace h3 : pl.norm.x * w + pl.norm.y * y + pl.norm.z * z = pl.norm.inner pl.org := h3
  show pl.norm.x * w + pl.norm.y * y + pl.norm.z * z - _ = 0
  linarith

private theorem mem_y {τ : ℝ} (hτ : 0 ≤ τ) {pl : Plane3 ℝ} {lo hi z x : ℝ} {p : Vec3 ℝ} (h : p ∈ planeBoxEdge τ pl 1 lo hi z x) :
    (lo ≤ p.y ∧ p.y ≤ hi) ∧ p.z = z ∧ p.x = x ∧ p ∈ Spec.plane pl.org pl.norm := by
  obtain ⟨w, h1, h2, rfl, h3⟩ := boxEdge_mem hτ pl 1 h
  rw [f_plane]
  refine ⟨⟨h1.le, h2.le⟩, rfl, rfl, ?_⟩
  replace h3 : pl.norm.y * w + pl.norm.z * z + pl.norm.x * x = pl.norm.inner pl.org := h3
  show pl.norm.x * x + pl.norm.y * w + pl.norm.z * z - _ = 0
  linarith

private theorem mem_z {τ : ℝ} (hτ : 0 ≤ τ) {pl : Plane3 ℝ} {lo hi x y : ℝ} {p : Vec3 ℝ} (h : p ∈ planeBoxEdge τ pl 2 lo hi x y) :
    (lo ≤ p.z ∧ p.z ≤ hi) ∧ p.x = x ∧ p.y = y ∧ p ∈ Spec.plane pl.org pl.norm := by
  obtain ⟨w, h1, h2, rfl, h3⟩ := boxEdge_mem hτ pl 2 h
  rw [f_plane]
  refine ⟨⟨h1.le, h2.le⟩, rfl, rfl, ?_⟩
  replace h3 : pl.norm.z * w + pl.norm.x * x + pl.norm.y * y = pl.norm.inner pl.org := h3
  show pl.norm.x * x + pl.norm.y * y + pl.norm.z * w - _ = 0
  linarith

/-- A monotone path crosses zero at most once. -/
private theorem path1 {p0 p1 p2 p3 : ℝ} (h01 : p0 ≤ p1) (h12 : p1 ≤ p2) (h23 : p2 ≤ p3) {a b c : ℕ} (ha : a ≤ 1) (hb : b ≤ 1) (hc : c ≤ 1)
    (ka : 0 < a → p0 * p1 < 0) (kb : 0 < b → p1 * p2 < 0) (kc : 0 < c → p2 * p3 < 0) : a + b + c ≤ 1 := by
  have s : ∀ {x y : ℝ}, x ≤ y → x * y < 0 → x < 0 ∧ 0 < y := fun hxy h => by
    rcases mul_neg_iff.1 h with ⟨k1, k2⟩ | ⟨k1, k2⟩
    · linarith
    · exact ⟨k1, k2⟩
  by_contra hlt
  have : (0 < a ∧ 0 < b) ∨ (0 < b ∧ 0 < c) ∨ (0 < a ∧ 0 < c) := by omega
  rcases this with ⟨k1, k2⟩ | ⟨k1, k2⟩ | ⟨k1, k2⟩
  · have := s h01 (ka k1); have := s h12 (kb k2); linarith [this.1, (s h01 (ka k1)).2]
  · have := s h12 (kb k1); have := s h23 (kc k2); linarith [this.1, (s h12 (kb k1)).2]
  · have := s h01 (ka k1); have := s h23 (kc k2); linarith [this.1, (s h01 (ka k1)).2]

/-- At most six of the twelve edges of a box are crossed by a plane. -/
private theorem cube6 {x0 x1 y0 y1 z0 z1 : ℝ} (hx : x0 ≤ x1) (hy : y0 ≤ y1) (hz : z0 ≤ z1) (X Y Z : Bool → Bool → ℕ)
    (X1 : ∀ i j, X i j ≤ 1) (Y1 : ∀ i j, Y i j ≤ 1) (Z1 : ∀ i j, Z i j ≤ 1)
    (kX : ∀ j k, 0 < X j k → (x0 + cond j y1 y0 + cond k z1 z0) * (x1 + cond j y1 y0 + cond k z1 z0) < 0)
    (kY : ∀ i k, 0 < Y i k → (cond i x1 x0 + y0 + cond k z1 z0) * (cond i x1 x0 + y1 + cond k z1 z0) < 0)
    (kZ : ∀ i j, 0 < Z i j → (cond i x1 x0 + cond j y1 y0 + z0) * (cond i x1 x0 + cond j y1 y0 + z1) < 0) :
    X false false + X true false + X true true + X false true + (Y false false + Y true false + Y true true + Y false true) +
      (Z false false + Z true false + Z true true + Z false true) ≤ 6 := by
  have p1 := path1 (p0 := x0 + y0 + z0) (p1 := x1 + y0 + z0) (p2 := x1 + y1 + z0) (p3 := x1 + y1 + z1) (by linarith) (by linarith) (by linarith)
    (X1 false false) (Y1 true false) (Z1 true true) (kX _ _) (kY _ _) (kZ _ _)
  have p2 := path1 (p0 := x0 + y0 + z0) (p1 := x1 + y0 + z0) (p2 := x1 + y0 + z1) (p3 := x1 + y1 + z1) (by linarith) (by linarith) (by linarith)
    (X1 false false) (Z1 true false) (Y1 true true) (kX _ _) (kZ _ _) (kY _ _)
  have p3 := path1 (p0 := x0 + y0 + z0) (p1 := x0 + y1 + z0) (p2 := x1 + y1 + z0) (p3 := x1 + y1 + z1) (by linarith) (by linarith) (by linarith)
    (Y1 false false) (X1 true false) (Z1 true true) (kY _ _) (kX _ _) (kZ _ _)
  have p4 := path1 (p0 := x0 + y0 + z0) (p1 := x0 + y1 + z0) (p2 := x0 + y1 + z1) (p3 := x1 + y1 + z1) (by linarith) (by linarith) (by linarith)
    (Y1 false false) (Z1 false true) (X1 true true) (kY _ _) (kZ _ _) (kX _ _)
  have p5 := path1 (p0 := x0 + y0 + z0) (p1 := x0 + y0 + z1) (p2 := x1 + y0 + z1) (p3 := x1 + y1 + z1) (by linarith) (by linarith) (by linarith)
    (Z1 false false) (X1 false true) (Y1 true true) (kZ _ _) (kX _ _) (kY _ _)
  have p6 := path1 (p0 := x0 + y0 + z0) (p1 := x0 + y0 + z1) (p2 := x0 + y1 + z1) (p3 := x1 + y1 + z1) (by linarith) (by linarith) (by linarith)
    (Z1 false false) (Y1 false true) (X1 true true) (kZ _ _) (kY _ _) (kX _ _)
  omega

private theorem box6 {pl : Plane3 ℝ} {xa xb ya yb za zb : ℝ} (hx : pl.norm.x * xa ≤ pl.norm.x * xb) (hy : pl.norm.y * ya ≤ pl.norm.y * yb)
    (hz : pl.norm.z * za ≤ pl.norm.z * zb) {X Y Z : ℝ → ℝ → ℕ} (hX : ∀ y z, X y z ≤ 1 ∧ (0 < X y z → f pl xa y z * f pl xb y z < 0))
    (hY : ∀ z x, Y z x ≤ 1 ∧ (0 < Y z x → f pl x ya z * f pl x yb z < 0)) (hZ : ∀ x y, Z x y ≤ 1 ∧ (0 < Z x y → f pl x y za * f pl x y zb < 0)) :
    X ya za + X yb za + X yb zb + X ya zb + (Y za xa + Y zb xa + Y zb xb + Y za xb) + (Z xa ya + Z xb ya + Z xb yb + Z xa yb) ≤ 6 := by
  have := cube6 (x0 := pl.norm.x * xa - pl.norm.inner pl.org) (x1 := pl.norm.x * xb - pl.norm.inner pl.org) (by linarith) hy hz
    (fun j k => X (cond j yb ya) (cond k zb za)) (fun i k => Y (cond k zb za) (cond i xb xa)) (fun i j => Z (cond i xb xa) (cond j yb ya))
    (fun i j => (hX _ _).1) (fun i j => (hY _ _).1) (fun i j => (hZ _ _).1)
    (fun j k h => by
      have := (hX _ _).2 h
      cases j <;> cases k <;> simp only [f, cond_true, cond_false] at this ⊢ <;> convert this using 1 <;> ring)
    (fun i k h => by
      have := (hY _ _).2 h
      cases i <;> cases k <;> simp only [f, cond_true, cond_false] at this ⊢ <;> convert this using 1 <;> ring)
    (fun i j h => by
      have := (hZ _ _).2 h
      cases i <;> cases j <;> simp only [f, cond_true, cond_false] at this ⊢ <;> convert this using 1 <;> ring)
  simp only [cond_true, cond_false] at this
  omega

/-- Every reported point is on the plane and in the box, and there are at most six, the size callers use. -/
theorem C52_planeBox {τ : ℝ} (hτ : 0 ≤ τ) (pl : Plane3 ℝ) (b : AABox3 ℝ) (hb : Spec.Proper b) :
    (∀ p ∈ intersectPlaneBox τ pl b, p ∈ Spec.plane pl.org pl.norm ∧ p ∈ Spec.aabox b) ∧ (intersectPlaneBox τ pl b).length ≤ 6 ∧
    (colChkPlaneBox τ pl b ↔ intersectPlaneBox τ pl b ≠ []) := by
  obtain ⟨hx, hy, hz⟩ := hb
  refine ⟨fun p hp => ?_, ?_, ?_⟩
  · have lx : b.min.x ≤ b.min.x ∧ b.min.x ≤ b.max.x := ⟨le_rfl, hx⟩
    have ux : b.min.x ≤ b.max.x ∧ b.max.x ≤ b.max.x := ⟨hx, le_rfl⟩
    have ly : b.min.y ≤ b.min.y ∧ b.min.y ≤ b.max.y := ⟨le_rfl, hy⟩
    have uy : b.min.y ≤ b.max.y ∧ b.max.y ≤ b.max.y := ⟨hy, le_rfl⟩
    have lz : b.min.z ≤ b.min.z ∧ b.min.z ≤ b.max.z := ⟨le_rfl, hz⟩
    have uz : b.min.z ≤ b.max.z ∧ b.max.z ≤ b.max.z := ⟨hz, le_rfl⟩
    unfold intersectPlaneBox at hp
    simp only [List.mem_append] at hp
    rcases hp with (((((((((((h | h) | h) | h) | h) | h) | h) | h) | h) | h) | h) | h)
    · obtain ⟨h1, h2, h3, h4⟩ := mem_x hτ h; exact ⟨h4, h1, by rw [h2]; exact ly, by rw [h3]; exact lz⟩
    · obtain ⟨h1, h2, h3, h4⟩ := mem_x hτ h; exact ⟨h4, h1, by rw [h2]; exact uy, by rw [h3]; exact lz⟩
    · obtain ⟨h1, h2, h3, h4⟩ := mem_x hτ h; exact ⟨h4, h1, by rw [h2]; exact uy, by rw [h3]; exact uz⟩
    · obtain ⟨h1, h2, h3, h4⟩ := mem_x hτ h; exact ⟨h4, h1, by rw [h2]; exact ly, by rw [h3]; exact uz⟩
    · obtain ⟨h1, h2, h3, h4⟩ := mem_y hτ h; exact ⟨h4, by rw [h3]; exact lx, h1, by rw [h2]; exact lz⟩
    · obtain ⟨h1, h2, h3, h4⟩ := mem_y hτ h; exact ⟨h4, by rw [h3]; exact lx, h1, by rw [h2]; exact uz⟩
    · obtain ⟨h1, h2, h3, h4⟩ := mem_y hτ h; exact ⟨h4, by rw [h3]; exact ux, h1, by rw [h2]; exact uz⟩
    · obtain ⟨h1, h2, h3, h4⟩ := mem_y hτ h; exact ⟨h4, by rw [h3]; exact ux, h1, by rw [h2]; exact lz⟩
    · obtain ⟨h1, h2, h3, h4⟩ := mem_z hτ h; exact ⟨h4, by rw [h2]; exact lx, by rw [h3]; exact ly, h1⟩
    · obtain ⟨h1, h2, h3, h4⟩ := mem_z hτ h; exact ⟨h4, by rw [h2]; exact ux, by rw [h3]; exact ly, h1⟩
    · obtain ⟨h1, h2, h3, h4⟩ := mem_z hτ h; exact ⟨h4, by rw [h2]; exact ux, by rw [h3]; exact uy, h1⟩
    · obtain ⟨h1, h2, h3, h4⟩ := mem_z hτ h; exact ⟨h4, by rw [h2]; exact lx, by rw [h3]; exact uy, h1⟩
  · have eX : ∀ y z, _ := fun y z => boxEdge_x hτ pl hx y z
    have eY : ∀ z x, _ := fun z x => boxEdge_y hτ pl hy z x
    have eZ : ∀ x y, _ := fun x y => boxEdge_z hτ pl hz x y
    have X := fun y z => (⟨(eX y z).1, fun h => ((eX y z).2.1 h).2⟩ : _ ≤ 1 ∧ (_ → _))
    have Y := fun z x => (⟨(eY z x).1, fun h => ((eY z x).2.1 h).2⟩ : _ ≤ 1 ∧ (_ → _))
    have Z := fun x y => (⟨(eZ x y).1, fun h => ((eZ x y).2.1 h).2⟩ : _ ≤ 1 ∧ (_ → _))
    have X' := fun y z => (⟨(eX y z).1, fun h => mul_comm (f pl b.max.x y z) (f pl b.min.x y z) ▸ ((eX y z).2.1 h).2⟩ : _ ≤ 1 ∧ (_ → f pl b.max.x y z * f pl b.min.x y z < 0))
    have Y' := fun z x => (⟨(eY z x).1, fun h => mul_comm (f pl x b.max.y z) (f pl x b.min.y z) ▸ ((eY z x).2.1 h).2⟩ : _ ≤ 1 ∧ (_ → f pl x b.max.y z * f pl x b.min.y z < 0))
    have Z' := fun x y => (⟨(eZ x y).1, fun h => mul_comm (f pl x y b.max.z) (f pl x y b.min.z) ▸ ((eZ x y).2.1 h).2⟩ : _ ≤ 1 ∧ (_ → f pl x y b.max.z * f pl x y b.min.z < 0))
    unfold intersectPlaneBox
    simp only [List.length_append]
    rcases le_total 0 pl.norm.x with sx | sx <;> rcases le_total 0 pl.norm.y with sy | sy <;> rcases le_total 0 pl.norm.z with sz | sz
    · have := box6 (mul_le_mul_of_nonneg_left hx sx) (mul_le_mul_of_nonneg_left hy sy) (mul_le_mul_of_nonneg_left hz sz) X Y Z; omega
    · have := box6 (mul_le_mul_of_nonneg_left hx sx) (mul_le_mul_of_nonneg_left hy sy) (mul_le_mul_of_nonpos_left hz sz) X Y Z'; omega
    · have := box6 (mul_le_mul_of_nonneg_left hx sx) (mul_le_mul_of_nonpos_left hy sy) (mul_le_mul_of_nonneg_left hz sz) X Y' Z; omega
    · have := box6 (mul_le_mul_of_nonneg_left hx sx) (mul_le_mul_of_nonpos_left hy sy) (mul_le_mul_of_nonpos_left hz sz) X Y' Z'; omega
    · have := box6 (mul_le_mul_of_nonpos_left hx sx) (mul_le_mul_of_nonneg_left hy sy) (mul_le_mul_of_nonneg_left hz sz) X' Y Z; omega
    · have := box6 (mul_le_mul_of_nonpos_left hx sx) (mul_le_mul_of_nonneg_left hy sy) (mul_le_mul_of_nonpos_left hz sz) X' Y Z'; omega
    · have := box6 (mul_le_mul_of_nonpos_left hx sx) (mul_le_mul_of_nonpos_left hy sy) (mul_le_mul_of_nonneg_left hz sz) X' Y' Z; omega
    · have := box6 (mul_le_mul_of_nonpos_left hx sx) (mul_le_mul_of_nonpos_left hy sy) (mul_le_mul_of_nonpos_left hz sz) X' Y' Z'; omega
  · unfold colChkPlaneBox intersectPlaneBox
    rw [← List.length_pos_iff]
    simp only [List.length_append]
    omega

/-- A plane that meets the box is reported, provided it passes through no corner and every component of
its normal is zero or exceeds the tolerance.  Missing: planes through corners, for which it is false,
see `C52_planeBox_missed`. -/
theorem C52_planeBox_complete_partial {τ : ℝ} (hτ : 0 ≤ τ) (pl : Plane3 ℝ) (b : AABox3 ℝ) (hb : Spec.Proper b)
    (hn : (pl.norm.x = 0 ∨ τ < |pl.norm.x|) ∧ (pl.norm.y = 0 ∨ τ < |pl.norm.y|) ∧ (pl.norm.z = 0 ∨ τ < |pl.norm.z|))
    (hc : ∀ x ∈ [b.min.x, b.max.x], ∀ y ∈ [b.min.y, b.max.y], ∀ z ∈ [b.min.z, b.max.z], (⟨x, y, z⟩ : Vec3 ℝ) ∉ Spec.plane pl.org pl.norm)
    (p : Vec3 ℝ) (hp : p ∈ Spec.plane pl.org pl.norm) (hpb : p ∈ Spec.aabox b) : colChkPlaneBox τ pl b := by
  obtain ⟨hx, hy, hz⟩ := hb
  by_contra hno
  unfold colChkPlaneBox at hno
  simp only [not_or, (boxEdge_x hτ pl hx _ _).2, (boxEdge_y hτ pl hy _ _).2, (boxEdge_z hτ pl hz _ _).2] at hno
  simp only [f_plane, List.mem_cons, List.not_mem_nil, or_false, forall_eq_or_imp, forall_eq] at hc
  -- neighbouring corners are on the same side
  have kx : ∀ y z, ¬ (τ < |pl.norm.x| ∧ f pl b.min.x y z * f pl b.max.x y z < 0) → f pl b.min.x y z ≠ 0 → f pl b.max.x y z ≠ 0 →
      (0 < f pl b.min.x y z ↔ 0 < f pl b.max.x y z) := fun y z h h1 h2 => by
    rcases hn.1 with h0 | h0
    · simp only [f, h0, zero_mul]
    · have : 0 ≤ f pl b.min.x y z * f pl b.max.x y z := not_lt.1 fun k => h ⟨h0, k⟩
      constructor
      · intro k; exact lt_of_le_of_ne (by nlinarith) (Ne.symm h2)
      · intro k; exact lt_of_le_of_ne (by nlinarith) (Ne.symm h1)
  have ky : ∀ x z, ¬ (τ < |pl.norm.y| ∧ f pl x b.min.y z * f pl x b.max.y z < 0) → f pl x b.min.y z ≠ 0 → f pl x b.max.y z ≠ 0 →
      (0 < f pl x b.min.y z ↔ 0 < f pl x b.max.y z) := fun x z h h1 h2 => by
    rcases hn.2.1 with h0 | h0
    · simp only [f, h0, zero_mul]
    · have : 0 ≤ f pl x b.min.y z * f pl x b.max.y z := not_lt.1 fun k => h ⟨h0, k⟩
      constructor
      · intro k; exact lt_of_le_of_ne (by nlinarith) (Ne.symm h2)
      · intro k; exact lt_of_le_of_ne (by nlinarith) (Ne.symm h1)
  have kz : ∀ x y, ¬ (τ < |pl.norm.z| ∧ f pl x y b.min.z * f pl x y b.max.z < 0) → f pl x y b.min.z ≠ 0 → f pl x y b.max.z ≠ 0 →
      (0 < f pl x y b.min.z ↔ 0 < f pl x y b.max.z) := fun x y h h1 h2 => by
    rcases hn.2.2 with h0 | h0
    · simp only [f, h0, zero_mul]
    · have : 0 ≤ f pl x y b.min.z * f pl x y b.max.z := not_lt.1 fun k => h ⟨h0, k⟩
      constructor
      · intro k; exact lt_of_le_of_ne (by nlinarith) (Ne.symm h2)
      · intro k; exact lt_of_le_of_ne (by nlinarith) (Ne.symm h1)
  obtain ⟨⟨⟨c000, c001⟩, ⟨c010, c011⟩⟩, ⟨⟨c100, c101⟩, ⟨c110, c111⟩⟩⟩ := hc
  obtain ⟨e1, e2, e3, e4, e5, e6, e7, e8, e9, e10, e11, e12⟩ := hno
  have a1 := kx _ _ e1 c000 c100
  have a2 := kx _ _ e2 c010 c110
  have a3 := kx _ _ e3 c011 c111
  have a4 := kx _ _ e4 c001 c101
  have a5 := ky _ _ e5 c000 c010
  have a9 := kz _ _ e9 c000 c001
  -- the extreme corners
  have ext : ∀ n lo hi x : ℝ, lo ≤ x → x ≤ hi → (n * lo ≤ n * x ∨ n * hi ≤ n * x) ∧ (n * x ≤ n * lo ∨ n * x ≤ n * hi) := fun n lo hi x h1 h2 => by
    rcases le_total 0 n with k | k
    · exact ⟨Or.inl (mul_le_mul_of_nonneg_left h1 k), Or.inr (mul_le_mul_of_nonneg_left h2 k)⟩
    · exact ⟨Or.inr (mul_le_mul_of_nonpos_left h2 k), Or.inl (mul_le_mul_of_nonpos_left h1 k)⟩
  rw [f_plane] at hp
  obtain ⟨⟨p1, p2⟩, ⟨p3, p4⟩, ⟨p5, p6⟩⟩ := hpb
  obtain ⟨lx, ux⟩ := ext pl.norm.x _ _ _ p1 p2
  obtain ⟨ly, uy⟩ := ext pl.norm.y _ _ _ p3 p4
  obtain ⟨lz, uz⟩ := ext pl.norm.z _ _ _ p5 p6
  have a6 := ky _ _ e6 c001 c011
  have neg_or : 0 < f pl b.min.x b.min.y b.min.z ∨ ¬ 0 < f pl b.min.x b.min.y b.min.z := Classical.em _
  rcases neg_or with h0 | h0
  · have b1 := a1.1 h0
    have b2 := a5.1 h0
    have b3 := a9.1 h0
    have b4 := a2.1 b2
    have b5 := a6.1 b3
    have b6 := a4.1 b3
    have b7 := a3.1 b5
    simp only [f] at *
    rcases lx with lx | lx <;> rcases ly with ly | ly <;> rcases lz with lz | lz <;> linarith
  · have b1 := fun k => h0 (a1.2 k)
    have b2 := fun k => h0 (a5.2 k)
    have b3 := fun k => h0 (a9.2 k)
    have b4 := fun k => b2 (a2.2 k)
    have b5 := fun k => b3 (a6.2 k)
    have b6 := fun k => b3 (a4.2 k)
    have b7 := fun k => b5 (a3.2 k)
    have n0 := lt_of_le_of_ne (not_lt.1 h0) c000
    have n1 := lt_of_le_of_ne (not_lt.1 b1) c100
    have n2 := lt_of_le_of_ne (not_lt.1 b2) c010
    have n3 := lt_of_le_of_ne (not_lt.1 b3) c001
    have n4 := lt_of_le_of_ne (not_lt.1 b4) c110
    have n5 := lt_of_le_of_ne (not_lt.1 b5) c011
    have n6 := lt_of_le_of_ne (not_lt.1 b6) c101
    have n7 := lt_of_le_of_ne (not_lt.1 b7) c111
    clear kx ky kz a1 a2 a3 a4 a5 a6 a9 b1 b2 b3 b4 b5 b6 b7 h0 e1 e2 e3 e4 e5 e6 e7 e8 e9 e10 e11 e12
    simp only [f] at *
    rcases ux with ux | ux <;> rcases uy with uy | uy <;> rcases uz with uz | uz <;> linarith

/-- Satisfiability: the plane `3x + 4y = 1` (normal `(0.6, 0.8, 0)`) through the box `[0,1]³`. -/
example : ∃ (pl : Plane3 ℝ) (b : AABox3 ℝ) (p : Vec3 ℝ) (τ : ℝ), 0 < τ ∧ Spec.Proper b ∧
    ((pl.norm.x = 0 ∨ τ < |pl.norm.x|) ∧ (pl.norm.y = 0 ∨ τ < |pl.norm.y|) ∧ (pl.norm.z = 0 ∨ τ < |pl.norm.z|)) ∧
    (∀ x ∈ [b.min.x, b.max.x], ∀ y ∈ [b.min.y, b.max.y], ∀ z ∈ [b.min.z, b.max.z], (⟨x, y, z⟩ : Vec3 ℝ) ∉ Spec.plane pl.org pl.norm) ∧
    p ∈ Spec.plane pl.org pl.norm ∧ p ∈ Spec.aabox b := by
  refine ⟨⟨⟨1/3, 0, 0⟩, ⟨6/10, 8/10, 0⟩⟩, ⟨⟨0, 0, 0⟩, ⟨1, 1, 1⟩⟩, ⟨0, 1/4, 0⟩, 1/10, by norm_num, ⟨by norm_num, by norm_num, by norm_num⟩,
    ⟨Or.inr (by norm_num [abs_of_pos]), Or.inr (by norm_num [abs_of_pos]), Or.inl rfl⟩, ?_, ?_, ?_⟩
  · simp only [List.mem_cons, List.not_mem_nil, or_false, forall_eq_or_imp, forall_eq, Spec.plane, Set.mem_setOf_eq]
    norm_num
  · simp only [Spec.plane, Set.mem_setOf_eq]; norm_num
  · refine ⟨?_, ?_, ?_⟩ <;> norm_num

/-- A plane through two opposite edges of a box, cutting it in halves, is not reported: the crossing
points are corners and the comparisons are strict. -/
theorem C52_planeBox_missed (τ : ℝ) (hτ : 0 ≤ τ) :
    (⟨2, 3/2, 1/2⟩ : Vec3 ℝ) ∈ Spec.plane (⟨0, 0, 0⟩ : Vec3 ℝ) ⟨3/5, -4/5, 0⟩ ∧ (⟨2, 3/2, 1/2⟩ : Vec3 ℝ) ∈ Spec.aabox ⟨⟨0, 0, 0⟩, ⟨4, 3, 1⟩⟩ ∧
    ¬ colChkPlaneBox τ ⟨⟨0, 0, 0⟩, ⟨3/5, -4/5, 0⟩⟩ ⟨⟨0, 0, 0⟩, ⟨4, 3, 1⟩⟩ := by
  refine ⟨?_, ⟨?_, ?_, ?_⟩, ?_⟩
  · simp only [Spec.plane, Set.mem_setOf_eq]; norm_num
  · norm_num
  · norm_num
  · norm_num
  · unfold colChkPlaneBox
    rw [(boxEdge_x hτ _ (by norm_num) _ _).2, (boxEdge_x hτ _ (by norm_num) _ _).2, (boxEdge_x hτ _ (by norm_num) _ _).2, (boxEdge_x hτ _ (by norm_num) _ _).2,
      (boxEdge_y hτ _ (by norm_num) _ _).2, (boxEdge_y hτ _ (by norm_num) _ _).2, (boxEdge_y hτ _ (by norm_num) _ _).2, (boxEdge_y hτ _ (by norm_num) _ _).2,
      (boxEdge_z hτ _ (by norm_num) _ _).2, (boxEdge_z hτ _ (by norm_num) _ _).2, (boxEdge_z hτ _ (by norm_num) _ _).2, (boxEdge_z hτ _ (by norm_num) _ _).2]
    simp only [f, Vec3.inner]
    norm_num

/-! ## Triangle and axis-aligned box -/

private theorem axOne {v1 v2 : Vec3 ℝ} {b : AABox3 ℝ} {axis : Fin 3} {w p : Vec3 ℝ} (hw : b.min.e axis ≤ w.e axis ∧ w.e axis ≤ b.max.e axis)
    (h : triBoxEdgeAxOne v1 v2 axis w b = some p) : p ∈ Spec.segment v1 v2 ∧ p ∈ Spec.aabox b := by
  unfold triBoxEdgeAxOne at h
  dsimp only at h
  split at h
  · simp at h
  · rename_i hs
    split at h
    · simp at h
    · rename_i hd
      split at h
      · rename_i hi
        rw [Option.some.injEq] at h
        subst h
        set d1 := v1.e axis - w.e axis with hd1
        set d2 := v2.e axis - w.e axis with hd2
        have hprod : d1 * d2 ≤ 0 := by
          by_contra hc
          push Not at hc
          rcases mul_pos_iff.1 hc with k | k
          · exact hs (Or.inl k)
          · exact hs (Or.inr k)
        set t := - d1 / (d2 - d1) with ht
        have htd : t * (d2 - d1) = - d1 := by rw [ht, div_mul_cancel₀ _ hd]
        have h01 : 0 ≤ t ∧ t ≤ 1 := by
          have h2 : 0 < (d2 - d1) ^ 2 := by positivity
          have h3 : t * (1 - t) * (d2 - d1) ^ 2 = - (d1 * d2) := by linear_combination ((d2 - d1) * (1 - t) + d1) * htd
          have h4 : 0 ≤ t * (1 - t) := by
            by_contra hc'
            push Not at hc'
            linarith [mul_neg_of_neg_of_pos hc' h2]
          constructor <;> nlinarith
        have s1 : v1.e (axis + 1) - (v2.e (axis + 1) - v1.e (axis + 1)) * d1 / (d2 - d1) = (1 - t) * v1.e (axis + 1) + t * v2.e (axis + 1) := by
          rw [ht]; field_simp; ring
        have s2 : v1.e (axis + 2) - (v2.e (axis + 2) - v1.e (axis + 2)) * d1 / (d2 - d1) = (1 - t) * v1.e (axis + 2) + t * v2.e (axis + 2) := by
          rw [ht]; field_simp; ring
        have s0 : w.e axis = (1 - t) * v1.e axis + t * v2.e axis := by
          have : d2 - d1 = v2.e axis - v1.e axis := by rw [hd1, hd2]; ring
          rw [this] at htd
          linarith
        obtain ⟨i1, i2, i3, i4⟩ := hi
        rw [s1] at i1 i2 ⊢
        rw [s2] at i3 i4 ⊢
        constructor
        · refine ⟨1 - t, t, by linarith, h01.1, by ring, ?_⟩
          rw [s0]
          fin_cases axis
          · ext <;> simp [Vec3.setE, Vec3.e, Spec.comb]
          · ext <;> simp [Vec3.setE, Vec3.e, Spec.comb]
          · ext <;> simp [Vec3.setE, Vec3.e, Spec.comb]
        · fin_cases axis
          · exact ⟨hw, ⟨i1.le, i2.le⟩, ⟨i3.le, i4.le⟩⟩
          · exact ⟨⟨i3.le, i4.le⟩, hw, ⟨i1.le, i2.le⟩⟩
          · exact ⟨⟨i1.le, i2.le⟩, ⟨i3.le, i4.le⟩, hw⟩
      · simp at h

private theorem triBoxEdge_sound {v1 v2 : Vec3 ℝ} {b : AABox3 ℝ} (hb : Spec.Proper b) {p : Vec3 ℝ} (h : p ∈ triBoxEdge v1 v2 b) :
    p ∈ Spec.segment v1 v2 ∧ p ∈ Spec.aabox b := by
  have hb' : ∀ axis : Fin 3, b.min.e axis ≤ b.max.e axis := by
    obtain ⟨h1, h2, h3⟩ := hb
    intro axis
    fin_cases axis
    · exact h1
    · exact h2
    · exact h3
  have K : ∀ axis, p ∈ triBoxEdgeAx v1 v2 axis b → p ∈ Spec.segment v1 v2 ∧ p ∈ Spec.aabox b := fun axis h => by
    unfold triBoxEdgeAx at h
    rw [List.mem_append, Option.mem_toList, Option.mem_toList] at h
    rcases h with h | h
    · exact axOne ⟨le_rfl, hb' axis⟩ h
    · exact axOne ⟨hb' axis, le_rfl⟩ h
  unfold triBoxEdge at h
  simp only [List.mem_append] at h
  rcases h with (h | h) | h
  · exact K 0 h
  · exact K 1 h
  · exact K 2 h

/-- The stage that should find a face of the triangle cutting the box never finds anything: it asks for a
distance below `-zTOL`. -/
theorem C52_triBox_plane_dead {τ : ℝ} (hτ : 0 ≤ τ) (hτ' : τ ≤ 1/4) (a b c : Vec3 ℝ) (h : ¬ (Tri3.outerProd a b c).isTol τ) (box : AABox3 ℝ) :
    triBoxPlane τ (mkTri τ a b c) box = some [] := by
  obtain ⟨n, m1, m2, -⟩ := toPlane_create hτ hτ' h
  have hin := fun p => C20_pointIsInside τ hτ hτ' a b c p (-τ) (Or.inl h)
  unfold triBoxPlane
  rw [show (mkTri τ a b c).toPlane τ = some ⟨a, n⟩ from m2, show mkTri τ a b c = ⟨a, b, c, n⟩ from m1]
  simp only [Option.map_some, Option.some.injEq, List.filter_eq_nil_iff, decide_eq_true_eq]
  intro p _ hp
  obtain ⟨q, -, hq⟩ := (hin p).1 hp
  have : 0 ≤ Spec.ed p q := Real.sqrt_nonneg _
  linarith

/-- What is reported is a common point of the triangle and the box, and a positive check means that they
share a point. -/
theorem C52_triBox_sound {τ : ℝ} (hτ : 0 ≤ τ) (hτ' : τ ≤ 1/4) (a b c : Vec3 ℝ) (h : ¬ (Tri3.outerProd a b c).isTol τ) (box : AABox3 ℝ) (hb : Spec.Proper box) :
    (∃ l, intersectTriBox τ (mkTri τ a b c) box = some l ∧ ∀ p ∈ l, p ∈ Spec.triangle a b c ∧ p ∈ Spec.aabox box) ∧
    ∃ P, colChkTriBox τ (mkTri τ a b c) box = some P ∧ (P → ∃ q ∈ Spec.triangle a b c, q ∈ Spec.aabox box) ∧
      ((∃ v ∈ [a, b, c], (box.min.x + τ < v.x ∧ v.x ≤ box.max.x - τ) ∧ (box.min.y + τ < v.y ∧ v.y ≤ box.max.y - τ) ∧ (box.min.z + τ < v.z ∧ v.z ≤ box.max.z - τ)) → P) := by
  obtain ⟨n, m1, -⟩ := toPlane_create hτ hτ' h
  have hdead := C52_triBox_plane_dead hτ hτ' a b c h box
  rw [show mkTri τ a b c = ⟨a, b, c, n⟩ from m1] at hdead ⊢
  have T := fun p => @seg_tri a b c p
  constructor
  · refine ⟨triBoxEdge a b box ++ triBoxEdge b c box ++ triBoxEdge c a box ++ [], by unfold intersectTriBox; rw [hdead]; rfl, fun p hp => ?_⟩
    simp only [List.append_nil, List.mem_append] at hp
    rcases hp with (k | k) | k <;> obtain ⟨k1, k2⟩ := triBoxEdge_sound hb k
    · exact ⟨(T p).1 k1, k2⟩
    · exact ⟨(T p).2.1 k1, k2⟩
    · exact ⟨(T p).2.2 k1, k2⟩
  · have V : ∀ v, box.pointIsInside v (-τ) → v ∈ Spec.aabox box := fun v ⟨⟨k1, k2⟩, ⟨k3, k4⟩, ⟨k5, k6⟩⟩ =>
      ⟨⟨by linarith, by linarith⟩, ⟨by linarith, by linarith⟩, ⟨by linarith, by linarith⟩⟩
    unfold colChkTriBox
    rw [hdead]
    dsimp only
    split
    · rename_i hv
      refine ⟨True, rfl, fun _ => ?_, fun _ => trivial⟩
      rcases hv with k | k | k
      · exact ⟨a, (T a).1 (seg_left _ _), V a k⟩
      · exact ⟨b, (T b).1 (seg_right _ _), V b k⟩
      · exact ⟨c, (T c).2.1 (seg_right _ _), V c k⟩
    · rename_i hv
      have hv' : ¬ ∃ v ∈ [a, b, c], (box.min.x + τ < v.x ∧ v.x ≤ box.max.x - τ) ∧ (box.min.y + τ < v.y ∧ v.y ≤ box.max.y - τ) ∧ (box.min.z + τ < v.z ∧ v.z ≤ box.max.z - τ) := by
        rintro ⟨v, hm, ⟨k1, k2⟩, ⟨k3, k4⟩, ⟨k5, k6⟩⟩
        have : box.pointIsInside v (-τ) := ⟨⟨by linarith, by linarith⟩, ⟨by linarith, by linarith⟩, ⟨by linarith, by linarith⟩⟩
        simp only [List.mem_cons, List.not_mem_nil, or_false] at hm
        rcases hm with rfl | rfl | rfl
        · exact hv (Or.inl this)
        · exact hv (Or.inr (Or.inl this))
        · exact hv (Or.inr (Or.inr this))
      split
      · rename_i he
        refine ⟨True, rfl, fun _ => ?_, fun _ => trivial⟩
        rcases he with k | k | k <;> obtain ⟨p, hp⟩ := List.exists_mem_of_ne_nil _ k <;> obtain ⟨k1, k2⟩ := triBoxEdge_sound hb hp
        · exact ⟨p, (T p).1 k1, k2⟩
        · exact ⟨p, (T p).2.1 k1, k2⟩
        · exact ⟨p, (T p).2.2 k1, k2⟩
      · exact ⟨_, rfl, fun k => absurd rfl k, fun k => absurd k hv'⟩

/-- A large triangle whose face cuts the box in halves is not reported. -/
theorem C52_triBox_missed {τ : ℝ} (hτ : 0 ≤ τ) (hτ' : τ ≤ 1/4) :
    (⟨0, 0, 0⟩ : Vec3 ℝ) ∈ Spec.triangle ⟨-100, -100, 0⟩ ⟨100, -100, 0⟩ ⟨0, 100, 0⟩ ∧ (⟨0, 0, 0⟩ : Vec3 ℝ) ∈ Spec.aabox ⟨⟨-1, -1, -1⟩, ⟨1, 1, 1⟩⟩ ∧
    ∃ P, colChkTriBox τ (mkTri τ ⟨-100, -100, 0⟩ ⟨100, -100, 0⟩ ⟨0, 100, 0⟩) ⟨⟨-1, -1, -1⟩, ⟨1, 1, 1⟩⟩ = some P ∧ ¬ P := by
  have h : ¬ (Tri3.outerProd (⟨-100, -100, 0⟩ : Vec3 ℝ) ⟨100, -100, 0⟩ ⟨0, 100, 0⟩).isTol τ := fun h => by
    have := h.2.2
    simp only [Tri3.outerProd, zeo, zIsTol] at this
    norm_num at this
    linarith
  refine ⟨⟨1/4, 1/4, 1/2, by norm_num, by norm_num, by norm_num, by norm_num, by ext <;> norm_num [Spec.comb]⟩, ?_, ?_⟩
  · refine ⟨?_, ?_, ?_⟩ <;> norm_num
  · have hdead := C52_triBox_plane_dead hτ hτ' _ _ _ h ⟨⟨-1, -1, -1⟩, ⟨1, 1, 1⟩⟩
    obtain ⟨n, m1, -⟩ := toPlane_create hτ hτ' h
    rw [show mkTri τ (⟨-100, -100, 0⟩ : Vec3 ℝ) ⟨100, -100, 0⟩ ⟨0, 100, 0⟩ = _ from m1] at hdead ⊢
    refine ⟨_, by
      unfold colChkTriBox
      rw [if_neg, if_neg, hdead]
      · rfl
      · simp only [triBoxEdge, triBoxEdgeAx, triBoxEdgeAxOne]
        simp [Vec3.e]
        norm_num
      · simp only [AABox3.pointIsInside]
        norm_num
        exact ⟨fun _ => by linarith, fun _ _ => by linarith, fun _ _ _ _ => by linarith⟩, by simp⟩

/-! ## Sphere and box -/

private theorem ball_iff {S : Set (Vec3 ℝ)} {c q : Vec3 ℝ} {d r : ℝ} (hn : Spec.IsNearest S c q) (hd : d = Spec.ed c q) :
    d < r ↔ ∃ p ∈ S, Spec.ed c p < r := by
  constructor
  · intro h; exact ⟨q, hn.1, hd ▸ h⟩
  · rintro ⟨p, hp, h⟩
    rw [hd]
    exact lt_of_le_of_lt (Real.sqrt_le_sqrt (hn.2 p hp)) h

/-- The checks decide whether a point of the box is nearer to the centre than the radius. -/
theorem C52_sphere_aabox (s : Sphere3 ℝ) (b : AABox3 ℝ) (hb : Spec.Proper b) :
    colChkSphereAABox s b ↔ ∃ p ∈ Spec.aabox b, Spec.ed s.center p < s.radius := by
  unfold colChkSphereAABox
  rw [C17_dist]
  exact ball_iff (C17_closest b s.center hb).1 (C17_closest b s.center hb).2

theorem C52_sphere_box (s : Sphere3 ℝ) (b : Box3 ℝ) (hb : Spec.ProperBox b) :
    colChkSphereBox s b ↔ ∃ p ∈ Spec.obox b, Spec.ed s.center p < s.radius := by
  unfold colChkSphereBox
  exact ball_iff (C18_closest b hb s.center).1 (C18_closest b hb s.center).2

end Zeo
