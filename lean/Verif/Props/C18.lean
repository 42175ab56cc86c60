import Verif.Props.C17
import Verif.Lemmas.Rot

/-! # C18: the closest point of an oriented box -/

namespace Zeo
variable {K : Type*} [Field K] [LinearOrder K] [IsStrictOrderedRing K]

/-- The point with coordinates `s, t, u` along the axes of the box, measured from its center. -/
def Spec.oboxPoint (b : Box3 K) (s t u : K) : Vec3 K :=
  ⟨b.frame.pos.x + s * b.frame.att.x.x + t * b.frame.att.y.x + u * b.frame.att.z.x,
   b.frame.pos.y + s * b.frame.att.x.y + t * b.frame.att.y.y + u * b.frame.att.z.y,
   b.frame.pos.z + s * b.frame.att.x.z + t * b.frame.att.y.z + u * b.frame.att.z.z⟩
/-- The closed oriented box as a set. -/
def Spec.obox (b : Box3 K) : Set (Vec3 K) :=
  {p | ∃ s t u, 2 * |s| ≤ b.span.x ∧ 2 * |t| ≤ b.span.y ∧ 2 * |u| ≤ b.span.z ∧ p = oboxPoint b s t u}
/-- The open oriented box grown by a margin on each side. -/
def Spec.oboxOpen (b : Box3 K) (m : K) : Set (Vec3 K) :=
  {p | ∃ s t u, |s| < b.span.x / 2 + m ∧ |t| < b.span.y / 2 + m ∧ |u| < b.span.z / 2 + m ∧ p = oboxPoint b s t u}
/-- A well-formed box: right-handed orthonormal axes and non-negative spans, as set up by
`zBox3DCreate` with orthogonal axes. -/
def Spec.ProperBox (b : Box3 K) : Prop :=
  b.frame.att.IsRot ∧ 0 ≤ b.span.x ∧ 0 ≤ b.span.y ∧ 0 ≤ b.span.z

theorem oboxPoint_eq_xform (b : Box3 K) (q : Vec3 K) : Spec.oboxPoint b q.x q.y q.z = b.frame.xform q := by
  simp only [Spec.oboxPoint]; ext <;> simp only [zeo] <;> ring

theorem xform_xformInv' (f : Frame3 K) (h : f.att.IsRot) (p : Vec3 K) : f.xform (f.xformInv p) = p := by
  obtain ⟨h1, h2, h3, h4, h5, h6⟩ := h.rows
  ext <;> simp only [zeo] <;> grind

theorem xformInv_xform' (f : Frame3 K) (h : f.att.IsRot) (p : Vec3 K) : f.xformInv (f.xform p) = p := by
  obtain ⟨h1, h2, h3, h4, h5, h6⟩ := h.cols
  ext <;> simp only [zeo] <;> grind

theorem sqd_xform (f : Frame3 K) (h : f.att.IsRot) (p q : Vec3 K) :
    Spec.sqd (f.xform p) (f.xform q) = Spec.sqd p q := by
  obtain ⟨h1, h2, h3, h4, h5, h6⟩ := h.cols
  simp only [Spec.sqd, zeo]; grind

theorem mem_obox_iff (b : Box3 K) (h : b.frame.att.IsRot) (p : Vec3 K) :
    p ∈ Spec.obox b ↔ 2 * |(b.frame.xformInv p).x| ≤ b.span.x ∧ 2 * |(b.frame.xformInv p).y| ≤ b.span.y ∧
      2 * |(b.frame.xformInv p).z| ≤ b.span.z := by
  constructor
  · rintro ⟨s, t, u, hs, ht, hu, rfl⟩
    rw [show Spec.oboxPoint b s t u = b.frame.xform ⟨s, t, u⟩ from oboxPoint_eq_xform b ⟨s, t, u⟩,
      xformInv_xform' _ h]
    exact ⟨hs, ht, hu⟩
  · rintro ⟨hs, ht, hu⟩
    exact ⟨_, _, _, hs, ht, hu, by rw [oboxPoint_eq_xform, xform_xformInv' _ h]⟩

/-- **Main claim**: `zBox3DClosest` returns the nearest point of the oriented box together with
its Euclidean distance. -/
theorem C18_closest (b : Box3 ℝ) (hb : Spec.ProperBox b) (p : Vec3 ℝ) :
    Spec.IsNearest (Spec.obox b) p (b.closestD p).2 ∧ (b.closestD p).1 = Spec.ed p (b.closestD p).2 := by
  obtain ⟨h, hx, hy, hz⟩ := hb
  have bd : ∀ {x s : ℝ}, (-(1/2) * s ≤ x ∧ x ≤ 1/2 * s) ↔ 2 * |x| ≤ s := by
    intro x s
    constructor
    · rintro ⟨a, b⟩; have := abs_le.2 (show -(s/2) ≤ x ∧ x ≤ s/2 from ⟨by linarith, by linarith⟩); linarith
    · intro h; have := abs_le.1 (show |x| ≤ s/2 by linarith); exact ⟨by linarith [this.1], by linarith [this.2]⟩
  have hc : (b.closestD p).2 = b.frame.xform ((⟨⟨-(1/2) * b.span.x, -(1/2) * b.span.y, -(1/2) * b.span.z⟩,
      ⟨1/2 * b.span.x, 1/2 * b.span.y, 1/2 * b.span.z⟩⟩ : AABox3 ℝ).closest (b.frame.xformInv p)) := rfl
  refine ⟨⟨?_, ?_⟩, ?_⟩
  · rw [hc, mem_obox_iff b h, xformInv_xform' _ h]
    exact ⟨bd.1 (zLimit_bounds (by linarith)), bd.1 (zLimit_bounds (by linarith)), bd.1 (zLimit_bounds (by linarith))⟩
  · intro q hq
    obtain ⟨q1, q2, q3⟩ := (mem_obox_iff b h q).1 hq
    rw [hc, ← xform_xformInv' _ h p, ← xform_xformInv' _ h q, sqd_xform _ h, sqd_xform _ h, xformInv_xform' _ h]
    exact add_le_add (add_le_add (zLimit_nearest (bd.2 q1)) (zLimit_nearest (bd.2 q2))) (zLimit_nearest (bd.2 q3))
  · simp only [Box3.closestD, Vec3.dist, Spec.ed, zeo, Spec.sqd]; congr 1; ring

/-- `zBox3DDistFromPoint` is the distance to the set: zero exactly on the closed box, never
negative (the header's "negative inside" is not what the code does). -/
theorem C18_dist (b : Box3 ℝ) (hb : Spec.ProperBox b) (p : Vec3 ℝ) :
    b.distFromPoint p = Spec.ed p (b.closestD p).2 ∧ (b.distFromPoint p = 0 ↔ p ∈ Spec.obox b) ∧
    0 ≤ b.distFromPoint p := by
  obtain ⟨⟨hm, hn⟩, hd⟩ := C18_closest b hb p
  refine ⟨hd, ?_, Real.sqrt_nonneg _⟩
  unfold Box3.distFromPoint
  rw [hd, Spec.ed, Real.sqrt_eq_zero (by unfold Spec.sqd; positivity)]
  constructor
  · intro h0
    generalize (b.closestD p).2 = c at *
    have : p = c := by
      unfold Spec.sqd at h0
      have e1 := sq_nonneg (p.x - c.x)
      have e2 := sq_nonneg (p.y - c.y)
      have e3 := sq_nonneg (p.z - c.z)
      ext
      · exact sub_eq_zero.1 (pow_eq_zero_iff (n := 2) (by norm_num) |>.1 (by linarith))
      · exact sub_eq_zero.1 (pow_eq_zero_iff (n := 2) (by norm_num) |>.1 (by linarith))
      · exact sub_eq_zero.1 (pow_eq_zero_iff (n := 2) (by norm_num) |>.1 (by linarith))
    rw [this]; exact hm
  · intro hp
    have := hn p hp
    have h0 : Spec.sqd p p = 0 := by simp [Spec.sqd]
    have : 0 ≤ Spec.sqd p (b.closestD p).2 := by unfold Spec.sqd; positivity
    linarith

/-- `zBox3DPointIsInside` with any margin accepts exactly the open box grown by the margin. -/
theorem C18_inside (b : Box3 K) (h : b.frame.att.IsRot) (p : Vec3 K) (m : K) :
    b.pointIsInside p m ↔ p ∈ Spec.oboxOpen b m := by
  have key : ∀ x s : K, (¬ (x ≥ 1/2 * s + m ∨ x ≤ -(1/2 * s + m))) ↔ |x| < s / 2 + m := by
    intro x s
    rw [abs_lt, not_or, not_le, not_le]
    constructor <;> rintro ⟨a, b⟩ <;> exact ⟨by linarith, by linarith⟩
  have h1 : b.pointIsInside p m ↔ |(b.frame.xformInv p).x| < b.span.x / 2 + m ∧
      |(b.frame.xformInv p).y| < b.span.y / 2 + m ∧ |(b.frame.xformInv p).z| < b.span.z / 2 + m := by
    simp only [Box3.pointIsInside, key]
  rw [h1]
  constructor
  · rintro ⟨hs, ht, hu⟩
    exact ⟨_, _, _, hs, ht, hu, by rw [oboxPoint_eq_xform, xform_xformInv' _ h]⟩
  · rintro ⟨s, t, u, hs, ht, hu, rfl⟩
    rw [show Spec.oboxPoint b s t u = b.frame.xform ⟨s, t, u⟩ from oboxPoint_eq_xform b ⟨s, t, u⟩,
      xformInv_xform' _ h]
    exact ⟨hs, ht, hu⟩

/-- Moving a box by a rigid frame moves its points; moving back restores it. -/
theorem C18_xform (b : Box3 K) (f : Frame3 K) (hf : f.att.IsRot) (s t u : K) :
    Spec.oboxPoint (b.xform f) s t u = f.xform (Spec.oboxPoint b s t u) ∧
    (b.xform f).xformInv f = b ∧ (b.xformInv f).xform f = b ∧ (b.xform f).volume = b.volume := by
  obtain ⟨h1, h2, h3, h4, h5, h6⟩ := hf.cols
  obtain ⟨r1, r2, r3, r4, r5, r6⟩ := hf.rows
  refine ⟨?_, ?_, ?_, rfl⟩
  · simp only [Spec.oboxPoint, Box3.xform]; ext <;> simp only [zeo] <;> ring
  · simp only [Box3.xform, Box3.xformInv]; ext <;> simp only [zeo] <;> grind
  · simp only [Box3.xform, Box3.xformInv]; ext <;> simp only [zeo] <;> grind

/-- `zBox3DToAABox3D` gives the tight axis-aligned bounding box: it contains the box, and every
axis-aligned box containing the oriented box contains it. -/
theorem C18_toAABox (b : Box3 K) (hb : Spec.ProperBox b) :
    Spec.obox b ⊆ Spec.aabox b.toAABox ∧
    ∀ c : AABox3 K, Spec.obox b ⊆ Spec.aabox c → Spec.aabox b.toAABox ⊆ Spec.aabox c := by
  obtain ⟨h, hx, hy, hz⟩ := hb
  have enl : ∀ (l : List (Vec3 K)) (a : AABox3 K),
      ((l.foldl AABox3.enlarge a).min.x ≤ a.min.x ∧ ∀ v ∈ l, (l.foldl AABox3.enlarge a).min.x ≤ v.x) ∧
      ((l.foldl AABox3.enlarge a).min.y ≤ a.min.y ∧ ∀ v ∈ l, (l.foldl AABox3.enlarge a).min.y ≤ v.y) ∧
      ((l.foldl AABox3.enlarge a).min.z ≤ a.min.z ∧ ∀ v ∈ l, (l.foldl AABox3.enlarge a).min.z ≤ v.z) ∧
      (a.max.x ≤ (l.foldl AABox3.enlarge a).max.x ∧ ∀ v ∈ l, v.x ≤ (l.foldl AABox3.enlarge a).max.x) ∧
      (a.max.y ≤ (l.foldl AABox3.enlarge a).max.y ∧ ∀ v ∈ l, v.y ≤ (l.foldl AABox3.enlarge a).max.y) ∧
      (a.max.z ≤ (l.foldl AABox3.enlarge a).max.z ∧ ∀ v ∈ l, v.z ≤ (l.foldl AABox3.enlarge a).max.z) := by
    intro l
    induction l with
    | nil => intro a; simp
    | cons w l ih =>
      intro a
      have := ih (a.enlarge w)
      simp only [List.foldl_cons, List.forall_mem_cons]
      generalize List.foldl AABox3.enlarge (a.enlarge w) l = r at *
      have e : (a.enlarge w).min.x ≤ a.min.x ∧ (a.enlarge w).min.x ≤ w.x ∧ (a.enlarge w).min.y ≤ a.min.y ∧
          (a.enlarge w).min.y ≤ w.y ∧ (a.enlarge w).min.z ≤ a.min.z ∧ (a.enlarge w).min.z ≤ w.z ∧
          a.max.x ≤ (a.enlarge w).max.x ∧ w.x ≤ (a.enlarge w).max.x ∧ a.max.y ≤ (a.enlarge w).max.y ∧
          w.y ≤ (a.enlarge w).max.y ∧ a.max.z ≤ (a.enlarge w).max.z ∧ w.z ≤ (a.enlarge w).max.z := by
        simp only [AABox3.enlarge]
        refine ⟨?_, ?_, ?_, ?_, ?_, ?_, ?_, ?_, ?_, ?_, ?_, ?_⟩ <;> split_ifs <;> linarith
      obtain ⟨e1, e2, e3, e4, e5, e6, e7, e8, e9, e10, e11, e12⟩ := e
      obtain ⟨⟨a1, a2⟩, ⟨b1, b2⟩, ⟨c1, c2⟩, ⟨d1, d2⟩, ⟨f1, f2⟩, ⟨g1, g2⟩⟩ := this
      exact ⟨⟨a1.trans e1, a1.trans e2, a2⟩, ⟨b1.trans e3, b1.trans e4, b2⟩, ⟨c1.trans e5, c1.trans e6, c2⟩,
        ⟨e7.trans d1, e8.trans d1, d2⟩, ⟨e9.trans f1, e10.trans f1, f2⟩, ⟨e11.trans g1, e12.trans g1, g2⟩⟩
  have lub : ∀ (c : AABox3 K) (l : List (Vec3 K)) (a : AABox3 K),
      a.min ∈ Spec.aabox c → a.max ∈ Spec.aabox c → (∀ v ∈ l, v ∈ Spec.aabox c) →
      (l.foldl AABox3.enlarge a).min ∈ Spec.aabox c ∧ (l.foldl AABox3.enlarge a).max ∈ Spec.aabox c := by
    intro c l
    induction l with
    | nil => intro a h1 h2 _; exact ⟨h1, h2⟩
    | cons w l ih =>
      intro a h1 h2 h3
      have hw := h3 w (by simp)
      refine ih (a.enlarge w) ?_ ?_ (fun v hv => h3 v (by simp [hv]))
      · obtain ⟨p1, p2, p3⟩ := h1
        obtain ⟨q1, q2, q3⟩ := hw
        refine ⟨?_, ?_, ?_⟩ <;> simp only [AABox3.enlarge] <;> split_ifs <;> assumption
      · obtain ⟨p1, p2, p3⟩ := h2
        obtain ⟨q1, q2, q3⟩ := hw
        refine ⟨?_, ?_, ?_⟩ <;> simp only [AABox3.enlarge] <;> split_ifs <;> assumption
  have hverts : ∀ i < 8, b.vert i ∈ Spec.obox b := by
    intro i _
    rw [mem_obox_iff b h, Box3.vert, xformInv_xform' _ h]
    have e : ∀ (c : Bool) (s : K), 0 ≤ s → 2 * |if c then -(1/2) * s else 1/2 * s| ≤ s := by
      intro c s hs
      cases c
      · simp only [Bool.false_eq_true, if_false]; rw [abs_of_nonneg (by linarith)]; linarith
      · simp only [if_true]; rw [abs_of_nonpos (by linarith)]; linarith
    exact ⟨e _ _ hx, e _ _ hy, e _ _ hz⟩
  constructor
  · -- every coordinate of a point of the box is bounded by that of some vertex
    intro p hp
    obtain ⟨s, t, u, hs, ht, hu, rfl⟩ := hp
    have E := enl ((List.range 7).map (fun i => b.vert (i + 1))) ⟨b.vert 0, b.vert 0⟩
    rw [show List.foldl AABox3.enlarge ⟨b.vert 0, b.vert 0⟩ ((List.range 7).map (fun i => b.vert (i + 1))) = b.toAABox from rfl] at E
    generalize b.toAABox = r at E
    obtain ⟨⟨a1, a2⟩, ⟨b1, b2⟩, ⟨c1, c2⟩, ⟨d1, d2⟩, ⟨f1, f2⟩, ⟨g1, g2⟩⟩ := E
    have all : ∀ (P : Vec3 K → Prop), P (b.vert 0) →
        (∀ v ∈ (List.range 7).map (fun i => b.vert (i + 1)), P v) → ∀ i < 8, P (b.vert i) := by
      intro P h0 hl i hi
      rcases i with _ | i
      · exact h0
      · exact hl _ (List.mem_map.2 ⟨i, List.mem_range.2 (by omega), rfl⟩)
    -- an affine function of (s,t,u) is between its extreme vertex values
    have lin : ∀ (lo k A B C : K), (∀ i < 8, lo ≤ k
          + (if (i.testBit 0).xor (i.testBit 1) then -(1/2) * b.span.x else 1/2 * b.span.x) * A
          + (if i.testBit 1 then -(1/2) * b.span.y else 1/2 * b.span.y) * B
          + (if i.testBit 2 then -(1/2) * b.span.z else 1/2 * b.span.z) * C) → lo ≤ k + s * A + t * B + u * C := by
      intro lo k A B C H
      have hb3 : ∀ w S X : K, 2 * |w| ≤ S → -(1/2 * S * |X|) ≤ w * X := by
        intro w S X hw
        have h1 := neg_abs_le (w * X)
        rw [abs_mul] at h1
        nlinarith [abs_nonneg X, abs_nonneg w]
      have q1 := hb3 s _ A hs
      have q2 := hb3 t _ B ht
      have q3 := hb3 u _ C hu
      have H0 := H 0 (by norm_num); have H1 := H 1 (by norm_num); have H2 := H 2 (by norm_num); have H3 := H 3 (by norm_num)
      have H4 := H 4 (by norm_num); have H5 := H 5 (by norm_num); have H6 := H 6 (by norm_num); have H7 := H 7 (by norm_num)
      simp [Nat.testBit] at H0 H1 H2 H3 H4 H5 H6 H7
      rcases abs_cases A with ⟨hA, _⟩ | ⟨hA, _⟩ <;> rcases abs_cases B with ⟨hB, _⟩ | ⟨hB, _⟩ <;>
        rcases abs_cases C with ⟨hC, _⟩ | ⟨hC, _⟩ <;> rw [hA] at q1 <;> rw [hB] at q2 <;> rw [hC] at q3 <;> linarith
    have hv : ∀ i, b.vert i = Spec.oboxPoint b
          (if (i.testBit 0).xor (i.testBit 1) then -(1/2) * b.span.x else 1/2 * b.span.x)
          (if i.testBit 1 then -(1/2) * b.span.y else 1/2 * b.span.y)
          (if i.testBit 2 then -(1/2) * b.span.z else 1/2 * b.span.z) := fun i => (oboxPoint_eq_xform b _).symm
    refine ⟨⟨?_, ?_⟩, ⟨?_, ?_⟩, ⟨?_, ?_⟩⟩
    · exact lin _ _ _ _ _ (fun i hi => by have := all (fun v => r.min.x ≤ v.x) a1 a2 i hi; rw [hv] at this; exact this)
    · have := lin (-r.max.x) (-b.frame.pos.x) (-b.frame.att.x.x) (-b.frame.att.y.x) (-b.frame.att.z.x)
        (fun i hi => by have := all (fun v => v.x ≤ r.max.x) d1 d2 i hi; rw [hv] at this; simp only [Spec.oboxPoint] at this; linarith)
      simp only [Spec.oboxPoint]; linarith
    · exact lin _ _ _ _ _ (fun i hi => by have := all (fun v => r.min.y ≤ v.y) b1 b2 i hi; rw [hv] at this; exact this)
    · have := lin (-r.max.y) (-b.frame.pos.y) (-b.frame.att.x.y) (-b.frame.att.y.y) (-b.frame.att.z.y)
        (fun i hi => by have := all (fun v => v.y ≤ r.max.y) f1 f2 i hi; rw [hv] at this; simp only [Spec.oboxPoint] at this; linarith)
      simp only [Spec.oboxPoint]; linarith
    · exact lin _ _ _ _ _ (fun i hi => by have := all (fun v => r.min.z ≤ v.z) c1 c2 i hi; rw [hv] at this; exact this)
    · have := lin (-r.max.z) (-b.frame.pos.z) (-b.frame.att.x.z) (-b.frame.att.y.z) (-b.frame.att.z.z)
        (fun i hi => by have := all (fun v => v.z ≤ r.max.z) g1 g2 i hi; rw [hv] at this; simp only [Spec.oboxPoint] at this; linarith)
      simp only [Spec.oboxPoint]; linarith
  · intro c hc p hp
    have h0 := hc (hverts 0 (by norm_num))
    obtain ⟨l, r⟩ := lub c ((List.range 7).map (fun i => b.vert (i + 1))) ⟨b.vert 0, b.vert 0⟩ h0 h0 (by
      intro v hv
      obtain ⟨i, hi, rfl⟩ := List.mem_map.1 hv
      have := List.mem_range.1 hi
      exact hc (hverts _ (by omega)))
    obtain ⟨⟨p1, p2⟩, ⟨p3, p4⟩, ⟨p5, p6⟩⟩ := hp
    exact ⟨⟨l.1.1.trans p1, p2.trans r.1.2⟩, ⟨l.2.1.1.trans p3, p4.trans r.2.1.2⟩, ⟨l.2.2.1.trans p5, p6.trans r.2.2.2⟩⟩

/-- `zAABox3DToBox3D` describes the same set. -/
theorem C18_ofAABox (a : AABox3 K) (ha : Spec.Proper a) :
    Spec.ProperBox a.toBox ∧ Spec.obox a.toBox = Spec.aabox a := by
  obtain ⟨hx, hy, hz⟩ := ha
  refine ⟨⟨Mat3.IsRot.ident, ?_, ?_, ?_⟩, ?_⟩
  · simp only [AABox3.toBox, zeo]; linarith
  · simp only [AABox3.toBox, zeo]; linarith
  · simp only [AABox3.toBox, zeo]; linarith
  · have bd : ∀ x lo hi : K, 2 * |x| ≤ hi - lo ↔ lo ≤ 1/2 * (hi + lo) + x ∧ 1/2 * (hi + lo) + x ≤ hi := by
      intro x lo hi
      constructor
      · intro h; have := abs_le.1 (show |x| ≤ (hi - lo)/2 by linarith); exact ⟨by linarith [this.1], by linarith [this.2]⟩
      · rintro ⟨a, b⟩; have := abs_le.2 (show -((hi-lo)/2) ≤ x ∧ x ≤ (hi-lo)/2 from ⟨by linarith, by linarith⟩); linarith
    ext p
    constructor
    · rintro ⟨s, t, u, hs, ht, hu, rfl⟩
      simp only [AABox3.toBox, zeo, bd] at hs ht hu
      simp only [Spec.aabox, Spec.oboxPoint, AABox3.toBox, zeo, Set.mem_setOf_eq]
      refine ⟨⟨?_, ?_⟩, ⟨?_, ?_⟩, ⟨?_, ?_⟩⟩ <;> linarith [hs.1, hs.2, ht.1, ht.2, hu.1, hu.2]
    · rintro ⟨h1, h2, h3⟩
      refine ⟨p.x - 1/2 * (a.max.x + a.min.x), p.y - 1/2 * (a.max.y + a.min.y), p.z - 1/2 * (a.max.z + a.min.z), ?_, ?_, ?_, ?_⟩
      · simp only [AABox3.toBox, zeo, bd]; constructor <;> linarith [h1.1, h1.2]
      · simp only [AABox3.toBox, zeo, bd]; constructor <;> linarith [h2.1, h2.2]
      · simp only [AABox3.toBox, zeo, bd]; constructor <;> linarith [h3.1, h3.2]
      · simp only [Spec.oboxPoint, AABox3.toBox]; ext <;> simp only [zeo] <;> ring

/-- Satisfiability: a box turned by the 3-4-5 rotation about z. -/
example : Spec.ProperBox (⟨⟨2, 1, 3⟩, ⟨⟨1, 1, 0⟩, ⟨⟨3/5, 4/5, 0⟩, ⟨-4/5, 3/5, 0⟩, ⟨0, 0, 1⟩⟩⟩⟩ : Box3 ℚ) := by
  refine ⟨(Mat3.isRot_iff _).2 (by decide +kernel), ?_⟩; decide +kernel

end Zeo
