import Verif.Lemmas.OBB

/-! # Lemmas for C70: the hull, its rim and the rectangles -/

namespace Zeo.OBB
open Spec Caliper Hull2D C63 QHMesh QHGeom
noncomputable section
open Classical

/-! ## Vectors -/

theorem dot_sub (u p q : Vec3 ℝ) : dot u (p.sub q) = dot u p - dot u q := by simp only [dot, Vec3.sub]; ring

theorem eq_zero_of_dot {v : Vec3 ℝ} (h : dot v v = 0) : v = .zero := by
  simp only [dot] at h
  ext
  · show v.x = 0; nlinarith [sq_nonneg v.x, sq_nonneg v.y, sq_nonneg v.z]
  · show v.y = 0; nlinarith [sq_nonneg v.x, sq_nonneg v.y, sq_nonneg v.z]
  · show v.z = 0; nlinarith [sq_nonneg v.x, sq_nonneg v.y, sq_nonneg v.z]

theorem dot_pos {v : Vec3 ℝ} (h : v ≠ .zero) : 0 < dot v v := by
  refine lt_of_le_of_ne ?_ fun e => h (eq_zero_of_dot e.symm)
  simp only [dot]; nlinarith [sq_nonneg v.x, sq_nonneg v.y, sq_nonneg v.z]

/-- Three vectors orthogonal to one vector. -/
theorem det_orth {w a b c : Vec3 ℝ} (hw : w ≠ .zero) (ha : dot w a = 0) (hb : dot w b = 0) (hc : dot w c = 0) :
    det3 a b c = 0 := by
  by_contra h
  apply hw
  simp only [dot] at ha hb hc
  simp only [det3] at h
  ext
  · refine (mul_eq_zero.1 (?_ : _ * w.x = 0)).resolve_left h
    linear_combination (b.y * c.z - b.z * c.y) * ha - (a.y * c.z - a.z * c.y) * hb + (a.y * b.z - a.z * b.y) * hc
  · refine (mul_eq_zero.1 (?_ : _ * w.y = 0)).resolve_left h
    linear_combination (b.z * c.x - b.x * c.z) * ha - (a.z * c.x - a.x * c.z) * hb + (a.z * b.x - a.x * b.z) * hc
  · refine (mul_eq_zero.1 (?_ : _ * w.z = 0)).resolve_left h
    linear_combination (b.x * c.y - b.y * c.x) * ha - (a.x * c.y - a.y * c.x) * hb + (a.x * b.y - a.y * b.x) * hc

theorem unitV_unit {v : Vec3 ℝ} (h : v ≠ .zero) : dot (unitV v) (unitV v) = 1 := by
  have hp : 0 < v.x ^ 2 + v.y ^ 2 + v.z ^ 2 := by
    have := dot_pos h
    simp only [dot] at this; nlinarith
  have hs := Real.sq_sqrt hp.le
  have hn : Real.sqrt (v.x ^ 2 + v.y ^ 2 + v.z ^ 2) ≠ 0 := (Real.sqrt_pos.2 hp).ne'
  simp only [dot, unitV]
  field_simp
  linarith

theorem isTol_zero {v : Vec3 ℝ} : v.isTol 0 ↔ v = .zero := by
  rw [isTol_iff_near]
  unfold Near
  simp only [abs_nonpos_iff, sub_eq_zero, Vec3.ext_iff]

theorem normalize_zero {v : Vec3 ℝ} (h : v ≠ .zero) (old : Vec3 ℝ) : (v.normalize 0 old).2 = unitV v := by
  rw [Vec3.normalize, if_neg (by rwa [isTol_zero]), normalizeNC_eq]

/-- A vector parallel to a nonzero one. -/
theorem par_cross {u N : Vec3 ℝ} (hN : N ≠ .zero) (h : crossP u N = .zero) :
    u = ⟨dot u N / dot N N * N.x, dot u N / dot N N * N.y, dot u N / dot N N * N.z⟩ := by
  have hNN : dot N N ≠ 0 := (dot_pos hN).ne'
  have cx : u.y * N.z - u.z * N.y = 0 := congrArg Vec3.x h
  have cy : u.z * N.x - u.x * N.z = 0 := congrArg Vec3.y h
  have cz : u.x * N.y - u.y * N.x = 0 := congrArg Vec3.z h
  ext
  · simp only; rw [div_mul_eq_mul_div, eq_div_iff hNN]; simp only [dot]
    linear_combination N.y * cz - N.z * cy
  · simp only; rw [div_mul_eq_mul_div, eq_div_iff hNN]; simp only [dot]
    linear_combination N.z * cx - N.x * cz
  · simp only; rw [div_mul_eq_mul_div, eq_div_iff hNN]; simp only [dot]
    linear_combination N.x * cy - N.y * cx

theorem cross_normal {u a b c : Vec3 ℝ} (h1 : dot u b = dot u a) (h2 : dot u c = dot u a) :
    crossP u (triNormal (a, b, c)) = .zero := by
  have e1 : dot u (b.sub a) = 0 := by rw [dot_sub]; linarith
  have e2 : dot u (c.sub a) = 0 := by rw [dot_sub]; linarith
  have : crossP u (triNormal (a, b, c)) = ⟨(b.sub a).x * dot u (c.sub a) - (c.sub a).x * dot u (b.sub a),
      (b.sub a).y * dot u (c.sub a) - (c.sub a).y * dot u (b.sub a),
      (b.sub a).z * dot u (c.sub a) - (c.sub a).z * dot u (b.sub a)⟩ := by
    simp only [crossP, triNormal, dot, Vec3.sub]
    ext <;> simp only <;> ring
  rw [this, e1, e2]
  simp [Vec3.zero]

/-- A unit vector orthogonal to two orthonormal ones. -/
theorem unit_orth {d n z : Vec3 ℝ} (hd : dot d d = 1) (hn : dot n n = 1) (hz : dot z z = 1) (hnz : dot z n = 0)
    (h1 : dot d n = 0) (h2 : dot d z = 0) : d = crossP z n ∨ d = lc (-1) (crossP z n) 0 (crossP z n) := by
  have hmm : dot (crossP z n) (crossP z n) = 1 := by
    have : dot (crossP z n) (crossP z n) = dot z z * dot n n - dot z n ^ 2 := by simp only [dot, crossP]; ring
    rw [this, hn, hz, hnz]; norm_num
  have hm0 : crossP z n ≠ .zero := by
    intro h0; rw [h0] at hmm; simp [dot, Vec3.zero] at hmm
  have hc : crossP d (crossP z n) = .zero := by
    have : crossP d (crossP z n) = ⟨z.x * dot d n - n.x * dot d z, z.y * dot d n - n.y * dot d z,
        z.z * dot d n - n.z * dot d z⟩ := by
      simp only [dot, crossP]; ext <;> simp only <;> ring
    rw [this, h1, h2]; simp [Vec3.zero]
  have hp := par_cross hm0 hc
  rw [hmm, div_one] at hp
  set k := dot d (crossP z n)
  have hk : k ^ 2 = 1 := by
    have h3 : dot d d = k ^ 2 * dot (crossP z n) (crossP z n) := by
      conv_lhs => rw [hp]
      simp only [dot]; ring
    rw [hd, hmm] at h3; linarith
  rcases (mul_self_eq_one_iff.1 (show k * k = 1 by rw [← sq]; exact hk)) with h | h
  · left; rw [hp, h]; ext <;> simp
  · right; rw [hp, h]; simp only [lc]; ext <;> simp

/-! ## The hull -/

/-- What the bounding box needs to know about the hull. -/
structure HullPH (l : List (Vec3 ℝ)) (ph : PH ℝ) : Prop where
  ne : ph.face ≠ []
  valid : Valid ph
  unit : ∀ f ∈ ph.face, dot f.norm f.norm = 1
  proper : ∀ f ∈ ph.face, triNormal (ph.vert f.i0, ph.vert f.i1, ph.vert f.i2) ≠ .zero
  flat : ∀ f ∈ ph.face, dot f.norm (ph.vert f.i1) = dot f.norm (ph.vert f.i0) ∧
    dot f.norm (ph.vert f.i2) = dot f.norm (ph.vert f.i0)
  below : ∀ f ∈ ph.face, ∀ p ∈ l, dot f.norm p ≤ dot f.norm (ph.vert f.i0)
  sub : ∀ i < ph.nv, ph.vert i ∈ l
  hull : ∀ p ∈ l, InHull {v | ∃ i < ph.nv, v = ph.vert i} p

theorem unitNormal_flat (a b c : Vec3 ℝ) : dot (unitNormal a b c) b = dot (unitNormal a b c) a ∧
    dot (unitNormal a b c) c = dot (unitNormal a b c) a := by
  unfold unitNormal
  simp only [dot_unit]
  constructor
  · congr 1; simp only [dot, triNormal]; ring
  · congr 1; simp only [dot, triNormal]; ring

theorem unitNormal_proper {a b c : Vec3 ℝ} (h : dot (unitNormal a b c) (unitNormal a b c) = 1) :
    triNormal (a, b, c) ≠ .zero := by
  intro h0
  unfold unitNormal at h
  rw [h0] at h
  simp [dot, unitV, Vec3.zero] at h

theorem hullPH_of {sort} (hs : IsSort sort) {d : Data (Vec3 ℝ)} {ph : PH ℝ} (e : convexHull3 0 sort d = some ph) :
    HullPH d.toAddrList ph := by
  have hl : ¬ Collinear {p | p ∈ d.toAddrList} := by
    rw [← C69_null sort d, e]; simp
  by_cases hc : Coplanar {p | p ∈ d.toAddrList}
  · rw [C69_flat le_rfl sort (C69_exact _) hc hl] at e
    obtain ⟨c, e1, hnd, hlen, hext, hhull, w, hw, hwp, -⟩ := C63_exact hs d hc hl
    obtain ⟨c', w', e2, hcl⟩ := C63_convexLoop hs d hc hl
    obtain rfl := Option.some.inj (e1.symm.trans e2)
    unfold Hull2D.hullPH at e
    rw [e1] at e
    obtain rfl := Option.some.inj e
    obtain ⟨hnv, hv, hval, -, -, hcov, A, B, hAB, hA, hB, hAn, hBn⟩ := C63_ph hcl (le_refl (0:ℝ))
    have hin : ∀ i < (toPH 0 c).nv, (toPH 0 c).vert i ∈ d.toAddrList := by
      intro i hi
      exact ((hext _).1 ((hv _).2 ⟨i, hi, rfl⟩)).1
    have hnz : ∀ f ∈ (toPH 0 c).face, f.norm ≠ .zero := by
      intro f hf h0
      rw [hAB, List.mem_append] at hf
      rcases hf with hf | hf
      · have := hAn f hf; rw [h0] at this; simp [dot, Vec3.zero] at this
      · have := hBn f hf; rw [h0] at this; simp [dot, Vec3.zero] at this
    have hmk : ∀ f ∈ (toPH 0 c).face, f.norm = unitNormal ((toPH 0 c).vert f.i0) ((toPH 0 c).vert f.i1) ((toPH 0 c).vert f.i2) := by
      intro f hf
      have hn := hnz f hf
      have hm : ∃ i j k, f = mkFace 0 (fun i => c.getD i .zero) i j k := by
        simp only [toPH, List.mem_append, List.mem_map] at hf
        rcases hf with ⟨k, -, rfl⟩ | ⟨k, -, rfl⟩
        · exact ⟨_, _, _, rfl⟩
        · exact ⟨_, _, _, rfl⟩
      obtain ⟨i, j, k, rfl⟩ := hm
      show (Tri3.create 0 _ _ _).2.norm = unitNormal (c.getD i .zero) (c.getD j .zero) (c.getD k .zero)
      change (Tri3.create 0 (c.getD i .zero) (c.getD j .zero) (c.getD k .zero)).2.norm ≠ .zero at hn
      have ho : Tri3.outerProd (c.getD i .zero) (c.getD j .zero) (c.getD k .zero) =
          triNormal (c.getD i .zero, c.getD j .zero, c.getD k .zero) := by
        simp only [Tri3.outerProd, triNormal, Vec3.outer, Vec3.sub]
        ext <;> simp only <;> ring
      unfold Tri3.create at hn ⊢
      simp only at hn ⊢
      split
      · rename_i ht
        rw [if_pos ht] at hn
        exact absurd (isTol_zero.1 ht) hn
      · rename_i ht
        rw [normalize_zero (by rwa [isTol_zero] at ht), ho]
        rfl
    have hprop : ∀ f ∈ (toPH 0 c).face, triNormal ((toPH 0 c).vert f.i0, (toPH 0 c).vert f.i1, (toPH 0 c).vert f.i2) ≠ .zero := by
      intro f hf h0
      refine hnz f hf ?_
      rw [hmk f hf, unitNormal, h0]
      simp [unitV, Vec3.zero]
    refine ⟨?_, hval, fun f hf => ?_, hprop, fun f hf => ?_, fun f hf p hp => ?_, hin, fun p hp => ?_⟩
    · rw [hAB]; intro h0
      have := congrArg List.length h0
      simp [hA, hB] at this
      omega
    · rw [hmk f hf]; exact unitV_unit (hprop f hf)
    · rw [hmk f hf]; exact unitNormal_flat _ _ _
    · obtain ⟨i0, i1, i2⟩ := hval f hf
      have h0 : det3 (((toPH 0 c).vert f.i1).sub ((toPH 0 c).vert f.i0)) (((toPH 0 c).vert f.i2).sub ((toPH 0 c).vert f.i0))
          (p.sub ((toPH 0 c).vert f.i0)) = 0 :=
        det_orth hw (hwp _ (hin _ i1) _ (hin _ i0)) (hwp _ (hin _ i2) _ (hin _ i0)) (hwp _ hp _ (hin _ i0))
      have h1 : dot (triNormal ((toPH 0 c).vert f.i0, (toPH 0 c).vert f.i1, (toPH 0 c).vert f.i2))
          (p.sub ((toPH 0 c).vert f.i0)) = 0 := by
        refine Eq.trans ?_ h0; simp only [dot, triNormal, det3, Vec3.sub]; ring
      have h2 : dot f.norm (p.sub ((toPH 0 c).vert f.i0)) = 0 := by
        rw [hmk f hf, unitNormal, dot_unit, h1, zero_div]
      rw [dot_sub] at h2; linarith
    · refine hull_mono (S := {q | q ∈ c}) (fun v hv' => ?_) ((hhull p).2 (hull_self hp))
      obtain ⟨i, hi, e⟩ := (hv v).1 hv'
      exact ⟨i, hi, e.symm⟩
  · have hg := C69_exact d.toAddrList
    obtain ⟨hval, hin, -⟩ := C69_mesh le_rfl hg hc e
    obtain ⟨hu, hf⟩ := C69_faces le_rfl hg hc e
    have hunit : ∀ f ∈ ph.face, dot f.norm f.norm = 1 := by
      intro f hf'
      have := hu f hf'
      simp only [dot]; linarith
    refine ⟨fun h0 => ?_, hval, hunit, fun f hf' => ?_, fun f hf' => ?_, fun f hf' p hp => ?_, hin, fun p hp => ?_⟩
    · -- without faces every point would be in the hull
      have hall : ∀ p, InHull {v | v ∈ d.toAddrList} p := fun p => by
        rw [(C69_hull le_rfl hg hc e p).2, h0]; simp
      obtain ⟨M, hM⟩ : ∃ M : ℝ, ∀ v ∈ d.toAddrList, v.x ≤ M := by
        generalize d.toAddrList = l
        induction l with
        | nil => exact ⟨0, by simp⟩
        | cons a l ih =>
          obtain ⟨M, hM⟩ := ih
          refine ⟨max a.x M, fun v hv => ?_⟩
          rcases List.mem_cons.1 hv with rfl | hv
          · exact le_max_left _ _
          · exact (hM v hv).trans (le_max_right _ _)
      have := dot_hull_le (w := ⟨1, 0, 0⟩) (k := M) (fun v hv => by simpa [dot] using hM v hv) (hall ⟨M + 1, 0, 0⟩)
      simp [dot] at this
      linarith
    · refine unitNormal_proper ?_
      rw [← (hf f hf').1]; exact hunit f hf'
    · rw [(hf f hf').1]; exact unitNormal_flat _ _ _
    · have : height ⟨ph.vert f.i0, f.norm⟩ p ≤ 0 := by
        rcases (hf f hf').2 p hp with h | h
        · exact h.le
        · rw [neg_zero] at h; exact h.le
      simp only [height] at this
      simp only [dot]; linarith
    · exact (C69_hull le_rfl hg hc e p).1.2 (hull_self hp)

/-- A plane that supports the points carries a face. -/
theorem HullPH.supports {sort} {d : Data (Vec3 ℝ)} {ph : PH ℝ} (e : convexHull3 0 sort d = some ph)
    (hc : ¬ Coplanar {p | p ∈ d.toAddrList}) (H : HullPH d.toAddrList ph) {n : Vec3 ℝ} (h : Supports {p | p ∈ d.toAddrList} n) :
    ∃ f ∈ ph.face, f.norm = n := by
  obtain ⟨hn, a, ha, b, hb, c, hc', hp, eb, ec, hle⟩ := h
  have hg := C69_exact d.toAddrList
  set m : Vec3 ℝ := ⟨(a.x + b.x + c.x) / 3, (a.y + b.y + c.y) / 3, (a.z + b.z + c.z) / 3⟩ with hm
  have hdm : ∀ u : Vec3 ℝ, dot u m = (dot u a + dot u b + dot u c) / 3 := by
    intro u; simp only [dot, hm]; ring
  -- some face plane contains the centre of the triangle
  have hex : ∃ f ∈ ph.face, dot f.norm m = dot f.norm (ph.vert f.i0) := by
    by_contra hno
    push Not at hno
    have hlt : ∀ f ∈ ph.face, dot f.norm m < dot f.norm (ph.vert f.i0) := by
      intro f hf
      refine lt_of_le_of_ne ?_ (hno f hf)
      have h1 := H.below f hf a ha
      have h2 := H.below f hf b hb
      have h3 := H.below f hf c hc'
      rw [hdm]; linarith
    obtain ⟨ε, hε, hall⟩ : ∃ ε : ℝ, 0 < ε ∧ ∀ f ∈ ph.face, dot f.norm m + ε * dot f.norm n ≤ dot f.norm (ph.vert f.i0) := by
      have key : ∀ F : List (Face ℝ), (∀ f ∈ F, dot f.norm m < dot f.norm (ph.vert f.i0)) →
          ∃ ε : ℝ, 0 < ε ∧ ∀ δ, 0 ≤ δ → δ ≤ ε → ∀ f ∈ F, dot f.norm m + δ * dot f.norm n ≤ dot f.norm (ph.vert f.i0) := by
        intro F
        induction F with
        | nil => intro _; exact ⟨1, one_pos, by simp⟩
        | cons f F ih =>
          intro hF
          obtain ⟨ε, hε, h1⟩ := ih fun g hg => hF g (List.mem_cons_of_mem _ hg)
          have h2 := hF f List.mem_cons_self
          set D := dot f.norm (ph.vert f.i0) - dot f.norm m
          have hD : 0 < D := by show 0 < _ - _; linarith
          have hk : 0 < 1 + |dot f.norm n| := by positivity
          refine ⟨min ε (D / (1 + |dot f.norm n|)), lt_min hε (div_pos hD hk), fun δ h0 hδ g hg => ?_⟩
          rcases List.mem_cons.1 hg with rfl | hg
          · have h3 : δ ≤ D / (1 + |dot g.norm n|) := hδ.trans (min_le_right _ _)
            rw [le_div_iff₀ hk] at h3
            have h4 : δ * dot g.norm n ≤ δ * |dot g.norm n| := mul_le_mul_of_nonneg_left (le_abs_self _) h0
            have : D = dot g.norm (ph.vert g.i0) - dot g.norm m := rfl
            nlinarith
          · exact h1 δ h0 (hδ.trans (min_le_left _ _)) g hg
      obtain ⟨ε, hε, h1⟩ := key ph.face hlt
      exact ⟨ε, hε, h1 ε hε.le le_rfl⟩
    have hin : InHull {v | v ∈ d.toAddrList} (m.cat ε n) := by
      rw [(C69_hull le_rfl hg hc e _).2]
      intro f hf
      have := hall f hf
      have e1 : height ⟨ph.vert f.i0, f.norm⟩ (m.cat ε n) = dot f.norm m + ε * dot f.norm n - dot f.norm (ph.vert f.i0) := by
        simp only [height, dot, Vec3.cat]; ring
      rw [e1]; linarith
    have h1 := dot_hull_le (w := n) (k := dot n a) hle hin
    have e1 : dot n (m.cat ε n) = dot n m + ε * dot n n := by simp only [dot, Vec3.cat]; ring
    rw [e1, hdm, eb, ec, hn] at h1
    linarith
  obtain ⟨f, hf, h0⟩ := hex
  refine ⟨f, hf, ?_⟩
  have ha' := H.below f hf a ha
  have hb' := H.below f hf b hb
  have hc'' := H.below f hf c hc'
  rw [hdm] at h0
  have fb : dot f.norm b = dot f.norm a := by linarith
  have fc : dot f.norm c = dot f.norm a := by linarith
  have fa : dot f.norm a = dot f.norm (ph.vert f.i0) := by linarith
  -- both normal vectors are parallel to that of the triangle
  set N := triNormal (a, b, c) with hN
  have par : ∀ u : Vec3 ℝ, dot u b = dot u a → dot u c = dot u a → dot u u = 1 →
      ∃ k : ℝ, u = ⟨k * N.x, k * N.y, k * N.z⟩ := by
    intro u h1 h2 h3
    refine ⟨dot u N / dot N N, ?_⟩
    have hNN : dot N N ≠ 0 := (dot_pos hp).ne'
    have e1 : dot u (b.sub a) = 0 := by rw [dot_sub]; linarith
    have e2 : dot u (c.sub a) = 0 := by rw [dot_sub]; linarith
    have c1 : crossP u N = .zero := by
      have : crossP u N = ⟨(b.sub a).x * dot u (c.sub a) - (c.sub a).x * dot u (b.sub a),
          (b.sub a).y * dot u (c.sub a) - (c.sub a).y * dot u (b.sub a),
          (b.sub a).z * dot u (c.sub a) - (c.sub a).z * dot u (b.sub a)⟩ := by
        simp only [crossP, hN, triNormal, dot, Vec3.sub]
        ext <;> simp only <;> ring
      rw [this, e1, e2]
      simp [Vec3.zero]
    have cx : u.y * N.z - u.z * N.y = 0 := congrArg Vec3.x c1
    have cy : u.z * N.x - u.x * N.z = 0 := congrArg Vec3.y c1
    have cz : u.x * N.y - u.y * N.x = 0 := congrArg Vec3.z c1
    ext
    · simp only; rw [div_mul_eq_mul_div, eq_div_iff hNN]; simp only [dot]
      linear_combination N.y * cz - N.z * cy
    · simp only; rw [div_mul_eq_mul_div, eq_div_iff hNN]; simp only [dot]
      linear_combination N.z * cx - N.x * cz
    · simp only; rw [div_mul_eq_mul_div, eq_div_iff hNN]; simp only [dot]
      linear_combination N.x * cy - N.y * cx
  obtain ⟨k, hk⟩ := par n eb ec hn
  obtain ⟨j, hj⟩ := par f.norm fb fc (H.unit f hf)
  have hkk : k ^ 2 * dot N N = 1 := by rw [hk] at hn; simp only [dot] at hn ⊢; linarith
  have hjj : j ^ 2 * dot N N = 1 := by have := H.unit f hf; rw [hj] at this; simp only [dot] at this ⊢; linarith
  have hNN : 0 < dot N N := dot_pos hp
  have hsq : k ^ 2 = j ^ 2 := by
    have : (k ^ 2 - j ^ 2) * dot N N = 0 := by linarith
    have := (mul_eq_zero.1 this).resolve_right hNN.ne'
    linarith
  rcases sq_eq_sq_iff_eq_or_eq_neg.1 hsq with hkj | hkj
  · rw [hk, hj, hkj]
  · exfalso
    -- the data would lie in the plane
    apply hc
    refine ⟨n, fun h0 => ?_, dot n a, fun p hp' => le_antisymm (hle p hp') ?_⟩
    · rw [h0] at hn; simp [dot, Vec3.zero] at hn
    · have := H.below f hf p hp'
      rw [← fa] at this
      have e1 : ∀ q, dot n q = - dot f.norm q := by
        intro q; rw [hk, hj, hkj]; simp only [dot]; ring
      rw [e1, e1]; linarith

end
end Zeo.OBB
