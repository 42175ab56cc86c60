import Verif.Lemmas.OBB
import Verif.Lemmas.OBBGeom

/-! # Lemmas for C70: the rectangle -/

namespace Zeo.OBB
open Spec Caliper Hull2D C63 QHMesh QHGeom
noncomputable section
open Classical

theorem toAddr (l : List (Vec3 ℝ)) : (Data.assignArray l).toAddrList = l := by
  have hwf : (Data.assignArray l).WF := ⟨le_rfl, Nat.zero_le _⟩
  have : (Data.assignArray l).toAddrList = (Data.assignArray l).contents := by
    unfold Data.toAddrList
    rw [(hwf.forEach _ _).1]
    simpa using Data.foldl_append (fun v : Vec3 ℝ => v) (Data.assignArray l).contents []
  rw [this]
  simp [Data.assignArray, Data.contents]

theorem dot_comm (a b : Vec3 ℝ) : dot a b = dot b a := by simp only [dot]; ring

theorem dot_flatten {u z : Vec3 ℝ} (hu : dot u z = 0) (c v : Vec3 ℝ) : dot u (flatten c z v) = dot u v - dot u c := by
  have : dot u (flatten c z v) = dot u v - dot u c - dot z (v.sub c) * dot u z := by
    simp only [flatten, Plane3.projPoint, Plane3.distFromPoint, dot, Vec3.sub, Vec3.cat, Vec3.inner]; ring
  rw [this, hu]; ring

theorem dotz_flatten {z : Vec3 ℝ} (hz : dot z z = 1) (c v : Vec3 ℝ) : dot z (flatten c z v) = 0 := by
  have : dot z (flatten c z v) = dot z (v.sub c) - dot z (v.sub c) * dot z z := by
    simp only [flatten, Plane3.projPoint, Plane3.distFromPoint, dot, Vec3.sub, Vec3.cat, Vec3.inner]; ring
  rw [this, hz]; ring

/-- Two corners in a supporting line are the ends of an edge. -/
theorem flush_edge {w n : Vec3 ℝ} {c : List (Vec3 ℝ)} (h : ConvexLoop w c) (hf : Flush c n)
    {r0 : Vec3 ℝ} (hr : r0 ∈ c) (hlt : ∀ p ∈ c, (∀ r ∈ c, dot n r ≤ dot n p) → dot n r0 < dot n p) :
    ∃ e ∈ Spec.edges c, dot n (e.1.sub e.2) = 0 := by
  obtain ⟨p, hp, q, hq, hpq, heq, hmax⟩ := hf
  set m : Vec3 ℝ := ⟨1 / 2 * p.x + 1 / 2 * q.x, 1 / 2 * p.y + 1 / 2 * q.y, 1 / 2 * p.z + 1 / 2 * q.z⟩ with hm
  have hmh : InHull {v | v ∈ c} m := by
    have := hull_conv (S := {v | v ∈ c}) (hull_self hp) (hull_self hq) (a := 1 / 2) (b := 1 / 2) (by norm_num) (by norm_num) (by norm_num)
    rw [show m = comb (1 / 2) (1 / 2) 0 0 p q p p by simp only [hm, comb]; ext <;> simp only <;> ring]
    exact this
  have hmi := (hull_iff h m).1 hmh
  have hnm : dot n m = dot n p := by
    have : dot n m = 1 / 2 * dot n p + 1 / 2 * dot n q := by simp only [hm, dot]; ring
    rw [this, ← heq]; ring
  by_cases hex : ∃ e ∈ Spec.edges c, det3 w (e.2.sub e.1) (m.sub e.1) = 0
  · obtain ⟨e, he, h0⟩ := hex
    obtain ⟨m1, m2, hne⟩ := edges_mem h he
    have kp := h.order e he p hp
    have kq := h.order e he q hq
    have hsum : det3 w (e.2.sub e.1) (m.sub e.1) = 1 / 2 * det3 w (e.2.sub e.1) (p.sub e.1) +
        1 / 2 * det3 w (e.2.sub e.1) (q.sub e.1) := by
      simp only [hm, det3, Vec3.sub]; ring
    have zp : det3 w (e.2.sub e.1) (p.sub e.1) = 0 := by linarith
    have zq : det3 w (e.2.sub e.1) (q.sub e.1) = 0 := by linarith
    have cp : p = e.1 ∨ p = e.2 := by
      by_contra hc
      push Not at hc
      exact strict h m1 m2 hp hne (Ne.symm hc.1) (Ne.symm hc.2) zp
    have cq : q = e.1 ∨ q = e.2 := by
      by_contra hc
      push Not at hc
      exact strict h m1 m2 hq hne (Ne.symm hc.1) (Ne.symm hc.2) zq
    refine ⟨e, he, ?_⟩
    rw [dot_sub]
    rcases cp with rfl | rfl <;> rcases cq with rfl | rfl
    · exact absurd rfl hpq
    · linarith
    · linarith
    · exact absurd rfl hpq
  · push Not at hex
    exfalso
    have hneg : ∀ e ∈ Spec.edges c, det3 w (e.2.sub e.1) (m.sub e.1) < 0 := fun e he =>
      lt_of_le_of_ne (hmi.2 e he) (hex e he)
    -- a step away from `r0`
    have hstep : ∃ ε > 0, ∀ e ∈ Spec.edges c, det3 w (e.2.sub e.1) (m.sub e.1) +
        ε * (det3 w (e.2.sub e.1) (m.sub e.1) - det3 w (e.2.sub e.1) (r0.sub e.1)) ≤ 0 := by
      have aux : ∀ L : List (Vec3 ℝ × Vec3 ℝ), (∀ e ∈ L, det3 w (e.2.sub e.1) (m.sub e.1) < 0) →
          ∃ ε > 0, ∀ e ∈ L, det3 w (e.2.sub e.1) (m.sub e.1) +
            ε * (det3 w (e.2.sub e.1) (m.sub e.1) - det3 w (e.2.sub e.1) (r0.sub e.1)) ≤ 0 := by
        intro L
        induction L with
        | nil => exact fun _ => ⟨1, one_pos, by simp⟩
        | cons a L ih =>
          intro hL
          obtain ⟨ε, hε, h1⟩ := ih fun e he => hL e (List.mem_cons_of_mem _ he)
          have ha := hL a List.mem_cons_self
          set A := det3 w (a.2.sub a.1) (m.sub a.1)
          set B := A - det3 w (a.2.sub a.1) (r0.sub a.1) with hB
          have hb : 0 < -A / (1 + |B|) := div_pos (by linarith) (by positivity)
          refine ⟨min ε (-A / (1 + |B|)), lt_min hε hb, fun e he => ?_⟩
          rcases List.mem_cons.1 he with rfl | he
          · show A + _ * B ≤ 0
            have k1 : min ε (-A / (1 + |B|)) * B ≤ (-A / (1 + |B|)) * |B| :=
              (mul_le_mul_of_nonneg_left (le_abs_self B) (lt_min hε hb).le).trans
                (mul_le_mul_of_nonneg_right (min_le_right _ _) (abs_nonneg B))
            have k2 : (-A / (1 + |B|)) * |B| ≤ -A := by
              rw [div_mul_eq_mul_div, div_le_iff₀ (by positivity)]
              nlinarith [abs_nonneg B]
            linarith
          · have := h1 e he
            have hA := hL e (List.mem_cons_of_mem _ he)
            have k1 := min_le_left ε (-A / (1 + |B|))
            have k2 := (lt_min hε hb).le
            rcases le_total 0 (det3 w (e.2.sub e.1) (m.sub e.1) - det3 w (e.2.sub e.1) (r0.sub e.1)) with h2 | h2
            · nlinarith
            · nlinarith
      exact aux _ hneg
    obtain ⟨ε, hε, hall⟩ := hstep
    set y : Vec3 ℝ := ⟨m.x + ε * (m.x - r0.x), m.y + ε * (m.y - r0.y), m.z + ε * (m.z - r0.z)⟩ with hy
    have hyh : InHull {v | v ∈ c} y := by
      refine (hull_iff h y).2 ⟨fun v hv => ?_, fun e he => ?_⟩
      · have h1 := hmi.1 v hv
        have h2 := h.plane r0 hr v hv
        have : dot w (y.sub v) = dot w (m.sub v) + ε * (dot w (m.sub v) - dot w (r0.sub v)) := by
          simp only [hy, dot, Vec3.sub]; ring
        rw [this, h1, h2]; ring
      · have : det3 w (e.2.sub e.1) (y.sub e.1) = det3 w (e.2.sub e.1) (m.sub e.1) +
            ε * (det3 w (e.2.sub e.1) (m.sub e.1) - det3 w (e.2.sub e.1) (r0.sub e.1)) := by
          simp only [hy, det3, Vec3.sub]; ring
        rw [this]; exact hall e he
    have h1 := dot_hull_le (w := n) (k := dot n p) (fun v hv => hmax v hv) hyh
    have h2 : dot n y = dot n m + ε * (dot n m - dot n r0) := by simp only [hy, dot]; ring
    have h3 := hlt p hp hmax
    rw [h2, hnm] at h1
    nlinarith

/-- What is known about the rim of the shadow of the points on the plane of a face. -/
structure RimOf (l : List (Vec3 ℝ)) (z c : Vec3 ℝ) (w : Vec3 ℝ) (rim : List (Vec3 ℝ)) : Prop where
  unit : dot z z = 1
  loop : ConvexLoop w rim
  plane : ∀ q ∈ rim, dot z q = 0
  top : ∀ u, dot u z = 0 → ∀ h : rim ≠ [], (∀ p ∈ l, dot u p - dot u c ≤ hi rim h u) ∧ ∃ p ∈ l, dot u p - dot u c = hi rim h u
  wide : ∀ u, dot u z = 0 → dot u u = 1 → ∃ p ∈ l, ∃ q ∈ l, dot u p ≠ dot u q

theorem rimOf {sort} (hs : IsSort sort) {l : List (Vec3 ℝ)} {ph : PH ℝ} (H : HullPH l ph) {b : Face ℝ} (hb : b ∈ ph.face) (c : Vec3 ℝ) :
    ∃ rim w, Hull2D.hull 0 sort (Data.assignArray ((List.range ph.nv).map fun i => flatten c b.norm (ph.vert i))) = some rim ∧
      RimOf l b.norm c w rim := by
  have hu := H.unit b hb
  obtain ⟨i0, i1, i2⟩ := H.valid b hb
  have hfl := H.flat b hb
  have hpr := H.proper b hb
  generalize b.norm = z at hu hfl ⊢
  have hwide : ∀ u, dot u z = 0 → dot u u = 1 → dot u (ph.vert b.i1) = dot u (ph.vert b.i0) →
      dot u (ph.vert b.i2) = dot u (ph.vert b.i0) → False := by
    intro u h1 h2 h3 h4
    have p1 := par_cross hpr (cross_normal h3 h4)
    have p2 := par_cross hpr (cross_normal hfl.1 hfl.2)
    set N := triNormal (ph.vert b.i0, ph.vert b.i1, ph.vert b.i2) with hN
    have hNN : 0 < dot N N := dot_pos hpr
    have e1 : dot u z = (dot u N / dot N N) * (dot z N / dot N N) * dot N N := by
      conv_lhs => rw [p1, p2]
      simp only [dot]; ring
    have e2 : dot u u = (dot u N / dot N N) * (dot u N / dot N N) * dot N N := by
      conv_lhs => rw [p1]
      simp only [dot]; ring
    have e3 : dot z z = (dot z N / dot N N) * (dot z N / dot N N) * dot N N := by
      conv_lhs => rw [p2]
      simp only [dot]; ring
    rw [h1] at e1
    rcases mul_eq_zero.1 e1.symm with h | h
    · rcases mul_eq_zero.1 h with h | h
      · rw [h, h2] at e2; norm_num at e2
      · rw [h, hu] at e3; norm_num at e3
    · exact hNN.ne' h
  set P := (List.range ph.nv).map fun i => flatten c z (ph.vert i) with hP
  have hPm : ∀ q, q ∈ P ↔ ∃ i < ph.nv, q = flatten c z (ph.vert i) := by
    intro q
    simp only [hP, List.mem_map, List.mem_range]
    constructor
    · rintro ⟨i, h, rfl⟩; exact ⟨i, h, rfl⟩
    · rintro ⟨i, h, rfl⟩; exact ⟨i, h, rfl⟩
  have hcop : Coplanar {p | p ∈ (Data.assignArray P).toAddrList} := by
    rw [toAddr]
    refine ⟨z, ?_, 0, fun p hp => ?_⟩
    · intro h0; rw [h0] at hu; simp [dot, Vec3.zero] at hu
    · obtain ⟨i, -, rfl⟩ := (hPm p).1 hp
      exact dotz_flatten hu c _
  have hncol : ¬ Collinear {p | p ∈ (Data.assignArray P).toAddrList} := by
    rw [toAddr]
    rintro ⟨o, dd, hcol⟩
    -- a unit vector in the plane, orthogonal to the line
    have hex : ∃ u, dot u z = 0 ∧ dot u u = 1 ∧ dot u dd = 0 := by
      by_cases h0 : crossP z dd = .zero
      · -- any unit vector in the plane
        obtain ⟨a, ha⟩ : ∃ a, crossP z a ≠ .zero := by
          by_contra hc
          push Not at hc
          have a1 := hc ⟨1, 0, 0⟩
          have a2 := hc ⟨0, 1, 0⟩
          simp only [crossP, Vec3.zero, Vec3.mk.injEq] at a1 a2
          have : dot z z = 0 := by simp only [dot]; nlinarith
          rw [hu] at this; norm_num at this
        refine ⟨unitV (crossP z a), ?_, unitV_unit ha, ?_⟩
        · rw [dot_unit]
          have : dot (crossP z a) z = 0 := by simp only [dot, crossP]; ring
          rw [this]; simp
        · rw [dot_unit]
          have : dot (crossP z a) dd = -dot (crossP z dd) a := by simp only [dot, crossP]; ring
          rw [this, h0]; simp [dot, Vec3.zero]
      · refine ⟨unitV (crossP z dd), ?_, unitV_unit h0, ?_⟩
        · rw [dot_unit]
          have : dot (crossP z dd) z = 0 := by simp only [dot, crossP]; ring
          rw [this]; simp
        · rw [dot_unit]
          have : dot (crossP z dd) dd = 0 := by simp only [dot, crossP]; ring
          rw [this]; simp
    obtain ⟨u, u1, u2, u3⟩ := hex
    have key : ∀ i < ph.nv, dot u (ph.vert i) - dot u c = dot u o := by
      intro i hi
      obtain ⟨k, hk⟩ := hcol _ ((hPm _).2 ⟨i, hi, rfl⟩)
      rw [← dot_flatten u1, hk]
      have : dot u ⟨o.x + k * dd.x, o.y + k * dd.y, o.z + k * dd.z⟩ = dot u o + k * dot u dd := by simp only [dot]; ring
      rw [this, u3]; ring
    exact hwide u u1 u2 (by linarith [key _ i0, key _ i1]) (by linarith [key _ i0, key _ i2])
  obtain ⟨rim, e1, hnd, hlen, hext, hhull, -⟩ := C63_exact hs _ hcop hncol
  obtain ⟨rim', w, e2, hcl⟩ := C63_convexLoop hs _ hcop hncol
  obtain rfl := Option.some.inj (e1.symm.trans e2)
  have hmem : ∀ q ∈ rim, ∃ i < ph.nv, q = flatten c z (ph.vert i) := by
    intro q hq
    have := ((hext q).1 hq).1
    rw [toAddr] at this
    exact (hPm q).1 this
  refine ⟨rim, w, e1, hu, hcl, fun q hq => ?_, fun u h1 hne => ⟨fun p hp => ?_, ?_⟩, fun u h1 h2 => ?_⟩
  · obtain ⟨i, -, rfl⟩ := hmem q hq
    exact dotz_flatten hu c _
  · have := dot_hull_le (w := u) (k := hi rim hne u + dot u c) (fun v hv => ?_) (H.hull p hp)
    · linarith
    · obtain ⟨i, hi', rfl⟩ := hv
      have hin : InHull {p | p ∈ rim} (flatten c z (ph.vert i)) := by
        rw [hhull, toAddr]
        exact hull_self ((hPm _).2 ⟨i, hi', rfl⟩)
      have := dot_hull_le (w := u) (k := hi rim hne u) (fun v hv => le_hi hv) hin
      rw [dot_flatten h1] at this
      linarith
  · obtain ⟨q, hq, e⟩ := hi_mem (h := hne) u
    obtain ⟨i, hi', rfl⟩ := hmem q hq
    exact ⟨_, H.sub i hi', by rw [e, dot_flatten h1]⟩
  · by_contra hc
    push Not at hc
    exact hwide u h1 h2 (hc _ (H.sub _ i1) _ (H.sub _ i0)) (hc _ (H.sub _ i2) _ (H.sub _ i0))

theorem range_hi {t : Vec3 ℝ} {rim : List (Vec3 ℝ)} (ht : t ∈ rim) (h : rim ≠ []) (d : Vec3 ℝ) :
    range d t rim = (-hi rim h (lc (-1) d 0 d), hi rim h d) := by
  obtain ⟨a, ha, b, hb, hab, e⟩ := range_spec ht (d := d)
  rw [e, hi_eq hb fun q hq => (hab q hq).2, hi_eq ha fun q hq => ?_, dot_lc]
  · congr 1; ring
  · rw [dot_lc, dot_lc]
    have := (hab q hq).1
    linarith

section
variable {l rim : List (Vec3 ℝ)} {z c w : Vec3 ℝ}

theorem RimOf.ne (R : RimOf l z c w rim) : rim ≠ [] := by
  intro h0
  have := R.loop.len
  rw [h0] at this
  simp at this

theorem cross_unit {u : Vec3 ℝ} (hz : dot z z = 1) (hu : dot u u = 1) (h : dot u z = 0) :
    dot (crossP z u) (crossP z u) = 1 ∧ dot (crossP z u) z = 0 ∧ dot (crossP z u) u = 0 := by
  refine ⟨?_, by simp only [dot, crossP]; ring, by simp only [dot, crossP]; ring⟩
  have : dot (crossP z u) (crossP z u) = dot z z * dot u u - dot u z ^ 2 := by simp only [dot, crossP]; ring
  rw [this, hz, hu, h]; norm_num

/-- The axes of the rectangle along an edge. -/
theorem RimOf.axes (R : RimOf l z c w rim) {e : Vec3 ℝ × Vec3 ℝ} (he : e ∈ Spec.edges rim) (t : Vec3 ℝ) :
    (rectOf 0 z t rim e).d1 = unitV (e.1.sub e.2) ∧ dot (unitV (e.1.sub e.2)) (unitV (e.1.sub e.2)) = 1 ∧
      dot (unitV (e.1.sub e.2)) z = 0 ∧ (rectOf 0 z t rim e).d2 = crossP z (unitV (e.1.sub e.2)) := by
  obtain ⟨m1, m2, hne⟩ := edges_mem R.loop he
  set v := e.1.sub e.2 with hv
  have hv0 : v ≠ .zero := by
    intro h0
    apply hne
    have hx := congrArg Vec3.x h0
    have hy := congrArg Vec3.y h0
    have hz' := congrArg Vec3.z h0
    simp only [hv, Vec3.sub, Vec3.zero] at hx hy hz'
    ext <;> linarith
  have hvz : dot z v = 0 := by rw [hv, dot_sub, R.plane _ m1, R.plane _ m2]; ring
  have hvv := dot_pos hv0
  have hcc : dot (crossP z v) (crossP z v) = dot v v := by
    have : dot (crossP z v) (crossP z v) = dot z z * dot v v - dot z v ^ 2 := by simp only [dot, crossP]; ring
    rw [this, R.unit, hvz]; ring
  have hc0 : crossP z v ≠ .zero := by
    intro h0; rw [h0] at hcc
    have : dot (Vec3.zero : Vec3 ℝ) .zero = 0 := by simp [dot, Vec3.zero]
    rw [this] at hcc; linarith
  refine ⟨?_, unitV_unit hv0, ?_, ?_⟩
  · show (v.normalize 0 v).2 = _
    rw [normalize_zero hv0]
  · rw [dot_unit, dot_comm, hvz]; simp
  · show ((crossP z v).normalize 0 (crossP z v)).2 = _
    rw [normalize_zero hc0]
    have hs : (crossP z v).x ^ 2 + (crossP z v).y ^ 2 + (crossP z v).z ^ 2 = v.x ^ 2 + v.y ^ 2 + v.z ^ 2 := by
      have := hcc
      simp only [dot] at this
      linarith
    unfold unitV
    rw [hs]
    simp only [crossP]
    ext <;> simp only <;> ring

theorem RimOf.lengths (R : RimOf l z c w rim) {t : Vec3 ℝ} (ht : t ∈ rim) (e : Vec3 ℝ × Vec3 ℝ) :
    (rectOf 0 z t rim e).l1 = wd rim R.ne (rectOf 0 z t rim e).d1 ∧
      (rectOf 0 z t rim e).l2 = wd rim R.ne (rectOf 0 z t rim e).d2 := by
  constructor
  · show (range (rectOf 0 z t rim e).d1 t rim).2 - (range (rectOf 0 z t rim e).d1 t rim).1 = _
    rw [range_hi ht R.ne, wd]; ring
  · show (range (rectOf 0 z t rim e).d2 t rim).2 - (range (rectOf 0 z t rim e).d2 t rim).1 = _
    rw [range_hi ht R.ne, wd]; ring

/-- The points in a direction of the plane. -/
theorem RimOf.bottom (R : RimOf l z c w rim) {u : Vec3 ℝ} (hu : dot u z = 0) :
    (∀ p ∈ l, -hi rim R.ne (lc (-1) u 0 u) ≤ dot u p - dot u c) ∧ ∃ p ∈ l, dot u p - dot u c = -hi rim R.ne (lc (-1) u 0 u) := by
  obtain ⟨h1, p, hp, h2⟩ := R.top (lc (-1) u 0 u) (by rw [dot_lc, hu]; ring) R.ne
  refine ⟨fun q hq => ?_, p, hp, ?_⟩
  · have := h1 q hq
    rw [dot_lc, dot_lc] at this
    linarith
  · rw [dot_lc, dot_lc] at h2
    linarith

theorem RimOf.width (R : RimOf l z c w rim) {u : Vec3 ℝ} (hu : dot u z = 0) : Width {p | p ∈ l} u (wd rim R.ne u) := by
  obtain ⟨h1, b, hb, h2⟩ := R.top u hu R.ne
  obtain ⟨h3, a, ha, h4⟩ := R.bottom hu
  refine ⟨a, ha, b, hb, fun p hp => ⟨?_, ?_⟩, ?_⟩
  · linarith [h3 p hp]
  · linarith [h1 p hp]
  · unfold wd; linarith

theorem width_unique {S : Set (Vec3 ℝ)} {u : Vec3 ℝ} {w1 w2 : ℝ} (h1 : Width S u w1) (h2 : Width S u w2) : w1 = w2 := by
  obtain ⟨a, ha, b, hb, h, rfl⟩ := h1
  obtain ⟨a', ha', b', hb', h', rfl⟩ := h2
  linarith [(h a' ha').1, (h b' hb').2, (h' a ha).1, (h' b hb).2]

theorem RimOf.pos (R : RimOf l z c w rim) {u : Vec3 ℝ} (hu : dot u z = 0) (h1 : dot u u = 1) : 0 < wd rim R.ne u := by
  refine lt_of_le_of_ne (wd_nonneg u) fun e => ?_
  obtain ⟨a, ha, b, hb, h, h0⟩ := R.width hu
  rw [← e] at h0
  obtain ⟨p, hp, q, hq, hpq⟩ := R.wide u hu h1
  apply hpq
  linarith [(h p hp).1, (h p hp).2, (h q hq).1, (h q hq).2]

/-- A tight box along an axis of the plane. -/
theorem RimOf.tight (R : RimOf l z c w rim) {u m : Vec3 ℝ} (hu : dot u z = 0)
    (hm : dot u m = 1 / 2 * (hi rim R.ne u - hi rim R.ne (lc (-1) u 0 u))) :
    Tight {p | p ∈ l} (c.add m) u (wd rim R.ne u) := by
  have e : ∀ p, dot u (p.sub (c.add m)) = dot u p - dot u c - dot u m := by
    intro p; simp only [dot, Vec3.sub, Vec3.add]; ring
  obtain ⟨h1, b, hb, h2⟩ := R.top u hu R.ne
  obtain ⟨h3, a, ha, h4⟩ := R.bottom hu
  refine ⟨fun p hp => ?_, ⟨b, hb, ?_⟩, a, ha, ?_⟩
  · rw [e, hm, abs_le]
    have := h1 p hp
    have := h3 p hp
    unfold wd
    constructor <;> linarith
  · rw [e, hm, h2]; unfold wd; ring
  · rw [e, hm, h4]; unfold wd; ring

/-- Along one of the edges the rectangle is no larger than along any direction of the plane. -/
theorem RimOf.best (R : RimOf l z c w rim) {u : Vec3 ℝ} (hu : dot u z = 0) (h1 : dot u u = 1) {t : Vec3 ℝ} (ht : t ∈ rim) :
    ∃ e ∈ Spec.edges rim, (rectOf 0 z t rim e).l1 * (rectOf 0 z t rim e).l2 ≤ wd rim R.ne u * wd rim R.ne (crossP z u) := by
  obtain ⟨v1, v2, v3⟩ := cross_unit R.unit h1 hu
  set v := crossP z u with hv
  have hzu : dot z u = 0 := by rw [dot_comm]; exact hu
  have hlc : ∀ x y : ℝ, x ^ 2 + y ^ 2 = 1 → dot (lc x u y v) z = 0 ∧ dot (lc x u y v) (lc x u y v) = 1 := by
    intro x y hxy
    refine ⟨by rw [dot_lc, hu, v2]; ring, ?_⟩
    have : dot (lc x u y v) (lc x u y v) = x ^ 2 * dot u u + 2 * x * y * dot v u + y ^ 2 * dot v v := by
      simp only [dot, lc]; ring
    rw [this, h1, v1, v3]; linarith
  obtain ⟨x, y, hxy, hle, hfl⟩ := caliper rim R.ne u v fun x y h => R.pos (hlc x y h).1 (hlc x y h).2
  have hxy' : (-y) ^ 2 + x ^ 2 = 1 := by linarith
  have hzv : crossP z v = lc (-1) u 0 u := by
    have : crossP z v = ⟨z.x * dot z u - u.x * dot z z, z.y * dot z u - u.y * dot z z, z.z * dot z u - u.z * dot z z⟩ := by
      simp only [hv, crossP, dot]; ext <;> simp only <;> ring
    rw [this, hzu, R.unit]; simp only [lc]; ext <;> simp only <;> ring
  have hcr : ∀ a b : ℝ, crossP z (lc a u b v) = lc (-b) u a v := by
    intro a b
    have h0 : crossP z (lc a u b v) = lc a (crossP z u) b (crossP z v) := by
      simp only [crossP, lc]; ext <;> simp only <;> ring
    rw [h0, hzv, ← hv]; simp only [lc]; ext <;> simp only <;> ring
  set U := lc x u y v with hU
  set V := lc (-y) u x v with hV
  have hneg : ∀ n : Vec3 ℝ, wd rim R.ne (lc (-1) n 0 n) = wd rim R.ne n := by
    intro n; rw [wd_smul]; simp
  -- an edge along one of the directions
  have main : ∀ n : Vec3 ℝ, dot n z = 0 → dot n n = 1 → Flush rim n → ∃ e ∈ Spec.edges rim,
      (rectOf 0 z t rim e).l1 * (rectOf 0 z t rim e).l2 = wd rim R.ne n * wd rim R.ne (crossP z n) := by
    intro n hn hnn hf
    have hpos := R.pos hn hnn
    obtain ⟨r0, hr0, er0⟩ := hi_mem (h := R.ne) (lc (-1) n 0 n)
    obtain ⟨e, he, h0⟩ := flush_edge R.loop hf hr0 fun p hp hmax => by
      have := hi_eq (h := R.ne) hp hmax
      unfold wd at hpos
      rw [er0, this, dot_lc] at hpos
      linarith
    obtain ⟨a1, a2, a3, a4⟩ := R.axes he t
    obtain ⟨b1, b2⟩ := R.lengths ht e
    have hdn : dot (unitV (e.1.sub e.2)) n = 0 := by rw [dot_unit, dot_comm, h0]; simp
    have hnz' : dot z n = 0 := by rw [dot_comm]; exact hn
    refine ⟨e, he, ?_⟩
    rw [b1, b2, a1, a4]
    have hzz : crossP z (crossP z n) = lc (-1) n 0 n := by
      have : crossP z (crossP z n) = ⟨z.x * dot z n - n.x * dot z z, z.y * dot z n - n.y * dot z z, z.z * dot z n - n.z * dot z z⟩ := by
        simp only [crossP, dot]; ext <;> simp only <;> ring
      rw [this, hnz', R.unit]; simp only [lc]; ext <;> simp only <;> ring
    rcases unit_orth a2 hnn R.unit hnz' hdn a3 with h | h
    · rw [h, hzz, hneg]; ring
    · rw [h, hneg]
      have : crossP z (lc (-1) (crossP z n) 0 (crossP z n)) = lc (-1) (crossP z (crossP z n)) 0 (crossP z (crossP z n)) := by
        simp only [crossP, lc]; ext <;> simp only <;> ring
      rw [this, hneg, hzz, hneg]; ring
  have harea : area rim R.ne u v x y = wd rim R.ne U * wd rim R.ne V := rfl
  have harea1 : area rim R.ne u v 1 0 = wd rim R.ne u * wd rim R.ne v := by
    show wd rim R.ne (lc 1 u 0 v) * wd rim R.ne (lc (-0) u 1 v) = _
    congr 2
    · simp only [lc]; ext <;> simp only <;> ring
    · simp only [lc]; ext <;> simp only <;> ring
  have hUz := hlc x y hxy
  have hVz := hlc (-y) x hxy'
  have hcU : crossP z U = V := hcr x y
  have hcV : crossP z V = lc (-1) U 0 U := by
    rw [hV, hcr]; simp only [lc, hU]; ext <;> simp only <;> ring
  have hnegz : ∀ n : Vec3 ℝ, dot n z = 0 → dot n n = 1 → dot (lc (-1) n 0 n) z = 0 ∧
      dot (lc (-1) n 0 n) (lc (-1) n 0 n) = 1 := by
    intro n h2 h3
    refine ⟨by rw [dot_lc, h2]; ring, ?_⟩
    have : dot (lc (-1) n 0 n) (lc (-1) n 0 n) = dot n n := by simp only [dot, lc]; ring
    rw [this, h3]
  have hcneg : ∀ n : Vec3 ℝ, crossP z (lc (-1) n 0 n) = lc (-1) (crossP z n) 0 (crossP z n) := by
    intro n; simp only [crossP, lc]; ext <;> simp only <;> ring
  have fin : ∃ e ∈ Spec.edges rim, (rectOf 0 z t rim e).l1 * (rectOf 0 z t rim e).l2 = wd rim R.ne U * wd rim R.ne V := by
    rcases hfl with h | h | h | h
    · obtain ⟨e, he, h2⟩ := main U hUz.1 hUz.2 h
      exact ⟨e, he, by rw [h2, hcU]⟩
    · obtain ⟨e, he, h2⟩ := main _ (hnegz U hUz.1 hUz.2).1 (hnegz U hUz.1 hUz.2).2 h
      exact ⟨e, he, by rw [h2, hcneg, hneg, hneg, hcU]⟩
    · obtain ⟨e, he, h2⟩ := main V hVz.1 hVz.2 h
      exact ⟨e, he, by rw [h2, hcV, hneg]; ring⟩
    · obtain ⟨e, he, h2⟩ := main _ (hnegz V hVz.1 hVz.2).1 (hnegz V hVz.1 hVz.2).2 h
      exact ⟨e, he, by rw [h2, hcneg, hneg, hneg, hcV, hneg]; ring⟩
  obtain ⟨e, he, h2⟩ := fin
  exact ⟨e, he, by rw [h2, ← harea, ← harea1]; exact hle⟩

end

end
end Zeo.OBB
