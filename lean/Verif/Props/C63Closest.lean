import Verif.Props.C63
import Verif.Props.C19

/-! # C63: the polyhedron of a planar convex hull, and its closest point -/

namespace Zeo
noncomputable section
open Classical

/-- The edges of the closed loop, beginning with the one that ends at the first vertex. -/
def Spec.edges (c : List (Vec3 ℝ)) : List (Vec3 ℝ × Vec3 ℝ) :=
  match c.getLast? with
  | none => []
  | some z => (z :: c).zip c

/-- A convex polygon in a plane with normal `w`, given by its corners in clockwise order. -/
structure Spec.ConvexLoop (w : Vec3 ℝ) (c : List (Vec3 ℝ)) : Prop where
  len : 3 ≤ c.length
  ne : w ≠ .zero
  plane : ∀ p ∈ c, ∀ q ∈ c, Spec.dot w (p.sub q) = 0
  nodup : c.Nodup
  ext : ∀ v ∈ c, ¬ Spec.InHull {q | q ∈ c ∧ q ≠ v} v
  order : ∀ e ∈ Spec.edges c, ∀ q ∈ c, Spec.det3 w (e.2.sub e.1) (q.sub e.1) ≤ 0

private theorem zip_of_chain {R : Vec3 ℝ → Vec3 ℝ → Prop} : ∀ (c : List (Vec3 ℝ)) (z : Vec3 ℝ), List.IsChain R (z :: c) →
    ∀ e ∈ (z :: c).zip c, R e.1 e.2
  | [], _, _, e, he => by simp at he
  | a :: c, z, h, e, he => by
    rw [List.isChain_cons_cons] at h
    rw [List.zip_cons_cons, List.mem_cons] at he
    rcases he with rfl | he
    · exact h.1
    · exact zip_of_chain c a h.2 e he

private theorem edges_of_chain {R : Vec3 ℝ → Vec3 ℝ → Prop} {c : List (Vec3 ℝ)} (h : List.IsChain R (c ++ c.take 1)) :
    ∀ e ∈ Spec.edges c, R e.1 e.2 := by
  unfold Spec.edges
  rcases List.eq_nil_or_concat c with rfl | ⟨i, z, rfl⟩
  · simp
  · simp only [List.concat_eq_append, List.getLast?_append, List.getLast?_singleton, Option.or_some] at h ⊢
    apply zip_of_chain
    rw [List.append_assoc, List.singleton_append] at h
    cases i with
    | nil => simpa using h
    | cons a i =>
      have h2 : (a :: i ++ [z]).take 1 = [a] := by simp
      rw [h2] at h
      rw [List.isChain_split] at h
      simp only [List.cons_append, List.isChain_cons_cons] at h ⊢
      exact ⟨h.2.1, h.1⟩

/-- **C63 (the loop is a convex polygon).** What `zVec3DDataConvexHull2D` returns, with zero tolerance, for points of
a plane not all on a line. -/
theorem C63_convexLoop {sort} (hs : Spec.IsSort sort) (d : Data (Vec3 ℝ)) (hc : Spec.Coplanar {p | p ∈ d.toAddrList})
    (hl : ¬ Spec.Collinear {p | p ∈ d.toAddrList}) :
    ∃ c w, Hull2D.hull 0 sort d = some c ∧ Spec.ConvexLoop w c := by
  obtain ⟨c, e, h1, h2, h3, h4, w, hw, hp, ho⟩ := C63_exact hs d hc hl
  have hmem : ∀ v ∈ c, v ∈ d.toAddrList := fun v hv => ((h3 v).1 hv).1
  refine ⟨c, w, e, h2, hw, fun p hp' q hq' => hp p (hmem p hp') q (hmem q hq'), h1, fun v hv hh => ?_, fun e he q hq => ?_⟩
  · refine ((h3 v).1 hv).2 ?_
    obtain ⟨n, L, p, hp', h5⟩ := hh
    exact ⟨n, L, p, fun i => ⟨hmem _ (hp' i).1, (hp' i).2⟩, h5⟩
  · exact (edges_of_chain ho e he).2 q (hmem q hq)

namespace C63
variable {w : Vec3 ℝ} {c : List (Vec3 ℝ)}

/-- Two vectors of the plane with zero determinant are parallel. -/
private theorem par' {a b : Vec3 ℝ} (hw : w ≠ .zero) (ha : Spec.dot w a = 0) (hb : Spec.dot w b = 0) (hne : a ≠ .zero)
    (hd : Spec.det3 w a b = 0) : ∃ k : ℝ, b = a.mul k := by
  have hw2 : 0 < w.x * w.x + w.y * w.y + w.z * w.z := by
    by_contra hc
    apply hw
    have hx : w.x = 0 := by nlinarith [mul_self_nonneg w.x, mul_self_nonneg w.y, mul_self_nonneg w.z]
    have hy : w.y = 0 := by nlinarith [mul_self_nonneg w.x, mul_self_nonneg w.y, mul_self_nonneg w.z]
    have hz : w.z = 0 := by nlinarith [mul_self_nonneg w.x, mul_self_nonneg w.y, mul_self_nonneg w.z]
    ext <;> simp [hx, hy, hz, Vec3.zero]
  have ha2 : 0 < a.x * a.x + a.y * a.y + a.z * a.z := by
    by_contra hc
    apply hne
    have hx : a.x = 0 := by nlinarith [mul_self_nonneg a.x, mul_self_nonneg a.y, mul_self_nonneg a.z]
    have hy : a.y = 0 := by nlinarith [mul_self_nonneg a.x, mul_self_nonneg a.y, mul_self_nonneg a.z]
    have hz : a.z = 0 := by nlinarith [mul_self_nonneg a.x, mul_self_nonneg a.y, mul_self_nonneg a.z]
    ext <;> simp [hx, hy, hz, Vec3.zero]
  simp only [Spec.dot] at ha hb
  simp only [Spec.det3] at hd
  -- the outer product is a multiple of `w`, so it vanishes
  have o1 : (w.x * w.x + w.y * w.y + w.z * w.z) * (a.y * b.z - a.z * b.y) = 0 := by
    linear_combination w.x * hd + (b.z * w.y - b.y * w.z) * ha - (a.z * w.y - a.y * w.z) * hb
  have o2 : (w.x * w.x + w.y * w.y + w.z * w.z) * (a.z * b.x - a.x * b.z) = 0 := by
    linear_combination w.y * hd + (b.x * w.z - b.z * w.x) * ha - (a.x * w.z - a.z * w.x) * hb
  have o3 : (w.x * w.x + w.y * w.y + w.z * w.z) * (a.x * b.y - a.y * b.x) = 0 := by
    linear_combination w.z * hd + (b.y * w.x - b.x * w.y) * ha - (a.y * w.x - a.x * w.y) * hb
  have q1 := (mul_eq_zero.1 o1).resolve_left hw2.ne'
  have q2 := (mul_eq_zero.1 o2).resolve_left hw2.ne'
  have q3 := (mul_eq_zero.1 o3).resolve_left hw2.ne'
  refine ⟨(a.x * b.x + a.y * b.y + a.z * b.z) / (a.x * a.x + a.y * a.y + a.z * a.z), ?_⟩
  ext
  · simp only [Vec3.mul]; rw [div_mul_eq_mul_div, eq_div_iff ha2.ne']; linear_combination a.z * q2 - a.y * q3
  · simp only [Vec3.mul]; rw [div_mul_eq_mul_div, eq_div_iff ha2.ne']; linear_combination a.x * q3 - a.z * q1
  · simp only [Vec3.mul]; rw [div_mul_eq_mul_div, eq_div_iff ha2.ne']; linear_combination a.y * q1 - a.x * q2

private theorem hull_two {S : Set (Vec3 ℝ)} {p q : Vec3 ℝ} (hp : p ∈ S) (hq : q ∈ S) {a b : ℝ} (ha : 0 ≤ a) (hb : 0 ≤ b)
    (hab : a + b = 1) : Spec.InHull S (Spec.comb a b 0 0 p q p p) := by
  refine ⟨2, ![a, b], ![p, q], ?_, ?_, ?_, ?_⟩
  · intro i; fin_cases i <;> simpa
  · intro i; fin_cases i <;> simpa
  · simpa [Fin.sum_univ_two] using hab
  · ext <;> simp [Spec.comb, Fin.sum_univ_two]

/-- No three corners on a line. -/
theorem strict (h : Spec.ConvexLoop w c) {a b q : Vec3 ℝ} (ha : a ∈ c) (hb : b ∈ c) (hq : q ∈ c) (hab : a ≠ b)
    (haq : a ≠ q) (hbq : b ≠ q) : Spec.det3 w (b.sub a) (q.sub a) ≠ 0 := by
  intro hd
  obtain ⟨k, hk⟩ := par' h.ne (h.plane b hb a ha) (h.plane q hq a ha)
    (fun e => hab (by
      have hx := congrArg Vec3.x e
      have hy := congrArg Vec3.y e
      have hz := congrArg Vec3.z e
      simp only [zeo] at hx hy hz
      ext <;> linarith)) hd
  have hx := congrArg Vec3.x hk
  have hy := congrArg Vec3.y hk
  have hz := congrArg Vec3.z hk
  simp only [zeo] at hx hy hz
  rcases lt_or_ge k 0 with h0 | h0
  · refine h.ext a ha ?_
    have h1 : 0 < 1 - k := by linarith
    have := hull_two (S := {p | p ∈ c ∧ p ≠ a}) ⟨hb, hab.symm⟩ ⟨hq, haq.symm⟩ (a := -k / (1 - k)) (b := 1 / (1 - k))
      (div_nonneg (by linarith) h1.le) (by positivity) (by field_simp; ring)
    convert this using 1
    ext <;> simp only [Spec.comb] <;> field_simp <;> linarith
  · rcases le_or_gt k 1 with h1 | h1
    · refine h.ext q hq ?_
      have := hull_two (S := {p | p ∈ c ∧ p ≠ q}) ⟨ha, haq⟩ ⟨hb, hbq⟩ (a := 1 - k) (b := k) (by linarith) h0 (by ring)
      convert this using 1
      ext <;> simp only [Spec.comb] <;> linarith
    · refine h.ext b hb ?_
      have := hull_two (S := {p | p ∈ c ∧ p ≠ b}) ⟨ha, hab⟩ ⟨hq, hbq.symm⟩ (a := 1 - 1 / k) (b := 1 / k)
        (by rw [sub_nonneg, div_le_one (by linarith)]; exact h1.le) (by positivity) (by ring)
      convert this using 1
      ext <;> simp only [Spec.comb] <;> field_simp <;> linarith

/-- Where a function of the corners changes sign. -/
private theorem sign_change (f : Vec3 ℝ → ℝ) : ∀ (r : List (Vec3 ℝ)) (a : Vec3 ℝ), f a ≤ 0 → r ≠ [] →
    0 ≤ f ((a :: r).getLast (by simp)) → ∃ k, k + 1 < (a :: r).length ∧ f ((a :: r).getD k .zero) ≤ 0 ∧ 0 ≤ f ((a :: r).getD (k + 1) .zero)
  | [], _, _, h, _ => absurd rfl h
  | b :: r, a, ha, _, hl => by
    by_cases hb : 0 ≤ f b
    · exact ⟨0, by simp, by simpa using ha, by simpa using hb⟩
    · have hr : r ≠ [] := by
        rintro rfl
        simp at hl
        exact hb hl
      obtain ⟨k, h1, h2, h3⟩ := sign_change f r b (not_le.1 hb).le hr (by simpa [List.getLast_cons] using hl)
      exact ⟨k + 1, by simp at h1 ⊢; omega, by simpa using h2, by simpa using h3⟩

private theorem zip_get : ∀ (l : List (Vec3 ℝ)) (z : Vec3 ℝ) (k : ℕ), k + 1 < l.length →
    (l.getD k .zero, l.getD (k + 1) .zero) ∈ (z :: l).zip l
  | [], _, _, h => by simp at h
  | a :: l, z, k, h => by
    rw [List.zip_cons_cons]
    refine List.mem_cons_of_mem _ ?_
    cases k with
    | zero =>
      cases l with
      | nil => simp at h
      | cons b l => simp
    | succ k =>
      have := zip_get l a k (by simp at h; omega)
      simpa using this

theorem edges_get {c : List (Vec3 ℝ)} {k : ℕ} (h : k + 1 < c.length) : (c.getD k .zero, c.getD (k + 1) .zero) ∈ Spec.edges c := by
  unfold Spec.edges
  cases hl : c.getLast? with
  | none => rw [List.getLast?_eq_none_iff] at hl; subst hl; simp at h
  | some z => exact zip_get c z k h

theorem mem_getD' {c : List (Vec3 ℝ)} {k : ℕ} (h : k < c.length) : c.getD k .zero ∈ c := by
  rw [List.getD_eq_getElem _ _ h]; exact List.getElem_mem h

theorem getD_ne' (h : c.Nodup) {i j : ℕ} (hi : i < c.length) (hj : j < c.length) (hij : i ≠ j) :
    c.getD i .zero ≠ c.getD j .zero := by
  rw [List.getD_eq_getElem _ _ hi, List.getD_eq_getElem _ _ hj]
  exact fun e => hij ((List.Nodup.getElem_inj_iff h).1 e)

/-- The fan of triangles from the first corner covers all that lies on the right of every edge. -/
theorem fan (h : Spec.ConvexLoop w c) {x : Vec3 ℝ} (hx : ∀ v ∈ c, Spec.dot w (x.sub v) = 0)
    (hr : ∀ e ∈ Spec.edges c, Spec.det3 w (e.2.sub e.1) (x.sub e.1) ≤ 0) :
    ∃ k, k + 2 < c.length ∧ x ∈ Spec.triangle (c.getD 0 .zero) (c.getD (k + 1) .zero) (c.getD (k + 2) .zero) := by
  obtain ⟨c0, r, hc⟩ : ∃ c0 r, c = c0 :: r := List.exists_cons_of_ne_nil (by
    rintro rfl; have := h.len; simp at this)
  obtain ⟨a, r', hr'⟩ : ∃ a r', r = a :: r' := List.exists_cons_of_ne_nil (by
    rintro rfl; have := h.len; simp [hc] at this)
  have hr'ne : r' ≠ [] := by
    rintro rfl; have := h.len; simp [hc, hr'] at this
  have e1 : (c0, a) ∈ Spec.edges c := by
    have := edges_get (c := c) (k := 0) (by have := h.len; omega)
    simpa [hc, hr'] using this
  have elast : ((a :: r').getLast (by simp), c0) ∈ Spec.edges c := by
    unfold Spec.edges
    have : c.getLast? = some ((a :: r').getLast (by simp)) := by
      rw [hc, hr', List.getLast?_cons_cons, List.getLast?_eq_some_getLast]
    rw [this]
    simp [hc]
  obtain ⟨k, k1, k2, k3⟩ := sign_change (fun v => Spec.det3 w (v.sub c0) (x.sub c0)) r' a (hr _ e1) hr'ne (by
    have := hr _ elast
    simp only [Spec.det3, zeo] at this ⊢
    linarith)
  have klen : k + 2 < c.length := by simp [hc, hr'] at k1 ⊢; omega
  refine ⟨k, klen, ?_⟩
  have g0 : c.getD 0 .zero = c0 := by simp [hc]
  have gk : (a :: r').getD k .zero = c.getD (k + 1) .zero := by simp [hc, hr']
  have gk' : (a :: r').getD (k + 1) .zero = c.getD (k + 2) .zero := by simp [hc, hr']
  rw [gk] at k2
  rw [gk'] at k3
  have eu := edges_get (c := c) (k := k + 1) (by omega)
  have hu : c.getD (k + 1) .zero ∈ c := mem_getD' (by omega)
  have hv : c.getD (k + 2) .zero ∈ c := mem_getD' (by omega)
  have h0 : c0 ∈ c := by simp [hc]
  have d1 : c0 ≠ c.getD (k + 1) .zero := by rw [← g0]; exact getD_ne' h.nodup (by omega) (by omega) (by omega)
  have d2 : c0 ≠ c.getD (k + 2) .zero := by rw [← g0]; exact getD_ne' h.nodup (by omega) (by omega) (by omega)
  have d3 : c.getD (k + 1) .zero ≠ c.getD (k + 2) .zero := getD_ne' h.nodup (by omega) (by omega) (by omega)
  rw [g0]
  have k4 := hr _ eu
  have ord := h.order _ eu c0 h0
  have sne := strict h h0 hu hv d1 d2 d3
  set u := c.getD (k + 1) .zero with hudef
  set v := c.getD (k + 2) .zero with hvdef
  change Spec.det3 w (v.sub u) (x.sub u) ≤ 0 at k4
  change Spec.det3 w (v.sub u) (c0.sub u) ≤ 0 at ord
  have pu := h.plane u hu c0 h0
  have pv := h.plane v hv c0 h0
  have px := hx c0 h0
  have hS : Spec.det3 w (v.sub u) (c0.sub u) = Spec.det3 w (u.sub c0) (v.sub c0) := by simp only [Spec.det3, zeo]; ring
  rw [hS] at ord
  set D := Spec.det3 w (u.sub c0) (v.sub c0) with hD
  have hDneg : D < 0 := lt_of_le_of_ne ord sne
  -- barycentric coordinates
  have b1 : Spec.det3 w (v.sub u) (x.sub u) + Spec.det3 w (x.sub c0) (v.sub c0) + Spec.det3 w (u.sub c0) (x.sub c0) = D := by
    rw [hD]; simp only [Spec.det3, zeo]; ring
  have k3' : Spec.det3 w (x.sub c0) (v.sub c0) ≤ 0 := by
    have : Spec.det3 w (x.sub c0) (v.sub c0) = - Spec.det3 w (v.sub c0) (x.sub c0) := by simp only [Spec.det3, zeo]; ring
    rw [this]; linarith
  have hw2 : w.x * w.x + w.y * w.y + w.z * w.z ≠ 0 := by
    intro hz
    apply h.ne
    have hx : w.x = 0 := by nlinarith [mul_self_nonneg w.x, mul_self_nonneg w.y, mul_self_nonneg w.z]
    have hy : w.y = 0 := by nlinarith [mul_self_nonneg w.x, mul_self_nonneg w.y, mul_self_nonneg w.z]
    have hz : w.z = 0 := by nlinarith [mul_self_nonneg w.x, mul_self_nonneg w.y, mul_self_nonneg w.z]
    ext <;> simp [hx, hy, hz, Vec3.zero]
  refine ⟨Spec.det3 w (v.sub u) (x.sub u) / D, Spec.det3 w (x.sub c0) (v.sub c0) / D, Spec.det3 w (u.sub c0) (x.sub c0) / D,
    div_nonneg_of_nonpos k4 hDneg.le, div_nonneg_of_nonpos k3' hDneg.le, div_nonneg_of_nonpos k2 hDneg.le,
    by rw [← add_div, ← add_div, b1, div_self hDneg.ne], ?_⟩
  have hdet : Spec.det3 (u.sub c0) (v.sub c0) (x.sub c0) = 0 := by
    simp only [Spec.dot] at pu pv px
    have : (w.x * w.x + w.y * w.y + w.z * w.z) * Spec.det3 (u.sub c0) (v.sub c0) (x.sub c0) = 0 := by
      generalize u.sub c0 = U at *
      generalize v.sub c0 = V at *
      generalize x.sub c0 = X at *
      simp only [Spec.det3]
      linear_combination (w.x * (V.y * X.z - V.z * X.y) + w.y * (V.z * X.x - V.x * X.z) + w.z * (V.x * X.y - V.y * X.x)) * pu +
        (w.x * (X.y * U.z - X.z * U.y) + w.y * (X.z * U.x - X.x * U.z) + w.z * (X.x * U.y - X.y * U.x)) * pv +
        (w.x * (U.y * V.z - U.z * V.y) + w.y * (U.z * V.x - U.x * V.z) + w.z * (U.x * V.y - U.y * V.x)) * px
    exact (mul_eq_zero.1 this).resolve_left hw2
  have b0 : Spec.det3 w (v.sub u) (x.sub u) = D - Spec.det3 w (x.sub c0) (v.sub c0) - Spec.det3 w (u.sub c0) (x.sub c0) := by
    linarith
  rw [b0]
  have hx' : D * (x.x - c0.x) = Spec.det3 w (x.sub c0) (v.sub c0) * (u.x - c0.x) + Spec.det3 w (u.sub c0) (x.sub c0) * (v.x - c0.x) := by
    have : D * (x.x - c0.x) = Spec.det3 w (x.sub c0) (v.sub c0) * (u.x - c0.x) + Spec.det3 w (u.sub c0) (x.sub c0) * (v.x - c0.x) +
        Spec.det3 (u.sub c0) (v.sub c0) (x.sub c0) * w.x := by
      rw [hD]; simp only [Spec.det3, zeo]; ring
    rw [this, hdet]; ring
  have hy' : D * (x.y - c0.y) = Spec.det3 w (x.sub c0) (v.sub c0) * (u.y - c0.y) + Spec.det3 w (u.sub c0) (x.sub c0) * (v.y - c0.y) := by
    have : D * (x.y - c0.y) = Spec.det3 w (x.sub c0) (v.sub c0) * (u.y - c0.y) + Spec.det3 w (u.sub c0) (x.sub c0) * (v.y - c0.y) +
        Spec.det3 (u.sub c0) (v.sub c0) (x.sub c0) * w.y := by
      rw [hD]; simp only [Spec.det3, zeo]; ring
    rw [this, hdet]; ring
  have hz' : D * (x.z - c0.z) = Spec.det3 w (x.sub c0) (v.sub c0) * (u.z - c0.z) + Spec.det3 w (u.sub c0) (x.sub c0) * (v.z - c0.z) := by
    have : D * (x.z - c0.z) = Spec.det3 w (x.sub c0) (v.sub c0) * (u.z - c0.z) + Spec.det3 w (u.sub c0) (x.sub c0) * (v.z - c0.z) +
        Spec.det3 (u.sub c0) (v.sub c0) (x.sub c0) * w.z := by
      rw [hD]; simp only [Spec.det3, zeo]; ring
    rw [this, hdet]; ring
  have hD0 : D ≠ 0 := hDneg.ne
  generalize Spec.det3 w (x.sub c0) (v.sub c0) = P at *
  generalize Spec.det3 w (u.sub c0) (x.sub c0) = Q at *
  ext
  · simp only [Spec.comb]; field_simp; linarith
  · simp only [Spec.comb]; field_simp; linarith
  · simp only [Spec.comb]; field_simp; linarith

/-- The right of an edge is convex. -/
private theorem right_of_hull (h : Spec.ConvexLoop w c) {q : Vec3 ℝ} (hq : Spec.InHull {p | p ∈ c} q) :
    (∀ v ∈ c, Spec.dot w (q.sub v) = 0) ∧ ∀ e ∈ Spec.edges c, Spec.det3 w (e.2.sub e.1) (q.sub e.1) ≤ 0 := by
  obtain ⟨n, L, p, hp, hL, hs, rfl⟩ := hq
  constructor
  · intro v hv
    have e : Spec.dot w ((⟨∑ i, L i * (p i).x, ∑ i, L i * (p i).y, ∑ i, L i * (p i).z⟩ : Vec3 ℝ).sub v) =
        ∑ i, L i * Spec.dot w ((p i).sub v) := by
      have e2 : ∀ i, L i * Spec.dot w ((p i).sub v) = w.x * (L i * (p i).x) + w.y * (L i * (p i).y) + w.z * (L i * (p i).z) -
          L i * (w.x * v.x + w.y * v.y + w.z * v.z) := fun i => by simp only [Spec.dot, zeo]; ring
      simp only [e2, Finset.sum_sub_distrib, Finset.sum_add_distrib, ← Finset.mul_sum, ← Finset.sum_mul, hs]
      simp only [Spec.dot, zeo]; ring
    rw [e]
    exact Finset.sum_eq_zero fun i _ => by rw [h.plane _ (hp i) v hv, mul_zero]
  · intro e he
    have e1 : Spec.det3 w (e.2.sub e.1) ((⟨∑ i, L i * (p i).x, ∑ i, L i * (p i).y, ∑ i, L i * (p i).z⟩ : Vec3 ℝ).sub e.1) =
        ∑ i, L i * Spec.det3 w (e.2.sub e.1) ((p i).sub e.1) := by
      generalize hd : e.2.sub e.1 = d
      have e2 : ∀ i, L i * Spec.det3 w d ((p i).sub e.1) = (w.y * d.z - w.z * d.y) * (L i * (p i).x) +
          (w.z * d.x - w.x * d.z) * (L i * (p i).y) + (w.x * d.y - w.y * d.x) * (L i * (p i).z) -
          L i * ((w.y * d.z - w.z * d.y) * e.1.x + (w.z * d.x - w.x * d.z) * e.1.y + (w.x * d.y - w.y * d.x) * e.1.z) := fun i => by
        simp only [Spec.det3, zeo]; ring
      simp only [e2, Finset.sum_sub_distrib, Finset.sum_add_distrib, ← Finset.mul_sum, ← Finset.sum_mul, hs]
      simp only [Spec.det3, zeo]; ring
    rw [e1]
    exact Finset.sum_nonpos fun i _ => mul_nonpos_of_nonneg_of_nonpos (hL i) (h.order e he _ (hp i))

theorem tri_hull {S : Set (Vec3 ℝ)} {a b d q : Vec3 ℝ} (ha : a ∈ S) (hb : b ∈ S) (hd : d ∈ S)
    (hq : q ∈ Spec.triangle a b d) : Spec.InHull S q := by
  obtain ⟨x, y, z, hx, hy, hz, hs, rfl⟩ := hq
  refine ⟨3, ![x, y, z], ![a, b, d], ?_, ?_, ?_, ?_⟩
  · intro i; fin_cases i <;> simpa
  · intro i; fin_cases i <;> simpa
  · simpa [Fin.sum_univ_three] using hs
  · ext <;> simp [Spec.comb, Fin.sum_univ_three]

/-- A convex polygon is what lies right of all its edges. -/
theorem hull_iff (h : Spec.ConvexLoop w c) (q : Vec3 ℝ) : Spec.InHull {p | p ∈ c} q ↔
    (∀ v ∈ c, Spec.dot w (q.sub v) = 0) ∧ ∀ e ∈ Spec.edges c, Spec.det3 w (e.2.sub e.1) (q.sub e.1) ≤ 0 := by
  refine ⟨right_of_hull h, fun ⟨h1, h2⟩ => ?_⟩
  obtain ⟨k, hk, ht⟩ := fan h h1 h2
  have := h.len
  exact tri_hull (S := {p | p ∈ c}) (mem_getD' (by omega)) (mem_getD' (by omega)) (mem_getD' (by omega)) ht

end C63
open C63 Hull2D

private theorem swap_edges : ∀ l : List ℕ,
    ((Spec.meshEdges (l.map (fun (k : ℕ) => ((0 : ℕ), k + 1, k + 2)))).map Prod.swap).Perm
      (Spec.meshEdges (l.map (fun (k : ℕ) => ((0 : ℕ), k + 2, k + 1)))) := by
  intro l
  induction l with
  | nil => simp [Spec.meshEdges]
  | cons k l ih =>
    simp only [Spec.meshEdges, List.map_cons, List.flatMap_cons, List.map_append] at ih ⊢
    refine List.Perm.append ?_ ih
    simp only [Spec.triEdges, List.map_cons, List.map_nil, Prod.swap_prod_mk]
    exact (List.Perm.swap _ _ _).trans ((List.Perm.cons _ (List.Perm.swap _ _ _)).trans (List.Perm.swap _ _ _))

/-- **C63 (polyhedron).** The polyhedron made from a convex polygon has the corners as vertices; its faces refer to
them, form a closed two-sided sheet of no volume, and cover exactly the polygon; the first half of the faces look
one way along the normal and the second half the other way. -/
theorem C63_ph {w : Vec3 ℝ} {c : List (Vec3 ℝ)} (h : Spec.ConvexLoop w c) {τ : ℝ} (hτ : 0 ≤ τ) :
    (toPH τ c).nv = c.length ∧ (∀ v, v ∈ c ↔ ∃ i < (toPH τ c).nv, (toPH τ c).vert i = v) ∧ Spec.Valid (toPH τ c) ∧
    Spec.Closed (Spec.faceIdx (toPH τ c)) ∧ (toPH τ c).volume = 0 ∧
    (∀ q, Spec.InHull {p | p ∈ c} q ↔ ∃ t ∈ Spec.facePts (toPH τ c), q ∈ Spec.triangle t.1 t.2.1 t.2.2) ∧
    ∃ A B, (toPH τ c).face = A ++ B ∧ A.length = c.length - 2 ∧ B.length = c.length - 2 ∧
      (∀ f ∈ A, Spec.dot w f.norm < 0) ∧ ∀ f ∈ B, 0 < Spec.dot w f.norm := by
  have hlen := h.len
  have nsign : ∀ (i j k : ℕ) (s : ℝ), 0 < s * Spec.dot w (Tri3.outerProd (c.getD i .zero) (c.getD j .zero) (c.getD k .zero)) →
      0 < s * Spec.dot w (mkFace τ (fun i => c.getD i .zero) i j k).norm := by
    intro i j k s hs
    simp only [mkFace, Tri3.create]
    generalize Tri3.outerProd (c.getD i .zero) (c.getD j .zero) (c.getD k .zero) = n at hs
    split
    · exact hs
    · rename_i hc
      rw [Vec3.normalize, if_neg hc]
      have hp := Vec3.norm_pos_of_not_isTol hτ hc
      have : s * Spec.dot w (n.normalizeNC).2 = (s * Spec.dot w n) * (1 / n.norm) := by
        simp only [Vec3.normalizeNC, Spec.dot, zeo]; ring
      rw [this]
      positivity
  have dsign : ∀ k, k + 2 < c.length →
      Spec.dot w (Tri3.outerProd (c.getD 0 .zero) (c.getD (k + 1) .zero) (c.getD (k + 2) .zero)) < 0 := by
    intro k hk
    have h0 : c.getD 0 .zero ∈ c := mem_getD' (by omega)
    have h1 : c.getD (k + 1) .zero ∈ c := mem_getD' (by omega)
    have h2 : c.getD (k + 2) .zero ∈ c := mem_getD' (by omega)
    have e := h.order _ (edges_get (c := c) (k := k + 1) (by omega)) _ h0
    have s1 := strict h h0 h1 h2 (getD_ne' h.nodup (by omega) (by omega) (by omega))
      (getD_ne' h.nodup (by omega) (by omega) (by omega)) (getD_ne' h.nodup (by omega) (by omega) (by omega))
    change Spec.det3 w ((c.getD (k + 2) .zero).sub (c.getD (k + 1) .zero)) ((c.getD 0 .zero).sub (c.getD (k + 1) .zero)) ≤ 0 at e
    generalize c.getD 0 .zero = a at *
    generalize c.getD (k + 1) .zero = b at *
    generalize c.getD (k + 2) .zero = d at *
    have e1 : Spec.dot w (Tri3.outerProd a b d) = Spec.det3 w (b.sub a) (d.sub a) := by
      simp only [Tri3.outerProd, Spec.dot, Spec.det3, zeo]; ring
    have e2 : Spec.det3 w (d.sub b) (a.sub b) = Spec.det3 w (b.sub a) (d.sub a) := by
      simp only [Spec.det3, zeo]; ring
    rw [e2] at e
    rw [e1]
    exact lt_of_le_of_ne e s1
  refine ⟨rfl, fun v => ?_, ?_, ?_, ?_, fun q => ?_, _, _, rfl, by simp, by simp, ?_, ?_⟩
  · constructor
    · intro hv
      obtain ⟨i, hi, e⟩ := List.getElem_of_mem hv
      exact ⟨i, hi, by simp only [toPH]; rw [List.getD_eq_getElem _ _ hi]; exact e⟩
    · rintro ⟨i, hi, rfl⟩
      exact mem_getD' hi
  · intro f hf
    simp only [toPH, List.mem_append, List.mem_map, List.mem_range] at hf ⊢
    rcases hf with ⟨k, hk, rfl⟩ | ⟨k, hk, rfl⟩ <;> simp only [mkFace] <;> omega
  · unfold Spec.Closed Spec.faceIdx
    simp only [toPH, List.map_append, List.map_map, Function.comp_def, mkFace]
    unfold Spec.meshEdges
    rw [List.flatMap_append, List.map_append]
    have s1 := swap_edges (List.range (c.length - 2))
    have s2 : ((Spec.meshEdges ((List.range (c.length - 2)).map (fun (k : ℕ) => ((0 : ℕ), k + 2, k + 1)))).map Prod.swap).Perm
        (Spec.meshEdges ((List.range (c.length - 2)).map (fun (k : ℕ) => ((0 : ℕ), k + 1, k + 2)))) := by
      have := s1.symm.map Prod.swap
      simpa [List.map_map, Function.comp_def] using this
    exact (s1.append s2).trans List.perm_append_comm
  · unfold PH.volume
    have fold : ∀ (l : List (Face ℝ)) (g : Face ℝ → ℝ) (v : ℝ), l.foldl (fun v f => v + g f) v = v + (l.map g).sum := by
      intro l g
      induction l with
      | nil => intro v; simp
      | cons f l ih => intro v; simp only [List.foldl_cons, List.map_cons, List.sum_cons]; rw [ih]; ring
    rw [fold, zero_add]
    simp only [toPH, List.map_append, List.sum_append, List.map_map, Function.comp_def, PH.coneVolume, mkFace]
    have : ∀ l : List ℕ, (l.map fun (k : ℕ) => Tri3.coneVolume (c.getD 0 .zero) (c.getD (k + 1) .zero) (c.getD (k + 2) .zero) .zero).sum +
        (l.map fun (k : ℕ) => Tri3.coneVolume (c.getD 0 .zero) (c.getD (k + 2) .zero) (c.getD (k + 1) .zero) .zero).sum = 0 := by
      intro l
      induction l with
      | nil => simp
      | cons k l ih =>
        simp only [List.map_cons, List.sum_cons]
        have e : ∀ a b d : Vec3 ℝ, Tri3.coneVolume a b d .zero + Tri3.coneVolume a d b .zero = 0 := by
          intro a b d; simp only [Tri3.coneVolume, zeo]; ring
        have := e (c.getD 0 .zero) (c.getD (k + 1) .zero) (c.getD (k + 2) .zero)
        linarith
    exact this _
  · constructor
    · intro hq
      obtain ⟨h1, h2⟩ := (hull_iff h q).1 hq
      obtain ⟨k, hk, ht⟩ := fan h h1 h2
      refine ⟨(c.getD 0 .zero, c.getD (k + 1) .zero, c.getD (k + 2) .zero), ?_, ht⟩
      simp only [Spec.facePts, toPH, List.map_append, List.map_map, List.mem_append, List.mem_map, List.mem_range]
      left
      exact ⟨k, by omega, rfl⟩
    · rintro ⟨t, ht, hq⟩
      have m : ∀ i, i < c.length → c.getD i .zero ∈ c := fun i hi => mem_getD' hi
      simp only [Spec.facePts, toPH, List.map_append, List.map_map, List.mem_append, List.mem_map, List.mem_range] at ht
      rcases ht with ⟨k, hk, rfl⟩ | ⟨k, hk, rfl⟩
      · exact tri_hull (S := {p | p ∈ c}) (m 0 (by omega)) (m (k + 1) (by omega)) (m (k + 2) (by omega)) hq
      · exact tri_hull (S := {p | p ∈ c}) (m 0 (by omega)) (m (k + 2) (by omega)) (m (k + 1) (by omega)) hq
  · intro f hf
    simp only [List.mem_map, List.mem_range] at hf
    obtain ⟨k, hk, rfl⟩ := hf
    have := nsign 0 (k + 1) (k + 2) (-1) (by have := dsign k (by omega); linarith)
    linarith
  · intro f hf
    simp only [List.mem_map, List.mem_range] at hf
    obtain ⟨k, hk, rfl⟩ := hf
    have hd := dsign k (by omega)
    have e : ∀ a b d : Vec3 ℝ, Spec.dot w (Tri3.outerProd a d b) = - Spec.dot w (Tri3.outerProd a b d) := by
      intro a b d; simp only [Tri3.outerProd, Spec.dot, zeo]; ring
    have := nsign 0 (k + 2) (k + 1) 1 (by rw [e]; linarith)
    linarith

/-- **C63 (polyhedron of planar data).** With zero tolerance, the polyhedron for points of a plane not all on a line has
the extreme points as vertices, each of them once, and is a closed sheet without volume that covers exactly the convex
hull of the data. -/
theorem C63_hullPH {sort} (hs : Spec.IsSort sort) (d : Data (Vec3 ℝ)) (hc : Spec.Coplanar {p | p ∈ d.toAddrList})
    (hl : ¬ Spec.Collinear {p | p ∈ d.toAddrList}) :
    ∃ ph, hullPH 0 sort d = some ph ∧ Spec.Valid ph ∧ Spec.Closed (Spec.faceIdx ph) ∧ ph.volume = 0 ∧
      (∀ v, Spec.Extreme {p | p ∈ d.toAddrList} v ↔ ∃ i < ph.nv, ph.vert i = v) ∧
      (∀ i < ph.nv, ∀ j < ph.nv, ph.vert i = ph.vert j → i = j) ∧
      ∀ q, Spec.InHull {p | p ∈ d.toAddrList} q ↔ ∃ t ∈ Spec.facePts ph, q ∈ Spec.triangle t.1 t.2.1 t.2.2 := by
  obtain ⟨c, w, e, h⟩ := C63_convexLoop hs d hc hl
  obtain ⟨c', e', h1, -, h3, h4, -⟩ := C63_exact hs d hc hl
  obtain rfl := Option.some.inj (e.symm.trans e')
  obtain ⟨hn, hv, hval, hcl, hvol, hcov, -⟩ := C63_ph h (le_refl (0:ℝ))
  refine ⟨toPH 0 c, by rw [hullPH, e]; rfl, hval, hcl, hvol, fun v => ?_, fun i hi j hj hij => ?_, fun q => ?_⟩
  · rw [← h3, hv]
  · rw [hn] at hi hj
    have : c.getD i .zero = c.getD j .zero := hij
    rw [List.getD_eq_getElem _ _ hi, List.getD_eq_getElem _ _ hj] at this
    exact (h1.getElem_inj_iff).1 this
  · rw [← h4, hcov]

end
end Zeo
