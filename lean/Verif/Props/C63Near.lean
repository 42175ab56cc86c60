import Verif.Props.C63Closest

/-! # C63: the closest point of a planar convex hull -/

namespace Zeo
noncomputable section
open Classical

/-- The point `p` is on the outer side of the edge `e` of a clockwise loop. -/
def Spec.Visible (w p : Vec3 ℝ) (e : Vec3 ℝ × Vec3 ℝ) : Prop := 0 < Spec.det3 w (e.2.sub e.1) (p.sub e.1)

namespace C63
open Hull2D
variable {w : Vec3 ℝ} {c : List (Vec3 ℝ)}

/-- The loop of `zConvexHull2DClosest` on the visible edges alone. -/
def loopV (p : Vec3 ℝ) : List (Vec3 ℝ × Vec3 ℝ) → Option ℝ → Vec3 ℝ → Option (Option ℝ × Vec3 ℝ)
  | [], d, cp => some (d, cp)
  | e :: E, d, cp =>
    match Edge3.closest e.2 e.1 p with
    | none => none
    | some r => if ∃ d', d = some d' ∧ r.1 > d' then some (d, cp) else loopV p E (some r.1) r.2

theorem loop_eq {norm p : Vec3 ℝ} (V : Vec3 ℝ × Vec3 ℝ → Prop)
    (hV : ∀ a b : Vec3 ℝ, norm.inner ((a.sub p).outer (b.sub p)) < 0 ↔ V (a, b)) :
    ∀ (l : List (Vec3 ℝ)) (z : Vec3 ℝ) (d : Option ℝ) (cp : Vec3 ℝ),
      closestLoop norm p l z (z.sub p) d cp = loopV p (((z :: l).zip l).filter (fun e => decide (V e))) d cp
  | [], z, d, cp => by simp [closestLoop, loopV]
  | b :: l, z, d, cp => by
    rw [closestLoop, List.zip_cons_cons]
    by_cases hv : V (z, b)
    · rw [if_pos ((hV z b).2 hv), List.filter_cons_of_pos (by simpa using hv), loopV]
      cases Edge3.closest b z p with
      | none => rfl
      | some r =>
        dsimp only
        split
        · rfl
        · exact loop_eq V hV l b _ _
    · rw [if_neg (fun h => hv ((hV z b).1 h)), List.filter_cons_of_neg (by simpa using hv)]
      exact loop_eq V hV l b _ _

/-- The edges by index. -/
theorem edges_eq (h : 1 ≤ c.length) : Spec.edges c = (c.getD (c.length - 1) .zero, c.getD 0 .zero) ::
    (List.range (c.length - 1)).map (fun (k : ℕ) => (c.getD k .zero, c.getD (k + 1) .zero)) := by
  have hne : c ≠ [] := by rintro rfl; simp at h
  unfold Spec.edges
  rw [List.getLast?_eq_some_getLast hne]
  dsimp only
  apply List.ext_getElem
  · simp; omega
  · intro i h1 h2
    simp only [List.length_zip, List.length_cons] at h1
    have hi : i < c.length := by omega
    rw [List.getElem_zip]
    cases i with
    | zero =>
      simp only [List.getElem_cons_zero]
      rw [List.getD_eq_getElem _ _ (by omega), List.getD_eq_getElem _ _ (by omega)]
      exact congrArg (fun v => (v, c[0])) (List.getLast_eq_getElem hne)
    | succ i =>
      simp only [List.getElem_cons_succ, List.getElem_map, List.getElem_range]
      rw [List.getD_eq_getElem _ _ (by omega), List.getD_eq_getElem _ _ (by omega)]

theorem edges_mem (h : Spec.ConvexLoop w c) {e : Vec3 ℝ × Vec3 ℝ} (he : e ∈ Spec.edges c) :
    e.1 ∈ c ∧ e.2 ∈ c ∧ e.1 ≠ e.2 := by
  have hl := h.len
  rw [edges_eq (by omega), List.mem_cons] at he
  rcases he with rfl | he
  · exact ⟨mem_getD' (by omega), mem_getD' (by omega), getD_ne' h.nodup (by omega) (by omega) (by omega)⟩
  · simp only [List.mem_map, List.mem_range] at he
    obtain ⟨k, hk, rfl⟩ := he
    exact ⟨mem_getD' (by omega), mem_getD' (by omega), getD_ne' h.nodup (by omega) (by omega) (by omega)⟩

/-- Corners in the order of the loop turn right. -/
theorem triple (h : Spec.ConvexLoop w c) {i j k : ℕ} (hij : i < j) (hjk : j < k) (hk : k < c.length) :
    Spec.det3 w ((c.getD j .zero).sub (c.getD i .zero)) ((c.getD k .zero).sub (c.getD i .zero)) < 0 := by
  have base : ∀ j, i < j → j + 1 < c.length → Spec.det3 w ((c.getD j .zero).sub (c.getD i .zero))
      ((c.getD (j + 1) .zero).sub (c.getD i .zero)) < 0 := by
    intro j hj hl
    have e := h.order _ (edges_get (c := c) (k := j) hl) _ (mem_getD' (k := i) (by omega))
    have s := strict h (mem_getD' (k := j) (by omega)) (mem_getD' (k := j + 1) (by omega)) (mem_getD' (k := i) (by omega))
      (getD_ne' h.nodup (by omega) (by omega) (by omega)) (getD_ne' h.nodup (by omega) (by omega) (by omega))
      (getD_ne' h.nodup (by omega) (by omega) (by omega))
    have := lt_of_le_of_ne e s
    simp only [Spec.det3, zeo] at this ⊢
    linarith
  have first : ∀ k, i + 1 < k → k < c.length → Spec.det3 w ((c.getD (i + 1) .zero).sub (c.getD i .zero))
      ((c.getD k .zero).sub (c.getD i .zero)) < 0 := by
    intro k hk hl
    have e := h.order _ (edges_get (c := c) (k := i) (by omega)) _ (mem_getD' (k := k) (by omega))
    have s := strict h (mem_getD' (k := i) (by omega)) (mem_getD' (k := i + 1) (by omega)) (mem_getD' (k := k) (by omega))
      (getD_ne' h.nodup (by omega) (by omega) (by omega)) (getD_ne' h.nodup (by omega) (by omega) (by omega))
      (getD_ne' h.nodup (by omega) (by omega) (by omega))
    exact lt_of_le_of_ne e s
  obtain ⟨m, rfl⟩ : ∃ m, k = j + 1 + m := ⟨k - (j + 1), by omega⟩
  clear hjk
  induction m with
  | zero => exact base j hij hk
  | succ m ih =>
    have h1 := ih (by omega)
    have h2 := base (j + 1 + m) (by omega) (by omega)
    have h3 := first (j + 1 + m) (by omega) (by omega)
    have h4 := first (j + 1 + (m + 1)) (by omega) (by omega)
    have h5 : Spec.det3 w ((c.getD (i + 1) .zero).sub (c.getD i .zero)) ((c.getD j .zero).sub (c.getD i .zero)) ≤ 0 := by
      rcases Nat.lt_or_ge (i + 1) j with g | g
      · exact (first j g (by omega)).le
      · obtain rfl : j = i + 1 := by omega
        simp only [Spec.det3, zeo]; linarith
    rw [show j + 1 + m + 1 = j + 1 + (m + 1) by omega] at h2
    generalize (c.getD (i + 1) .zero).sub (c.getD i .zero) = a at *
    generalize (c.getD j .zero).sub (c.getD i .zero) = b at *
    generalize (c.getD (j + 1 + m) .zero).sub (c.getD i .zero) = d at *
    generalize (c.getD (j + 1 + (m + 1)) .zero).sub (c.getD i .zero) = e at *
    have pl : Spec.det3 w a b * Spec.det3 w d e - Spec.det3 w a d * Spec.det3 w b e + Spec.det3 w a e * Spec.det3 w b d = 0 := by
      simp only [Spec.det3]; ring
    nlinarith [mul_nonneg_of_nonpos_of_nonpos h5 h2.le, mul_pos_of_neg_of_neg h4 h1]

/-- Four corners in the order of the loop are not seen alternately. -/
theorem no_zigzag (h : Spec.ConvexLoop w c) {p : Vec3 ℝ} {i j k l : ℕ} (hij : i < j) (hjk : j < k) (hkl : k < l) (hl : l < c.length)
    (h1 : 0 < Spec.det3 w ((c.getD i .zero).sub p) ((c.getD j .zero).sub p))
    (h2 : Spec.det3 w ((c.getD j .zero).sub p) ((c.getD k .zero).sub p) ≤ 0)
    (h3 : 0 < Spec.det3 w ((c.getD k .zero).sub p) ((c.getD l .zero).sub p))
    (h4 : Spec.det3 w ((c.getD l .zero).sub p) ((c.getD i .zero).sub p) ≤ 0) : False := by
  have ta := triple h hjk hkl hl
  have tb := triple h (hij.trans hjk) hkl hl
  have tc := triple h hij (hjk.trans hkl) hl
  have td := triple h hij hjk (hkl.trans hl)
  generalize c.getD i .zero = a at *
  generalize c.getD j .zero = b at *
  generalize c.getD k .zero = d at *
  generalize c.getD l .zero = e at *
  have e1 : Spec.det3 w (b.sub a) (e.sub a) * Spec.det3 w (a.sub p) (d.sub p) =
      Spec.det3 w (d.sub a) (e.sub a) * Spec.det3 w (a.sub p) (b.sub p) +
      Spec.det3 w (b.sub a) (d.sub a) * Spec.det3 w (a.sub p) (e.sub p) := by
    simp only [Spec.det3, zeo]; ring
  have e2 : Spec.det3 w (d.sub b) (e.sub b) * Spec.det3 w (d.sub p) (a.sub p) =
      Spec.det3 w (d.sub a) (e.sub a) * Spec.det3 w (d.sub p) (b.sub p) +
      Spec.det3 w (b.sub a) (d.sub a) * Spec.det3 w (d.sub p) (e.sub p) := by
    simp only [Spec.det3, zeo]; ring
  have sk : ∀ x y : Vec3 ℝ, Spec.det3 w x y = - Spec.det3 w y x := fun x y => by simp only [Spec.det3]; ring
  have g1 : 0 ≤ Spec.det3 w (a.sub p) (e.sub p) := by rw [sk]; linarith
  have g2 : 0 ≤ Spec.det3 w (d.sub p) (b.sub p) := by rw [sk]; linarith
  have k1 : 0 < Spec.det3 w (a.sub p) (d.sub p) := by
    have : Spec.det3 w (b.sub a) (e.sub a) * Spec.det3 w (a.sub p) (d.sub p) < 0 := by
      rw [e1]; nlinarith [mul_pos_of_neg_of_neg tb (neg_neg_of_pos h1), mul_nonneg (neg_nonneg.2 td.le) g1]
    by_contra hc
    nlinarith [mul_nonneg (neg_nonneg.2 tc.le) (neg_nonneg.2 (not_lt.1 hc))]
  have k2 : 0 < Spec.det3 w (d.sub p) (a.sub p) := by
    have : Spec.det3 w (d.sub b) (e.sub b) * Spec.det3 w (d.sub p) (a.sub p) < 0 := by
      rw [e2]; nlinarith [mul_pos_of_neg_of_neg td (neg_neg_of_pos h3), mul_nonneg (neg_nonneg.2 tb.le) g2]
    by_contra hc
    nlinarith [mul_nonneg (neg_nonneg.2 ta.le) (neg_nonneg.2 (not_lt.1 hc))]
  rw [sk] at k2
  linarith

theorem visible_iff {p a b : Vec3 ℝ} : Spec.Visible w p (a, b) ↔ 0 < Spec.det3 w (a.sub p) (b.sub p) := by
  unfold Spec.Visible
  have : Spec.det3 w (b.sub a) (p.sub a) = Spec.det3 w (a.sub p) (b.sub p) := by simp only [Spec.det3, zeo]; ring
  dsimp only
  rw [this]

/-- Slopes seen from a point outside. -/
theorem slopes (h : Spec.ConvexLoop w c) {p : Vec3 ℝ} {e : Vec3 ℝ × Vec3 ℝ} (he : e ∈ Spec.edges c) (hv : Spec.Visible w p e) :
    ∃ g t : Vec3 ℝ → ℝ, ∃ m : ℝ, 0 < m ∧ (∀ q, Spec.InHull {p | p ∈ c} q → 0 < g q) ∧
      ∀ x y, m * Spec.det3 w (x.sub p) (y.sub p) = g x * t y - g y * t x := by
  obtain ⟨h1, h2, hne⟩ := edges_mem h he
  unfold Spec.Visible at hv
  set d := e.2.sub e.1 with hd
  have hdn : 0 < Spec.det3 w d (w.outer d) := by
    have e1 : Spec.det3 w d (w.outer d) = (w.outer d).sqrNorm := by simp only [Spec.det3, zeo]; ring
    rw [e1]
    have hw : w.outer d ≠ .zero := by
      intro h0
      have hx := congrArg Vec3.x h0
      have hy := congrArg Vec3.y h0
      have hz := congrArg Vec3.z h0
      simp only [zeo] at hx hy hz
      simp only [Spec.det3] at hv
      have : (0 : ℝ) < 0 := by
        calc (0 : ℝ) < _ := hv
          _ = 0 := by linear_combination (p.sub e.1).x * hx + (p.sub e.1).y * hy + (p.sub e.1).z * hz
      exact lt_irrefl _ this
    have hz : (0:ℝ) ≤ (w.outer d).sqrNorm := by
      simp only [Vec3.sqrNorm, Vec3.inner]
      nlinarith [sq_nonneg (w.outer d).x, sq_nonneg (w.outer d).y, sq_nonneg (w.outer d).z]
    refine lt_of_le_of_ne hz (fun h0 => hw ?_)
    simp only [Vec3.sqrNorm, Vec3.inner] at h0
    generalize w.outer d = n at h0 ⊢
    have hx : n.x = 0 := by nlinarith [sq_nonneg n.x, sq_nonneg n.y, sq_nonneg n.z]
    have hy : n.y = 0 := by nlinarith [sq_nonneg n.x, sq_nonneg n.y, sq_nonneg n.z]
    have hz : n.z = 0 := by nlinarith [sq_nonneg n.x, sq_nonneg n.y, sq_nonneg n.z]
    ext <;> assumption
  refine ⟨fun x => - Spec.det3 w d (x.sub p), fun x => - Spec.det3 w (w.outer d) (x.sub p), Spec.det3 w d (w.outer d), hdn, ?_, ?_⟩
  · intro q hq
    have := ((hull_iff h q).1 hq).2 e he
    rw [← hd] at this
    have e1 : Spec.det3 w d (q.sub p) = Spec.det3 w d (q.sub e.1) - Spec.det3 w d (p.sub e.1) := by
      simp only [Spec.det3, zeo]; ring
    dsimp only
    rw [e1]
    linarith
  · intro x y
    dsimp only
    generalize w.outer d = n
    generalize x.sub p = x
    generalize y.sub p = y
    simp only [Spec.det3]; ring

/-- From outside, the corners between two visible edges are seen in order, unless the visible edges wrap around. -/
theorem seen_in_order (h : Spec.ConvexLoop w c) {p : Vec3 ℝ} {i k : ℕ} (hik : i ≤ k) (hk : k + 1 < c.length)
    (hi : Spec.Visible w p (c.getD i .zero, c.getD (i + 1) .zero)) (hkv : Spec.Visible w p (c.getD k .zero, c.getD (k + 1) .zero))
    (h0 : ¬ Spec.Visible w p (c.getD (c.length - 1) .zero, c.getD 0 .zero)) {u v : ℕ} (hu : i ≤ u) (huv : u < v) (hv : v ≤ k + 1) :
    0 < Spec.det3 w ((c.getD u .zero).sub p) ((c.getD v .zero).sub p) := by
  obtain ⟨g, t, m, hm, hg, hs⟩ := slopes h (edges_get (c := c) (k := i) (by omega)) hi
  have hgc : ∀ u, u < c.length → 0 < g (c.getD u .zero) := fun u hu => hg _ (tri_hull (S := {p | p ∈ c})
    (mem_getD' hu) (mem_getD' hu) (mem_getD' hu) ⟨1, 0, 0, by norm_num, by norm_num, by norm_num, by norm_num, by
      simp [Spec.comb]⟩)
  have key : ∀ u v, u < c.length → v < c.length → (0 < Spec.det3 w ((c.getD u .zero).sub p) ((c.getD v .zero).sub p) ↔
      t (c.getD u .zero) / g (c.getD u .zero) < t (c.getD v .zero) / g (c.getD v .zero)) := by
    intro u v hu hv
    rw [div_lt_div_iff₀ (hgc u hu) (hgc v hv)]
    have := hs (c.getD u .zero) (c.getD v .zero)
    constructor
    · intro h1
      have := mul_pos hm h1
      linarith
    · intro h1
      by_contra h2
      have := mul_nonneg hm.le (neg_nonneg.2 (not_lt.1 h2))
      linarith
  obtain ⟨s, hsd⟩ : ∃ s : ℕ → ℝ, s = fun u => t (c.getD u .zero) / g (c.getD u .zero) := ⟨_, rfl⟩
  have key' : ∀ u v, u < c.length → v < c.length → (0 < Spec.det3 w ((c.getD u .zero).sub p) ((c.getD v .zero).sub p) ↔ s u < s v) := by
    rw [hsd]; exact key
  clear key hsd
  rw [visible_iff, key' _ _ (by omega) (by omega)] at hi hkv h0
  have sk : ∀ x y : Vec3 ℝ, Spec.det3 w x y = - Spec.det3 w y x := fun x y => by simp only [Spec.det3]; ring
  have key2 : ∀ u v, u < c.length → v < c.length → s u ≤ s v → Spec.det3 w ((c.getD v .zero).sub p) ((c.getD u .zero).sub p) ≤ 0 := by
    intro u v hu hv huv
    by_contra hc
    exact absurd ((key' v u hv hu).1 (not_le.1 hc)) (not_lt.2 huv)
  have cont : ∀ q, i ≤ q → q ≤ k → s q < s (q + 1) := by
    intro q hq hq'
    by_contra hc
    push Not at hc
    have hqi : q ≠ i := by rintro rfl; linarith
    have hqk : q ≠ k := by rintro rfl; linarith
    push Not at h0
    obtain ⟨B, hB1, hB2, hB3, hB4⟩ : ∃ B, i + 1 ≤ B ∧ B ≤ q ∧ s (i + 1) ≤ s B ∧ s q ≤ s B := by
      rcases le_total (s (i + 1)) (s q) with h | h
      · exact ⟨q, by omega, le_rfl, h, le_rfl⟩
      · exact ⟨i + 1, le_rfl, by omega, le_rfl, h⟩
    obtain ⟨C, hC1, hC2, hC3, hC4⟩ : ∃ C, q + 1 ≤ C ∧ C ≤ k ∧ s C ≤ s (q + 1) ∧ s C ≤ s k := by
      rcases le_total (s (q + 1)) (s k) with h | h
      · exact ⟨q + 1, le_rfl, by omega, le_rfl, h⟩
      · exact ⟨k, by omega, le_rfl, h, le_rfl⟩
    obtain ⟨D, hD1, hD2, hD3, hD4⟩ : ∃ D, k + 1 ≤ D ∧ D ≤ c.length - 1 ∧ s (k + 1) ≤ s D ∧ s (c.length - 1) ≤ s D := by
      rcases le_total (s (k + 1)) (s (c.length - 1)) with h | h
      · exact ⟨c.length - 1, by omega, le_rfl, h, le_rfl⟩
      · exact ⟨k + 1, le_rfl, by omega, le_rfl, h⟩
    obtain ⟨A, hA1, hA2, hA3⟩ : ∃ A, A ≤ i ∧ s A ≤ s i ∧ s A ≤ s 0 := by
      rcases le_total (s 0) (s i) with h | h
      · exact ⟨0, by omega, h, le_rfl⟩
      · exact ⟨i, le_rfl, le_rfl, h⟩
    refine no_zigzag h (p := p) (i := A) (j := B) (k := C) (l := D) (by omega) (by omega) (by omega) (by omega) ?_ ?_ ?_ ?_
    · exact (key' _ _ (by omega) (by omega)).2 (by linarith)
    · exact key2 _ _ (by omega) (by omega) (by linarith)
    · exact (key' _ _ (by omega) (by omega)).2 (by linarith)
    · exact key2 _ _ (by omega) (by omega) (by linarith)
  rw [key' _ _ (by omega) (by omega)]
  obtain ⟨m', rfl⟩ : ∃ m', v = u + 1 + m' := ⟨v - (u + 1), by omega⟩
  clear huv
  induction m' with
  | zero => exact cont u hu (by omega)
  | succ m' ih => exact (ih (by omega)).trans (cont (u + 1 + m') (by omega) (by omega))

private theorem conv_bound {A B D X Y Z M t : ℝ} (hD : 0 < D) (hA : 0 ≤ A) (hB : 0 ≤ B) (hs : A + B ≤ D) (m1 : Y ≤ M) (m2 : X ≤ M)
    (hM : 0 ≤ M) (e : D ^ 2 * Z = A ^ 2 * Y + B ^ 2 * X + 2 * (A * B) * t) (am : 2 * t ≤ Y + X) : Z ≤ M := by
  have hAB := mul_nonneg hA hB
  have b1 : D ^ 2 * Z ≤ (A + B) ^ 2 * M := by
    have h1 := mul_le_mul_of_nonneg_left m1 (sq_nonneg A)
    have h2 := mul_le_mul_of_nonneg_left m2 (sq_nonneg B)
    have h3 := mul_le_mul_of_nonneg_left am hAB
    have h4 := mul_le_mul_of_nonneg_left m1 hAB
    have h5 := mul_le_mul_of_nonneg_left m2 hAB
    rw [e]
    linarith
  have b2 : (A + B) ^ 2 * M ≤ D ^ 2 * M := by
    apply mul_le_mul_of_nonneg_right _ hM
    nlinarith
  exact le_of_mul_le_mul_left (b1.trans b2) (by positivity)

set_option maxHeartbeats 1000000 in
/-- Seen from outside, the distance to the visible boundary has no interior peak. -/
theorem unimodal (h : Spec.ConvexLoop w c) {p : Vec3 ℝ} (hp : ∀ v ∈ c, Spec.dot w (p.sub v) = 0) {i j k : ℕ} (hij : i < j) (hjk : j < k)
    (hk : k + 1 < c.length)
    (hi : Spec.Visible w p (c.getD i .zero, c.getD (i + 1) .zero)) (hj : Spec.Visible w p (c.getD j .zero, c.getD (j + 1) .zero))
    (hkv : Spec.Visible w p (c.getD k .zero, c.getD (k + 1) .zero))
    (h0 : ¬ Spec.Visible w p (c.getD (c.length - 1) .zero, c.getD 0 .zero)) {y z x : Vec3 ℝ}
    (hy : y ∈ Spec.segment (c.getD i .zero) (c.getD (i + 1) .zero)) (hz : z ∈ Spec.segment (c.getD j .zero) (c.getD (j + 1) .zero))
    (hx : x ∈ Spec.segment (c.getD k .zero) (c.getD (k + 1) .zero)) : Spec.sqd p z ≤ max (Spec.sqd p y) (Spec.sqd p x) := by
  have ord := fun {u v} hu huv hv => seen_in_order h (hij.trans hjk).le hk hi hkv h0 (u := u) (v := v) hu huv hv
  have ord' : ∀ {u v}, i ≤ u → u ≤ v → v ≤ k + 1 → 0 ≤ Spec.det3 w ((c.getD u .zero).sub p) ((c.getD v .zero).sub p) := by
    intro u v hu huv hv
    rcases huv.lt_or_eq with h1 | rfl
    · exact (ord hu h1 hv).le
    · simp only [Spec.det3]; linarith
  have bil : ∀ (u v : ℕ) (a b a' b' : ℝ) (q q' : Vec3 ℝ), a + b = 1 → a' + b' = 1 →
      q = Spec.comb a b 0 0 (c.getD u .zero) (c.getD (u + 1) .zero) (c.getD u .zero) (c.getD u .zero) →
      q' = Spec.comb a' b' 0 0 (c.getD v .zero) (c.getD (v + 1) .zero) (c.getD v .zero) (c.getD v .zero) →
      Spec.det3 w (q.sub p) (q'.sub p) = a * a' * Spec.det3 w ((c.getD u .zero).sub p) ((c.getD v .zero).sub p) +
        a * b' * Spec.det3 w ((c.getD u .zero).sub p) ((c.getD (v + 1) .zero).sub p) +
        b * a' * Spec.det3 w ((c.getD (u + 1) .zero).sub p) ((c.getD v .zero).sub p) +
        b * b' * Spec.det3 w ((c.getD (u + 1) .zero).sub p) ((c.getD (v + 1) .zero).sub p) := by
    rintro u v a b a' b' q q' h1 h2 rfl rfl
    obtain rfl : a = 1 - b := by linarith
    obtain rfl : a' = 1 - b' := by linarith
    simp only [Spec.comb, Spec.det3, zeo]; ring
  have hhull : ∀ {u : ℕ} {q : Vec3 ℝ}, u + 1 < c.length → q ∈ Spec.segment (c.getD u .zero) (c.getD (u + 1) .zero) →
      Spec.InHull {p | p ∈ c} q := by
    rintro u q hu ⟨a, b, ha, hb, hab, rfl⟩
    exact tri_hull (S := {p | p ∈ c}) (mem_getD' (k := u) (by omega)) (mem_getD' (k := u + 1) (by omega)) (mem_getD' (k := u) (by omega))
      ⟨a, b, 0, ha, hb, le_rfl, by linarith, by simp [Spec.comb]⟩
  have hyh := (hull_iff h y).1 (hhull (by omega) hy)
  have hzh := (hull_iff h z).1 (hhull (by omega) hz)
  have hxh := (hull_iff h x).1 (hhull (by omega) hx)
  have fy := hyh.2 _ (edges_get (c := c) (k := j) (by omega))
  have fx := hxh.2 _ (edges_get (c := c) (k := j) (by omega))
  have fz : Spec.det3 w ((c.getD (j + 1) .zero).sub (c.getD j .zero)) (z.sub (c.getD j .zero)) = 0 := by
    obtain ⟨a, b, -, -, hab, rfl⟩ := hz
    obtain rfl : a = 1 - b := by linarith
    simp only [Spec.comb, Spec.det3, zeo]; ring
  unfold Spec.Visible at hj
  dsimp only at fy fx hj
  have dyz : 0 ≤ Spec.det3 w (y.sub p) (z.sub p) := by
    obtain ⟨a, b, ha, hb, hab, hy⟩ := hy
    obtain ⟨a', b', ha', hb', hab', hz⟩ := hz
    rw [bil i j a b a' b' y z hab hab' hy hz]
    have o1 := ord' (u := i) (v := j) (by omega) (by omega) (by omega)
    have o2 := ord' (u := i) (v := j + 1) (by omega) (by omega) (by omega)
    have o3 := ord' (u := i + 1) (v := j) (by omega) (by omega) (by omega)
    have o4 := ord' (u := i + 1) (v := j + 1) (by omega) (by omega) (by omega)
    positivity
  have dzx : 0 ≤ Spec.det3 w (z.sub p) (x.sub p) := by
    obtain ⟨a, b, ha, hb, hab, hz⟩ := hz
    obtain ⟨a', b', ha', hb', hab', hx⟩ := hx
    rw [bil j k a b a' b' z x hab hab' hz hx]
    have o1 := ord' (u := j) (v := k) (by omega) (by omega) (by omega)
    have o2 := ord' (u := j) (v := k + 1) (by omega) (by omega) (by omega)
    have o3 := ord' (u := j + 1) (v := k) (by omega) (by omega) (by omega)
    have o4 := ord' (u := j + 1) (v := k + 1) (by omega) (by omega) (by omega)
    positivity
  have dyx : 0 < Spec.det3 w (y.sub p) (x.sub p) := by
    obtain ⟨a, b, ha, hb, hab, hy⟩ := hy
    obtain ⟨a', b', ha', hb', hab', hx⟩ := hx
    rw [bil i k a b a' b' y x hab hab' hy hx]
    have o1 := ord (u := i) (v := k) (by omega) (by omega) (by omega)
    have o2 := ord (u := i) (v := k + 1) (by omega) (by omega) (by omega)
    have o3 := ord (u := i + 1) (v := k) (by omega) (by omega) (by omega)
    have o4 := ord (u := i + 1) (v := k + 1) (by omega) (by omega) (by omega)
    rcases ha.lt_or_eq with ha | rfl
    · rcases ha'.lt_or_eq with ha' | rfl
      · positivity
      · obtain rfl : b' = 1 := by linarith
        positivity
    · obtain rfl : b = 1 := by linarith
      rcases ha'.lt_or_eq with ha' | rfl
      · positivity
      · obtain rfl : b' = 1 := by linarith
        positivity
  have v0 := mem_getD' (c := c) (k := 0) (by omega)
  have pl : ∀ q : Vec3 ℝ, (∀ v ∈ c, Spec.dot w (q.sub v) = 0) → Spec.dot w (q.sub p) = 0 := by
    intro q hq
    have h1 := hq _ v0
    have h2 := hp _ v0
    simp only [Spec.dot, zeo] at h1 h2 ⊢
    linarith
  have py := pl y hyh.1
  have pz := pl z hzh.1
  have px := pl x hxh.1
  -- Cramer in the plane
  have hw2 : 0 < w.x ^ 2 + w.y ^ 2 + w.z ^ 2 := by
    have hne := h.ne
    by_contra hc
    apply hne
    have hx : w.x = 0 := by nlinarith [sq_nonneg w.x, sq_nonneg w.y, sq_nonneg w.z]
    have hy : w.y = 0 := by nlinarith [sq_nonneg w.x, sq_nonneg w.y, sq_nonneg w.z]
    have hz : w.z = 0 := by nlinarith [sq_nonneg w.x, sq_nonneg w.y, sq_nonneg w.z]
    ext <;> assumption
  have lin : ∀ n : Vec3 ℝ, Spec.det3 w (y.sub p) (x.sub p) * Spec.det3 w n (z.sub p) =
      Spec.det3 w (z.sub p) (x.sub p) * Spec.det3 w n (y.sub p) + Spec.det3 w (y.sub p) (z.sub p) * Spec.det3 w n (x.sub p) := by
    intro n
    generalize y.sub p = Y
    generalize z.sub p = Z
    generalize x.sub p = X
    simp only [Spec.det3]; ring
  have cr : ∀ (f : Vec3 ℝ), Spec.det3 w (y.sub p) (x.sub p) * Spec.dot f (z.sub p) =
      Spec.det3 w (z.sub p) (x.sub p) * Spec.dot f (y.sub p) + Spec.det3 w (y.sub p) (z.sub p) * Spec.dot f (x.sub p) := by
    intro f
    have e : ∀ q : Vec3 ℝ, Spec.dot w q = 0 → (w.x ^ 2 + w.y ^ 2 + w.z ^ 2) * Spec.dot f q = Spec.det3 w (f.outer w) q := by
      intro q hq
      simp only [Spec.dot, Spec.det3, zeo] at hq ⊢
      linear_combination (f.x * w.x + f.y * w.y + f.z * w.z) * hq
    apply mul_left_cancel₀ hw2.ne'
    linear_combination lin (f.outer w) + Spec.det3 w (y.sub p) (x.sub p) * e _ pz - Spec.det3 w (z.sub p) (x.sub p) * e _ py -
      Spec.det3 w (y.sub p) (z.sub p) * e _ px
  have sum : Spec.det3 w (z.sub p) (x.sub p) + Spec.det3 w (y.sub p) (z.sub p) ≤ Spec.det3 w (y.sub p) (x.sub p) := by
    have l := lin ((c.getD (j + 1) .zero).sub (c.getD j .zero))
    have sh : ∀ q : Vec3 ℝ, Spec.det3 w ((c.getD (j + 1) .zero).sub (c.getD j .zero)) (q.sub p) =
        Spec.det3 w ((c.getD (j + 1) .zero).sub (c.getD j .zero)) (q.sub (c.getD j .zero)) -
        Spec.det3 w ((c.getD (j + 1) .zero).sub (c.getD j .zero)) (p.sub (c.getD j .zero)) := fun q => by
      simp only [Spec.det3, zeo]; ring
    rw [sh y, sh z, sh x, fz] at l
    generalize Spec.det3 w ((c.getD (j + 1) .zero).sub (c.getD j .zero)) (p.sub (c.getD j .zero)) = F at *
    nlinarith [mul_nonneg dzx (neg_nonneg.2 fy), mul_nonneg dyz (neg_nonneg.2 fx)]
  have cx := cr ⟨1, 0, 0⟩
  have cy := cr ⟨0, 1, 0⟩
  have cz := cr ⟨0, 0, 1⟩
  generalize Spec.det3 w (y.sub p) (x.sub p) = D at *
  generalize Spec.det3 w (z.sub p) (x.sub p) = A at *
  generalize Spec.det3 w (y.sub p) (z.sub p) = B at *
  simp only [Spec.dot, zeo, one_mul, zero_mul, add_zero, zero_add] at cx cy cz
  set M := max (Spec.sqd p y) (Spec.sqd p x) with hM
  have m1 : Spec.sqd p y ≤ M := le_max_left _ _
  have m2 : Spec.sqd p x ≤ M := le_max_right _ _
  have hM0 : 0 ≤ M := le_trans (by simp only [Spec.sqd]; positivity) m1
  have e : D ^ 2 * Spec.sqd p z = A ^ 2 * Spec.sqd p y + B ^ 2 * Spec.sqd p x +
      2 * (A * B) * ((y.x - p.x) * (x.x - p.x) + (y.y - p.y) * (x.y - p.y) + (y.z - p.z) * (x.z - p.z)) := by
    simp only [Spec.sqd]
    linear_combination (D * (z.x - p.x) + (A * (y.x - p.x) + B * (x.x - p.x))) * cx +
      (D * (z.y - p.y) + (A * (y.y - p.y) + B * (x.y - p.y))) * cy + (D * (z.z - p.z) + (A * (y.z - p.z) + B * (x.z - p.z))) * cz
  have am : 2 * ((y.x - p.x) * (x.x - p.x) + (y.y - p.y) * (x.y - p.y) + (y.z - p.z) * (x.z - p.z)) ≤ Spec.sqd p y + Spec.sqd p x := by
    simp only [Spec.sqd]
    nlinarith [sq_nonneg (y.x - x.x), sq_nonneg (y.y - x.y), sq_nonneg (y.z - x.z)]
  exact conv_bound dyx dzx dyz sum m1 m2 hM0 e am

theorem seg_symm {a b q : Vec3 ℝ} (h : q ∈ Spec.segment a b) : q ∈ Spec.segment b a := by
  obtain ⟨x, y, hx, hy, hs, rfl⟩ := h
  refine ⟨y, x, hy, hx, by linarith, ?_⟩
  simp only [Spec.comb]; ext <;> simp <;> ring

theorem closest_edge {e : Vec3 ℝ × Vec3 ℝ} (hne : e.1 ≠ e.2) (p : Vec3 ℝ) : ∃ x, Edge3.closest e.2 e.1 p = some (Spec.ed p x, x) ∧
    x ∈ Spec.segment e.1 e.2 ∧ ∀ q ∈ Spec.segment e.1 e.2, Spec.sqd p x ≤ Spec.sqd p q := by
  obtain ⟨r, hr, hn, hd⟩ := C19_closest e.2 e.1 p hne.symm
  exact ⟨r.2, by rw [hr, ← hd], seg_symm hn.1, fun q hq => hn.2 q (seg_symm hq)⟩

theorem loopV_sound (p : Vec3 ℝ) : ∀ (E : List (Vec3 ℝ × Vec3 ℝ)) (d : Option ℝ) (cp : Vec3 ℝ), (∀ e ∈ E, e.1 ≠ e.2) →
    (∃ e ∈ E, ∃ x ∈ Spec.segment e.1 e.2, loopV p E d cp = some (some (Spec.ed p x), x)) ∨
      loopV p E d cp = some (d, cp) ∧ (d = none → E = [])
  | [], d, cp, _ => .inr ⟨rfl, fun _ => rfl⟩
  | e :: E, d, cp, h => by
    obtain ⟨x, hx, hx1, -⟩ := closest_edge (h e (by simp)) p
    rw [loopV, hx]
    dsimp only
    split
    · rename_i hc
      obtain ⟨d', hd, -⟩ := hc
      exact .inr ⟨rfl, fun hn => by rw [hn] at hd; cases hd⟩
    · rcases loopV_sound p E (some (Spec.ed p x)) x (fun e he => h e (List.mem_cons_of_mem _ he)) with ⟨e', he', y, hy, hr⟩ | ⟨hr, -⟩
      · exact .inl ⟨e', List.mem_cons_of_mem _ he', y, hy, hr⟩
      · exact .inl ⟨e, by simp, x, hx1, hr⟩

/-- Without interior peaks the first rise of the distance ends the search rightly. -/
theorem loopV_opt (p : Vec3 ℝ) : ∀ (E : List (Vec3 ℝ × Vec3 ℝ)) (a : Vec3 ℝ × Vec3 ℝ) (y : Vec3 ℝ), (∀ e ∈ E, e.1 ≠ e.2) →
    (∀ e f g, [e, f, g].Sublist (a :: E) → ∀ y ∈ Spec.segment e.1 e.2, ∀ z ∈ Spec.segment f.1 f.2, ∀ x ∈ Spec.segment g.1 g.2,
      Spec.sqd p z ≤ max (Spec.sqd p y) (Spec.sqd p x)) →
    y ∈ Spec.segment a.1 a.2 → (∀ q ∈ Spec.segment a.1 a.2, Spec.sqd p y ≤ Spec.sqd p q) →
    ∃ x, loopV p E (some (Spec.ed p y)) y = some (some (Spec.ed p x), x) ∧ (∃ e ∈ a :: E, x ∈ Spec.segment e.1 e.2) ∧
      ∀ e ∈ a :: E, ∀ q ∈ Spec.segment e.1 e.2, Spec.sqd p x ≤ Spec.sqd p q
  | [], a, y, _, _, hy, hn => ⟨y, rfl, ⟨a, by simp, hy⟩, fun e he q hq => hn q (by simp at he; rwa [he] at hq)⟩
  | e :: E, a, y, hne, T, hy, hn => by
    obtain ⟨x, hx, hx1, hx2⟩ := closest_edge (hne e (by simp)) p
    rw [loopV, hx]
    dsimp only
    have hs0 : ∀ q, 0 ≤ Spec.sqd p q := fun q => by simp only [Spec.sqd]; positivity
    split
    · rename_i hc
      obtain ⟨d', hd, hc⟩ := hc
      obtain rfl : Spec.ed p y = d' := Option.some.inj hd
      have hlt : Spec.sqd p y < Spec.sqd p x := by
        by_contra h
        exact absurd (Real.sqrt_le_sqrt (not_lt.1 h)) (not_le.2 hc)
      refine ⟨y, rfl, ⟨a, by simp, hy⟩, fun e' he' q hq => ?_⟩
      rw [List.mem_cons, List.mem_cons] at he'
      rcases he' with rfl | rfl | he'
      · exact hn q hq
      · exact hlt.le.trans (hx2 q hq)
      · have := T a e e' (((List.singleton_sublist.2 he').cons₂ e).cons₂ a) y hy x hx1 q hq
        rcases le_max_iff.1 this with h1 | h1 <;> linarith
    · rename_i hc
      have hle : Spec.sqd p x ≤ Spec.sqd p y := by
        by_contra h
        exact hc ⟨_, rfl, Real.sqrt_lt_sqrt (hs0 _) (not_le.1 h)⟩
      obtain ⟨z, hz, ⟨e', he', hz1⟩, hz2⟩ := loopV_opt p E e x (fun e he => hne e (List.mem_cons_of_mem _ he))
        (fun e f g hs => T e f g (hs.cons a)) hx1 hx2
      refine ⟨z, hz, ⟨e', List.mem_cons_of_mem _ he', hz1⟩, fun f hf q hq => ?_⟩
      rw [List.mem_cons] at hf
      rcases hf with rfl | hf
      · exact (hz2 e (by simp) x hx1).trans (hle.trans (hn q hq))
      · exact hz2 f hf q hq

/-- A point of the polygon on the line of an edge is on the edge. -/
theorem on_line (h : Spec.ConvexLoop w c) {q : Vec3 ℝ} (hq : Spec.InHull {p | p ∈ c} q) {e : Vec3 ℝ × Vec3 ℝ} (he : e ∈ Spec.edges c)
    (h0 : Spec.det3 w (e.2.sub e.1) (q.sub e.1) = 0) : q ∈ Spec.segment e.1 e.2 := by
  obtain ⟨m1, m2, hne⟩ := edges_mem h he
  obtain ⟨n, L, p, hp, hL, hs, rfl⟩ := hq
  have e1 : Spec.det3 w (e.2.sub e.1) ((⟨∑ i, L i * (p i).x, ∑ i, L i * (p i).y, ∑ i, L i * (p i).z⟩ : Vec3 ℝ).sub e.1) =
      ∑ i, L i * Spec.det3 w (e.2.sub e.1) ((p i).sub e.1) := by
    generalize hd : e.2.sub e.1 = d
    have e2 : ∀ i, L i * Spec.det3 w d ((p i).sub e.1) = (w.y * d.z - w.z * d.y) * (L i * (p i).x) +
        (w.z * d.x - w.x * d.z) * (L i * (p i).y) + (w.x * d.y - w.y * d.x) * (L i * (p i).z) -
        L i * ((w.y * d.z - w.z * d.y) * e.1.x + (w.z * d.x - w.x * d.z) * e.1.y + (w.x * d.y - w.y * d.x) * e.1.z) := fun i => by
      simp only [Spec.det3, zeo]; ring
    simp only [e2, Finset.sum_sub_distrib, Finset.sum_add_distrib, ← Finset.mul_sum, ← Finset.sum_mul, hs]
    simp only [Spec.det3, zeo]; ring
  rw [e1] at h0
  have hz := (Finset.sum_eq_zero_iff_of_nonpos (fun i _ => mul_nonpos_of_nonneg_of_nonpos (hL i) (h.order e he _ (hp i)))).1 h0
  have hcase : ∀ i, L i = 0 ∨ p i = e.1 ∨ p i = e.2 := by
    intro i
    rcases mul_eq_zero.1 (hz i (Finset.mem_univ i)) with h1 | h1
    · exact .inl h1
    · by_contra hc
      push Not at hc
      exact strict h m1 m2 (hp i) hne (Ne.symm hc.2.1) (Ne.symm hc.2.2) h1
  refine ⟨∑ i, (if p i = e.1 then L i else 0), ∑ i, (if p i = e.1 then 0 else L i), Finset.sum_nonneg fun i _ => ?_,
    Finset.sum_nonneg fun i _ => ?_, ?_, ?_⟩
  · split <;> simp [hL i]
  · split <;> simp [hL i]
  · rw [← Finset.sum_add_distrib, ← hs]
    refine Finset.sum_congr rfl fun i _ => ?_
    split <;> simp
  · have k : ∀ f : Vec3 ℝ → ℝ, ∑ i, L i * f (p i) = (∑ i, (if p i = e.1 then L i else 0)) * f e.1 +
        (∑ i, (if p i = e.1 then 0 else L i)) * f e.2 := by
      intro f
      rw [Finset.sum_mul, Finset.sum_mul, ← Finset.sum_add_distrib]
      refine Finset.sum_congr rfl fun i _ => ?_
      rcases hcase i with h1 | h1 | h1
      · rw [h1]; simp
      · rw [if_pos h1, if_pos h1, h1]; ring
      · rw [if_neg (by rw [h1]; exact hne.symm), if_neg (by rw [h1]; exact hne.symm), h1]; ring
    simp only [Spec.comb]
    ext
    · simpa using k Vec3.x
    · simpa using k Vec3.y
    · simpa using k Vec3.z

/-- Seen from outside, every point of the polygon is behind a point of a visible edge. -/
theorem behind (h : Spec.ConvexLoop w c) {p q : Vec3 ℝ} (hp : ∀ v ∈ c, Spec.dot w (p.sub v) = 0) (hq : Spec.InHull {p | p ∈ c} q)
    (hv : ∃ e ∈ Spec.edges c, Spec.Visible w p e) :
    ∃ e ∈ Spec.edges c, Spec.Visible w p e ∧ ∃ x ∈ Spec.segment e.1 e.2, Spec.sqd p x ≤ Spec.sqd p q := by
  obtain ⟨q1, q2⟩ := (hull_iff h q).1 hq
  let F : Vec3 ℝ × Vec3 ℝ → Vec3 ℝ → ℝ := fun e x => Spec.det3 w (e.2.sub e.1) (x.sub e.1)
  let T : Vec3 ℝ × Vec3 ℝ → ℝ := fun e => F e p / (F e p - F e q)
  obtain ⟨e0, he0, hv0⟩ := hv
  have hne : (((Spec.edges c).filter (fun e => decide (Spec.Visible w p e))).toFinset).Nonempty :=
    ⟨e0, by simp [he0, hv0]⟩
  obtain ⟨e, he, hmax⟩ := Finset.exists_max_image _ T hne
  simp only [List.mem_toFinset, List.mem_filter, decide_eq_true_eq] at he hmax
  have hFp : 0 < F e p := he.2
  have hFq : F e q ≤ 0 := q2 e he.1
  have hden : 0 < F e p - F e q := by linarith
  have ht0 : 0 < T e := div_pos hFp hden
  have ht1 : T e ≤ 1 := (div_le_one hden).2 (by linarith)
  let x : Vec3 ℝ := ⟨p.x + T e * (q.x - p.x), p.y + T e * (q.y - p.y), p.z + T e * (q.z - p.z)⟩
  have aff : ∀ e', F e' x = (1 - T e) * F e' p + T e * F e' q := by
    intro e'
    simp only [F, x, Spec.det3, zeo]; ring
  have h0 : F e x = 0 := by
    rw [aff]
    have : T e * (F e p - F e q) = F e p := div_mul_cancel₀ _ hden.ne'
    linarith
  have hx : Spec.InHull {p | p ∈ c} x := by
    refine (hull_iff h x).2 ⟨fun v hv => ?_, fun e' he' => ?_⟩
    · have h1 := hp v hv
      have h2 := q1 v hv
      simp only [Spec.dot, zeo, x] at h1 h2 ⊢
      linear_combination (1 - T e) * h1 + T e * h2
    · change F e' x ≤ 0
      rw [aff]
      have hq' : F e' q ≤ 0 := q2 e' he'
      by_cases hv' : Spec.Visible w p e'
      · have hp' : 0 < F e' p := hv'
        have hm := hmax e' ⟨he', hv'⟩
        have hden' : 0 < F e' p - F e' q := by linarith
        have : F e' p ≤ T e * (F e' p - F e' q) := by
          have := mul_le_mul_of_nonneg_right hm hden'.le
          rwa [div_mul_cancel₀ _ hden'.ne'] at this
        linarith
      · have hp' : F e' p ≤ 0 := not_lt.1 hv'
        nlinarith [mul_nonneg (sub_nonneg.2 ht1) (neg_nonneg.2 hp'), mul_nonneg ht0.le (neg_nonneg.2 hq')]
  refine ⟨e, he.1, he.2, x, on_line h hx he.1 h0, ?_⟩
  have : Spec.sqd p x = T e ^ 2 * Spec.sqd p q := by simp only [Spec.sqd, x]; ring
  rw [this]
  have h2 : 0 ≤ Spec.sqd p q := by simp only [Spec.sqd]; positivity
  have h3 : T e ^ 2 ≤ 1 := by nlinarith
  nlinarith

/-- The normal the routine takes from the last three corners. -/
theorem closest_eq (h : Spec.ConvexLoop w c) (p old : Vec3 ℝ) :
    closest c p old = loopV p ((Spec.edges c).filter (fun e => decide (Spec.Visible w p e))) none p := by
  have hl := h.len
  unfold closest
  obtain ⟨z, b, a, r, hr⟩ : ∃ z b a r, c.reverse = z :: b :: a :: r := by
    match hc : c.reverse with
    | [] => have := congrArg List.length hc; simp at this; simp [this] at hl
    | [_] => have := congrArg List.length hc; simp at this; omega
    | [_, _] => have := congrArg List.length hc; simp at this; omega
    | z :: b :: a :: r => exact ⟨z, b, a, r, rfl⟩
  rw [hr]
  dsimp only
  have hc : c = r.reverse ++ [a, b, z] := by
    have := congrArg List.reverse hr
    simpa using this
  have hlast : c.getLast? = some z := by rw [hc]; simp
  unfold Spec.edges
  rw [hlast]
  dsimp only
  have hlen : c.length = r.length + 3 := by rw [hc]; simp
  have ga : c.getD r.length .zero = a := by rw [hc]; simp [List.getD_append_right]
  have gb : c.getD (r.length + 1) .zero = b := by rw [hc]; simp [List.getD_append_right]
  have gz : c.getD (r.length + 2) .zero = z := by rw [hc]; simp [List.getD_append_right]
  have tr := triple h (i := r.length) (j := r.length + 1) (k := r.length + 2) (by omega) (by omega) (by omega)
  rw [ga, gb, gz] at tr
  have ma : a ∈ c := by rw [hc]; simp
  have mb : b ∈ c := by rw [hc]; simp
  have mz : z ∈ c := by rw [hc]; simp
  refine loop_eq _ (fun s t => ?_) c z none p
  rw [visible_iff]
  have p1 := h.plane a ma z mz
  have p2 := h.plane b mb z mz
  have hw2 : 0 < w.x ^ 2 + w.y ^ 2 + w.z ^ 2 := by
    have hne := h.ne
    by_contra hc
    apply hne
    have hx : w.x = 0 := by nlinarith [sq_nonneg w.x, sq_nonneg w.y, sq_nonneg w.z]
    have hy : w.y = 0 := by nlinarith [sq_nonneg w.x, sq_nonneg w.y, sq_nonneg w.z]
    have hz : w.z = 0 := by nlinarith [sq_nonneg w.x, sq_nonneg w.y, sq_nonneg w.z]
    ext <;> assumption
  have tr' : Spec.det3 w (a.sub z) (b.sub z) < 0 := by
    simp only [Spec.det3, zeo] at tr ⊢; linarith
  have e : (w.x ^ 2 + w.y ^ 2 + w.z ^ 2) * ((a.sub z).outer (b.sub z)).inner ((s.sub p).outer (t.sub p)) =
      Spec.det3 w (a.sub z) (b.sub z) * Spec.det3 w (s.sub p) (t.sub p) := by
    generalize a.sub z = A at *
    generalize b.sub z = B at *
    generalize s.sub p = S
    generalize t.sub p = T
    have k1 : (w.x ^ 2 + w.y ^ 2 + w.z ^ 2) * (A.outer B).x = Spec.det3 w A B * w.x := by
      simp only [Spec.dot, Spec.det3, zeo] at p1 p2 ⊢
      linear_combination (w.y * B.z - w.z * B.y) * p1 + (w.z * A.y - w.y * A.z) * p2
    have k2 : (w.x ^ 2 + w.y ^ 2 + w.z ^ 2) * (A.outer B).y = Spec.det3 w A B * w.y := by
      simp only [Spec.dot, Spec.det3, zeo] at p1 p2 ⊢
      linear_combination (w.z * B.x - w.x * B.z) * p1 + (w.x * A.z - w.z * A.x) * p2
    have k3 : (w.x ^ 2 + w.y ^ 2 + w.z ^ 2) * (A.outer B).z = Spec.det3 w A B * w.z := by
      simp only [Spec.dot, Spec.det3, zeo] at p1 p2 ⊢
      linear_combination (w.x * B.y - w.y * B.x) * p1 + (w.y * A.x - w.x * A.y) * p2
    have k4 : Spec.det3 w S T = w.x * (S.outer T).x + w.y * (S.outer T).y + w.z * (S.outer T).z := by
      simp only [Spec.det3, zeo]
      ring
    rw [k4]
    simp only [Vec3.inner]
    linear_combination (S.outer T).x * k1 + (S.outer T).y * k2 + (S.outer T).z * k3
  constructor
  · intro hneg
    by_contra hc
    have := mul_nonneg_of_nonpos_of_nonpos tr'.le (not_lt.1 hc)
    rw [← e] at this
    nlinarith
  · intro hpos
    have := mul_neg_of_neg_of_pos tr' hpos
    rw [← e] at this
    by_contra hc
    nlinarith [mul_nonneg hw2.le (not_lt.1 hc)]

theorem seg_hull (h : Spec.ConvexLoop w c) {e : Vec3 ℝ × Vec3 ℝ} (he : e ∈ Spec.edges c) {q : Vec3 ℝ}
    (hq : q ∈ Spec.segment e.1 e.2) : Spec.InHull {p | p ∈ c} q := by
  obtain ⟨m1, m2, -⟩ := edges_mem h he
  obtain ⟨a, b, ha, hb, hab, rfl⟩ := hq
  exact tri_hull (S := {p | p ∈ c}) m1 m2 m1 ⟨a, b, 0, ha, hb, le_rfl, by linarith, by simp [Spec.comb]⟩

end C63
open C63 Hull2D

/-- **C63 (closest point: what a finite answer means).** For a convex polygon and any point of space, either no edge has
the point on its outer side and the routine reports infinity with the point itself, or it reports a point of the polygon
and the distance to it. It never divides by zero. -/
theorem C63_closest_sound {w : Vec3 ℝ} {c : List (Vec3 ℝ)} (h : Spec.ConvexLoop w c) (p old : Vec3 ℝ) :
    ((∀ e ∈ Spec.edges c, ¬ Spec.Visible w p e) ∧ closest c p old = some (none, p)) ∨
    ((∃ e ∈ Spec.edges c, Spec.Visible w p e) ∧
      ∃ x, Spec.InHull {q | q ∈ c} x ∧ closest c p old = some (some (Spec.ed p x), x)) := by
  rw [closest_eq h]
  have hne : ∀ e ∈ (Spec.edges c).filter (fun e => decide (Spec.Visible w p e)), e.1 ≠ e.2 := fun e he =>
    (edges_mem h (List.mem_filter.1 he).1).2.2
  rcases loopV_sound p _ none p hne with ⟨e, he, x, hx, hr⟩ | ⟨hr, hn⟩
  · have he' := List.mem_filter.1 he
    exact .inr ⟨⟨e, he'.1, by simpa using he'.2⟩, x, seg_hull h he'.1 hx, hr⟩
  · refine .inl ⟨fun e he hv => ?_, hr⟩
    have : e ∈ (Spec.edges c).filter (fun e => decide (Spec.Visible w p e)) := List.mem_filter.2 ⟨he, by simpa using hv⟩
    rw [hn rfl] at this
    simp at this

/-- **C63 (closest point, few corners).** The answer on a list of no corners is infinity with the result untouched, on
one corner it is that corner, and on two it is the nearest point of the segment. -/
theorem C63_closest_few (p old : Vec3 ℝ) : closest [] p old = some (none, old) ∧
    (∀ v, closest [v] p old = some (some (Spec.ed p v), v)) ∧
    ∀ a b, a ≠ b → ∃ x ∈ Spec.segment a b, (∀ q ∈ Spec.segment a b, Spec.sqd p x ≤ Spec.sqd p q) ∧
      closest [a, b] p old = some (some (Spec.ed p x), x) := by
  refine ⟨rfl, fun v => ?_, fun a b hab => ?_⟩
  · show some (some (v.dist p), v) = _
    have : v.dist p = Spec.ed p v := by
      simp only [Vec3.dist, Spec.ed, Spec.sqd, zeo]
      congr 1; ring
    rw [this]
  · obtain ⟨x, e, hx, hm⟩ := closest_edge (e := (b, a)) hab.symm p
    refine ⟨x, seg_symm hx, fun q hq => hm q (seg_symm hq), ?_⟩
    show (Edge3.closest a b p).map _ = _
    rw [e]; rfl

example : (⟨0, 0, 0⟩ : Vec3 ℝ) ≠ ⟨1, 0, 0⟩ := by simp

/-- **C63 (negation: inside).** The documentation promises zero for a point inside the hull; for every point of the
polygon, and for every point above or below it, the answer is infinity. -/
theorem C63_closest_inside {w : Vec3 ℝ} {c : List (Vec3 ℝ)} (h : Spec.ConvexLoop w c) {q : Vec3 ℝ} (hq : Spec.InHull {q | q ∈ c} q)
    (t : ℝ) (old : Vec3 ℝ) : closest c (q.cat t w) old = some (none, q.cat t w) := by
  rcases C63_closest_sound h (q.cat t w) old with ⟨-, h1⟩ | ⟨⟨e, he, hv⟩, -⟩
  · exact h1
  · exfalso
    have := ((hull_iff h q).1 hq).2 e he
    unfold Spec.Visible at hv
    have e1 : Spec.det3 w (e.2.sub e.1) ((q.cat t w).sub e.1) = Spec.det3 w (e.2.sub e.1) (q.sub e.1) := by
      generalize e.2.sub e.1 = d
      simp only [Spec.det3, zeo]; ring
    rw [e1] at hv
    linarith

/-- **C63 (closest point, partial).** For a point of the plane of the polygon and outside it, the answer is the nearest
point and its distance, if the edge from the last corner to the first does not face the point, or no more than two edges
do. Missing: polygons of which three or more edges face the point, that edge among them (`C63_closest_wrong`), points
inside and points off the plane (`C63_closest_inside`). -/
theorem C63_closest_partial {w : Vec3 ℝ} {c : List (Vec3 ℝ)} (h : Spec.ConvexLoop w c) {p : Vec3 ℝ}
    (hp : ∀ v ∈ c, Spec.dot w (p.sub v) = 0) (hout : ¬ Spec.InHull {q | q ∈ c} p)
    (hs : (∀ e ∈ (Spec.edges c).head?, ¬ Spec.Visible w p e) ∨
      ((Spec.edges c).filter (fun e => decide (Spec.Visible w p e))).length ≤ 2) (old : Vec3 ℝ) :
    ∃ x, closest c p old = some (some (Spec.ed p x), x) ∧ Spec.IsNearest {q | Spec.InHull {q | q ∈ c} q} p x := by
  have hl := h.len
  have hv : ∃ e ∈ Spec.edges c, Spec.Visible w p e := by
    by_contra hc
    push Not at hc
    exact hout ((hull_iff h p).2 ⟨hp, fun e he => not_lt.1 (hc e he)⟩)
  rw [closest_eq h]
  have T : ∀ e f g, [e, f, g].Sublist ((Spec.edges c).filter (fun e => decide (Spec.Visible w p e))) →
      ∀ y ∈ Spec.segment e.1 e.2, ∀ z ∈ Spec.segment f.1 f.2, ∀ x ∈ Spec.segment g.1 g.2,
      Spec.sqd p z ≤ max (Spec.sqd p y) (Spec.sqd p x) := by
    intro e f g hsub y hy z hz x hx
    rcases hs with hs | hs
    · rw [edges_eq (by omega)] at hsub hs
      have h0 := hs _ rfl
      rw [List.filter_cons_of_neg (by simpa using h0)] at hsub
      have hvis : ∀ e' ∈ [e, f, g], Spec.Visible w p e' := fun e' he' => by
        have := List.mem_filter.1 (hsub.subset he')
        simpa using this.2
      have hsub2 := hsub.trans List.filter_sublist
      obtain ⟨l', hl', he⟩ := List.sublist_map_iff.1 hsub2
      match l', he with
      | [i, j, k], he =>
        simp only [List.map_cons, List.map_nil, List.cons.injEq, and_true] at he
        obtain ⟨rfl, rfl, rfl⟩ := he
        have hpw := List.pairwise_lt_range.sublist hl'
        simp only [List.pairwise_cons, List.mem_cons, List.not_mem_nil, or_false, forall_eq_or_imp, forall_eq] at hpw
        have hk : k ∈ List.range (c.length - 1) := hl'.subset (by simp)
        rw [List.mem_range] at hk
        exact unimodal h hp hpw.1.1 hpw.2.1 (by omega) (hvis _ (by simp)) (hvis _ (by simp)) (hvis _ (by simp)) h0 hy hz hx
      | [], he => simp at he
      | [_], he => simp at he
      | [_, _], he => simp at he
      | _ :: _ :: _ :: _ :: _, he => simp at he
    · have := hsub.length_le
      simp at this
      omega
  have hmemE : ∀ e, e ∈ (Spec.edges c).filter (fun e => decide (Spec.Visible w p e)) ↔ e ∈ Spec.edges c ∧ Spec.Visible w p e := by
    intro e; simp [List.mem_filter]
  cases hE : (Spec.edges c).filter (fun e => decide (Spec.Visible w p e)) with
  | nil =>
    obtain ⟨e, he, hv⟩ := hv
    have := (hmemE e).2 ⟨he, hv⟩
    rw [hE] at this
    simp at this
  | cons a E =>
    rw [hE] at T hmemE
    have hne : ∀ e ∈ a :: E, e.1 ≠ e.2 := fun e he => (edges_mem h ((hmemE e).1 he).1).2.2
    obtain ⟨y, hy, hy1, hy2⟩ := closest_edge (hne a (by simp)) p
    obtain ⟨x, hx, ⟨e, he, hx1⟩, hx2⟩ := loopV_opt p E a y (fun e he => hne e (List.mem_cons_of_mem _ he)) T hy1 hy2
    refine ⟨x, ?_, seg_hull h ((hmemE e).1 he).1 hx1, fun q hq => ?_⟩
    · rw [loopV, hy]
      dsimp only
      rw [if_neg (by rintro ⟨d', hd, -⟩; cases hd)]
      exact hx
    · obtain ⟨e', he', hv', z, hz, hle⟩ := behind h hp hq hv
      exact (hx2 e' ((hmemE e').2 ⟨he', hv'⟩) z hz).trans hle

/-- **C63 (closest point of a triangle).** Any point of the plane outside a triangle. -/
theorem C63_closest_triangle {w a b d : Vec3 ℝ} (h : Spec.ConvexLoop w [a, b, d]) {p : Vec3 ℝ}
    (hp : ∀ v ∈ [a, b, d], Spec.dot w (p.sub v) = 0) (hout : ¬ Spec.InHull {q | q ∈ [a, b, d]} p) (old : Vec3 ℝ) :
    ∃ x, closest [a, b, d] p old = some (some (Spec.ed p x), x) ∧ Spec.IsNearest {q | Spec.InHull {q | q ∈ [a, b, d]} q} p x := by
  refine C63_closest_partial h hp hout (.inr ?_) old
  have he : Spec.edges [a, b, d] = [(d, a), (a, b), (b, d)] := rfl
  by_contra hc
  have hlen : ((Spec.edges [a, b, d]).filter (fun e => decide (Spec.Visible w p e))).length = (Spec.edges [a, b, d]).length := by
    have := List.length_filter_le (fun e => decide (Spec.Visible w p e)) (Spec.edges [a, b, d])
    rw [he] at this hc ⊢
    simp only [List.length_cons, List.length_nil] at this ⊢
    omega
  rw [List.length_filter_eq_length_iff] at hlen
  have v1 := hlen (d, a) (by rw [he]; simp)
  have v2 := hlen (a, b) (by rw [he]; simp)
  have v3 := hlen (b, d) (by rw [he]; simp)
  have tr := triple h (i := 0) (j := 1) (k := 2) (by omega) (by omega) (by simp)
  have v1 := of_decide_eq_true v1
  have v2 := of_decide_eq_true v2
  have v3 := of_decide_eq_true v3
  unfold Spec.Visible at v1 v2 v3
  change Spec.det3 w (b.sub a) (d.sub a) < 0 at tr
  simp only [Spec.det3, zeo] at v1 v2 v3 tr
  linarith

/-- A convex pentagon. -/
def exPentagon : List (Vec3 ℝ) := [⟨-4, 1, 0⟩, ⟨-5, 2, 0⟩, ⟨0, 10, 0⟩, ⟨2, 0, 0⟩, ⟨-2, 0, 0⟩]

theorem exPentagon_convex : Spec.ConvexLoop ⟨0, 0, 1⟩ exPentagon where
  len := by simp [exPentagon]
  ne := by intro h; have := congrArg Vec3.z h; simp [zeo] at this
  plane := by
    intro p hp q hq
    simp only [exPentagon, List.mem_cons, List.not_mem_nil, or_false] at hp hq
    rcases hp with rfl | rfl | rfl | rfl | rfl <;> rcases hq with rfl | rfl | rfl | rfl | rfl <;> simp [Spec.dot, zeo]
  nodup := by
    simp [exPentagon]
    norm_num
  ext := by
    have key : ∀ (u v : Vec3 ℝ), (∀ q ∈ exPentagon, q ≠ v → Spec.dot u q < Spec.dot u v) →
        ¬ Spec.InHull {q | q ∈ exPentagon ∧ q ≠ v} v := by
      rintro u v h ⟨n, L, p, hp, hL, hs, hv⟩
      have e : Spec.dot u v = ∑ i, L i * Spec.dot u (p i) := by
        have e2 : ∀ i, L i * Spec.dot u (p i) = u.x * (L i * (p i).x) + u.y * (L i * (p i).y) + u.z * (L i * (p i).z) :=
          fun i => by simp only [Spec.dot]; ring
        simp only [e2, Finset.sum_add_distrib, ← Finset.mul_sum]
        rw [hv]; simp only [Spec.dot]
      have e3 : ∑ i, L i * (Spec.dot u v - Spec.dot u (p i)) = 0 := by
        simp only [mul_sub, Finset.sum_sub_distrib, ← Finset.sum_mul, hs]
        linarith
      have hz := (Finset.sum_eq_zero_iff_of_nonneg (fun i _ => mul_nonneg (hL i)
        (sub_nonneg.2 (h (p i) (hp i).1 (hp i).2).le))).1 e3
      have : ∀ i, L i = 0 := fun i => (mul_eq_zero.1 (hz i (Finset.mem_univ i))).resolve_right
        (sub_pos.2 (h (p i) (hp i).1 (hp i).2)).ne'
      simp [this] at hs
    intro v hv
    have all : ∀ u v : Vec3 ℝ, (∀ q ∈ exPentagon, q = v ∨ Spec.dot u q < Spec.dot u v) → ¬ Spec.InHull {q | q ∈ exPentagon ∧ q ≠ v} v :=
      fun u v h => key u v fun q hq hne => (h q hq).resolve_left hne
    simp only [exPentagon, List.mem_cons, List.not_mem_nil, or_false] at hv
    rcases hv with rfl | rfl | rfl | rfl | rfl
    · exact all ⟨-2, -3, 0⟩ _ (by simp [exPentagon, Spec.dot]; norm_num)
    · exact all ⟨-1, 0, 0⟩ _ (by simp [exPentagon, Spec.dot]; norm_num)
    · exact all ⟨0, 1, 0⟩ _ (by simp [exPentagon, Spec.dot]; norm_num)
    · exact all ⟨1, 0, 0⟩ _ (by simp [exPentagon, Spec.dot]; norm_num)
    · exact all ⟨-1, -4, 0⟩ _ (by simp [exPentagon, Spec.dot]; norm_num)
  order := by
    have he : Spec.edges exPentagon = [(⟨-2, 0, 0⟩, ⟨-4, 1, 0⟩), (⟨-4, 1, 0⟩, ⟨-5, 2, 0⟩), (⟨-5, 2, 0⟩, ⟨0, 10, 0⟩),
        (⟨0, 10, 0⟩, ⟨2, 0, 0⟩), (⟨2, 0, 0⟩, ⟨-2, 0, 0⟩)] := rfl
    rw [he]
    simp only [exPentagon, List.mem_cons, List.not_mem_nil, or_false, forall_eq_or_imp, forall_eq, Spec.det3, zeo]
    norm_num

/-- **C63 (negation: the early stop).** For a convex pentagon and a point of its plane outside it, the routine stops at
the second edge and reports a corner at distance √104; the nearest point is at distance 10. -/
theorem C63_closest_wrong (old : Vec3 ℝ) : Spec.ConvexLoop ⟨0, 0, 1⟩ exPentagon ∧
    closest exPentagon ⟨0, -10, 0⟩ old = some (some (Real.sqrt 104), ⟨-2, 0, 0⟩) ∧
    Spec.InHull {q | q ∈ exPentagon} ⟨0, 0, 0⟩ ∧ Spec.ed ⟨0, -10, 0⟩ ⟨0, 0, 0⟩ = 10 ∧ 10 < Real.sqrt 104 := by
  refine ⟨exPentagon_convex, ?_, ?_, ?_, ?_⟩
  · have e1 : Edge3.closest (⟨-4, 1, 0⟩ : Vec3 ℝ) ⟨-2, 0, 0⟩ ⟨0, -10, 0⟩ = some (Real.sqrt 104, ⟨-2, 0, 0⟩) := by
      simp only [Edge3.closest, Edge3.closestFromOrigin, Mat2.mulAdjVec, zeo]
      norm_num
      simp only [Vec3.norm, zeo]
      norm_num
    have e2 : Edge3.closest (⟨-5, 2, 0⟩ : Vec3 ℝ) ⟨-4, 1, 0⟩ ⟨0, -10, 0⟩ = some (Real.sqrt 137, ⟨-4, 1, 0⟩) := by
      simp only [Edge3.closest, Edge3.closestFromOrigin, Mat2.mulAdjVec, zeo]
      norm_num
      simp only [Vec3.norm, zeo]
      norm_num
    simp only [closest, exPentagon, List.reverse_cons, List.reverse_nil, List.nil_append, List.cons_append]
    rw [closestLoop, if_pos (by simp only [zeo]; norm_num), e1]
    dsimp only
    rw [if_neg (by rintro ⟨d', hd, -⟩; cases hd), closestLoop, if_pos (by simp only [zeo]; norm_num), e2]
    dsimp only
    rw [if_pos ⟨_, rfl, Real.sqrt_lt_sqrt (by norm_num) (by norm_num)⟩]
  · exact tri_hull (S := {q | q ∈ exPentagon}) (a := ⟨2, 0, 0⟩) (b := ⟨-2, 0, 0⟩) (d := ⟨2, 0, 0⟩) (by simp [exPentagon])
      (by simp [exPentagon]) (by simp [exPentagon])
      ⟨1/2, 1/2, 0, by norm_num, by norm_num, le_rfl, by norm_num, by simp [Spec.comb]⟩
  · simp only [Spec.ed, Spec.sqd]
    rw [show ((0:ℝ) - 0) ^ 2 + (-10 - 0) ^ 2 + (0 - 0) ^ 2 = 10 ^ 2 by norm_num]
    exact Real.sqrt_sq (by norm_num)
  · rw [show (10 : ℝ) = Real.sqrt (10 ^ 2) from (Real.sqrt_sq (by norm_num)).symm]
    exact Real.sqrt_lt_sqrt (by norm_num) (by norm_num)

/-- Two edges of the pentagon face (4, -1, 0), neither the first one: the partial theorem applies. -/
example (old : Vec3 ℝ) : ∃ x, closest exPentagon ⟨4, -1, 0⟩ old = some (some (Spec.ed ⟨4, -1, 0⟩ x), x) ∧
    Spec.IsNearest {q | Spec.InHull {q | q ∈ exPentagon} q} ⟨4, -1, 0⟩ x := by
  have hlast : ((⟨2, 0, 0⟩ : Vec3 ℝ), (⟨-2, 0, 0⟩ : Vec3 ℝ)) ∈ Spec.edges exPentagon := by
    change _ ∈ [_, _, _, _, _]; simp
  refine C63_closest_partial exPentagon_convex (fun v hv => ?_) (fun hh => ?_) (.inl fun e he => ?_) old
  · simp only [exPentagon, List.mem_cons, List.not_mem_nil, or_false] at hv
    rcases hv with rfl | rfl | rfl | rfl | rfl <;> simp [Spec.dot, zeo]
  · have := ((hull_iff exPentagon_convex _).1 hh).2 _ hlast
    simp only [Spec.det3, zeo] at this
    norm_num at this
  · have he : e = ((⟨-2, 0, 0⟩ : Vec3 ℝ), (⟨-4, 1, 0⟩ : Vec3 ℝ)) := (Option.some.inj he).symm
    subst he
    simp only [Spec.Visible, Spec.det3, zeo]
    norm_num

end
end Zeo
