import Verif.Lemmas.DelGeom
import Verif.Lemmas.DelSplit
import Mathlib.Algebra.BigOperators.Group.Finset.Basic
import Mathlib.Algebra.Order.BigOperators.Group.Finset

/-! # Triangulations with empty circles -/

namespace Zeo.Del
open DelG Filter Topology

variable (pos : ℕ → Vec2 ℝ)

/-- Twice the area of a cell. -/
def O (c : Cell) : ℝ := o (pos (c.v 0)) (pos (c.v 1)) (pos (c.v 2))
/-- Area times power of a point. -/
def I (c : Cell) (s : Vec2 ℝ) : ℝ := inc (pos (c.v 0)) (pos (c.v 1)) (pos (c.v 2)) s
/-- Strictly inside. -/
def In (c : Cell) (x : Vec2 ℝ) : Prop := ∀ i, 0 < o (pos (c.v i)) (pos (c.v (i + 1))) x
/-- Inside or on an edge. -/
def InC (c : Cell) (x : Vec2 ℝ) : Prop := ∀ i, 0 ≤ o (pos (c.v i)) (pos (c.v (i + 1))) x
/-- Indicator. -/
noncomputable def D (c : Cell) (x : Vec2 ℝ) : ℕ := ind (pos (c.v 0)) (pos (c.v 1)) (pos (c.v 2)) x

variable {pos}

theorem O_rot (c : Cell) (i : Fin 3) : o (pos (c.v i)) (pos (c.v (i + 1))) (pos (c.v (i + 2))) = O pos c := by
  fin_cases i
  · rfl
  · exact (o_cyc _ _ _)
  · show o (pos (c.v 2)) (pos (c.v 0)) (pos (c.v 1)) = _
    rw [O, ← o_cyc (pos (c.v 2))]

theorem I_rot (c : Cell) (i : Fin 3) (s : Vec2 ℝ) :
    inc (pos (c.v i)) (pos (c.v (i + 1))) (pos (c.v (i + 2))) s = I pos c s := by
  fin_cases i
  · rfl
  · exact (inc_cyc _ _ _ _)
  · show inc (pos (c.v 2)) (pos (c.v 0)) (pos (c.v 1)) s = _
    rw [I, ← inc_cyc (pos (c.v 2))]

theorem D_rot (c : Cell) (i : Fin 3) (s : Vec2 ℝ) :
    ind (pos (c.v i)) (pos (c.v (i + 1))) (pos (c.v (i + 2))) s = D pos c s := by
  fin_cases i
  · rfl
  · exact (ind_cyc _ _ _ _)
  · show ind (pos (c.v 2)) (pos (c.v 0)) (pos (c.v 1)) s = _
    rw [D, ← ind_cyc (pos (c.v 2))]

theorem In_iff (c : Cell) (x : Vec2 ℝ) : In pos c x ↔ Ins (pos (c.v 0)) (pos (c.v 1)) (pos (c.v 2)) x := by
  constructor
  · intro h; exact ⟨h 0, h 1, h 2⟩
  · intro h i; fin_cases i
    · exact h.1
    · exact h.2.1
    · exact h.2.2

theorem InC_iff (c : Cell) (x : Vec2 ℝ) : InC pos c x ↔ Cl (pos (c.v 0)) (pos (c.v 1)) (pos (c.v 2)) x := by
  constructor
  · intro h; exact ⟨h 0, h 1, h 2⟩
  · intro h i; fin_cases i
    · exact h.1
    · exact h.2.1
    · exact h.2.2

theorem D_one {c : Cell} {x : Vec2 ℝ} (h : In pos c x) : D pos c x = 1 := by
  rw [D, ind, if_pos ((In_iff c x).1 h)]

theorem In_of_D {c : Cell} {x : Vec2 ℝ} (h : D pos c x ≠ 0) : In pos c x := by
  rw [D, ind] at h
  rw [In_iff]
  by_contra hc
  rw [if_neg hc] at h; exact h rfl

/-- Sums that differ at two places. -/
theorem sum_two {L : List ℕ} (hL : L.Nodup) {t a : ℕ} (ht : t ∈ L) (ha : a ∈ L) (hta : t ≠ a) {f g : ℕ → ℕ} {k : ℕ}
    (h : ∀ s ∈ L, s ≠ t → s ≠ a → f s = g s) (h2 : f t + f a = g t + g a + k) :
    (L.map f).sum = (L.map g).sum + k := by
  rw [← List.sum_toFinset f hL, ← List.sum_toFinset g hL]
  have ht' : t ∈ L.toFinset := by simpa using ht
  have ha' : a ∈ L.toFinset.erase t := by simpa using ⟨hta.symm, ha⟩
  rw [← Finset.add_sum_erase _ f ht', ← Finset.add_sum_erase _ g ht', ← Finset.add_sum_erase _ f ha',
    ← Finset.add_sum_erase _ g ha']
  have : ∑ x ∈ (L.toFinset.erase t).erase a, f x = ∑ x ∈ (L.toFinset.erase t).erase a, g x := by
    apply Finset.sum_congr rfl
    intro s hs
    simp only [Finset.mem_erase, List.mem_toFinset] at hs
    exact h s hs.2.2 hs.2.1 hs.1
  omega

theorem sum_one_uniq {L : List ℕ} (hL : L.Nodup) {f : ℕ → ℕ} (h1 : (L.map f).sum = 1) {t a : ℕ} (ht : t ∈ L) (ha : a ∈ L)
    (ft : f t = 1) (fa : f a = 1) : t = a := by
  by_contra hta
  rw [← List.sum_toFinset f hL] at h1
  have ht' : t ∈ L.toFinset := by simpa using ht
  have ha' : a ∈ L.toFinset.erase t := by simpa using ⟨Ne.symm hta, ha⟩
  rw [← Finset.add_sum_erase _ f ht', ← Finset.add_sum_erase _ f ha'] at h1
  omega

theorem sum_one_ex {L : List ℕ} {f : ℕ → ℕ} (h1 : (L.map f).sum = 1) : ∃ t ∈ L, f t ≠ 0 := by
  by_contra hc
  push Not at hc
  have : (L.map f).sum = 0 := by
    apply List.sum_eq_zero
    intro x hx
    obtain ⟨t, ht, rfl⟩ := List.mem_map.1 hx
    exact hc t ht
  omega

variable (pos) in
/-- The corners 0, 1, 2 are a triangle with the other vertices inside. -/
structure Outer (N : ℕ) : Prop where
  o : ∀ m : Fin 3, 0 < DelG.o (pos m.val) (pos (m + 1).val) (pos (m + 2).val)
  ins : ∀ i < N, 3 ≤ i → ∀ m : Fin 3, 0 < DelG.o (pos m.val) (pos (m + 1).val) (pos i)

theorem Outer.mono {M N : ℕ} (h : M ≤ N) (hO : Outer pos N) : Outer pos M :=
  ⟨hO.o, fun i hi => hO.ins i (hi.trans_le h)⟩

theorem Outer.nonneg {N : ℕ} (hO : Outer pos N) {i : ℕ} (hi : i < N) (m : Fin 3) :
    0 ≤ DelG.o (pos m.val) (pos (m + 1).val) (pos i) := by
  by_cases h3 : 3 ≤ i
  · exact (hO.ins i hi h3 m).le
  · have : ∃ j : Fin 3, i = j.val := ⟨⟨i, by omega⟩, rfl⟩
    obtain ⟨j, rfl⟩ := this
    rcases three m j with rfl | rfl | rfl
    · rw [o_self]
    · rw [o_self']
    · exact (hO.o m).le

variable (pos) in
/-- A triangulation of the outer triangle with empty circles. -/
structure Good (h : Heap) (L : List ℕ) (N : ℕ) : Prop where
  mesh : Mesh h L N
  ori : ∀ t ∈ L, 0 < O pos (h t)
  del : ∀ t ∈ L, ∀ s < N, 0 ≤ I pos (h t) (pos s)
  cnt : ∀ x, Gen pos N x → (∀ m : Fin 3, 0 < o (pos m.val) (pos (m + 1).val) x) → (L.map fun t => D pos (h t) x).sum = 1

theorem in_outer {N : ℕ} (hO : Outer pos N) {c : Cell} (hc : 0 < O pos c) (hv : ∀ i, c.v i < N) {x : Vec2 ℝ}
    (hx : In pos c x) (m : Fin 3) : 0 < o (pos m.val) (pos (m + 1).val) x := by
  have hx := (In_iff c x).1 hx
  apply hx.pos (hO.nonneg (hv 0) m) (hO.nonneg (hv 1) m) (hO.nonneg (hv 2) m)
  by_contra hcon
  push Not at hcon
  have e := affine (pos (c.v 0)) (pos (c.v 1)) (pos (c.v 2)) (pos m.val) (pos (m + 1).val) (pos (m + 2).val)
  have z0 := le_antisymm hcon.1 (hO.nonneg (hv 0) m)
  have z1 := le_antisymm hcon.2.1 (hO.nonneg (hv 1) m)
  have z2 := le_antisymm hcon.2.2 (hO.nonneg (hv 2) m)
  rw [z0, z1, z2] at e
  have := mul_pos hc (hO.o m)
  rw [O] at this
  linarith

theorem ev_in {c : Cell} {y : Vec2 ℝ} (h : In pos c y) (d : Vec2 ℝ) : ∀ᶠ ε in 𝓝[>] (0 : ℝ), In pos c (stp y d ε) := by
  filter_upwards [ev_pos d (h 0), ev_pos d (h 1), ev_pos d (h 2)] with ε h0 h1 h2
  intro i; fin_cases i
  · exact h0
  · exact h1
  · exact h2

/-- Different triangles have no common interior point. -/
theorem Good.disj {h : Heap} {L : List ℕ} {N : ℕ} (G : Good pos h L N) (hO : Outer pos N) {t s : ℕ} (ht : t ∈ L)
    (hs : s ∈ L) {y : Vec2 ℝ} (h1 : In pos (h t) y) (h2 : In pos (h s) y) : t = s := by
  obtain ⟨x, gx, x1, x2⟩ := gen_near pos N y (fun x => In pos (h t) x ∧ In pos (h s) x)
    (fun d => (ev_in h1 d).and (ev_in h2 d))
  exact sum_one_uniq G.mesh.nodup (G.cnt x gx (in_outer hO (G.ori t ht) (G.mesh.vlt t ht) x1)) ht hs (D_one x1) (D_one x2)

/-- Every point inside is in a triangle. -/
theorem Good.cover {h : Heap} {L : List ℕ} {N : ℕ} (G : Good pos h L N) {y : Vec2 ℝ}
    (hy : ∀ m : Fin 3, 0 < o (pos m.val) (pos (m + 1).val) y) : ∃ t ∈ L, InC pos (h t) y := by
  by_contra hc
  push Not at hc
  have hn : ∀ t ∈ L, ∃ i, o (pos ((h t).v i)) (pos ((h t).v (i + 1))) y < 0 := by
    intro t ht
    have := hc t ht
    rw [InC] at this
    push Not at this
    exact this
  obtain ⟨x, gx, x1, x2⟩ := gen_near pos N y (fun x => (∀ m : Fin 3, 0 < o (pos m.val) (pos (m + 1).val) x) ∧
      ∀ t ∈ L.toFinset, ¬ In pos (h t) x) (by
    intro d
    have e1 : ∀ᶠ ε in 𝓝[>] (0 : ℝ), ∀ m ∈ (Finset.univ : Finset (Fin 3)), 0 < o (pos m.val) (pos (m + 1).val) (stp y d ε) := by
      rw [Filter.eventually_all_finset]
      intro m _
      exact ev_pos d (hy m)
    have e2 : ∀ᶠ ε in 𝓝[>] (0 : ℝ), ∀ t ∈ L.toFinset, ¬ In pos (h t) (stp y d ε) := by
      rw [Filter.eventually_all_finset]
      intro t ht
      obtain ⟨i, hi⟩ := hn t (by simpa using ht)
      filter_upwards [ev_neg d hi] with ε he hin
      exact absurd (hin i) (not_lt.2 he.le)
    filter_upwards [e1, e2] with ε h1 h2
    exact ⟨fun m => h1 m (Finset.mem_univ m), h2⟩)
  obtain ⟨t, ht, hd⟩ := sum_one_ex (G.cnt x gx x1)
  exact x2 t (by simpa using ht) (In_of_D hd)

/-- The middle of an edge, moved inside. -/
theorem near_edge {c : Cell} (hc : 0 < O pos c) (i : Fin 3) {y : Vec2 ℝ} (h0 : o (pos (c.v i)) (pos (c.v (i + 1))) y = 0)
    (h1 : 0 < o (pos (c.v (i + 1))) (pos (c.v (i + 2))) y) (h2 : 0 < o (pos (c.v (i + 2))) (pos (c.v i)) y) {d : Vec2 ℝ}
    (hd : 0 < (((pos (c.v (i + 1))).x - (pos (c.v i)).x) * d.y - ((pos (c.v (i + 1))).y - (pos (c.v i)).y) * d.x)) :
    ∀ᶠ ε in 𝓝[>] (0 : ℝ), In pos c (stp y d ε) := by
  filter_upwards [ev_pos d h1, ev_pos d h2, self_mem_nhdsWithin] with ε q1 q2 q3
  have q3 : 0 < ε := q3
  intro m
  rcases three i m with rfl | rfl | rfl
  · rw [o_stp, h0, zero_add]; exact mul_pos q3 hd
  · rw [f11]; exact q1
  · rw [f21]; exact q2

/-- Two triangles on the same side of an edge are the same. -/
theorem Good.uniq {h : Heap} {L : List ℕ} {N : ℕ} (G : Good pos h L N) (hO : Outer pos N) {t s : ℕ} (ht : t ∈ L)
    (hs : s ∈ L) {i j : Fin 3} (h1 : (h t).v i = (h s).v j) (h2 : (h t).v (i + 1) = (h s).v (j + 1)) : t = s := by
  have Ot := G.ori t ht
  have Os := G.ori s hs
  have rt := O_rot (pos := pos) (h t) i
  have rs := O_rot (pos := pos) (h s) j
  rw [← h1, ← h2] at rs
  generalize hu : pos ((h t).v i) = u at rt rs
  generalize hv : pos ((h t).v (i + 1)) = v at rt rs
  generalize hw : pos ((h t).v (i + 2)) = w at rt
  generalize hz : pos ((h s).v (j + 2)) = z at rs
  let m : Vec2 ℝ := ⟨(u.x + v.x) / 2, (u.y + v.y) / 2⟩
  have d0 : 0 < (v.x - u.x) * (w.y - m.y) - (v.y - u.y) * (w.x - m.x) := by
    have : (v.x - u.x) * (w.y - m.y) - (v.y - u.y) * (w.x - m.x) = o u v w := by simp only [o, m]; ring
    rw [this, rt]; exact Ot
  have m0 : o u v m = 0 := by simp only [o, m]; ring
  have m1 : ∀ w, o v w m = o u v w / 2 := by intro w; simp only [o, m]; ring
  have m2 : ∀ w, o w u m = o u v w / 2 := by intro w; simp only [o, m]; ring
  have e1 := near_edge (pos := pos) (c := h t) Ot i (y := m) (d := ⟨w.x - m.x, w.y - m.y⟩)
    (by rw [hu, hv]; exact m0) (by rw [hv, hw, m1, rt]; linarith) (by rw [hu, hw, m2, rt]; linarith)
    (by rw [hu, hv]; exact d0)
  have e2 := near_edge (pos := pos) (c := h s) Os j (y := m) (d := ⟨w.x - m.x, w.y - m.y⟩)
    (by rw [← h1, ← h2, hu, hv]; exact m0) (by rw [← h2, hv, hz, m1, rs]; linarith)
    (by rw [← h1, hu, hz, m2, rs]; linarith) (by rw [← h1, ← h2, hu, hv]; exact d0)
  obtain ⟨ε, q1, q2⟩ := (e1.and e2).exists
  exact G.disj hO ht hs q1 q2

/-- Toward the barycentre. -/
theorem toward {c : Cell} (hc : 0 < O pos c) {y : Vec2 ℝ} (hy : InC pos c y) :
    ∃ d : Vec2 ℝ, ∀ᶠ ε in 𝓝[>] (0 : ℝ), In pos c (stp y d ε) := by
  let g : Vec2 ℝ := ⟨((pos (c.v 0)).x + (pos (c.v 1)).x + (pos (c.v 2)).x) / 3,
    ((pos (c.v 0)).y + (pos (c.v 1)).y + (pos (c.v 2)).y) / 3⟩
  refine ⟨⟨g.x - y.x, g.y - y.y⟩, ?_⟩
  have h1 : Set.Iio (1 : ℝ) ∈ 𝓝[>] (0 : ℝ) := nhdsWithin_le_nhds (Iio_mem_nhds one_pos)
  filter_upwards [self_mem_nhdsWithin, h1] with ε e1 e2
  have e1 : 0 < ε := e1
  have e2 : ε < 1 := e2
  intro i
  have q : o (pos (c.v i)) (pos (c.v (i + 1))) (stp y ⟨g.x - y.x, g.y - y.y⟩ ε) =
      (1 - ε) * o (pos (c.v i)) (pos (c.v (i + 1))) y + ε * o (pos (c.v i)) (pos (c.v (i + 1))) g := by
    simp only [o, stp]; ring
  have gp : o (pos (c.v i)) (pos (c.v (i + 1))) g = O pos c / 3 := by
    fin_cases i <;> simp [o, g, O] <;> ring
  rw [q, gp]
  have := mul_nonneg (sub_nonneg.2 e2.le) (hy i)
  have := mul_pos e1 (by linarith : 0 < O pos c / 3)
  linarith

theorem Good.disj_cl {h : Heap} {L : List ℕ} {N : ℕ} (G : Good pos h L N) (hO : Outer pos N) {t s : ℕ} (ht : t ∈ L)
    (hs : s ∈ L) {y : Vec2 ℝ} (h1 : InC pos (h t) y) (h2 : In pos (h s) y) : t = s := by
  obtain ⟨d, hd⟩ := toward (G.ori t ht) h1
  obtain ⟨ε, q1, q2⟩ := (hd.and (ev_in h2 d)).exists
  exact G.disj hO ht hs q1 q2

/-- A point of an edge is in no further triangle. -/
theorem Good.disj_edge {h : Heap} {L : List ℕ} {N : ℕ} (G : Good pos h L N) (hO : Outer pos N) {t s b : ℕ} (ht : t ∈ L)
    (hs : s ∈ L) (hb : b ∈ L) {y : Vec2 ℝ} (h1 : InC pos (h t) y) {i j : Fin 3}
    (e1 : (h b).v j = (h s).v (i + 1)) (e2 : (h b).v (j + 1) = (h s).v i)
    (k1 : 0 < o (pos ((h s).v (i + 1))) (pos ((h s).v (i + 2))) y) (k2 : 0 < o (pos ((h s).v (i + 2))) (pos ((h s).v i)) y)
    (k3 : 0 < o (pos ((h b).v (j + 1))) (pos ((h b).v (j + 2))) y) (k4 : 0 < o (pos ((h b).v (j + 2))) (pos ((h b).v j)) y) :
    t = s ∨ t = b := by
  obtain ⟨d, hd⟩ := toward (G.ori t ht) h1
  obtain ⟨ε, q0, q1, q2, q3, q4⟩ := (hd.and ((ev_pos d k1).and ((ev_pos d k2).and ((ev_pos d k3).and (ev_pos d k4))))).exists
  obtain ⟨x, gx, x0, x1, x2, x3, x4⟩ := gen_near pos N (stp y d ε)
    (fun x => In pos (h t) x ∧ 0 < o (pos ((h s).v (i + 1))) (pos ((h s).v (i + 2))) x ∧
      0 < o (pos ((h s).v (i + 2))) (pos ((h s).v i)) x ∧ 0 < o (pos ((h b).v (j + 1))) (pos ((h b).v (j + 2))) x ∧
      0 < o (pos ((h b).v (j + 2))) (pos ((h b).v j)) x)
    (fun d => (ev_in q0 d).and ((ev_pos d q1).and ((ev_pos d q2).and ((ev_pos d q3).and (ev_pos d q4)))))
  have hne : pos ((h s).v i) ≠ pos ((h s).v (i + 1)) := by
    intro he
    have := G.ori s hs
    rw [← O_rot _ i, he] at this
    simp [o] at this
  have hg := gx _ (G.mesh.vlt s hs i) _ (G.mesh.vlt s hs (i + 1)) hne
  rcases lt_or_gt_of_ne hg with l | l
  · right
    refine G.disj hO ht hb x0 ?_
    intro m
    rcases three j m with rfl | rfl | rfl
    · rw [e1, e2, o_swap]; linarith
    · rw [f11]; exact x3
    · rw [f21]; exact x4
  · left
    refine G.disj hO ht hs x0 ?_
    intro m
    rcases three i m with rfl | rfl | rfl
    · exact l
    · rw [f11]; exact x1
    · rw [f21]; exact x2

end Zeo.Del
