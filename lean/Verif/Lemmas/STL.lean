import Verif.Model.STL
import Verif.Spec.STL
import Verif.Props.C29

/-! # Registering vertices and facets -/

namespace Zeo.STL
open Spec Classical

theorem equal_within {τ : ℝ} {p q : Vec3 ℝ} : Vec3.equal τ p q ↔ Within τ p q := Iff.rfl

theorem within_self {τ : ℝ} (hτ : 0 ≤ τ) (p : Vec3 ℝ) : Within τ p p := by
  simp [Within, hτ]

theorem find_contents (t : Kd) : ∀ (i : ℕ) (q : Vec3 ℝ), (t.contents.map Prod.fst).Nodup → (i, q) ∈ t.contents →
    find i t = some q := by
  have hn : ∀ (t : Kd) (i : ℕ), i ∉ t.contents.map Prod.fst → find i t = none := by
    intro t
    induction t with
    | nil => intro i _; rfl
    | node n j s p reg c0 c1 h0 h1 =>
      intro i hi
      simp only [Kd.contents, List.map_cons, List.map_append, List.mem_cons, List.mem_append, not_or] at hi
      rw [find, if_neg (fun h => hi.1 h.symm), h0 i hi.2.1, h1 i hi.2.2]
  induction t with
  | nil => intro i q _ h; simp [Kd.contents] at h
  | node n j s p reg c0 c1 h0 h1 =>
    intro i q hd hm
    simp only [Kd.contents, List.map_cons, List.map_append, List.nodup_cons, List.nodup_append, List.mem_append, not_or] at hd
    simp only [Kd.contents, List.mem_cons, List.mem_append, Prod.mk.injEq] at hm
    rw [find]
    by_cases hj : j = i
    · rw [if_pos hj]
      rcases hm with hm | hm | hm
      · rw [hm.2]
      · exact absurd (List.mem_map_of_mem (f := Prod.fst) hm) (by rw [← hj]; exact hd.1.1)
      · exact absurd (List.mem_map_of_mem (f := Prod.fst) hm) (by rw [← hj]; exact hd.1.2)
    · rw [if_neg hj]
      rcases hm with hm | hm | hm
      · exact absurd hm.1.symm hj
      · rw [h0 i q hd.2.1 hm]
      · have : find i c0 = none := hn c0 i (fun h => hd.2.2.2 i h i (List.mem_map_of_mem (f := Prod.fst) hm) rfl)
        rw [this, h1 i q hd.2.2.1 hm]

theorem build_snoc (ps : List (Vec3 ℝ)) (v : Vec3 ℝ) : (Kd.build ps).add v = Kd.build (ps ++ [v]) := by
  simp [Kd.build]

theorem build_ne (ps : List (Vec3 ℝ)) (h : ps ≠ []) : ∃ n i s q reg c0 c1, Kd.build ps = .node n i s q reg c0 c1 := by
  cases hb : Kd.build ps with
  | nil =>
    have := (C28_size_and_ids ps).1
    rw [hb] at this
    exact absurd (List.length_eq_zero_iff.1 this.symm) h
  | node n i s q reg c0 c1 => exact ⟨_, _, _, _, _, _, _, rfl⟩

theorem pointOf_build (junk : Vec3 ℝ) {ps : List (Vec3 ℝ)} {i : ℕ} {p : Vec3 ℝ} (h : ps[i]? = some p) :
    pointOf junk (Kd.build ps) i = p := by
  have hne : ps ≠ [] := by rintro rfl; simp at h
  obtain ⟨n, j, s, q, reg, c0, c1, e⟩ := build_ne ps hne
  have := find_contents (Kd.build ps) i p (C28_ids_nodup ps) ((C28_node_iff ps i p).2 h)
  rw [e] at this ⊢
  simp only [pointOf, this, Option.getD_some]

/-- Registering a vertex: the tree stays the tree of a list of vertices, which at most grows by the vertex itself,
and the node that is returned holds a point within the tolerance. -/
theorem vertReg_spec {τ : ℝ} (hτ : 0 ≤ τ) {junk : Vec3 ℝ} (ps : List (Vec3 ℝ)) (v : Vec3 ℝ)
    (hj : ps = [] → ¬ Within τ v junk) :
    ∃ ps' i w, vertReg τ junk (Kd.build ps) v = (Kd.build ps', i) ∧ ps'[i]? = some w ∧ Within τ v w ∧
      (ps' = ps ∨ (ps' = ps ++ [v] ∧ v ∉ ps ∧ w = v)) := by
  by_cases hp : ps = []
  · subst hp
    refine ⟨[v], 0, v, ?_, rfl, within_self hτ v, Or.inr ⟨rfl, by simp, rfl⟩⟩
    have : ¬ Vec3.equal τ v junk := hj rfl
    have e : vertReg τ junk (Kd.build []) v = if Vec3.equal τ v junk then (Kd.nil, 0) else (Kd.add .nil v, 0) := rfl
    rw [e, if_neg this]; rfl
  · obtain ⟨n, j, s, q, reg, c0, c1, e⟩ := build_ne ps hp
    obtain ⟨i, w, hn, hi, hmin⟩ := C29_nn ps hp v
    have hr : vertReg τ junk (Kd.build ps) v =
        if Vec3.equal τ v w then (Kd.build ps, i) else ((Kd.build ps).add v, (Kd.build ps).size) := by
      rw [e] at hn ⊢
      simp only [vertReg, hn]
    by_cases hw : Vec3.equal τ v w
    · exact ⟨ps, i, w, by rw [hr, if_pos hw], hi, hw, Or.inl rfl⟩
    · refine ⟨ps ++ [v], ps.length, v, ?_, by simp, within_self hτ v, Or.inr ⟨rfl, ?_, rfl⟩⟩
      · rw [hr, if_neg hw, build_snoc, (C28_size_and_ids ps).1]
      · intro hv
        have h0 := hmin v hv
        have h1 : Spec.ed v v = 0 := by simp [Spec.ed, Spec.sqd]
        have h2 : Spec.ed v w = 0 := le_antisymm (h1 ▸ h0) (Real.sqrt_nonneg _)
        have h3 : Spec.sqd v w = 0 := by rw [← ed_sq, h2, zero_mul]
        have hvw : v = w := by
          unfold Spec.sqd at h3
          have a := sq_nonneg (v.x - w.x)
          have b := sq_nonneg (v.y - w.y)
          have c := sq_nonneg (v.z - w.z)
          have hx : (v.x - w.x) ^ 2 = 0 := by linarith
          have hy : (v.y - w.y) ^ 2 = 0 := by linarith
          have hz : (v.z - w.z) ^ 2 = 0 := by linarith
          ext
          · linarith [pow_eq_zero_iff (two_ne_zero) |>.1 hx]
          · linarith [pow_eq_zero_iff (two_ne_zero) |>.1 hy]
          · linarith [pow_eq_zero_iff (two_ne_zero) |>.1 hz]
        exact hw (hvw ▸ within_self hτ v)

theorem vertReg_grow {τ : ℝ} (hτ : 0 ≤ τ) {junk : Vec3 ℝ} (ps : List (Vec3 ℝ)) (v : Vec3 ℝ)
    (hj : ps = [] → ¬ Within τ v junk) :
    ∃ ps' i w, vertReg τ junk (Kd.build ps) v = (Kd.build ps', i) ∧ ps'[i]? = some w ∧ Within τ v w ∧
      ps <+: ps' ∧ (∀ p ∈ ps', p ∈ ps ∨ p = v) ∧ (ps.Nodup → ps'.Nodup) := by
  obtain ⟨ps', i, w, h1, h2, h3, h4⟩ := vertReg_spec hτ ps v hj
  refine ⟨ps', i, w, h1, h2, h3, ?_⟩
  rcases h4 with rfl | ⟨rfl, hv, rfl⟩
  · exact ⟨List.prefix_rfl, fun p hp => Or.inl hp, id⟩
  · refine ⟨List.prefix_append _ _, ?_, ?_⟩
    · intro p hp; simpa using hp
    · intro hn
      rw [List.nodup_append]
      refine ⟨hn, by simp, ?_⟩
      intro a ha b hb
      rw [List.mem_singleton] at hb
      rintro rfl
      exact hv (hb ▸ ha)

/-- A face registered for the triangle `t` in the list `ps` of vertices. -/
def Made (τ : ℝ) (ps : List (Vec3 ℝ)) (t : Corners) (f : Face ℝ) : Prop :=
  ∃ a b c, ps[f.i0]? = some a ∧ ps[f.i1]? = some b ∧ ps[f.i2]? = some c ∧
    Within τ t.1 a ∧ Within τ t.2.1 b ∧ Within τ t.2.2 c ∧ f.norm = (Tri3.create τ a b c).2.norm

theorem prefix_get {ps qs : List (Vec3 ℝ)} (h : ps <+: qs) {i : ℕ} {a : Vec3 ℝ} (e : ps[i]? = some a) :
    qs[i]? = some a := by
  obtain ⟨r, rfl⟩ := h
  rw [List.getElem?_append_left (List.getElem?_eq_some_iff.1 e).1, e]

theorem Made.mono {τ : ℝ} {ps qs : List (Vec3 ℝ)} (h : ps <+: qs) {t f} (m : Made τ ps t f) : Made τ qs t f := by
  obtain ⟨a, b, c, h0, h1, h2, r⟩ := m
  exact ⟨a, b, c, prefix_get h h0, prefix_get h h1, prefix_get h h2, r⟩

theorem facetReg_spec {τ : ℝ} (hτ : 0 ≤ τ) {junk : Vec3 ℝ} (ps : List (Vec3 ℝ)) (fs : List (Face ℝ)) (t : Corners)
    (hj : ps = [] → ¬ Within τ t.1 junk) :
    ∃ ps' f, facetReg τ junk ⟨Kd.build ps, fs⟩ t.1 t.2.1 t.2.2 = ⟨Kd.build ps', fs ++ [f]⟩ ∧ Made τ ps' t f ∧
      ps <+: ps' ∧ ps' ≠ [] ∧ (∀ p ∈ ps', p ∈ ps ∨ Corner p t) ∧ (ps.Nodup → ps'.Nodup) := by
  obtain ⟨p0, i0, a, e0, g0, w0, x0, m0, n0⟩ := vertReg_grow hτ ps t.1 hj
  have hne : p0 ≠ [] := by rintro rfl; simp at g0
  obtain ⟨p1, i1, b, e1, g1, w1, x1, m1, n1⟩ := vertReg_grow (junk := junk) hτ p0 t.2.1 (fun h => absurd h hne)
  have hne1 : p1 ≠ [] := by rintro rfl; simp at g1
  obtain ⟨p2, i2, c, e2, g2, w2, x2, m2, n2⟩ := vertReg_grow (junk := junk) hτ p1 t.2.2 (fun h => absurd h hne1)
  have hne2 : p2 ≠ [] := by rintro rfl; simp at g2
  have ga : p2[i0]? = some a := prefix_get x2 (prefix_get x1 g0)
  have gb : p2[i1]? = some b := prefix_get x2 g1
  refine ⟨p2, ⟨i0, i1, i2, (Tri3.create τ a b c).2.norm⟩, ?_, ⟨a, b, c, ga, gb, g2, w0, w1, w2, rfl⟩,
    (x0.trans x1).trans x2, hne2, ?_, fun h => n2 (n1 (n0 h))⟩
  · simp only [facetReg, e0, e1, e2, pointOf_build junk ga, pointOf_build junk gb, pointOf_build junk g2]
  · intro p hp
    rcases m2 p hp with h | h
    · rcases m1 p h with h | h
      · rcases m0 p h with h | h
        · exact Or.inl h
        · exact Or.inr (Or.inl h)
      · exact Or.inr (Or.inr (Or.inl h))
    · exact Or.inr (Or.inr (Or.inr h))

/-- Registering the facets one after the other. -/
noncomputable def regAll (τ : ℝ) (junk : Vec3 ℝ) (s : St) (ts : List Corners) : St :=
  ts.foldl (fun s t => facetReg τ junk s t.1 t.2.1 t.2.2) s

theorem regAll_spec {τ : ℝ} (hτ : 0 ≤ τ) {junk : Vec3 ℝ} (ts : List Corners) : ∀ (ps : List (Vec3 ℝ)) (fs : List (Face ℝ)),
    (ps = [] → ∀ t, ts.head? = some t → ¬ Within τ t.1 junk) →
    ∃ ps' gs, regAll τ junk ⟨Kd.build ps, fs⟩ ts = ⟨Kd.build ps', fs ++ gs⟩ ∧ List.Forall₂ (Made τ ps') ts gs ∧
      ps <+: ps' ∧ (∀ p ∈ ps', p ∈ ps ∨ ∃ t ∈ ts, Corner p t) ∧ (ps.Nodup → ps'.Nodup) ∧
      (ts ≠ [] → ps' ≠ []) := by
  induction ts with
  | nil =>
    intro ps fs _
    exact ⟨ps, [], by simp [regAll], List.Forall₂.nil, List.prefix_rfl, fun p hp => Or.inl hp, id, fun h => absurd rfl h⟩
  | cons t ts ih =>
    intro ps fs hj
    obtain ⟨p1, f, e, m, x, hne, hm, hn⟩ := facetReg_spec (junk := junk) hτ ps fs t (fun h => hj h t rfl)
    obtain ⟨p2, gs, e2, m2, x2, hm2, hn2, _⟩ := ih p1 (fs ++ [f]) (fun h => absurd h hne)
    refine ⟨p2, f :: gs, ?_, List.Forall₂.cons (m.mono x2) m2, x.trans x2, ?_, fun h => hn2 (hn h), ?_⟩
    · rw [regAll, List.foldl_cons, e]
      have := e2
      rw [regAll] at this
      rw [this]; simp
    · intro p hp
      rcases hm2 p hp with h | ⟨u, hu, hc⟩
      · rcases hm p h with h | h
        · exact Or.inl h
        · exact Or.inr ⟨t, List.mem_cons_self, h⟩
      · exact Or.inr ⟨u, List.mem_cons_of_mem _ hu, hc⟩
    · intro _ h
      rw [h] at x2
      exact hne (List.prefix_nil.1 x2)

theorem toPH_build {ps : List (Vec3 ℝ)} (h : ps ≠ []) (fs : List (Face ℝ)) :
    toPH ⟨Kd.build ps, fs⟩ = some ⟨ps.length, fun i => ps.getD i .zero, fs⟩ := by
  obtain ⟨n, j, s, q, reg, c0, c1, e⟩ := build_ne ps h
  have := C28_toArray ps
  rw [e] at this ⊢
  simp only [toPH, this]
  congr 2
  · funext i; simp [Array.getD_eq_getD_getElem?]

/-- What registering a list of facets and converting gives. -/
theorem toPH_regAll {τ : ℝ} (hτ : 0 ≤ τ) {junk : Vec3 ℝ} {t : Corners} {ts : List Corners} (hj : ¬ Within τ t.1 junk) :
    ∃ q, toPH (regAll τ junk .init (t :: ts)) = some q ∧ Holds τ (t :: ts) q ∧
      (∀ f ∈ q.face, f.norm = (Tri3.create τ (q.vert f.i0) (q.vert f.i1) (q.vert f.i2)).2.norm) ∧
      (∀ j k, j < k → k < q.nv → q.vert j ≠ q.vert k) := by
  obtain ⟨ps, gs, e, m, -, hm, hn, hne⟩ := regAll_spec (junk := junk) hτ (t :: ts) [] []
    (fun _ u hu => by rw [List.head?_cons, Option.some_inj] at hu; exact hu ▸ hj)
  have hps : ps ≠ [] := hne (by simp)
  have e' : regAll τ junk .init (t :: ts) = ⟨Kd.build ps, gs⟩ := e
  have gd : ∀ {i : ℕ} {a : Vec3 ℝ}, ps[i]? = some a → i < ps.length ∧ ps.getD i Vec3.zero = a := by
    intro i a h
    exact ⟨(List.getElem?_eq_some_iff.1 h).1, by simp [List.getD, h]⟩
  refine ⟨_, by rw [e', toPH_build hps], ⟨m.length_eq.symm, ?_, ?_⟩, ?_, ?_⟩
  · intro i u f hu hf
    dsimp only at hf
    obtain ⟨a, b, c, h0, h1, h2, w0, w1, w2, -⟩ : Made τ ps u f := by
      have h1 := (List.getElem?_eq_some_iff.1 hu)
      have h2 := (List.getElem?_eq_some_iff.1 hf)
      have := (List.forall₂_iff_get.1 m).2 i h1.1 h2.1
      simp only [List.get_eq_getElem, h1.2, h2.2] at this
      exact this
    dsimp only
    rw [(gd h0).2, (gd h1).2, (gd h2).2]
    exact ⟨⟨(gd h0).1, w0⟩, ⟨(gd h1).1, w1⟩, ⟨(gd h2).1, w2⟩⟩
  · intro k hk
    have hk' : ps[k]? = some ps[k] := List.getElem?_eq_getElem hk
    rcases hm _ (List.getElem_mem hk) with h | ⟨u, hu, hc⟩
    · simp at h
    · exact ⟨u, hu, by simpa [List.getD, hk'] using hc⟩
  · intro f hf
    dsimp only at hf
    obtain ⟨i, hi, rfl⟩ := List.getElem_of_mem hf
    have hi' : i < (t :: ts).length := by rw [m.length_eq]; exact hi
    obtain ⟨a, b, c, h0, h1, h2, -, -, -, hnorm⟩ := (List.forall₂_iff_get.1 m).2 i hi' hi
    simp only [List.get_eq_getElem] at h0 h1 h2 hnorm
    dsimp only
    rw [hnorm, (gd h0).2, (gd h1).2, (gd h2).2]
  · intro j k hjk hk
    have hk' : k < ps.length := hk
    have hj' : j < ps.length := hjk.trans hk'
    simp only [List.getD, List.getElem?_eq_getElem hk', List.getElem?_eq_getElem hj', Option.getD_some]
    intro h
    exact absurd ((List.Nodup.getElem_inj_iff (hn List.nodup_nil)).1 h) hjk.ne

/-- Corners that are apart are kept exactly. -/
theorem Holds.exact {τ : ℝ} {ts : List Corners} {q : PH ℝ} (h : Holds τ ts q) (ha : Spread τ ts) : Holds 0 ts q := by
  refine ⟨h.count, ?_, h.used⟩
  have key : ∀ p t k, t ∈ ts → Corner p t → k < q.nv → Within τ p (q.vert k) → Within 0 p (q.vert k) := by
    intro p t k ht hc hk hw
    obtain ⟨u, hu, hcu⟩ := h.used k hk
    rw [← ha t ht u hu p _ hc hcu hw]
    exact within_self le_rfl p
  intro i t f ht hf
  obtain ⟨⟨a0, b0⟩, ⟨a1, b1⟩, ⟨a2, b2⟩⟩ := h.corners i t f ht hf
  have hm := List.mem_of_getElem? ht
  exact ⟨⟨a0, key _ t _ hm (Or.inl rfl) a0 b0⟩, ⟨a1, key _ t _ hm (Or.inr (Or.inl rfl)) a1 b1⟩,
    ⟨a2, key _ t _ hm (Or.inr (Or.inr rfl)) a2 b2⟩⟩

end Zeo.STL
