import Verif.Lemmas.VorCell

/-! # The loops of the cells -/

namespace Zeo.Del
open DelG

variable {pos : ℕ → Vec2 ℝ} {h : Heap} {L : List ℕ} {N : ℕ}

/-- The loops are extended. -/
def upd (f : ℕ → List LoopCell) (vl : List VCell) : List VCell := vl.map fun c => ⟨c.seed, c.loop ++ f c.seed⟩

theorem upd_seed (f : ℕ → List LoopCell) (vl : List VCell) : (upd f vl).map VCell.seed = vl.map VCell.seed := by
  simp [upd, Function.comp_def]

theorem upd_upd (f g : ℕ → List LoopCell) (vl : List VCell) : upd g (upd f vl) = upd (fun s => f s ++ g s) vl := by
  simp [upd, Function.comp_def]

theorem upd_nil (vl : List VCell) : upd (fun _ => []) vl = vl := by simp [upd]

theorem upd_out {f : ℕ → List LoopCell} {vl : List VCell} (hf : ∀ c ∈ vl, f c.seed = []) : upd f vl = vl := by
  unfold upd
  conv_rhs => rw [← List.map_id vl]
  apply List.map_congr_left
  intro c hc
  rw [hf c hc]; simp

theorem addLoop_eq (p : ℕ) (x : LoopCell) : ∀ vl : List VCell, (vl.map VCell.seed).Nodup →
    addLoop vl p x = upd (fun s => if s = p then [x] else []) vl
  | [], _ => rfl
  | c :: l, hn => by
    rw [List.map_cons, List.nodup_cons] at hn
    have hu : upd (fun s => if s = p then [x] else []) (c :: l) =
      ⟨c.seed, c.loop ++ if c.seed = p then [x] else []⟩ :: upd (fun s => if s = p then [x] else []) l := rfl
    rw [addLoop, hu]
    by_cases hc : c.seed = p
    · rw [if_pos hc, if_pos hc, upd_out]
      intro c' hc'
      rw [if_neg]
      intro e
      exact hn.1 (by rw [hc, ← e]; exact List.mem_map_of_mem hc')
    · rw [if_neg hc, if_neg hc, addLoop_eq p x l hn.2]; simp

/-- What a corner of a triangle adds to a cell. -/
def nodesAt (h : Heap) (t : ℕ) (i : Fin 3) (node : Vec2 ℝ) (s : ℕ) : List LoopCell :=
  match (h t).adj i with
  | none => []
  | some a => if s = (h t).v i then [⟨t, a, node⟩] else []

theorem addTri_eq (t : ℕ) (i : Fin 3) (node : Vec2 ℝ) {vl : List VCell} (hn : (vl.map VCell.seed).Nodup) :
    addTri h vl t i node = upd (nodesAt h t i node) vl := by
  unfold addTri nodesAt
  cases (h t).adj i with
  | none => exact (upd_nil vl).symm
  | some a => exact addLoop_eq _ _ _ hn

/-- What a triangle adds to a cell. -/
noncomputable def nodesOf (pos : ℕ → Vec2 ℝ) (h : Heap) (s t : ℕ) : List LoopCell :=
  nodesAt h t 0 (nod pos h t) s ++ nodesAt h t 1 (nod pos h t) s ++ nodesAt h t 2 (nod pos h t) s

theorem addTris_eq : ∀ (L : List ℕ) (vl : List VCell), (∀ t ∈ L, 0 < O pos (h t)) → (vl.map VCell.seed).Nodup →
    addTris pos h L vl = some (upd (fun s => L.flatMap (nodesOf pos h s)) vl)
  | [], vl, _, _ => by rw [addTris]; simp only [List.flatMap_nil]; rw [upd_nil]
  | t :: l, vl, ho, hn => by
    have Ot := ho t List.mem_cons_self
    rw [O] at Ot
    rw [addTris, if_neg (by rw [divisor_eq]; positivity)]
    dsimp only
    rw [addTri_eq t 0 _ hn, addTri_eq t 1 _ (by rw [upd_seed]; exact hn), addTri_eq t 2 _ (by rw [upd_seed, upd_seed]; exact hn),
      upd_upd, upd_upd, addTris_eq l _ (fun s hs => ho s (List.mem_cons_of_mem _ hs)) (by rw [upd_seed]; exact hn), upd_upd]
    simp only [List.flatMap_cons, nodesOf, nod, List.append_assoc]

theorem mem_nodesAt {t : ℕ} {i : Fin 3} {node : Vec2 ℝ} {s : ℕ} {x : LoopCell} :
    x ∈ nodesAt h t i node s ↔ (h t).v i = s ∧ (h t).adj i = some x.t1 ∧ x.t0 = t ∧ x.node = node := by
  unfold nodesAt
  cases ha : (h t).adj i with
  | none => simp
  | some a =>
    by_cases hs : s = (h t).v i
    · simp only [hs, if_true, List.mem_singleton, true_and, Option.some.injEq]
      constructor
      · rintro rfl; exact ⟨rfl, rfl, rfl⟩
      · rintro ⟨h1, h2, h3⟩; cases x; simp at h1 h2 h3; simp [h1, h2, h3]
    · simp [hs, Ne.symm hs]

theorem mem_nodesOf {s t : ℕ} {x : LoopCell} :
    x ∈ nodesOf pos h s t ↔ ∃ i, (h t).v i = s ∧ (h t).adj i = some x.t1 ∧ x.t0 = t ∧ x.node = nod pos h t := by
  unfold nodesOf
  simp only [List.mem_append, mem_nodesAt]
  constructor
  · rintro ((q | q) | q)
    · exact ⟨0, q⟩
    · exact ⟨1, q⟩
    · exact ⟨2, q⟩
  · rintro ⟨i, q⟩
    fin_cases i
    · exact Or.inl (Or.inl q)
    · exact Or.inl (Or.inr q)
    · exact Or.inr q

theorem nodesAt_nil {t : ℕ} {i : Fin 3} {node : Vec2 ℝ} {s : ℕ} (hs : (h t).v i ≠ s) : nodesAt h t i node s = [] := by
  rw [List.eq_nil_iff_forall_not_mem]
  intro x hx
  exact hs (mem_nodesAt.1 hx).1

theorem nodesAt_sub (t : ℕ) (i : Fin 3) (node : Vec2 ℝ) (s : ℕ) : ((nodesAt h t i node s).map LoopCell.t0).Sublist [t] := by
  unfold nodesAt
  cases (h t).adj i with
  | none => simp
  | some a => dsimp only; split <;> simp

theorem nodesOf_sub {s t : ℕ} (hi : Function.Injective (h t).v) : ((nodesOf pos h s t).map LoopCell.t0).Sublist [t] := by
  unfold nodesOf
  by_cases h0 : (h t).v 0 = s
  · rw [nodesAt_nil (i := 1) (fun e => by have := hi (e.trans h0.symm); simp at this),
      nodesAt_nil (i := 2) (fun e => by have := hi (e.trans h0.symm); simp at this), List.append_nil, List.append_nil]
    exact nodesAt_sub ..
  · rw [nodesAt_nil h0]
    by_cases h1 : (h t).v 1 = s
    · rw [nodesAt_nil (i := 2) (fun e => by have := hi (e.trans h1.symm); simp at this), List.append_nil, List.nil_append]
      exact nodesAt_sub ..
    · rw [nodesAt_nil h1, List.nil_append, List.nil_append]
      exact nodesAt_sub ..

theorem flat_sub (s : ℕ) : ∀ L : List ℕ, (∀ t ∈ L, Function.Injective (h t).v) →
    ((L.flatMap (nodesOf pos h s)).map LoopCell.t0).Sublist L
  | [], _ => by simp
  | t :: l, hi => by
    rw [List.flatMap_cons, List.map_append]
    exact List.Sublist.append (nodesOf_sub (hi t List.mem_cons_self)) (flat_sub s l fun a ha => hi a (List.mem_cons_of_mem _ ha))

/-- The loop of a vertex before it is closed. -/
noncomputable def star (pos : ℕ → Vec2 ℝ) (h : Heap) (L : List ℕ) (p : ℕ) : List LoopCell := L.flatMap (nodesOf pos h p)

theorem mem_star {p : ℕ} {x : LoopCell} :
    x ∈ star pos h L p ↔ x.t0 ∈ L ∧ x.node = nod pos h x.t0 ∧ ∃ i, (h x.t0).v i = p ∧ (h x.t0).adj i = some x.t1 := by
  unfold star
  simp only [List.mem_flatMap, mem_nodesOf]
  constructor
  · rintro ⟨t, ht, i, h1, h2, rfl, h3⟩; exact ⟨ht, h3, i, h1, h2⟩
  · rintro ⟨ht, h3, i, h1, h2⟩; exact ⟨_, ht, i, h1, h2, rfl, h3⟩

theorem Mesh.star_at (M : Mesh h L N) {p : ℕ} (h3 : 3 ≤ p) {t : ℕ} (ht : t ∈ L) (hat : At h p t) :
    ∃ x ∈ star pos h L p, x.t0 = t := by
  obtain ⟨i, hi⟩ := hat
  obtain ⟨a, ha⟩ := M.at_adj h3 ht hi
  exact ⟨⟨t, a, nod pos h t⟩, mem_star.2 ⟨ht, rfl, i, hi, ha⟩, rfl⟩

theorem Mesh.star_nodup (M : Mesh h L N) (p : ℕ) : ((star pos h L p).map LoopCell.t0).Nodup :=
  (flat_sub p L fun t ht => M.inj t ht).nodup M.nodup

theorem Mesh.star_length (M : Mesh h L N) (p : ℕ) : (star pos h L p).length ≤ L.length := by
  have := (flat_sub (pos := pos) p L fun t ht => M.inj t ht).length_le
  rwa [List.length_map] at this

theorem Good.star_cyc (G : Good pos h L N) (hO : Outer pos N) {p : ℕ} (h3 : 3 ≤ p) : Cyc (star pos h L p) := by
  refine ⟨G.mesh.star_nodup p, ?_, ?_⟩
  · intro x hx
    obtain ⟨h1, -, i, h4, h5⟩ := mem_star.1 hx
    obtain ⟨haL, k, hk, -⟩ := G.mesh.at_next h1 h4 h5
    exact G.mesh.star_at h3 haL ⟨k, hk⟩
  · intro C ⟨x0, hx0, hC0⟩ hs x hx
    obtain ⟨g1, g2, j, g4, g5⟩ := mem_star.1 hx
    obtain ⟨y, hy, hCy, e⟩ := G.star_trans hO (p := p) (fun t => ∃ y ∈ star pos h L p, C y ∧ y.t0 = t) ⟨_, x0, hx0, hC0, rfl⟩ (by
        rintro t ⟨y, hy, -, rfl⟩
        obtain ⟨h1, -, i, h4, -⟩ := mem_star.1 hy
        exact ⟨h1, i, h4⟩) (by
        rintro t ⟨y, hy, hCy, rfl⟩
        obtain ⟨h1, -, i, h4, h5⟩ := mem_star.1 hy
        obtain ⟨haL, k, hk, -⟩ := G.mesh.at_next h1 h4 h5
        obtain ⟨z, hz, ez⟩ := G.mesh.star_at (pos := pos) h3 haL ⟨k, hk⟩
        exact ⟨i, y.t1, h4, h5, z, hz, hs y hy hCy z hz ez, ez⟩) g1 ⟨j, g4⟩
    rw [nodup_uniq (G.mesh.star_nodup p) hx hy e.symm]; exact hCy

theorem Good.star_ne (G : Good pos h L N) (hO : Outer pos N) {p : ℕ} (h3 : 3 ≤ p) (hp : p < N)
    (hinj : ∀ i < N, pos i = pos p → i = p) : star pos h L p ≠ [] := by
  obtain ⟨t, ht, i, hi, -⟩ := G.cone hO h3 hp hinj .zero
  obtain ⟨x, hx, -⟩ := G.mesh.star_at (pos := pos) h3 ht ⟨i, hi⟩
  exact List.ne_nil_of_mem hx

/-- A closed loop of the triangles around a vertex. -/
structure Closed (pos : ℕ → Vec2 ℝ) (h : Heap) (L : List ℕ) (p : ℕ) (r : List LoopCell) : Prop where
  perm : r.Perm (star pos h L p)
  step : ∀ e ∈ Spec.loopEdges (r.map LoopCell.node), ∃ x ∈ star pos h L p, ∃ y ∈ star pos h L p, x.t1 = y.t0 ∧ e = (x.node, y.node)

theorem edges_chn : ∀ (r : List LoopCell) (x z : LoopCell), Chn (x :: r) → ((x :: r).getLast (by simp)).t1 = z.t0 →
    ∀ e ∈ ((x :: r).map LoopCell.node).zip (r.map LoopCell.node ++ [z.node]),
      ∃ a ∈ x :: r, ∃ b ∈ r ++ [z], a.t1 = b.t0 ∧ e = (a.node, b.node)
  | [], x, z, _, hz, e, he => by
    simp only [List.map_cons, List.map_nil, List.nil_append, List.zip_cons_cons, List.zip_nil_right, List.mem_singleton] at he
    exact ⟨x, by simp, z, by simp, by simpa using hz, he⟩
  | y :: r, x, z, hc, hz, e, he => by
    have hc := List.isChain_cons_cons.1 hc
    simp only [List.map_cons, List.cons_append, List.zip_cons_cons, List.mem_cons] at he
    rcases he with q | q
    · exact ⟨x, by simp, y, by simp, hc.1, q⟩
    · obtain ⟨a, ha, b, hb, k1, k2⟩ := edges_chn r y z hc.2 (by simpa using hz) e (by
        simp only [List.map_cons]
        exact q)
      exact ⟨a, List.mem_cons_of_mem _ ha, b, by simp at hb ⊢; tauto, k1, k2⟩

theorem Good.closed (G : Good pos h L N) (hO : Outer pos N) {p : ℕ} (h3 : 3 ≤ p) (hp : p < N)
    (hinj : ∀ i < N, pos i = pos p → i = p) {fuel : ℕ} (hf : 2 * L.length ≤ fuel) :
    ∃ r, closeLoop fuel (star pos h L p).length (star pos h L p) = some r ∧ Closed pos h L p r := by
  obtain ⟨x, r, h1, h2, h4, h5⟩ := closeLoop_cyc (G.star_ne hO h3 hp hinj) (G.star_cyc hO h3) (fuel := fuel)
    (by have := G.mesh.star_length (pos := pos) p; omega)
  refine ⟨x :: r, h1, h2, ?_⟩
  intro e he
  have he' : e ∈ ((x :: r).map LoopCell.node).zip (r.map LoopCell.node ++ [x.node]) := he
  obtain ⟨a, ha, b, hb, k1, k2⟩ := edges_chn r x x h4 h5 e he'
  exact ⟨a, h2.mem_iff.1 ha, b, h2.mem_iff.1 (by simp at hb ⊢; tauto), k1, k2⟩

theorem closeAll_ok {fuel : ℕ} {P : ℕ → List LoopCell → Prop} : ∀ vl : List VCell,
    (∀ c ∈ vl, ∃ r, closeLoop fuel c.loop.length c.loop = some r ∧ P c.seed r) →
    ∃ vl', closeAll fuel vl = some vl' ∧ vl'.map VCell.seed = vl.map VCell.seed ∧ ∀ c ∈ vl', P c.seed c.loop
  | [], _ => ⟨[], rfl, rfl, by simp⟩
  | c :: l, hl => by
    obtain ⟨r, h1, h2⟩ := hl c List.mem_cons_self
    obtain ⟨vl', k1, k2, k3⟩ := closeAll_ok l fun c hc => hl c (List.mem_cons_of_mem _ hc)
    refine ⟨⟨c.seed, r⟩ :: vl', ?_, by simp [k2], ?_⟩
    · rw [closeAll, h1, Option.bind_some, k1]; rfl
    · intro c' hc'
      rcases List.mem_cons.1 hc' with q | q
      · rw [q]; exact h2
      · exact k3 c' q

end Zeo.Del
