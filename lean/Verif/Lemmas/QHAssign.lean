import Verif.Lemmas.QHLoop

/-! # Visible facets and reassignment of points -/

namespace Zeo.QHMesh
noncomputable section
open Classical QHGeom Spec QH

variable {τ : ℝ} {pos : ℕ → Vec3 ℝ} {N : ℕ}

/-- A facet marked as visible. -/
def marked (f : QFacet) : QFacet := { f with visible := true, check := true }

/-- The facets in `S` marked as visible. -/
def markSet (q : QH) (S : ℕ → Prop) : QH := { q with fac := fun i => if S i then marked (q.fac i) else q.fac i }

theorem markSet_marks (q : QH) (S : ℕ → Prop) (i : ℕ) : ((markSet q S).fac i).p = (q.fac i).p ∧
    ((markSet q S).fac i).n = (q.fac i).n ∧ ((markSet q S).fac i).c = (q.fac i).c ∧
    ((markSet q S).fac i).merge = (q.fac i).merge := by
  unfold markSet
  dsimp only
  split <;> exact ⟨rfl, rfl, rfl, rfl⟩

theorem markSet_comp (q : QH) (S S' : ℕ → Prop) : markSet (markSet q S) S' = markSet q fun i => S i ∨ S' i := by
  unfold markSet
  dsimp only
  congr 1
  ext1 i
  by_cases h1 : S i <;> by_cases h2 : S' i <;> simp [h1, h2, marked]

theorem markSet_one (q : QH) (f : ℕ) : q.set f (marked (q.fac f)) = markSet q fun i => i = f := by
  unfold QH.set markSet
  congr 1
  ext1 i
  by_cases h : i = f
  · subst h; simp
  · simp [h]

/-- One of the three calls in `mergeVis`. -/
def mergeGo (k f : ℕ) (q : QH) (s : Fin 3) : QH :=
  match (q.fac f).c s with
  | none => q
  | some g => if (q.fac f).merge s ∧ ¬ (q.fac g).check then mergeVis k q g else q

theorem mergeVis_succ (k : ℕ) (q : QH) (f : ℕ) : mergeVis (k + 1) q f =
    mergeGo k f (mergeGo k f (mergeGo k f (q.set f (marked (q.fac f))) 0) 1) 2 := by
  rw [mergeVis]
  rfl

/-- `mergeVis` marks facets linked to the first one by merged edges. -/
theorem mergeVis_spec (V : ℕ → Prop) (k : ℕ) : ∀ (q : QH) (f : ℕ), V f →
    (∀ f, V f → ∀ s g, (q.fac f).merge s = true → (q.fac f).c s = some g → V g) →
    ∃ S : ℕ → Prop, (∀ i, S i → V i) ∧ (0 < k → S f) ∧ mergeVis k q f = markSet q S := by
  induction k with
  | zero =>
    intro q f _ _
    refine ⟨fun _ => False, fun _ h => h.elim, fun h => absurd h (by omega), ?_⟩
    unfold mergeVis markSet
    simp
  | succ k ih =>
    intro q f hf hV
    have hgo : ∀ (S : ℕ → Prop), (∀ i, S i → V i) → ∀ s : Fin 3, ∃ S' : ℕ → Prop, (∀ i, S' i → V i) ∧ (∀ i, S i → S' i) ∧
        mergeGo k f (markSet q S) s = markSet q S' := by
      intro S hS s
      unfold mergeGo
      obtain ⟨-, -, e3, e4⟩ := markSet_marks q S f
      cases hc : ((markSet q S).fac f).c s with
      | none => exact ⟨S, hS, fun _ h => h, rfl⟩
      | some g =>
        dsimp only
        split
        · rename_i hm
          rw [e3] at hc
          rw [e4] at hm
          obtain ⟨S', h1, -, h3⟩ := ih (markSet q S) g (hV f hf s g hm.1 hc) (by
            intro f hf s g
            obtain ⟨-, -, e3, e4⟩ := markSet_marks q S f
            rw [e3, e4]; exact hV f hf s g)
          refine ⟨fun i => S i ∨ S' i, ?_, fun _ h => Or.inl h, by rw [h3, markSet_comp]⟩
          rintro i (h | h)
          · exact hS i h
          · exact h1 i h
        · exact ⟨S, hS, fun _ h => h, rfl⟩
    have h0 : ∀ i, (fun i => i = f) i → V i := by rintro i rfl; exact hf
    obtain ⟨S1, a1, b1, c1⟩ := hgo _ h0 0
    obtain ⟨S2, a2, b2, c2⟩ := hgo S1 a1 1
    obtain ⟨S3, a3, b3, c3⟩ := hgo S2 a2 2
    refine ⟨S3, a3, fun _ => b3 _ (b2 _ (b1 _ rfl)), ?_⟩
    rw [mergeVis_succ, markSet_one, c1, c2, c3]

theorem testBB_congr {f g : QFacet} (h1 : f.p = g.p) (h2 : f.n = g.n) (x : ℕ) : testBB τ pos f x = testBB τ pos g x := by
  unfold testBB facetOn; rw [h1, h2]

theorem testBB_mark (q : QH) (S : ℕ → Prop) (f x : ℕ) : testBB τ pos ((markSet q S).fac f) x = testBB τ pos (q.fac f) x :=
  testBB_congr (markSet_marks q S f).1 (markSet_marks q S f).2.1 x

/-- What the first loop of `visibleSet` does when the point lies on no facet. -/
theorem visLoop_spec (x : ℕ) (V : ℕ → Prop) (q : QH) (hV : ∀ f, V f → ∀ s g, (q.fac f).merge s = true →
    (q.fac f).c s = some g → V g) (hc : ∀ f, V f → (q.fac f).check = false) (l : List ℕ) :
    ∀ S : ℕ → Prop, (∀ i, S i → V i) →
    (∀ f ∈ l, (V f ∧ testBB τ pos (q.fac f) x = 1) ∨ (¬ V f ∧ testBB τ pos (q.fac f) x = -1)) →
    ∃ S' : ℕ → Prop, (∀ i, S' i → V i) ∧ (∀ i, S i → S' i) ∧ (∀ f ∈ l, V f → S' f) ∧
      visLoop τ pos x l (markSet q S) = some (markSet q S') := by
  induction l with
  | nil => intro S hS _; exact ⟨S, hS, fun _ h => h, by simp, rfl⟩
  | cons f l ih =>
    intro S hS ht
    have ht' := fun g hg => ht g (List.mem_cons_of_mem _ hg)
    unfold visLoop
    rw [testBB_mark]
    rcases ht f List.mem_cons_self with ⟨hv, e⟩ | ⟨hv, e⟩
    · simp only [e]
      rw [if_neg (by decide)]
      by_cases hck : ((markSet q S).fac f).check
      · rw [if_neg (by simp [hck])]
        have hSf : S f := by
          by_contra hSf
          unfold markSet at hck
          simp only [if_neg hSf] at hck
          rw [hc f hv] at hck
          exact absurd hck (by decide)
        obtain ⟨S', k1, k2, k3, k4⟩ := ih S hS ht'
        refine ⟨S', k1, k2, ?_, k4⟩
        intro g hg hgv
        rcases List.mem_cons.1 hg with rfl | hg
        · exact k2 _ hSf
        · exact k3 g hg hgv
      · rw [if_pos ⟨trivial, hck⟩]
        obtain ⟨S1, m1, m2, m3⟩ := mergeVis_spec V ((markSet q S).fl.length + 1) (markSet q S) f hv (by
          intro f hf s g
          obtain ⟨-, -, e3, e4⟩ := markSet_marks q S f
          rw [e3, e4]; exact hV f hf s g)
        rw [m3, markSet_comp]
        obtain ⟨S', k1, k2, k3, k4⟩ := ih (fun i => S i ∨ S1 i) (by
          rintro i (h | h)
          · exact hS i h
          · exact m1 i h) ht'
        refine ⟨S', k1, fun i hi => k2 i (Or.inl hi), ?_, k4⟩
        intro g hg hgv
        rcases List.mem_cons.1 hg with rfl | hg
        · exact k2 _ (Or.inr (m2 (by omega)))
        · exact k3 g hg hgv
    · simp only [e]
      rw [if_neg (by decide), if_neg (by simp)]
      obtain ⟨S', k1, k2, k3, k4⟩ := ih S hS ht'
      refine ⟨S', k1, k2, ?_, k4⟩
      intro g hg hgv
      rcases List.mem_cons.1 hg with rfl | hg
      · exact absurd hgv hv
      · exact k3 g hg hgv

/-- The loop stops when the point lies on a facet. -/
theorem visLoop_none (x : ℕ) (q : QH) (l : List ℕ) : ∀ S : ℕ → Prop, (∃ f ∈ l, testBB τ pos (q.fac f) x = 0) →
    visLoop τ pos x l (markSet q S) = none := by
  induction l with
  | nil => rintro S ⟨f, hf, -⟩; exact absurd hf List.not_mem_nil
  | cons g l ih =>
    rintro S ⟨f, hf, e⟩
    unfold visLoop
    rw [testBB_mark]
    dsimp only
    split
    · rfl
    · rename_i hg
      have hf' : f ∈ l := by
        rcases List.mem_cons.1 hf with rfl | h
        · exact absurd e hg
        · exact h
      split
      · obtain ⟨S1, -, -, m3⟩ := mergeVis_spec (fun _ => True) ((markSet q S).fl.length + 1) (markSet q S) g trivial
          (fun _ _ _ _ _ _ => trivial)
        rw [m3, markSet_comp]
        exact ih _ ⟨f, hf', e⟩
      · exact ih _ ⟨f, hf', e⟩

theorem testBB_val (f : QFacet) (x : ℕ) : testBB τ pos f x = 1 ∨ testBB τ pos f x = -1 ∨ testBB τ pos f x = 0 := by
  unfold testBB
  dsimp only
  split
  · simp
  · split
    · simp
    · split
      · simp
      · split <;> simp

theorem foldl_op (fac : ℕ → QFacet) (vs : List ℕ) : ∀ acc y, y ∈ vs.foldl (fun l f => (fac f).op ++ l) acc ↔
    y ∈ acc ∨ ∃ f ∈ vs, y ∈ (fac f).op := by
  induction vs with
  | nil => simp
  | cons f vs ih =>
    intro acc y
    rw [List.foldl_cons, ih]
    simp only [List.mem_append, List.mem_cons, exists_eq_or_imp]
    tauto

theorem foldl_op_nodup (fac : ℕ → QFacet) (vs : List ℕ) (hnd : vs.Nodup) (h1 : ∀ f ∈ vs, (fac f).op.Nodup)
    (h2 : ∀ f ∈ vs, ∀ g ∈ vs, ∀ x, x ∈ (fac f).op → x ∈ (fac g).op → f = g) :
    ∀ acc : List ℕ, acc.Nodup → (∀ f ∈ vs, ∀ x ∈ (fac f).op, x ∉ acc) →
      (vs.foldl (fun l f => (fac f).op ++ l) acc).Nodup := by
  induction vs with
  | nil => intro acc h _; exact h
  | cons f vs ih =>
    intro acc ha hd
    rw [List.nodup_cons] at hnd
    rw [List.foldl_cons]
    refine ih hnd.2 (fun g hg => h1 g (List.mem_cons_of_mem _ hg))
      (fun g hg k hk => h2 g (List.mem_cons_of_mem _ hg) k (List.mem_cons_of_mem _ hk)) _ ?_ ?_
    · exact List.Nodup.append (h1 f List.mem_cons_self) ha fun x hx hx' => hd f List.mem_cons_self x hx hx'
    · intro g hg x hx hmem
      rcases List.mem_append.1 hmem with h | h
      · have := h2 g (List.mem_cons_of_mem _ hg) f List.mem_cons_self x hx h
        exact hnd.1 (this ▸ hg)
      · exact hd g (List.mem_cons_of_mem _ hg) x hx h

/-- Sorting points by one facet. -/
theorem assignStep_fold (f : QFacet) (l : List ℕ) :
    ∀ (g : QFacet) (acc : List ℕ), g.p = f.p → g.n = f.n →
      ∃ op dmax, l.foldl (assignStep τ pos) (g, acc) =
          ({ g with op := op, dmax := dmax }, acc ++ l.filter fun y => testBB τ pos f y = -1) ∧
        op.Perm (g.op ++ l.filter fun y => testBB τ pos f y = 1) := by
  induction l with
  | nil => intro g acc _ _; exact ⟨g.op, g.dmax, by simp, by simp⟩
  | cons y l ih =>
    intro g acc hp hn
    have ht := testBB_congr (τ := τ) (pos := pos) hp hn y
    rw [List.foldl_cons]
    rcases testBB_val (τ := τ) (pos := pos) f y with e | e | e
    · have e' := ht.trans e
      have hstep : ∃ op dmax, assignStep τ pos (g, acc) y = ({ g with op := op, dmax := dmax }, acc) ∧
          op.Perm (g.op ++ [y]) := by
        unfold assignStep
        simp only [e']
        rw [if_neg (by decide), if_neg (by decide)]
        split
        · exact ⟨_, _, rfl, List.Perm.refl _⟩
        · exact ⟨_, _, rfl, (List.perm_append_comm (l₁ := [y]))⟩
      obtain ⟨op, dm, h1, h2⟩ := hstep
      rw [h1]
      obtain ⟨op', dm', h3, h4⟩ := ih { g with op := op, dmax := dm } acc hp hn
      refine ⟨op', dm', ?_, ?_⟩
      · rw [h3, List.filter_cons_of_neg (by simp [e])]
      · rw [List.filter_cons_of_pos (by simp [e])]
        refine h4.trans ?_
        have := h2.append_right (l.filter fun y => testBB τ pos f y = 1)
        simpa using this
    · have e' := ht.trans e
      have h1 : assignStep τ pos (g, acc) y = (g, acc ++ [y]) := by
        unfold assignStep; simp only [e', if_true]
      rw [h1]
      obtain ⟨op', dm', h3, h4⟩ := ih g (acc ++ [y]) hp hn
      refine ⟨op', dm', ?_, ?_⟩
      · rw [h3, List.filter_cons_of_pos (by simp [e])]
        simp
      · rw [List.filter_cons_of_neg (by simp [e])]; exact h4
    · have e' := ht.trans e
      have h1 : assignStep τ pos (g, acc) y = (g, acc) := by
        unfold assignStep; simp [e']
      rw [h1]
      obtain ⟨op', dm', h3, h4⟩ := ih g acc hp hn
      refine ⟨op', dm', ?_, ?_⟩
      · rw [h3, List.filter_cons_of_neg (by simp [e])]
      · rw [List.filter_cons_of_neg (by simp [e])]; exact h4

/-- What `assign` does on facets with empty outside sets. -/
structure Assigned (τ : ℝ) (pos : ℕ → Vec3 ℝ) (q q' : QH) (cs pl rest : List ℕ) : Prop where
  nf : q'.nf = q.nf
  fl : q'.fl = q.fl
  vl : q'.vl = q.vl
  disc : q'.discard = q.discard
  other : ∀ i, i ∉ cs → q'.fac i = q.fac i
  same : ∀ i ∈ cs, q'.fac i = { q.fac i with op := (q'.fac i).op, dmax := (q'.fac i).dmax }
  mem : ∀ i ∈ cs, ∀ y ∈ (q'.fac i).op, y ∈ pl ∧ y ∉ rest ∧ testBB τ pos (q.fac i) y = 1
  nodup : ∀ i ∈ cs, (q'.fac i).op.Nodup
  disj : ∀ i ∈ cs, ∀ j ∈ cs, ∀ y, y ∈ (q'.fac i).op → y ∈ (q'.fac j).op → i = j
  left : ∀ y ∈ rest, y ∈ pl ∧ ∀ i ∈ cs, testBB τ pos (q.fac i) y = -1
  all : ∀ y ∈ pl, y ∈ rest ∨ (∃ i ∈ cs, y ∈ (q'.fac i).op) ∨ ∃ i ∈ cs, testBB τ pos (q.fac i) y = 0

theorem assign_spec (cs : List ℕ) : ∀ (q : QH) (pl : List ℕ), cs.Nodup → pl.Nodup →
    (∀ i ∈ cs, (q.fac i).op = []) →
    ∃ q' rest, assign τ pos q cs pl = (q', rest) ∧ Assigned τ pos q q' cs pl rest := by
  induction cs with
  | nil =>
    intro q pl _ _ _
    exact ⟨q, pl, rfl, rfl, rfl, rfl, rfl, fun _ _ => rfl, by simp, by simp, by simp, by simp, by simp, by simp⟩
  | cons i cs ih =>
    intro q pl hnd hpl hop
    rw [List.nodup_cons] at hnd
    obtain ⟨op, dm, h1, h2⟩ := assignStep_fold (τ := τ) (pos := pos) (q.fac i) pl
      (q.fac i) [] rfl rfl
    rw [hop i List.mem_cons_self, List.nil_append] at h2
    rw [List.nil_append] at h1
    set q1 := q.set i { q.fac i with op := op, dmax := dm } with hq1
    set pl1 := pl.filter fun y => testBB τ pos (q.fac i) y = -1 with hpl1
    have hne : ∀ j, j ≠ i → q1.fac j = q.fac j := fun j hj => Function.update_of_ne hj _ _
    have hcs : ∀ j ∈ cs, j ≠ i := by rintro j hj rfl; exact hnd.1 hj
    have hself : q1.fac i = { q.fac i with op := op, dmax := dm } := Function.update_self _ _ _
    obtain ⟨q', rest, h3, a⟩ := ih q1 pl1 hnd.2 (hpl.filter _)
      (fun j hj => by rw [hne j (hcs j hj)]; exact hop j (List.mem_cons_of_mem _ hj))
    have hi' : q'.fac i = { q.fac i with op := op, dmax := dm } := by rw [a.other i hnd.1, hself]
    have hopmem : ∀ y, y ∈ op ↔ y ∈ pl ∧ testBB τ pos (q.fac i) y = 1 := by
      intro y; rw [h2.mem_iff, List.mem_filter]; simp
    have hpl1mem : ∀ y, y ∈ pl1 ↔ y ∈ pl ∧ testBB τ pos (q.fac i) y = -1 := by
      intro y; rw [hpl1, List.mem_filter]; simp
    refine ⟨q', rest, ?_, a.nf, a.fl, a.vl, a.disc, ?_, ?_, ?_, ?_, ?_, ?_, ?_⟩
    · rw [← h3]
      unfold assign
      rw [List.foldl_cons]
      simp only [h1]
      rfl
    · intro j hj
      rw [List.mem_cons, not_or] at hj
      rw [a.other j hj.2, hne j hj.1]
    · intro j hj
      rcases List.mem_cons.1 hj with rfl | hj
      · rw [hi']
      · have := a.same j hj
        rw [hne j (hcs j hj)] at this
        exact this
    · intro j hj y hy
      rcases List.mem_cons.1 hj with rfl | hj
      · rw [hi'] at hy
        have := (hopmem y).1 hy
        refine ⟨this.1, ?_, this.2⟩
        intro hr
        have h4 := ((hpl1mem y).1 (a.left y hr).1).2
        rw [this.2] at h4
        exact absurd h4 (by decide)
      · obtain ⟨k1, k2, k3⟩ := a.mem j hj y hy
        rw [hne j (hcs j hj)] at k3
        exact ⟨((hpl1mem y).1 k1).1, k2, k3⟩
    · intro j hj
      rcases List.mem_cons.1 hj with rfl | hj
      · rw [hi']
        exact h2.nodup_iff.2 (hpl.filter _)
      · exact a.nodup j hj
    · have key : ∀ j ∈ cs, ∀ y, y ∈ (q'.fac i).op → y ∈ (q'.fac j).op → False := by
        intro j hj y hy hy'
        rw [hi'] at hy
        have h4 := ((hopmem y).1 hy).2
        have h5 := ((hpl1mem y).1 (a.mem j hj y hy').1).2
        rw [h4] at h5
        exact absurd h5 (by decide)
      intro j hj k hk y hy hy'
      rcases List.mem_cons.1 hj with e | hj' <;> rcases List.mem_cons.1 hk with e' | hk'
      · rw [e, e']
      · exact (key k hk' y (e ▸ hy) hy').elim
      · exact (key j hj' y (e' ▸ hy') hy).elim
      · exact a.disj j hj' k hk' y hy hy'
    · intro y hy
      obtain ⟨k1, k2⟩ := a.left y hy
      have k3 := (hpl1mem y).1 k1
      refine ⟨k3.1, fun j hj => ?_⟩
      rcases List.mem_cons.1 hj with rfl | hj
      · exact k3.2
      · have := k2 j hj
        rw [hne j (hcs j hj)] at this
        exact this
    · intro y hy
      rcases testBB_val (τ := τ) (pos := pos) (q.fac i) y with e | e | e
      · right; left
        exact ⟨i, List.mem_cons_self, by rw [hi']; exact (hopmem y).2 ⟨hy, e⟩⟩
      · rcases a.all y ((hpl1mem y).2 ⟨hy, e⟩) with h | ⟨j, hj, h⟩ | ⟨j, hj, h⟩
        · exact Or.inl h
        · exact Or.inr (Or.inl ⟨j, List.mem_cons_of_mem _ hj, h⟩)
        · rw [hne j (hcs j hj)] at h
          exact Or.inr (Or.inr ⟨j, List.mem_cons_of_mem _ hj, h⟩)
      · exact Or.inr (Or.inr ⟨i, List.mem_cons_self, e⟩)

end
end Zeo.QHMesh
