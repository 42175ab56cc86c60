import Verif.Props.C28

/-! # C29: kd-tree nearest neighbour search equals exhaustive search -/

namespace Zeo
noncomputable section
open Classical Kd

/-- `st` is a best candidate among `S`. -/
def Best (p : Vec3 ℝ) (S : Set (ℕ × Vec3 ℝ)) (st : Option Hit) : Prop :=
  (∀ h, st = some h → (h.id, h.pt) ∈ S ∧ h.d = Spec.ed p h.pt) ∧
  (∀ x ∈ S, ∃ h, st = some h ∧ h.d ≤ Spec.ed p x.2)

theorem sqd_nonneg' (p q : Vec3 ℝ) : 0 ≤ Spec.sqd p q := by unfold Spec.sqd; positivity

theorem ed_sq (p q : Vec3 ℝ) : Spec.ed p q * Spec.ed p q = Spec.sqd p q :=
  Real.mul_self_sqrt (sqd_nonneg' p q)

theorem ed_nonneg' (p q : Vec3 ℝ) : 0 ≤ Spec.ed p q := Real.sqrt_nonneg _

theorem Best.test {p : Vec3 ℝ} {S : Set (ℕ × Vec3 ℝ)} {st : Option Hit} (h : Best p S st) (i : ℕ)
    (q : Vec3 ℝ) : Best p (insert (i, q) S) (nnTest p i q st) := by
  have he : Real.sqrt (q.sqrDist p) = Spec.ed p q := by rw [sqrDist_eq_sqd]; rfl
  unfold nnTest
  split_ifs with hc
  · rw [he]
    refine ⟨?_, ?_⟩
    · rintro h' h''; cases h''; exact ⟨Set.mem_insert _ _, rfl⟩
    · intro x hx
      refine ⟨_, rfl, ?_⟩
      rcases hx with rfl | hx
      · exact le_refl _
      · obtain ⟨h0, rfl, hle⟩ := h.2 x hx
        have h1 := (h.1 h0 rfl).2
        have hc' : q.sqrDist p < h0.d * h0.d := hc
        rw [h1, ed_sq, sqrDist_eq_sqd] at hc'
        have : Spec.ed p q ≤ Spec.ed p h0.pt := Real.sqrt_le_sqrt hc'.le
        dsimp only
        linarith
  · refine ⟨fun h' h'' => ⟨Set.mem_insert_of_mem _ (h.1 h' h'').1, (h.1 h' h'').2⟩, ?_⟩
    intro x hx
    rcases hx with rfl | hx
    · cases st with
      | none => exact absurd trivial hc
      | some h0 =>
        refine ⟨h0, rfl, ?_⟩
        have h1 := (h.1 h0 rfl).2
        have hc' : ¬ q.sqrDist p < h0.d * h0.d := hc
        rw [h1, ed_sq, sqrDist_eq_sqd] at hc'
        rw [h1]
        exact Real.sqrt_le_sqrt (not_lt.1 hc')
    · exact h.2 x hx

theorem Best.prune {p : Vec3 ℝ} {S T : Set (ℕ × Vec3 ℝ)} {st : Option Hit} {reg : Region}
    (h : Best p S st) (hT : ∀ x ∈ T, reg.Has x.2) (hc : ¬ closer (reg.sqrDist p) st) :
    Best p (S ∪ T) st := by
  refine ⟨fun h' h'' => ⟨Or.inl (h.1 h' h'').1, (h.1 h' h'').2⟩, ?_⟩
  rintro x (hx | hx)
  · exact h.2 x hx
  · cases st with
    | none => exact absurd trivial hc
    | some h0 =>
      refine ⟨h0, rfl, ?_⟩
      have h1 := (h.1 h0 rfl).2
      have hc' : ¬ reg.sqrDist p < h0.d * h0.d := hc
      rw [h1, ed_sq] at hc'
      rw [h1]
      exact Real.sqrt_le_sqrt ((not_lt.1 hc').trans (Region.sqrDist_le (hT x hx) p))

theorem Best.congr {p : Vec3 ℝ} {S T : Set (ℕ × Vec3 ℝ)} {st : Option Hit} (h : Best p S st)
    (e : S = T) : Best p T st := e ▸ h

/-- The nodes below `t`, as a set. -/
def Kd.nodes (t : Kd) : Set (ℕ × Vec3 ℝ) := {x | x ∈ t.contents}

theorem nodes_node (n i s q reg c0 c1) :
    (node n i s q reg c0 c1).nodes = insert (i, q) (c0.nodes ∪ c1.nodes) := by
  ext x; simp [Kd.nodes, contents]

/-- The guarded descent into the other branch. -/
theorem Best.descend {p : Vec3 ℝ} {S : Set (ℕ × Vec3 ℝ)} {st : Option Hit} {c : Kd} {reg s}
    (f : Option Hit → Option Hit) (hw : c.WellFormed reg s) (h : Best p S st)
    (hf : Best p (S ∪ c.nodes) (f st)) : Best p (S ∪ c.nodes) (if overlap p st c then f st else st) := by
  split_ifs with ho
  · exact hf
  · cases c with
    | nil => exact h.congr (by ext x; simp [Kd.nodes, contents])
    | node n i s' q reg' c0 c1 =>
      have hr : reg' = reg := hw.1
      subst hr
      exact h.prune (fun x hx => hw.has x hx) ho

theorem nnOpp_best (p : Vec3 ℝ) (t : Kd) : ∀ (reg : Region) (s : Fin 3) (S : Set (ℕ × Vec3 ℝ))
    (st : Option Hit), t.WellFormed reg s → Best p S st → Best p (S ∪ t.nodes) (nnOpp p t st) := by
  induction t with
  | nil => intro _ _ S st _ h; exact h.congr (by ext x; simp [Kd.nodes, contents])
  | node n i s q reg c0 c1 ih0 ih1 =>
    intro reg' s' S st hw h
    obtain ⟨rfl, rfl, -, -, -, -, hw0, hw1⟩ := hw
    have h0 := h.test i q
    have h1 := Best.descend (nnOpp p c0) hw0 h0 (ih0 _ _ _ _ hw0 h0)
    have h2 := Best.descend (nnOpp p c1) hw1 h1 (ih1 _ _ _ _ hw1 h1)
    unfold nnOpp
    refine h2.congr ?_
    rw [nodes_node]; ext x; simp only [Set.mem_union, Set.mem_insert_iff]; tauto

theorem nnRec_best (p : Vec3 ℝ) (t : Kd) : ∀ (reg : Region) (s : Fin 3) (S : Set (ℕ × Vec3 ℝ))
    (st : Option Hit), t.WellFormed reg s → Best p S st → Best p (S ∪ t.nodes) (nnRec p t st) := by
  induction t with
  | nil => intro _ _ S st _ h; exact h.congr (by ext x; simp [Kd.nodes, contents])
  | node n i s q reg c0 c1 ih0 ih1 =>
    intro reg' s' S st hw h
    obtain ⟨rfl, rfl, -, -, -, -, hw0, hw1⟩ := hw
    unfold nnRec
    split_ifs with hb
    · have h1 := (ih0 _ _ _ _ hw0 h).test i q
      have h2 := Best.descend (nnOpp p c1) hw1 h1 (nnOpp_best p c1 _ _ _ _ hw1 h1)
      refine h2.congr ?_
      rw [nodes_node]; ext x; simp only [Set.mem_union, Set.mem_insert_iff]; tauto
    · have h1 := (ih1 _ _ _ _ hw1 h).test i q
      have h2 := Best.descend (nnOpp p c0) hw0 h1 (nnOpp_best p c0 _ _ _ _ hw0 h1)
      refine h2.congr ?_
      rw [nodes_node]; ext x; simp only [Set.mem_union, Set.mem_insert_iff]; tauto

/-- For every non-empty sequence of insertions and every query the search returns the node of an
inserted point, its distance to the query, and no inserted point is nearer. -/
theorem C29_nn (ps : List (Vec3 ℝ)) (hps : ps ≠ []) (p : Vec3 ℝ) :
    ∃ i q, (build ps).nn p = some ⟨i, q, Spec.ed p q⟩ ∧ ps[i]? = some q ∧
      ∀ x ∈ ps, Spec.ed p q ≤ Spec.ed p x := by
  have h := nnRec_best p (build ps) _ _ ∅ none (wf_build ps) ⟨by simp, by simp⟩
  have hmem : ∀ x ∈ ps, ∃ i, (i, x) ∈ (build ps).contents := by
    intro x hx
    obtain ⟨i, hi⟩ := List.mem_iff_getElem?.1 hx
    exact ⟨i, (C28_node_iff ps i x).2 hi⟩
  obtain ⟨x0, hx0⟩ := List.exists_mem_of_ne_nil ps hps
  obtain ⟨i0, hi0⟩ := hmem x0 hx0
  obtain ⟨hit, hs, -⟩ := h.2 (i0, x0) (Or.inr hi0)
  obtain ⟨hin, hd⟩ := h.1 hit hs
  have hin' : (hit.id, hit.pt) ∈ (build ps).contents := by
    rcases hin with hin | hin
    · exact absurd hin (by simp)
    · exact hin
  refine ⟨hit.id, hit.pt, ?_, (C28_node_iff ps _ _).1 hin', ?_⟩
  · unfold nn; rw [hs, ← hd]
  · intro x hx
    obtain ⟨i, hi⟩ := hmem x hx
    obtain ⟨h', hs', hle⟩ := h.2 (i, x) (Or.inr hi)
    rw [hs] at hs'; cases hs'
    rw [← hd]; exact hle

/-- The query may be equidistant or outside; a concrete search that must cross to the other branch:
the query goes to the branch of `(1,0,0)`, but the root `(0.9,5,5)` and the other branch's
`(0.8,0,0)` are examined and the latter wins. -/
example : ∃ i q, (build [⟨0.9,5,5⟩, ⟨4,0,0⟩, ⟨0.8,0,0⟩]).nn ⟨1,0,0⟩ = some ⟨i, q, Spec.ed ⟨1,0,0⟩ q⟩ ∧
    q = ⟨0.8,0,0⟩ := by
  obtain ⟨i, q, h, hq, hmin⟩ := C29_nn [⟨0.9,5,5⟩, ⟨4,0,0⟩, ⟨0.8,0,0⟩] (by simp) ⟨1,0,0⟩
  refine ⟨i, q, h, ?_⟩
  have h1 := hmin ⟨0.8,0,0⟩ (by simp)
  have h2 := (Real.sqrt_le_sqrt_iff (sqd_nonneg' _ _)).1 h1
  have hm := List.mem_of_getElem? hq
  simp only [List.mem_cons, List.not_mem_nil, or_false] at hm
  rcases hm with rfl | rfl | rfl
  · norm_num [Spec.sqd] at h2
  · norm_num [Spec.sqd] at h2
  · rfl

end
end Zeo
