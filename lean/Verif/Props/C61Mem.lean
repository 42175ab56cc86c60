import Verif.Props.C35Mem

/-! # C61: the memory of the registration of point clouds

`zVec3DDataICP` destroys its two lists of samples at the end of every iteration but the one that succeeds. -/

namespace Zeo

open Life OctMem

namespace DataMem

private theorem G0 {o h} (g : G o h) : G 0 h := ⟨g.1, by simp, by simp⟩

private theorem add_list (b : ℕ) (cs : List ℕ) (h : Heap) :
    Rel (O ⟨.list, b, cs⟩) h (O ⟨.list, b, h.next :: cs⟩) ⟨insert h.next h.live, h.next + 1⟩ := by
  have := (step_alloc ((b :: cs : List ℕ) : Multiset ℕ) h).rel
  have e : (h.next ::ₘ ((b :: cs : List ℕ) : Multiset ℕ)) = ((b :: h.next :: cs : List ℕ) : Multiset ℕ) := by
    rw [Multiset.cons_coe]; exact Multiset.coe_eq_coe.mpr (List.Perm.swap _ _ _)
  rw [e] at this
  simpa [O, owned] using this

private theorem addBoth_ok (n : ℕ) : ∀ (p q : ℕ) (ps qs : List ℕ) (h : Heap), ∃ ps' qs' h',
    addBoth n ⟨.list, p, ps⟩ ⟨.list, q, qs⟩ h = some (⟨.list, p, ps'⟩, ⟨.list, q, qs'⟩, h') ∧
      ps'.length = ps.length + n ∧ qs'.length = qs.length + n ∧
      Rel (O ⟨.list, p, ps⟩ + O ⟨.list, q, qs⟩) h (O ⟨.list, p, ps'⟩ + O ⟨.list, q, qs'⟩) h' := by
  induction n with
  | zero => intro p q ps qs h; exact ⟨ps, qs, h, rfl, rfl, rfl, Rel.refl _ _⟩
  | succ n ih =>
    intro p q ps qs h
    have r1 := (add_list p ps h).frame (O ⟨.list, q, qs⟩)
    have r2 := (add_list q qs ⟨insert h.next h.live, h.next + 1⟩).frame (O ⟨.list, p, h.next :: ps⟩)
    rw [add_comm, add_comm (O ⟨.list, q, _⟩) (O ⟨.list, p, _⟩)] at r2
    obtain ⟨ps', qs', h', e, l1, l2, r⟩ := ih p q (h.next :: ps) ((h.next + 1) :: qs)
      ⟨insert (h.next + 1) (insert h.next h.live), h.next + 1 + 1⟩
    refine ⟨ps', qs', h', by simpa [addBoth, Op.run] using e, ?_, ?_, (r1.trans r2).trans r⟩
    · rw [l1, List.length_cons]; omega
    · rw [l2, List.length_cons]; omega

private theorem iter_ok (n : ℕ) (a b : D) (h : Heap) : ∃ p q ps qs h',
    icpIter n a b h = some (⟨.list, p, ps⟩, ⟨.list, q, qs⟩, h') ∧ ps.length = n ∧ qs.length = n ∧
      Rel 0 h (O ⟨.list, p, ps⟩ + O ⟨.list, q, qs⟩) h' := by
  have a1 : Rel 0 h (O ⟨.list, h.next, []⟩) ⟨insert h.next h.live, h.next + 1⟩ := by
    simpa [O, owned] using (step_alloc 0 h).rel
  have a2 : Rel 0 ⟨insert h.next h.live, h.next + 1⟩ (O ⟨.list, h.next + 1, []⟩)
      ⟨insert (h.next + 1) (insert h.next h.live), h.next + 1 + 1⟩ := by
    simpa [O, owned] using (step_alloc 0 ⟨insert h.next h.live, h.next + 1⟩).rel
  have a2' := a2.frame (O ⟨.list, h.next, []⟩)
  rw [zero_add, add_comm (O ⟨.list, h.next + 1, []⟩)] at a2'
  obtain ⟨ps, qs, h', e, l1, l2, r⟩ := addBoth_ok n h.next (h.next + 1) [] []
    ⟨insert (h.next + 1) (insert h.next h.live), h.next + 1 + 1⟩
  exact ⟨_, _, ps, qs, h', by simpa [icpIter, Op.run] using e, by simpa using l1, by simpa using l2,
    (a1.trans a2').trans r⟩

private theorem main61 (l : Option ℕ) (ns : List ℕ) : ∀ (a b : D) (h : Heap), G 0 h → ∃ h',
    icpMem ns l a b h = some h' ∧ h.live ⊆ h'.live ∧
      h'.live.card = h.live.card + l.elim 0 fun n => 2 * (n + 1) := by
  induction ns with
  | nil =>
    intro a b h g
    cases l with
    | none => exact ⟨h, rfl, le_refl _, rfl⟩
    | some n =>
      obtain ⟨p, q, ps, qs, h', e, l1, l2, r⟩ := iter_ok n a b h
      obtain ⟨g', k⟩ := r 0 (by rwa [add_zero])
      simp only [add_zero, Multiset.notMem_zero, not_false_eq_true, and_true] at g' k
      set o := O ⟨.list, p, ps⟩ + O ⟨.list, q, qs⟩ with ho
      have hl : h'.live = h.live ∪ o.toFinset := by
        ext x
        rw [Finset.mem_union, Multiset.mem_toFinset, ← k x]
        have := g'.2.2 x
        tauto
      have hd : Disjoint h.live o.toFinset := by
        rw [Finset.disjoint_left]
        intro x hx
        rw [Multiset.mem_toFinset]
        exact ((k x).mpr hx).2
      refine ⟨h', by simp [icpMem, e], fun x hx => ((k x).mpr hx).1, ?_⟩
      rw [hl, Finset.card_union_of_disjoint hd, Multiset.toFinset_card_of_nodup g'.2.1, ho, Multiset.card_add]
      simp [O, owned, l1, l2]; omega
  | cons n ns ih =>
    intro a b h g
    obtain ⟨p, q, ps, qs, h1, e, l1, l2, r⟩ := iter_ok n a b h
    obtain ⟨g1, k1⟩ := r 0 (by rwa [add_zero])
    simp only [add_zero, Multiset.notMem_zero, not_false_eq_true, and_true] at g1 k1
    obtain ⟨a2, h2, e2, _, r2⟩ := destroy_ok ⟨.list, p, ps⟩ h1 g1.left
    obtain ⟨g2, k2⟩ := r2 (O ⟨.list, q, qs⟩) g1
    rw [zero_add] at g2 k2
    obtain ⟨b3, h3, e3, _, r3⟩ := destroy_ok ⟨.list, q, qs⟩ h2 g2
    obtain ⟨g3, k3⟩ := r3 0 (by rwa [add_zero])
    simp only [add_zero, Multiset.notMem_zero, not_false_eq_true, and_true] at g3 k3
    obtain ⟨h', e', s, c⟩ := ih a2 b3 h3 g3
    have hl : h3.live = h.live := Finset.ext fun x => (k3 x).trans ((k2 x).trans (k1 x))
    exact ⟨h', by simp [icpMem, e, e2, e3, e'], hl ▸ s, hl ▸ c⟩

end DataMem

open DataMem

/-- **C61, negated.** The registration of point clouds frees nothing twice, and gives the memory of its samples back
exactly if it uses up its iterations: every registration that reaches the tolerance loses both lists of samples of the
last iteration, which are two blocks for each sample and two more. -/
theorem C61_icp_mem_false (ns : List ℕ) (l : Option ℕ) (a b : D) (h₀ : Heap) (k : ∀ x ∈ h₀.live, x < h₀.next) :
    ∃ h', icpMem ns l a b h₀ = some h' ∧ h₀.live ⊆ h'.live ∧
      h'.live.card = h₀.live.card + (l.elim 0 fun n => 2 * (n + 1)) ∧ (h'.live = h₀.live ↔ l = none) := by
  obtain ⟨h', e, s, c⟩ := main61 l ns a b h₀ ⟨k, by simp, by simp⟩
  refine ⟨h', e, s, c, fun q => ?_, fun q => ?_⟩
  · cases l with
    | none => rfl
    | some n => rw [q] at c; simp at c
  · subst q; exact (Finset.eq_of_subset_of_card_le s (by simp [c])).symm

/-- Two iterations and a third one that reaches the tolerance with one sample: four blocks are lost. -/
example : (icpMem [2, 1] (some 1) D.ctor D.ctor ⟨{0}, 1⟩).map (fun h => h.live.card) = some 5 := by decide

example : (icpMem [2, 1] none D.ctor D.ctor ⟨{0}, 1⟩).map Heap.live = some {0} := by decide

end Zeo
