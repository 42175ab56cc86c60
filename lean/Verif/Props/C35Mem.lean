import Verif.Model.DataMem
import Verif.Lemmas.OctMem

/-! # C35: the memory of datasets

A dataset never frees what belongs to the caller, nor anything twice, whatever is done with it and however often it is
destroyed; and it gives back all memory it took, exactly if it is not initialised or assigned anew while it has memory
of its own. -/

namespace Zeo

open Life OctMem

namespace DataMem

/-- Specification: does the dataset have memory of its own after an operation, if it had before or not? -/
def keeps (own : Bool) : Op → Bool
  | .initArray _ => true
  | .initList => true
  | .assignDirect v => v.isSome
  | .assign _ => false
  | .add => own
  | .noHeader => false
  | .noBuffer => false
  | .noCell => own
  | .destroy => false

/-- Specification: operations that replace what the dataset holds. -/
def renews : Op → Bool
  | .add => false
  | .noCell => false
  | .destroy => false
  | _ => true

/-- Specification: nothing is replaced while the dataset has memory of its own. -/
def tidy : Bool → List Op → Bool
  | _, [] => true
  | own, o :: os => !(own && renews o) && tidy (keeps own o) os

/-- The blocks that belong to a dataset. -/
def owned (d : D) : List ℕ :=
  match d.meth with
  | .dummy => []
  | .array => d.hd :: d.bufs
  | .direct => [d.hd]
  | .list => d.hd :: d.bufs
  | .ref => []

/-- The same as a multiset. -/
abbrev O (d : D) : Multiset ℕ := (owned d : Multiset ℕ)

private theorem free_all (cs : List ℕ) (b : ℕ) (h : Heap) (g : G ((b :: cs : List ℕ) : Multiset ℕ) h) :
    ∃ h', ((freeCells cs h).bind fun h => freeBlk h b) = some h' ∧ Rel ((b :: cs : List ℕ) : Multiset ℕ) h 0 h' := by
  have nd := g.2.1
  rw [Multiset.coe_nodup, List.nodup_cons] at nd
  obtain ⟨h1, e, n, l⟩ := freeCells_spec cs h nd.2 (fun x hx => g.2.2 x (by simp [hx]))
  have hb : b ∈ h1.live := (l b).mpr ⟨g.2.2 b (by simp), nd.1⟩
  refine ⟨⟨h1.live.erase b, h1.next⟩, by rw [e]; exact freeBlk_spec hb, Step.rel ?_⟩
  refine ⟨0, ((b :: cs : List ℕ) : Multiset ℕ), by simp, le_refl _, by simp, by simp, n.ge, fun x => ?_⟩
  simp only [Finset.mem_erase, l, Multiset.mem_coe, List.mem_cons, Multiset.notMem_zero, or_false]; tauto

theorem destroy_ok (d : D) (h : Heap) (g : G (O d) h) :
    ∃ d' h', destroy d h = some (d', h') ∧ d'.meth = .dummy ∧ Rel (O d) h 0 h' := by
  obtain ⟨m, b, cs⟩ := d
  cases m with
  | dummy => exact ⟨_, _, rfl, rfl, Rel.refl _ _⟩
  | ref => exact ⟨_, _, rfl, rfl, Rel.refl _ _⟩
  | direct =>
    obtain ⟨h', e, r⟩ := free_all [] b h g
    simp only [freeCells, Option.bind_some] at e
    exact ⟨⟨.dummy, 0, []⟩, h', by simp only [destroy, e]; rfl, rfl, r⟩
  | array =>
    obtain ⟨h', e, r⟩ := free_all cs b h g
    exact ⟨⟨.dummy, 0, []⟩, h', by simp only [destroy, e]; rfl, rfl, r⟩
  | list =>
    obtain ⟨h', e, r⟩ := free_all cs b h g
    exact ⟨⟨.dummy, 0, []⟩, h', by simp only [destroy, e]; rfl, rfl, r⟩

theorem run_ok (o : Op) (d : D) (h : Heap) (g : G (O d) h) :
    ∃ d' h', o.run d h = some (d', h') ∧ (decide (owned d' ≠ []) = keeps (decide (owned d ≠ [])) o) ∧
      Rel (if renews o = true then 0 else O d) h (O d') h' := by
  have a0 : Rel 0 h (({h.next} : Multiset ℕ)) ⟨insert h.next h.live, h.next + 1⟩ := by
    simpa using (step_alloc 0 h).rel
  cases o with
  | initArray n =>
    cases n with
    | zero => exact ⟨_, _, rfl, by simp [keeps, owned], by simpa [renews, O, owned] using a0⟩
    | succ n =>
      refine ⟨_, _, rfl, by simp [keeps, owned], ?_⟩
      have a1 := (step_alloc ({h.next} : Multiset ℕ) ⟨insert h.next h.live, h.next + 1⟩).rel
      have := a0.trans a1
      have e : ((h.next + 1) ::ₘ ({h.next} : Multiset ℕ)) = (([h.next, h.next + 1] : List ℕ) : Multiset ℕ) := by
        rw [← Multiset.coe_singleton, Multiset.cons_coe]
        exact Multiset.coe_eq_coe.mpr (List.Perm.swap _ _ _)
      simp only [e] at this
      simpa [renews, O, owned] using this
  | initList => exact ⟨_, _, rfl, by simp [keeps, owned], by simpa [renews, O, owned] using a0⟩
  | assignDirect v =>
    cases v with
    | none => exact ⟨_, _, rfl, by simp [keeps, owned], by simpa [renews, O, owned] using Rel.refl 0 h⟩
    | some v => exact ⟨_, _, rfl, by simp [keeps, owned], by simpa [renews, O, owned] using a0⟩
  | assign v =>
    cases v with
    | none => exact ⟨_, _, rfl, by simp [keeps, owned], by simpa [renews, O, owned] using Rel.refl 0 h⟩
    | some v => exact ⟨_, _, rfl, by simp [keeps, owned], by simpa [renews, O, owned] using Rel.refl 0 h⟩
  | add =>
    obtain ⟨m, b, cs⟩ := d
    cases m with
    | list =>
      refine ⟨_, _, rfl, by simp [keeps, owned], ?_⟩
      have := (step_alloc ((b :: cs : List ℕ) : Multiset ℕ) h).rel
      have e : (h.next ::ₘ ((b :: cs : List ℕ) : Multiset ℕ)) = ((b :: h.next :: cs : List ℕ) : Multiset ℕ) := by
        rw [Multiset.cons_coe]; exact Multiset.coe_eq_coe.mpr (List.Perm.swap _ _ _)
      rw [e] at this
      simpa [renews, O, owned] using this
    | _ => exact ⟨_, _, rfl, by simp [keeps, owned], by simpa [renews] using Rel.refl _ h⟩
  | noHeader => exact ⟨_, _, rfl, by simp [keeps, owned], by simpa [renews, O, owned] using Rel.refl 0 h⟩
  | noBuffer =>
    have g1 := (a0 0 (by rw [add_zero]; exact ⟨g.1, by simp, by simp⟩)).1
    rw [add_zero] at g1
    obtain ⟨h', e, r⟩ := free_all [] h.next _ g1
    simp only [freeCells, Option.bind_some] at e
    exact ⟨⟨.dummy, 0, []⟩, h', by simp only [Op.run, e]; rfl, by simp [keeps, owned],
      by simpa [renews, O, owned] using a0.trans r⟩
  | noCell => exact ⟨_, _, rfl, by simp [keeps], by simpa [renews] using Rel.refl _ h⟩
  | destroy =>
    obtain ⟨d', h', e, m, r⟩ := destroy_ok d h g
    have o' : owned d' = [] := by simp [owned, m]
    exact ⟨d', h', e, by simp [keeps, o'], by simpa [renews, O, o'] using r⟩

private theorem G0 {o h} (g : G o h) : G 0 h := ⟨g.1, by simp, by simp⟩

private theorem main (os : List Op) : ∀ (d : D) (h : Heap), G (O d) h →
    ∃ h', life os d h = some h' ∧ (∀ x, x ∈ h.live → x ∉ O d → x ∈ h'.live) ∧
      ((∀ x, x ∈ h'.live → x ∈ h.live ∧ x ∉ O d) ↔ tidy (decide (owned d ≠ [])) os = true) := by
  induction os with
  | nil =>
    intro d h g
    obtain ⟨d', h', e, m, r⟩ := destroy_ok d h g
    have q := (r 0 (by rwa [add_zero])).2
    simp only [add_zero, Multiset.notMem_zero, not_false_eq_true, and_true] at q
    exact ⟨h', by simp [life, e], fun x h1 h2 => (q x).mpr ⟨h1, h2⟩, by simp [tidy]; exact fun x hx => by simpa using (q x).mp hx⟩
  | cons o os ih =>
    intro d h g
    obtain ⟨d', h1, e, k, r⟩ := run_ok o d h g
    by_cases hr : renews o = true
    · rw [if_pos hr] at r
      obtain ⟨g1, q⟩ := r 0 (by rw [add_zero]; exact G0 g)
      simp only [add_zero, Multiset.notMem_zero, not_false_eq_true, and_true, zero_add] at g1 q
      obtain ⟨h2, e2, s2, t2⟩ := ih d' h1 g1
      refine ⟨h2, by simp [life, e, e2], fun x a b => ?_, ?_⟩
      · have := (q x).mpr a; exact s2 x this.1 this.2
      · rw [tidy, ← k, hr, Bool.and_true]
        by_cases ho : owned d = []
        · simp only [ho, O, ne_eq, not_true_eq_false, decide_false, Bool.not_false, Bool.true_and, ← t2]
          constructor
          · intro a x hx; exact (q x).mpr (a x hx).1
          · intro a x hx; exact ⟨(q x).mp (a x hx), by simp⟩
        · simp only [ho, ne_eq, not_false_eq_true, decide_true, Bool.not_true, Bool.false_and, Bool.false_eq_true,
            iff_false]
          intro a
          obtain ⟨x, hx⟩ := List.exists_mem_of_ne_nil _ ho
          have hl := (q x).mpr (g.2.2 x (by simpa using hx))
          exact (a x (s2 x hl.1 hl.2)).2 (by simpa using hx)
    · rw [if_neg hr] at r
      obtain ⟨g1, q⟩ := r 0 (by rw [add_zero]; exact g)
      simp only [add_zero] at g1 q
      obtain ⟨h2, e2, s2, t2⟩ := ih d' h1 g1
      refine ⟨h2, by simp [life, e, e2], fun x a b => ?_, ?_⟩
      · have := (q x).mpr ⟨a, b⟩; exact s2 x this.1 this.2
      · have hr' : renews o = false := by simpa using hr
        rw [tidy, ← k, hr', Bool.and_false, Bool.not_false, Bool.true_and, ← t2]
        exact forall_congr' fun x => imp_congr_right fun _ => (q x).symm

end DataMem

open DataMem

/-- **C35.** From the constructor to the destructor, with any operations between them, a dataset frees nothing twice
and nothing that is not its own; and all memory it took is given back exactly if it was never initialised or assigned
anew while it had memory of its own. -/
theorem C35_mem_life (os : List DataMem.Op) (h₀ : Heap) (k : ∀ x ∈ h₀.live, x < h₀.next) :
    ∃ h', life os D.ctor h₀ = some h' ∧ h₀.live ⊆ h'.live ∧ (h'.live = h₀.live ↔ tidy false os = true) := by
  obtain ⟨h', e, s, t⟩ := DataMem.main os D.ctor h₀ ⟨k, by simp [D.ctor, owned], by simp [D.ctor, owned]⟩
  have hs : h₀.live ⊆ h'.live := fun x hx => s x hx (by simp [D.ctor, owned])
  refine ⟨h', e, hs, ?_⟩
  have e0 : decide (owned D.ctor ≠ []) = false := by simp [D.ctor, owned]
  rw [e0] at t
  rw [← t]
  constructor
  · intro a x hx; exact ⟨a ▸ hx, by simp [D.ctor, owned]⟩
  · intro a; exact Finset.Subset.antisymm (fun x hx => (a x hx).1) hs

/-- A list that is filled, destroyed twice and used again as a view on an array of the caller (block 5), is tidy; one
that is assigned without being destroyed is not, and loses three blocks. -/
example : tidy false [.initList, .add, .add, .destroy, .destroy, .assignDirect (some 5), .add] = true := by decide

example : (life [.initList, .add, .add, .destroy, .destroy, .assignDirect (some 5), .add] D.ctor ⟨{5}, 6⟩).map
    Heap.live = some {5} := by decide

/-- An array without memory for its buffer, then one without memory for its header, then a list with a cell that could
not be added: all is given back. -/
example : (life [.noBuffer, .noHeader, .initList, .add, .noCell, .add] D.ctor ⟨{5}, 6⟩).map Heap.live = some {5} := by
  decide

/-- **C35.** The bounding ball of shapes: its local dataset is destroyed twice if memory runs out, which frees nothing
twice, and in all cases the memory it took is given back. -/
theorem C35_mem_ball (header : Bool) (n : ℕ) (cell : Bool) (h₀ : Heap) (k : ∀ x ∈ h₀.live, x < h₀.next) :
    ∃ h', life (ballOps header n cell) D.ctor h₀ = some h' ∧ h'.live = h₀.live := by
  obtain ⟨h', e, -, t⟩ := C35_mem_life (ballOps header n cell) h₀ k
  refine ⟨h', e, t.mpr ?_⟩
  have : ∀ (b : Bool) (n : ℕ), tidy b (List.replicate n .add ++ if cell then [] else [.noCell, .destroy]) = true := by
    intro b n
    induction n with
    | zero => cases b <;> cases cell <;> rfl
    | succ n ih => simpa [List.replicate_succ, tidy, renews, keeps] using ih
  cases header <;> simp [ballOps, tidy, renews, keeps, this]

example : (life (ballOps true 3 false) D.ctor ⟨{0}, 1⟩).map Heap.live = some {0} := by decide

/-- **C35, negated.** `toAddrList` of the class calls `zVecXDDataAssignAddrList` instead of `zVecXDDataToAddrList`
(include/zeo/zeo_vecxd_data.h:612): it leaves the list as it is and replaces the contents of the dataset, whose memory
is lost. -/
theorem C35_toAddrList_false (n : ℕ) (v : ℕ) (h₀ : Heap) (k : ∀ x ∈ h₀.live, x < h₀.next) :
    ∃ h', life (.initList :: List.replicate n .add ++ [.assign (some v)]) D.ctor h₀ = some h' ∧
      h₀.live ⊂ h'.live := by
  obtain ⟨h', e, s, t⟩ := C35_mem_life (.initList :: List.replicate n .add ++ [.assign (some v)]) h₀ k
  refine ⟨h', e, s.ssubset_of_ne fun q => ?_⟩
  have t' := t.mp q.symm
  have : ∀ n : ℕ, tidy true (List.replicate n .add ++ [.assign (some v)]) = false := by
    intro n
    induction n with
    | zero => rfl
    | succ n ih => simpa [List.replicate_succ, tidy, renews, keeps] using ih
  simp [tidy, renews, keeps, this] at t'

example : (life [.initList, .add, .add, .assign (some 5)] D.ctor ⟨{5}, 6⟩).map Heap.live = some {5, 6, 7, 8} := by
  decide

end Zeo
