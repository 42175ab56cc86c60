import Verif.Model.OctMem
import Mathlib.Algebra.BigOperators.Fin
import Mathlib.Algebra.Order.Group.Multiset
import Mathlib.Algebra.BigOperators.Group.Finset.Basic
import Mathlib.Algebra.BigOperators.Group.Multiset.Basic
import Mathlib.Tactic.Abel
import Mathlib.Algebra.Order.BigOperators.Group.Finset

/-! Lemmas on the memory of octrees. -/

namespace Zeo
namespace OctMem

open Life

/-- The blocks of what a pointer points to. -/
def ids : MOct → Multiset ℕ
  | .nil => 0
  | .node b cells sub => b ::ₘ ((cells : Multiset ℕ) + ∑ i, ids (sub i))

/-- The blocks an octant owns: its cells and its suboctants with all they own. -/
def own : MOct → Multiset ℕ
  | .nil => 0
  | .node _ cells sub => (cells : Multiset ℕ) + ∑ i, ids (sub i)

theorem freeBlk_spec {h : Heap} {b : ℕ} (hb : b ∈ h.live) : freeBlk h b = some ⟨h.live.erase b, h.next⟩ := by
  simp [freeBlk, hb]

theorem freeCells_spec (cs : List ℕ) : ∀ (h : Heap), cs.Nodup → (∀ x ∈ cs, x ∈ h.live) →
    ∃ h', freeCells cs h = some h' ∧ h'.next = h.next ∧ ∀ x, x ∈ h'.live ↔ x ∈ h.live ∧ x ∉ cs := by
  induction cs with
  | nil => intro h _ _; exact ⟨h, rfl, rfl, by simp⟩
  | cons c cs ih =>
    intro h hn hl
    rw [List.nodup_cons] at hn
    obtain ⟨h', e, n, l⟩ := ih ⟨h.live.erase c, h.next⟩ hn.2 (fun x hx => by
      simp only [Finset.mem_erase]
      exact ⟨fun he => hn.1 (he ▸ hx), hl x (by simp [hx])⟩)
    refine ⟨h', ?_, n, fun x => ?_⟩
    · simp [freeCells, freeBlk_spec (hl c (by simp)), e]
    · rw [l]; simp only [Finset.mem_erase, List.mem_cons]; tauto

theorem ids_eq (b cells sub) : ids (.node b cells sub) = b ::ₘ own (.node b cells sub) := by
  rw [ids, own]

theorem ids_eq' (b cells sub) : ids (.node b cells sub) = own (.node b cells sub) + {b} := by
  rw [ids_eq, ← Multiset.singleton_add, add_comm]

/-- Releasing some of the pointers. -/
theorem fold_spec (sub : Fin 8 → MOct)
    (ih : ∀ i (h : Heap), (ids (sub i)).Nodup → (∀ x ∈ ids (sub i), x ∈ h.live) →
      ∃ h', release (sub i) h = some h' ∧ h'.next = h.next ∧ ∀ x, x ∈ h'.live ↔ x ∈ h.live ∧ x ∉ ids (sub i))
    (l : List (Fin 8)) : ∀ (h : Heap), ((l.map fun i => ids (sub i)).sum).Nodup →
      (∀ x ∈ (l.map fun i => ids (sub i)).sum, x ∈ h.live) →
      ∃ h', l.foldlM (fun h i => release (sub i) h) h = some h' ∧ h'.next = h.next ∧
        ∀ x, x ∈ h'.live ↔ x ∈ h.live ∧ x ∉ (l.map fun i => ids (sub i)).sum := by
  induction l with
  | nil => intro h _ _; exact ⟨h, rfl, rfl, by simp⟩
  | cons i l il =>
    intro h hn hl
    rw [List.map_cons, List.sum_cons, Multiset.nodup_add] at hn
    obtain ⟨n1, n2, dj⟩ := hn
    obtain ⟨h1, e1, x1, l1⟩ := ih i h n1 (fun x hx => hl x (by simp [hx]))
    obtain ⟨h2, e2, x2, l2⟩ := il h1 n2 (fun x hx => by
      rw [l1]
      exact ⟨hl x (by rw [List.map_cons, List.sum_cons, Multiset.mem_add]; exact Or.inr hx),
        fun hx' => (Multiset.disjoint_left.mp dj) hx' hx⟩)
    refine ⟨h2, ?_, x2.trans x1, fun x => ?_⟩
    · rw [List.foldlM_cons, e1]; exact e2
    · rw [l2, l1, List.map_cons, List.sum_cons, Multiset.mem_add]; tauto

theorem sum_eq (f : Fin 8 → Multiset ℕ) : ∑ i, f i = ((List.finRange 8).map f).sum := Fin.sum_univ_def f

/-- Releasing all pointers and the cells. -/
theorem body_spec (b : ℕ) (cells : List ℕ) (sub : Fin 8 → MOct)
    (ih : ∀ i (h : Heap), (ids (sub i)).Nodup → (∀ x ∈ ids (sub i), x ∈ h.live) →
      ∃ h', release (sub i) h = some h' ∧ h'.next = h.next ∧ ∀ x, x ∈ h'.live ↔ x ∈ h.live ∧ x ∉ ids (sub i))
    (h : Heap) (hn : (own (.node b cells sub)).Nodup) (hl : ∀ x ∈ own (.node b cells sub), x ∈ h.live) :
    ∃ h', (((List.finRange 8).foldlM (fun h i => release (sub i) h) h).bind (freeCells cells)) = some h' ∧
      h'.next = h.next ∧ ∀ x, x ∈ h'.live ↔ x ∈ h.live ∧ x ∉ own (.node b cells sub) := by
  rw [own, sum_eq, Multiset.nodup_add] at hn
  simp only [own, sum_eq, Multiset.mem_add] at hl ⊢
  obtain ⟨n1, n2, dj⟩ := hn
  obtain ⟨h1, e1, x1, l1⟩ := fold_spec sub ih (List.finRange 8) h n2 (fun x hx => hl x (Or.inr hx))
  obtain ⟨h2, e2, x2, l2⟩ := freeCells_spec cells h1 (by simpa using n1) (fun x hx => by
    rw [l1]
    exact ⟨hl x (Or.inl (by simpa using hx)), (Multiset.disjoint_left.mp dj) (by simpa using hx)⟩)
  refine ⟨h2, ?_, x2.trans x1, fun x => ?_⟩
  · rw [e1]; exact e2
  · rw [l2, l1, Multiset.mem_coe]; tauto

theorem release_spec (t : MOct) : ∀ (h : Heap), (ids t).Nodup → (∀ x ∈ ids t, x ∈ h.live) →
    ∃ h', release t h = some h' ∧ h'.next = h.next ∧ ∀ x, x ∈ h'.live ↔ x ∈ h.live ∧ x ∉ ids t := by
  induction t with
  | nil => intro h _ _; exact ⟨h, rfl, rfl, by simp [ids]⟩
  | node b cells sub ih =>
    intro h hn hl
    rw [ids_eq, Multiset.nodup_cons] at hn
    rw [ids_eq] at hl
    have hb : b ∈ h.live := hl b (by simp)
    obtain ⟨h1, e1, x1, l1⟩ := body_spec b cells sub ih h hn.2 (fun x hx => hl x (by simp [hx]))
    have hb1 : b ∈ h1.live := (l1 b).mpr ⟨hb, hn.1⟩
    refine ⟨⟨h1.live.erase b, h1.next⟩, ?_, x1, fun x => ?_⟩
    · rw [release, if_pos hb, e1]; exact freeBlk_spec hb1
    · simp only [Finset.mem_erase, l1, ids_eq, Multiset.mem_cons]; tauto

theorem destroy_spec (b cells sub) (h : Heap) (hn : (own (.node b cells sub)).Nodup)
    (hl : ∀ x ∈ own (.node b cells sub), x ∈ h.live) :
    ∃ h', destroy (.node b cells sub) h = some (.node b [] sub, h') ∧
      h'.next = h.next ∧ ∀ x, x ∈ h'.live ↔ x ∈ h.live ∧ x ∉ own (.node b cells sub) := by
  obtain ⟨h1, e1, x1, l1⟩ := body_spec b cells sub (fun i => release_spec (sub i)) h hn hl
  exact ⟨h1, by rw [destroy, e1]; rfl, x1, l1⟩

/-- The octant owns what it owns once, and all of it is allocated. -/
def Good (t : MOct) (h : Heap) : Prop := (own t).Nodup ∧ ∀ x ∈ own t, x ∈ h.live

/-- From one state to another the blocks `F` are given back and the blocks `N` are new. -/
def Step (o : Multiset ℕ) (h : Heap) (o' : Multiset ℕ) (h' : Heap) : Prop :=
  ∃ N F : Multiset ℕ, o' + F = o + N ∧ F ≤ o ∧ N.Nodup ∧ (∀ x ∈ N, h.next ≤ x ∧ x < h'.next) ∧ h.next ≤ h'.next ∧
    ∀ x, x ∈ h'.live ↔ (x ∈ h.live ∧ x ∉ F) ∨ x ∈ N

theorem Step.refl (o h) : Step o h o h := ⟨0, 0, by simp, by simp, by simp, by simp, le_refl _, by simp⟩

theorem Step.frame {o h o' h'} (c : Multiset ℕ) (s : Step o h o' h') : Step (o + c) h (o' + c) h' := by
  obtain ⟨N, F, e, f, n, b, x, l⟩ := s
  refine ⟨N, F, ?_, f.trans (Multiset.le_add_right _ _), n, b, x, l⟩
  rw [add_right_comm, e, add_right_comm]

/-- A heap never gives a block in use. -/
def HOk (h : Heap) : Prop := ∀ x ∈ h.live, x < h.next

theorem Step.hok {o h o' h'} (s : Step o h o' h') (k : HOk h) : HOk h' := by
  obtain ⟨N, F, e, f, n, b, x, l⟩ := s
  intro y hy
  rcases (l y).mp hy with h1 | h1
  · exact lt_of_lt_of_le (k y h1.1) x
  · exact (b y h1).2

theorem Step.good {o h o' h'} (s : Step o h o' h') (k : HOk h) (g : o.Nodup ∧ ∀ x ∈ o, x ∈ h.live) :
    o'.Nodup ∧ ∀ x ∈ o', x ∈ h'.live := by
  obtain ⟨N, F, e, f, n, b, x, l⟩ := s
  have nd : (o + N).Nodup := by
    rw [Multiset.nodup_add]
    refine ⟨g.1, n, Multiset.disjoint_left.mpr fun {y} h1 h2 => ?_⟩
    exact absurd (k y (g.2 y h1)) (not_lt.mpr (b y h2).1)
  rw [← e, Multiset.nodup_add] at nd
  refine ⟨nd.1, fun y hy => ?_⟩
  have : y ∈ o + N := by rw [← e]; simp [hy]
  rw [l]
  rcases Multiset.mem_add.mp this with h1 | h1
  · exact Or.inl ⟨g.2 y h1, (Multiset.disjoint_left.mp nd.2.2) hy⟩
  · exact Or.inr h1

/-- What is allocated and not owned stays as it is. -/
theorem Step.rest {o h o' h'} (s : Step o h o' h') (k : HOk h) (g : o.Nodup ∧ ∀ x ∈ o, x ∈ h.live) (x : ℕ) :
    (x ∈ h'.live ∧ x ∉ o') ↔ (x ∈ h.live ∧ x ∉ o) := by
  have g' := s.good k g
  obtain ⟨N, F, e, f, n, b, hx, l⟩ := s
  have nd : (o + N).Nodup := by
    rw [Multiset.nodup_add]
    refine ⟨g.1, n, Multiset.disjoint_left.mpr fun {y} h1 h2 => ?_⟩
    exact absurd (k y (g.2 y h1)) (not_lt.mpr (b y h2).1)
  have m : (x ∈ o' ∨ x ∈ F) ↔ (x ∈ o ∨ x ∈ N) := by rw [← Multiset.mem_add, e, Multiset.mem_add]
  have fo : x ∈ F → x ∈ o := fun h => Multiset.mem_of_le f h
  have lk : x ∈ N → x ∉ h.live := fun h1 h2 => absurd (k x h2) (not_lt.mpr (b x h1).1)
  have go := g.2 x
  rw [l]
  rw [← e, Multiset.nodup_add] at nd
  have dj : x ∈ o' → x ∉ F := (Multiset.disjoint_left.mp nd.2.2)
  tauto

theorem sum_update (sub : Fin 8 → MOct) (i : Fin 8) (s : MOct) :
    ∃ c, (∑ j, ids (sub j)) = ids (sub i) + c ∧ (∑ j, ids (Function.update sub i s j)) = ids s + c := by
  refine ⟨∑ j ∈ Finset.univ.erase i, ids (sub j), ?_, ?_⟩
  · exact (Finset.add_sum_erase _ _ (Finset.mem_univ i)).symm
  · rw [← Finset.add_sum_erase _ _ (Finset.mem_univ i), Function.update_self]
    congr 1
    exact Finset.sum_congr rfl fun j hj => by rw [Function.update_of_ne (Finset.ne_of_mem_erase hj)]

theorem own_update (b cells) (sub : Fin 8 → MOct) (i : Fin 8) (s : MOct) :
    ∃ c, own (.node b cells sub) = ids (sub i) + c ∧ own (.node b cells (Function.update sub i s)) = ids s + c := by
  obtain ⟨c, h1, h2⟩ := sum_update sub i s
  exact ⟨cells + c, by rw [own, h1, add_left_comm], by rw [own, h2, add_left_comm]⟩

/-- All that is owned is owned once and allocated. -/
def G (o : Multiset ℕ) (h : Heap) : Prop := HOk h ∧ o.Nodup ∧ ∀ x ∈ o, x ∈ h.live

theorem G.left {o c h} (g : G (o + c) h) : G o h :=
  ⟨g.1, (Multiset.nodup_add.mp g.2.1).1, fun x hx => g.2.2 x (by simp [hx])⟩

/-- Whatever else is owned: from `o` to `o'` everything stays owned once, and nothing that is not owned is lost or
left. -/
def Rel (o : Multiset ℕ) (h : Heap) (o' : Multiset ℕ) (h' : Heap) : Prop :=
  ∀ c, G (o + c) h → G (o' + c) h' ∧ ∀ x, (x ∈ h'.live ∧ x ∉ o' + c) ↔ (x ∈ h.live ∧ x ∉ o + c)

theorem Step.rel {o h o' h'} (s : Step o h o' h') : Rel o h o' h' := fun c g =>
  ⟨⟨(s.frame c).hok g.1, (s.frame c).good g.1 g.2⟩, (s.frame c).rest g.1 g.2⟩

theorem Rel.refl (o h) : Rel o h o h := (Step.refl o h).rel

theorem Rel.trans {o h o' h' o'' h''} (s : Rel o h o' h') (s' : Rel o' h' o'' h'') : Rel o h o'' h'' := fun c g =>
  ⟨(s' c (s c g).1).1, fun x => ((s' c (s c g).1).2 x).trans ((s c g).2 x)⟩

theorem Rel.frame {o h o' h'} (s : Rel o h o' h') (d : Multiset ℕ) : Rel (o + d) h (o' + d) h' := fun c g => by
  rw [add_assoc] at g ⊢; rw [add_assoc]; exact s _ g

theorem step_alloc (o : Multiset ℕ) (h : Heap) :
    Step o h (h.next ::ₘ o) ⟨insert h.next h.live, h.next + 1⟩ := by
  refine ⟨{h.next}, 0, ?_, by simp, by simp, by simp, by simp, fun x => ?_⟩
  · rw [add_zero, add_comm, Multiset.singleton_add]
  · simp only [Finset.mem_insert, Multiset.mem_singleton, Multiset.notMem_zero, not_false_eq_true, and_true]; tauto

theorem allocSub_spec (t : MOct) (h : Heap) : ∃ b cells sub h', allocSub t h = (.node b cells sub, h') ∧
    Rel (ids t) h (ids (.node b cells sub)) h' := by
  cases t with
  | nil =>
    refine ⟨_, _, _, _, rfl, ?_⟩
    have := (step_alloc 0 h).rel
    simpa [ids] using this
  | node b cells sub => exact ⟨_, _, _, _, rfl, Rel.refl _ _⟩

theorem add_spec (p : List (Fin 8)) : ∀ b cells sub (h : Heap), ∃ cells' sub' h',
    add p (.node b cells sub) h = some (.node b cells' sub', h') ∧
      Rel (own (.node b cells sub)) h (own (.node b cells' sub')) h' := by
  induction p with
  | nil =>
    intro b cells sub h
    refine ⟨_, _, _, rfl, ?_⟩
    have := (step_alloc (own (.node b cells sub)) h).rel
    rw [own] at this ⊢
    rw [own, ← Multiset.cons_coe, Multiset.cons_add]; exact this
  | cons i p ih =>
    intro b cells sub h
    obtain ⟨b1, c1, s1, h1, e1, r1⟩ := allocSub_spec (sub i) h
    obtain ⟨c2, s2, h2, e2, r2⟩ := ih b1 c1 s1 h1
    refine ⟨cells, Function.update sub i (.node b1 c2 s2), h2, ?_, ?_⟩
    · simp [add, e1, e2]
    · obtain ⟨c, k1, k2⟩ := own_update b cells sub i (.node b1 c2 s2)
      rw [k1, k2]
      refine (r1.frame c).trans (Rel.frame ?_ c)
      rw [ids_eq', ids_eq']
      exact r2.frame _

theorem addFail_spec (p : List (Fin 8)) : ∀ b cells sub (h : Heap), ∃ cells' sub' h',
    addFail p (.node b cells sub) h = some (.node b cells' sub', h') ∧
      Rel (own (.node b cells sub)) h (own (.node b cells' sub')) h' := by
  induction p with
  | nil => intro b cells sub h; exact ⟨_, _, _, rfl, Rel.refl _ _⟩
  | cons i p ih =>
    intro b cells sub h
    obtain ⟨b1, c1, s1, h1, e1, r1⟩ := allocSub_spec (sub i) h
    obtain ⟨c2, s2, h2, e2, r2⟩ := ih b1 c1 s1 h1
    refine ⟨cells, Function.update sub i (.node b1 c2 s2), h2, ?_, ?_⟩
    · simp [addFail, e1, e2]
    · obtain ⟨c, k1, k2⟩ := own_update b cells sub i (.node b1 c2 s2)
      rw [k1, k2]
      refine (r1.frame c).trans (Rel.frame ?_ c)
      rw [ids_eq', ids_eq']
      exact r2.frame _

theorem moveCells_spec (c : ℕ → Fin 8) (xs : List ℕ) : ∀ (sub : Fin 8 → MOct) (h : Heap),
    Rel ((xs : Multiset ℕ) + ∑ i, ids (sub i)) h (∑ i, ids ((moveCells c xs sub h).1 i)) (moveCells c xs sub h).2 := by
  induction xs with
  | nil => intro sub h; simpa [moveCells] using Rel.refl _ _
  | cons x xs ih =>
    intro sub h
    obtain ⟨b1, c1, s1, h1, e1, r1⟩ := allocSub_spec (sub (c x)) h
    have e : moveCells c (x :: xs) sub h =
        moveCells c xs (Function.update sub (c x) (.node b1 (x :: c1) s1)) h1 := by simp [moveCells, e1]
    rw [e]
    refine Rel.trans ?_ (ih _ _)
    obtain ⟨d, k1, k2⟩ := sum_update sub (c x) (.node b1 (x :: c1) s1)
    rw [k1, k2]
    have q : ids (.node b1 (x :: c1) s1) = x ::ₘ ids (.node b1 c1 s1) := by
      rw [ids, ids, ← Multiset.cons_coe, Multiset.cons_add, Multiset.cons_swap]
    rw [q, ← Multiset.cons_coe]
    have := r1.frame (x ::ₘ ((xs : Multiset ℕ) + d))
    have a1 : (x ::ₘ (xs : Multiset ℕ)) + (ids (sub (c x)) + d) = ids (sub (c x)) + x ::ₘ ((xs : Multiset ℕ) + d) := by
      simp only [← Multiset.singleton_add]; abel
    have a2 : (xs : Multiset ℕ) + (x ::ₘ ids (.node b1 c1 s1) + d) =
        ids (.node b1 c1 s1) + x ::ₘ ((xs : Multiset ℕ) + d) := by
      simp only [← Multiset.singleton_add]; abel
    rw [a1, a2]; exact this

/-- An operation on an octant that is defined wherever all is owned once. -/
def Fine (f : MOct → Heap → Option (MOct × Heap)) : Prop :=
  ∀ b cells sub h, G (own (.node b cells sub)) h → ∃ cells' sub' h',
    f (.node b cells sub) h = some (.node b cells' sub', h') ∧
      Rel (own (.node b cells sub)) h (own (.node b cells' sub')) h'

theorem split_fine (c : ℕ → Fin 8) : Fine (split c) := fun b cells sub h _ =>
  ⟨_, _, _, rfl, by simpa [own] using moveCells_spec c cells sub h⟩

/-- All but one of the cells stay owned. -/
theorem splitFail_spec (c : ℕ → Fin 8) {n : ℕ} {b cells sub} (hn : n < cells.length) (h : Heap) : ∃ cells' sub' h',
    splitFail c n (.node b cells sub) h = some (.node b cells' sub', h') ∧
      Rel (own (.node b cells sub)) h (own (.node b cells' sub') + {cells[n]}) h' := by
  refine ⟨_, _, _, rfl, ?_⟩
  have r := (moveCells_spec c (cells.take n) sub h).frame (((cells.drop (n + 1) : List ℕ) : Multiset ℕ) + {cells[n]})
  have e : (cells : Multiset ℕ) = ((cells.take n : List ℕ) : Multiset ℕ) +
      (((cells.drop (n + 1) : List ℕ) : Multiset ℕ) + {cells[n]}) := by
    conv_lhs => rw [← List.take_append_drop n cells, List.drop_eq_getElem_cons hn]
    rw [← Multiset.coe_add, ← Multiset.cons_coe, ← Multiset.singleton_add, add_comm ({cells[n]} : Multiset ℕ)]
  rw [own, own, e]
  convert r using 1 <;> abel

theorem mergeSub_fine (i : Fin 8) : Fine (fun t h => mergeSub t i h) := by
  intro b cells sub h g
  cases hs : sub i with
  | nil => exact ⟨cells, sub, h, by simp [mergeSub, hs], Rel.refl _ _⟩
  | node b' cells' sub' =>
    obtain ⟨d, k1, k2⟩ := own_update b cells sub i .nil
    have q : ids (.node b' cells' sub') = (cells' : Multiset ℕ) + ids (.node b' [] sub') := by
      rw [ids, ids]; simp only [← Multiset.singleton_add, Multiset.coe_nil]; abel
    rw [hs, q] at k1
    rw [k1] at g
    have g' : G (ids (.node b' [] sub')) h := by
      rw [add_comm (cells' : Multiset ℕ), add_assoc] at g; exact g.left
    obtain ⟨h', e, n, l⟩ := release_spec (.node b' [] sub') h g'.2.1 g'.2.2
    refine ⟨cells ++ cells', Function.update sub i .nil, h', by simp [mergeSub, hs, e], ?_⟩
    apply Step.rel
    have k3 : own (.node b (cells ++ cells') (Function.update sub i .nil)) = (cells' : Multiset ℕ) + d := by
      rw [own] at k2 ⊢
      rw [← Multiset.coe_add, add_right_comm, k2, ids, zero_add, add_comm]
    rw [k1, k3]
    refine ⟨0, ids (.node b' [] sub'), by abel, ?_, by simp, by simp, n.ge, fun x => by rw [l]; simp⟩
    rw [add_comm (cells' : Multiset ℕ), add_assoc]
    exact Multiset.le_add_right _ _

theorem merge_fine : Fine merge := by
  have : ∀ (l : List (Fin 8)), Fine (fun t h => l.foldlM (fun r i => mergeSub r.1 i r.2) (t, h)) := by
    intro l
    induction l with
    | nil => intro b cells sub h _; exact ⟨_, _, _, rfl, Rel.refl _ _⟩
    | cons i l ih =>
      intro b cells sub h g
      obtain ⟨c1, s1, h1, e1, r1⟩ := mergeSub_fine i b cells sub h g
      have g1 : G (own (.node b c1 s1)) h1 := by
        have := (r1 0 (by rwa [add_zero])).1; rwa [add_zero] at this
      obtain ⟨c2, s2, h2, e2, r2⟩ := ih b c1 s1 h1 g1
      refine ⟨c2, s2, h2, ?_, r1.trans r2⟩
      simp only [List.foldlM_cons] at e1 ⊢
      rw [e1]; exact e2
  exact this _

theorem atPath_fine {f} (hf : Fine f) (p : List (Fin 8)) : Fine (atPath f p) := by
  induction p with
  | nil => intro b cells sub h g; exact hf b cells sub h g
  | cons i p ih =>
    intro b cells sub h g
    cases hs : sub i with
    | nil =>
      refine ⟨cells, Function.update sub i .nil, h, by cases p <;> simp [atPath, hs], ?_⟩
      rw [← hs, Function.update_eq_self]; exact Rel.refl _ _
    | node b' cells' sub' =>
      obtain ⟨d, k1, _⟩ := own_update b cells sub i .nil
      rw [hs, ids_eq'] at k1
      have g' : G (own (.node b' cells' sub')) h := by
        rw [k1, add_assoc] at g; exact g.left
      obtain ⟨c1, s1, h1, e1, r1⟩ := ih b' cells' sub' h g'
      refine ⟨cells, Function.update sub i (.node b' c1 s1), h1, by simp [atPath, hs, e1], ?_⟩
      obtain ⟨d, k1, k2⟩ := own_update b cells sub i (.node b' c1 s1)
      rw [k1, k2, hs, ids_eq', ids_eq']
      exact (r1.frame _).frame _

theorem run_fine (o : Op) : Fine o.run := by
  cases o with
  | add p => intro b cells sub h _; exact add_spec p b cells sub h
  | addFail p => intro b cells sub h _; exact addFail_spec p b cells sub h
  | split p c => exact atPath_fine (split_fine c) p
  | merge p => exact atPath_fine merge_fine p

theorem runs_fine (os : List Op) : Fine (runs os) := by
  induction os with
  | nil => intro b cells sub h _; exact ⟨_, _, _, rfl, Rel.refl _ _⟩
  | cons o os ih =>
    intro b cells sub h g
    obtain ⟨c1, s1, h1, e1, r1⟩ := run_fine o b cells sub h g
    have g1 : G (own (.node b c1 s1)) h1 := by
      have := (r1 0 (by rwa [add_zero])).1; rwa [add_zero] at this
    obtain ⟨c2, s2, h2, e2, r2⟩ := ih b c1 s1 h1 g1
    exact ⟨c2, s2, h2, by simp [runs, e1, e2], r1.trans r2⟩

end OctMem
end Zeo
