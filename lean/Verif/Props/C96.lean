import Verif.Model.Life
import Mathlib.Tactic

/-! # C96: life of a shape -/

namespace Zeo
open Life

namespace Spec
/-- What is done with a shape of a C++ program between its declaration and the end of its scope. -/
inductive LifeOp | setName | query (known : Bool) | create | destroy

/-- The specification of what is allowed: whenever the shape is destroyed, and at the end of the scope, it must have a type; `t` is whether it
has one. A failing `queryAssign` takes it away. -/
def lifeOk : Bool → List LifeOp → Bool
  | t, [] => t
  | t, .destroy :: l => t && lifeOk t l
  | _, .query b :: l => lifeOk b l
  | _, .create :: l => lifeOk true l
  | t, .setName :: l => lifeOk t l

/-- The blocks lost: a name given when there was one, a type given when there was one, and both when the shape is created anew. -/
def lifeLeaks : Bool → Bool → List LifeOp → ℕ
  | _, _, [] => 0
  | _, _, .destroy :: l => lifeLeaks false false l
  | n, b, .query true :: l => b.toNat + lifeLeaks n true l
  | n, b, .query false :: l => lifeLeaks n b l
  | n, b, .create :: l => n.toNat + b.toNat + lifeLeaks false true l
  | n, b, .setName :: l => n.toNat + lifeLeaks true b l

/-- The calls one after the other, and the destructor. -/
def lifeRun : List LifeOp → Obj → Heap → Option Heap
  | [], s, h => dtor s h
  | .destroy :: l, s, h => match Life.destroy s h with
    | none => none
    | some (s, h) => lifeRun l s h
  | .query b :: l, s, h => lifeRun l (queryAssign b s h).2.1 (queryAssign b s h).2.2
  | .create :: l, s, h => lifeRun l (Life.create s h).1 (Life.create s h).2
  | .setName :: l, s, h => lifeRun l (Life.setName s h).1 (Life.setName s h).2

/-- Blocks are numbered in the order of their allocation. -/
def HeapOk (h : Heap) : Prop := ∀ n ∈ h.live, n < h.next
end Spec
open Spec

private structure Inv (base : Finset ℕ) (s : Obj) (h : Heap) : Prop where
  nw : s.name ≠ .wild
  bw : s.body ≠ .wild
  nl : ∀ n, s.name = .blk n → n ∈ h.live ∧ n ∉ base
  bl : ∀ n, s.body = .blk n → n ∈ h.live ∧ n ∉ base
  nb : ∀ n, s.name = .blk n → s.body ≠ .blk n
  ok : HeapOk h
  sub : base ⊆ h.live

private def hasN (s : Obj) : Bool := s.name != .null
private def hasB (s : Obj) : Bool := s.body != .null
private theorem blk_ne (n : ℕ) : (Ptr.blk n != Ptr.null) = true := by simp
private theorem com_ne : (Com.null == Com.set) = false := by decide

private theorem inv_destroy {base : Finset ℕ} {s : Obj} {h : Heap} (I : Inv base s h) (hc : s.com = .set) :
    ∃ h', destroy s h = some (⟨.null, .null, .set⟩, h') ∧ Inv base ⟨.null, .null, .set⟩ h' ∧
      h'.live.card + ((hasN s).toNat + (hasB s).toNat) = h.live.card ∧ h'.next = h.next ∧ h'.live ⊆ h.live := by
  obtain ⟨nm, bd, cm⟩ := s
  obtain ⟨nw, bw, nl, bl, nb, ok, sub⟩ := I
  simp only at *
  subst hc
  have mk : ∀ h' : Heap, HeapOk h' → base ⊆ h'.live → Inv base ⟨.null, .null, .set⟩ h' := fun h' a b =>
    ⟨by simp, by simp, by simp, by simp, by simp, a, b⟩
  cases nm with
  | wild => exact absurd rfl nw
  | null =>
    cases bd with
    | wild => exact absurd rfl bw
    | null => exact ⟨h, by simp [destroy, Heap.free], mk _ ok sub, by simp [hasN, hasB], rfl, subset_rfl⟩
    | blk n =>
      obtain ⟨h1, h2⟩ := bl n rfl
      refine ⟨⟨h.live.erase n, h.next⟩, by simp [destroy, Heap.free, h1], mk _ (fun k hk => ok k (Finset.mem_of_mem_erase hk)) ?_, ?_, rfl, Finset.erase_subset _ _⟩
      · intro k hk; exact Finset.mem_erase.2 ⟨fun e => h2 (e ▸ hk), sub hk⟩
      · have := Finset.card_erase_add_one h1; simp [hasN, hasB, this, blk_ne]
  | blk m =>
    obtain ⟨g1, g2⟩ := nl m rfl
    cases bd with
    | wild => exact absurd rfl bw
    | null =>
      refine ⟨⟨h.live.erase m, h.next⟩, by simp [destroy, Heap.free, g1], mk _ (fun k hk => ok k (Finset.mem_of_mem_erase hk)) ?_, ?_, rfl, Finset.erase_subset _ _⟩
      · intro k hk; exact Finset.mem_erase.2 ⟨fun e => g2 (e ▸ hk), sub hk⟩
      · have := Finset.card_erase_add_one g1; simp [hasN, hasB, this, blk_ne]
    | blk n =>
      obtain ⟨h1, h2⟩ := bl n rfl
      have hne : n ≠ m := fun e => nb m rfl (by rw [e])
      have h3 : n ∈ h.live.erase m := Finset.mem_erase.2 ⟨hne, h1⟩
      refine ⟨⟨(h.live.erase m).erase n, h.next⟩, by simp [destroy, Heap.free, g1, h1, hne],
        mk _ (fun k hk => ok k (Finset.mem_of_mem_erase (Finset.mem_of_mem_erase hk))) ?_, ?_, rfl,
        (Finset.erase_subset _ _).trans (Finset.erase_subset _ _)⟩
      · intro k hk
        exact Finset.mem_erase.2 ⟨fun e => h2 (e ▸ hk), Finset.mem_erase.2 ⟨fun e => g2 (e ▸ hk), sub hk⟩⟩
      · have a := Finset.card_erase_add_one g1
        have b := Finset.card_erase_add_one h3
        simp [hasN, hasB, blk_ne]; omega

private theorem destroy_untyped {s : Obj} {h : Heap} (hc : s.com ≠ .set) : destroy s h = none := by
  unfold destroy
  split
  · rfl
  · simp [hc]

private theorem next_notin {h : Heap} (ok : HeapOk h) : h.next ∉ h.live := fun hm => lt_irrefl _ (ok _ hm)

private theorem alloc_ok {h : Heap} (ok : HeapOk h) : HeapOk h.alloc.2 := by
  intro n hn
  simp only [Heap.alloc, Finset.mem_insert] at hn ⊢
  rcases hn with rfl | hn
  · omega
  · have := ok n hn; omega

private theorem alloc_card {h : Heap} (ok : HeapOk h) : h.alloc.2.live.card = h.live.card + 1 := by
  simp [Heap.alloc, Finset.card_insert_of_notMem (next_notin ok)]

private theorem inv_body {base : Finset ℕ} {s : Obj} {h : Heap} (I : Inv base s h) (c : Com) :
    Inv base { s with body := h.alloc.1, com := c } h.alloc.2 := by
  obtain ⟨nw, bw, nl, bl, nb, ok, sub⟩ := I
  refine ⟨nw, by simp [Heap.alloc], ?_, ?_, ?_, alloc_ok ok, ?_⟩
  · intro n hn; obtain ⟨a, b⟩ := nl n hn; exact ⟨by simp [Heap.alloc, a], b⟩
  · intro n hn
    simp only [Heap.alloc, Ptr.blk.injEq] at hn; subst hn
    exact ⟨by simp [Heap.alloc], fun hm => next_notin ok (sub hm)⟩
  · intro n hn hb
    simp only [Heap.alloc, Ptr.blk.injEq] at hb; subst hb
    exact next_notin ok (nl _ hn).1
  · intro k hk; simp [Heap.alloc, sub hk]

private theorem inv_name {base : Finset ℕ} {s : Obj} {h : Heap} (I : Inv base s h) : Inv base (setName s h).1 (setName s h).2 := by
  obtain ⟨nw, bw, nl, bl, nb, ok, sub⟩ := I
  refine ⟨by simp [setName, Heap.alloc], bw, ?_, ?_, ?_, alloc_ok ok, ?_⟩
  · intro n hn
    simp only [setName, Heap.alloc, Ptr.blk.injEq] at hn; subst hn
    exact ⟨by simp [setName, Heap.alloc], fun hm => next_notin ok (sub hm)⟩
  · intro n hn; obtain ⟨a, b⟩ := bl n hn; exact ⟨by simp [setName, Heap.alloc, a], b⟩
  · intro n hn hb
    simp only [setName, Heap.alloc, Ptr.blk.injEq] at hn; subst hn
    exact next_notin ok (bl _ hb).1
  · intro k hk; simp [setName, Heap.alloc, sub hk]

private theorem inv_init {base : Finset ℕ} {s : Obj} {h : Heap} (I : Inv base s h) : Inv base (init s) h :=
  ⟨by simp [init], by simp [init], by simp [init], by simp [init], by simp [init], I.ok, I.sub⟩

private theorem main {base : Finset ℕ} (ops : List LifeOp) : ∀ (s : Obj) (h : Heap), Inv base s h →
    ((lifeRun ops s h).isSome = lifeOk (s.com == .set) ops) ∧
    ∀ h', lifeRun ops s h = some h' → base ⊆ h'.live ∧ HeapOk h' ∧
      h'.live.card + ((hasN s).toNat + (hasB s).toNat) = h.live.card + lifeLeaks (hasN s) (hasB s) ops := by
  induction ops with
  | nil =>
    intro s h I
    by_cases hc : s.com = .set
    · obtain ⟨h', e, J, c, -⟩ := inv_destroy I hc
      refine ⟨by simp [lifeRun, dtor, e, lifeOk, hc], ?_⟩
      intro h2 e2
      simp only [lifeRun, dtor, e, Option.map_some, Option.some.injEq] at e2
      subst e2
      exact ⟨J.sub, J.ok, by simpa [lifeLeaks] using c⟩
    · have e := destroy_untyped (h := h) hc
      refine ⟨by simp [lifeRun, dtor, e, lifeOk, hc], ?_⟩
      intro h2 e2; simp [lifeRun, dtor, e] at e2
  | cons op ops ih =>
    intro s h I
    cases op with
    | destroy =>
      by_cases hc : s.com = .set
      · obtain ⟨h', e, J, c, -⟩ := inv_destroy I hc
        obtain ⟨i1, i2⟩ := ih _ _ J
        refine ⟨by simpa [lifeRun, e, lifeOk, hc] using i1, ?_⟩
        intro h2 e2
        simp only [lifeRun, e] at e2
        obtain ⟨j1, j0, j2⟩ := i2 h2 e2
        refine ⟨j1, j0, ?_⟩
        have j2' : h2.live.card = h'.live.card + lifeLeaks false false ops := by simpa [hasN, hasB] using j2
        simp only [lifeLeaks]; omega
      · have e := destroy_untyped (h := h) hc
        refine ⟨by simp [lifeRun, e, lifeOk, hc], ?_⟩
        intro h2 e2; simp [lifeRun, e] at e2
    | query b =>
      cases b with
      | true =>
        obtain ⟨i1, i2⟩ := ih _ _ (inv_body I .set)
        refine ⟨by simpa [lifeRun, queryAssign, lifeOk] using i1, ?_⟩
        intro h2 e2
        obtain ⟨j1, j0, j2⟩ := i2 h2 (by simpa [lifeRun, queryAssign] using e2)
        refine ⟨j1, j0, ?_⟩
        rw [alloc_card I.ok] at j2
        have hb : hasB { s with body := h.alloc.1, com := .set } = true := by simp [hasB, Heap.alloc]
        have hn : hasN { s with body := h.alloc.1, com := .set } = hasN s := rfl
        rw [hb, hn] at j2
        simp only [lifeLeaks, Bool.toNat_true] at j2 ⊢; omega
      | false =>
        obtain ⟨i1, i2⟩ := ih { s with com := .null } h ⟨I.nw, I.bw, I.nl, I.bl, I.nb, I.ok, I.sub⟩
        refine ⟨by simpa [lifeRun, queryAssign, lifeOk, com_ne] using i1, ?_⟩
        intro h2 e2
        exact i2 h2 (by simpa [lifeRun, queryAssign] using e2)
    | create =>
      obtain ⟨i1, i2⟩ := ih _ _ (inv_body (inv_init I) .set)
      refine ⟨by simpa [lifeRun, create, lifeOk] using i1, ?_⟩
      intro h2 e2
      obtain ⟨j1, j0, j2⟩ := i2 h2 (by simpa [lifeRun, create] using e2)
      refine ⟨j1, j0, ?_⟩
      rw [alloc_card I.ok] at j2
      have hb : hasB { init s with body := h.alloc.1, com := .set } = true := by simp [hasB, Heap.alloc]
      have hn : hasN { init s with body := h.alloc.1, com := .set } = false := by simp [hasN, init]
      rw [hb, hn] at j2
      simp only [lifeLeaks, Bool.toNat_true, Bool.toNat_false] at j2 ⊢; omega
    | setName =>
      obtain ⟨i1, i2⟩ := ih _ _ (inv_name I)
      refine ⟨by simpa [lifeRun, setName, lifeOk] using i1, ?_⟩
      intro h2 e2
      obtain ⟨j1, j0, j2⟩ := i2 h2 (by simpa [lifeRun] using e2)
      refine ⟨j1, j0, ?_⟩
      have ec : (setName s h).2.live.card = h.live.card + 1 := alloc_card I.ok
      have hn : hasN (setName s h).1 = true := by simp [hasN, setName, Heap.alloc]
      have hb : hasB (setName s h).1 = hasB s := rfl
      rw [ec, hn, hb] at j2
      simp only [lifeLeaks, Bool.toNat_true] at j2 ⊢; omega

/-- **Life of a shape** declared without arguments, whatever is done with it: the program is defined exactly if the shape has a type whenever
it is destroyed and at the end of its scope (nothing is freed twice, no indeterminate pointer is used)… -/
theorem C96_defined (ops : List LifeOp) (h : Heap) (ok : HeapOk h) : lifeRun ops ctor h ≠ none ↔ lifeOk false ops = true := by
  have I : Inv h.live ctor h := ⟨by simp [ctor, init], by simp [ctor, init], by simp [ctor, init], by simp [ctor, init], by simp [ctor, init], ok, subset_rfl⟩
  have := (main ops ctor h I).1
  rw [show ((ctor.com == Com.set) : Bool) = false by decide] at this
  rw [← this, Option.isSome_iff_ne_none]

/-- …and then all that was allocated before is left alone, and what is lost are the blocks counted by the specification. -/
theorem C96_leaks (ops : List LifeOp) (h h' : Heap) (ok : HeapOk h) (e : lifeRun ops ctor h = some h') :
    h.live ⊆ h'.live ∧ h'.live.card = h.live.card + lifeLeaks false false ops := by
  have I : Inv h.live ctor h := ⟨by simp [ctor, init], by simp [ctor, init], by simp [ctor, init], by simp [ctor, init], by simp [ctor, init], ok, subset_rfl⟩
  obtain ⟨h1, -, h2⟩ := (main ops ctor h I).2 h' e
  exact ⟨h1, by simpa [hasN, hasB, ctor, init] using h2⟩

/-- In particular a shape that is created, named, and destroyed or left to its destructor (or both) gives back all of its memory. -/
theorem C96_life (h : Heap) (ok : HeapOk h) (l : List LifeOp) (hl : l = [.create, .setName] ∨ l = [.query true, .setName] ∨
    l = [.create, .setName, .destroy] ∨ l = [.create, .destroy, .create, .setName]) :
    ∃ h', lifeRun l ctor h = some h' ∧ h'.live = h.live := by
  have hs : lifeOk false l = true := by rcases hl with rfl | rfl | rfl | rfl <;> rfl
  have hk : lifeLeaks false false l = 0 := by rcases hl with rfl | rfl | rfl | rfl <;> rfl
  obtain ⟨h', e⟩ := Option.ne_none_iff_exists'.1 ((C96_defined l h ok).2 hs)
  obtain ⟨h1, h2⟩ := C96_leaks l h h' ok e
  exact ⟨h', e, (Finset.eq_of_subset_of_card_le h1 (by omega)).symm⟩

/-- A shape that is only **declared**, or whose type could not be found, is destroyed by following a null pointer; and one declared **with the name
of a type** by freeing an indeterminate one. -/
theorem C96_life_false (h : Heap) : dtor ctor h = none ∧ (∀ s, dtor (queryAssign false s h).2.1 (queryAssign false s h).2.2 = none) ∧
    ∀ known, dtor (ctorStr known h).1 (ctorStr known h).2 = none := by
  refine ⟨by simp [dtor, destroy, ctor, init, Heap.free], ?_, ?_⟩
  · intro s; simp [dtor, queryAssign, destroy_untyped]
  · intro known; cases known <;> simp [dtor, destroy, ctorStr, queryAssign, Obj.raw, Heap.free]

/-- A shape given a type or created **twice** loses the first body. -/
theorem C96_leaks_false (h : Heap) (ok : HeapOk h) : ∀ l, l = [.create, .create] ∨ l = [.query true, .query true] ∨ l = [.create, .query true] →
    ∃ h', lifeRun l ctor h = some h' ∧ h'.live.card = h.live.card + 1 := by
  intro l hl
  have hs : lifeOk false l = true := by rcases hl with rfl | rfl | rfl <;> rfl
  have hk : lifeLeaks false false l = 1 := by rcases hl with rfl | rfl | rfl <;> rfl
  obtain ⟨h', e⟩ := Option.ne_none_iff_exists'.1 ((C96_defined l h ok).2 hs)
  obtain ⟨-, h2⟩ := C96_leaks l h h' ok e
  exact ⟨h', e, by omega⟩

private theorem free_null {h h' : Heap} {p q : Ptr} (e : h.free p = some (q, h')) : q = .null := by
  unfold Heap.free at e
  split at e
  · simp at e
  · simp at e; exact e.1.symm
  · split_ifs at e; simp at e; exact e.1.symm

/-- Destroying a shape **twice** (by `destroy()` and by the destructor) does nothing the second time for all types but one: a NURBS is destroyed by
following a null pointer. -/
theorem C96_twice (k : Kind) (s s' : Obj) (h h' : Heap) (e : destroyKind k s h = some (s', h')) :
    destroyKind k s' h' = if k = .nurbs then none else some (s', h') := by
  unfold destroyKind at e
  split at e
  · simp at e
  · rename_i nm h1 e1
    split_ifs at e with hc
    split at e
    · simp at e
    · split at e
      · simp at e
      · rename_i bd h2 e2
        simp only [Option.some.injEq, Prod.mk.injEq] at e
        obtain ⟨rfl, rfl⟩ := e
        have a := free_null e1; have b := free_null e2
        subst a b
        push Not at hc
        cases k <;> simp [destroyKind, Heap.free, kindDestroy, hc]

/-- The first destruction is defined for every type if the shape has one and its pointers are to blocks of its own. -/
theorem C96_once (k : Kind) (n : ℕ) (h : Heap) (hn : n ∈ h.live) :
    destroyKind k ⟨.null, .blk n, .set⟩ h = some (⟨.null, .null, .set⟩, ⟨h.live.erase n, h.next⟩) := by
  cases k <;> simp [destroyKind, Heap.free, kindDestroy, hn]

/-! ## Files of shapes -/

private theorem read_main (ks : List Bool) : ∀ (h : Heap), HeapOk h →
    HeapOk (readShapes ks h).2 ∧ (∀ n, n ∈ (readShapes ks h).2.live ↔ n ∈ h.live ∨ h.next ≤ n ∧ n < (readShapes ks h).2.next) ∧ h.next ≤ (readShapes ks h).2.next ∧
    ∀ g : Heap, HeapOk g → (readShapes ks h).2.next ≤ g.next → (∀ n, h.next ≤ n → n < (readShapes ks h).2.next → n ∈ g.live) →
      ((destroyAll (readShapes ks h).1 g).isSome = ks.all id) ∧
      ∀ g', destroyAll (readShapes ks h).1 g = some g' → ∀ n, n ∈ g'.live ↔ n ∈ g.live ∧ ¬ (h.next ≤ n ∧ n < (readShapes ks h).2.next) := by
  induction ks with
  | nil =>
    intro h ok
    refine ⟨ok, fun n => by simp only [readShapes]; constructor <;> [exact Or.inl; (rintro (h | h); exacts [h, by omega])], le_rfl, ?_⟩
    intro g gok _ _
    refine ⟨by simp [readShapes, destroyAll], ?_⟩
    intro g' e n
    simp only [readShapes, destroyAll, Option.some.injEq] at e
    subst e
    simp only [readShapes]
    constructor
    · intro hn; exact ⟨hn, by omega⟩
    · exact fun hn => hn.1
  | cons k ks ih =>
    intro h ok
    have ok1 : HeapOk (setName .zeroed h).2 := alloc_ok ok
    cases k with
    | false =>
      obtain ⟨i1, i2, i3, i4⟩ := ih (setName .zeroed h).2 ok1
      have e0 : readShapes (false :: ks) h = ((⟨.blk h.next, .null, .null⟩ : Obj) :: (readShapes ks (setName .zeroed h).2).1, (readShapes ks (setName .zeroed h).2).2) := by
        simp [readShapes, queryAssign, setName, Heap.alloc, Obj.zeroed]
      have hx : (setName .zeroed h).2.next = h.next + 1 := rfl
      rw [e0]
      refine ⟨i1, fun n => by
        rw [i2 n]
        simp only [setName, Heap.alloc, Finset.mem_insert] at i3 ⊢
        constructor
        · rintro ((u | u) | u)
          · right; omega
          · exact Or.inl u
          · right; omega
        · rintro (u | u)
          · exact Or.inl (Or.inr u)
          · by_cases e : n = h.next
            · exact Or.inl (Or.inl e)
            · right; omega, by simp only; omega, ?_⟩
      intro g gok g1 g2
      have hn : destroy ⟨.blk h.next, .null, .null⟩ g = none := destroy_untyped (by simp)
      refine ⟨by simp [destroyAll, hn], ?_⟩
      intro g' e
      simp [destroyAll, hn] at e
    | true =>
      have ok2 : HeapOk (setName .zeroed h).2.alloc.2 := alloc_ok ok1
      obtain ⟨i1, i2, i3, i4⟩ := ih (setName .zeroed h).2.alloc.2 ok2
      set hh := (setName .zeroed h).2.alloc.2 with hhd
      have hx : hh.next = h.next + 2 := rfl
      have e0 : readShapes (true :: ks) h = ((⟨.blk h.next, .blk (h.next + 1), .set⟩ : Obj) :: (readShapes ks hh).1, (readShapes ks hh).2) := by
        simp [readShapes, queryAssign, setName, Heap.alloc, Obj.zeroed, hhd]
      rw [e0]
      have hm : ∀ n, n ∈ hh.live ↔ n = h.next + 1 ∨ n = h.next ∨ n ∈ h.live := by
        intro n; simp [hhd, setName, Heap.alloc]
      refine ⟨i1, fun n => by
        rw [i2 n, hm n]
        simp only
        constructor
        · rintro ((u | u | u) | u)
          · right; omega
          · right; omega
          · exact Or.inl u
          · right; omega
        · rintro (u | u)
          · exact Or.inl (Or.inr (Or.inr u))
          · by_cases e : n = h.next
            · exact Or.inl (Or.inr (Or.inl e))
            · by_cases e' : n = h.next + 1
              · exact Or.inl (Or.inl e')
              · right; omega, by simp only; omega, ?_⟩
      intro g gok g1 g2
      simp only at g1 g2
      have m1 : h.next ∈ g.live := g2 _ le_rfl (by omega)
      have m2 : h.next + 1 ∈ g.live := g2 _ (by omega) (by omega)
      have hd : destroy ⟨.blk h.next, .blk (h.next + 1), .set⟩ g = some (⟨.null, .null, .set⟩, ⟨(g.live.erase h.next).erase (h.next + 1), g.next⟩) := by
        simp [destroy, Heap.free, m1, m2]
      obtain ⟨a, b⟩ := i4 ⟨(g.live.erase h.next).erase (h.next + 1), g.next⟩
        (fun n hn => gok n (Finset.mem_of_mem_erase (Finset.mem_of_mem_erase hn))) g1
        (fun n h1 h2 => Finset.mem_erase.2 ⟨by omega, Finset.mem_erase.2 ⟨by omega, g2 n (by omega) h2⟩⟩)
      refine ⟨by simpa [destroyAll, hd] using a, ?_⟩
      intro g' e n
      simp only [destroyAll, hd] at e
      rw [b g' e n]
      simp only [Finset.mem_erase]
      constructor
      · rintro ⟨⟨u1, u2, u3⟩, u4⟩; exact ⟨u3, by omega⟩
      · rintro ⟨u1, u2⟩; exact ⟨⟨by omega, by omega, u1⟩, by omega⟩

/-- Shapes **read from a file** can be destroyed exactly if the type of every one was known, and then all of their memory, and no other, is given
back… -/
theorem C96_read (ks : List Bool) (h : Heap) (ok : HeapOk h) :
    (destroyAll (readShapes ks h).1 (readShapes ks h).2 ≠ none ↔ ∀ k ∈ ks, k = true) ∧
    ∀ h', destroyAll (readShapes ks h).1 (readShapes ks h).2 = some h' → h'.live = h.live := by
  obtain ⟨i1, i2, i3, i4⟩ := read_main ks h ok
  obtain ⟨a, b⟩ := i4 _ i1 le_rfl (fun n h1 h2 => (i2 n).2 (Or.inr ⟨h1, h2⟩))
  constructor
  · rw [← Option.isSome_iff_ne_none, a]; simp
  · intro h' e
    ext n
    rw [b h' e n, i2 n]
    constructor
    · rintro ⟨u | u, v⟩
      · exact u
      · exact absurd u v
    · intro u
      have := ok n u
      exact ⟨Or.inl u, by omega⟩

/-- …so a file that writes an **unknown type** for one of its shapes makes shapes that cannot be destroyed, although reading it succeeds. -/
theorem C96_read_false (h : Heap) (ok : HeapOk h) : ∃ ks, (readShapes ks h).1 ≠ [] ∧ destroyAll (readShapes ks h).1 (readShapes ks h).2 = none := by
  refine ⟨[true, false], by simp [readShapes], ?_⟩
  by_contra hc
  have := (C96_read [true, false] h ok).1.1 hc false (by simp)
  simp at this

/-! ## Mirror images -/

/-- **Mirror image**: of a shape with a body into another with none of its blocks: the destination then has the type, a new body and the memory of
its old body and name is given back. -/
theorem C96_mirror (src dst : Obj) (h : Heap) (ok : HeapOk h) (n : ℕ) (hs : src.com = .set) (hb : src.body = .blk n) (hn : n ∈ h.live)
    (dn : dst.name = .null ∨ ∃ m, dst.name = .blk m ∧ m ∈ h.live ∧ m ≠ n) (db : dst.body = .null ∨ ∃ m, dst.body = .blk m ∧ m ∈ h.live ∧ m ≠ n)
    (dd : dst.name = .null ∨ dst.name ≠ dst.body) (hc : dst.com = .set) :
    ∃ s h', mirror true src dst h = some (true, s, h') ∧ s.com = .set ∧ s.name = .null ∧ s.body = .blk h.next ∧ h.next ∉ h.live ∧
      ∀ k, k ∈ h'.live ↔ k = h.next ∨ k ∈ h.live ∧ dst.name ≠ .blk k ∧ dst.body ≠ .blk k := by
  obtain ⟨nm, bd, cm⟩ := dst
  simp only at dn db dd hc
  subst hc
  have hk : ∀ k : ℕ, k ∈ h.live → k ≠ h.next := fun k hk e => next_notin ok (e ▸ hk)
  rcases dn with rfl | ⟨a, rfl, a1, a2⟩ <;> rcases db with rfl | ⟨b, rfl, b1, b2⟩
  · refine ⟨_, _, by simp only [mirror, destroy, Heap.free, hs, hb]; simp [hn]; exact ⟨rfl, rfl⟩, rfl, rfl, rfl, next_notin ok, ?_⟩
    intro k; simp [Heap.alloc]
  · refine ⟨_, _, by simp only [mirror, destroy, Heap.free, hs, hb]; simp [hn, b1, b2.symm]; exact ⟨rfl, rfl⟩, rfl, rfl, rfl, next_notin ok, ?_⟩
    intro k; simp [Heap.alloc]; tauto
  · refine ⟨_, _, by simp only [mirror, destroy, Heap.free, hs, hb]; simp [hn, a1, a2.symm]; exact ⟨rfl, rfl⟩, rfl, rfl, rfl, next_notin ok, ?_⟩
    intro k; simp [Heap.alloc]; tauto
  · have hab : b ≠ a := by rintro rfl; simp at dd
    refine ⟨_, _, by simp only [mirror, destroy, Heap.free, hs, hb]; simp [hn, a1, a2.symm, b1, b2.symm, hab]; exact ⟨rfl, rfl⟩, rfl, rfl, rfl, next_notin ok, ?_⟩
    intro k; simp [Heap.alloc]; tauto

/-- Mirroring a shape **onto itself** reads the body after it was freed, so is never defined; and an **invalid axis** is reported after the destination was
destroyed: it keeps the type but has no body. -/
theorem C96_mirror_false (s : Obj) (h : Heap) : mirrorSelf true s h = none ∧
    ∃ (src dst s' : Obj) (g g' : Heap), HeapOk g ∧ dst.com = .set ∧ dst.body ≠ .null ∧ mirror false src dst g = some (false, s', g') ∧ s'.com = .set ∧ s'.body = .null := by
  constructor
  · unfold mirrorSelf
    split
    · rfl
    · rfl
    · split
      · rfl
      · rename_i s1 h1 e
        have hb : s1.body = .null := by
          unfold destroy at e
          split at e
          · simp at e
          · split_ifs at e
            split at e
            · simp at e
            · rename_i bd hh ef
              simp only [Option.some.injEq, Prod.mk.injEq] at e
              rw [← e.1]
              simp only
              unfold Heap.free at ef
              split at ef
              · simp at ef
              · simp at ef; exact ef.1.symm
              · split_ifs at ef; simp at ef; exact ef.1.symm
        simp [mirrorSelf.mirror.core, hb]
  · refine ⟨⟨.null, .blk 0, .set⟩, ⟨.null, .blk 1, .set⟩, ⟨.null, .null, .set⟩, ⟨{0, 1}, 2⟩, ⟨({0, 1} : Finset ℕ).erase 1, 2⟩, ?_, rfl, by simp, ?_, rfl, rfl⟩
    · intro n hn; simp at hn; simp only; omega
    · simp [mirror, destroy, Heap.free]

/-! ## Cases that meet the hypotheses -/

example : ∃ h', lifeRun [.setName, .create, .destroy, .query true, .setName] ctor ⟨{3, 5}, 9⟩ = some h' ∧ h'.live.card = 3 := by
  have ok : HeapOk ⟨{3, 5}, 9⟩ := by intro n hn; simp at hn; simp only; omega
  obtain ⟨h', e⟩ := Option.ne_none_iff_exists'.1 ((C96_defined [.setName, .create, .destroy, .query true, .setName] _ ok).2 rfl)
  obtain ⟨-, h2⟩ := C96_leaks _ _ h' ok e
  exact ⟨h', e, by simpa [lifeLeaks] using h2⟩

example : destroyAll (readShapes [true, true] ⟨∅, 0⟩).1 (readShapes [true, true] ⟨∅, 0⟩).2 ≠ none :=
  ((C96_read _ _ (by intro n hn; simp at hn)).1).2 (by simp)

example : ∃ s h', mirror true ⟨.null, .blk 0, .set⟩ ⟨.blk 1, .blk 2, .set⟩ ⟨{0, 1, 2}, 3⟩ = some (true, s, h') ∧ s.body = .blk 3 := by
  obtain ⟨s, h', e, -, -, e2, -⟩ := C96_mirror ⟨.null, .blk 0, .set⟩ ⟨.blk 1, .blk 2, .set⟩ ⟨{0, 1, 2}, 3⟩
    (by intro n hn; simp at hn; simp only; omega) 0 rfl rfl (by simp) (Or.inr ⟨1, rfl, by simp, by simp⟩) (Or.inr ⟨2, rfl, by simp, by simp⟩)
    (Or.inr (by simp)) rfl
  exact ⟨s, h', e, e2⟩

end Zeo
