import Verif.Model.DelMem
import Mathlib.Data.Multiset.Filter
import Mathlib.Data.Multiset.AddSub
import Mathlib.Data.Multiset.ZeroCons
import Mathlib.Tactic.Common

/-! # C71: the memory of the Delaunay triangulation

The triangulation gives back all of its stack, and its list can be destroyed, even if memory runs out for the stack.
If memory runs out for the new triangles, those that were allocated are freed and stay in the list, so that the list
the caller gets must not be read or destroyed. -/

namespace Zeo

open Life OctMem DelMem

namespace DelMem

/-- `m` are blocks in use, each once, and the others in use are `B`. -/
def Owns (m : Multiset ℕ) (h : Heap) (B : Finset ℕ) : Prop :=
  (∀ x ∈ h.live, x < h.next) ∧ m.Nodup ∧ (∀ x ∈ m, x ∈ h.live) ∧ ∀ x, (x ∈ h.live ∧ x ∉ m) ↔ x ∈ B

theorem Owns.alloc {m h B} (o : Owns m h B) :
    Owns (h.next ::ₘ m) ⟨insert h.next h.live, h.next + 1⟩ B := by
  obtain ⟨a, b, c, d⟩ := o
  have nl : h.next ∉ h.live := fun hx => lt_irrefl _ (a _ hx)
  refine ⟨fun x hx => ?_, Multiset.nodup_cons.mpr ⟨fun hx => nl (c _ hx), b⟩, fun x hx => ?_, fun x => ?_⟩
  · rcases Finset.mem_insert.mp hx with rfl | hx
    · exact Nat.lt_succ_self _
    · exact Nat.lt_succ_of_lt (a x hx)
  · rcases Multiset.mem_cons.mp hx with rfl | hx
    · exact Finset.mem_insert_self _ _
    · exact Finset.mem_insert_of_mem (c x hx)
  · rw [← d x]
    simp only [Finset.mem_insert, Multiset.mem_cons]
    constructor
    · rintro ⟨h1 | h1, h2⟩
      · exact absurd (Or.inl h1) h2
      · exact ⟨h1, fun h3 => h2 (Or.inr h3)⟩
    · rintro ⟨h1, h2⟩
      exact ⟨Or.inr h1, fun h3 => h3.elim (fun e => nl (e ▸ h1)) h2⟩

theorem Owns.free {c m h B} (o : Owns (c ::ₘ m) h B) : ∃ h', freeBlk h c = some h' ∧ Owns m h' B := by
  obtain ⟨a, b, k, d⟩ := o
  obtain ⟨b1, b2⟩ := Multiset.nodup_cons.mp b
  refine ⟨⟨h.live.erase c, h.next⟩, by rw [freeBlk, if_pos (k c (by simp))], fun x hx => a x (Finset.mem_of_mem_erase hx), b2,
    fun x hx => Finset.mem_erase.mpr ⟨fun e => b1 (e ▸ hx), k x (by simp [hx])⟩, fun x => ?_⟩
  rw [← d x]
  simp only [Finset.mem_erase, Multiset.mem_cons]
  tauto

theorem Owns.cells (cs : List ℕ) : ∀ {m h B}, Owns ((cs : Multiset ℕ) + m) h B →
    ∃ h', freeCells cs h = some h' ∧ Owns m h' B := by
  induction cs with
  | nil => intro m h B o; exact ⟨h, rfl, by simpa using o⟩
  | cons c cs ih =>
    intro m h B o
    rw [← Multiset.cons_coe, Multiset.cons_add] at o
    obtain ⟨h1, e1, o1⟩ := o.free
    obtain ⟨h2, e2, o2⟩ := ih o1
    exact ⟨h2, by rw [freeCells, e1, Option.bind_some, e2], o2⟩

theorem Owns.nothing {h B} (o : Owns 0 h B) : h.live = B :=
  Finset.ext fun x => by rw [← o.2.2.2 x]; simp

theorem push_owns (l : List (Option Bool)) : ∀ {st : List ℕ} {m h B}, Owns ((st : Multiset ℕ) + m) h B →
    Owns (((pushAll l st h).2.1 : Multiset ℕ) + m) (pushAll l st h).2.2 B := by
  induction l with
  | nil => intro st m h B o; exact o
  | cons q l ih =>
    intro st m h B o
    match q with
    | none => exact ih o
    | some false => exact o
    | some true =>
      refine ih ?_
      rw [← Multiset.cons_coe, Multiset.cons_add]
      exact o.alloc

theorem legal_owns (qs : List (Option Bool × Option Bool)) : ∀ {st : List ℕ} {m h B}, Owns ((st : Multiset ℕ) + m) h B →
    ∃ h', legal qs st h = some h' ∧ Owns m h' B := by
  induction qs with
  | nil => intro st m h B o; exact o.cells
  | cons q qs ih =>
    intro st m h B o
    cases st with
    | nil => exact ⟨h, rfl, by simpa using o⟩
    | cons c st =>
      have o1 : Owns ((st : Multiset ℕ) + (c ::ₘ m)) h B := by
        rw [← Multiset.cons_coe, Multiset.cons_add] at o
        rwa [Multiset.add_cons]
      have o2 := push_owns [q.1, q.2] o1
      rw [Multiset.add_cons] at o2
      obtain ⟨h1, e1, o3⟩ := o2.free
      obtain ⟨h2, e2, o4⟩ := ih o3
      exact ⟨h2, by rw [legal, e1, Option.bind_some, e2], o4⟩

theorem dead_free {cs : List ℕ} : ∀ {h : Heap} {x}, x ∈ cs → x ∉ h.live → freeCells cs h = none := by
  induction cs with
  | nil => intro h x hx; simp at hx
  | cons c cs ih =>
    intro h x hx hl
    rw [freeCells, freeBlk]
    split
    · rename_i hc
      rw [Option.bind_some]
      refine ih (x := x) ((List.mem_cons.mp hx).resolve_left fun e => hl (e ▸ hc)) ?_
      exact fun hm => hl (Finset.mem_of_mem_erase hm)
    · rfl

/-- All three triangles can be allocated, or none. -/
def Step.even (s : Step) : Prop := s.a1 = s.a2 ∧ s.a2 = s.a3

theorem update_owns {s : Step} (hs : s.even) {cells : List ℕ} {h B} (o : Owns (cells : Multiset ℕ) h B) :
    ∃ ok cells' h', update s cells h = some (ok, cells', h') ∧ Owns (cells' : Multiset ℕ) h' B := by
  obtain ⟨k, a1, a2, a3, push, flips⟩ := s
  obtain ⟨e1, e2⟩ : a1 = a2 ∧ a2 = a3 := hs
  subst e1 e2
  rw [update]
  cases hk : k.bind (cells[·]?) with
  | none => exact ⟨false, cells, h, rfl, o⟩
  | some tc =>
    have hm : tc ∈ cells := by
      cases k with
      | none => simp at hk
      | some k => exact List.mem_of_getElem? hk
    have o0 : Owns (tc ::ₘ ((cells.erase tc : List ℕ) : Multiset ℕ)) h B := by
      rwa [Multiset.cons_coe, Multiset.coe_eq_coe.mpr (List.perm_cons_erase hm).symm]
    cases a1 with
    | false =>
      obtain ⟨h1, f1, o1⟩ := o0.free
      exact ⟨false, cells.erase tc, h1, by simp [addTri, freeOpt, f1], o1⟩
    | true =>
      have o3 := o0.alloc.alloc.alloc
      rw [Multiset.cons_swap h.next tc, Multiset.cons_swap _ tc, Multiset.cons_swap _ tc] at o3
      obtain ⟨h1, f1, o4⟩ := o3.free
      simp only [Multiset.cons_coe] at o4
      simp only [addTri, if_true, Bool.and_self, f1, Option.bind_some]
      have o5 := push_owns [push.1, push.2.1, push.2.2] (st := []) (by
        rw [Multiset.coe_nil, Multiset.zero_add]; exact o4)
      split
      · obtain ⟨h2, f2, o6⟩ := legal_owns flips o5
        exact ⟨true, _, h2, by rw [f2]; rfl, o6⟩
      · obtain ⟨h2, f2, o6⟩ := o5.cells
        exact ⟨false, _, h2, by rw [f2]; rfl, o6⟩

theorem run_owns (ss : List Step) (hs : ∀ s ∈ ss, s.even) : ∀ {cells : List ℕ} {h B}, Owns (cells : Multiset ℕ) h B →
    ∃ ok cells' h', run ss cells h = some (ok, cells', h') ∧ Owns (cells' : Multiset ℕ) h' B := by
  induction ss with
  | nil => intro cells h B o; exact ⟨true, cells, h, rfl, o⟩
  | cons s ss ih =>
    intro cells h B o
    obtain ⟨ok, c1, h1, e1, o1⟩ := update_owns (hs s (by simp)) o
    rw [run, e1]
    cases ok with
    | false => exact ⟨false, c1, h1, rfl, o1⟩
    | true => exact ih (fun s hm => hs s (by simp [hm])) o1

/-- If a point of the loop succeeded, its triangles were allocated. -/
theorem update_true {s : Step} {cells h c' h'} (e : update s cells h = some (true, c', h')) : s.even := by
  obtain ⟨k, a1, a2, a3, push, flips⟩ := s
  rw [update] at e
  cases hk : k.bind (cells[·]?) with
  | none => rw [hk] at e; simp at e
  | some tc =>
    rw [hk] at e
    cases a1 <;> cases a2 <;> cases a3 <;> first
      | exact ⟨rfl, rfl⟩
      | (obtain ⟨_, _, e⟩ := Option.map_eq_some_iff.mp e; simp at e)

theorem run_append (pre post : List Step) : ∀ {cells h c1 h1}, run pre cells h = some (true, c1, h1) →
    run (pre ++ post) cells h = run post c1 h1 ∧ ∀ s ∈ pre, s.even := by
  induction pre with
  | nil => intro cells h c1 h1 e; simp [run] at e; obtain ⟨rfl, rfl⟩ := e; exact ⟨rfl, by simp⟩
  | cons s pre ih =>
    intro cells h c1 h1 e
    rw [run] at e
    rw [List.cons_append, run]
    cases hu : update s cells h with
    | none => rw [hu] at e; simp at e
    | some r =>
      obtain ⟨ok, c2, h2⟩ := r
      rw [hu] at e
      cases ok with
      | false => simp at e
      | true =>
        obtain ⟨i1, i2⟩ := ih e
        refine ⟨i1, fun t ht => ?_⟩
        rcases List.mem_cons.mp ht with rfl | ht
        · exact update_true hu
        · exact i2 t ht

theorem outer_owns (h : Heap) (k : ∀ x ∈ h.live, x < h.next) :
    Owns (([h.next] : List ℕ) : Multiset ℕ) ⟨insert h.next h.live, h.next + 1⟩ h.live := by
  have := Owns.alloc (m := 0) (h := h) (B := h.live) ⟨k, by simp, by simp, by simp⟩
  simpa using this

/-- Some of the three triangles are allocated and some are not: a freed cell stays in the list. -/
theorem update_bad {s : Step} (hs : ¬ s.even) {k : ℕ} (hk : s.k = some k) {cells : List ℕ} {h B}
    (o : Owns (cells : Multiset ℕ) h B) (hl : k < cells.length) :
    ∃ cells' h', update s cells h = some (false, cells', h') ∧ ∃ x ∈ cells', x ∉ h'.live := by
  obtain ⟨k', a1, a2, a3, push, flips⟩ := s
  obtain rfl : k' = some k := hk
  have hm : cells[k] ∈ cells := List.getElem_mem hl
  have o0 : Owns (cells[k] ::ₘ ((cells.erase cells[k] : List ℕ) : Multiset ℕ)) h B := by
    rwa [Multiset.cons_coe, Multiset.coe_eq_coe.mpr (List.perm_cons_erase hm).symm]
  have hL : cells[k] ∈ h.live := o.2.2.1 _ hm
  have hne : cells[k] < h.next := o.1 _ hL
  rw [update]
  simp only [Option.bind_some, List.getElem?_eq_getElem hl]
  revert hL hne
  generalize cells[k] = tc
  intro hL hne
  have n0 : tc ≠ h.next := hne.ne
  have n1 : tc ≠ h.next + 1 := by omega
  cases a1 <;> cases a2 <;> cases a3 <;> first
    | exact absurd ⟨rfl, rfl⟩ hs
    | (simp [addTri, freeOpt, freeBlk, hL, n0, n1])

end DelMem

/-- **C71.** The memory of the triangulation.  Whatever triangles are found, edges flipped and triangles removed, and
wherever memory runs out for the stack of edges: if for every point either all three new triangles can be allocated or
none, nothing is freed that is not allocated, the stack is given back, and destroying the list, whether the
triangulation succeeded or not, gives back exactly what was taken. -/
theorem C71_mem (ss : List Step) (hs : ∀ s ∈ ss, (s.a1 = s.a2 ∧ s.a2 = s.a3)) (keep : ℕ → Bool) (h₀ : Heap)
    (k : ∀ x ∈ h₀.live, x < h₀.next) :
    ∃ ok cells h h', triangulate true ss keep h₀ = some (ok, cells, h) ∧ cells.Nodup ∧
      (∀ x, x ∈ h.live ↔ x ∈ h₀.live ∨ x ∈ cells) ∧ freeCells cells h = some h' ∧ h'.live = h₀.live := by
  have fin : ∀ {ok} {cells : List ℕ} {h}, Owns (cells : Multiset ℕ) h h₀.live →
      triangulate true ss keep h₀ = some (ok, cells, h) →
      ∃ ok cells h h', triangulate true ss keep h₀ = some (ok, cells, h) ∧ cells.Nodup ∧
      (∀ x, x ∈ h.live ↔ x ∈ h₀.live ∨ x ∈ cells) ∧ freeCells cells h = some h' ∧ h'.live = h₀.live := by
    intro ok cells h o e
    obtain ⟨h', e', o'⟩ := Owns.cells cells (m := 0) (by rwa [Multiset.add_zero])
    refine ⟨ok, cells, h, h', e, Multiset.coe_nodup.mp o.2.1, fun x => ?_, e', o'.nothing⟩
    rw [← o.2.2.2 x]
    have := o.2.2.1 x
    simp only [Multiset.mem_coe] at this ⊢
    tauto
  obtain ⟨ok, cells, h, e, o⟩ := run_owns ss hs (outer_owns h₀ k)
  cases ok with
  | false => exact fin (ok := false) o (by rw [triangulate, if_pos rfl, e])
  | true =>
    have o1 : Owns (((cells.filter fun x => !keep x : List ℕ) : Multiset ℕ) + ((cells.filter keep : List ℕ) :
        Multiset ℕ)) h h₀.live := by
      rw [Multiset.coe_add, Multiset.coe_eq_coe.mpr (List.perm_append_comm.trans (List.filter_append_perm keep cells))]
      exact o
    obtain ⟨h1, e1, o2⟩ := o1.cells
    exact fin (ok := true) o2 (by rw [triangulate, if_pos rfl, e]; simp only [e1, Option.map_some])

/-- One point, with a stack that gets one edge; two flips later memory runs out for the stack.  The triangle at 10 has
no corner of the outer one and is kept. -/
example : ∃ h, triangulate true [⟨some 0, true, true, true, (none, some true, none),
    [(some true, some true), (some false, some true)]⟩] (fun x => x = 10) ⟨{7}, 8⟩ = some (true, [10], h) ∧
    h.live = {7, 10} := ⟨_, rfl, by decide⟩

/-- **C71, negated.** If memory runs out for some but not all of the three triangles of a point, at whatever stage,
the triangulation reports failure, and the list it leaves holds cells that are freed already: destroying the list, as
the caller has to in order to get the other triangles back, is undefined. -/
theorem C71_mem_false (pre : List Step) (s : Step) (post : List Step) (keep : ℕ → Bool) (h₀ : Heap)
    (k : ∀ x ∈ h₀.live, x < h₀.next) {cells h}
    (hr : run pre [h₀.next] ⟨insert h₀.next h₀.live, h₀.next + 1⟩ = some (true, cells, h)) {i : ℕ} (hi : s.k = some i)
    (hl : i < cells.length) (hs : ¬ (s.a1 = s.a2 ∧ s.a2 = s.a3)) :
    ∃ cells' h', triangulate true (pre ++ s :: post) keep h₀ = some (false, cells', h') ∧
      (∃ x ∈ cells', x ∉ h'.live) ∧ freeCells cells' h' = none := by
  obtain ⟨a1, a2⟩ := run_append pre (s :: post) hr
  obtain ⟨ok, c1, h1, e1, o1⟩ := run_owns pre a2 (outer_owns h₀ k)
  rw [hr] at e1
  obtain ⟨rfl, rfl, rfl⟩ : true = ok ∧ cells = c1 ∧ h = h1 := by simpa using e1
  obtain ⟨c2, h2, e2, x, hx, hd⟩ := update_bad hs hi o1 hl
  refine ⟨c2, h2, ?_, ⟨x, hx, hd⟩, dead_free hx hd⟩
  rw [triangulate, if_pos rfl, a1, run, e2]

/-- The first point succeeds; for the second there is memory for two triangles. -/
example : ∃ cells h, run [⟨some 0, true, true, true, (none, none, none), []⟩] [8] ⟨{7, 8}, 9⟩ = some (true, cells, h) ∧
    1 < cells.length := ⟨_, _, rfl, by decide⟩

example : ∃ h, triangulate true [⟨some 0, true, true, true, (none, none, none), []⟩,
    ⟨some 1, true, true, false, (none, none, none), []⟩] (fun _ => true) ⟨{7}, 8⟩ =
      some (false, [13, 12, 11, 9], h) ∧ h.live = {7, 9, 11} := ⟨_, rfl, by decide⟩

end Zeo
