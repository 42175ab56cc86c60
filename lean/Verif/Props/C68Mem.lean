import Verif.Model.BRepMem
import Verif.Props.C71Mem
import Mathlib.Algebra.Order.Group.Multiset

/-! # C67, C68: the memory of the boundary representation

If they succeed, truncation and intersection of polyhedra by boundary representations leave exactly the arrays of the
resulting polyhedron.  If they fail, all cells of the boundary representations are lost. -/

namespace Zeo

open Life OctMem DelMem BRepMem

namespace BRepMem

theorem Owns.mono {m h B} (o : Owns m h B) : B ⊆ h.live := fun x hx => ((o.2.2.2 x).mpr hx).1

theorem addTri_owns (ok : Bool) {l : List ℕ} {m h B} (o : Owns ((l : Multiset ℕ) + m) h B) :
    Owns (((addTri ok (l, h)).2.1 : Multiset ℕ) + m) (addTri ok (l, h)).2.2 B := by
  cases ok with
  | false => exact o
  | true =>
    show Owns (((h.next :: l : List ℕ) : Multiset ℕ) + m) _ B
    rw [← Multiset.cons_coe, Multiset.cons_add]
    exact o.alloc

theorem ev_owns (e : Ev) {c : List ℕ} {m h B} (o : Owns ((c : Multiset ℕ) + m) h B) :
    ∃ ok c' h', ev e c h = some (ok, c', h') ∧ Owns ((c' : Multiset ℕ) + m) h' B := by
  cases e with
  | cell ok => exact ⟨ok, _, _, rfl, addTri_owns ok o⟩
  | reg ok => exact ⟨true, _, _, rfl, addTri_owns ok o⟩
  | three x y z =>
    have o1 := addTri_owns z (addTri_owns y (addTri_owns x (l := []) (m := (c : Multiset ℕ) + m) (h := h) (B := B)
      (by rw [Multiset.coe_nil, Multiset.zero_add]; exact o)))
    rw [ev]
    split
    · exact ⟨true, _, _, rfl, by rw [← Multiset.coe_add, Multiset.add_assoc]; exact o1⟩
    · obtain ⟨h', e', o'⟩ := o1.cells
      exact ⟨false, c, h', by rw [e']; rfl, o'⟩
  | drop i =>
    rw [ev]
    split
    · exact ⟨true, c, h, rfl, o⟩
    · rename_i b hb
      have hm : b ∈ c := List.mem_of_getElem? hb
      rw [← Multiset.coe_eq_coe.mpr (List.perm_cons_erase hm).symm, ← Multiset.cons_coe, Multiset.cons_add] at o
      obtain ⟨h', e', o'⟩ := o.free
      exact ⟨true, _, h', by rw [e']; rfl, o'⟩

theorem evs_owns (es : List Ev) : ∀ {c : List ℕ} {m h B}, Owns ((c : Multiset ℕ) + m) h B →
    ∃ ok c' h', evs es c h = some (ok, c', h') ∧ Owns ((c' : Multiset ℕ) + m) h' B := by
  induction es with
  | nil => intro c m h B o; exact ⟨true, c, h, rfl, o⟩
  | cons e es ih =>
    intro c m h B o
    obtain ⟨ok, c1, h1, e1, o1⟩ := ev_owns e o
    rw [evs, e1]
    cases ok with
    | false => exact ⟨false, c1, h1, rfl, o1⟩
    | true => exact ih o1

theorem conv_owns (es : List Ev) {m h B} (o : Owns m h B) :
    ∃ ok c h', conv es h = some (ok, c, h') ∧ Owns ((c : Multiset ℕ) + m) h' B ∧ (ok = false → c = []) := by
  obtain ⟨ok, c, h1, e1, o1⟩ := evs_owns es (c := []) (by rw [Multiset.coe_nil, Multiset.zero_add]; exact o)
  rw [conv, e1]
  cases ok with
  | false =>
    obtain ⟨h2, e2, o2⟩ := o1.cells
    exact ⟨false, [], h2, by simp only [e2, Option.map_some], by rw [Multiset.coe_nil, Multiset.zero_add]; exact o2,
      fun _ => rfl⟩
  | true => exact ⟨true, c, h1, rfl, o1, by simp⟩

theorem merge_owns (es : List Ev) (keep : ℕ → Bool) {t s : List ℕ} {m h B}
    (o : Owns ((t : Multiset ℕ) + ((s : Multiset ℕ) + m)) h B) :
    ∃ ok t' s' h', merge es keep t s h = some (ok, t', s', h') ∧
      Owns ((t' : Multiset ℕ) + ((s' : Multiset ℕ) + m)) h' B := by
  obtain ⟨ok, t1, h1, e1, o1⟩ := evs_owns es o
  rw [merge, e1, Option.bind_some]
  cases ok with
  | false => exact ⟨false, t1, s, h1, rfl, o1⟩
  | true =>
    have o2 : Owns (((s.filter fun x => !keep x : List ℕ) : Multiset ℕ) +
        (((s.filter keep : List ℕ) : Multiset ℕ) + ((t1 : Multiset ℕ) + m))) h1 B := by
      rw [← Multiset.add_assoc, Multiset.coe_add,
        Multiset.coe_eq_coe.mpr (List.perm_append_comm.trans (List.filter_append_perm keep s)),
        add_left_comm]
      exact o1
    obtain ⟨h2, e2, o3⟩ := o2.cells
    refine ⟨true, s.filter keep ++ t1, [], h2, by simp only [if_true, e2, Option.map_some], ?_⟩
    rw [Multiset.coe_nil, Multiset.zero_add, ← Multiset.coe_add, Multiset.add_assoc]
    exact o3

theorem toPH_owns (ok : Bool) {m h B} (o : Owns m h B) :
    Owns (((toPH ok h).1 : Multiset ℕ) + m) (toPH ok h).2 B := by
  cases ok with
  | false => rw [toPH]; simpa using o
  | true =>
    have := o.alloc.alloc
    show Owns ((([h.next + 1, h.next] : List ℕ) : Multiset ℕ) + m) _ B
    rw [← Multiset.cons_coe, ← Multiset.cons_coe, Multiset.coe_nil, Multiset.cons_add, Multiset.cons_add,
      Multiset.zero_add]
    exact this

/-- What is in use afterwards: what was, and the arrays of the result. -/
theorem Owns.exactly {d : List ℕ} {h B} (o : Owns (d : Multiset ℕ) h B) :
    d.Nodup ∧ (∀ x ∈ d, x ∉ B) ∧ ∀ x, x ∈ h.live ↔ x ∈ B ∨ x ∈ d := by
  refine ⟨Multiset.coe_nodup.mp o.2.1, fun x hx hB => ((o.2.2.2 x).mpr hB).2 hx, fun x => ?_⟩
  rw [← o.2.2.2 x]
  have := o.2.2.1 x
  simp only [Multiset.mem_coe] at this ⊢
  tauto

theorem start (h : Heap) (k : ∀ x ∈ h.live, x < h.next) : Owns 0 h h.live := ⟨k, by simp, by simp, by simp⟩

end BRepMem

open BRepMem

/-- **C67.** The memory of truncation.  Whatever is found and cut and wherever memory runs out, nothing is freed that
is not allocated, and what was in use stays in use; if a polyhedron is returned, its arrays are all that is in use in
addition. -/
theorem C67_mem (e t : List Ev) (ok : Bool) (h₀ : Heap) (k : ∀ x ∈ h₀.live, x < h₀.next) :
    ∃ r d h, phTrunc e t ok h₀ = some (r, d, h) ∧ h₀.live ⊆ h.live ∧
      (r = true → d.Nodup ∧ (∀ x ∈ d, x ∉ h₀.live) ∧ ∀ x, x ∈ h.live ↔ x ∈ h₀.live ∨ x ∈ d) := by
  obtain ⟨b1, c1, h1, e1, o1, _⟩ := conv_owns e (start h₀ k)
  rw [phTrunc, e1, Option.bind_some]
  cases b1 with
  | false => exact ⟨false, [], h1, rfl, Owns.mono o1, by simp⟩
  | true =>
    obtain ⟨b2, c2, h2, e2, o2⟩ := evs_owns t o1
    simp only [Bool.not_true, Bool.false_eq_true, if_false, e2, Option.bind_some]
    cases b2 with
    | false => exact ⟨false, [], h2, rfl, Owns.mono o2, by simp⟩
    | true =>
      have o3 := toPH_owns ok o2
      cases ok with
      | false => exact ⟨false, [], _, rfl, Owns.mono o3, by simp⟩
      | true =>
        rw [add_left_comm, Multiset.add_zero] at o3
        obtain ⟨h4, e4, o4⟩ := o3.cells
        simp only [Bool.not_true, Bool.false_eq_true, if_false, e4, Option.map_some]
        exact ⟨true, _, h4, rfl, Owns.mono o4, fun _ => Owns.exactly o4⟩

/-- A face with three vertices and three edges; two cells are cut off and one is new. -/
example : ∃ h, phTrunc [.cell true, .reg true, .reg true, .reg true, .reg true, .reg true, .reg true]
    [.cell true, .drop 2, .drop 0] true ⟨{7}, 8⟩ = some (true, [17, 16], h) ∧ h.live = {7, 16, 17} :=
  ⟨_, rfl, by decide⟩

/-- **C67, negated.** If memory runs out while the boundary representation is cut, all of its cells are lost: NULL is
returned, and they stay in use. -/
theorem C67_mem_false (e t : List Ev) (ok : Bool) (h₀ : Heap) (k : ∀ x ∈ h₀.live, x < h₀.next) {c c' h h'}
    (h1 : conv e h₀ = some (true, c, h)) (h2 : evs t c h = some (false, c', h')) :
    phTrunc e t ok h₀ = some (false, [], h') ∧ (∀ x ∈ c', x ∉ h₀.live) ∧ c'.Nodup ∧
      ∀ x, x ∈ h'.live ↔ x ∈ h₀.live ∨ x ∈ c' := by
  obtain ⟨b1, c1, g1, e1, o1, _⟩ := conv_owns e (start h₀ k)
  obtain ⟨rfl, rfl, rfl⟩ : true = b1 ∧ c = c1 ∧ h = g1 := by simpa [h1] using e1
  obtain ⟨b2, c2, g2, e2, o2⟩ := evs_owns t o1
  obtain ⟨rfl, rfl, rfl⟩ : false = b2 ∧ c' = c2 ∧ h' = g2 := by simpa [h2] using e2
  rw [Multiset.add_zero] at o2
  obtain ⟨p, q, r⟩ := Owns.exactly o2
  exact ⟨by rw [phTrunc, h1, Option.bind_some]; simp [h2], q, p, r⟩

/-- The seven cells of a face, and no memory for one more. -/
example : ∃ c h h', conv [.cell true, .reg true, .reg true, .reg true, .reg true, .reg true, .reg true] ⟨{7}, 8⟩ =
    some (true, c, h) ∧ evs [.three true true false] c h = some (false, c, h') ∧ c.length = 7 :=
  ⟨_, _, _, rfl, rfl, rfl⟩

/-- **C68.** The memory of the intersection.  Whatever is found, cut and merged and wherever memory runs out, nothing is
freed that is not allocated, and what was in use stays in use; if a polyhedron is returned, its arrays are all that is
in use in addition. -/
theorem C68_mem (e1 e2 t1 t2 m : List Ev) (keep : ℕ → Bool) (ok : Bool) (h₀ : Heap)
    (k : ∀ x ∈ h₀.live, x < h₀.next) :
    ∃ r d h, inter e1 e2 t1 t2 m keep ok h₀ = some (r, d, h) ∧ h₀.live ⊆ h.live ∧
      (r = true → d.Nodup ∧ (∀ x ∈ d, x ∉ h₀.live) ∧ ∀ x, x ∈ h.live ↔ x ∈ h₀.live ∨ x ∈ d) := by
  obtain ⟨b1, c1, h1, f1, o1, _⟩ := conv_owns e1 (start h₀ k)
  rw [inter, f1, Option.bind_some]
  cases b1 with
  | false => exact ⟨false, [], h1, rfl, Owns.mono o1, by simp⟩
  | true =>
  obtain ⟨b2, c2, h2, f2, o2, _⟩ := conv_owns e2 o1
  simp only [Bool.not_true, Bool.false_eq_true, if_false, f2, Option.bind_some]
  cases b2 with
  | false => exact ⟨false, [], h2, rfl, Owns.mono o2, by simp⟩
  | true =>
  rw [add_left_comm] at o2
  obtain ⟨b3, c3, h3, f3, o3⟩ := evs_owns t1 o2
  simp only [Bool.not_true, Bool.false_eq_true, if_false, f3, Option.bind_some]
  cases b3 with
  | false => exact ⟨false, [], h3, rfl, Owns.mono o3, by simp⟩
  | true =>
  rw [add_left_comm] at o3
  obtain ⟨b4, c4, h4, f4, o4⟩ := evs_owns t2 o3
  simp only [Bool.not_true, Bool.false_eq_true, if_false, f4, Option.bind_some]
  cases b4 with
  | false => exact ⟨false, [], h4, rfl, Owns.mono o4, by simp⟩
  | true =>
  rw [add_left_comm] at o4
  obtain ⟨b5, c5, d5, h5, f5, o5⟩ := merge_owns m keep o4
  simp only [Bool.not_true, Bool.false_eq_true, if_false, f5, Option.bind_some]
  cases b5 with
  | false => exact ⟨false, [], h5, rfl, Owns.mono o5, by simp⟩
  | true =>
  have o6 := toPH_owns ok o5
  cases ok with
  | false => exact ⟨false, [], _, rfl, Owns.mono o6, by simp⟩
  | true =>
    rw [add_left_comm] at o6
    obtain ⟨h7, f7, o7⟩ := o6.cells
    rw [add_left_comm] at o7
    obtain ⟨h8, f8, o8⟩ := o7.cells
    rw [Multiset.add_zero] at o8
    simp only [Bool.not_true, Bool.false_eq_true, if_false, f7, f8, Option.bind_some, Option.map_some]
    exact ⟨true, _, h8, rfl, Owns.mono o8, fun _ => Owns.exactly o8⟩

/-- Two B-Reps of two cells; an edge is added, and one cell of the second is moved. -/
example : ∃ h, inter [.cell true, .reg true] [.cell true, .reg true] [.drop 0] [] [.cell true] (fun x => x = 10) true
    ⟨{7}, 8⟩ = some (true, [14, 13], h) ∧ h.live = {7, 13, 14} := ⟨_, rfl, by decide⟩

/-- **C68, negated.** If memory runs out while the first boundary representation is cut, all cells of both are lost:
NULL is returned, and they stay in use. -/
theorem C68_mem_false (e1 e2 t1 t2 m : List Ev) (keep : ℕ → Bool) (ok : Bool) (h₀ : Heap)
    (k : ∀ x ∈ h₀.live, x < h₀.next) {c1 c2 c3 h1 h2 h3} (f1 : conv e1 h₀ = some (true, c1, h1))
    (f2 : conv e2 h1 = some (true, c2, h2)) (f3 : evs t1 c1 h2 = some (false, c3, h3)) :
    inter e1 e2 t1 t2 m keep ok h₀ = some (false, [], h3) ∧ (c3 ++ c2).Nodup ∧ (∀ x ∈ c3 ++ c2, x ∉ h₀.live) ∧
      ∀ x, x ∈ h3.live ↔ x ∈ h₀.live ∨ x ∈ c3 ++ c2 := by
  obtain ⟨b1, d1, g1, i1, o1, _⟩ := conv_owns e1 (start h₀ k)
  obtain ⟨rfl, rfl, rfl⟩ : true = b1 ∧ c1 = d1 ∧ h1 = g1 := by simpa [f1] using i1
  obtain ⟨b2, d2, g2, i2, o2, _⟩ := conv_owns e2 o1
  obtain ⟨rfl, rfl, rfl⟩ : true = b2 ∧ c2 = d2 ∧ h2 = g2 := by simpa [f2] using i2
  rw [add_left_comm] at o2
  obtain ⟨b3, d3, g3, i3, o3⟩ := evs_owns t1 o2
  obtain ⟨rfl, rfl, rfl⟩ : false = b3 ∧ c3 = d3 ∧ h3 = g3 := by simpa [f3] using i3
  rw [Multiset.add_zero, Multiset.coe_add] at o3
  exact ⟨by rw [inter, f1, Option.bind_some]; simp [f2, f3], Owns.exactly o3⟩

example : ∃ c1 c2 c3 h1 h2 h3, conv [.cell true, .reg true] ⟨{7}, 8⟩ = some (true, c1, h1) ∧
    conv [.cell true, .reg true, .reg true] h1 = some (true, c2, h2) ∧
    evs [.cell true, .cell false] c1 h2 = some (false, c3, h3) ∧ (c3 ++ c2).length = 6 :=
  ⟨_, _, _, _, _, _, rfl, rfl, rfl, rfl⟩

end Zeo
