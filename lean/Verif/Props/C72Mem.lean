import Verif.Model.VorMem
import Verif.Props.C71Mem
import Mathlib.Data.Finset.Dedup

/-! # C72: the memory of the Voronoi diagram

The diagram gives back its triangulation, and destroying its list gives back the rest, even if memory runs out for the
stack, the cells or the nodes.  If memory runs out for some of the triangles of a point, the diagram itself frees
triangles twice; if it runs out for the nodes, the diagram reports success with cells without nodes. -/

namespace Zeo

open Life OctMem DelMem VorMem

namespace VorMem

theorem frame {a m : Multiset ℕ} {h B} :
    Owns (a + m) h B ↔ Owns a h (B ∪ m.toFinset) ∧ m.Nodup ∧ ∀ x ∈ m, x ∉ B := by
  constructor
  · rintro ⟨p, q, r, s⟩
    obtain ⟨q1, q2, q3⟩ := Multiset.nodup_add.mp q
    refine ⟨⟨p, q1, fun x hx => r x (Multiset.mem_add.mpr (Or.inl hx)), fun x => ?_⟩, q2, fun x hx hB => ?_⟩
    · have d : x ∈ a → x ∈ m → False := fun h1 h2 => Multiset.disjoint_left.mp q3 h1 h2
      have r1 := r x
      simp only [Finset.mem_union, Multiset.mem_toFinset, ← s x, Multiset.mem_add] at r1 ⊢
      tauto
    · exact ((s x).mpr hB).2 (Multiset.mem_add.mpr (Or.inr hx))
  · rintro ⟨⟨p, q, r, s⟩, t, u⟩
    have s' : ∀ x, (x ∈ h.live ∧ x ∉ a) ↔ (x ∈ B ∨ x ∈ m) := fun x => by
      rw [s x, Finset.mem_union, Multiset.mem_toFinset]
    refine ⟨p, Multiset.nodup_add.mpr ⟨q, t, ?_⟩, fun x hx => ?_, fun x => ?_⟩
    · exact Multiset.disjoint_left.mpr fun {x} h1 h2 => ((s' x).mpr (Or.inr h2)).2 h1
    · rcases Multiset.mem_add.mp hx with hx | hx
      · exact r x hx
      · exact ((s' x).mpr (Or.inr hx)).1
    · have s1 := s' x
      have u1 := u x
      rw [Multiset.mem_add]
      tauto

theorem update_frame {s : Step} (hs : s.even) {cells : List ℕ} {m h B} (o : Owns ((cells : Multiset ℕ) + m) h B) :
    ∃ ok cells' h', update s cells h = some (ok, cells', h') ∧ Owns ((cells' : Multiset ℕ) + m) h' B := by
  obtain ⟨o1, o2⟩ := frame.mp o
  obtain ⟨ok, c, h', e, o3⟩ := update_owns hs o1
  exact ⟨ok, c, h', e, frame.mpr ⟨o3, o2⟩⟩

theorem vinit_owns (ss : List (Step × Bool)) (hs : ∀ s ∈ ss, s.1.even) : ∀ {cells : List ℕ} {vl h B},
    Owns ((cells : Multiset ℕ) + (blocks vl : Multiset ℕ)) h B →
    ∃ ok cells' vl' h', vinit ss cells vl h = some (ok, cells', vl', h') ∧
      Owns ((cells' : Multiset ℕ) + (blocks vl' : Multiset ℕ)) h' B := by
  induction ss with
  | nil => intro cells vl h B o; exact ⟨true, cells, vl, h, rfl, o⟩
  | cons s ss ih =>
    obtain ⟨s, k⟩ := s
    intro cells vl h B o
    obtain ⟨ok, c1, h1, e1, o1⟩ := update_frame (hs (s, k) (by simp)) o
    cases ok with
    | false => exact ⟨false, c1, vl, h1, by simp only [vinit, e1], o1⟩
    | true =>
      cases k with
      | false => exact ⟨false, c1, vl, h1, by simp [vinit, e1], o1⟩
      | true =>
        obtain ⟨ok, c2, v2, h2, e2, o2⟩ := ih (fun t ht => hs t (by simp [ht])) (cells := c1)
          (vl := (h1.next, []) :: vl) (h := ⟨insert h1.next h1.live, h1.next + 1⟩) (B := B) (by
            rw [blocks, List.nil_append, ← Multiset.cons_coe, Multiset.add_cons]
            exact o1.alloc)
        exact ⟨ok, c2, v2, h2, by simp only [vinit, e1, if_true, e2], o2⟩

theorem addNode_perm (b : ℕ) : ∀ (vl : VList) (j : ℕ), j < vl.length →
    (blocks (addNode b j vl)).Perm (b :: blocks vl) := by
  intro vl
  induction vl with
  | nil => intro j hj; simp at hj
  | cons v vl ih =>
    intro j hj
    cases j with
    | zero => exact List.Perm.refl _
    | succ j =>
      rw [addNode, blocks, blocks]
      have i := ih j (by simpa using hj)
      refine ((List.Perm.cons v.1 i).append_left v.2).trans ?_
      refine ((List.Perm.swap b v.1 _).append_left v.2).trans ?_
      exact List.perm_middle

theorem nodes_owns (ns : List (ℕ × Bool)) : ∀ {vl m h B}, Owns (m + (blocks vl : Multiset ℕ)) h B →
    Owns (m + (blocks (nodes ns vl h).2.1 : Multiset ℕ)) (nodes ns vl h).2.2 B := by
  induction ns with
  | nil => intro vl m h B o; exact o
  | cons n ns ih =>
    obtain ⟨j, ok⟩ := n
    intro vl m h B o
    rw [nodes]
    split
    · rename_i hj
      cases ok with
      | false => exact o
      | true =>
        refine ih ?_
        rw [Multiset.coe_eq_coe.mpr (addNode_perm h.next vl j hj), ← Multiset.cons_coe, Multiset.add_cons]
        exact o.alloc
    · exact ih o

theorem vinit_append (pre post : List (Step × Bool)) : ∀ {cells vl h c1 v1 h1},
    vinit pre cells vl h = some (true, c1, v1, h1) →
    vinit (pre ++ post) cells vl h = vinit post c1 v1 h1 ∧ ∀ s ∈ pre, s.1.even := by
  induction pre with
  | nil => intro cells vl h c1 v1 h1 e; simp [vinit] at e; obtain ⟨rfl, rfl, rfl⟩ := e; exact ⟨rfl, by simp⟩
  | cons s pre ih =>
    obtain ⟨s, k⟩ := s
    intro cells vl h c1 v1 h1 e
    rw [vinit] at e
    rw [List.cons_append, vinit]
    cases hu : update s cells h with
    | none => rw [hu] at e; simp at e
    | some r =>
      obtain ⟨ok, c2, h2⟩ := r
      rw [hu] at e
      cases ok with
      | false => simp at e
      | true =>
        cases k with
        | false => simp at e
        | true =>
          obtain ⟨i1, i2⟩ := ih (by simpa using e)
          refine ⟨by simpa using i1, fun t ht => ?_⟩
          rcases List.mem_cons.mp ht with rfl | ht
          · exact update_true hu
          · exact i2 t ht

theorem outer_owns' (h : Heap) (k : ∀ x ∈ h.live, x < h.next) :
    Owns ((([h.next] : List ℕ) : Multiset ℕ) + (blocks [] : Multiset ℕ)) ⟨insert h.next h.live, h.next + 1⟩ h.live := by
  have := outer_owns h k
  simpa [blocks] using this

theorem vinit_empty (ss : List (Step × Bool)) : ∀ {cells vl h ok c1 v1 h1},
    vinit ss cells vl h = some (ok, c1, v1, h1) → (∀ v ∈ vl, v.2 = []) → ∀ v ∈ v1, v.2 = [] := by
  induction ss with
  | nil => intro cells vl h ok c1 v1 h1 e; simp [vinit] at e; obtain ⟨-, -, rfl, -⟩ := e; exact id
  | cons s ss ih =>
    obtain ⟨s, k⟩ := s
    intro cells vl h ok c1 v1 h1 e hv
    rw [vinit] at e
    split at e
    · simp at e
    · simp at e; obtain ⟨-, -, rfl, -⟩ := e; exact hv
    · split at e
      · exact ih e fun v hm => by
          rcases List.mem_cons.mp hm with rfl | hm
          · rfl
          · exact hv v hm
      · simp at e; obtain ⟨-, -, rfl, -⟩ := e; exact hv

theorem vinit_length (ss : List (Step × Bool)) : ∀ {cells vl h c1 v1 h1},
    vinit ss cells vl h = some (true, c1, v1, h1) → v1.length = vl.length + ss.length := by
  induction ss with
  | nil => intro cells vl h c1 v1 h1 e; simp [vinit] at e; obtain ⟨-, rfl, -⟩ := e; rfl
  | cons s ss ih =>
    obtain ⟨s, k⟩ := s
    intro cells vl h c1 v1 h1 e
    rw [vinit] at e
    split at e
    · simp at e
    · simp at e
    · split at e
      · rw [ih e, List.length_cons, List.length_cons]; omega
      · simp at e

end VorMem

/-- **C72.** The memory of the Voronoi diagram.  Whatever triangles are found and edges flipped, and wherever memory
runs out for the stack of edges, the Voronoi cells and their nodes: if for every point either all three new triangles
can be allocated or none, nothing is freed that is not allocated, the diagram gives back all of its triangles, and
destroying its list, whether it succeeded or not, gives back the rest. -/
theorem C72_mem (ss : List (Step × Bool)) (hs : ∀ s ∈ ss, (s.1.a1 = s.1.a2 ∧ s.1.a2 = s.1.a3))
    (ns : List (ℕ × Bool)) (h₀ : Heap) (k : ∀ x ∈ h₀.live, x < h₀.next) :
    ∃ ok vl h h', diagram true ss ns h₀ = some (ok, vl, h) ∧ (∀ x, x ∈ h.live ↔ x ∈ h₀.live ∨ x ∈ blocks vl) ∧
      vdestroy vl h = some h' ∧ h'.live = h₀.live := by
  obtain ⟨ok, c1, v1, h1, e1, o1⟩ := vinit_owns ss hs (outer_owns' h₀ k)
  have fin : ∀ {v2 h2}, (if ok then (nodes ns v1 h1).2 else (v1, h1)) = (v2, h2) →
      Owns ((c1 : Multiset ℕ) + (blocks v2 : Multiset ℕ)) h2 h₀.live →
      ∃ ok vl h h', diagram true ss ns h₀ = some (ok, vl, h) ∧ (∀ x, x ∈ h.live ↔ x ∈ h₀.live ∨ x ∈ blocks vl) ∧
        vdestroy vl h = some h' ∧ h'.live = h₀.live := by
    intro v2 h2 en o2
    obtain ⟨h3, e3, o3⟩ := o2.cells
    obtain ⟨h4, e4, o4⟩ := Owns.cells (blocks v2) (m := 0) (h := h3) (by rw [Multiset.add_zero]; exact o3)
    refine ⟨ok, v2, h3, h4, ?_, fun x => ?_, e4, o4.nothing⟩
    · rw [diagram, if_pos rfl, e1, Option.bind_some]
      simp only [en, e3, Option.map_some]
    · rw [← o3.2.2.2 x]
      have := o3.2.2.1 x
      simp only [Multiset.mem_coe] at this ⊢
      tauto
  cases ok with
  | false => exact fin rfl o1
  | true => exact fin rfl (nodes_owns ns o1)

/-- Two points; for the second there is no memory for its second edge: failure, with the cell of the first. -/
example : ∃ h, diagram true [(⟨some 0, true, true, true, (none, some true, none), []⟩, true),
    (⟨some 1, true, true, true, (some true, none, some false), []⟩, true)] [] ⟨{7}, 8⟩ = some (false, [(13, [])], h) ∧
    h.live = {7, 13} := ⟨_, rfl, by decide⟩

/-- One point; there is memory for one node and not for the next. -/
example : ∃ h, diagram true [(⟨some 0, true, true, true, (none, none, none), []⟩, true)] [(0, true), (5, true), (0, false)]
    ⟨{7}, 8⟩ = some (true, [(12, [13])], h) ∧ h.live = {7, 12, 13} := ⟨_, rfl, by decide⟩

/-- **C72, negated.** If memory runs out for some but not all of the three triangles of a point, at whatever stage, the
diagram itself frees triangles that are freed already. -/
theorem C72_mem_false (pre : List (Step × Bool)) (s : Step) (ok : Bool) (post : List (Step × Bool))
    (ns : List (ℕ × Bool)) (h₀ : Heap) (k : ∀ x ∈ h₀.live, x < h₀.next) {cells vl h}
    (hr : vinit pre [h₀.next] [] ⟨insert h₀.next h₀.live, h₀.next + 1⟩ = some (true, cells, vl, h)) {i : ℕ}
    (hi : s.k = some i) (hl : i < cells.length) (hs : ¬ (s.a1 = s.a2 ∧ s.a2 = s.a3)) :
    diagram true (pre ++ (s, ok) :: post) ns h₀ = none := by
  obtain ⟨a1, a2⟩ := vinit_append pre ((s, ok) :: post) hr
  obtain ⟨b, c1, v1, h1, e1, o1⟩ := vinit_owns pre a2 (outer_owns' h₀ k)
  rw [hr] at e1
  obtain ⟨rfl, rfl, rfl, rfl⟩ : true = b ∧ cells = c1 ∧ vl = v1 ∧ h = h1 := by simpa using e1
  obtain ⟨c2, h2, e2, x, hx, hd⟩ := update_bad hs hi (frame.mp o1).1 hl
  rw [diagram, if_pos rfl, a1, vinit, e2]
  simp [dead_free hx hd]

/-- The first point succeeds; for the second there is memory for one triangle. -/
example : ∃ cells vl h, vinit [(⟨some 0, true, true, true, (none, none, none), []⟩, true)] [8] [] ⟨{7, 8}, 9⟩ =
    some (true, cells, vl, h) ∧ 2 < cells.length := ⟨_, _, _, rfl, by decide⟩

/-- **C72, negated.** If there is no memory for the nodes, the diagram reports success all the same, for as many cells
as there are points, and no cell has a node.  (`zVoronoi2DListFPrint`, src/zeo_voronoi2d.c:379-391, then reads the
node of the last cell of an empty loop.) -/
theorem C72_nodes_false (ss : List (Step × Bool)) (j : ℕ) (ns : List (ℕ × Bool)) (h₀ : Heap)
    (k : ∀ x ∈ h₀.live, x < h₀.next) {cells vl h}
    (hr : vinit ss [h₀.next] [] ⟨insert h₀.next h₀.live, h₀.next + 1⟩ = some (true, cells, vl, h))
    (hj : j < vl.length) :
    ∃ h', diagram true ss ((j, false) :: ns) h₀ = some (true, vl, h') ∧
      vl.length = ss.length ∧ ∀ v ∈ vl, v.2 = [] := by
  obtain ⟨_, a2⟩ := vinit_append ss [] hr
  obtain ⟨b, c1, v1, h1, e1, o1⟩ := vinit_owns ss a2 (outer_owns' h₀ k)
  rw [hr] at e1
  obtain ⟨rfl, rfl, rfl, rfl⟩ : true = b ∧ cells = c1 ∧ vl = v1 ∧ h = h1 := by simpa using e1
  obtain ⟨h3, e3, _⟩ := o1.cells
  refine ⟨h3, ?_, by simpa using vinit_length ss hr, vinit_empty ss hr (by simp)⟩
  rw [diagram, if_pos rfl, hr, Option.bind_some]
  simp [nodes, hj, e3]

example : ∃ cells vl h, vinit [(⟨some 0, true, true, true, (none, none, none), []⟩, true)] [8] [] ⟨{7, 8}, 9⟩ =
    some (true, cells, vl, h) ∧ 0 < vl.length := ⟨_, _, _, rfl, by decide⟩

end Zeo
