import Verif.Lemmas.OctMem

/-! # C84: the memory of octrees

Whatever points are added to an octree, even if memory runs out, and however its resolution is changed or its octants are unified, nothing is
freed twice, and destroying it gives back exactly what it took.  Destroying it twice is undefined as soon as it has a
suboctant, although the destructor of the class destroys it again; initialising an octree in use loses its memory;
and if memory runs out while octants are divided, a point is lost with its memory. -/

namespace Zeo

open Life OctMem

namespace OctMem

theorem G_init (h : Heap) (k : ∀ x ∈ h.live, x < h.next) : G (own MOct.init) h :=
  ⟨k, by simp [MOct.init, own, ids], by simp [MOct.init, own, ids]⟩

/-- What is reached from an initialised octree: it owns what was allocated since. -/
theorem reach (os : List Op) (h₀ : Heap) (k : ∀ x ∈ h₀.live, x < h₀.next) : ∃ b cells sub h,
    runs os MOct.init h₀ = some (.node b cells sub, h) ∧ G (own (.node b cells sub)) h ∧
      ∀ x, (x ∈ h.live ∧ x ∉ own (.node b cells sub)) ↔ x ∈ h₀.live := by
  have g := G_init h₀ k
  obtain ⟨c, s, h, e, r⟩ := runs_fine os 0 [] (fun _ => .nil) h₀ g
  obtain ⟨g', l⟩ := r 0 (by rw [add_zero]; exact g)
  simp only [add_zero] at g' l
  refine ⟨0, c, s, h, e, g', fun x => (l x).trans ?_⟩
  simp [own, ids]

theorem release_dead {t : MOct} (ht : t ≠ .nil) {h : Heap} (hd : ∀ x ∈ ids t, x ∉ h.live) : release t h = none := by
  cases t with
  | nil => exact absurd rfl ht
  | node b cells sub => rw [release, if_neg (hd b (by simp [ids]))]

theorem fold_dead (sub : Fin 8 → MOct) (h : Heap) (hd : ∀ i, ∀ x ∈ ids (sub i), x ∉ h.live) (l : List (Fin 8)) :
    l.foldlM (fun h i => release (sub i) h) h = none ↔ ∃ i ∈ l, sub i ≠ .nil := by
  induction l with
  | nil => simp
  | cons i l ih =>
    rw [List.foldlM_cons]
    by_cases hs : sub i = .nil
    · rw [hs, release]; simp only [Option.bind_eq_bind, Option.bind_some, ih, List.mem_cons, exists_eq_or_imp, hs]
      simp
    · rw [release_dead hs (hd i)]; simp [hs]

end OctMem

/-- **C84.** The life of an octree: whatever points are added, octants divided and suboctants merged, in whatever
order, nothing that is not allocated is read or freed, what was allocated before stays allocated, and destroying the
octree gives back exactly what it took. -/
theorem C84_mem_life (os : List Op) (h₀ : Heap) (k : ∀ x ∈ h₀.live, x < h₀.next) :
    ∃ t h t' h', runs os MOct.init h₀ = some (t, h) ∧ h₀.live ⊆ h.live ∧ destroy t h = some (t', h') ∧
      h'.live = h₀.live := by
  obtain ⟨b, c, s, h, e, g, l⟩ := reach os h₀ k
  obtain ⟨h', e', _, l'⟩ := destroy_spec b c s h g.2.1 g.2.2
  exact ⟨_, h, _, h', e, fun x hx => ((l x).mpr hx).1, e', Finset.ext fun x => (l' x).trans (l x)⟩

/-- Two points in different suboctants and one more octant below: three cells and three suboctants are allocated;
after merging at the root the cell of the lowest octant is gone with it, and the octree has no suboctants. -/
example : ∃ t h, runs [.add [0], .add [3, 1], .add [0]] MOct.init ⟨{7}, 8⟩ = some (t, h) ∧
    h.live = {7, 8, 9, 10, 11, 12, 13} := ⟨_, _, rfl, by decide⟩

example : ∃ t h, runs [.add [0], .add [3, 1], .add [0], .merge [3], .merge []] MOct.init ⟨{7}, 8⟩ = some (t, h) ∧
    h.live = {7, 9, 12, 13} := ⟨_, _, rfl, by decide⟩

/-- **C84, negated.** Destroying an octree leaves the pointers to its suboctants, so that destroying it once more —
as the destructor of the class does after `destroy()` — is undefined exactly if there is a suboctant. -/
theorem C84_mem_twice_false (os : List Op) (h₀ : Heap) (k : ∀ x ∈ h₀.live, x < h₀.next) {b cells sub h t' h'}
    (hr : runs os MOct.init h₀ = some (.node b cells sub, h)) (hd : destroy (.node b cells sub) h = some (t', h')) :
    destroy t' h' = none ↔ ∃ i, sub i ≠ .nil := by
  obtain ⟨b1, c1, s1, h1, e1, g, _⟩ := reach os h₀ k
  rw [hr] at e1
  obtain ⟨⟨rfl, rfl, rfl⟩, rfl⟩ : (b = b1 ∧ cells = c1 ∧ sub = s1) ∧ h = h1 := by simpa using e1
  obtain ⟨h2, e2, _, l2⟩ := destroy_spec b cells sub h g.2.1 g.2.2
  rw [hd] at e2
  obtain ⟨rfl, rfl⟩ : t' = _ ∧ h' = h2 := by simpa using e2
  have dead : ∀ i, ∀ x ∈ ids (sub i), x ∉ h'.live := by
    intro i x hx hl
    refine ((l2 x).mp hl).2 ?_
    obtain ⟨c, k1, _⟩ := own_update b cells sub i .nil
    rw [k1]; simp [hx]
  have q := fold_dead sub h' dead (List.finRange 8)
  simp only [List.mem_finRange, true_and] at q
  rw [← q, OctMem.destroy]
  rcases (List.finRange 8).foldlM (fun h i => release (sub i) h) h' with _ | h3
  · simp
  · simp [freeCells]

/-- With one point one level below the root the second destruction is undefined; with all points at the root it is
not. -/
example : ∃ t h t' h', runs [.add [0]] MOct.init ⟨∅, 0⟩ = some (t, h) ∧ destroy t h = some (t', h') ∧
    destroy t' h' = none := ⟨_, _, _, _, rfl, rfl, rfl⟩

example : ∃ t h t' h' t'' h'', runs [.add []] MOct.init ⟨∅, 0⟩ = some (t, h) ∧ destroy t h = some (t', h') ∧
    destroy t' h' = some (t'', h'') := ⟨_, _, _, _, _, _, rfl, rfl, rfl⟩

/-- **C84, negated.** Initialising an octree in use, which `zVec3DDataToOctree` does too, loses its memory: unless
the octree was empty, whatever is done with it afterwards, destroying it does not give back what it took before. -/
theorem C84_mem_init_false (os os' : List Op) (h₀ : Heap) (k : ∀ x ∈ h₀.live, x < h₀.next) {b cells sub h}
    (hr : runs os MOct.init h₀ = some (.node b cells sub, h)) (hn : cells ≠ [] ∨ ∃ i, sub i ≠ .nil) :
    ∃ t₂ h₂ t₃ h₃, runs os' MOct.init h = some (t₂, h₂) ∧ destroy t₂ h₂ = some (t₃, h₃) ∧ h₀.live ⊂ h₃.live := by
  obtain ⟨b1, c1, s1, h1, e1, g, l⟩ := reach os h₀ k
  rw [hr] at e1
  obtain ⟨⟨rfl, rfl, rfl⟩, rfl⟩ : (b = b1 ∧ cells = c1 ∧ sub = s1) ∧ h = h1 := by simpa using e1
  obtain ⟨t2, h2, t3, h3, e2, _, e3, l3⟩ := C84_mem_life os' h g.1
  refine ⟨t2, h2, t3, h3, e2, e3, ?_⟩
  rw [l3, Finset.ssubset_iff_of_subset (fun x hx => ((l x).mpr hx).1)]
  obtain ⟨x, hx⟩ : ∃ x, x ∈ own (.node b cells sub) := by
    rcases hn with hc | ⟨i, hi⟩
    · obtain ⟨x, hx⟩ := List.exists_mem_of_ne_nil _ hc
      exact ⟨x, by rw [own]; simp [hx]⟩
    · obtain ⟨c, k1, _⟩ := own_update b cells sub i .nil
      cases hs : sub i with
      | nil => exact absurd hs hi
      | node b' c' s' => exact ⟨b', by rw [k1, hs, ids]; simp⟩
  exact ⟨x, g.2.2 x hx, fun h0 => ((l x).mpr h0).2 hx⟩

example : ∃ cells sub h, runs [.add [0]] MOct.init ⟨∅, 0⟩ = some (.node 0 cells sub, h) ∧ sub 0 ≠ .nil :=
  ⟨_, _, _, rfl, by simp [Function.update_self]⟩

/-- **C84, negated.** If there is no memory for a suboctant while an octant is divided, the cell that was taken from
the list of the octant is put nowhere: its point is lost, and destroying the octree does not give its memory back. -/
theorem C84_mem_divide_false (os : List Op) (h₀ : Heap) (k : ∀ x ∈ h₀.live, x < h₀.next) {b cells sub h}
    (hr : runs os MOct.init h₀ = some (.node b cells sub, h)) (c : ℕ → Fin 8) {n : ℕ} (hn : n < cells.length) :
    ∃ t₁ h₁ t₂ h₂, splitFail c n (.node b cells sub) h = some (t₁, h₁) ∧ destroy t₁ h₁ = some (t₂, h₂) ∧
      cells[n] ∉ h₀.live ∧ h₂.live = insert cells[n] h₀.live := by
  obtain ⟨b1, c1, s1, h1, e1, g, l⟩ := reach os h₀ k
  rw [hr] at e1
  obtain ⟨⟨rfl, rfl, rfl⟩, rfl⟩ : (b = b1 ∧ cells = c1 ∧ sub = s1) ∧ h = h1 := by simpa using e1
  obtain ⟨c1, s1, h1, e1, r1⟩ := splitFail_spec (b := b) (sub := sub) c hn h
  obtain ⟨g1, l1⟩ := r1 0 (by rwa [add_zero])
  simp only [add_zero] at g1 l1
  obtain ⟨h2, e2, _, l2⟩ := destroy_spec b c1 s1 h1 g1.left.2.1 g1.left.2.2
  have hx : cells[n] ∈ h1.live := g1.2.2 _ (by simp)
  have hx' : cells[n] ∉ own (.node b c1 s1) := fun q =>
    (Multiset.disjoint_left.mp (Multiset.nodup_add.mp g1.2.1).2.2) q (by simp)
  refine ⟨_, h1, _, h2, e1, e2, fun q => ?_, Finset.ext fun x => ?_⟩
  · exact ((l _).mpr q).2 (by rw [own]; simp)
  · rw [l2, Finset.mem_insert, ← l x, ← l1 x, Multiset.mem_add, Multiset.mem_singleton]
    by_cases q : x = cells[n]
    · subst q; simp [hx, hx']
    · simp [q]

/-- Two points at the root, in different suboctants of which only the first can be made: the block of the other point
is lost. -/
example : ∃ cells sub h, runs [.add [], .add []] MOct.init ⟨∅, 0⟩ = some (.node 0 cells sub, h) ∧ 1 < cells.length :=
  ⟨_, _, _, rfl, by decide⟩

example : ((runs [.add [], .add []] MOct.init ⟨∅, 0⟩).bind fun r =>
    (splitFail (fun x => if x = 1 then 0 else 1) 1 r.1 r.2).bind fun r =>
      (destroy r.1 r.2).map fun r => r.2.live) = some {0} := by decide

end Zeo
