import Verif.Props.C96
import Verif.Model.LifeMap

/-! # C98: life of maps and nets of maps -/

namespace Zeo
open Life Spec

private def pb : Ptr → List ℕ
  | .blk n => [n]
  | _ => []

private def own (m : MapObj) : List ℕ := pb m.name ++ (if m.com = .set then pb m.grid ++ pb m.body else [])

private structure Valid (m : MapObj) : Prop where
  nw : m.name ≠ .wild
  c : (m.com = .null ∧ m.body = .null) ∨ (m.com = .set ∧ (∃ b, m.body = .blk b) ∧ m.grid ≠ .wild)

private theorem free_eq {p : Ptr} (hp : p ≠ .wild) {h : Heap} (hl : ∀ x ∈ pb p, x ∈ h.live) :
    h.free p = some (.null, ⟨h.live \ (pb p).toFinset, h.next⟩) := by
  cases p with
  | wild => exact absurd rfl hp
  | null => simp [Heap.free, pb]
  | blk n =>
    have : n ∈ h.live := hl n (by simp [pb])
    simp [Heap.free, pb, this, Finset.sdiff_singleton_eq_erase]

private theorem destroy_eq {m : MapObj} (v : Valid m) {h : Heap} (hn : (own m).Nodup) (hl : ∀ x ∈ own m, x ∈ h.live) :
    ∃ g, mapDestroy m h = some (⟨.null, .null, g, .null⟩, ⟨h.live \ (own m).toFinset, h.next⟩) := by
  obtain ⟨nm, bd, gr, com⟩ := m
  obtain ⟨nw, v⟩ := v
  simp only at nw v
  have f1 := free_eq nw (h := h) fun x hx => hl x (by simp [own, hx])
  unfold mapDestroy
  simp only [f1]
  rcases v with ⟨rfl, rfl⟩ | ⟨rfl, ⟨b, rfl⟩, gw⟩
  · refine ⟨gr, ?_⟩
    simp [Heap.free, own]
  · simp only [own, if_true, List.nodup_append] at hn
    have hb : b ∉ pb nm := fun hm => hn.2.2 b hm b (by simp [pb]) rfl
    have hg : b ∉ pb gr := fun hm => hn.2.1.2.2 b hm b (by simp [pb]) rfl
    have bl : b ∈ h.live := hl b (by simp [own, pb])
    have f2 := free_eq gw (h := ⟨h.live \ (pb nm).toFinset, h.next⟩) fun x hx => by
      simp only [Finset.mem_sdiff, List.mem_toFinset]
      exact ⟨hl x (by simp [own, hx]), fun hm => hn.2.2 x hm x (by simp [hx]) rfl⟩
    refine ⟨.null, ?_⟩
    simp only [terraDestroy, Finset.mem_sdiff, bl, List.mem_toFinset, hb, not_false_eq_true, and_self, if_true, f2, Option.map_some]
    have f3 := free_eq (p := .blk b) (by simp) (h := ⟨(h.live \ (pb nm).toFinset) \ (pb gr).toFinset, h.next⟩) fun x hx => by
      simp only [pb, List.mem_singleton] at hx
      subst hx
      simp [bl, hb, hg]
    simp only [f3]
    congr 3
    ext x
    simp only [Finset.mem_sdiff, List.mem_toFinset, own, if_true, List.mem_append]
    tauto

private theorem destroyMaps_eq : ∀ (ms : List MapObj) (h : Heap), (∀ m ∈ ms, Valid m) → (ms.flatMap own).Nodup →
    (∀ x ∈ ms.flatMap own, x ∈ h.live) → netDestroyMaps ms h = some ⟨h.live \ (ms.flatMap own).toFinset, h.next⟩
  | [], h, _, _, _ => by simp [netDestroyMaps]
  | m :: ms, h, v, n, l => by
    rw [List.flatMap_cons, List.nodup_append] at n
    obtain ⟨g, e⟩ := destroy_eq (v m (by simp)) (h := h) n.1 fun x hx => l x (by simp [hx])
    unfold netDestroyMaps
    simp only [e]
    rw [destroyMaps_eq ms _ (fun m hm => v m (by simp [hm])) n.2.1 fun x hx => by
      simp only [Finset.mem_sdiff, List.mem_toFinset]
      exact ⟨l x (by rw [List.flatMap_cons, List.mem_append]; exact .inr hx), fun hm => n.2.2 x hm x hx rfl⟩]
    congr 2
    ext x
    simp only [Finset.mem_sdiff, List.mem_toFinset, List.flatMap_cons, List.mem_append]
    tauto

private structure Fresh (h h' : Heap) (l : List ℕ) : Prop where
  nd : l.Nodup
  lo : ∀ x ∈ l, h.next ≤ x ∧ x < h'.next
  live : h'.live = h.live ∪ l.toFinset
  le : h.next ≤ h'.next

private theorem read_fresh (t : MapText) (m : MapObj) (h : Heap) :
    Valid (mapRead t m h).2.1 ∧ Fresh h (mapRead t m h).2.2 (own (mapRead t m h).2.1) ∧
    ((mapRead t m h).1 = true ↔ t.type = some true ∧ t.size ≠ some false) := by
  obtain ⟨n, t, s⟩ := t
  rcases n with _ | _ <;> rcases t with _ | _ | _ <;> rcases s with _ | _ | _ <;>
  · simp only [mapRead, mapInit, mapSetName, mapSetType, terraRead, Heap.alloc, if_true, Bool.false_eq_true, if_false, reduceCtorEq]
    refine ⟨⟨by simp, by simp⟩, ⟨by simp [own, pb] <;> omega, by simp [own, pb] <;> omega, ?_, by simp <;> omega⟩, by simp⟩
    ext x
    simp [own, pb]
    try tauto

private theorem net_fresh : ∀ (ts : List (Option MapText)) (h : Heap), HeapOk h →
    (∀ m ∈ (netRead ts h).1, Valid m) ∧ Fresh h (netRead ts h).2 ((netRead ts h).1.flatMap own)
  | [], h, _ => ⟨by simp [netRead], ⟨by simp [netRead], by simp [netRead], by simp [netRead], le_rfl⟩⟩
  | none :: l, h, ok => by
    obtain ⟨a, b⟩ := net_fresh l h ok
    have z : own .zeroed = [] := rfl
    refine ⟨fun m hm => ?_, by simpa [netRead, z] using b⟩
    simp only [netRead, List.mem_cons] at hm
    rcases hm with rfl | hm
    · exact ⟨by simp [MapObj.zeroed], .inl ⟨rfl, rfl⟩⟩
    · exact a m hm
  | some t :: l, h, ok => by
    obtain ⟨v, f, -⟩ := read_fresh t .zeroed h
    have ok' : HeapOk (mapRead t .zeroed h).2.2 := fun x hx => by
      rw [f.live, Finset.mem_union, List.mem_toFinset] at hx
      rcases hx with hx | hx
      · exact lt_of_lt_of_le (ok x hx) f.le
      · exact (f.lo x hx).2
    obtain ⟨a, b⟩ := net_fresh l _ ok'
    refine ⟨fun m hm => ?_, ?_⟩
    · simp only [netRead, List.mem_cons] at hm
      rcases hm with rfl | hm
      · exact v
      · exact a m hm
    · simp only [netRead, List.flatMap_cons]
      refine ⟨List.nodup_append.2 ⟨f.nd, b.nd, fun x hx y hy e => ?_⟩, fun x hx => ?_, ?_, f.le.trans b.le⟩
      · have := (f.lo x hx).2; have := (b.lo y hy).1; omega
      · rcases List.mem_append.1 hx with hx | hx
        · exact ⟨(f.lo x hx).1, lt_of_lt_of_le (f.lo x hx).2 b.le⟩
        · exact ⟨f.le.trans (b.lo x hx).1, (b.lo x hx).2⟩
      · rw [b.live, f.live, List.toFinset_append, Finset.union_assoc]

private theorem back {h h' : Heap} {l : List ℕ} (ok : HeapOk h) (f : Fresh h h' l) : h'.live \ l.toFinset = h.live := by
  rw [f.live]
  ext x
  simp only [Finset.mem_sdiff, Finset.mem_union, List.mem_toFinset]
  constructor
  · rintro ⟨a | a, b⟩
    · exact a
    · exact absurd a b
  · exact fun hx => ⟨.inl hx, fun hm => by have := ok x hx; have := (f.lo x hm).1; omega⟩

/-- A map into which a text is read, whether that fails or not and whatever was there, can be destroyed, more than once; the memory is then as
before. Reading fails for a missing or unknown type and a size with a zero, and only
then as far as the type and the size are concerned. -/
theorem C98_map (t : MapText) (m : MapObj) (h : Heap) (ok : HeapOk h) :
    ((mapRead t m h).1 = true ↔ t.type = some true ∧ t.size ≠ some false) ∧
    ∃ m' h', mapDestroy (mapRead t m h).2.1 (mapRead t m h).2.2 = some (m', h') ∧ h'.live = h.live ∧
      mapDestroy m' h' = some (m', h') := by
  obtain ⟨v, f, s⟩ := read_fresh t m h
  obtain ⟨g, e⟩ := destroy_eq v f.nd (h := (mapRead t m h).2.2) fun x hx => by rw [f.live]; simp [hx]
  exact ⟨s, _, _, e, back ok f, by simp [mapDestroy, Heap.free]⟩

/-- A map only initialised can be destroyed as well; one on which nothing was done cannot. -/
theorem C98_init (m : MapObj) (h : Heap) : (∃ m', mapDestroy (mapInit m) h = some (m', h)) ∧ mapDestroy .raw h = none :=
  ⟨⟨_, rfl⟩, rfl⟩

/-- A net of maps, of which any may have failed or may not have been read, can be destroyed, and the memory is then as before its array `p` was
allocated. -/
theorem C98_net (ts : List (Option MapText)) (h : Heap) (ok : HeapOk h) :
    ∃ h', netDestroy h.alloc.1 (netRead ts h.alloc.2).1 (netRead ts h.alloc.2).2 = some (.null, h') ∧ h'.live = h.live := by
  have ok' : HeapOk h.alloc.2 := fun x hx => by
    simp only [Heap.alloc, Finset.mem_insert] at hx ⊢
    rcases hx with rfl | hx
    · omega
    · have := ok x hx; omega
  obtain ⟨v, f⟩ := net_fresh ts h.alloc.2 ok'
  have e := destroyMaps_eq _ (netRead ts h.alloc.2).2 v f.nd fun x hx => by rw [f.live]; simp [hx]
  unfold netDestroy
  rw [e, back ok' f]
  refine ⟨⟨h.live, (netRead ts h.alloc.2).2.next⟩, ?_, rfl⟩
  have : h.next ∉ h.live := fun hm => lt_irrefl _ (ok _ hm)
  simp [Heap.alloc, Heap.free, this]

/-- Reading into a map that is in use loses the blocks it has: a name, a body and a grid. -/
theorem C98_used_false (h : Heap) (ok : HeapOk h) : ∃ t : MapText,
    let a := mapRead t .raw h
    let b := mapRead t a.2.1 a.2.2
    a.1 = true ∧ b.1 = true ∧ ∃ m' h', mapDestroy b.2.1 b.2.2 = some (m', h') ∧ h'.live.card = h.live.card + 3 := by
  refine ⟨⟨true, some true, some true⟩, rfl, rfl, ?_⟩
  have f := (read_fresh ⟨true, some true, some true⟩ .raw h).2.1
  have ok' : HeapOk (mapRead ⟨true, some true, some true⟩ .raw h).2.2 := fun x hx => by
    rw [f.live, Finset.mem_union, List.mem_toFinset] at hx
    rcases hx with hx | hx
    · exact lt_of_lt_of_le (ok x hx) f.le
    · exact (f.lo x hx).2
  obtain ⟨-, m', h', e, l, -⟩ := C98_map ⟨true, some true, some true⟩ (mapRead ⟨true, some true, some true⟩ .raw h).2.1 _ ok'
  refine ⟨m', h', e, ?_⟩
  rw [l, f.live, Finset.card_union_of_disjoint, List.toFinset_card_of_nodup f.nd]
  · rfl
  · rw [Finset.disjoint_left]
    intro x hx hm
    have := ok x hx
    have := (f.lo x (List.mem_toFinset.1 hm)).1
    omega

/-- A net of which the first map is sound, the second has an unknown type and the third is not read; the heap holds a block of others. -/
example : HeapOk ⟨{0}, 1⟩ ∧ ∃ h', netDestroy (.blk 1) (netRead [some ⟨true, some true, some true⟩, some ⟨true, some false, none⟩, none] ⟨{0, 1}, 2⟩).1
    (netRead [some ⟨true, some true, some true⟩, some ⟨true, some false, none⟩, none] ⟨{0, 1}, 2⟩).2 = some (.null, h') ∧ h'.live = {0} := by
  have ok : HeapOk ⟨{0}, 1⟩ := by simp [HeapOk]
  obtain ⟨h', e, l⟩ := C98_net [some ⟨true, some true, some true⟩, some ⟨true, some false, none⟩, none] ⟨{0}, 1⟩ ok
  refine ⟨ok, h', ?_, l⟩
  rw [show (⟨{0, 1}, 2⟩ : Heap) = Heap.mk (insert 1 {0}) 2 from by rw [Finset.pair_comm]]
  exact e

end Zeo
