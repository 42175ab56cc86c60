import Verif.Model.TexMem
import Verif.Lemmas.OctMem
import Mathlib.Tactic.FinCases

/-! # C85: the memory of textures

Whatever is done with a texture, nothing is freed twice, and destroying it is safe any number of times.  All memory is
given back exactly if no pointer in use is set anew: neither by allocating again, nor by cloning into a texture in use,
nor by a second name or file name. -/

namespace Zeo

open Life OctMem

namespace TexMem

/-- Specification: which of the four pointers are in use after an operation. -/
def after : Op → (Fin 4 → Bool) → Fin 4 → Bool
  | .alloc a b, u => if a && b then Function.update (Function.update u 2 true) 3 true else fun _ => false
  | .clone n f a b, _ => if f && (a && b) then ![n, true, true, true] else fun _ => false
  | .cloneNoName, _ => fun _ => false
  | .setName ok, u => Function.update u 0 ok
  | .setFile ok, u => Function.update u 1 ok
  | .destroy, _ => fun _ => false

/-- Specification: the operation sets no pointer in use. -/
def clean : Op → (Fin 4 → Bool) → Bool
  | .alloc _ _, u => !u 2 && !u 3
  | .clone _ _ _ _, u => !u 0 && !u 1 && !u 2 && !u 3
  | .cloneNoName, u => !u 0 && !u 1 && !u 2 && !u 3
  | .setName _, u => !u 0
  | .setFile _, u => !u 1
  | .destroy, _ => true

/-- Specification: none of the operations sets a pointer in use. -/
def tidy : (Fin 4 → Bool) → List Op → Bool
  | _, [] => true
  | u, o :: os => clean o u && tidy (after o u) os

/-- The pointers in use. -/
def used (t : T) : Fin 4 → Bool := fun s => (t s).isSome

private def one (p : Option ℕ) : Multiset ℕ := p.elim 0 fun b => {b}

private def owned (t : T) : Multiset ℕ := one (t 0) + (one (t 1) + (one (t 2) + one (t 3)))

private theorem owned_update (t : T) (s : Fin 4) (p : Option ℕ) :
    ∃ c, owned t = one (t s) + c ∧ owned (Function.update t s p) = one p + c := by
  fin_cases s
  · exact ⟨one (t 1) + (one (t 2) + one (t 3)), by simp [owned], by simp [owned]⟩
  · refine ⟨one (t 0) + (one (t 2) + one (t 3)), ?_, ?_⟩ <;> simp [owned] <;> abel
  · refine ⟨one (t 0) + (one (t 1) + one (t 3)), ?_, ?_⟩ <;> simp [owned] <;> abel
  · refine ⟨one (t 0) + (one (t 1) + one (t 2)), ?_, ?_⟩ <;> simp [owned] <;> abel

/-- From one state to another the blocks `l` are lost. -/
private def R (t : T) (h : Heap) (t' : T) (h' : Heap) (l : Multiset ℕ) : Prop :=
  G (owned t) h → G (owned t') h' ∧ (∀ x ∈ l, x ∈ owned t) ∧
    ∀ x, (x ∈ h'.live ∧ x ∉ owned t') ↔ (x ∈ h.live ∧ x ∉ owned t) ∨ x ∈ l

private theorem G0 {o h} (g : G o h) : G 0 h := ⟨g.1, by simp, by simp⟩

private theorem init_R (t h) : R t h init h (owned t) := fun g => by
  have e : owned init = 0 := by simp [owned, init, one]
  rw [e]
  refine ⟨G0 g, fun _ h => h, fun x => ?_⟩
  have := g.2.2 x
  simp only [Multiset.notMem_zero, not_false_eq_true, and_true]; tauto

private theorem put_R (s new t h) : R t h (put s new t h).1 (put s new t h).2 (one (t s)) := fun g => by
  obtain ⟨c, e1, e2⟩ := owned_update t s none
  have gc : G c h := by rw [e1, add_comm] at g; exact g.left
  have dj := (Multiset.nodup_add.mp (e1 ▸ g.2.1)).2.2
  have sub : ∀ x ∈ one (t s), x ∈ owned t := fun x hx => by rw [e1]; simp [hx]
  have rest : ∀ x, (x ∈ h.live ∧ x ∉ c) ↔ (x ∈ h.live ∧ x ∉ owned t) ∨ x ∈ one (t s) := fun x => by
    have l : x ∈ one (t s) → x ∈ h.live := fun hx => g.2.2 x (sub x hx)
    have d : x ∈ one (t s) → x ∉ c := fun hx => (Multiset.disjoint_left.mp dj) hx
    rw [e1, Multiset.mem_add]; tauto
  cases new with
  | false =>
    have e3 : owned (put s false t h).1 = c := by simp [put, e2, one]
    rw [e3]; exact ⟨gc, sub, rest⟩
  | true =>
    obtain ⟨c', e1', e3⟩ := owned_update t s (some h.next)
    have : c' = c := by rw [e1] at e1'; exact (add_left_cancel e1').symm
    subst this
    have e4 : owned (put s true t h).1 = h.next ::ₘ c' := by simp [put, e3, one]
    rw [e4]
    obtain ⟨g', l⟩ := (step_alloc c' h).rel 0 (by rwa [add_zero])
    simp only [add_zero] at g' l
    exact ⟨g', sub, fun x => (l x).trans (rest x)⟩

private theorem R.trans {t h t' h' t'' h'' l l'} (r : R t h t' h' l) (r' : R t' h' t'' h'' l')
    (q : ∀ x ∈ l', x ∈ owned t) : R t h t'' h'' (l + l') := fun g => by
  obtain ⟨g1, s1, k1⟩ := r g
  obtain ⟨g2, s2, k2⟩ := r' g1
  refine ⟨g2, fun x hx => (Multiset.mem_add.mp hx).elim (s1 x) (q x), fun x => ?_⟩
  rw [k2, k1, Multiset.mem_add, or_assoc]

private theorem freeAt_ok (t : T) (s : Fin 4) (h : Heap) (c : Multiset ℕ) (g : G (one (t s) + c) h) :
    ∃ h', freeAt t h s = some h' ∧ G c h' ∧ ∀ x, (x ∈ h'.live ∧ x ∉ c) ↔ (x ∈ h.live ∧ x ∉ one (t s) + c) := by
  cases e : t s with
  | none =>
    refine ⟨h, by simp [freeAt, e], ?_, by simp [one]⟩
    rw [e] at g; simpa [one] using g
  | some b =>
    rw [e] at g
    have hb : b ∈ h.live := g.2.2 b (by simp [one])
    refine ⟨⟨h.live.erase b, h.next⟩, by simp [freeAt, e, freeBlk_spec hb], ?_⟩
    have st : Step (one (some b)) h 0 ⟨h.live.erase b, h.next⟩ :=
      ⟨0, {b}, by simp [one], by simp [one], by simp, by simp, le_refl _, fun x => by
        simp only [Finset.mem_erase, Multiset.mem_singleton, Multiset.notMem_zero, or_false]; tauto⟩
    have := st.rel c g
    simpa only [zero_add] using this

private theorem destroy_R (t : T) (h : Heap) (g : G (owned t) h) :
    ∃ h', destroy t h = some (init, h') ∧ R t h init h' 0 := by
  obtain ⟨h0, e0, g0, k0⟩ := freeAt_ok t 0 h _ g
  obtain ⟨h1, e1, g1, k1⟩ := freeAt_ok t 1 h0 _ g0
  obtain ⟨h2, e2, g2, k2⟩ := freeAt_ok t 2 h1 _ g1
  obtain ⟨h3, e3, g3, k3⟩ := freeAt_ok t 3 h2 0 (by rwa [add_zero])
  rw [add_zero] at k3
  refine ⟨h3, by simp [destroy, e0, e1, e2, e3], fun _ => ?_⟩
  have e : owned init = 0 := by simp [owned, init, one]
  rw [e]
  refine ⟨g3, by simp, fun x => ?_⟩
  rw [k3, k2, k1, k0, Multiset.notMem_zero x |> eq_false, or_false]; rfl

private theorem used_put (s new t h) : used (put s new t h).1 = Function.update (used t) s new := by
  funext i
  by_cases hi : i = s
  · subst hi; cases new <;> simp [put, used]
  · cases new <;> simp [put, used, hi]

private theorem used_init : used init = fun _ => false := rfl

private theorem one_zero (t : T) (s : Fin 4) : one (t s) = 0 ↔ used t s = false := by
  cases h : t s <;> simp [one, used, h]

private theorem put_other (s i : Fin 4) (new t h) (hi : i ≠ s) : (put s new t h).1 i = t i := by
  cases new <;> simp [put, hi]

private theorem mem_owned (t : T) (s : Fin 4) : ∀ x ∈ one (t s), x ∈ owned t := fun x hx => by
  obtain ⟨c, e, _⟩ := owned_update t s none
  rw [e]; simp [hx]

private theorem run_ok (o : Op) (t : T) (h : Heap) (g : G (owned t) h) : ∃ t' h' l, o.run t h = some (t', h') ∧
    R t h t' h' l ∧ used t' = after o (used t) ∧ (l = 0 ↔ clean o (used t) = true) := by
  cases o with
  | setName ok =>
    exact ⟨(put 0 ok t h).1, (put 0 ok t h).2, _, rfl, put_R 0 ok t h, used_put _ _ _ _, by simp [clean, one_zero]⟩
  | setFile ok =>
    exact ⟨(put 1 ok t h).1, (put 1 ok t h).2, _, rfl, put_R 1 ok t h, used_put _ _ _ _, by simp [clean, one_zero]⟩
  | destroy =>
    obtain ⟨h', e, r⟩ := destroy_R t h g
    exact ⟨_, h', _, e, r, rfl, by simp [clean]⟩
  | cloneNoName =>
    have r0 := init_R t h
    obtain ⟨h', e, rd⟩ := destroy_R _ _ (r0 g).1
    refine ⟨init, h', _, e, r0.trans rd (by simp), rfl, ?_⟩
    rw [add_zero]; simp [clean, owned, one_zero, and_assoc]
  | alloc a b =>
    have r1 := put_R 2 a t h
    have r2 := put_R 3 b (put 2 a t h).1 (put 2 a t h).2
    rw [put_other 2 3 a t h (by decide)] at r2
    have r := r1.trans r2 (mem_owned t 3)
    have u := used_put 3 b (put 2 a t h).1 (put 2 a t h).2
    rw [used_put 2] at u
    have z : one (t 2) + one (t 3) = 0 ↔ clean (.alloc a b) (used t) = true := by
      simp [clean, one_zero]
    by_cases hab : (a && b) = true
    · refine ⟨_, _, _, by simp only [Op.run, alloc, hab, if_true], r, ?_, z⟩
      obtain ⟨rfl, rfl⟩ : a = true ∧ b = true := by simpa using hab
      rw [u]; rfl
    · obtain ⟨h', e, rd⟩ := destroy_R _ _ (r g).1
      refine ⟨init, h', _, by simp only [Op.run, alloc, hab]; exact e, r.trans rd (by simp), ?_, ?_⟩
      · simp only [after, if_neg hab]; rfl
      · rw [add_zero]; exact z
  | clone n f a b =>
    have r0 := init_R t h
    have r1 := put_R 0 n init h
    have r2 := put_R 1 f (put 0 n init h).1 (put 0 n init h).2
    rw [put_other 0 1 n init h (by decide)] at r2
    have r3 := put_R 2 a (put 1 f (put 0 n init h).1 (put 0 n init h).2).1
      (put 1 f (put 0 n init h).1 (put 0 n init h).2).2
    rw [put_other 1 2 f _ _ (by decide), put_other 0 2 n _ _ (by decide)] at r3
    have r4 := put_R 3 b (put 2 a (put 1 f (put 0 n init h).1 (put 0 n init h).2).1
      (put 1 f (put 0 n init h).1 (put 0 n init h).2).2).1
      (put 2 a (put 1 f (put 0 n init h).1 (put 0 n init h).2).1
      (put 1 f (put 0 n init h).1 (put 0 n init h).2).2).2
    rw [put_other 2 3 a _ _ (by decide), put_other 1 3 f _ _ (by decide), put_other 0 3 n _ _ (by decide)] at r4
    have e0 : ∀ i, one (init i) = 0 := fun _ => rfl
    rw [e0] at r1 r2 r3 r4
    have r := (((r0.trans r1 (by simp)).trans r2 (by simp)).trans r3 (by simp)).trans r4 (by simp)
    simp only [add_zero] at r
    have z : owned t = 0 ↔ clean (.clone n f a b) (used t) = true := by
      simp [clean, owned, one_zero, and_assoc]
    by_cases hab : (f && (a && b)) = true
    · refine ⟨_, _, _, by simp only [Op.run, clone, hab, if_true], r, ?_, z⟩
      simp only [used_put, after, if_pos hab, used_init]
      obtain ⟨rfl, rfl, rfl⟩ : f = true ∧ a = true ∧ b = true := by simpa using hab
      funext i; fin_cases i <;> rfl
    · obtain ⟨h', e, rd⟩ := destroy_R _ _ (r g).1
      refine ⟨init, h', _, by simp only [Op.run, clone, hab]; exact e, r.trans rd (by simp), ?_, ?_⟩
      · simp only [after, if_neg hab]; rfl
      · rw [add_zero]; exact z

private theorem main (os : List Op) : ∀ (t : T) (h : Heap), G (owned t) h →
    ∃ h', life os t h = some h' ∧ (∀ x, x ∈ h.live → x ∉ owned t → x ∈ h'.live) ∧
      ((∀ x, x ∈ h'.live → x ∈ h.live ∧ x ∉ owned t) ↔ tidy (used t) os = true) := by
  induction os with
  | nil =>
    intro t h g
    obtain ⟨h', e, r⟩ := destroy_R t h g
    have e0 : owned init = 0 := by simp [owned, init, one]
    have q := (r g).2.2
    simp only [e0, Multiset.notMem_zero, not_false_eq_true, and_true, or_false] at q
    exact ⟨h', by simp [life, e], fun x h1 h2 => (q x).mpr ⟨h1, h2⟩, by simp only [tidy, iff_true]; exact fun x hx => (q x).mp hx⟩
  | cons o os ih =>
    intro t h g
    obtain ⟨t', h1, l, e, r, u, z⟩ := run_ok o t h g
    obtain ⟨g1, s, q⟩ := r g
    obtain ⟨h2, e2, s2, t2⟩ := ih t' h1 g1
    refine ⟨h2, by simp [life, e, e2], fun x a b => ?_, ?_⟩
    · have := (q x).mpr (Or.inl ⟨a, b⟩); exact s2 x this.1 this.2
    · rw [tidy, Bool.and_eq_true, ← z, ← u, ← t2]
      constructor
      · intro a
        refine ⟨?_, fun x hx => (q x).mpr (Or.inl (a x hx))⟩
        rw [Multiset.eq_zero_iff_forall_notMem]
        intro x hx
        have := (q x).mpr (Or.inr hx)
        exact (a x (s2 x this.1 this.2)).2 (s x hx)
      · rintro ⟨rfl, a⟩ x hx
        simpa using (q x).mp (a x hx)

end TexMem

open TexMem

/-- **C85.** From `zTextureInit` to `zTextureDestroy`, with any operations between them, a texture frees nothing twice
and nothing that is not its own, and all memory it took is given back exactly if no operation sets a pointer in use. -/
theorem C85_mem_life (os : List TexMem.Op) (h₀ : Heap) (k : ∀ x ∈ h₀.live, x < h₀.next) :
    ∃ h', life os TexMem.init h₀ = some h' ∧ h₀.live ⊆ h'.live ∧
      (h'.live = h₀.live ↔ tidy (fun _ => false) os = true) := by
  obtain ⟨h', e, s, t⟩ := TexMem.main os TexMem.init h₀ ⟨k, by decide, by simp [TexMem.owned, TexMem.init, TexMem.one]⟩
  have e0 : TexMem.owned TexMem.init = 0 := by simp [TexMem.owned, TexMem.init, TexMem.one]
  rw [e0] at s t
  have hs : h₀.live ⊆ h'.live := fun x hx => s x hx (by simp)
  refine ⟨h', e, hs, ?_⟩
  rw [← TexMem.used_init, ← t]
  constructor
  · intro a x hx; exact ⟨a ▸ hx, by simp⟩
  · intro a; exact Finset.Subset.antisymm (fun x hx => (a x hx).1) hs

/-- A texture with a name, a file and arrays, destroyed twice and cloned into, loses nothing; neither does a failed
allocation. -/
example : tidy (fun _ => false) [.setName true, .setFile true, .alloc true true, .destroy, .destroy, .clone true true true true,
    .destroy, .setName false, .cloneNoName, .setName true, .alloc true false] = true := by decide

example : (life [.setName true, .setFile true, .alloc true true, .destroy, .destroy, .clone true true true true]
    TexMem.init ⟨{3}, 4⟩).map Heap.live = some {3} := by decide

/-- Cloning into a texture in use, allocating again and a second file name lose memory. -/
example : (life [.setName true, .clone true true true true] TexMem.init ⟨∅, 0⟩).map Heap.live = some {0} ∧
    (life [.alloc true true, .alloc true true] TexMem.init ⟨∅, 0⟩).map Heap.live = some {0, 1} ∧
    (life [.setFile true, .setFile false] TexMem.init ⟨∅, 0⟩).map Heap.live = some {0} := by decide

end Zeo
