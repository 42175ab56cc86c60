import Verif.Model.Data

/-! # Lemmas on point sets with a cursor -/

namespace Zeo
namespace Data
variable {α : Type*}

/-- The stored points in order. -/
def contents : Data α → List α
  | dummy => []
  | arr _ cells n _ => cells.take n
  | lst _ xs _ => xs

/-- The representation invariant. -/
def WF : Data α → Prop
  | dummy => True
  | arr _ cells n i => n ≤ cells.length ∧ i ≤ n
  | lst _ xs c => ∀ k, c = some k → k < xs.length

/-- The number of points before the cursor; a list cursor at the root is past the end. -/
def pos : Data α → ℕ
  | dummy => 0
  | arr _ _ _ i => i
  | lst _ _ (some k) => k
  | lst _ xs none => xs.length

theorem WF.peek {d : Data α} (h : d.WF) : d.peek = d.contents[d.pos]? := by
  match d, h with
  | dummy, _ => rfl
  | arr _ cells n i, h =>
    simp only [Data.peek, contents, pos, List.getElem?_take]
    split_ifs with h1 h2 h2 <;> first | rfl | omega
  | lst _ xs none, _ => simp [Data.peek, contents, pos]
  | lst _ xs (some k), h => rfl

theorem WF.rewind {d : Data α} (h : d.WF) : d.rewind.WF ∧ d.rewind.contents = d.contents ∧ d.rewind.pos = 0 := by
  match d, h with
  | dummy, _ => exact ⟨trivial, rfl, rfl⟩
  | arr _ cells n i, h => exact ⟨⟨h.1, Nat.zero_le _⟩, rfl, rfl⟩
  | lst _ xs c, h =>
    refine ⟨?_, rfl, ?_⟩
    · intro k hk
      split_ifs at hk with hx
      cases hk
      exact List.length_pos_iff.2 hx
    · simp only [Data.rewind]
      split_ifs with hx
      · subst hx; rfl
      · rfl

theorem size_eq {d : Data α} (h : d.WF) : d.size = d.contents.length := by
  match d, h with
  | dummy, _ => rfl
  | arr _ cells n i, h => simp [size, contents, h.1]
  | lst _ xs c, h => rfl

theorem isEmpty_iff {d : Data α} (h : d.WF) : d.isEmpty = true ↔ d.contents = [] := by
  match d, h with
  | dummy, _ => simp [isEmpty, contents]
  | arr _ cells n i, h =>
    simp only [isEmpty, contents, beq_iff_eq, List.take_eq_nil_iff]
    constructor
    · exact Or.inl
    · rintro (h1 | h1)
      · exact h1
      · have := h.1; rw [h1] at this; simpa using this
  | lst _ xs c, h => simp [isEmpty, contents]

theorem WF.fetch {d : Data α} (h : d.WF) :
    d.fetch.2.WF ∧ d.fetch.2.contents = d.contents ∧ d.fetch.1 = d.contents[d.pos]? ∧
      d.fetch.2.pos = min (d.pos + 1) d.contents.length ∧ d.pos ≤ d.contents.length := by
  have hp := h.peek
  have hle : d.pos ≤ d.contents.length := by
    match d, h with
    | dummy, _ => exact le_rfl
    | arr _ cells n i, h => simpa [pos, contents, h.1] using h.2
    | lst _ xs none, h => exact le_rfl
    | lst _ xs (some k), h => exact (h k rfl).le
  unfold Data.fetch
  cases hq : d.peek with
  | none =>
    rw [hq] at hp
    have := List.getElem?_eq_none_iff.1 hp.symm
    exact ⟨h, rfl, hp, by dsimp only; omega, hle⟩
  | some v =>
    rw [hq] at hp
    have hlt := (List.getElem?_eq_some_iff.1 hp.symm).1
    refine ⟨?_, ?_, hp, ?_, hle⟩
    · match d, h with
      | dummy, _ => trivial
      | arr _ cells n i, h =>
        simp only [pos, contents, List.length_take] at hlt
        exact ⟨h.1, by omega⟩
      | lst _ xs none, h => intro k hk; cases hk
      | lst _ xs (some k), h =>
        intro j hj
        split_ifs at hj with h1
        cases hj; exact h1
    · match d, h with
      | dummy, _ => rfl
      | arr _ cells n i, h => rfl
      | lst _ xs none, h => rfl
      | lst _ xs (some k), h => rfl
    · match d, h with
      | dummy, _ => simp [contents] at hlt
      | arr _ cells n i, h => dsimp only [advance]; simp only [pos, contents] at hlt ⊢; omega
      | lst _ xs none, h => simp [contents, pos] at hlt
      | lst _ xs (some k), h =>
        dsimp only [advance]
        simp only [pos, contents] at hlt ⊢
        split_ifs with h1
        · dsimp only; omega
        · dsimp only; omega

theorem WF.loop {σ : Type*} (f : σ → α → σ) : ∀ (n : ℕ) {d : Data α} (_ : d.WF) (s : σ),
    d.contents.length - d.pos < n →
    (Data.loop f n d s).2 = (d.contents.drop d.pos).foldl f s ∧ (Data.loop f n d s).1.WF ∧
      (Data.loop f n d s).1.contents = d.contents ∧ (Data.loop f n d s).1.fetch.1 = none := by
  intro n
  induction n with
  | zero => intro d h s hn; omega
  | succ n ih =>
    intro d h s hn
    obtain ⟨h1, h2, h3, h4, h5⟩ := h.fetch
    unfold Data.loop
    rcases hf : d.fetch with ⟨_ | v, d'⟩
    · rw [hf] at h1 h2 h3 h4
      dsimp only at h1 h2 h3 h4 ⊢
      have hl := List.getElem?_eq_none_iff.1 h3.symm
      refine ⟨?_, h1, h2, ?_⟩
      · rw [List.drop_eq_nil_of_le hl]; rfl
      · obtain ⟨_, _, g3, _⟩ := h1.fetch
        rw [g3, h2, h4, List.getElem?_eq_none_iff]; omega
    · rw [hf] at h1 h2 h3 h4
      dsimp only at h1 h2 h3 h4 ⊢
      obtain ⟨hlt, hv⟩ := List.getElem?_eq_some_iff.1 h3.symm
      have hm : min (d.pos + 1) d.contents.length = d.pos + 1 := by omega
      rw [hm] at h4
      obtain ⟨g1, g2, g3, g4⟩ := ih h1 (f s v) (by rw [h2, h4]; omega)
      refine ⟨?_, g2, by rw [g3, h2], g4⟩
      rw [g1, h2, h4, List.drop_eq_getElem_cons hlt, hv]; rfl

/-- The rewind-and-fetch loop is a left fold over the stored points. -/
theorem WF.forEach {σ : Type*} (f : σ → α → σ) {d : Data α} (h : d.WF) (s : σ) :
    (d.forEach f s).2 = d.contents.foldl f s ∧ (d.forEach f s).1.WF ∧
      (d.forEach f s).1.contents = d.contents := by
  obtain ⟨h1, h2, h3⟩ := h.rewind
  obtain ⟨g1, g2, g3, _⟩ := h1.loop f (d.size + 1) s (by rw [h2, h3, size_eq h]; omega)
  unfold Data.forEach
  refine ⟨?_, g2, by rw [g3, h2]⟩
  rw [g1, h2, h3]; rfl

theorem foldl_append (g : α → α) (xs acc : List α) :
    xs.foldl (fun l v => l ++ [g v]) acc = acc ++ xs.map g := by
  induction xs generalizing acc with
  | nil => simp
  | cons x xs ih => simp [ih]

/-- Adding to an appendable point set. -/
theorem WF.add {d : Data α} (h : d.WF) (v : α) : (d.add v).2.WF := by
  match d, h with
  | dummy, _ => trivial
  | arr true cells n i, h => exact h
  | arr false cells n i, h =>
    dsimp only [Data.add]
    split_ifs with h1
    · exact h
    · refine ⟨?_, le_rfl⟩
      rw [List.length_set]; omega
  | lst true xs c, h => exact h
  | lst false xs c, h =>
    intro k hk
    have := h k hk
    simp only [List.length_append, List.length_singleton]; omega

end Data
end Zeo
