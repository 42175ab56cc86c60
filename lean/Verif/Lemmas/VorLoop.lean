import Verif.Model.Voronoi
import Verif.Lemmas.DelMesh
import Mathlib.Data.List.Chain

/-! # Closing the loop of a cell -/

namespace Zeo.Del

theorem closeInner_none (lc : LoopCell) : ∀ (suf pre : List LoopCell) (fuel : ℕ), suf.length ≤ fuel →
    (∀ x ∈ suf, x.t0 ≠ lc.t1) → closeInner lc fuel pre suf = some (pre ++ suf)
  | [], pre, fuel, _, _ => by simp [closeInner]
  | x :: s, pre, 0, h, _ => by simp at h
  | x :: s, pre, fuel + 1, h, hn => by
    rw [closeInner, if_neg (hn x List.mem_cons_self),
      closeInner_none lc s (pre ++ [x]) fuel (by simpa using h) (fun y hy => hn y (List.mem_cons_of_mem _ hy))]
    simp

theorem closeInner_some (lc x : LoopCell) (v : List LoopCell) (hx : x.t0 = lc.t1) : ∀ (u pre : List LoopCell) (fuel : ℕ),
    u.length + 1 + (pre.length + u.length + v.length) ≤ fuel → (∀ y ∈ pre, y.t0 ≠ lc.t1) → (∀ y ∈ u, y.t0 ≠ lc.t1) →
    (∀ y ∈ v, y.t0 ≠ lc.t1) → closeInner lc fuel pre (u ++ x :: v) = some (x :: (pre ++ u ++ v))
  | [], pre, 0, h, _, _, _ => by simp at h
  | [], pre, fuel + 1, h, hp, _, hv => by
    rw [List.nil_append, closeInner, if_pos hx, closeInner_none lc _ _ fuel (by simp at h ⊢; omega) (by
      intro y hy
      rcases List.mem_append.1 hy with q | q
      · exact hp y q
      · exact hv y q)]
    simp
  | y :: u, pre, 0, h, _, _, _ => by simp at h
  | y :: u, pre, fuel + 1, h, hp, hu, hv => by
    rw [List.cons_append, closeInner, if_neg (hu y List.mem_cons_self),
      closeInner_some lc x v hx u (pre ++ [y]) fuel (by simp at h ⊢; omega) (by
        intro z hz
        rcases List.mem_append.1 hz with q | q
        · exact hp z q
        · rw [List.mem_singleton.1 q]; exact hu y List.mem_cons_self)
        (fun z hz => hu z (List.mem_cons_of_mem _ hz)) hv]
    simp

/-- The cells make up one cycle. -/
structure Cyc (l : List LoopCell) : Prop where
  nodup : (l.map LoopCell.t0).Nodup
  succ : ∀ x ∈ l, ∃ y ∈ l, y.t0 = x.t1
  trans : ∀ C : LoopCell → Prop, (∃ x ∈ l, C x) → (∀ x ∈ l, C x → ∀ y ∈ l, y.t0 = x.t1 → C y) → ∀ x ∈ l, C x

theorem Cyc.perm {l l' : List LoopCell} (h : Cyc l) (p : l.Perm l') : Cyc l' := by
  refine ⟨(p.map _).nodup_iff.1 h.nodup, ?_, ?_⟩
  · intro x hx
    obtain ⟨y, hy, e⟩ := h.succ x (p.mem_iff.2 hx)
    exact ⟨y, p.mem_iff.1 hy, e⟩
  · intro C ⟨x, hx, hC⟩ hs y hy
    exact h.trans C ⟨x, p.mem_iff.2 hx, hC⟩ (fun x hx hC y hy => hs x (p.mem_iff.1 hx) hC y (p.mem_iff.1 hy)) y (p.mem_iff.2 hy)

/-- The next one begins where this one ends. -/
abbrev Chn (l : List LoopCell) : Prop := l.IsChain fun x y => x.t1 = y.t0

/-- In a chain every element but the last has its successor in the chain. -/
theorem chn_succ : ∀ (d : List LoopCell) (z : LoopCell), Chn (d ++ [z]) → ∀ x ∈ d, ∃ y ∈ (d ++ [z]).tail, y.t0 = x.t1
  | [], _, _, x, hx => by simp at hx
  | [w], z, h, x, hx => by
    simp only [List.mem_singleton] at hx
    subst hx
    simp only [List.cons_append, List.nil_append, List.isChain_cons_cons] at h
    exact ⟨z, by simp, h.1.symm⟩
  | w :: w' :: d, z, h, x, hx => by
    simp only [List.cons_append, List.isChain_cons_cons] at h
    rcases List.mem_cons.1 hx with rfl | q
    · exact ⟨w', by simp, h.1.symm⟩
    · obtain ⟨y, hy, e⟩ := chn_succ (w' :: d) z (by simpa using h.2) x q
      exact ⟨y, by simp at hy ⊢; tauto, e⟩

theorem nodup_uniq {l : List LoopCell} (h : (l.map LoopCell.t0).Nodup) {x y : LoopCell} (hx : x ∈ l) (hy : y ∈ l)
    (e : x.t0 = y.t0) : x = y := List.inj_on_of_nodup_map h hx hy e

theorem closeLoop_chain (fuel : ℕ) : ∀ (n : ℕ) (d l : List LoopCell) (lc : LoopCell), l.length = n → 2 * l.length ≤ fuel →
    Cyc (d ++ lc :: l) → Chn (d ++ [lc]) →
    ∃ r, closeLoop fuel (n + 1) (lc :: l) = some (lc :: r) ∧ r.Perm l ∧ Chn (d ++ lc :: r) := by
  intro n
  induction n with
  | zero =>
    intro d l lc hl hf hc hch
    have := List.eq_nil_of_length_eq_zero hl
    subst this
    exact ⟨[], by simp [closeLoop, closeInner], List.Perm.refl _, hch⟩
  | succ n ih =>
    intro d l lc hl hf hc hch
    -- the successor is in the rest
    have hex : ∃ x ∈ l, x.t0 = lc.t1 := by
      by_contra hcon
      push Not at hcon
      have key := hc.trans (fun x => x ∈ d ++ [lc]) ⟨lc, by simp, by simp⟩ (by
        intro x hx hx' y hy e
        by_cases hxd : x ∈ d
        · obtain ⟨y', hy', e'⟩ := chn_succ d lc hch x hxd
          have hy'' : y' ∈ d ++ [lc] := List.mem_of_mem_tail hy'
          have : y = y' := nodup_uniq hc.nodup hy (by
            rcases List.mem_append.1 hy'' with q | q
            · exact List.mem_append_left _ q
            · rw [List.mem_singleton.1 q]; simp) (e.trans e'.symm)
          rw [this]; exact hy''
        · have : x = lc := by simpa [hxd] using hx'
          subst this
          rcases List.mem_append.1 hy with q | q
          · exact List.mem_append_left _ q
          · rcases List.mem_cons.1 q with q | q
            · rw [q]; simp
            · exact absurd e (hcon y q))
      cases l with
      | nil => simp at hl
      | cons y l =>
        have h1 := key y (by simp)
        have h2 := hc.nodup
        rw [List.map_append, List.nodup_append] at h2
        rcases List.mem_append.1 h1 with q | q
        · exact h2.2.2 y.t0 (List.mem_map_of_mem q) y.t0 (by simp) rfl
        · rw [List.mem_singleton.1 q] at h2
          simp at h2
    obtain ⟨x, hx, e⟩ := hex
    obtain ⟨u, v, rfl⟩ := List.append_of_mem hx
    have hnd := hc.nodup
    rw [List.map_append, List.nodup_append, List.map_cons, List.nodup_cons, List.map_append, List.nodup_append,
      List.map_cons, List.nodup_cons] at hnd
    have hu : ∀ y ∈ u, y.t0 ≠ lc.t1 := fun y hy h' =>
      hnd.2.1.2.2.2 y.t0 (List.mem_map_of_mem hy) x.t0 (by simp) (h'.trans e.symm)
    have hv : ∀ y ∈ v, y.t0 ≠ lc.t1 := fun y hy h' =>
      hnd.2.1.2.2.1.1 (by rw [e, ← h']; exact List.mem_map_of_mem hy)
    simp only [List.length_append, List.length_cons] at hl hf
    have h1 := closeInner_some lc x v e u [] fuel (by simp; omega) (by simp) hu hv
    simp only [List.nil_append] at h1
    have hp : (d ++ lc :: (u ++ x :: v)).Perm ((d ++ [lc]) ++ x :: (u ++ v)) := by
      simp only [List.append_assoc, List.cons_append, List.nil_append]
      exact (List.Perm.cons _ List.perm_middle).append_left d
    obtain ⟨r, h2, h3, h4⟩ := ih (d ++ [lc]) (u ++ v) x (by simp; omega) (by simp; omega) (hc.perm hp) (by
      rw [List.append_assoc]
      simp only [List.cons_append, List.nil_append]
      have := List.IsChain.append hch (List.isChain_singleton x) (by
        intro a ha b hb
        rw [List.getLast?_append] at ha
        simp at ha hb
        subst ha; subst hb; exact e.symm)
      simpa using this)
    refine ⟨x :: r, ?_, ?_, by simpa using h4⟩
    · rw [closeLoop, h1, Option.bind_some, h2]; rfl
    · exact (h3.cons x).trans List.perm_middle.symm

/-- The loop is closed. -/
theorem closeLoop_cyc {l : List LoopCell} (hne : l ≠ []) (hc : Cyc l) {fuel : ℕ} (hf : 2 * l.length ≤ fuel) :
    ∃ x r, closeLoop fuel l.length l = some (x :: r) ∧ (x :: r).Perm l ∧ Chn (x :: r) ∧
      ((x :: r).getLast (by simp)).t1 = x.t0 := by
  cases l with
  | nil => exact absurd rfl hne
  | cons x l =>
    obtain ⟨r, h1, h2, h3⟩ := closeLoop_chain fuel l.length [] l x rfl (by simp at hf; omega) hc (by simp)
    have hp : (x :: l).Perm (x :: r) := (h2.symm).cons x
    have hc' := hc.perm hp
    refine ⟨x, r, h1, hp.symm, by simpa using h3, ?_⟩
    by_contra hcon
    cases r with
    | nil =>
      obtain ⟨y, hy, e⟩ := hc'.succ x (by simp)
      simp at hy
      subst hy
      simp at hcon
      exact hcon e.symm
    | cons z r =>
      set w := (x :: z :: r).getLast (by simp) with hw
      have hsp : (x :: z :: r) = (x :: z :: r).dropLast ++ [w] := (List.dropLast_append_getLast (by simp)).symm
      have key := hc'.trans (fun y => y ∈ z :: r) ⟨z, by simp, by simp⟩ (by
        intro a ha ha' b hb e
        rcases List.mem_cons.1 hb with q | q
        · exfalso
          subst q
          -- a is the last one
          rw [hsp] at ha
          rcases List.mem_append.1 ha with qq | qq
          · obtain ⟨y, hy, ey⟩ := chn_succ _ w (by rw [← hsp]; simpa using h3) a qq
            rw [← hsp] at hy
            simp only [List.tail_cons] at hy
            have := nodup_uniq hc'.nodup (x := y) (y := b) (List.mem_cons_of_mem _ hy) hb (ey.trans e.symm)
            subst this
            have := hc'.nodup
            rw [List.map_cons, List.nodup_cons] at this
            exact this.1 (List.mem_map_of_mem hy)
          · rw [List.mem_singleton.1 qq] at e
            exact hcon e.symm
        · exact q) x (by simp)
      have := hc'.nodup
      rw [List.map_cons, List.nodup_cons] at this
      exact this.1 (List.mem_map_of_mem key)

end Zeo.Del
