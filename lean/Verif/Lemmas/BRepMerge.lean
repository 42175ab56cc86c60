import Verif.Lemmas.BRepConv

/-! # Merging of boundary representations -/

namespace Zeo
open Spec
namespace BRep

theorem vmark_some {τ : ℝ} {t s : BRep} {i j : ℕ} (h : vmark τ t s i = some j) :
    j ∈ t.vlist ∧ Near τ (t.pos j) (s.pos i) := by
  unfold vmark at h
  split at h
  · exact vertFind_some h
  · cases h

/-- Invariant of the loop over the edges. -/
structure MergeInv (vm : ℕ → Option ℕ) (t s : BRep) (st : MergeSt) (todo : List ℕ) : Prop where
  grow : Ext t st.b
  sound : Sound st.b
  vert : st.b.vert = t.vert
  vlist : st.b.vlist = t.vlist
  nv : st.b.nv = t.nv
  both : ∀ e ∈ s.elist, e ∉ todo → ∀ a c, vm (s.edge e).v0 = some a → vm (s.edge e).v1 = some c →
    ∃ e', st.mark e = some e' ∧ e' ∈ st.b.elist ∧ SamePair (st.b.edge e') a c
  miss : ∀ e ∈ s.elist, e ∉ todo → (vm (s.edge e).v0 = none ∨ vm (s.edge e).v1 = none) → st.mark e = none

theorem sound_newEdge {b : BRep} (h : Sound b) {u v : ℕ} (hu : u ∈ b.vlist) (hv : v ∈ b.vlist) :
    Sound (b.newEdge u v) ∧ Ext b (b.newEdge u v) ∧ b.ne ∈ (b.newEdge u v).elist ∧
      (b.newEdge u v).edge b.ne = ⟨u, v, none⟩ := by
  have hn : b.ne ∉ b.elist := fun hm => lt_irrefl _ (h.elt _ hm)
  have hold : ∀ e ∈ b.elist, (b.newEdge u v).edge e = b.edge e := fun e he =>
    Function.update_of_ne (show e ≠ b.ne from fun h' => hn (h' ▸ he)) _ _
  have hnew : (b.newEdge u v).edge b.ne = ⟨u, v, none⟩ := Function.update_self _ _ _
  have hm : ∀ e, e ∈ (b.newEdge u v).elist ↔ e ∈ b.elist ∨ e = b.ne := fun e => by simp [BRep.newEdge]
  have hsub : ∀ i ∈ b.elist, i ∈ (b.newEdge u v).elist := fun i hi => (hm i).2 (Or.inl hi)
  refine ⟨⟨h.vnodup, ?_, h.vlt, ?_, ?_, ?_, h.corner, ?_⟩,
    ⟨fun _ h => h, fun _ _ => rfl, hsub, hold, rfl⟩, (hm _).2 (Or.inr rfl), hnew⟩
  · show (b.elist ++ [b.ne]).Nodup
    rw [List.nodup_append]
    exact ⟨h.enodup, by simp, fun x hx y hy => by
      rw [List.mem_singleton] at hy; subst hy; exact fun h' => hn (h' ▸ hx)⟩
  · intro e he
    show e < b.ne + 1
    rcases (hm e).1 he with he | rfl
    · have := h.elt e he; omega
    · omega
  · intro e he
    rcases (hm e).1 he with he | rfl
    · rw [hold e he]; exact h.ends e he
    · rw [hnew]; exact ⟨hu, hv⟩
  · intro e he
    rcases (hm e).1 he with he | rfl
    · rw [hold e he]; exact h.nocut e he
    · rw [hnew]
  · intro f hf i
    obtain ⟨h1, h2⟩ := h.side f hf i
    exact ⟨hsub _ h1, by rw [hold _ h1]; exact h2⟩

theorem mergeEdge_inv {vm : ℕ → Option ℕ} {t s : BRep} (hvm : ∀ i j, vm i = some j → j ∈ t.vlist)
    {st : MergeSt} {e : ℕ} {l : List ℕ} (hl : e ∉ l) (h : MergeInv vm t s st (e :: l)) :
    MergeInv vm t s (mergeEdge vm s st e) l := by
  have ne : ∀ k, k ≠ e → k ∉ l → k ∉ e :: l := fun k h1 h2 h3 => by
    rcases List.mem_cons.1 h3 with h3 | h3 <;> [exact h1 h3; exact h2 h3]
  unfold mergeEdge
  split
  · rename_i a c ha hc
    split
    · rename_i e' he'
      obtain ⟨m1, m2⟩ := edgeFind_some he'
      refine ⟨h.grow, h.sound, h.vert, h.vlist, h.nv, ?_, ?_⟩
      · intro k hk hkl a' c' ha' hc'
        by_cases hke : k = e
        · subst hke
          rw [ha] at ha'; rw [hc] at hc'; cases ha'; cases hc'
          exact ⟨e', Function.update_self _ _ _, m1, m2⟩
        · obtain ⟨e'', h1, h2, h3⟩ := h.both k hk (ne k hke hkl) a' c' ha' hc'
          exact ⟨e'', by dsimp only; rw [Function.update_of_ne hke]; exact h1, h2, h3⟩
      · intro k hk hkl hm
        by_cases hke : k = e
        · subst hke; rw [ha, hc] at hm; simp at hm
        · dsimp only; rw [Function.update_of_ne hke]; exact h.miss k hk (ne k hke hkl) hm
    · rename_i he'
      obtain ⟨k1, k2, k3, k4⟩ := sound_newEdge h.sound (h.vlist ▸ hvm _ _ ha) (h.vlist ▸ hvm _ _ hc)
      refine ⟨h.grow.trans k2, k1, h.vert, h.vlist, h.nv, ?_, ?_⟩
      · intro k hk hkl a' c' ha' hc'
        by_cases hke : k = e
        · subst hke
          rw [ha] at ha'; rw [hc] at hc'; cases ha'; cases hc'
          exact ⟨_, Function.update_self _ _ _, k3, by dsimp only; rw [k4]; exact Or.inl ⟨rfl, rfl⟩⟩
        · obtain ⟨e'', h1, h2, h3⟩ := h.both k hk (ne k hke hkl) a' c' ha' hc'
          exact ⟨e'', by dsimp only; rw [Function.update_of_ne hke]; exact h1, k2.elist _ h2, by
            dsimp only; rw [k2.edge _ h2]; exact h3⟩
      · intro k hk hkl hm
        by_cases hke : k = e
        · subst hke; rw [ha, hc] at hm; simp at hm
        · dsimp only; rw [Function.update_of_ne hke]; exact h.miss k hk (ne k hke hkl) hm
  · rename_i hnot
    refine ⟨h.grow, h.sound, h.vert, h.vlist, h.nv, ?_, ?_⟩
    · intro k hk hkl a' c' ha' hc'
      by_cases hke : k = e
      · subst hke; exact absurd hc' (hnot a' c' ha')
      · obtain ⟨e'', h1, h2, h3⟩ := h.both k hk (ne k hke hkl) a' c' ha' hc'
        exact ⟨e'', by dsimp only; rw [Function.update_of_ne hke]; exact h1, h2, h3⟩
    · intro k hk hkl hm
      by_cases hke : k = e
      · subst hke; exact Function.update_self _ _ _
      · dsimp only; rw [Function.update_of_ne hke]; exact h.miss k hk (ne k hke hkl) hm

theorem mergeEdges_inv {vm : ℕ → Option ℕ} {t s : BRep} (ht : Sound t) (hs : Sound s)
    (hvm : ∀ i j, vm i = some j → j ∈ t.vlist) :
    MergeInv vm t s (s.elist.foldl (mergeEdge vm s) ⟨t, fun _ => none⟩) [] := by
  have key : ∀ (l : List ℕ) (st : MergeSt), l.Nodup → MergeInv vm t s st l →
      MergeInv vm t s (l.foldl (mergeEdge vm s) st) [] := by
    intro l
    induction l with
    | nil => intro st _ h; exact h
    | cons e l ih =>
      intro st hn h
      rw [List.nodup_cons] at hn
      exact ih _ hn.2 (mergeEdge_inv hvm hn.1 h)
  exact key s.elist _ hs.enodup ⟨.refl t, ht, rfl, rfl, rfl, fun e he hn => absurd he hn,
    fun e he hn => absurd he hn⟩

/-- The pieces of a merged boundary representation. -/
structure Merged (τ : ℝ) (t s m : BRep) : Prop where
  vnodup : m.vlist.Nodup
  enodup : m.elist.Nodup
  vlt : ∀ i ∈ m.vlist, i < m.nv
  elt : ∀ e ∈ m.elist, e < m.ne
  nocut : ∀ e ∈ m.elist, (m.edge e).x = none
  corner : ∀ f ∈ m.flist, ∀ i, f.v i ∈ m.vlist
  mem : ∀ f ∈ m.flist, ∀ i, f.e i ∈ m.elist
  faces : ∃ fs gs, m.flist = fs ++ gs ∧ fs.map (corners m) = t.flist.map (corners t) ∧
    List.Forall₂ (NearTri τ) (gs.map (corners m)) (s.flist.map (corners s))
  verts : ∀ i ∈ m.vlist, (∃ j ∈ t.vlist, m.pos i = t.pos j) ∨
    ∃ j ∈ s.vlist, m.pos i = s.pos j ∧ ∀ k ∈ t.vlist, ¬ Near τ (t.pos k) (s.pos j)
  closed : (∀ e ∈ s.elist, (vmark τ t s (s.edge e).v0).isSome = (vmark τ t s (s.edge e).v1).isSome) → Sound m

theorem merge_ok {τ : ℝ} (hτ : 0 ≤ τ) {t s : BRep} (ht : Sound t) (hs : Sound s) : Merged τ t s (t.merge τ s) := by
  have hvm : ∀ i j, vmark τ t s i = some j → j ∈ t.vlist := fun i j h => (vmark_some h).1
  have inv := mergeEdges_inv ht hs hvm
  unfold merge
  dsimp only
  generalize s.elist.foldl (mergeEdge (vmark τ t s) s) ⟨t, fun _ => none⟩ = st at inv ⊢
  have vn : ∀ i, vmark τ t s i = none → i ∈ s.vlist → ∀ k ∈ t.vlist, ¬ Near τ (t.pos k) (s.pos i) := by
    intro i hi hm
    unfold vmark at hi
    rw [if_pos hm] at hi
    exact vertFind_none hi
  have inj : ∀ a : ℕ, Function.Injective (a + ·) := fun a x y h => Nat.add_left_cancel h
  have vmem : ∀ i, i ∈ st.b.vlist ++ ((s.vlist.reverse.filter fun i => (vmark τ t s i).isNone).map (st.b.nv + ·)) ↔
      i ∈ st.b.vlist ∨ ∃ j ∈ s.vlist, vmark τ t s j = none ∧ st.b.nv + j = i := by
    intro i
    simp only [List.mem_append, List.mem_map, List.mem_filter, List.mem_reverse, Option.isNone_iff_eq_none]
    constructor
    · rintro (h | ⟨j, ⟨h1, h2⟩, h3⟩) <;> [exact Or.inl h; exact Or.inr ⟨j, h1, h2, h3⟩]
    · rintro (h | ⟨j, h1, h2, h3⟩) <;> [exact Or.inl h; exact Or.inr ⟨j, ⟨h1, h2⟩, h3⟩]
  have emem : ∀ i, i ∈ st.b.elist ++ ((s.elist.reverse.filter fun e => (st.mark e).isNone).map (st.b.ne + ·)) ↔
      i ∈ st.b.elist ∨ ∃ j ∈ s.elist, st.mark j = none ∧ st.b.ne + j = i := by
    intro i
    simp only [List.mem_append, List.mem_map, List.mem_filter, List.mem_reverse, Option.isNone_iff_eq_none]
    constructor
    · rintro (h | ⟨j, ⟨h1, h2⟩, h3⟩) <;> [exact Or.inl h; exact Or.inr ⟨j, h1, h2, h3⟩]
    · rintro (h | ⟨j, h1, h2, h3⟩) <;> [exact Or.inl h; exact Or.inr ⟨j, ⟨h1, h2⟩, h3⟩]
  -- corners of a reassigned face
  have vcase : ∀ i ∈ s.vlist, (vmark τ t s i).getD (st.b.nv + i) ∈
      st.b.vlist ++ ((s.vlist.reverse.filter fun i => (vmark τ t s i).isNone).map (st.b.nv + ·)) := by
    intro i hi
    rw [vmem]
    cases h : vmark τ t s i with
    | none => exact Or.inr ⟨i, hi, h, rfl⟩
    | some j => exact Or.inl (inv.vlist ▸ hvm i j h)
  have ecase : ∀ f ∈ s.flist, ∀ i, (st.mark (f.e i)).getD (st.b.ne + f.e i) ∈
      st.b.elist ++ ((s.elist.reverse.filter fun e => (st.mark e).isNone).map (st.b.ne + ·)) := by
    intro f hf i
    rw [emem]
    cases h : st.mark (f.e i) with
    | none => exact Or.inr ⟨f.e i, (hs.side f hf i).1, h, rfl⟩
    | some j =>
      left
      have hm := (hs.side f hf i).1
      cases h0 : vmark τ t s (s.edge (f.e i)).v0 with
      | none => rw [inv.miss _ hm (by simp) (Or.inl h0)] at h; cases h
      | some a =>
        cases h1 : vmark τ t s (s.edge (f.e i)).v1 with
        | none => rw [inv.miss _ hm (by simp) (Or.inr h1)] at h; cases h
        | some c =>
          obtain ⟨e', k1, k2, _⟩ := inv.both _ hm (by simp) a c h0 h1
          rw [h] at k1; cases k1; exact k2
  have nocut : ∀ e ∈ st.b.elist ++ ((s.elist.reverse.filter fun e => (st.mark e).isNone).map (st.b.ne + ·)),
      ((if e < st.b.ne then st.b.edge e else
        ⟨st.b.nv + (s.edge (e - st.b.ne)).v0, st.b.nv + (s.edge (e - st.b.ne)).v1, none⟩ : BEdge)).x = none := by
    intro e he
    rcases (emem e).1 he with he | ⟨j, h1, h2, rfl⟩
    · rw [if_pos (inv.sound.elt e he)]; exact inv.sound.nocut e he
    · rw [if_neg (by omega)]
  have vnodup : (st.b.vlist ++ ((s.vlist.reverse.filter fun i => (vmark τ t s i).isNone).map (st.b.nv + ·))).Nodup := by
    rw [List.nodup_append]
    refine ⟨inv.sound.vnodup, ((List.nodup_reverse.2 hs.vnodup).filter _).map (inj _), ?_⟩
    intro x hx y hy
    obtain ⟨j, hj, rfl⟩ := List.mem_map.1 hy
    have := inv.sound.vlt x hx
    show x ≠ st.b.nv + j
    omega
  have enodup : (st.b.elist ++ ((s.elist.reverse.filter fun e => (st.mark e).isNone).map (st.b.ne + ·))).Nodup := by
    rw [List.nodup_append]
    refine ⟨inv.sound.enodup, ((List.nodup_reverse.2 hs.enodup).filter _).map (inj _), ?_⟩
    intro x hx y hy
    obtain ⟨j, hj, rfl⟩ := List.mem_map.1 hy
    have := inv.sound.elt x hx
    show x ≠ st.b.ne + j
    omega
  have vlt : ∀ i ∈ st.b.vlist ++ ((s.vlist.reverse.filter fun i => (vmark τ t s i).isNone).map (st.b.nv + ·)),
      i < st.b.nv + s.nv := by
    intro i hi
    rcases (vmem i).1 hi with hi | ⟨j, h1, h2, rfl⟩
    · have := inv.sound.vlt i hi; omega
    · have := hs.vlt j h1; omega
  have elt : ∀ i ∈ st.b.elist ++ ((s.elist.reverse.filter fun e => (st.mark e).isNone).map (st.b.ne + ·)),
      i < st.b.ne + s.ne := by
    intro i hi
    rcases (emem i).1 hi with hi | ⟨j, h1, h2, rfl⟩
    · have := inv.sound.elt i hi; omega
    · have := hs.elt j h1; omega
  have oldv : ∀ i ∈ st.b.vlist, i < st.b.nv := inv.sound.vlt
  have cor : ∀ f ∈ st.b.flist ++ s.flist.map (fun f => (⟨fun i => (vmark τ t s (f.v i)).getD (st.b.nv + f.v i),
      fun i => (st.mark (f.e i)).getD (st.b.ne + f.e i)⟩ : BFace)), ∀ i, f.v i ∈
      st.b.vlist ++ ((s.vlist.reverse.filter fun i => (vmark τ t s i).isNone).map (st.b.nv + ·)) := by
    intro f hf i
    rcases List.mem_append.1 hf with hf | hf
    · exact List.mem_append_left _ (inv.sound.corner f hf i)
    · obtain ⟨g, hg, rfl⟩ := List.mem_map.1 hf
      exact vcase _ (hs.corner g hg i)
  have mem : ∀ f ∈ st.b.flist ++ s.flist.map (fun f => (⟨fun i => (vmark τ t s (f.v i)).getD (st.b.nv + f.v i),
      fun i => (st.mark (f.e i)).getD (st.b.ne + f.e i)⟩ : BFace)), ∀ i, f.e i ∈
      st.b.elist ++ ((s.elist.reverse.filter fun e => (st.mark e).isNone).map (st.b.ne + ·)) := by
    intro f hf i
    rcases List.mem_append.1 hf with hf | hf
    · exact List.mem_append_left _ (inv.sound.side f hf i).1
    · obtain ⟨g, hg, rfl⟩ := List.mem_map.1 hf
      exact ecase g hg i
  refine ⟨vnodup, enodup, vlt, elt, nocut, cor, mem, ?_, ?_, ?_⟩
  · refine ⟨_, _, rfl, ?_, ?_⟩
    · rw [inv.grow.flist]
      refine List.map_congr_left fun f hf => ?_
      have hv : ∀ j, f.v j < st.b.nv := fun j => inv.nv ▸ ht.vlt _ (ht.corner f hf j)
      simp only [corners, if_pos (hv _), inv.vert]
    · rw [List.map_map, List.forall₂_map_left_iff, List.forall₂_map_right_iff, List.forall₂_same]
      intro f hf
      have key : ∀ j, Near τ ((if (vmark τ t s (f.v j)).getD (st.b.nv + f.v j) < st.b.nv then
          st.b.vert ((vmark τ t s (f.v j)).getD (st.b.nv + f.v j)) else
          s.vert ((vmark τ t s (f.v j)).getD (st.b.nv + f.v j) - st.b.nv)) : BVert).p (s.vert (f.v j)).p := by
        intro j
        cases h : vmark τ t s (f.v j) with
        | none =>
          simp only [Option.getD_none]
          rw [if_neg (by omega), Nat.add_sub_cancel_left]; exact near_refl hτ _
        | some k =>
          simp only [Option.getD_some]
          obtain ⟨h1, h2⟩ := vmark_some h
          rw [if_pos (inv.nv ▸ ht.vlt k h1), inv.vert]; exact h2
      exact ⟨key 0, key 1, key 2⟩
  · intro i hi
    rcases (vmem i).1 hi with hi | ⟨j, h1, h2, rfl⟩
    · left
      refine ⟨i, inv.vlist ▸ hi, ?_⟩
      simp only [BRep.pos, if_pos (oldv i hi), inv.vert]
    · right
      refine ⟨j, h1, ?_, vn j h2 h1⟩
      simp only [BRep.pos, if_neg (show ¬ st.b.nv + j < st.b.nv by omega), Nat.add_sub_cancel_left]
  · intro hboth
    have mk : ∀ e ∈ s.elist, st.mark e = none → vmark τ t s (s.edge e).v0 = none ∧ vmark τ t s (s.edge e).v1 = none := by
      intro e he hm
      have hb := hboth e he
      cases h0 : vmark τ t s (s.edge e).v0 with
      | none => rw [h0] at hb; exact ⟨rfl, by simpa using hb.symm⟩
      | some a =>
        cases h1 : vmark τ t s (s.edge e).v1 with
        | none => rw [h0, h1] at hb; simp at hb
        | some c =>
          obtain ⟨e', k1, _, _⟩ := inv.both e he (by simp) a c h0 h1
          rw [hm] at k1; cases k1
    refine ⟨vnodup, enodup, vlt, elt, ?_, nocut, cor, ?_⟩
    · intro e he
      rcases (emem e).1 he with he | ⟨j, h1, h2, rfl⟩
      · dsimp only
        rw [if_pos (inv.sound.elt e he)]
        exact ⟨List.mem_append_left _ (inv.sound.ends e he).1, List.mem_append_left _ (inv.sound.ends e he).2⟩
      · dsimp only
        rw [if_neg (by omega), Nat.add_sub_cancel_left]
        obtain ⟨n0, n1⟩ := mk j h1 h2
        exact ⟨(vmem _).2 (Or.inr ⟨_, (hs.ends j h1).1, n0, rfl⟩),
          (vmem _).2 (Or.inr ⟨_, (hs.ends j h1).2, n1, rfl⟩)⟩
    · intro f hf i
      refine ⟨mem f hf i, ?_⟩
      rcases List.mem_append.1 hf with hf | hf
      · dsimp only
        rw [if_pos (inv.sound.elt _ (inv.sound.side f hf i).1)]
        exact (inv.sound.side f hf i).2
      · obtain ⟨g, hg, rfl⟩ := List.mem_map.1 hf
        dsimp only
        obtain ⟨hm, sp⟩ := hs.side g hg i
        cases h : st.mark (g.e i) with
        | none =>
          obtain ⟨n0, n1⟩ := mk _ hm h
          simp only [Option.getD_none]
          rw [if_neg (by omega), Nat.add_sub_cancel_left]
          rcases sp with ⟨h0, h1⟩ | ⟨h0, h1⟩
          · rw [← h0, ← h1, n0, n1]; exact Or.inl ⟨rfl, rfl⟩
          · rw [← h0, ← h1, n0, n1]; exact Or.inr ⟨rfl, rfl⟩
        | some e' =>
          simp only [Option.getD_some]
          cases h0 : vmark τ t s (s.edge (g.e i)).v0 with
          | none => rw [inv.miss _ hm (by simp) (Or.inl h0)] at h; cases h
          | some a =>
            cases h1 : vmark τ t s (s.edge (g.e i)).v1 with
            | none => rw [inv.miss _ hm (by simp) (Or.inr h1)] at h; cases h
            | some c =>
              obtain ⟨e'', k1, k2, k3⟩ := inv.both _ hm (by simp) a c h0 h1
              rw [h] at k1; cases k1
              rw [if_pos (inv.sound.elt _ k2)]
              rcases sp with ⟨g0, g1⟩ | ⟨g0, g1⟩
              · rw [← g0, ← g1, h0, h1]; exact k3
              · rw [← g0, ← g1, h0, h1]; exact SamePair.symm k3

end BRep
end Zeo
