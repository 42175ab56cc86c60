import Verif.Model.Delaunay
import Mathlib.Data.List.Nodup
import Mathlib.Tactic.FinCases

/-! # The triangles as a surface -/

namespace Zeo.Del

theorem f11 (i : Fin 3) : i + 1 + 1 = i + 2 := by revert i; decide
theorem f12 (i : Fin 3) : i + 1 + 2 = i := by revert i; decide
theorem f21 (i : Fin 3) : i + 2 + 1 = i := by revert i; decide
theorem f22 (i : Fin 3) : i + 2 + 2 = i + 1 := by revert i; decide
theorem n01 (i : Fin 3) : i ≠ i + 1 := by revert i; decide
theorem n10 (i : Fin 3) : i + 1 ≠ i := by revert i; decide
theorem n02 (i : Fin 3) : i ≠ i + 2 := by revert i; decide
theorem n20 (i : Fin 3) : i + 2 ≠ i := by revert i; decide
theorem n12 (i : Fin 3) : i + 1 ≠ i + 2 := by revert i; decide
theorem n21 (i : Fin 3) : i + 2 ≠ i + 1 := by revert i; decide
theorem three (i m : Fin 3) : m = i ∨ m = i + 1 ∨ m = i + 2 := by revert i m; decide

theorem first_some {P : Fin 3 → Prop} {j : Fin 3} (h : first P = some j) : P j := by
  unfold first at h
  split at h
  · simp only [Option.some.injEq] at h; subst h; assumption
  · split at h
    · simp only [Option.some.injEq] at h; subst h; assumption
    · split at h
      · simp only [Option.some.injEq] at h; subst h; assumption
      · simp at h

theorem first_uniq {P : Fin 3 → Prop} {j : Fin 3} (hj : P j) (hu : ∀ i, P i → i = j) : first P = some j := by
  cases hf : first P with
  | some m => rw [hu m (first_some hf)]
  | none =>
    exfalso
    unfold first at hf
    split at hf
    · simp at hf
    · split at hf
      · simp at hf
      · split at hf
        · simp at hf
        · fin_cases j <;> contradiction

theorem first_none {P : Fin 3 → Prop} (h : ∀ i, ¬ P i) : first P = none := by
  simp [first, h]

theorem setAdj_v (h : Heap) (t i a s) : (setAdj h t i a s).v = (h s).v := by
  unfold setAdj
  by_cases hs : s = t
  · subst hs; simp
  · simp [hs]

theorem bind_v (h : Heap) (t i a s) : (bind h t i a s).v = (h s).v := by
  unfold bind
  cases a with
  | none => exact setAdj_v ..
  | some b =>
    dsimp only
    cases first (fun j => (setAdj h t i (some b) b).v j = (setAdj h t i (some b) t).v (i + 1)) with
    | none => exact setAdj_v ..
    | some ia => dsimp only; rw [setAdj_v, setAdj_v]

open Classical in
theorem bind_adj (h : Heap) (t i a) (inj : ∀ b, a = some b → Function.Injective (h b).v) (hne : a ≠ some t) (s m) :
    (bind h t i a s).adj m =
      if s = t then (if m = i then a else (h s).adj m)
      else if a = some s ∧ (h s).v m = (h t).v (i + 1) then some t else (h s).adj m := by
  unfold bind
  cases a with
  | none =>
    by_cases hs : s = t
    · subst hs; simp [setAdj, Function.update_apply]
    · simp [setAdj, hs]
  | some b =>
    have hbt : b ≠ t := by rintro rfl; exact hne rfl
    have e1 : ∀ s, (setAdj h t i (some b) s).v = (h s).v := setAdj_v h t i (some b)
    dsimp only
    by_cases hex : ∃ j, (h b).v j = (h t).v (i + 1)
    · obtain ⟨j, hj⟩ := hex
      have hf : first (fun j => (setAdj h t i (some b) b).v j = (setAdj h t i (some b) t).v (i + 1)) = some j := by
        apply first_uniq
        · rw [e1, e1]; exact hj
        · intro k hk; rw [e1, e1, ← hj] at hk; exact inj b rfl hk
      rw [hf]
      dsimp only
      by_cases hs : s = t
      · subst hs; simp [setAdj, Ne.symm hbt, Function.update_apply]
      · by_cases hsb : s = b
        · subst hsb
          simp only [setAdj, hs, Function.update_self, Function.update_apply, if_false, true_and]
          by_cases hm : m = j
          · subst hm; simp [hj]
          · have : (h s).v m ≠ (h t).v (i + 1) := by intro hh; exact hm (inj s rfl (hh.trans hj.symm))
            simp [hm, this]
        · simp [setAdj, hs, hsb, Ne.symm hsb]
    · push Not at hex
      rw [first_none (by intro j; rw [e1, e1]; exact hex j)]
      dsimp only
      by_cases hs : s = t
      · subst hs; simp [setAdj, Function.update_apply]
      · by_cases hsb : s = b
        · subst hsb; simp [setAdj, hs, hex]
        · simp [setAdj, hs, Ne.symm hsb]

/-- The triangles fit together. -/
structure Mesh (h : Heap) (L : List ℕ) (N : ℕ) : Prop where
  nodup : L.Nodup
  vlt : ∀ t ∈ L, ∀ i, (h t).v i < N
  inj : ∀ t ∈ L, Function.Injective (h t).v
  adj : ∀ t ∈ L, ∀ i a, (h t).adj i = some a → a ∈ L ∧ ∃ j, (h a).adj j = some t ∧
    (h a).v j = (h t).v (i + 1) ∧ (h a).v (j + 1) = (h t).v i
  bdry : ∀ t ∈ L, ∀ i, (h t).adj i = none → ∃ m : Fin 3, (h t).v i = m.val ∧ (h t).v (i + 1) = (m + 1).val

/-! ## Exchange of a diagonal -/

open Classical in
theorem flip_v (h : Heap) (t i a ia s) (hta : t ≠ a) :
    (flip h t i a ia s).v =
      if s = a then Function.update (h a).v (ia + 1) ((h t).v (i + 2))
      else if s = t then Function.update (h t).v (i + 1) ((h a).v (ia + 2)) else (h s).v := by
  unfold flip
  rw [bind_v, bind_v]
  by_cases hs : s = a
  · subst hs
    simp only [setVert, Function.update_self, if_true, bind_v]
    rw [Function.update_of_ne hta.symm]
  · simp only [setVert, Function.update_of_ne hs, bind_v, hs, if_false]
    by_cases hst : s = t
    · subst hst; simp
    · simp [hst]

open Classical in
set_option maxHeartbeats 1000000 in
theorem flip_adj (h : Heap) (t i a ia) (hta : t ≠ a)
    (haj : ∀ b, (h a).adj (ia + 1) = some b → b ≠ t ∧ b ≠ a ∧ Function.Injective (h b).v)
    (htj : ∀ b, (h t).adj (i + 1) = some b → b ≠ t ∧ b ≠ a ∧ Function.Injective (h b).v)
    (it : Function.Injective (h t).v) (iA : Function.Injective (h a).v)
    (hp : ∀ m, (h a).v m ≠ (h t).v (i + 2)) (hn : ∀ m, (h t).v m ≠ (h a).v (ia + 2)) (s m) :
    (flip h t i a ia s).adj m =
      if s = t then (if m = i + 1 then some a else if m = i then (h a).adj (ia + 1) else (h t).adj m)
      else if s = a then (if m = ia + 1 then some t else if m = ia then (h t).adj (i + 1) else (h a).adj m)
      else if (h t).adj (i + 1) = some s ∧ (h s).v m = (h t).v (i + 2) then some a
      else if (h a).adj (ia + 1) = some s ∧ (h s).v m = (h a).v (ia + 2) then some t
      else (h s).adj m := by
  have hat := hta.symm
  have v1 : ∀ s, s ≠ t → setVert h t (i + 1) ((h a).v (ia + 2)) s = h s := by
    intro s hs; simp [setVert, hs]
  have v1t : setVert h t (i + 1) ((h a).v (ia + 2)) t = ⟨Function.update (h t).v (i + 1) ((h a).v (ia + 2)), (h t).adj⟩ := by
    simp [setVert]
  unfold flip
  generalize hh1 : setVert h t (i + 1) ((h a).v (ia + 2)) = h1 at *
  generalize hh2 : bind h1 t i ((h a).adj (ia + 1)) = h2
  have w2 : ∀ s, (h2 s).v = (h1 s).v := by intro s; rw [← hh2, bind_v]
  have a2 := bind_adj h1 t i ((h a).adj (ia + 1))
    (by intro b hb; rw [v1 b (haj b hb).1]; exact (haj b hb).2.2) (by intro hb; exact (haj t hb).1 rfl)
  rw [hh2] at a2
  generalize hh3 : bind h2 t (i + 1) (some a) = h3
  have w3 : ∀ s, (h3 s).v = (h1 s).v := by intro s; rw [← hh3, bind_v, w2]
  have a3 := bind_adj h2 t (i + 1) (some a)
    (by intro b hb; simp only [Option.some.injEq] at hb; subst hb; rw [w2, v1 a hat]; exact iA) (by simp [hat])
  rw [hh3] at a3
  generalize hh4 : setVert h3 a (ia + 1) ((h t).v (i + 2)) = h4
  have v4 : ∀ s, s ≠ a → h4 s = h3 s := by intro s hs; rw [← hh4]; simp [setVert, hs]
  have v4a : h4 a = ⟨Function.update (h3 a).v (ia + 1) ((h t).v (i + 2)), (h3 a).adj⟩ := by rw [← hh4]; simp [setVert]
  generalize hh5 : bind h4 a ia ((h t).adj (i + 1)) = h5
  have w5 : ∀ s, (h5 s).v = (h4 s).v := by intro s; rw [← hh5, bind_v]
  have a5 := bind_adj h4 a ia ((h t).adj (i + 1))
    (by intro b hb; rw [v4 b (htj b hb).2.1, w3, v1 b (htj b hb).1]; exact (htj b hb).2.2) (by intro hb; exact (htj a hb).2.1 rfl)
  rw [hh5] at a5
  have a6 := bind_adj h5 a (ia + 1) (some t)
    (by
      intro b hb; simp only [Option.some.injEq] at hb; subst hb; rw [w5, v4 t hta, w3, v1t]
      intro x y hxy
      dsimp only at hxy
      by_cases hx : x = i + 1 <;> by_cases hy : y = i + 1
      · rw [hx, hy]
      · rw [hx, Function.update_self, Function.update_of_ne hy] at hxy; exact absurd hxy.symm (hn y)
      · rw [hy, Function.update_self, Function.update_of_ne hx] at hxy; exact absurd hxy (hn x)
      · rw [Function.update_of_ne hx, Function.update_of_ne hy] at hxy; exact it hxy) (by simp [hta])
  rw [a6 s m]
  have pv : (h4 a).v (ia + 1) = (h t).v (i + 2) := by rw [v4a]; simp
  have nv : (h5 a).v (ia + 1 + 1) = (h a).v (ia + 2) := by
    rw [w5, v4a]
    dsimp only
    rw [f11, Function.update_of_ne (n21 ia), w3, v1 a hat]
  have nv1 : (h1 t).v (i + 1) = (h a).v (ia + 2) := by rw [v1t]; simp
  have pv2 : (h2 t).v (i + 1 + 1) = (h t).v (i + 2) := by
    rw [w2, v1t]; dsimp only; rw [f11, Function.update_of_ne (n21 i)]
  rw [nv]
  by_cases hst : s = t
  · subst hst
    rw [if_neg hta, if_pos rfl]
    by_cases hm : m = i + 1
    · have : (h5 s).v m = (h a).v (ia + 2) := by rw [w5, v4 s hta, w3, hm, nv1]
      rw [if_pos ⟨rfl, this⟩, if_pos hm]
    · have : (h5 s).v m ≠ (h a).v (ia + 2) := by
        rw [w5, v4 s hta, w3, v1t]; dsimp only; rw [Function.update_of_ne hm]; exact hn m
      rw [if_neg (fun h => this h.2), if_neg hm, a5 s m, if_neg hta,
        if_neg (fun h => (htj s h.1).1 rfl), v4 s hta, a3, if_pos rfl, if_neg hm, a2, if_pos rfl, v1t]
  · by_cases hsa : s = a
    · subst hsa
      rw [if_pos rfl, if_neg hst, if_pos rfl, a5 s m, if_pos rfl]
      by_cases hm : m = ia + 1
      · simp [hm]
      · rw [if_neg hm, if_neg hm]
        by_cases hm2 : m = ia
        · simp [hm2]
        · rw [if_neg hm2, if_neg hm2, v4a]
          dsimp only
          rw [a3, if_neg hst, if_neg, a2, if_neg hst, if_neg (fun h => (haj s h.1).2.1 rfl), v1 s hst]
          rw [pv2, w2, v1 s hst]; exact fun h => hp m h.2
    · have x3 : (h3 s).adj m = (h2 s).adj m := by
        rw [a3, if_neg hst, if_neg (fun h => hsa (Option.some.inj h.1).symm)]
      rw [if_neg hsa, if_neg (fun h => hst (Option.some.inj h.1).symm), if_neg hst, if_neg hsa, a5 s m, if_neg hsa, v4 s hsa, w3,
        v1 s hst, pv, x3, a2, if_neg hst, v1 s hst, nv1]

theorem Mesh.index {h : Heap} {L : List ℕ} {N : ℕ} (M : Mesh h L N) {t i a} (ht : t ∈ L) (ha : (h t).adj i = some a)
    (hp : ∀ m, (h a).v m ≠ (h t).v (i + 2)) :
    ∃ ia, findAdj h a t = some ia ∧ (h a).adj ia = some t ∧ (h a).v ia = (h t).v (i + 1) ∧ (h a).v (ia + 1) = (h t).v i := by
  obtain ⟨haL, j, hj, hj1, hj2⟩ := M.adj t ht i a ha
  refine ⟨j, first_uniq hj ?_, hj, hj1, hj2⟩
  intro k hk
  obtain ⟨-, l, hl, hl1, hl2⟩ := M.adj a haL k t hk
  -- the edge of the neighbour does not meet the third vertex
  rcases three i l with rfl | rfl | rfl
  · exact M.inj a haL (by rw [← hl2, ← hj1])
  · exfalso
    rw [f11] at hl2
    exact hp k hl2.symm
  · exfalso
    exact hp (k + 1) hl1.symm

set_option maxHeartbeats 1000000 in
theorem Mesh.flip {h : Heap} {L : List ℕ} {N : ℕ} (M : Mesh h L N) {t i a ia} (ht : t ∈ L) (ha : (h t).adj i = some a)
    (ha' : (h a).adj ia = some t) (h1 : (h a).v ia = (h t).v (i + 1)) (h2 : (h a).v (ia + 1) = (h t).v i)
    (hp : ∀ m, (h a).v m ≠ (h t).v (i + 2)) :
    t ≠ a ∧ (∀ m, (h t).v m ≠ (h a).v (ia + 2)) ∧ Mesh (flip h t i a ia) L N := by
  have haL := (M.adj t ht i a ha).1
  have hta : t ≠ a := by rintro rfl; exact hp _ rfl
  have hat := hta.symm
  have it := M.inj t ht
  have iA := M.inj a haL
  have hn : ∀ m, (h t).v m ≠ (h a).v (ia + 2) := by
    intro m hm
    rcases three i m with rfl | rfl | rfl
    · rw [← h2] at hm; exact n12 ia (iA hm)
    · rw [← h1] at hm; exact n02 ia (iA hm)
    · exact hp _ hm.symm
  have haj : ∀ b, (h a).adj (ia + 1) = some b → b ≠ t ∧ b ≠ a ∧ Function.Injective (h b).v := by
    intro b hb
    obtain ⟨hbL, j, e1, e2, e3⟩ := M.adj a haL _ b hb
    rw [f11] at e2
    refine ⟨?_, ?_, M.inj b hbL⟩
    · rintro rfl; exact hn j e2
    · rintro rfl
      have := iA e2
      subst this
      rw [f21] at e3
      exact n01 ia (iA e3)
  have htj : ∀ b, (h t).adj (i + 1) = some b → b ≠ t ∧ b ≠ a ∧ Function.Injective (h b).v := by
    intro b hb
    obtain ⟨hbL, j, e1, e2, e3⟩ := M.adj t ht _ b hb
    rw [f11] at e2
    refine ⟨?_, ?_, M.inj b hbL⟩
    · rintro rfl
      have := it e2
      subst this
      rw [f21] at e3
      exact n01 i (it e3)
    · rintro rfl; exact hp j e2
  have V := fun s => flip_v h t i a ia s hta
  have A := flip_adj h t i a ia hta haj htj it iA hp hn
  refine ⟨hta, hn, ?_⟩
  generalize Del.flip h t i a ia = h' at V A
  have Vt : (h' t).v = Function.update (h t).v (i + 1) ((h a).v (ia + 2)) := by rw [V, if_neg hta, if_pos rfl]
  have Va : (h' a).v = Function.update (h a).v (ia + 1) ((h t).v (i + 2)) := by rw [V, if_pos rfl]
  have Vs : ∀ s, s ≠ t → s ≠ a → (h' s).v = (h s).v := fun s h1 h2 => by rw [V, if_neg h2, if_neg h1]
  have Vt0 : (h' t).v i = (h t).v i := by rw [Vt, Function.update_of_ne (n01 i)]
  have Vt1 : (h' t).v (i + 1) = (h a).v (ia + 2) := by rw [Vt, Function.update_self]
  have Vt2 : (h' t).v (i + 2) = (h t).v (i + 2) := by rw [Vt, Function.update_of_ne (n21 i)]
  have Va0 : (h' a).v ia = (h t).v (i + 1) := by rw [Va, Function.update_of_ne (n01 ia), h1]
  have Va1 : (h' a).v (ia + 1) = (h t).v (i + 2) := by rw [Va, Function.update_self]
  have Va2 : (h' a).v (ia + 2) = (h a).v (ia + 2) := by rw [Va, Function.update_of_ne (n21 ia)]
  have At0 : (h' t).adj i = (h a).adj (ia + 1) := by rw [A, if_pos rfl, if_neg (n01 i), if_pos rfl]
  have At1 : (h' t).adj (i + 1) = some a := by rw [A, if_pos rfl, if_pos rfl]
  have At2 : (h' t).adj (i + 2) = (h t).adj (i + 2) := by rw [A, if_pos rfl, if_neg (n21 i), if_neg (n20 i)]
  have Aa0 : (h' a).adj ia = (h t).adj (i + 1) := by rw [A, if_neg hat, if_pos rfl, if_neg (n01 ia), if_pos rfl]
  have Aa1 : (h' a).adj (ia + 1) = some t := by rw [A, if_neg hat, if_pos rfl, if_pos rfl]
  have Aa2 : (h' a).adj (ia + 2) = (h a).adj (ia + 2) := by rw [A, if_neg hat, if_pos rfl, if_neg (n21 ia), if_neg (n20 ia)]
  have As := fun s m (h1 : s ≠ t) (h2 : s ≠ a) => by
    have := A s m; rw [if_neg h1, if_neg h2] at this; exact this
  refine ⟨M.nodup, ?_, ?_, ?_, ?_⟩
  · intro s hs m
    by_cases hst : s = t
    · subst hst
      rcases three i m with rfl | rfl | rfl
      · rw [Vt0]; exact M.vlt s hs _
      · rw [Vt1]; exact M.vlt a haL _
      · rw [Vt2]; exact M.vlt s hs _
    · by_cases hsa : s = a
      · subst hsa
        rcases three ia m with rfl | rfl | rfl
        · rw [Va0]; exact M.vlt t ht _
        · rw [Va1]; exact M.vlt t ht _
        · rw [Va2]; exact M.vlt s hs _
      · rw [Vs s hst hsa]; exact M.vlt s hs m
  · intro s hs x y hxy
    by_cases hst : s = t
    · subst hst
      rw [Vt] at hxy
      by_cases hx : x = i + 1 <;> by_cases hy : y = i + 1
      · rw [hx, hy]
      · rw [hx, Function.update_self, Function.update_of_ne hy] at hxy; exact absurd hxy.symm (hn y)
      · rw [hy, Function.update_self, Function.update_of_ne hx] at hxy; exact absurd hxy (hn x)
      · rw [Function.update_of_ne hx, Function.update_of_ne hy] at hxy; exact it hxy
    · by_cases hsa : s = a
      · subst hsa
        rw [Va] at hxy
        by_cases hx : x = ia + 1 <;> by_cases hy : y = ia + 1
        · rw [hx, hy]
        · rw [hx, Function.update_self, Function.update_of_ne hy] at hxy; exact absurd hxy.symm (hp y)
        · rw [hy, Function.update_self, Function.update_of_ne hx] at hxy; exact absurd hxy (hp x)
        · rw [Function.update_of_ne hx, Function.update_of_ne hy] at hxy; exact iA hxy
      · rw [Vs s hst hsa] at hxy; exact M.inj s hs hxy
  · intro s hs m r hr
    by_cases hst : s = t
    · subst hst
      rcases three i m with rfl | rfl | rfl
      · -- the former neighbour of `a`
        rw [At0] at hr
        obtain ⟨hrL, j, e1, e2, e3⟩ := M.adj a haL _ r hr
        obtain ⟨k1, k2, k3⟩ := haj r hr
        refine ⟨hrL, j, ?_, ?_, ?_⟩
        · rw [As r j k1 k2]
          rw [f11] at e2
          rw [if_neg, if_pos ⟨hr, e2⟩]
          rintro ⟨-, hh⟩; rw [e2] at hh; exact hp _ hh
        · rw [Vs r k1 k2, Vt1, e2, f11]
        · rw [Vs r k1 k2, Vt0, e3, h2]
      · rw [At1] at hr
        simp only [Option.some.injEq] at hr; subst hr
        exact ⟨haL, ia + 1, Aa1, by rw [Va1, f11, Vt2], by rw [f11, Va2, Vt1]⟩
      · rw [At2] at hr
        obtain ⟨hrL, j, e1, e2, e3⟩ := M.adj s hs _ r hr
        rw [f21] at e2
        have k2 : r ≠ a := by rintro rfl; exact hp _ e3
        have k1 : r ≠ s := by
          rintro rfl
          have := it e2
          subst this
          exact n12 j (it e3)
        refine ⟨hrL, j, ?_, ?_, ?_⟩
        · rw [As r j k1 k2, if_neg, if_neg, e1]
          · rintro ⟨-, hh⟩; rw [e2] at hh; exact hn _ hh
          · rintro ⟨-, hh⟩; rw [e2] at hh; exact n02 i (it hh)
        · rw [Vs r k1 k2, e2, f21, Vt0]
        · rw [Vs r k1 k2, e3, Vt2]
    · by_cases hsa : s = a
      · subst hsa
        rcases three ia m with rfl | rfl | rfl
        · rw [Aa0] at hr
          obtain ⟨hrL, j, e1, e2, e3⟩ := M.adj t ht _ r hr
          obtain ⟨k1, k2, k3⟩ := htj r hr
          rw [f11] at e2
          refine ⟨hrL, j, ?_, ?_, ?_⟩
          · rw [As r j k1 k2, if_pos ⟨hr, e2⟩]
          · rw [Vs r k1 k2, Va1, e2]
          · rw [Vs r k1 k2, Va0, e3]
        · rw [Aa1] at hr
          simp only [Option.some.injEq] at hr; subst hr
          exact ⟨ht, i + 1, At1, by rw [Vt1, f11, Va2], by rw [f11, Vt2, Va1]⟩
        · rw [Aa2] at hr
          obtain ⟨hrL, j, e1, e2, e3⟩ := M.adj s hs _ r hr
          rw [f21] at e2
          have k1 : r ≠ t := by rintro rfl; exact hn _ e3
          have k2 : r ≠ s := by
            rintro rfl
            have := iA e2
            subst this
            exact n12 j (iA e3)
          refine ⟨hrL, j, ?_, ?_, ?_⟩
          · rw [As r j k1 k2, if_neg, if_neg, e1]
            · rintro ⟨-, hh⟩; rw [e2] at hh; exact n02 ia (iA hh)
            · rintro ⟨-, hh⟩; rw [e2] at hh; exact hp _ hh
          · rw [Vs r k1 k2, e2, f21, Va0, h1]
          · rw [Vs r k1 k2, e3, Va2]
      · rw [As s m hst hsa] at hr
        split at hr
        · rename_i hc
          simp only [Option.some.injEq] at hr; subst hr
          obtain ⟨hrL, j, e1, e2, e3⟩ := M.adj t ht _ s hc.1
          rw [f11] at e2
          have : m = j := M.inj s hs (hc.2.trans e2.symm)
          subst this
          exact ⟨haL, ia, by rw [Aa0]; exact hc.1, by rw [Va0, Vs s hst hsa, e3], by rw [Va1, Vs s hst hsa, e2]⟩
        · rename_i hc1
          split at hr
          · rename_i hc
            simp only [Option.some.injEq] at hr; subst hr
            obtain ⟨hrL, j, e1, e2, e3⟩ := M.adj a haL _ s hc.1
            rw [f11] at e2
            have : m = j := M.inj s hs (hc.2.trans e2.symm)
            subst this
            exact ⟨ht, i, by rw [At0]; exact hc.1, by rw [Vt0, Vs s hst hsa, e3, h2], by rw [Vt1, Vs s hst hsa, e2]⟩
          · rename_i hc2
            obtain ⟨hrL, j, e1, e2, e3⟩ := M.adj s hs m r hr
            refine ⟨hrL, ?_⟩
            rw [Vs s hst hsa]
            by_cases hrt : r = t
            · subst hrt
              rcases three i j with rfl | rfl | rfl
              · rw [ha] at e1; simp only [Option.some.injEq] at e1; exact absurd e1.symm hsa
              · exfalso; apply hc1; rw [f11] at e3; exact ⟨e1, e3.symm⟩
              · rw [f21] at e3
                exact ⟨i + 2, by rw [At2]; exact e1, by rw [Vt2]; exact e2, by rw [f21, Vt0]; exact e3⟩
            · by_cases hra : r = a
              · subst hra
                rcases three ia j with rfl | rfl | rfl
                · rw [ha'] at e1; simp only [Option.some.injEq] at e1; exact absurd e1.symm hst
                · exfalso; apply hc2; rw [f11] at e3; exact ⟨e1, e3.symm⟩
                · rw [f21] at e3
                  exact ⟨ia + 2, by rw [Aa2]; exact e1, by rw [Va2]; exact e2, by rw [f21, Va0, ← h1]; exact e3⟩
              · refine ⟨j, ?_, by rw [Vs r hrt hra]; exact e2, by rw [Vs r hrt hra]; exact e3⟩
                rw [As r j hrt hra, if_neg, if_neg, e1]
                · rintro ⟨q1, q2⟩
                  obtain ⟨-, k, e4, e5, -⟩ := M.adj a haL _ r q1
                  rw [f11] at e5
                  have : k = j := M.inj r hrL (e5.trans q2.symm)
                  subst this
                  rw [e4] at e1; simp only [Option.some.injEq] at e1; exact hsa e1.symm
                · rintro ⟨q1, q2⟩
                  obtain ⟨-, k, e4, e5, -⟩ := M.adj t ht _ r q1
                  rw [f11] at e5
                  have : k = j := M.inj r hrL (e5.trans q2.symm)
                  subst this
                  rw [e4] at e1; simp only [Option.some.injEq] at e1; exact hst e1.symm
  · intro s hs m hr
    by_cases hst : s = t
    · subst hst
      rcases three i m with rfl | rfl | rfl
      · rw [At0] at hr
        have := M.bdry a haL _ hr
        rw [h2, f11] at this
        rw [Vt0, Vt1]; exact this
      · rw [At1] at hr; simp at hr
      · rw [At2] at hr
        have := M.bdry s hs _ hr
        rw [f21] at this
        rw [f21, Vt0, Vt2]; exact this
    · by_cases hsa : s = a
      · subst hsa
        rcases three ia m with rfl | rfl | rfl
        · rw [Aa0] at hr
          have := M.bdry t ht _ hr
          rw [f11] at this
          rw [Va0, Va1]; exact this
        · rw [Aa1] at hr; simp at hr
        · rw [Aa2] at hr
          have := M.bdry s hs _ hr
          rw [f21] at this
          rw [f21, Va0, Va2, ← h1]; exact this
      · rw [As s m hst hsa] at hr
        split at hr
        · simp at hr
        · split at hr
          · simp at hr
          · rw [Vs s hst hsa]; exact M.bdry s hs m hr

end Zeo.Del
