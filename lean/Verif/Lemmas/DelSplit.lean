import Verif.Lemmas.DelMesh

/-! # Three triangles for one -/

namespace Zeo.Del

/-- What `split` leaves. -/
structure Splits (h h' : Heap) (tc p : ℕ) (T : Fin 3 → ℕ) : Prop where
  vT : ∀ k, (h' (T k)).v = Function.update (h tc).v (k + 2) p
  a0 : ∀ k, (h' (T k)).adj k = (h tc).adj k
  a1 : ∀ k, (h' (T k)).adj (k + 1) = some (T (k + 1))
  a2 : ∀ k, (h' (T k)).adj (k + 2) = some (T (k + 2))
  vs : ∀ s, (∀ k, s ≠ T k) → (h' s).v = (h s).v
  s1 : ∀ s, (∀ k, s ≠ T k) → ∀ m k, (h tc).adj k = some s → (h s).v m = (h tc).v (k + 1) → (h' s).adj m = some (T k)
  s2 : ∀ s, (∀ k, s ≠ T k) → ∀ m, (∀ k, ¬ ((h tc).adj k = some s ∧ (h s).v m = (h tc).v (k + 1))) →
    (h' s).adj m = (h s).adj m

set_option maxHeartbeats 2000000 in
theorem splits (h : Heap) (tc p : ℕ) (T : Fin 3 → ℕ) (hT : Function.Injective T) (htc : ∀ k, tc ≠ T k)
    (itc : Function.Injective (h tc).v)
    (hin : ∀ k b, (h tc).adj k = some b → Function.Injective (h b).v ∧ ∀ j, b ≠ T j) :
    Splits h (split h tc p (T 0) (T 1) (T 2)) tc p T := by
  have d01 : T 0 ≠ T 1 := fun e => absurd (hT e) (by decide)
  have d02 : T 0 ≠ T 2 := fun e => absurd (hT e) (by decide)
  have d12 : T 1 ≠ T 2 := fun e => absurd (hT e) (by decide)
  unfold split
  dsimp only
  generalize hc : h tc = c at *
  generalize hh1 : Function.update h (T 0) ⟨![c.v 0, c.v 1, p], ![c.adj 0, some (T 1), some (T 2)]⟩ = h1
  have e1 : ∀ s, s ≠ T 0 → h1 s = h s := by intro s hs; rw [← hh1, Function.update_of_ne hs]
  have e1' : h1 (T 0) = ⟨![c.v 0, c.v 1, p], ![c.adj 0, some (T 1), some (T 2)]⟩ := by rw [← hh1, Function.update_self]
  generalize hh2 : bind h1 (T 0) 0 (c.adj 0) = h2
  have w2 : ∀ s, (h2 s).v = (h1 s).v := by intro s; rw [← hh2, bind_v]
  have a2 := bind_adj h1 (T 0) 0 (c.adj 0) (by intro b hb; rw [e1 b ((hin 0 b hb).2 0)]; exact (hin 0 b hb).1)
    (by intro hb; exact (hin 0 _ hb).2 0 rfl)
  rw [hh2] at a2
  generalize hh3 : Function.update h2 (T 1) ⟨![p, c.v 1, c.v 2], ![some (T 0), c.adj 1, some (T 2)]⟩ = h3
  have e3 : ∀ s, s ≠ T 1 → h3 s = h2 s := by intro s hs; rw [← hh3, Function.update_of_ne hs]
  have e3' : h3 (T 1) = ⟨![p, c.v 1, c.v 2], ![some (T 0), c.adj 1, some (T 2)]⟩ := by rw [← hh3, Function.update_self]
  generalize hh4 : bind h3 (T 1) 1 (c.adj 1) = h4
  have w4 : ∀ s, (h4 s).v = (h3 s).v := by intro s; rw [← hh4, bind_v]
  have a4 := bind_adj h3 (T 1) 1 (c.adj 1)
    (by intro b hb; rw [e3 b ((hin 1 b hb).2 1), w2, e1 b ((hin 1 b hb).2 0)]; exact (hin 1 b hb).1)
    (by intro hb; exact (hin 1 _ hb).2 1 rfl)
  rw [hh4] at a4
  generalize hh5 : Function.update h4 (T 2) ⟨![c.v 0, p, c.v 2], ![some (T 0), some (T 1), c.adj 2]⟩ = h5
  have e5 : ∀ s, s ≠ T 2 → h5 s = h4 s := by intro s hs; rw [← hh5, Function.update_of_ne hs]
  have e5' : h5 (T 2) = ⟨![c.v 0, p, c.v 2], ![some (T 0), some (T 1), c.adj 2]⟩ := by rw [← hh5, Function.update_self]
  have a6 := bind_adj h5 (T 2) 2 (c.adj 2)
    (by intro b hb; rw [e5 b ((hin 2 b hb).2 2), w4, e3 b ((hin 2 b hb).2 1), w2, e1 b ((hin 2 b hb).2 0)]; exact (hin 2 b hb).1)
    (by intro hb; exact (hin 2 _ hb).2 2 rfl)
  have w6 : ∀ s, (bind h5 (T 2) 2 (c.adj 2) s).v = (h5 s).v := fun s => bind_v ..
  generalize bind h5 (T 2) 2 (c.adj 2) = h6 at a6 w6
  have v0 : (h6 (T 0)).v = ![c.v 0, c.v 1, p] := by rw [w6, e5 _ d02, w4, e3 _ d01, w2, e1']
  have v1 : (h6 (T 1)).v = ![p, c.v 1, c.v 2] := by rw [w6, e5 _ d12, w4, e3']
  have v2 : (h6 (T 2)).v = ![c.v 0, p, c.v 2] := by rw [w6, e5']
  have A0 : ∀ m, (h6 (T 0)).adj m = (![c.adj 0, some (T 1), some (T 2)] : Fin 3 → Option ℕ) m := by
    intro m
    rw [a6, if_neg d02, if_neg (fun hh => (hin 2 _ hh.1).2 0 rfl), e5 _ d02, a4, if_neg d01,
      if_neg (fun hh => (hin 1 _ hh.1).2 0 rfl), e3 _ d01, a2, if_pos rfl, e1']
    split
    · rename_i hm; subst hm; rfl
    · rfl
  have A1 : ∀ m, (h6 (T 1)).adj m = (![some (T 0), c.adj 1, some (T 2)] : Fin 3 → Option ℕ) m := by
    intro m
    rw [a6, if_neg d12, if_neg (fun hh => (hin 2 _ hh.1).2 1 rfl), e5 _ d12, a4, if_pos rfl, e3']
    split
    · rename_i hm; subst hm; rfl
    · rfl
  have A2 : ∀ m, (h6 (T 2)).adj m = (![some (T 0), some (T 1), c.adj 2] : Fin 3 → Option ℕ) m := by
    intro m
    rw [a6, if_pos rfl, e5']
    split
    · rename_i hm; subst hm; rfl
    · rfl
  have k1 : (1 : Fin 3) + 1 = 2 := rfl
  have k2 : (2 : Fin 3) + 1 = 0 := rfl
  have k0 : (0 : Fin 3) + 1 = 1 := rfl
  have S : ∀ s, (∀ k, s ≠ T k) → ∀ m, (h6 s).adj m =
      if c.adj 2 = some s ∧ (h s).v m = c.v 0 then some (T 2)
      else if c.adj 1 = some s ∧ (h s).v m = c.v 2 then some (T 1)
      else if c.adj 0 = some s ∧ (h s).v m = c.v 1 then some (T 0) else (h s).adj m := by
    intro s hs m
    rw [a6, if_neg (hs 2), e5 s (hs 2), w4, e3 s (hs 1), w2, e1 s (hs 0), e5', a4, if_neg (hs 1), e3 s (hs 1), w2,
      e1 s (hs 0), e3', a2, if_neg (hs 0), e1 s (hs 0), e1']
    rfl
  refine ⟨?_, ?_, ?_, ?_, ?_, ?_, ?_⟩
  · intro k; fin_cases k
    · show (h6 (T 0)).v = _
      rw [v0]; ext m; fin_cases m <;> simp [hc]
    · show (h6 (T 1)).v = _
      rw [v1]; ext m; fin_cases m <;> simp [hc]
    · show (h6 (T 2)).v = _
      rw [v2]; ext m; fin_cases m <;> simp [hc]
  · intro k; fin_cases k
    · exact (A0 0).trans (by simp [hc])
    · exact (A1 1).trans (by simp [hc])
    · exact (A2 2).trans (by simp [hc])
  · intro k; fin_cases k
    · exact A0 1
    · exact A1 2
    · exact A2 0
  · intro k; fin_cases k
    · exact A0 2
    · exact A1 0
    · exact A2 1
  · intro s hs
    rw [w6, e5 s (hs 2), w4, e3 s (hs 1), w2, e1 s (hs 0)]
  · intro s hs m k hk hv
    rw [hc] at hk hv
    rw [S s hs m]
    have u : ∀ k', (h s).v m = c.v (k' + 1) → k' = k := by
      intro k' hk'
      have := itc (hk'.symm.trans hv)
      exact add_right_cancel this
    fin_cases k
    · rw [if_neg (fun hh => absurd (u 2 hh.2) (by decide)), if_neg (fun hh => absurd (u 1 hh.2) (by decide)), if_pos ⟨hk, hv⟩]; rfl
    · rw [if_neg (fun hh => absurd (u 2 hh.2) (by decide)), if_pos ⟨hk, hv⟩]; rfl
    · rw [if_pos ⟨hk, hv⟩]; rfl
  · intro s hs m hno
    rw [hc] at hno
    have q2 : ¬ (c.adj 2 = some s ∧ (h s).v m = c.v 0) := hno 2
    have q1 : ¬ (c.adj 1 = some s ∧ (h s).v m = c.v 2) := hno 1
    have q0 : ¬ (c.adj 0 = some s ∧ (h s).v m = c.v 1) := hno 0
    rw [S s hs m, if_neg q2, if_neg q1, if_neg q0]

theorem upd_inj {f : Fin 3 → ℕ} (hf : Function.Injective f) (k : Fin 3) {p : ℕ} (hp : ∀ m, f m ≠ p) :
    Function.Injective (Function.update f k p) := by
  intro x y hxy
  by_cases hx : x = k <;> by_cases hy : y = k
  · rw [hx, hy]
  · rw [hx, Function.update_self, Function.update_of_ne hy] at hxy; exact absurd hxy.symm (hp y)
  · rw [hy, Function.update_self, Function.update_of_ne hx] at hxy; exact absurd hxy (hp x)
  · rw [Function.update_of_ne hx, Function.update_of_ne hy] at hxy; exact hf hxy

/-- The triangles after the replacement. -/
theorem mem_split {L : List ℕ} (hL : L.Nodup) {tc : ℕ} {T : Fin 3 → ℕ} {s : ℕ} :
    s ∈ L.erase tc ++ [T 0, T 1, T 2] ↔ (s ∈ L ∧ s ≠ tc) ∨ ∃ k, s = T k := by
  rw [List.mem_append, hL.mem_erase_iff]
  constructor
  · rintro (⟨h1, h2⟩ | h)
    · exact Or.inl ⟨h2, h1⟩
    · simp only [List.mem_cons, List.not_mem_nil, or_false] at h
      rcases h with h | h | h
      · exact Or.inr ⟨0, h⟩
      · exact Or.inr ⟨1, h⟩
      · exact Or.inr ⟨2, h⟩
  · rintro (⟨h1, h2⟩ | ⟨k, hk⟩)
    · exact Or.inl ⟨h2, h1⟩
    · right; subst hk; fin_cases k <;> simp

set_option maxHeartbeats 1000000 in
theorem Mesh.split {h h' : Heap} {L : List ℕ} {N : ℕ} (M : Mesh h L N) {tc : ℕ} (htc : tc ∈ L) {T : Fin 3 → ℕ}
    (hT : Function.Injective T) (hTL : ∀ k, T k ∉ L) (S : Splits h h' tc N T) :
    Mesh h' (L.erase tc ++ [T 0, T 1, T 2]) (N + 1) := by
  have itc := M.inj tc htc
  have hold : ∀ s ∈ L, ∀ k, s ≠ T k := by rintro s hs k rfl; exact hTL k hs
  have hNc : ∀ m, (h tc).v m ≠ N := fun m => (M.vlt tc htc m).ne
  have V0 : ∀ k, (h' (T k)).v k = (h tc).v k := fun k => by rw [S.vT, Function.update_of_ne (n02 k)]
  have V1 : ∀ k, (h' (T k)).v (k + 1) = (h tc).v (k + 1) := fun k => by rw [S.vT, Function.update_of_ne (n12 k)]
  have V2 : ∀ k, (h' (T k)).v (k + 2) = N := fun k => by rw [S.vT, Function.update_self]
  have adjne : ∀ k s, (h tc).adj k = some s → s ≠ tc := by
    rintro k s hs rfl
    obtain ⟨-, j, e1, e2, e3⟩ := M.adj s htc k s hs
    have := itc e2
    subst this
    rw [f11] at e3
    exact n20 k (itc e3)
  refine ⟨?_, ?_, ?_, ?_, ?_⟩
  · rw [List.nodup_append]
    refine ⟨M.nodup.erase _, ?_, ?_⟩
    · have d01 : T 0 ≠ T 1 := fun e => absurd (hT e) (by decide)
      have d02 : T 0 ≠ T 2 := fun e => absurd (hT e) (by decide)
      have d12 : T 1 ≠ T 2 := fun e => absurd (hT e) (by decide)
      simp [d01, d02, d12]
    · intro s hs b hb
      have hs := hold s (List.mem_of_mem_erase hs)
      simp only [List.mem_cons, List.not_mem_nil, or_false] at hb
      rcases hb with rfl | rfl | rfl
      · exact hs 0
      · exact hs 1
      · exact hs 2
  · intro s hs m
    rcases (mem_split M.nodup).1 hs with ⟨hsL, -⟩ | ⟨k, rfl⟩
    · rw [S.vs s (hold s hsL)]; exact (M.vlt s hsL m).trans (Nat.lt_succ_self N)
    · rw [S.vT]
      by_cases hm : m = k + 2
      · rw [hm, Function.update_self]; exact Nat.lt_succ_self N
      · rw [Function.update_of_ne hm]; exact (M.vlt tc htc m).trans (Nat.lt_succ_self N)
  · intro s hs
    rcases (mem_split M.nodup).1 hs with ⟨hsL, -⟩ | ⟨k, rfl⟩
    · rw [S.vs s (hold s hsL)]; exact M.inj s hsL
    · rw [S.vT]; exact upd_inj itc _ hNc
  · intro s hs m r hr
    rcases (mem_split M.nodup).1 hs with ⟨hsL, hstc⟩ | ⟨k, rfl⟩
    · have hsT := hold s hsL
      rw [S.vs s hsT]
      by_cases hex : ∃ k, (h tc).adj k = some s ∧ (h s).v m = (h tc).v (k + 1)
      · obtain ⟨k, hk1, hk2⟩ := hex
        rw [S.s1 s hsT m k hk1 hk2] at hr
        simp only [Option.some.injEq] at hr; subst hr
        obtain ⟨-, j, e1, e2, e3⟩ := M.adj tc htc k s hk1
        have : m = j := M.inj s hsL (hk2.trans e2.symm)
        subst this
        exact ⟨(mem_split M.nodup).2 (Or.inr ⟨k, rfl⟩), k, by rw [S.a0]; exact hk1, by rw [V0, e3], by rw [V1, hk2]⟩
      · push Not at hex
        rw [S.s2 s hsT m (fun k hk => hex k hk.1 hk.2)] at hr
        obtain ⟨hrL, j, e1, e2, e3⟩ := M.adj s hsL m r hr
        have hrtc : r ≠ tc := by rintro rfl; exact hex j e1 e3.symm
        refine ⟨(mem_split M.nodup).2 (Or.inl ⟨hrL, hrtc⟩), j, ?_, ?_, ?_⟩
        · rw [S.s2 r (hold r hrL) j, e1]
          rintro k ⟨q1, q2⟩
          obtain ⟨-, l, e4, e5, -⟩ := M.adj tc htc k r q1
          have : l = j := M.inj r hrL (e5.trans q2.symm)
          subst this
          rw [e4] at e1; simp only [Option.some.injEq] at e1; exact hstc e1.symm
        · rw [S.vs r (hold r hrL)]; exact e2
        · rw [S.vs r (hold r hrL)]; exact e3
    · rcases three k m with rfl | rfl | rfl
      · rw [S.a0] at hr
        obtain ⟨hrL, j, e1, e2, e3⟩ := M.adj tc htc m r hr
        have hrT := hold r hrL
        exact ⟨(mem_split M.nodup).2 (Or.inl ⟨hrL, adjne m r hr⟩), j, S.s1 r hrT j m hr e2, by rw [S.vs r hrT, V1, e2],
          by rw [S.vs r hrT, V0, e3]⟩
      · rw [S.a1] at hr
        simp only [Option.some.injEq] at hr; subst hr
        refine ⟨(mem_split M.nodup).2 (Or.inr ⟨_, rfl⟩), k, ?_, ?_, ?_⟩
        · have := S.a2 (k + 1); rw [f12] at this; exact this
        · have := V2 (k + 1); rw [f12] at this; rw [this, f11, V2]
        · have := V0 (k + 1); rw [this, V1]
      · rw [S.a2] at hr
        simp only [Option.some.injEq] at hr; subst hr
        refine ⟨(mem_split M.nodup).2 (Or.inr ⟨_, rfl⟩), k, ?_, ?_, ?_⟩
        · have := S.a1 (k + 2); rw [f21] at this; exact this
        · have := V1 (k + 2); rw [f21] at this; rw [this, f21, V0]
        · have := V2 (k + 2); rw [f22] at this; rw [this, V2]
  · intro s hs m hr
    rcases (mem_split M.nodup).1 hs with ⟨hsL, hstc⟩ | ⟨k, rfl⟩
    · have hsT := hold s hsL
      rw [S.vs s hsT]
      by_cases hex : ∃ k, (h tc).adj k = some s ∧ (h s).v m = (h tc).v (k + 1)
      · obtain ⟨k, hk1, hk2⟩ := hex
        rw [S.s1 s hsT m k hk1 hk2] at hr; simp at hr
      · push Not at hex
        rw [S.s2 s hsT m (fun k hk => hex k hk.1 hk.2)] at hr
        exact M.bdry s hsL m hr
    · rcases three k m with rfl | rfl | rfl
      · rw [S.a0] at hr
        rw [V0, V1]; exact M.bdry tc htc m hr
      · rw [S.a1] at hr; simp at hr
      · rw [S.a2] at hr; simp at hr

end Zeo.Del
