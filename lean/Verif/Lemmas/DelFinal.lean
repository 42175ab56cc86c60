import Verif.Lemmas.DelMid

/-! # Insertion of a point -/

namespace Zeo.Del
open DelG

variable {pos : ℕ → Vec2 ℝ} {h0 : Heap} {L0 : List ℕ} {tc N : ℕ} {h : Heap} {L : List ℕ}

theorem Mid.ori (M : Mid pos h0 L0 tc N h L []) (G : Good pos h0 L0 N) (hO : Outer pos (N + 1)) (hN : 3 ≤ N) {t : ℕ}
    (ht : t ∈ L) : 0 < O pos (h t) := by
  by_cases hs : ∃ i, (h t).v i = N
  · obtain ⟨i, hi⟩ := hs
    rcases M.leg t ht i hi with q | q | q
    · simp at q
    · have := bdry_pos M.mesh hO hN ht q
      have r := O_rot (pos := pos) (h t) (i + 1)
      rw [f11, f12, hi] at r
      rw [← r]
      rw [f11] at this; exact this
    · exact q.1
  · push Not at hs
    exact M.old_pos G ht hs

/-- Points on a common edge. -/
theorem edge_pt {a b c p : Vec2 ℝ} (hA : 0 < o a b c) (hp : Cl a b c p) (h0 : o a b p = 0) (ha : p ≠ a) (hb : p ≠ b) :
    0 < o b c p ∧ 0 < o c a p ∧ Seg a b p := by
  have sm := o_sum a b c p
  have ex : o a b c * (p.x - a.x) = o c a p * (b.x - a.x) + o a b p * (c.x - a.x) := by simp only [o]; ring
  have ey : o a b c * (p.y - a.y) = o c a p * (b.y - a.y) + o a b p * (c.y - a.y) := by simp only [o]; ring
  have fx : o a b c * (p.x - b.x) = o b c p * (a.x - b.x) + o a b p * (c.x - b.x) := by simp only [o]; ring
  have fy : o a b c * (p.y - b.y) = o b c p * (a.y - b.y) + o a b p * (c.y - b.y) := by simp only [o]; ring
  have h1 : 0 < o b c p := by
    rcases eq_or_lt_of_le hp.2.1 with hz | hz
    · exfalso; apply hb
      rw [← hz, h0] at fx fy
      ext
      · have : o a b c * (p.x - b.x) = 0 := by rw [fx]; ring
        rcases mul_eq_zero.1 this with q | q <;> linarith
      · have : o a b c * (p.y - b.y) = 0 := by rw [fy]; ring
        rcases mul_eq_zero.1 this with q | q <;> linarith
    · exact hz
  have h2 : 0 < o c a p := by
    rcases eq_or_lt_of_le hp.2.2 with hz | hz
    · exfalso; apply ha
      rw [← hz, h0] at ex ey
      ext
      · have : o a b c * (p.x - a.x) = 0 := by rw [ex]; ring
        rcases mul_eq_zero.1 this with q | q <;> linarith
      · have : o a b c * (p.y - a.y) = 0 := by rw [ey]; ring
        rcases mul_eq_zero.1 this with q | q <;> linarith
    · exact hz
  refine ⟨h1, h2, o c a p / o a b c, by positivity, ?_, ?_⟩
  · rw [div_lt_one hA]; linarith
  · rw [h0] at ex ey
    ext
    · show p.x = (1 - o c a p / o a b c) * a.x + o c a p / o a b c * b.x
      field_simp
      linear_combination ex
    · show p.y = (1 - o c a p / o a b c) * a.y + o c a p / o a b c * b.y
      field_simp
      linear_combination ey

theorem Seg.o_pos {u v p n : Vec2 ℝ} (h : Seg u v p) (hA : 0 < o v u n) : 0 < o u n p ∧ 0 < o n v p := by
  obtain ⟨l, l0, l1, rfl⟩ := h
  have e1 : o u n ⟨(1 - l) * u.x + l * v.x, (1 - l) * u.y + l * v.y⟩ = l * o v u n := by simp only [o]; ring
  have e2 : o n v ⟨(1 - l) * u.x + l * v.x, (1 - l) * u.y + l * v.y⟩ = (1 - l) * o v u n := by simp only [o]; ring
  rw [e1, e2]
  exact ⟨mul_pos l0 hA, mul_pos (sub_pos.2 l1) hA⟩

/-- No remaining old triangle contains the new vertex. -/
theorem Mid.visible (M : Mid pos h0 L0 tc N h L []) (G : Good pos h0 L0 N) (hO : Outer pos (N + 1)) (hN : 3 ≤ N)
    (hne : ∀ i < N, pos N ≠ pos i) (htc : tc ∈ L0) (hin : InC pos (h0 tc) (pos N)) {d : ℕ} (hd : d ∈ L)
    (hdN : ∀ i, (h d).v i ≠ N) : ∃ j, o (pos ((h d).v j)) (pos ((h d).v (j + 1))) (pos N) < 0 := by
  by_contra hc
  push Not at hc
  have hO' : Outer pos N := hO.mono (Nat.le_succ N)
  obtain ⟨dL0, dtc, dv⟩ := M.old d hd hdN
  have hdC : InC pos (h0 d) (pos N) := by intro i; rw [← dv]; exact hc i
  have ned : ∀ t ∈ L0, ∀ i, pos N ≠ pos ((h0 t).v i) := fun t ht i => hne _ (G.mesh.vlt t ht i)
  by_cases hstrict : In pos (h0 tc) (pos N)
  · exact dtc (G.disj_cl hO' dL0 htc hdC hstrict)
  · unfold In at hstrict
    push Not at hstrict
    obtain ⟨k, hk⟩ := hstrict
    have hk0 := le_antisymm hk (hin k)
    have rk := O_rot (pos := pos) (h0 tc) k
    have Otc := G.ori tc htc
    have hcl : Cl (pos ((h0 tc).v k)) (pos ((h0 tc).v (k + 1))) (pos ((h0 tc).v (k + 2))) (pos N) := by
      refine ⟨hin k, ?_, ?_⟩
      · have := hin (k + 1); rw [f11] at this; exact this
      · have := hin (k + 2); rw [f21] at this; exact this
    obtain ⟨e1, e2, e3⟩ := edge_pt (by rw [rk]; exact Otc) hcl hk0 (ned tc htc k) (ned tc htc (k + 1))
    -- the neighbour across the edge
    cases hb : (h0 tc).adj k with
    | none =>
      have := bdry_pos G.mesh hO hN htc hb
      linarith
    | some b =>
      obtain ⟨hbL, j, b1, b2, b3⟩ := G.mesh.adj tc htc k b hb
      have rb := O_rot (pos := pos) (h0 b) j
      have Ob := G.ori b hbL
      rw [b2, b3] at rb
      obtain ⟨f1, f2⟩ := e3.o_pos (n := pos ((h0 b).v (j + 2))) (by rw [rb]; exact Ob)
      rcases G.disj_edge hO' dL0 htc hbL hdC b2 b3 e1 e2 (by rw [b3]; exact f1) (by rw [b2]; exact f2) with q | q
      · exact dtc q
      · subst q
        -- the neighbour of `b` in the result
        cases hd' : (h d).adj j with
        | none =>
          have := bdry_pos M.mesh hO hN hd hd'
          rw [dv, b2, b3, o_swap, hk0] at this
          linarith
        | some d' =>
          obtain ⟨hd'L, l, l1, l2, l3⟩ := M.mesh.adj d hd j d' hd'
          rw [dv, b3] at l2
          rw [dv, b2] at l3
          by_cases hs : ∃ m, (h d').v m = N
          · obtain ⟨m, hm⟩ := hs
            have : m = l + 2 := by
              rcases three l m with rfl | rfl | rfl
              · rw [l2] at hm; exact absurd hm (G.mesh.vlt tc htc k).ne
              · rw [l3] at hm; exact absurd hm (G.mesh.vlt tc htc (k + 1)).ne
              · rfl
            subst this
            have r := O_rot (pos := pos) (h d') l
            have := M.ori G hO hN hd'L
            rw [l2, l3, hm, hk0] at r
            linarith
          · push Not at hs
            obtain ⟨q1, q2, q3⟩ := M.old d' hd'L hs
            rw [q3] at l2 l3
            exact q2 (G.uniq hO' q1 htc l2 l3)

/-- Vertices on the circle beyond an edge. -/
noncomputable def beyond (pos : ℕ → Vec2 ℝ) (N : ℕ) (c : Cell) (j : Fin 3) : Finset ℕ :=
  open Classical in
  (Finset.range N).filter fun s => I pos c (pos s) = 0 ∧ o (pos (c.v j)) (pos (c.v (j + 1))) (pos s) < 0

set_option maxHeartbeats 1000000 in
theorem Mid.old_legal (M : Mid pos h0 L0 tc N h L []) (G : Good pos h0 L0 N) (hO : Outer pos (N + 1)) (hN : 3 ≤ N)
    (hne : ∀ i < N, pos N ≠ pos i) (htc : tc ∈ L0) (hin : InC pos (h0 tc) (pos N)) {d : ℕ} (hd : d ∈ L)
    (hdN : ∀ i, (h d).v i ≠ N) : 0 ≤ I pos (h d) (pos N) := by
  classical
  by_contra hcon
  push Not at hcon
  let B := L.toFinset.filter fun d => (∀ i, (h d).v i ≠ N) ∧ I pos (h d) (pos N) < 0
  have hB : B.Nonempty := ⟨d, by simp only [B, Finset.mem_filter, List.mem_toFinset]; exact ⟨hd, hdN, hcon⟩⟩
  obtain ⟨d0, hd0, hmin⟩ := Finset.exists_min_image B (fun d => I pos (h d) (pos N) / O pos (h d)) hB
  -- a step toward the new vertex
  have step : ∀ e ∈ L, (∀ i, (h e).v i ≠ N) → I pos (h e) (pos N) < 0 → ∀ j,
      o (pos ((h e).v j)) (pos ((h e).v (j + 1))) (pos N) < 0 →
      ∃ e' ∈ L, ∃ k, (∀ i, (h e').v i ≠ N) ∧ (h e').v k = (h e).v (j + 1) ∧ (h e').v (k + 1) = (h e).v j ∧
        ∀ s, O pos (h e) * I pos (h e') s = O pos (h e') * I pos (h e) s +
          o (pos ((h e).v j)) (pos ((h e).v (j + 1))) s * I pos (h e) (pos ((h e').v (k + 2))) := by
    intro e he heN hI j hj
    cases ha : (h e).adj j with
    | none => have := bdry_pos M.mesh hO hN he ha; linarith
    | some e' =>
      obtain ⟨he', k, k1, k2, k3⟩ := M.mesh.adj e he j e' ha
      have re := O_rot (pos := pos) (h e) j
      have ie := fun s => I_rot (pos := pos) (h e) j s
      have re' := O_rot (pos := pos) (h e') k
      have ie' := fun s => I_rot (pos := pos) (h e') k s
      rw [k2, k3] at re'
      simp only [k2, k3] at ie'
      refine ⟨e', he', k, ?_, k2, k3, ?_⟩
      · intro i hi
        have hik : i = k + 2 := by
          rcases three k i with rfl | rfl | rfl
          · rw [k2] at hi; exact absurd hi (heN _)
          · rw [k3] at hi; exact absurd hi (heN _)
          · rfl
        subst hik
        rcases M.leg e' he' (k + 2) hi with q | q | ⟨-, q⟩
        · simp at q
        · rw [f21, k1] at q; simp at q
        · have := q e j (by rw [f21, k1]) (by rw [f22, k3]) (by rw [f21, k2])
          rw [← ie', hi, inc_flip, ie] at this
          linarith
      · intro s
        rw [← re, ← re', ← ie, ← ie', ← ie]
        generalize pos ((h e).v j) = u
        generalize pos ((h e).v (j + 1)) = v
        generalize pos ((h e).v (j + 2)) = w
        generalize pos ((h e').v (k + 2)) = n
        have := pencil u v w n s
        rw [inc_swap u v n s, o_swap u v n]
        rw [inc_swap' u v w n] at this
        linarith
  have memB : ∀ e, e ∈ B ↔ e ∈ L ∧ (∀ i, (h e).v i ≠ N) ∧ I pos (h e) (pos N) < 0 := by
    intro e; simp only [B, Finset.mem_filter, List.mem_toFinset]
  -- no triangle with the least power
  have key : ∀ n : ℕ, ∀ e ∈ B, I pos (h e) (pos N) / O pos (h e) = I pos (h d0) (pos N) / O pos (h d0) → ∀ j,
      o (pos ((h e).v j)) (pos ((h e).v (j + 1))) (pos N) < 0 → (beyond pos N (h e) j).card ≤ n → False := by
    intro n
    induction n with
    | zero =>
      intro e he heq j hj hcard
      obtain ⟨heL, heN, hI⟩ := (memB e).1 he
      obtain ⟨e', he', k, heN', k2, k3, hs⟩ := step e heL heN hI j hj
      have Oe := M.ori G hO hN heL
      have Oe' := M.ori G hO hN he'
      have eL0 := (M.old e heL heN)
      have e'L0 := (M.old e' he' heN')
      have lt : (h e').v (k + 2) < N := by rw [e'L0.2.2]; exact G.mesh.vlt e' e'L0.1 _
      have In0 : 0 ≤ I pos (h e) (pos ((h e').v (k + 2))) := by
        have := G.del e eL0.1 _ lt
        simp only [I] at this ⊢
        rw [eL0.2.2]; exact this
      have hp := hs (pos N)
      have hneg : I pos (h e') (pos N) < 0 := by
        have q1 := mul_neg_of_pos_of_neg Oe' hI
        have q2 := mul_nonpos_of_nonpos_of_nonneg hj.le In0
        have : O pos (h e) * I pos (h e') (pos N) < 0 := by rw [hp]; linarith
        by_contra hc
        push Not at hc
        have := mul_nonneg Oe.le hc
        linarith
      have hle := hmin e' ((memB e').2 ⟨he', heN', hneg⟩)
      rw [← heq, div_le_div_iff₀ Oe Oe'] at hle
      have hz : I pos (h e) (pos ((h e').v (k + 2))) = 0 := by
        rcases eq_or_lt_of_le In0 with q | q
        · exact q.symm
        · have := mul_neg_of_neg_of_pos hj q; nlinarith
      have : (h e').v (k + 2) ∈ beyond pos N (h e) j := by
        simp only [beyond, Finset.mem_filter, Finset.mem_range]
        refine ⟨lt, hz, ?_⟩
        have re' := O_rot (pos := pos) (h e') k
        rw [k2, k3, o_swap] at re'
        linarith
      have := Finset.card_pos.2 ⟨_, this⟩
      omega
    | succ n ih =>
      intro e he heq j hj hcard
      obtain ⟨heL, heN, hI⟩ := (memB e).1 he
      obtain ⟨e', he', k, heN', k2, k3, hs⟩ := step e heL heN hI j hj
      have Oe := M.ori G hO hN heL
      have Oe' := M.ori G hO hN he'
      have eL0 := (M.old e heL heN)
      have e'L0 := (M.old e' he' heN')
      have lt : (h e').v (k + 2) < N := by rw [e'L0.2.2]; exact G.mesh.vlt e' e'L0.1 _
      have In0 : 0 ≤ I pos (h e) (pos ((h e').v (k + 2))) := by
        have := G.del e eL0.1 _ lt
        simp only [I] at this ⊢
        rw [eL0.2.2]; exact this
      have hp := hs (pos N)
      have hneg : I pos (h e') (pos N) < 0 := by
        have q1 := mul_neg_of_pos_of_neg Oe' hI
        have q2 := mul_nonpos_of_nonpos_of_nonneg hj.le In0
        have : O pos (h e) * I pos (h e') (pos N) < 0 := by rw [hp]; linarith
        by_contra hc
        push Not at hc
        have := mul_nonneg Oe.le hc
        linarith
      have hle := hmin e' ((memB e').2 ⟨he', heN', hneg⟩)
      rw [← heq, div_le_div_iff₀ Oe Oe'] at hle
      have hz : I pos (h e) (pos ((h e').v (k + 2))) = 0 := by
        rcases eq_or_lt_of_le In0 with q | q
        · exact q.symm
        · have := mul_neg_of_neg_of_pos hj q; nlinarith
      have re' := O_rot (pos := pos) (h e') k
      have ie' := fun s => I_rot (pos := pos) (h e') k s
      have hnb : (h e').v (k + 2) ∈ beyond pos N (h e) j := by
        simp only [beyond, Finset.mem_filter, Finset.mem_range]
        refine ⟨lt, hz, ?_⟩
        rw [k2, k3, o_swap] at re'
        linarith
      obtain ⟨j', hj'⟩ := M.visible G hO hN hne htc hin he' heN'
      apply ih e' ((memB e').2 ⟨he', heN', hneg⟩) ?_ j' hj' ?_
      · rw [← heq, div_eq_div_iff Oe'.ne' Oe.ne']
        rw [hz] at hp
        linarith
      · have hsub : beyond pos N (h e') j' ⊂ beyond pos N (h e) j := by
          have hj'k : j' ≠ k := by
            rintro rfl
            rw [k2, k3, o_swap] at hj'; linarith
          rw [Finset.ssubset_iff_of_subset]
          · refine ⟨_, hnb, ?_⟩
            simp only [beyond, Finset.mem_filter, not_and]
            intro _ _
            rcases three k j' with rfl | rfl | rfl
            · exact absurd rfl hj'k
            · rw [f11, o_self']; exact lt_irrefl _
            · rw [o_self]; exact lt_irrefl _
          · intro s hsm
            simp only [beyond, Finset.mem_filter, Finset.mem_range] at hsm ⊢
            obtain ⟨s1, s2, s3⟩ := hsm
            have hss := hs (pos s)
            rw [s2, hz] at hss
            have s4 : I pos (h e) (pos s) = 0 := by
              have : O pos (h e') * I pos (h e) (pos s) = 0 := by linarith
              exact (mul_eq_zero.1 this).resolve_left Oe'.ne'
            refine ⟨s1, s4, ?_⟩
            by_contra hge
            push Not at hge
            have ies := ie' (pos s)
            rw [s2] at ies
            rw [k2, k3] at ies re'
            rcases three k j' with rfl | rfl | rfl
            · exact hj'k rfl
            · rw [f11, k3] at s3
              have := conv_u (pos ((h e).v j)) (pos ((h e).v (j + 1))) (pos ((h e').v (k + 2))) (pos s)
                (by rw [re']; exact Oe') (by rw [o_swap]; linarith) ies.le
                (by intro e; rw [e, o_self] at s3; exact lt_irrefl _ s3)
              linarith
            · rw [f21, k2] at s3
              have := conv_v (pos ((h e).v j)) (pos ((h e).v (j + 1))) (pos ((h e').v (k + 2))) (pos s)
                (by rw [re']; exact Oe') (by rw [o_swap]; linarith) ies.le
                (by intro e; rw [e, o_self'] at s3; exact lt_irrefl _ s3)
              linarith
        have := Finset.card_lt_card hsub
        omega
  obtain ⟨q1, q2, -⟩ := (memB d0).1 hd0
  obtain ⟨j, hj⟩ := M.visible G hO hN hne htc hin q1 q2
  exact key _ d0 hd0 rfl j hj le_rfl

/-- After legalization the circles are empty. -/
theorem Mid.good (M : Mid pos h0 L0 tc N h L []) (G : Good pos h0 L0 N) (hO : Outer pos (N + 1)) (hN : 3 ≤ N)
    (hne : ∀ i < N, pos N ≠ pos i) (htc : tc ∈ L0) (hin : InC pos (h0 tc) (pos N)) : Good pos h L (N + 1) := by
  refine ⟨M.mesh, fun t ht => M.ori G hO hN ht, ?_, M.cnt⟩
  intro t ht s hs
  by_cases hstar : ∃ i, (h t).v i = N
  · obtain ⟨i, hi⟩ := hstar
    have Ot := M.ori G hO hN ht
    have rt := O_rot (pos := pos) (h t) (i + 1)
    have it := I_rot (pos := pos) (h t) (i + 1) (pos s)
    rw [f11, f12, hi] at rt it
    rw [← it]
    by_cases hsN : s = N
    · subst hsN; rw [inc_c]
    have hs' : s < N := by omega
    by_cases hside : 0 ≤ o (pos ((h t).v (i + 1))) (pos ((h t).v (i + 2))) (pos s)
    · obtain ⟨X, XL, j, x1, x2, x3⟩ := M.wit t ht i hi
      have OX := G.ori X XL
      have dX := G.del X XL s hs'
      have rX := O_rot (pos := pos) (h0 X) j
      have iX := fun s => I_rot (pos := pos) (h0 X) j s
      rw [x1, x2] at rX
      simp only [x1, x2] at iX
      rw [← iX] at dX x3
      have := pencil (pos ((h t).v (i + 1))) (pos ((h t).v (i + 2))) (pos ((h0 X).v (j + 2))) (pos N) (pos s)
      rw [rX, rt, inc_swap' _ _ (pos ((h0 X).v (j + 2))) (pos N)] at this
      have q1 := mul_nonneg Ot.le dX
      have q2 := mul_nonneg hside (neg_nonneg.2 x3)
      by_contra hc
      push Not at hc
      have := mul_neg_of_pos_of_neg OX hc
      linarith
    · push Not at hside
      rcases M.leg t ht i hi with q | q | ⟨-, q⟩
      · simp at q
      · obtain ⟨m, e1, e2⟩ := M.mesh.bdry t ht _ q
        rw [f11] at e2
        rw [e1, e2] at hside
        have := hO.nonneg hs m
        linarith
      · cases ha : (h t).adj (i + 1) with
        | none =>
          obtain ⟨m, e1, e2⟩ := M.mesh.bdry t ht _ ha
          rw [f11] at e2
          rw [e1, e2] at hside
          have := hO.nonneg hs m
          linarith
        | some a =>
          obtain ⟨haL, k, k1, k2, k3⟩ := M.mesh.adj t ht _ a ha
          rw [f11] at k2
          have hl := q a k ha k2 k3
          have hp := M.nolink ht (i := i + 1) (by rw [f12]; exact hi) ha
          obtain ⟨aL0, -, av⟩ := M.old a haL hp
          have Oa := M.ori G hO hN haL
          have da : 0 ≤ I pos (h a) (pos s) := by
            have := G.del a aL0 s hs'
            simp only [I] at this ⊢
            rw [av]; exact this
          have ra := O_rot (pos := pos) (h a) k
          have ia := I_rot (pos := pos) (h a) k (pos s)
          have il := I_rot (pos := pos) (h t) (i + 1) (pos ((h a).v (k + 2)))
          rw [f11, f12, hi] at il
          rw [← il] at hl
          rw [k2, k3] at ra ia
          rw [← ia, inc_swap] at da
          rw [o_swap] at ra
          have := pencil (pos ((h t).v (i + 1))) (pos ((h t).v (i + 2))) (pos ((h a).v (k + 2))) (pos N) (pos s)
          rw [rt] at this
          have q1 := mul_nonneg Ot.le da
          have q2 := mul_neg_of_neg_of_pos hside hl
          by_contra hc
          push Not at hc
          have := mul_nonneg_of_nonpos_of_nonpos (a := o (pos ((h t).v (i + 1))) (pos ((h t).v (i + 2))) (pos ((h a).v (k + 2)))) (by linarith) hc.le
          linarith
  · push Not at hstar
    by_cases hsN : s = N
    · subst hsN; exact M.old_legal G hO hN hne htc hin ht hstar
    · obtain ⟨tL0, -, tv⟩ := M.old t ht hstar
      have := G.del t tL0 s (by omega)
      simp only [I] at this ⊢
      rw [tv]; exact this

end Zeo.Del
