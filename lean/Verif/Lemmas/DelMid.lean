import Verif.Lemmas.DelInv

/-! # Legalization -/

namespace Zeo.Del
open DelG

/-- `p` is between `u` and `v`. -/
def Seg (u v p : Vec2 ℝ) : Prop := ∃ l : ℝ, 0 < l ∧ l < 1 ∧ p = ⟨(1 - l) * u.x + l * v.x, (1 - l) * u.y + l * v.y⟩

theorem Seg.inc_neg {u v p n : Vec2 ℝ} (h : Seg u v p) (hA : 0 < o v u n) : inc v u n p < 0 := by
  obtain ⟨l, l0, l1, rfl⟩ := h
  have e : inc v u n ⟨(1 - l) * u.x + l * v.x, (1 - l) * u.y + l * v.y⟩ =
      -(l * (1 - l) * ((u.x - v.x)^2 + (u.y - v.y)^2) * o v u n) := by simp only [inc, o]; ring
  have hne : 0 < (u.x - v.x)^2 + (u.y - v.y)^2 := by
    by_contra hc
    push Not at hc
    have := eq_of_sq hc
    subst this
    simp [o] at hA
  rw [e]
  have := mul_pos (mul_pos (mul_pos l0 (sub_pos.2 l1)) hne) hA
  linarith

variable (pos : ℕ → Vec2 ℝ)

/-- During legalization around the vertex `N`. -/
structure Mid (h0 : Heap) (L0 : List ℕ) (tc N : ℕ) (h : Heap) (L : List ℕ) (st : List (ℕ × Fin 3)) : Prop where
  mesh : Mesh h L (N + 1)
  old : ∀ t ∈ L, (∀ i, (h t).v i ≠ N) → t ∈ L0 ∧ t ≠ tc ∧ (h t).v = (h0 t).v
  star : ∀ t ∈ L, ∀ i, (h t).v i = N →
    0 ≤ O pos (h t) ∧ (O pos (h t) = 0 → Seg (pos ((h t).v (i + 1))) (pos ((h t).v (i + 2))) (pos N))
  one : ∀ t ∈ L, ∀ s ∈ L, O pos (h t) = 0 → O pos (h s) = 0 → t = s
  wit : ∀ t ∈ L, ∀ i, (h t).v i = N → ∃ s ∈ L0, ∃ j, (h0 s).v j = (h t).v (i + 1) ∧ (h0 s).v (j + 1) = (h t).v (i + 2) ∧
    I pos (h0 s) (pos N) ≤ 0
  leg : ∀ t ∈ L, ∀ i, (h t).v i = N → (t, i + 1) ∈ st ∨ (h t).adj (i + 1) = none ∨
    (0 < O pos (h t) ∧ ∀ a j, (h t).adj (i + 1) = some a → (h a).v j = (h t).v (i + 2) → (h a).v (j + 1) = (h t).v (i + 1) →
      0 < I pos (h t) (pos ((h a).v (j + 2))))
  stk : ∀ q ∈ st, q.1 ∈ L ∧ (h q.1).v (q.2 + 2) = N
  cnt : ∀ x, Gen pos (N + 1) x → (∀ m : Fin 3, 0 < o (pos m.val) (pos (m + 1).val) x) →
    (L.map fun t => D pos (h t) x).sum = 1

open Classical in
/-- Number of triangles without the vertex `N`. -/
noncomputable def oldn (N : ℕ) (h : Heap) (L : List ℕ) : ℕ := (L.map fun s => if ∀ i, (h s).v i ≠ N then 1 else 0).sum

variable {pos}
variable {h0 : Heap} {L0 : List ℕ} {tc N : ℕ} {h : Heap} {L : List ℕ} {st : List (ℕ × Fin 3)}

theorem Mid.old_pos (M : Mid pos h0 L0 tc N h L st) (G : Good pos h0 L0 N) {t : ℕ} (ht : t ∈ L)
    (hn : ∀ i, (h t).v i ≠ N) : 0 < O pos (h t) := by
  obtain ⟨h1, -, h2⟩ := M.old t ht hn
  have := G.ori t h1
  simp only [O] at *
  rw [h2]; exact this

/-- The neighbour across a link edge does not have the new vertex. -/
theorem Mid.nolink (M : Mid pos h0 L0 tc N h L st) {t a : ℕ} {i : Fin 3} (ht : t ∈ L) (hv : (h t).v (i + 2) = N)
    (ha : (h t).adj i = some a) (m : Fin 3) : (h a).v m ≠ N := by
  intro hm
  obtain ⟨haL, j, e1, e2, e3⟩ := M.mesh.adj t ht i a ha
  have it := M.mesh.inj t ht
  have hmj : m = j + 2 := by
    rcases three j m with rfl | rfl | rfl
    · rw [e2, ← hv] at hm; exact absurd (it hm) (n12 i)
    · rw [e3, ← hv] at hm; exact absurd (it hm) (n02 i)
    · rfl
  subst hmj
  have s1 := (M.star t ht (i + 2) hv).1
  have s2 := (M.star a haL (j + 2) hm).1
  have r1 := O_rot (pos := pos) (h t) i
  have r2 := O_rot (pos := pos) (h a) j
  rw [e2, e3, hm, o_swap, ← hv, r1] at r2
  have z1 : O pos (h t) = 0 := by linarith
  have z2 : O pos (h a) = 0 := by linarith
  have := M.one t ht a haL z1 z2
  subst this
  have := it e2
  subst this
  rw [f11] at e3
  exact n20 i (it e3)

/-- The boundary is not visible: edges on it have the new vertex strictly inside. -/
theorem bdry_pos {M : ℕ} (hM : Mesh h L M) (hO : Outer pos (N + 1)) (hN : 3 ≤ N) {t : ℕ} (ht : t ∈ L) {i : Fin 3}
    (ha : (h t).adj i = none) : 0 < o (pos ((h t).v i)) (pos ((h t).v (i + 1))) (pos N) := by
  obtain ⟨m, e1, e2⟩ := hM.bdry t ht i ha
  rw [e1, e2]; exact hO.ins N (Nat.lt_succ_self N) hN m

theorem push_len (h : Heap) (t i) (st : List (ℕ × Fin 3)) : (push h t i st).length ≤ st.length + 1 := by
  unfold push; split <;> simp

theorem mem_push {h : Heap} {t i} {st : List (ℕ × Fin 3)} {q} (hq : q ∈ push h t i st) : q = (t, i) ∨ q ∈ st := by
  unfold push at hq; split at hq
  · exact Or.inr hq
  · simpa using hq

theorem push_mono {h : Heap} {t i} {st : List (ℕ × Fin 3)} {q} (hq : q ∈ st) : q ∈ push h t i st := by
  unfold push; split
  · exact hq
  · simp [hq]

theorem push_self (h : Heap) (t i) (st : List (ℕ × Fin 3)) : (h t).adj i = none ∨ (t, i) ∈ push h t i st := by
  unfold push; split
  · left; assumption
  · simp

set_option maxHeartbeats 2000000 in
theorem Mid.flip (M : Mid pos h0 L0 tc N h L st) (G : Good pos h0 L0 N)
    (hne : ∀ i < N, pos N ≠ pos i) {t a : ℕ} {i ia : Fin 3} {st1 : List (ℕ × Fin 3)} (hst : st = (t, i) :: st1)
    (ht : t ∈ L) (hv : (h t).v (i + 2) = N)
    (ha : (h t).adj i = some a) (ha' : (h a).adj ia = some t) (h1 : (h a).v ia = (h t).v (i + 1))
    (h2 : (h a).v (ia + 1) = (h t).v i) (hleg : 0 < O pos (h t) → I pos (h t) (pos ((h a).v (ia + 2))) ≤ 0) :
    Mid pos h0 L0 tc N (flip h t i a ia) L
      (push (flip h t i a ia) a (ia + 2) (push (flip h t i a ia) t i st1)) ∧
    oldn N (flip h t i a ia) L + 1 = oldn N h L := by
  have hp := M.nolink ht hv ha
  have haL := (M.mesh.adj t ht i a ha).1
  obtain ⟨hta, hn, MF⟩ := M.mesh.flip ht ha ha' h1 h2 (by intro m; rw [hv]; exact hp m)
  have V := fun s => flip_v h t i a ia s hta
  -- the adjacency of the others
  have it := M.mesh.inj t ht
  have iA := M.mesh.inj a haL
  have haj : ∀ b, (h a).adj (ia + 1) = some b → b ≠ t ∧ b ≠ a ∧ Function.Injective (h b).v := by
    intro b hb
    obtain ⟨hbL, j, e1, e2, e3⟩ := M.mesh.adj a haL _ b hb
    rw [f11] at e2
    refine ⟨?_, ?_, M.mesh.inj b hbL⟩
    · rintro rfl; exact hn j e2
    · rintro rfl
      have := iA e2
      subst this
      rw [f21] at e3
      exact n01 ia (iA e3)
  have htj : ∀ b, (h t).adj (i + 1) = some b → b ≠ t ∧ b ≠ a ∧ Function.Injective (h b).v := by
    intro b hb
    obtain ⟨hbL, j, e1, e2, e3⟩ := M.mesh.adj t ht _ b hb
    rw [f11] at e2
    refine ⟨?_, ?_, M.mesh.inj b hbL⟩
    · rintro rfl
      have := it e2
      subst this
      rw [f21] at e3
      exact n01 i (it e3)
    · rintro rfl; rw [hv] at e2; exact hp j e2
  have A := flip_adj h t i a ia hta haj htj it iA (by intro m; rw [hv]; exact hp m) hn
  generalize Del.flip h t i a ia = h' at V A MF
  have Vt : (h' t).v = Function.update (h t).v (i + 1) ((h a).v (ia + 2)) := by rw [V, if_neg hta, if_pos rfl]
  have Va : (h' a).v = Function.update (h a).v (ia + 1) ((h t).v (i + 2)) := by rw [V, if_pos rfl]
  have Vs : ∀ s, s ≠ t → s ≠ a → (h' s).v = (h s).v := fun s h1 h2 => by rw [V, if_neg h2, if_neg h1]
  have Vt0 : (h' t).v i = (h t).v i := by rw [Vt, Function.update_of_ne (n01 i)]
  have Vt1 : (h' t).v (i + 1) = (h a).v (ia + 2) := by rw [Vt, Function.update_self]
  have Vt2 : (h' t).v (i + 2) = N := by rw [Vt, Function.update_of_ne (n21 i), hv]
  have Va0 : (h' a).v ia = (h t).v (i + 1) := by rw [Va, Function.update_of_ne (n01 ia), h1]
  have Va1 : (h' a).v (ia + 1) = N := by rw [Va, Function.update_self, hv]
  have Va2 : (h' a).v (ia + 2) = (h a).v (ia + 2) := by rw [Va, Function.update_of_ne (n21 ia)]
  have As := fun s m (h1 : s ≠ t) (h2 : s ≠ a) => by
    have := A s m; rw [if_neg h1, if_neg h2, hv] at this; exact this
  -- geometry
  obtain ⟨aL0, atc, av⟩ := M.old a haL hp
  have Oa := M.old_pos G haL hp
  have rt := O_rot (pos := pos) (h t) i
  have ra := O_rot (pos := pos) (h a) ia
  have It := I_rot (pos := pos) (h t) i (pos ((h a).v (ia + 2)))
  have Ia := I_rot (pos := pos) (h a) ia (pos N)
  rw [h1, h2] at ra Ia
  rw [hv] at rt It
  have lt0 := M.mesh.vlt t ht i
  have lt1 := M.mesh.vlt t ht (i + 1)
  have ne0 : (h t).v i ≠ N := by rw [← hv]; intro e; exact n02 i (it e)
  have ne1 : (h t).v (i + 1) ≠ N := by rw [← hv]; intro e; exact n12 i (it e)
  have pu : pos N ≠ pos ((h t).v i) := hne _ (by omega)
  have pv : pos N ≠ pos ((h t).v (i + 1)) := hne _ (by omega)
  obtain ⟨st0, stseg⟩ := M.star t ht (i + 2) hv
  rw [f21, f22] at stseg
  have rt1 := O_rot (pos := pos) (h' t) i
  have ra1 := O_rot (pos := pos) (h' a) (ia + 1)
  rw [Vt0, Vt1, Vt2] at rt1
  rw [f11, f12, Va0, Va1, Va2] at ra1
  have Dt := fun x => D_rot (pos := pos) (h t) i x
  have Da := fun x => D_rot (pos := pos) (h a) ia x
  have Dt1 := fun x => D_rot (pos := pos) (h' t) i x
  have Da1 := fun x => D_rot (pos := pos) (h' a) (ia + 1) x
  simp only [Vt0, Vt1, Vt2] at Dt1
  simp only [f11, f12, Va0, Va1, Va2] at Da1
  simp only [hv] at Dt
  simp only [h1, h2] at Da
  have lu : (h t).v i < N := by omega
  have lv : (h t).v (i + 1) < N := by omega
  have ln : (h a).v (ia + 2) < N := by have := M.mesh.vlt a haL (ia + 2); have := hp (ia + 2); omega
  have nuv : pos ((h t).v i) ≠ pos ((h t).v (i + 1)) := by
    intro e; rw [e] at ra; rw [← ra] at Oa; simp [o] at Oa
  have npn := hne _ ln
  have snv : (h a).v (ia + 2) ≠ (h t).v i := by rw [← h2]; intro e; exact n21 ia (iA e)
  have snu : (h a).v (ia + 2) ≠ (h t).v (i + 1) := by rw [← h1]; intro e; exact n20 ia (iA e)
  have jt : ∀ j, (h' t).v j = N → j = i + 2 := fun j hj => MF.inj t ht (hj.trans Vt2.symm)
  have ja : ∀ j, (h' a).v j = N → j = ia + 1 := fun j hj => MF.inj a haL (hj.trans Va1.symm)
  have wa1 : (h0 a).v (ia + 1) = (h t).v i := by rw [← av, h2]
  have wa2 : (h0 a).v (ia + 2) = (h a).v (ia + 2) := by rw [← av]
  have wa0 : (h0 a).v ia = (h t).v (i + 1) := by rw [← av, h1]
  have wI : I pos (h0 a) (pos N) = I pos (h a) (pos N) := by simp only [I, av]
  generalize huu : (h t).v i = U at *
  generalize hvv : (h t).v (i + 1) = W at *
  generalize hnn : (h a).v (ia + 2) = X at *
  have W1 : inc (pos W) (pos U) (pos X) (pos N) ≤ 0 := by
    rcases eq_or_lt_of_le st0 with hz | hz
    · exact ((stseg hz.symm).inc_neg (by rw [ra]; exact Oa)).le
    · have := hleg hz
      rw [← It, ← inc_flip] at this; exact this
  have hb : o (pos W) (pos U) (pos N) ≤ 0 := by rw [o_swap, rt]; linarith
  have c1 := conv_u (pos U) (pos W) (pos X) (pos N) (by rw [ra]; exact Oa) hb W1 pu
  have c2 := conv_v (pos U) (pos W) (pos X) (pos N) (by rw [ra]; exact Oa) hb W1 pv
  have Ot' : 0 < O pos (h' t) := by rw [← rt1]; exact c1
  have Oa' : 0 < O pos (h' a) := by
    rw [← ra1]
    have : o (pos N) (pos X) (pos W) = o (pos X) (pos W) (pos N) := (o_cyc _ _ _).symm
    rw [this]; exact c2
  have Os : ∀ s, s ≠ t → s ≠ a → O pos (h' s) = O pos (h s) := by
    intro s k1 k2; simp only [O, Vs s k1 k2]
  refine ⟨⟨MF, ?_, ?_, ?_, ?_, ?_, ?_, ?_⟩, ?_⟩
  · -- old
    intro s hs hsN
    have hst : s ≠ t := by rintro rfl; exact hsN _ Vt2
    have hsa : s ≠ a := by rintro rfl; exact hsN _ Va1
    rw [Vs s hst hsa] at hsN ⊢
    exact M.old s hs hsN
  · intro s hs j hj
    by_cases hst : s = t
    · subst hst; exact ⟨Ot'.le, fun e => absurd e Ot'.ne'⟩
    · by_cases hsa : s = a
      · subst hsa; exact ⟨Oa'.le, fun e => absurd e Oa'.ne'⟩
      · rw [Os s hst hsa, Vs s hst hsa]
        rw [Vs s hst hsa] at hj
        exact M.star s hs j hj
  · intro s hs r hr e1 e2
    have s1 : s ≠ t := by rintro rfl; exact Ot'.ne' e1
    have s2 : s ≠ a := by rintro rfl; exact Oa'.ne' e1
    have r1 : r ≠ t := by rintro rfl; exact Ot'.ne' e2
    have r2 : r ≠ a := by rintro rfl; exact Oa'.ne' e2
    rw [Os s s1 s2] at e1
    rw [Os r r1 r2] at e2
    exact M.one s hs r hr e1 e2
  · intro s hs j hj
    by_cases hst : s = t
    · subst hst
      have := jt j hj; subst this
      refine ⟨a, aL0, ia + 1, ?_, ?_, ?_⟩
      · rw [f21, Vt0, wa1]
      · rw [f11, f22, Vt1, wa2]
      · rw [wI, ← Ia]; exact W1
    · by_cases hsa : s = a
      · subst hsa
        have := ja j hj; subst this
        refine ⟨s, aL0, ia + 2, ?_, ?_, ?_⟩
        · rw [f11, Va2, wa2]
        · rw [f21, f12, Va0, wa0]
        · rw [wI, ← Ia]; exact W1
      · rw [Vs s hst hsa] at hj ⊢
        exact M.wit s hs j hj
  · intro s hs j hj
    by_cases hst' : s = t
    · subst hst'
      have := jt j hj; subst this
      rw [f21]
      rcases push_self h' s i st1 with q | q
      · exact Or.inr (Or.inl q)
      · exact Or.inl (push_mono q)
    · by_cases hsa : s = a
      · subst hsa
        have := ja j hj; subst this
        rw [f11]
        rcases push_self h' s (ia + 2) (push h' t i st1) with q | q
        · exact Or.inr (Or.inl q)
        · exact Or.inl q
      · rw [Vs s hst' hsa] at hj
        have is := M.mesh.inj s hs
        have snn := (M.star s hs j hj).1
        have rs := O_rot (pos := pos) (h s) (j + 1)
        rw [f11, f12, hj] at rs
        -- the link edge of another cell is not an edge of the exchanged ones
        have x1 : ¬ ((h s).v (j + 1) = X ∧ (h s).v (j + 2) = U) := by
          rintro ⟨q1, q2⟩
          rw [q1, q2, o_swap] at rs; linarith
        have x2 : ¬ ((h s).v (j + 1) = W ∧ (h s).v (j + 2) = X) := by
          rintro ⟨q1, q2⟩
          rw [q1, q2, o_swap] at rs; linarith
        have hadj : (h' s).adj (j + 1) = (h s).adj (j + 1) := by
          rw [As s (j + 1) hst' hsa, if_neg, if_neg]
          · rintro ⟨q1, q2⟩
            obtain ⟨-, k, e1, e2, e3⟩ := M.mesh.adj a haL _ s q1
            rw [f11, hnn] at e2
            have : j + 1 = k := is (q2.trans e2.symm)
            subst this
            rw [f11, h2] at e3
            exact x1 ⟨q2, e3⟩
          · rintro ⟨-, q2⟩; rw [← hj] at q2; exact n10 j (is q2)
        rcases M.leg s hs j hj with q | q | ⟨q1, q2⟩
        · left
          rw [hst] at q
          rcases List.mem_cons.1 q with q | q
          · exact absurd (congrArg Prod.fst q) hst'
          · exact push_mono (push_mono q)
        · right; left; rw [hadj]; exact q
        · right; right
          refine ⟨by rw [Os s hst' hsa]; exact q1, fun b k hb k1 k2 => ?_⟩
          rw [hadj] at hb
          have hIs : ∀ y, I pos (h' s) y = I pos (h s) y := by intro y; simp only [I, Vs s hst' hsa]
          have hb1 : b ≠ t := by
            rintro rfl
            obtain ⟨-, l, e1, e2, e3⟩ := M.mesh.adj s hs _ b hb
            rw [f11] at e2
            have : l = i := by
              rcases three i l with rfl | rfl | rfl
              · rfl
              · exfalso; rw [f11, hv, ← hj] at e3; exact n01 j (is e3)
              · exfalso; rw [hv, ← hj] at e2; exact n02 j (is e2)
            subst this
            rw [ha] at e1; simp only [Option.some.injEq] at e1; exact hsa e1.symm
          have hb2 : b ≠ a := by
            rintro rfl
            obtain ⟨-, l, e1, e2, e3⟩ := M.mesh.adj s hs _ b hb
            rw [f11] at e2
            rcases three ia l with rfl | rfl | rfl
            · rw [ha'] at e1; simp only [Option.some.injEq] at e1; exact hst' e1.symm
            · rw [f11, hnn] at e3; rw [h2] at e2; exact x1 ⟨e3.symm, e2.symm⟩
            · rw [f21, h1] at e3; rw [hnn] at e2; exact x2 ⟨e3.symm, e2.symm⟩
          rw [Vs b hb1 hb2, Vs s hst' hsa] at k1 k2
          rw [Vs b hb1 hb2, hIs]
          exact q2 b k hb k1 k2
  · intro q hq
    rcases mem_push hq with rfl | hq
    · exact ⟨haL, by rw [f22]; exact Va1⟩
    · rcases mem_push hq with rfl | hq
      · exact ⟨ht, Vt2⟩
      · obtain ⟨q1, q2⟩ := M.stk q (by rw [hst]; exact List.mem_cons_of_mem _ hq)
        refine ⟨q1, ?_⟩
        by_cases q3 : q.1 = t
        · rw [q3] at q2 ⊢
          have : q.2 + 2 = i + 2 := it (q2.trans hv.symm)
          rw [this]; exact Vt2
        · have q4 : q.1 ≠ a := by intro e; rw [e] at q2; exact hp _ q2
          rw [Vs _ q3 q4]; exact q2
  · intro x gx ox
    rw [← M.cnt x gx ox]
    have := sum_two (k := 0) M.mesh.nodup ht haL hta (f := fun t => D pos (h' t) x) (g := fun t => D pos (h t) x)
      (by intro s _ k1 k2; simp only [D, Vs s k1 k2])
      (by
        show D pos (h' t) x + D pos (h' a) x = D pos (h t) x + D pos (h a) x + 0
        rw [← Dt, ← Da, ← Dt1, ← Da1]
        have := ind_flip (u := pos U) (v := pos W) (p := pos N) (n := pos X) (x := x) (by rw [rt]; exact st0) (by rw [ra]; exact Oa)
          c1 c2 (gx _ (by omega) _ (by omega) nuv) (gx _ (by omega) _ (by omega) npn.symm)
        rw [this, ← ind_cyc (pos N) (pos X) (pos W)]; rfl)
    exact this
  · have := sum_two (k := 1) M.mesh.nodup ht haL hta (f := fun s => if ∀ i, (h s).v i ≠ N then 1 else 0)
      (g := fun s => if ∀ i, (h' s).v i ≠ N then 1 else 0)
      (by intro s _ k1 k2; simp only [Vs s k1 k2])
      (by
        have a1 : ¬ ∀ i, (h t).v i ≠ N := fun hh => hh _ hv
        have a2 : ¬ ∀ i, (h' t).v i ≠ N := fun hh => hh _ Vt2
        have a3 : ¬ ∀ i, (h' a).v i ≠ N := fun hh => hh _ Va1
        simp only [if_neg a1, if_neg a2, if_neg a3, if_pos hp])
    exact this.symm

theorem Mid.step (M : Mid pos h0 L0 tc N h L st) (G : Good pos h0 L0 N)
    (hne : ∀ i < N, pos N ≠ pos i) {t : ℕ} {i : Fin 3} {st1 : List (ℕ × Fin 3)} (hst : st = (t, i) :: st1) :
    ∃ h' st', legalizeOne pos h t i st1 = some (h', st') ∧ Mid pos h0 L0 tc N h' L st' ∧
      st'.length + 2 * oldn N h' L < st.length + 2 * oldn N h L := by
  obtain ⟨ht, hv⟩ := M.stk (t, i) (by rw [hst]; exact List.mem_cons_self)
  dsimp only at ht hv
  have it := M.mesh.inj t ht
  -- one pair less
  have drop : ((h t).adj i = none ∨ (0 < O pos (h t) ∧ ∀ a j, (h t).adj i = some a → (h a).v j = (h t).v (i + 1) →
      (h a).v (j + 1) = (h t).v i → 0 < I pos (h t) (pos ((h a).v (j + 2))))) → Mid pos h0 L0 tc N h L st1 := by
    intro hd
    refine ⟨M.mesh, M.old, M.star, M.one, M.wit, ?_, fun q hq => M.stk q (by rw [hst]; exact List.mem_cons_of_mem _ hq), M.cnt⟩
    intro s hs j hj
    rcases M.leg s hs j hj with q | q
    · rw [hst] at q
      rcases List.mem_cons.1 q with q | q
      · simp only [Prod.mk.injEq] at q
        obtain ⟨rfl, rfl⟩ := q
        rw [f11] at hd
        exact Or.inr hd
      · exact Or.inl q
    · exact Or.inr q
  unfold legalizeOne
  cases ha : (h t).adj i with
  | none =>
    exact ⟨h, st1, rfl, drop (Or.inl ha), by rw [hst]; simp⟩
  | some a =>
    have hp := M.nolink ht hv ha
    have haL := (M.mesh.adj t ht i a ha).1
    obtain ⟨ia, hf, ha', h1, h2⟩ := M.mesh.index ht ha (by intro m; rw [hv]; exact hp m)
    simp only [hf]
    by_cases hl : legal pos (h t) ((h a).v (ia + 2))
    · rw [if_pos hl]
      refine ⟨h, st1, rfl, drop (Or.inr ?_), by rw [hst]; simp⟩
      have Op : 0 < O pos (h t) := by
        rcases eq_or_lt_of_le (M.star t ht (i + 2) hv).1 with hz | hz
        · exact absurd hl (not_legal pos (h t) _ hz.symm)
        · exact hz
      refine ⟨Op, ?_⟩
      intro b j hb q1 q2
      rw [ha] at hb; simp only [Option.some.injEq] at hb; subst hb
      have : j = ia := M.mesh.inj a haL (q1.trans h1.symm)
      subst this
      exact (legal_iff pos (h t) _ Op).1 hl
    · rw [if_neg hl]
      obtain ⟨F1, F2⟩ := M.flip G hne hst ht hv ha ha' h1 h2 (by
        intro Op
        rw [legal_iff pos (h t) _ Op] at hl
        exact not_lt.1 hl)
      refine ⟨_, _, rfl, F1, ?_⟩
      have l1 := push_len (Del.flip h t i a ia) a (ia + 2) (push (Del.flip h t i a ia) t i st1)
      have l2 := push_len (Del.flip h t i a ia) t i st1
      rw [hst, List.length_cons]
      omega

/-- Legalization ends. -/
theorem Mid.legalize (G : Good pos h0 L0 N) (hne : ∀ i < N, pos N ≠ pos i) (fuel : ℕ) :
    ∀ h st, Mid pos h0 L0 tc N h L st → st.length + 2 * oldn N h L ≤ fuel →
      ∃ h', Del.legalize pos fuel h st = some h' ∧ Mid pos h0 L0 tc N h' L [] := by
  induction fuel with
  | zero =>
    intro h st M hf
    have : st = [] := List.length_eq_zero_iff.1 (by omega)
    subst this
    exact ⟨h, by simp [Del.legalize], M⟩
  | succ n ih =>
    intro h st M hf
    cases st with
    | nil => exact ⟨h, by simp [Del.legalize], M⟩
    | cons q st1 =>
      obtain ⟨t, i⟩ := q
      obtain ⟨h', st', e, M', hm⟩ := M.step G hne rfl
      obtain ⟨h'', e2, M''⟩ := ih h' st' M' (by omega)
      exact ⟨h'', by rw [Del.legalize, e]; exact e2, M''⟩

end Zeo.Del
