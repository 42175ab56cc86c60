import Verif.Lemmas.DelEnd
import Verif.Lemmas.VorLoop
import Mathlib.Data.Prod.Lex
import Mathlib.Data.Finset.Max

/-! # The triangles around a vertex -/

namespace Zeo.Del
open DelG Filter Topology

variable {pos : ℕ → Vec2 ℝ} {h : Heap} {L : List ℕ} {N : ℕ}

/-- The vertex is a corner of the triangle. -/
def At (h : Heap) (p t : ℕ) : Prop := ∃ i, (h t).v i = p

theorem Mesh.at_adj (M : Mesh h L N) {p t : ℕ} (hp : 3 ≤ p) (ht : t ∈ L) {i : Fin 3} (hi : (h t).v i = p) :
    ∃ a, (h t).adj i = some a := by
  cases ha : (h t).adj i with
  | some a => exact ⟨a, rfl⟩
  | none =>
    obtain ⟨m, hm, -⟩ := M.bdry t ht i ha
    have := m.isLt
    omega

theorem Mesh.at_next (M : Mesh h L N) {p t a : ℕ} (ht : t ∈ L) {i : Fin 3} (hi : (h t).v i = p)
    (ha : (h t).adj i = some a) : a ∈ L ∧ ∃ k, (h a).v k = p ∧ (h a).v (k + 2) = (h t).v (i + 1) := by
  obtain ⟨h1, j, -, h2, h3⟩ := M.adj t ht i a ha
  exact ⟨h1, j + 1, h3.trans hi, by rw [f12]; exact h2⟩

/-- The inner product with the direction. -/
noncomputable def ca (u w : Vec2 ℝ) : ℝ := u.x * w.x + u.y * w.y
/-- The outer product with the direction. -/
noncomputable def cb (u w : Vec2 ℝ) : ℝ := u.x * w.y - u.y * w.x

open Classical in
/-- The angle from a direction, up to order. -/
noncomputable def key (u w : Vec2 ℝ) : ℕ ×ₗ ℝ :=
  if 0 < cb u w then toLex (0, -ca u w / cb u w) else if cb u w = 0 then toLex (1, 0) else toLex (2, -ca u w / cb u w)

theorem key_lt {u w1 w2 : Vec2 ℝ} (hu : 0 < u.x ^ 2 + u.y ^ 2) (hw : 0 < cb w1 w2) (hn : 0 < cb u w1 ∨ cb u w2 < 0) :
    key u w1 < key u w2 := by
  have e : ca u w1 * cb u w2 - cb u w1 * ca u w2 = (u.x ^ 2 + u.y ^ 2) * cb w1 w2 := by simp only [ca, cb]; ring
  have e0 := mul_pos hu hw
  unfold key
  by_cases h1 : 0 < cb u w1
  · rw [if_pos h1]
    by_cases h2 : 0 < cb u w2
    · rw [if_pos h2, Prod.Lex.toLex_lt_toLex]
      right
      refine ⟨rfl, ?_⟩
      show -ca u w1 / cb u w1 < -ca u w2 / cb u w2
      rw [div_lt_div_iff₀ h1 h2]
      linarith
    · rw [if_neg h2]
      split
      · rw [Prod.Lex.toLex_lt_toLex]; left; exact Nat.zero_lt_one
      · rw [Prod.Lex.toLex_lt_toLex]; left; exact Nat.zero_lt_two
  · have h2 : cb u w2 < 0 := hn.resolve_left h1
    rw [if_neg h1, if_neg (not_lt.2 h2.le), if_neg h2.ne]
    split
    · rw [Prod.Lex.toLex_lt_toLex]; left; exact Nat.one_lt_two
    · rename_i h3
      have h1' : cb u w1 < 0 := lt_of_le_of_ne (not_lt.1 h1) h3
      rw [Prod.Lex.toLex_lt_toLex]
      right
      refine ⟨rfl, ?_⟩
      show -ca u w1 / cb u w1 < -ca u w2 / cb u w2
      rw [← neg_div_neg_eq, ← neg_div_neg_eq (-ca u w2), div_lt_div_iff₀ (by linarith) (by linarith)]
      linarith

/-- A set of triangles around a vertex closed under the step to the next one is the whole star. -/
theorem Good.star_trans (G : Good pos h L N) (hO : Outer pos N) {p : ℕ} (C : ℕ → Prop)
    (hne : ∃ t, C t) (hC : ∀ t, C t → t ∈ L ∧ At h p t)
    (hs : ∀ t, C t → ∃ i a, (h t).v i = p ∧ (h t).adj i = some a ∧ C a) {t : ℕ} (ht : t ∈ L) (hpt : At h p t) : C t := by
  classical
  by_contra hct
  obtain ⟨it, hit⟩ := hpt
  have Ot := G.ori t ht
  rw [← O_rot _ it, hit] at Ot
  generalize hP : pos p = P at Ot
  set A := pos ((h t).v (it + 1)) with hA
  set B := pos ((h t).v (it + 2)) with hB
  let u : Vec2 ℝ := ⟨A.x - P.x + (B.x - P.x), A.y - P.y + (B.y - P.y)⟩
  have hu : 0 < u.x ^ 2 + u.y ^ 2 := by
    by_contra hcon
    have h1 : u.x = 0 := by nlinarith [sq_nonneg u.x, sq_nonneg u.y]
    have h2 : u.y = 0 := by nlinarith [sq_nonneg u.x, sq_nonneg u.y]
    have : o P A B = (A.x - P.x) * u.y - (A.y - P.y) * u.x := by simp only [o, u]; ring
    rw [h1, h2] at this
    linarith
  -- the direction is inside the triangle
  have hin : ∀ᶠ ε in 𝓝[>] (0 : ℝ), In pos (h t) (stp P u ε) := by
    have e1 : 0 < o A B P := by rw [o_cyc]; exact Ot
    filter_upwards [ev_pos u e1, self_mem_nhdsWithin] with ε q1 q2
    have q2 : 0 < ε := q2
    intro m
    rcases three it m with rfl | rfl | rfl
    · rw [hit, hP]
      have : o P A (stp P u ε) = ε * o P A B := by simp only [o, stp, u]; ring
      rw [← hA, this]; exact mul_pos q2 Ot
    · rw [f11]; exact q1
    · rw [f21, hit, hP]
      have : o B P (stp P u ε) = ε * o P A B := by simp only [o, stp, u]; ring
      rw [← hB, this]; exact mul_pos q2 Ot
  -- the other triangles do not have it
  have hout : ∀ s, C s → ∀ i, (h s).v i = p → 0 < cb u ((pos ((h s).v (i + 1))).sub P) ∨ cb u ((pos ((h s).v (i + 2))).sub P) < 0 := by
    intro s hCs i hi
    by_contra hcon
    push Not at hcon
    have hsL := (hC s hCs).1
    have Os := G.ori s hsL
    rw [← O_rot _ i, hi, hP] at Os
    have e1 : 0 < o (pos ((h s).v (i + 1))) (pos ((h s).v (i + 2))) P := by rw [o_cyc]; exact Os
    obtain ⟨ε, q1, q2, q3⟩ := (hin.and ((ev_pos u e1).and self_mem_nhdsWithin)).exists
    have q3 : 0 < ε := q3
    have : s = t := by
      refine G.disj_cl hO hsL ht (y := stp P u ε) ?_ q1
      intro m
      rcases three i m with rfl | rfl | rfl
      · rw [hi, hP]
        have : o P (pos ((h s).v (m + 1))) (stp P u ε) = -(ε * cb u ((pos ((h s).v (m + 1))).sub P)) := by
          simp only [o, stp, cb, Vec2.sub]; ring
        rw [this]
        have := mul_nonneg q3.le (neg_nonneg.2 hcon.1)
        linarith
      · rw [f11]; exact q2.le
      · rw [f21, hi, hP]
        have : o (pos ((h s).v (i + 2))) P (stp P u ε) = ε * cb u ((pos ((h s).v (i + 2))).sub P) := by
          simp only [o, stp, cb, Vec2.sub]; ring
        rw [this]
        exact mul_nonneg q3.le hcon.2
    exact hct (this ▸ hCs)
  choose! idx nxt hi ha hCn using hs
  -- the least angle
  have hfin : (L.toFinset.filter C).Nonempty := by
    obtain ⟨s, hs⟩ := hne
    exact ⟨s, by simp [(hC s hs).1, hs]⟩
  obtain ⟨s, hsm, hmin⟩ := Finset.exists_min_image _ (fun s => key u ((pos ((h s).v (idx s + 2))).sub P)) hfin
  simp only [Finset.mem_filter, List.mem_toFinset] at hsm hmin
  have hCs := hsm.2
  obtain ⟨haL, k, hk, hk2⟩ := G.mesh.at_next hsm.1 (hi s hCs) (ha s hCs)
  have hk' : k = idx (nxt s) := G.mesh.inj _ haL (hk.trans (hi _ (hCn s hCs)).symm)
  have h1 := hmin (nxt s) ⟨haL, hCn s hCs⟩
  rw [← hk', hk2] at h1
  have Os := G.ori s hsm.1
  rw [← O_rot _ (idx s), hi s hCs, hP] at Os
  have h2 := key_lt hu (w1 := (pos ((h s).v (idx s + 1))).sub P) (w2 := (pos ((h s).v (idx s + 2))).sub P)
    (by have : cb ((pos ((h s).v (idx s + 1))).sub P) ((pos ((h s).v (idx s + 2))).sub P) = o P (pos ((h s).v (idx s + 1))) (pos ((h s).v (idx s + 2))) := by
          simp only [cb, o, Vec2.sub]
        rw [this]; exact Os) (hout s hCs _ (hi s hCs))
  exact absurd h1 (not_le.2 h2)

/-- A vertex in a triangle is a corner of it. -/
theorem Good.corner (G : Good pos h L N) {p t : ℕ} (hp : p < N) (hinj : ∀ i < N, pos i = pos p → i = p)
    (ht : t ∈ L) (hin : InC pos (h t) (pos p)) : At h p t := by
  have Ot := G.ori t ht
  have It := G.del t ht p hp
  rw [O] at Ot
  rw [I] at It
  have cl := (InC_iff _ _).1 hin
  have v := G.mesh.vlt t ht
  have fin : ∀ i, pos p = pos ((h t).v i) → At h p t := fun i e => ⟨i, hinj _ (v i) e.symm⟩
  have f0 := fin 0
  have f1 := fin 1
  have f2 := fin 2
  generalize pos ((h t).v 0) = a at *
  generalize pos ((h t).v 1) = b at *
  generalize pos ((h t).v 2) = c at *
  generalize pos p = q at *
  have e : o a b c * inc a b c q = -(o b c q * o c a q * ((a.x - b.x)^2 + (a.y - b.y)^2) +
      o c a q * o a b q * ((b.x - c.x)^2 + (b.y - c.y)^2) + o a b q * o b c q * ((c.x - a.x)^2 + (c.y - a.y)^2)) := by
    simp only [o, inc]; ring
  obtain ⟨k1, k2, k3⟩ := cl
  have p1 := mul_nonneg (mul_nonneg k2 k3) (by positivity : 0 ≤ (a.x - b.x)^2 + (a.y - b.y)^2)
  have p2 := mul_nonneg (mul_nonneg k3 k1) (by positivity : 0 ≤ (b.x - c.x)^2 + (b.y - c.y)^2)
  have p3 := mul_nonneg (mul_nonneg k1 k2) (by positivity : 0 ≤ (c.x - a.x)^2 + (c.y - a.y)^2)
  have p0 := mul_nonneg Ot.le It
  have ne : ∀ {x y : Vec2 ℝ}, x ≠ y → (x.x - y.x)^2 + (x.y - y.y)^2 ≠ 0 := fun hne h0 => hne (eq_of_sq h0.le)
  have nab : a ≠ b := by rintro rfl; simp [o] at Ot
  have nbc : b ≠ c := by rintro rfl; simp [o] at Ot; linarith
  have nca : c ≠ a := by rintro rfl; simp [o] at Ot
  have z1 : o b c q * o c a q = 0 := (mul_eq_zero.1 (le_antisymm (by linarith) p1)).resolve_right (ne nab)
  have z2 : o c a q * o a b q = 0 := (mul_eq_zero.1 (le_antisymm (by linarith) p2)).resolve_right (ne nbc)
  have z3 : o a b q * o b c q = 0 := (mul_eq_zero.1 (le_antisymm (by linarith) p3)).resolve_right (ne nca)
  have cor : ∀ {a b c : Vec2 ℝ}, 0 < o a b c → o a b q = 0 → o c a q = 0 → q = a := by
    intro a b c hA h1 h2
    have ex : o a b c * (q.x - a.x) = o c a q * (b.x - a.x) + o a b q * (c.x - a.x) := by simp only [o]; ring
    have ey : o a b c * (q.y - a.y) = o c a q * (b.y - a.y) + o a b q * (c.y - a.y) := by simp only [o]; ring
    rw [h1, h2, zero_mul, zero_mul, add_zero] at ex ey
    ext
    · exact sub_eq_zero.1 ((mul_eq_zero.1 ex).resolve_left hA.ne')
    · exact sub_eq_zero.1 ((mul_eq_zero.1 ey).resolve_left hA.ne')
  rcases mul_eq_zero.1 z1 with q1 | q1
  · rcases mul_eq_zero.1 z2 with q2 | q2
    · exact f2 (cor (a := c) (b := a) (c := b) (by rw [o_cyc, o_cyc]; exact Ot) q2 q1)
    · exact f1 (cor (a := b) (b := c) (c := a) (by rw [o_cyc]; exact Ot) q1 q2)
  · rcases mul_eq_zero.1 z3 with q2 | q2
    · exact f0 (cor Ot q2 q1)
    · exact f2 (cor (a := c) (b := a) (c := b) (by rw [o_cyc, o_cyc]; exact Ot) q1 q2)

/-- Every direction from a vertex is in one of its triangles. -/
theorem Good.cone (G : Good pos h L N) (hO : Outer pos N) {p : ℕ} (h3 : 3 ≤ p) (hp : p < N)
    (hinj : ∀ i < N, pos i = pos p → i = p) (n : Vec2 ℝ) :
    ∃ t ∈ L, ∃ i, (h t).v i = p ∧ 0 ≤ cb ((pos ((h t).v (i + 1))).sub (pos p)) n ∧
      0 ≤ cb n ((pos ((h t).v (i + 2))).sub (pos p)) := by
  by_contra hcon
  push Not at hcon
  have e1 : ∀ᶠ ε in 𝓝[>] (0 : ℝ), ∀ m ∈ (Finset.univ : Finset (Fin 3)), 0 < o (pos m.val) (pos (m + 1).val) (stp (pos p) n ε) := by
    rw [Filter.eventually_all_finset]
    intro m _
    exact ev_pos n (hO.ins p hp h3 m)
  have e2 : ∀ᶠ ε in 𝓝[>] (0 : ℝ), ∀ t ∈ L.toFinset, ¬ InC pos (h t) (stp (pos p) n ε) := by
    rw [Filter.eventually_all_finset]
    intro t ht
    have ht : t ∈ L := by simpa using ht
    by_cases hat : At h p t
    · obtain ⟨i, hi⟩ := hat
      filter_upwards [self_mem_nhdsWithin] with ε q hin
      have q : 0 < ε := q
      have k1 := hin i
      have k2 := hin (i + 2)
      rw [hi] at k1
      rw [f21, hi] at k2
      have r1 : o (pos p) (pos ((h t).v (i + 1))) (stp (pos p) n ε) = ε * cb ((pos ((h t).v (i + 1))).sub (pos p)) n := by
        simp only [o, stp, cb, Vec2.sub]; ring
      have r2 : o (pos ((h t).v (i + 2))) (pos p) (stp (pos p) n ε) = ε * cb n ((pos ((h t).v (i + 2))).sub (pos p)) := by
        simp only [o, stp, cb, Vec2.sub]; ring
      rw [r1] at k1
      rw [r2] at k2
      have := hcon t ht i hi (nonneg_of_mul_nonneg_right k1 q)
      have := mul_neg_of_pos_of_neg q this
      linarith
    · have : ¬ InC pos (h t) (pos p) := fun hin => hat (G.corner hp hinj ht hin)
      rw [InC] at this
      push Not at this
      obtain ⟨i, hi⟩ := this
      filter_upwards [ev_neg n hi] with ε he hin
      exact absurd (hin i) (not_le.2 he)
  obtain ⟨ε, q1, q2⟩ := (e1.and e2).exists
  obtain ⟨t, ht, hin⟩ := G.cover (y := stp (pos p) n ε) (fun m => q1 m (Finset.mem_univ m))
  exact q2 t (by simpa using ht) hin

end Zeo.Del
