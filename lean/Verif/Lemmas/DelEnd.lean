import Verif.Lemmas.DelRun
import Verif.Spec.Delaunay

/-! # The triangles that are left -/

namespace Zeo.Del
open DelG

variable {pos : ℕ → Vec2 ℝ}

theorem area2_eq (a b c : Vec2 ℝ) : Spec.area2 a b c = o a b c := rfl

theorem inner_ins {a b c q : Vec2 ℝ} (hA : 0 < o a b c) (hq : q ∈ Spec.inner2 a b c) : Ins a b c q := by
  obtain ⟨x, y, z, hx, hy, hz, hs, rfl⟩ := hq
  have hz' : z = 1 - x - y := by linarith
  have e1 : o a b (Spec.comb2 x y z a b c) = z * o a b c := by subst hz'; simp only [o, Spec.comb2]; ring
  have e2 : o b c (Spec.comb2 x y z a b c) = x * o a b c := by subst hz'; simp only [o, Spec.comb2]; ring
  have e3 : o c a (Spec.comb2 x y z a b c) = y * o a b c := by subst hz'; simp only [o, Spec.comb2]; ring
  exact ⟨by rw [e1]; positivity, by rw [e2]; positivity, by rw [e3]; positivity⟩

theorem Ins.cl {a b c x : Vec2 ℝ} (h : Ins a b c x) : Cl a b c x := ⟨h.1.le, h.2.1.le, h.2.2.le⟩

/-- The centroid. -/
noncomputable def cen (a b c : Vec2 ℝ) : Vec2 ℝ := Spec.comb2 (1/3) (1/3) (1/3) a b c

theorem cen_ins {a b c : Vec2 ℝ} (hA : 0 < o a b c) : Ins a b c (cen a b c) :=
  inner_ins hA ⟨1/3, 1/3, 1/3, by norm_num, by norm_num, by norm_num, by norm_num, rfl⟩

/-- Two triangles with a common inner point whose circles are empty of the corners of each other: the corners of one are on
the circle of the other. -/
theorem same_circle {a b c d e f x m n : Vec2 ℝ} (hA : 0 < o a b c) (hD : 0 < o d e f) (hx : Ins a b c x) (hx' : Ins d e f x)
    (ma : Spec.sqd2 m b = Spec.sqd2 m a) (ma' : Spec.sqd2 m c = Spec.sqd2 m a)
    (nd : Spec.sqd2 n e = Spec.sqd2 n d) (nd' : Spec.sqd2 n f = Spec.sqd2 n d)
    (n1 : Spec.sqd2 n d ≤ Spec.sqd2 n a) (n2 : Spec.sqd2 n d ≤ Spec.sqd2 n b) (n3 : Spec.sqd2 n d ≤ Spec.sqd2 n c)
    (m1 : Spec.sqd2 m a ≤ Spec.sqd2 m d) (m2 : Spec.sqd2 m a ≤ Spec.sqd2 m e) (m3 : Spec.sqd2 m a ≤ Spec.sqd2 m f) :
    Spec.sqd2 m d = Spec.sqd2 m a ∧ Spec.sqd2 m e = Spec.sqd2 m a ∧ Spec.sqd2 m f = Spec.sqd2 m a := by
  -- the difference of the powers is affine
  let F : Vec2 ℝ → ℝ := fun y => (Spec.sqd2 m y - Spec.sqd2 m a) - (Spec.sqd2 n y - Spec.sqd2 n d)
  have hF : ∀ a b c x : Vec2 ℝ, o a b c * F x = o b c x * F a + o c a x * F b + o a b x * F c := by
    intro a b c x; simp only [F, o, Spec.sqd2]; ring
  obtain ⟨a1, a2, a3⟩ := hx
  obtain ⟨d1, d2, d3⟩ := hx'
  have Fa : F a ≤ 0 := by simp only [F]; linarith
  have Fb : F b ≤ 0 := by simp only [F]; linarith
  have Fc : F c ≤ 0 := by simp only [F]; linarith
  have Fd : 0 ≤ F d := by simp only [F]; linarith
  have Fe : 0 ≤ F e := by simp only [F]; linarith
  have Ff : 0 ≤ F f := by simp only [F]; linarith
  have k1 : o a b c * F x ≤ 0 := by
    rw [hF]
    have := mul_nonpos_of_nonneg_of_nonpos a2.le Fa
    have := mul_nonpos_of_nonneg_of_nonpos a3.le Fb
    have := mul_nonpos_of_nonneg_of_nonpos a1.le Fc
    linarith
  have k2 : F x ≤ 0 := by
    by_contra hc; push Not at hc
    have := mul_pos hA hc; linarith
  have k3 := hF d e f x
  have k4 : o d e f * F x ≤ 0 := mul_nonpos_of_nonneg_of_nonpos hD.le k2
  have p1 := mul_nonneg d2.le Fd
  have p2 := mul_nonneg d3.le Fe
  have p3 := mul_nonneg d1.le Ff
  have q1 : F d = 0 := by
    rcases mul_eq_zero.1 (le_antisymm (by linarith) p1) with h | h
    · exact absurd h d2.ne'
    · exact h
  have q2 : F e = 0 := by
    rcases mul_eq_zero.1 (le_antisymm (by linarith) p2) with h | h
    · exact absurd h d3.ne'
    · exact h
  have q3 : F f = 0 := by
    rcases mul_eq_zero.1 (le_antisymm (by linarith) p3) with h | h
    · exact absurd h d1.ne'
    · exact h
  simp only [F] at q1 q2 q3
  exact ⟨by linarith, by linarith, by linarith⟩

theorem circle_of_del {h : Heap} {L : List ℕ} {N : ℕ} (G : Good pos h L N) {t : ℕ} (ht : t ∈ L) :
    ∃ m, m = Tri2.circumcenter (pos ((h t).v 0)) (pos ((h t).v 1)) (pos ((h t).v 2)) ∧
      Spec.sqd2 m (pos ((h t).v 1)) = Spec.sqd2 m (pos ((h t).v 0)) ∧
      Spec.sqd2 m (pos ((h t).v 2)) = Spec.sqd2 m (pos ((h t).v 0)) ∧
      ∀ i < N, Spec.sqd2 m (pos ((h t).v 0)) ≤ Spec.sqd2 m (pos i) := by
  have Ot : 0 < o (pos ((h t).v 0)) (pos ((h t).v 1)) (pos ((h t).v 2)) := G.ori t ht
  obtain ⟨h1, h2⟩ := circumcenter2_bisect (pos ((h t).v 0)) (pos ((h t).v 1)) (pos ((h t).v 2)) (by rw [o_outer]; exact Ot.ne')
  refine ⟨_, rfl, h1, h2, fun i hi => ?_⟩
  have := G.del t ht i hi
  rw [I, inc_pow _ _ _ _ _ h1 h2] at this
  by_contra hc
  push Not at hc
  have := mul_neg_of_pos_of_neg Ot (sub_neg.2 hc)
  linarith

/-- A triangle whose circle has all the other vertices outside is in the list. -/
theorem Good.complete {h : Heap} {L : List ℕ} {N : ℕ} (G : Good pos h L N) (hO : Outer pos N)
    (hinj : ∀ i < N, ∀ j < N, pos i = pos j → i = j) {a b c : ℕ} (ha : a < N) (hb : b < N) (hc : c < N)
    (hA : 0 < o (pos a) (pos b) (pos c)) {m : Vec2 ℝ} (m1 : Spec.sqd2 m (pos b) = Spec.sqd2 m (pos a))
    (m2 : Spec.sqd2 m (pos c) = Spec.sqd2 m (pos a))
    (hm : ∀ i < N, pos i = pos a ∨ pos i = pos b ∨ pos i = pos c ∨ Spec.sqd2 m (pos a) < Spec.sqd2 m (pos i)) :
    ∃ t ∈ L, ∃ i, (h t).v i = a ∧ (h t).v (i + 1) = b ∧ (h t).v (i + 2) = c := by
  have hm' : ∀ i < N, Spec.sqd2 m (pos a) ≤ Spec.sqd2 m (pos i) := by
    intro i hi
    rcases hm i hi with q | q | q | q
    · rw [q]
    · rw [q, m1]
    · rw [q, m2]
    · exact q.le
  -- a point off all lines, in a triangle of the list
  let c0 : Cell := ⟨![a, b, c], ![none, none, none]⟩
  have hc0 : In pos c0 (cen (pos a) (pos b) (pos c)) := (In_iff c0 _).2 (cen_ins hA)
  obtain ⟨x, gx, hx⟩ := gen_near pos N _ (fun x => In pos c0 x) (fun d => ev_in hc0 d)
  have hxo := in_outer hO (c := c0) hA (by intro i; fin_cases i <;> assumption) hx
  obtain ⟨t, ht, hDt⟩ := sum_one_ex (G.cnt x gx hxo)
  have hIt := In_of_D hDt
  obtain ⟨n, -, n1, n2, n3⟩ := circle_of_del G ht
  have v := G.mesh.vlt t ht
  obtain ⟨r0, r1, r2⟩ := same_circle hA (G.ori t ht) ((In_iff c0 x).1 hx) ((In_iff _ x).1 hIt) m1 m2 n1 n2
    (n3 a ha) (n3 b hb) (n3 c hc) (hm' _ (v 0)) (hm' _ (v 1)) (hm' _ (v 2))
  have onm : ∀ i, Spec.sqd2 m (pos ((h t).v i)) = Spec.sqd2 m (pos a) → (h t).v i = a ∨ (h t).v i = b ∨ (h t).v i = c := by
    intro i hi
    rcases hm _ (v i) with q | q | q | q
    · exact Or.inl (hinj _ (v i) _ ha q)
    · exact Or.inr (Or.inl (hinj _ (v i) _ hb q))
    · exact Or.inr (Or.inr (hinj _ (v i) _ hc q))
    · linarith
  have k0 := onm 0 r0
  have k1 := onm 1 r1
  have k2 := onm 2 r2
  have inj := G.mesh.inj t ht
  have d01 : (h t).v 0 ≠ (h t).v 1 := fun e => by simpa using inj e
  have d12 : (h t).v 1 ≠ (h t).v 2 := fun e => by simpa using inj e
  have d02 : (h t).v 0 ≠ (h t).v 2 := fun e => by simpa using inj e
  have Ot := G.ori t ht
  rw [O] at Ot
  have sw1 : o (pos a) (pos c) (pos b) = -o (pos a) (pos b) (pos c) := by simp only [o]; ring
  have sw2 : o (pos b) (pos a) (pos c) = -o (pos a) (pos b) (pos c) := by simp only [o]; ring
  have sw3 : o (pos c) (pos b) (pos a) = -o (pos a) (pos b) (pos c) := by simp only [o]; ring
  refine ⟨t, ht, ?_⟩
  rcases k0 with e0 | e0 | e0 <;> rcases k1 with e1 | e1 | e1 <;> rcases k2 with e2 | e2 | e2 <;>
    first
    | exact absurd (e0.trans e1.symm) d01
    | exact absurd (e1.trans e2.symm) d12
    | exact absurd (e0.trans e2.symm) d02
    | exact ⟨0, e0, e1, e2⟩
    | exact ⟨1, e1, e2, e0⟩
    | exact ⟨2, e2, e0, e1⟩
    | (exfalso; rw [e0, e1, e2] at Ot; linarith)

/-- The outer triangle. -/
theorem outer_ok {b : Disk2 ℝ} {xs : List (Vec2 ℝ)} (hr : 0 < b.radius)
    (hin : ∀ x ∈ xs, Spec.ed2 b.center x < 3 / 2 * b.radius) : Outer (posOf b xs) (3 + xs.length) := by
  have p0 : posOf b xs 0 = ⟨b.center.x, b.center.y + 3 * b.radius⟩ := rfl
  have p1 : posOf b xs 1 = ⟨b.center.x - 3 / 2 * Real.sqrt 3 * b.radius, b.center.y - 3 / 2 * b.radius⟩ := rfl
  have p2 : posOf b xs 2 = ⟨b.center.x + 3 / 2 * Real.sqrt 3 * b.radius, b.center.y - 3 / 2 * b.radius⟩ := rfl
  have s3 : 0 < Real.sqrt 3 := by positivity
  have ss : Real.sqrt 3 * Real.sqrt 3 = 3 := Real.mul_self_sqrt (by norm_num)
  have A : 0 < o (posOf b xs 0) (posOf b xs 1) (posOf b xs 2) := by
    have : o (posOf b xs 0) (posOf b xs 1) (posOf b xs 2) = 27 / 2 * Real.sqrt 3 * b.radius ^ 2 := by
      rw [p0, p1, p2]; simp only [o]; ring
    rw [this]; positivity
  refine ⟨?_, ?_⟩
  · intro m
    fin_cases m
    · exact A
    · exact (o_cyc _ _ _).symm ▸ A
    · show 0 < o (posOf b xs 2) (posOf b xs 0) (posOf b xs 1)
      rw [o_cyc, o_cyc]; exact A
  · intro i hi h3 m
    obtain ⟨k, rfl⟩ := Nat.exists_eq_add_of_le h3
    have hk : k < xs.length := by omega
    have pk : posOf b xs (3 + k) = xs[k] := by
      simp only [posOf, outer, List.getD_eq_getElem?_getD]
      rw [show 3 + k = k + 1 + 1 + 1 by omega]
      simp [hk]
    have hd := hin _ (List.getElem_mem hk)
    rw [← pk] at hd
    generalize posOf b xs (3 + k) = q at hd
    have hq : Spec.sqd2 b.center q < (3 / 2 * b.radius) ^ 2 := by
      have := Real.sqrt_lt' (x := Spec.sqd2 b.center q) (y := 3 / 2 * b.radius) (by positivity)
      exact this.1 hd
    have key : ∀ u w : ℝ, u ^ 2 + w ^ 2 = 1 → u * (q.x - b.center.x) + w * (q.y - b.center.y) < 3 / 2 * b.radius := by
      intro u w huw
      have c1 : (u * (q.x - b.center.x) + w * (q.y - b.center.y)) ^ 2 ≤ Spec.sqd2 b.center q := by
        have : (u * (q.x - b.center.x) + w * (q.y - b.center.y)) ^ 2 +
            (u * (q.y - b.center.y) - w * (q.x - b.center.x)) ^ 2 = (u ^ 2 + w ^ 2) * Spec.sqd2 b.center q := by
          simp only [Spec.sqd2]; ring
        rw [huw, one_mul] at this
        nlinarith [sq_nonneg (u * (q.y - b.center.y) - w * (q.x - b.center.x))]
      exact lt_of_pow_lt_pow_left₀ 2 (by positivity) (c1.trans_lt hq)
    fin_cases m
    · show 0 < o (posOf b xs 0) (posOf b xs 1) q
      have := key (-(Real.sqrt 3 / 2)) (1 / 2) (by nlinarith)
      have e : o (posOf b xs 0) (posOf b xs 1) q = 3 * Real.sqrt 3 * b.radius *
          (3 / 2 * b.radius - (-(Real.sqrt 3 / 2) * (q.x - b.center.x) + 1 / 2 * (q.y - b.center.y))) := by
        rw [p0, p1]; simp only [o]
        linear_combination (-(3 / 2) * b.radius * (q.x - b.center.x)) * ss
      rw [e]; exact mul_pos (by positivity) (by linarith)
    · show 0 < o (posOf b xs 1) (posOf b xs 2) q
      have := key 0 (-1) (by norm_num)
      have e : o (posOf b xs 1) (posOf b xs 2) q = 3 * Real.sqrt 3 * b.radius *
          (3 / 2 * b.radius - (0 * (q.x - b.center.x) + -1 * (q.y - b.center.y))) := by
        rw [p1, p2]; simp only [o]; ring
      rw [e]; exact mul_pos (by positivity) (by linarith)
    · show 0 < o (posOf b xs 2) (posOf b xs 0) q
      have := key (Real.sqrt 3 / 2) (1 / 2) (by nlinarith)
      have e : o (posOf b xs 2) (posOf b xs 0) q = 3 * Real.sqrt 3 * b.radius *
          (3 / 2 * b.radius - (Real.sqrt 3 / 2 * (q.x - b.center.x) + 1 / 2 * (q.y - b.center.y))) := by
        rw [p2, p0]; simp only [o]
        linear_combination (3 / 2 * b.radius * (q.x - b.center.x)) * ss
      rw [e]; exact mul_pos (by positivity) (by linarith)

theorem posOf_lt (b : Disk2 ℝ) (xs : List (Vec2 ℝ)) {i : ℕ} (hi : i < 3 + xs.length) :
    posOf b xs i ∈ outer b ++ xs := by
  have : i < (outer b ++ xs).length := by simp [outer]; omega
  rw [posOf, List.getD_eq_getElem _ _ this]
  exact List.getElem_mem this

theorem posOf_data (b : Disk2 ℝ) (xs : List (Vec2 ℝ)) {k : ℕ} (hk : k < xs.length) : posOf b xs (3 + k) = xs[k] := by
  simp only [posOf, outer, List.getD_eq_getElem?_getD]
  rw [show 3 + k = k + 1 + 1 + 1 by omega]
  simp [hk]

theorem posOf_sp (b : Disk2 ℝ) (xs : List (Vec2 ℝ)) {i : ℕ} (hi : i < 3) : posOf b xs i ∈ outer b := by
  have : i = 0 ∨ i = 1 ∨ i = 2 := by omega
  rcases this with rfl | rfl | rfl <;> simp [posOf, outer]

theorem posOf_mem (b : Disk2 ℝ) (xs : List (Vec2 ℝ)) {p : Vec2 ℝ} (hp : p ∈ outer b ++ xs) :
    ∃ i < 3 + xs.length, posOf b xs i = p := by
  obtain ⟨i, hi, rfl⟩ := List.mem_iff_getElem.1 hp
  refine ⟨i, by simp [outer] at hi; omega, ?_⟩
  rw [posOf, List.getD_eq_getElem _ _ hi]

/-- Different vertices have different positions. -/
theorem posOf_inj {b : Disk2 ℝ} {xs : List (Vec2 ℝ)} (hO : Outer (posOf b xs) (3 + xs.length)) (hnd : xs.Nodup) :
    ∀ i < 3 + xs.length, ∀ j < 3 + xs.length, posOf b xs i = posOf b xs j → i = j := by
  have key : ∀ i j, i < j → j < 3 + xs.length → posOf b xs i ≠ posOf b xs j := by
    intro i j hij hj e
    by_cases h3 : 3 ≤ j
    · by_cases hi3 : 3 ≤ i
      · obtain ⟨k, rfl⟩ := Nat.exists_eq_add_of_le h3
        obtain ⟨l, rfl⟩ := Nat.exists_eq_add_of_le hi3
        rw [posOf_data b xs (by omega), posOf_data b xs (by omega)] at e
        have := (List.Nodup.getElem_inj_iff hnd).1 e
        omega
      · have := hO.ins j hj h3 ⟨i, by omega⟩
        rw [← e, o_self] at this
        exact lt_irrefl _ this
    · have o0 : 0 < o (posOf b xs 0) (posOf b xs 1) (posOf b xs 2) := hO.o 0
      have : (i = 0 ∧ j = 1) ∨ (i = 0 ∧ j = 2) ∨ (i = 1 ∧ j = 2) := by omega
      rcases this with ⟨rfl, rfl⟩ | ⟨rfl, rfl⟩ | ⟨rfl, rfl⟩
      · rw [e] at o0; simp [o] at o0
      · rw [e, o_self] at o0; exact lt_irrefl _ o0
      · rw [e, o_self'] at o0; exact lt_irrefl _ o0
  intro i hi j hj e
  rcases lt_trichotomy i j with h | h | h
  · exact absurd e (key i j h hj)
  · exact h
  · exact absurd e.symm (key j i h hi)

/-- The triangles of a list. -/
def tris (pos : ℕ → Vec2 ℝ) (s : St) : List (Vec2 ℝ × Vec2 ℝ × Vec2 ℝ) :=
  s.list.map fun t => (pos ((s.heap t).v 0), pos ((s.heap t).v 1), pos ((s.heap t).v 2))

theorem mem_purge {s : St} {t : ℕ} : t ∈ (purge s).list ↔ t ∈ s.list ∧ ∀ i, 3 ≤ (s.heap t).v i := by
  simp [purge]

/-- The triangles that are left are a Delaunay triangulation. -/
theorem purge_delaunay {b : Disk2 ℝ} {xs : List (Vec2 ℝ)} {s : St} (hO : Outer (posOf b xs) (3 + xs.length)) (hnd : xs.Nodup)
    (G : Good (posOf b xs) s.heap s.list (3 + xs.length)) :
    Spec.IsDelaunay xs (outer b) (tris (posOf b xs) (purge s)) := by
  have inj := posOf_inj hO hnd
  have cell : ∀ T ∈ tris (posOf b xs) (purge s), ∃ t ∈ s.list, (∀ i, 3 ≤ (s.heap t).v i) ∧
      T = (posOf b xs ((s.heap t).v 0), posOf b xs ((s.heap t).v 1), posOf b xs ((s.heap t).v 2)) := by
    intro T hT
    obtain ⟨t, ht, rfl⟩ := List.mem_map.1 hT
    exact ⟨t, (mem_purge.1 ht).1, (mem_purge.1 ht).2, rfl⟩
  have dat : ∀ t ∈ s.list, ∀ i, 3 ≤ (s.heap t).v i → posOf b xs ((s.heap t).v i) ∈ xs := by
    intro t ht i h3
    have := G.mesh.vlt t ht i
    obtain ⟨k, hk⟩ := Nat.exists_eq_add_of_le h3
    rw [hk, posOf_data b xs (by omega)]
    exact List.getElem_mem _
  have datn : ∀ p ∈ xs, ∃ k, 3 ≤ k ∧ k < 3 + xs.length ∧ posOf b xs k = p := by
    intro p hp
    obtain ⟨k, hk, rfl⟩ := List.mem_iff_getElem.1 hp
    exact ⟨3 + k, by omega, by omega, posOf_data b xs hk⟩
  have anyn : ∀ p ∈ xs ++ outer b, ∃ k < 3 + xs.length, posOf b xs k = p := by
    intro p hp
    apply posOf_mem
    rcases List.mem_append.1 hp with q | q
    · exact List.mem_append_right _ q
    · exact List.mem_append_left _ q
  have nany : ∀ k < 3 + xs.length, posOf b xs k ∈ xs ++ outer b := by
    intro k hk
    rcases List.mem_append.1 (posOf_lt b xs hk) with q | q
    · exact List.mem_append_right _ q
    · exact List.mem_append_left _ q
  refine ⟨?_, ?_, ?_, ?_, ?_⟩
  · intro T hT
    obtain ⟨t, ht, h3, rfl⟩ := cell T hT
    exact ⟨dat t ht 0 (h3 0), dat t ht 1 (h3 1), dat t ht 2 (h3 2)⟩
  · intro T hT
    obtain ⟨t, ht, h3, rfl⟩ := cell T hT
    exact G.ori t ht
  · intro T hT
    obtain ⟨t, ht, h3, rfl⟩ := cell T hT
    obtain ⟨m, -, m1, m2, m3⟩ := circle_of_del G ht
    refine ⟨m, m1, m2, fun p hp => ?_⟩
    obtain ⟨k, hk, rfl⟩ := anyn p hp
    exact m3 k hk
  · rw [tris, List.pairwise_map]
    have nd : (purge s).list.Nodup := G.mesh.nodup.filter _
    refine List.Pairwise.imp_of_mem ?_ nd
    intro t r ht hr hne q h1 h2
    have ht := (mem_purge.1 ht).1
    have hr := (mem_purge.1 hr).1
    exact hne (G.disj hO ht hr ((In_iff _ _).2 (inner_ins (G.ori t ht) h1)) ((In_iff _ _).2 (inner_ins (G.ori r hr) h2)))
  · intro a ha b' hb c hc hA ⟨m, m1, m2, hm⟩
    obtain ⟨ka, ha3, hka, rfl⟩ := datn a ha
    obtain ⟨kb, hb3, hkb, rfl⟩ := datn b' hb
    obtain ⟨kc, hc3, hkc, rfl⟩ := datn c hc
    obtain ⟨t, ht, i, e0, e1, e2⟩ := G.complete hO inj hka hkb hkc hA m1 m2 (fun i hi => hm _ (nany i hi))
    have h3 : ∀ j, 3 ≤ (s.heap t).v j := by
      intro j
      rcases three i j with rfl | rfl | rfl
      · rw [e0]; exact ha3
      · rw [e1]; exact hb3
      · rw [e2]; exact hc3
    have htp : t ∈ (purge s).list := mem_purge.2 ⟨ht, h3⟩
    have : (posOf b xs ((s.heap t).v 0), posOf b xs ((s.heap t).v 1), posOf b xs ((s.heap t).v 2)) ∈ tris (posOf b xs) (purge s) :=
      List.mem_map.2 ⟨t, htp, rfl⟩
    fin_cases i
    · left; rw [← e0, ← e1, ← e2]; exact this
    · right; right; rw [← e0, ← e1, ← e2]; exact this
    · right; left; rw [← e0, ← e1, ← e2]; exact this

/-- The points are inserted. -/
theorem insert_ok {τ : ℝ} (hτ : 0 < τ) {b : Disk2 ℝ} {xs : List (Vec2 ℝ)} {fuel : ℕ} (hO : Outer (posOf b xs) (3 + xs.length))
    (hnd : xs.Nodup) (hres : Spec.Resolves2 τ (outer b ++ xs)) (hf : 4 * xs.length + 5 ≤ fuel) :
    ∃ s, insertAll τ (posOf b xs) fuel ((List.range xs.length).map (· + 3)) start = some (some s) ∧
      GoodSt (posOf b xs) s (3 + xs.length) := by
  have inj := posOf_inj hO hnd
  apply insertAll_good hτ xs.length 3 start le_rfl (start_good (hO.mono (by omega))) hO
  · intro i hi j hj _ e
    exact absurd (inj i hi j (by omega) e) (by omega)
  · intro N hN h3 i hi j hj k hk hA
    exact hres _ (posOf_lt b xs (by omega)) _ (posOf_lt b xs (by omega)) _ (posOf_lt b xs (by omega)) _ (posOf_lt b xs hN) hA
  · omega

end Zeo.Del
