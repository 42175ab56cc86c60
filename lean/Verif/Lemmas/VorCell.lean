import Verif.Lemmas.VorStar
import Verif.Lemmas.QHGeom
import Verif.Spec.Voronoi

/-! # The cells of the diagram -/

namespace Zeo.Del
open DelG

variable {pos : ℕ → Vec2 ℝ} {h : Heap} {L : List ℕ} {N : ℕ}

/-- A point that is no convex combination of finitely many points is separated from them. -/
theorem separate2 {S : Set (Vec2 ℝ)} (hS : S.Finite) {q : Vec2 ℝ} (hq : ¬ Spec.InHull2 S q) :
    ∃ d : Vec2 ℝ, ∀ v ∈ S, ca d (v.sub q) < 0 := by
  let e : Vec2 ℝ → Vec3 ℝ := fun v => ⟨v.x, v.y, 0⟩
  have hq' : ¬ Spec.InHull (e '' S) (e q) := by
    rintro ⟨n, l, p, h1, h2, h3, h4⟩
    choose y hy hye using h1
    refine hq ⟨n, l, y, hy, h2, h3, ?_⟩
    have e1 : q.x = ∑ i, l i * (p i).x := congrArg Vec3.x h4
    have e2 : q.y = ∑ i, l i * (p i).y := congrArg Vec3.y h4
    ext
    · rw [e1]; apply Finset.sum_congr rfl; intro i _; rw [← hye i]
    · rw [e2]; apply Finset.sum_congr rfl; intro i _; rw [← hye i]
  obtain ⟨d, hd⟩ := QHGeom.separate (hS.image e) hq'
  refine ⟨⟨d.x, d.y⟩, fun v hv => ?_⟩
  have := hd (e v) ⟨v, hv, rfl⟩
  simpa [Spec.dot, Vec3.sub, e, ca, Vec2.sub] using this

/-- The node of a triangle. -/
noncomputable def nod (pos : ℕ → Vec2 ℝ) (h : Heap) (t : ℕ) : Vec2 ℝ :=
  Tri2.circumcenter (pos ((h t).v 0)) (pos ((h t).v 1)) (pos ((h t).v 2))

theorem Good.nod_eq (G : Good pos h L N) {t : ℕ} (ht : t ∈ L) (i : Fin 3) :
    Spec.sqd2 (nod pos h t) (pos ((h t).v i)) = Spec.sqd2 (nod pos h t) (pos ((h t).v 0)) := by
  obtain ⟨m, rfl, h1, h2, -⟩ := circle_of_del G ht
  fin_cases i
  · rfl
  · exact h1
  · exact h2

theorem Good.nod_le (G : Good pos h L N) {t : ℕ} (ht : t ∈ L) (i : Fin 3) {k : ℕ} (hk : k < N) :
    Spec.sqd2 (nod pos h t) (pos ((h t).v i)) ≤ Spec.sqd2 (nod pos h t) (pos k) := by
  rw [G.nod_eq ht]
  obtain ⟨m, rfl, -, -, h3⟩ := circle_of_del G ht
  exact h3 k hk

/-- The nodes around a vertex span its cell. -/
theorem Good.cell (G : Good pos h L N) (hO : Outer pos N) {p : ℕ} (h3 : 3 ≤ p) (hp : p < N)
    (hinj : ∀ i < N, pos i = pos p → i = p) (x : Vec2 ℝ) :
    Spec.InHull2 {m | ∃ t ∈ L, At h p t ∧ m = nod pos h t} x ↔ ∀ k < N, Spec.sqd2 x (pos p) ≤ Spec.sqd2 x (pos k) := by
  constructor
  · rintro ⟨n, l, m, hm, hl, hs, rfl⟩ k hk
    have h1 : ∀ i, Spec.sqd2 (m i) (pos p) ≤ Spec.sqd2 (m i) (pos k) := by
      intro i
      obtain ⟨t, ht, ⟨j, hj⟩, e⟩ := hm i
      rw [e, ← hj]
      exact G.nod_le ht j hk
    have lin : ∀ x : Vec2 ℝ, Spec.sqd2 x (pos p) - Spec.sqd2 x (pos k) =
        2 * ((pos k).x - (pos p).x) * x.x + 2 * ((pos k).y - (pos p).y) * x.y +
          ((pos p).x ^ 2 + (pos p).y ^ 2 - (pos k).x ^ 2 - (pos k).y ^ 2) := by
      intro x; simp only [Spec.sqd2]; ring
    have hsum : Spec.sqd2 ⟨∑ i, l i * (m i).x, ∑ i, l i * (m i).y⟩ (pos p) -
        Spec.sqd2 ⟨∑ i, l i * (m i).x, ∑ i, l i * (m i).y⟩ (pos k) =
        ∑ i, l i * (Spec.sqd2 (m i) (pos p) - Spec.sqd2 (m i) (pos k)) := by
      rw [lin]
      simp only [lin]
      have : ∀ i, l i * (2 * ((pos k).x - (pos p).x) * (m i).x + 2 * ((pos k).y - (pos p).y) * (m i).y +
          ((pos p).x ^ 2 + (pos p).y ^ 2 - (pos k).x ^ 2 - (pos k).y ^ 2)) =
          2 * ((pos k).x - (pos p).x) * (l i * (m i).x) + 2 * ((pos k).y - (pos p).y) * (l i * (m i).y) +
            ((pos p).x ^ 2 + (pos p).y ^ 2 - (pos k).x ^ 2 - (pos k).y ^ 2) * l i := by intro i; ring
      simp only [this, Finset.sum_add_distrib, ← Finset.mul_sum, hs, mul_one]
    have : ∑ i, l i * (Spec.sqd2 (m i) (pos p) - Spec.sqd2 (m i) (pos k)) ≤ 0 := by
      apply Finset.sum_nonpos
      intro i _
      exact mul_nonpos_of_nonneg_of_nonpos (hl i) (sub_nonpos.2 (h1 i))
    linarith
  · intro hx
    by_contra hq
    have hfin : {m | ∃ t ∈ L, At h p t ∧ m = nod pos h t}.Finite := by
      apply ((L.toFinset.finite_toSet).image (nod pos h)).subset
      rintro m ⟨t, ht, -, rfl⟩
      exact ⟨t, by simpa using ht, rfl⟩
    obtain ⟨d, hd⟩ := separate2 hfin hq
    obtain ⟨t, ht, i, hi, c1, c2⟩ := G.cone hO h3 hp hinj d
    have k := hd _ ⟨t, ht, ⟨i, hi⟩, rfl⟩
    have Ot := G.ori t ht
    rw [← O_rot _ i, hi] at Ot
    have v := G.mesh.vlt t ht
    have x1 := hx _ (v (i + 1))
    have x2 := hx _ (v (i + 2))
    have m1 := G.nod_eq ht (i + 1)
    have m2 := G.nod_eq ht (i + 2)
    have m0 := G.nod_eq ht i
    rw [← m0, hi] at m1 m2
    generalize pos ((h t).v (i + 1)) = a at *
    generalize pos ((h t).v (i + 2)) = b at *
    generalize nod pos h t = m at *
    generalize pos p = P at *
    -- the direction as a combination
    have e : o P a b * ca d (m.sub x) = cb d (b.sub P) * ca (a.sub P) (m.sub x) + cb (a.sub P) d * ca (b.sub P) (m.sub x) := by
      simp only [o, ca, cb, Vec2.sub]; ring
    have n1 : 0 ≤ ca (a.sub P) (m.sub x) := by
      have : 2 * ca (a.sub P) (m.sub x) = (Spec.sqd2 x a - Spec.sqd2 x P) - (Spec.sqd2 m a - Spec.sqd2 m P) := by
        simp only [ca, Vec2.sub, Spec.sqd2]; ring
      linarith
    have n2 : 0 ≤ ca (b.sub P) (m.sub x) := by
      have : 2 * ca (b.sub P) (m.sub x) = (Spec.sqd2 x b - Spec.sqd2 x P) - (Spec.sqd2 m b - Spec.sqd2 m P) := by
        simp only [ca, Vec2.sub, Spec.sqd2]; ring
      linarith
    have := mul_neg_of_pos_of_neg Ot k
    have := mul_nonneg c2 n1
    have := mul_nonneg c1 n2
    linarith

/-- The edge from the node of a triangle to that of the next one. -/
theorem Good.edge (G : Good pos h L N) {p t a : ℕ} (ht : t ∈ L) {i : Fin 3} (hi : (h t).v i = p)
    (ha : (h t).adj i = some a) :
    ∃ q < N, q ≠ p ∧ Spec.sqd2 (nod pos h t) (pos q) = Spec.sqd2 (nod pos h t) (pos p) ∧
      Spec.sqd2 (nod pos h a) (pos q) = Spec.sqd2 (nod pos h a) (pos p) ∧
      ∀ x, Spec.sqd2 x (pos p) ≤ Spec.sqd2 x (pos q) → Spec.area2 (nod pos h t) (nod pos h a) x ≤ 0 := by
  obtain ⟨haL, k, hk, hk2⟩ := G.mesh.at_next ht hi ha
  have v := G.mesh.vlt a haL
  refine ⟨(h t).v (i + 1), G.mesh.vlt t ht _, ?_, ?_, ?_, ?_⟩
  · rw [← hi]; intro e; exact n10 i (G.mesh.inj t ht e)
  · rw [G.nod_eq ht, ← G.nod_eq ht i, hi]
  · rw [← hk2, G.nod_eq haL, ← G.nod_eq haL k, hk]
  · intro x hx
    have t1 := G.nod_eq ht (i + 1)
    rw [← G.nod_eq ht i, hi] at t1
    have a1 := G.nod_eq haL (k + 1)
    rw [← G.nod_eq haL k, hk] at a1
    have a2 := G.nod_eq haL (k + 2)
    rw [← G.nod_eq haL k, hk, hk2] at a2
    have t2 := G.nod_le ht i (v (k + 1))
    rw [hi] at t2
    have Oa := G.ori a haL
    rw [← O_rot _ k, hk, hk2] at Oa
    generalize pos ((h t).v (i + 1)) = q at *
    generalize pos ((h a).v (k + 1)) = w at *
    generalize nod pos h t = m at *
    generalize nod pos h a = n at *
    generalize pos p = P at *
    -- both nodes are on the bisector
    have e1 : ca (q.sub P) (n.sub m) = 0 := by
      have : 2 * ca (q.sub P) (n.sub m) = (Spec.sqd2 m q - Spec.sqd2 m P) - (Spec.sqd2 n q - Spec.sqd2 n P) := by
        simp only [ca, Vec2.sub, Spec.sqd2]; ring
      linarith
    have e2 : 0 ≤ ca (w.sub P) (n.sub m) := by
      have : 2 * ca (w.sub P) (n.sub m) = (Spec.sqd2 m w - Spec.sqd2 m P) - (Spec.sqd2 n w - Spec.sqd2 n P) := by
        simp only [ca, Vec2.sub, Spec.sqd2]; ring
      linarith
    have e3 : ca (q.sub P) (x.sub m) ≤ 0 := by
      have : 2 * ca (q.sub P) (x.sub m) = (Spec.sqd2 m q - Spec.sqd2 m P) - (Spec.sqd2 x q - Spec.sqd2 x P) := by
        simp only [ca, Vec2.sub, Spec.sqd2]; ring
      linarith
    have e4 : o P w q * Spec.area2 m n x = ca (w.sub P) (n.sub m) * ca (q.sub P) (x.sub m) -
        ca (q.sub P) (n.sub m) * ca (w.sub P) (x.sub m) := by
      simp only [o, Spec.area2, ca, Vec2.sub]; ring
    rw [e1, zero_mul, sub_zero] at e4
    have := mul_nonpos_of_nonneg_of_nonpos e2 e3
    by_contra hcon
    push Not at hcon
    have := mul_pos Oa hcon
    linarith

end Zeo.Del
