import Verif.Lemmas.Hull2D
import Verif.Spec.Hull

/-! # Lemmas on the closed loop of the planar convex hull -/

namespace Zeo.Hull2D
noncomputable section
open Classical

variable {x y : Vec3 ℝ → ℝ}

theorem crs_neg (x y : Vec3 ℝ → ℝ) (a b q : Vec3 ℝ) : crs (fun p => -x p) (fun p => -y p) a b q = crs x y a b q := by
  unfold crs; ring

theorem Lt_neg {x y : Vec3 ℝ → ℝ} {p q : Vec3 ℝ} : Lt (fun p => -x p) (fun p => -y p) p q ↔ Lt x y q p := by
  unfold Lt Hp
  constructor
  · rintro (h | ⟨h, g⟩)
    · left; linarith
    · right; constructor <;> linarith
  · rintro (h | ⟨h, g⟩)
    · left; linarith
    · right; constructor <;> linarith

/-- The point below an edge of a chain. -/
theorem on_edge {a b q : Vec3 ℝ} (hab : Lt x y a b) (haq : Le x y a q) (hqb : Le x y q b) :
    ∃ α β : ℝ, 0 ≤ α ∧ 0 ≤ β ∧ α + β = 1 ∧ x q = α * x a + β * x b ∧
      ((0 < x b - x a ∧ (α * y a + β * y b - y q) * (x b - x a) = - crs x y a b q) ∨
        (x b - x a = 0 ∧ y q = α * y a + β * y b)) := by
  have h1 : x a ≤ x q := by
    rcases haq with rfl | h | h
    · exact le_rfl
    · linarith
    · linarith [h.1]
  have h2 : x q ≤ x b := by
    rcases hqb with rfl | h | h
    · exact le_rfl
    · linarith
    · linarith [h.1]
  rcases hab with h | ⟨h, g⟩
  · refine ⟨(x b - x q) / (x b - x a), (x q - x a) / (x b - x a), div_nonneg (by linarith) h.le,
      div_nonneg (by linarith) h.le, ?_, ?_, Or.inl ⟨h, ?_⟩⟩
    · field_simp; ring
    · field_simp; ring
    · unfold crs; field_simp; ring
  · have h3 : y a ≤ y q := by
      rcases haq with rfl | h' | h'
      · exact le_rfl
      · linarith
      · linarith [h'.2]
    have h4 : y q ≤ y b := by
      rcases hqb with rfl | h' | h'
      · exact le_rfl
      · linarith
      · linarith [h'.2]
    refine ⟨(y b - y q) / (y b - y a), (y q - y a) / (y b - y a), div_nonneg (by linarith) g.le,
      div_nonneg (by linarith) g.le, ?_, ?_, Or.inr ⟨h, ?_⟩⟩
    · field_simp; ring
    · have e1 : x b = x a := by linarith
      have e2 : x q = x a := by linarith
      rw [e1, e2]; field_simp; ring
    · field_simp; ring

/-- A chain has an edge around every point between its ends. -/
theorem exists_edge {R : Vec3 ℝ → Vec3 ℝ → Prop} (hR : ∀ a b, R a b → Lt x y a b) (q : Vec3 ℝ) :
    ∀ (r : List (Vec3 ℝ)) (a : Vec3 ℝ), r ≠ [] → List.IsChain R (a :: r) → (∀ b ∈ r, Le x y q b ∨ Le x y b q) →
    Le x y a q → Le x y q ((a :: r).getLast (by simp)) →
    ∃ b c, b ∈ a :: r ∧ c ∈ a :: r ∧ R b c ∧ Le x y b q ∧ Le x y q c
  | [], _, h, _, _, _, _ => absurd rfl h
  | b :: r, a, _, hc, ht, h1, h2 => by
    have hab := (List.isChain_cons_cons.1 hc).1
    rcases ht b (by simp) with h | h
    · exact ⟨a, b, by simp, by simp, hab, h1, h⟩
    · by_cases hr : r = []
      · subst hr
        exact ⟨a, b, by simp, by simp, hab, h1, by simpa using h2⟩
      · obtain ⟨c, d, hc', hd', h3⟩ := exists_edge hR q r b hr (List.isChain_cons_cons.1 hc).2
          (fun c hc => ht c (by simp [hc])) h (by simpa [List.getLast_cons] using h2)
        exact ⟨c, d, List.mem_cons_of_mem _ hc', List.mem_cons_of_mem _ hd', h3⟩

/-- Neighbours of an inner vertex of a chain. -/
theorem neighbours {R : Vec3 ℝ → Vec3 ℝ → Prop} (h : Vec3 ℝ) :
    ∀ (r : List (Vec3 ℝ)) (a : Vec3 ℝ), List.IsChain R (a :: (r ++ [h])) → Turns x y (a :: (r ++ [h])) →
    ∀ v ∈ r, ∃ b c, b ∈ a :: r ∧ c ∈ r ++ [h] ∧ R b v ∧ R v c ∧ crs x y b v c < 0
  | [], _, _, _, v, hv => by simp at hv
  | [b], a, hc, ht, v, hv => by
    have hv : v = b := by simpa using hv
    subst hv
    simp only [List.cons_append, List.nil_append, List.isChain_cons_cons] at hc
    exact ⟨a, h, by simp, by simp, hc.1, hc.2.1, ht.1⟩
  | b :: c :: r, a, hc, ht, v, hv => by
    simp only [List.cons_append] at hc ht
    have hc1 := (List.isChain_cons_cons.1 hc)
    have hc2 := (List.isChain_cons_cons.1 hc1.2)
    rcases List.mem_cons.1 hv with rfl | hv
    · exact ⟨a, c, by simp, by simp, hc1.1, hc2.1, ht.1⟩
    · obtain ⟨d, e, hd, he, h1⟩ := neighbours h (c :: r) b hc1.2 ht.2 v hv
      exact ⟨d, e, List.mem_cons_of_mem _ hd, List.mem_cons_of_mem _ he, h1⟩

/-- Chains that increase have no duplicates, and start before all the rest. -/
theorem chain_pairwise {R : Vec3 ℝ → Vec3 ℝ → Prop} (hR : ∀ a b, R a b → Lt x y a b) {l : List (Vec3 ℝ)}
    (h : List.IsChain R l) : l.Pairwise (Lt x y) := by
  have hl : List.IsChain (Lt x y) l := h.imp hR
  haveI : IsTrans (Vec3 ℝ) (Lt x y) := ⟨fun _ _ _ => Lt.trans⟩
  exact List.isChain_iff_pairwise.1 hl

/-- A vertex of the upper chain is not below the line through the ends. -/
theorem above {v b t h : Vec3 ℝ} (hvb : Lt x y v b) (htv : Lt x y t v) (hvh : Lt x y v h)
    (h1 : crs x y v b t ≤ 0) (h2 : crs x y v b h ≤ 0) : 0 ≤ crs x y t h v := by
  have := turn_trans hvh hvb htv (by unfold crs at h2; nlinarith) (by unfold crs at h1; nlinarith)
  unfold crs; nlinarith

/-- A point that is lexicographically before all others is not in their hull. -/
theorem not_hull_of_lt (s0 s1 : Vec3 ℝ) {S : Set (Vec3 ℝ)} {v : Vec3 ℝ}
    (h : ∀ p ∈ S, Lt (·.inner s0) (·.inner s1) v p) : ¬ Spec.InHull S v := by
  rintro ⟨n, L, p, hp, hL, hsum, hv⟩
  have key : ∀ s : Vec3 ℝ, ∑ i, L i * ((p i).inner s - v.inner s) = 0 := by
    intro s
    have e1 : ∑ i, L i * ((p i).inner s - v.inner s) =
        s.x * ((∑ i, L i * (p i).x) - (∑ i, L i) * v.x) + s.y * ((∑ i, L i * (p i).y) - (∑ i, L i) * v.y) +
        s.z * ((∑ i, L i * (p i).z) - (∑ i, L i) * v.z) := by
      simp only [← Finset.sum_sub_distrib, Finset.sum_mul, Finset.mul_sum, ← Finset.sum_add_distrib]
      refine Finset.sum_congr rfl fun i _ => ?_
      simp [zeo]; ring
    rw [e1, hsum]
    have hx := congrArg Vec3.x hv
    have hy := congrArg Vec3.y hv
    have hz := congrArg Vec3.z hv
    simp only at hx hy hz
    rw [← hx, ← hy, ← hz]; ring
  have hx : ∀ i, 0 ≤ L i * ((p i).inner s0 - v.inner s0) := fun i => by
    refine mul_nonneg (hL i) ?_
    rcases h _ (hp i) with g | g
    · exact g.le
    · exact g.1.ge
  have hx0 := (Finset.sum_eq_zero_iff_of_nonneg (fun i _ => hx i)).1 (key s0)
  have hy : ∀ i, 0 ≤ L i * ((p i).inner s1 - v.inner s1) := fun i => by
    rcases h _ (hp i) with g | g
    · have := hx0 i (Finset.mem_univ i)
      rcases mul_eq_zero.1 this with g' | g'
      · rw [g', zero_mul]
      · exact absurd g' (ne_of_gt g)
    · exact mul_nonneg (hL i) g.2.le
  have hy0 := (Finset.sum_eq_zero_iff_of_nonneg (fun i _ => hy i)).1 (key s1)
  have hL0 : ∀ i, L i = 0 := fun i => by
    rcases h _ (hp i) with g | g
    · rcases mul_eq_zero.1 (hx0 i (Finset.mem_univ i)) with g' | g'
      · exact g'
      · exact absurd g' (ne_of_gt g)
    · rcases mul_eq_zero.1 (hy0 i (Finset.mem_univ i)) with g' | g'
      · exact g'
      · exact absurd g' (ne_of_gt g.2)
  rw [Finset.sum_eq_zero fun i _ => hL0 i] at hsum
  norm_num at hsum

/-- A vertex where the boundary turns is not in the hull of the other points. -/
theorem not_hull_of_turn (s0 s1 : Vec3 ℝ) {S : Set (Vec3 ℝ)} {a v b : Vec3 ℝ}
    (hinj : ∀ q ∈ S, q.inner s0 = v.inner s0 → q.inner s1 = v.inner s1 → q = v) (hS : ∀ q ∈ S, q ≠ v)
    (h1 : ∀ q ∈ S, crs (·.inner s0) (·.inner s1) a v q ≤ 0) (h2 : ∀ q ∈ S, crs (·.inner s0) (·.inner s1) v b q ≤ 0)
    (ht : crs (·.inner s0) (·.inner s1) a v b < 0) : ¬ Spec.InHull S v := by
  set u := v.inner s0 - a.inner s0 + (b.inner s0 - v.inner s0) with hu
  set w := v.inner s1 - a.inner s1 + (b.inner s1 - v.inner s1) with hw
  refine not_hull_of_lt ((s0.mul w).sub (s1.mul u)) ((s0.mul w).sub (s1.mul u)) fun q hq => Or.inl ?_
  have e : ∀ q : Vec3 ℝ, q.inner ((s0.mul w).sub (s1.mul u)) = w * q.inner s0 - u * q.inner s1 := fun q => by
    simp [zeo]; ring
  simp only [e]
  have g1 := h1 q hq
  have g2 := h2 q hq
  by_contra hc
  unfold crs at g1 g2 ht
  have z1 : (v.inner s0 - a.inner s0) * (q.inner s1 - v.inner s1) - (v.inner s1 - a.inner s1) * (q.inner s0 - v.inner s0) ≤ 0 := by
    nlinarith
  have z0 : w * q.inner s0 - u * q.inner s1 - (w * v.inner s0 - u * v.inner s1) ≤ 0 := by linarith
  have z3 : (v.inner s0 - a.inner s0) * (q.inner s1 - v.inner s1) - (v.inner s1 - a.inner s1) * (q.inner s0 - v.inner s0) = 0 := by
    rw [hu, hw] at z0; nlinarith
  have z4 : (b.inner s0 - v.inner s0) * (q.inner s1 - v.inner s1) - (b.inner s1 - v.inner s1) * (q.inner s0 - v.inner s0) = 0 := by
    rw [hu, hw] at z0; nlinarith
  set D := (v.inner s0 - a.inner s0) * (b.inner s1 - a.inner s1) - (v.inner s1 - a.inner s1) * (b.inner s0 - a.inner s0) with hD
  have k0 : D * (q.inner s0 - v.inner s0) = 0 := by
    rw [hD]
    linear_combination (b.inner s0 - v.inner s0) * z3 - (v.inner s0 - a.inner s0) * z4
  have k1 : D * (q.inner s1 - v.inner s1) = 0 := by
    rw [hD]
    linear_combination (b.inner s1 - v.inner s1) * z3 - (v.inner s1 - a.inner s1) * z4
  have hD0 : D ≠ 0 := ne_of_lt ht
  refine hS q hq (hinj q hq ?_ ?_)
  · have := (mul_eq_zero.1 k0).resolve_left hD0; linarith
  · have := (mul_eq_zero.1 k1).resolve_left hD0; linarith

end
end Zeo.Hull2D
