import Verif.Model.Intersect
import Verif.Spec.Geometry
import Verif.Lemmas.Rot
import Verif.Lemmas.Triangle
import Mathlib.Data.Finset.Card
import Mathlib.Tactic.LinearCombination

/-! # Edges and triangles cut by a plane -/

namespace Zeo.Meet
open Classical

/-- Signed height over a plane. -/
noncomputable def g (pl : Plane3 ℝ) (p : Vec3 ℝ) : ℝ := (p.sub pl.org).inner pl.norm

theorem mem_plane {pl : Plane3 ℝ} {p : Vec3 ℝ} : p ∈ Spec.plane pl.org pl.norm ↔ g pl p = 0 := by
  simp only [Spec.plane, Set.mem_setOf_eq, g, Vec3.inner, Vec3.sub]

theorem g_comb2 (pl : Plane3 ℝ) {a b : ℝ} (h : a + b = 1) (u v w z : Vec3 ℝ) : g pl (Spec.comb a b 0 0 u v w z) = a * g pl u + b * g pl v := by
  simp only [g, Spec.comb, Vec3.inner, Vec3.sub]
  linear_combination (pl.org.x * pl.norm.x + pl.org.y * pl.norm.y + pl.org.z * pl.norm.z) * h

theorem g_comb3 (pl : Plane3 ℝ) {a b c : ℝ} (h : a + b + c = 1) (u v w z : Vec3 ℝ) : g pl (Spec.comb a b c 0 u v w z) = a * g pl u + b * g pl v + c * g pl w := by
  simp only [g, Spec.comb, Vec3.inner, Vec3.sub]
  linear_combination (pl.org.x * pl.norm.x + pl.org.y * pl.norm.y + pl.org.z * pl.norm.z) * h

theorem sub_inner (pl : Plane3 ℝ) (u v : Vec3 ℝ) : (v.sub u).inner pl.norm = g pl v - g pl u := by
  simp only [g, Vec3.inner, Vec3.sub]; ring

theorem org_inner (pl : Plane3 ℝ) (u : Vec3 ℝ) : (pl.org.sub u).inner pl.norm = - g pl u := by
  simp only [g, Vec3.inner, Vec3.sub]; ring

theorem seg_left (a b : Vec3 ℝ) : a ∈ Spec.segment a b := ⟨1, 0, zero_le_one, le_rfl, add_zero 1, by simp [Spec.comb]⟩
theorem seg_right (a b : Vec3 ℝ) : b ∈ Spec.segment a b := ⟨0, 1, le_rfl, zero_le_one, zero_add 1, by simp [Spec.comb]⟩

theorem seg_tri {u v w p : Vec3 ℝ} : (p ∈ Spec.segment u v → p ∈ Spec.triangle u v w) ∧ (p ∈ Spec.segment v w → p ∈ Spec.triangle u v w) ∧
    (p ∈ Spec.segment w u → p ∈ Spec.triangle u v w) := by
  refine ⟨?_, ?_, ?_⟩ <;> rintro ⟨a, b, ha, hb, hab, rfl⟩
  · exact ⟨a, b, 0, ha, hb, le_rfl, by linarith, by ext <;> simp [Spec.comb]⟩
  · exact ⟨0, a, b, le_rfl, ha, hb, by linarith, by ext <;> simp [Spec.comb]⟩
  · exact ⟨b, 0, a, hb, le_rfl, ha, by linarith, by ext <;> simp [Spec.comb] <;> ring⟩

theorem chk_iff (e0 e1 : Vec3 ℝ) (pl : Plane3 ℝ) : colChkEdgePlane e0 e1 pl ↔ g pl e0 * g pl e1 ≤ 0 := Iff.rfl

/-- The point of the edge on the plane. -/
theorem cut_point {e0 e1 : Vec3 ℝ} {pl : Plane3 ℝ} (hc : g pl e0 * g pl e1 ≤ 0) (hd : g pl e1 - g pl e0 ≠ 0) :
    let p := e0.add ((e1.sub e0).mul ((pl.org.sub e0).inner pl.norm / (e1.sub e0).inner pl.norm))
    p ∈ Spec.segment e0 e1 ∧ g pl p = 0 ∧ ∀ q ∈ Spec.segment e0 e1, g pl q = 0 → q = p := by
  intro p
  set t := (pl.org.sub e0).inner pl.norm / (e1.sub e0).inner pl.norm with ht
  have ht' : t = - g pl e0 / (g pl e1 - g pl e0) := by rw [ht, org_inner, sub_inner]
  have hp : p = Spec.comb (1 - t) t 0 0 e0 e1 e0 e0 := by
    rw [show p = e0.add ((e1.sub e0).mul t) from rfl]
    ext <;> simp only [Vec3.add, Vec3.mul, Vec3.sub, Spec.comb] <;> ring
  have htd : t * (g pl e1 - g pl e0) = - g pl e0 := by rw [ht', div_mul_cancel₀ _ hd]
  have h01 : 0 ≤ t ∧ t ≤ 1 := by
    have h2 : 0 < (g pl e1 - g pl e0) ^ 2 := by positivity
    have h3 : t * (1 - t) * (g pl e1 - g pl e0) ^ 2 = - (g pl e0 * g pl e1) := by
      linear_combination ((g pl e1 - g pl e0) * (1 - t) + g pl e0) * htd
    have h4 : 0 ≤ t * (1 - t) := by
      by_contra hc'
      push Not at hc'
      linarith [mul_neg_of_neg_of_pos hc' h2]
    constructor <;> nlinarith
  refine ⟨⟨1 - t, t, by linarith, h01.1, by ring, hp⟩, ?_, ?_⟩
  · rw [hp, g_comb2 pl (by ring)]; linarith
  · rintro q ⟨a, b, ha, hb, hab, rfl⟩ hq
    rw [g_comb2 pl hab] at hq
    have : b = t := by
      have : (b - t) * (g pl e1 - g pl e0) = 0 := by linear_combination hq - htd + -g pl e0 * hab
      rcases mul_eq_zero.1 this with h | h
      · linarith
      · exact absurd h hd
    rw [hp, ← this, show 1 - b = a by linarith]

theorem seg_plane (e0 e1 : Vec3 ℝ) (pl : Plane3 ℝ) : g pl e0 * g pl e1 ≤ 0 ↔ ∃ q ∈ Spec.segment e0 e1, g pl q = 0 := by
  constructor
  · intro h
    by_cases hd : g pl e1 - g pl e0 = 0
    · refine ⟨e0, seg_left _ _, ?_⟩
      have : g pl e1 = g pl e0 := by linarith
      rw [this] at h
      nlinarith [sq_nonneg (g pl e0)]
    · obtain ⟨h1, h2, -⟩ := cut_point h hd
      exact ⟨_, h1, h2⟩
  · rintro ⟨q, ⟨a, b, ha, hb, hab, rfl⟩, hq⟩
    rw [g_comb2 pl hab] at hq
    by_contra hc
    push Not at hc
    have h0 : 0 < g pl e0 ^ 2 := by
      have : g pl e0 ≠ 0 := fun h => by rw [h] at hc; simp at hc
      positivity
    have : a * g pl e0 ^ 2 + b * (g pl e0 * g pl e1) = 0 := by linear_combination g pl e0 * hq
    rcases eq_or_lt_of_le ha with h | h
    · have : b = 1 := by linarith
      nlinarith
    · nlinarith [mul_pos h h0, mul_nonneg hb hc.le]

/-- What `zIntersectEdgePlane3D` returns. -/
theorem edge_cases {τ : ℝ} (hτ : 0 ≤ τ) (e0 e1 : Vec3 ℝ) (pl : Plane3 ℝ) :
    (intersectEdgePlane τ e0 e1 pl = [] ∧ ¬ ∃ q ∈ Spec.segment e0 e1, g pl q = 0) ∨
    (intersectEdgePlane τ e0 e1 pl = [e0, e1] ∧ (∃ q ∈ Spec.segment e0 e1, g pl q = 0) ∧ |g pl e1 - g pl e0| ≤ τ ∧ |g pl e0| ≤ τ ∧ |g pl e1| ≤ τ) ∨
    (τ < |g pl e1 - g pl e0| ∧ ∃ p ∈ Spec.segment e0 e1, g pl p = 0 ∧ intersectEdgePlane τ e0 e1 pl = [p] ∧ ∀ q ∈ Spec.segment e0 e1, g pl q = 0 → q = p) := by
  unfold intersectEdgePlane
  by_cases hc : g pl e0 * g pl e1 ≤ 0
  · rw [if_neg (not_not.2 ((chk_iff _ _ _).2 hc))]
    dsimp only
    rw [sub_inner]
    by_cases hd : zIsTol (g pl e1 - g pl e0) τ
    · right; left
      rw [if_pos hd]
      simp only [zIsTol] at hd
      have hd' := abs_le.1 hd
      refine ⟨rfl, (seg_plane _ _ _).1 hc, hd, ?_, ?_⟩
      · rcases le_total 0 (g pl e0) with h | h
        · rw [abs_of_nonneg h]
          rcases le_total 0 (g pl e1) with h' | h'
          · rcases mul_eq_zero.1 (le_antisymm hc (mul_nonneg h h')) with k | k
            · rw [k]; exact hτ
            · linarith
          · linarith
        · rw [abs_of_nonpos h]
          rcases le_total 0 (g pl e1) with h' | h'
          · linarith
          · rcases mul_eq_zero.1 (le_antisymm hc (mul_nonneg_of_nonpos_of_nonpos h h')) with k | k
            · rw [k]; simpa using hτ
            · linarith
      · rcases le_total 0 (g pl e1) with h | h
        · rw [abs_of_nonneg h]
          rcases le_total 0 (g pl e0) with h' | h'
          · rcases mul_eq_zero.1 (le_antisymm hc (mul_nonneg h' h)) with k | k
            · linarith
            · rw [k]; exact hτ
          · linarith
        · rw [abs_of_nonpos h]
          rcases le_total 0 (g pl e0) with h' | h'
          · linarith
          · rcases mul_eq_zero.1 (le_antisymm hc (mul_nonneg_of_nonpos_of_nonpos h' h)) with k | k
            · linarith
            · rw [k]; simpa using hτ
    · right; right
      rw [if_neg hd]
      simp only [zIsTol, not_le] at hd
      have hne : g pl e1 - g pl e0 ≠ 0 := fun h => by rw [h, abs_zero] at hd; linarith
      obtain ⟨h1, h2, h3⟩ := cut_point hc hne
      refine ⟨hd, _, h1, h2, ?_, h3⟩
      rw [sub_inner pl e0 e1]
  · left
    rw [if_pos (fun h => hc ((chk_iff _ _ _).1 h))]
    exact ⟨rfl, fun h => hc ((seg_plane _ _ _).2 h)⟩

theorem edge_sound {τ : ℝ} (hτ : 0 ≤ τ) {e0 e1 : Vec3 ℝ} {pl : Plane3 ℝ} {p : Vec3 ℝ} (h : p ∈ intersectEdgePlane τ e0 e1 pl) :
    p ∈ Spec.segment e0 e1 ∧ |g pl p| ≤ τ := by
  rcases edge_cases hτ e0 e1 pl with ⟨h1, -⟩ | ⟨h1, -, -, h2, h3⟩ | ⟨-, q, hq, hg, h1, -⟩ <;> rw [h1] at h
  · simp at h
  · rcases List.mem_pair.1 h with rfl | rfl
    · exact ⟨seg_left _ _, h2⟩
    · exact ⟨seg_right _ _, h3⟩
  · rw [List.mem_singleton] at h
    subst h
    exact ⟨hq, by rw [hg, abs_zero]; exact hτ⟩

theorem edge_nil {τ : ℝ} (hτ : 0 ≤ τ) (e0 e1 : Vec3 ℝ) (pl : Plane3 ℝ) :
    intersectEdgePlane τ e0 e1 pl = [] ↔ ¬ ∃ q ∈ Spec.segment e0 e1, g pl q = 0 := by
  rcases edge_cases hτ e0 e1 pl with ⟨h1, h2⟩ | ⟨h1, h2, -⟩ | ⟨-, q, hq, hg, h1, -⟩ <;> rw [h1]
  · exact ⟨fun _ => h2, fun _ => rfl⟩
  · simp only [reduceCtorEq, false_iff, not_not]; exact h2
  · simp only [reduceCtorEq, false_iff, not_not]; exact ⟨q, hq, hg⟩

/-! ## A triangle cut by a plane -/

/-- A point of a triangle on a plane can be pushed to an edge, staying on the plane and not raising `f`. -/
theorem push3 {l g f : Fin 3 → ℝ} (hl : ∀ i, 0 ≤ l i) (hs : ∑ i, l i = 1) (hg : ∑ i, l i * g i = 0) (hne : ¬ (g 0 = g 1 ∧ g 1 = g 2)) :
    ∃ k : Fin 3 → ℝ, (∀ i, 0 ≤ k i) ∧ ∑ i, k i = 1 ∧ ∑ i, k i * g i = 0 ∧ ∑ i, k i * f i ≤ ∑ i, l i * f i ∧ ∃ i, k i = 0 := by
  -- a direction that keeps both sums, chosen so that `f` does not grow
  obtain ⟨m, hm0, hm1, hm2, hm3⟩ : ∃ m : Fin 3 → ℝ, ∑ i, m i = 0 ∧ ∑ i, m i * g i = 0 ∧ ∑ i, m i * f i ≤ 0 ∧ ∃ i, m i < 0 := by
    set m : Fin 3 → ℝ := ![g 1 - g 2, g 2 - g 0, g 0 - g 1] with hm
    have h0 : ∑ i, m i = 0 := by simp [Fin.sum_univ_three, hm]
    have h1 : ∑ i, m i * g i = 0 := by simp only [Fin.sum_univ_three, hm, Matrix.cons_val_zero, Matrix.cons_val_one, Matrix.cons_val]; ring
    have hn : ∃ i, m i < 0 := by
      by_contra hc
      push Not at hc
      have a0 := hc 0; have a1 := hc 1; have a2 := hc 2
      simp only [hm, Matrix.cons_val_zero, Matrix.cons_val_one, Matrix.cons_val] at a0 a1 a2
      exact hne ⟨by linarith, by linarith⟩
    have hp : ∃ i, - m i < 0 := by
      by_contra hc
      push Not at hc
      have a0 := hc 0; have a1 := hc 1; have a2 := hc 2
      simp only [hm, Matrix.cons_val_zero, Matrix.cons_val_one, Matrix.cons_val] at a0 a1 a2
      exact hne ⟨by linarith, by linarith⟩
    rcases le_total (∑ i, m i * f i) 0 with h | h
    · exact ⟨m, h0, h1, h, hn⟩
    · refine ⟨fun i => - m i, ?_, ?_, ?_, hp⟩
      · rw [Finset.sum_neg_distrib, h0, neg_zero]
      · simp only [neg_mul, Finset.sum_neg_distrib, h1, neg_zero]
      · simp only [neg_mul, Finset.sum_neg_distrib]; linarith
  obtain ⟨j, hj, hjm⟩ := Finset.exists_min_image (Finset.univ.filter fun i => m i < 0) (fun i => l i / - m i)
    (by obtain ⟨i, hi⟩ := hm3; exact ⟨i, by simpa using hi⟩)
  have hj0 : m j < 0 := by simpa using hj
  set t := l j / - m j with ht
  have ht0 : 0 ≤ t := div_nonneg (hl j) (by linarith)
  refine ⟨fun i => l i + t * m i, fun i => ?_, ?_, ?_, ?_, j, ?_⟩
  · rcases lt_or_ge (m i) 0 with h | h
    · have := hjm i (by simpa using h)
      rw [le_div_iff₀ (by linarith)] at this
      linarith
    · have := mul_nonneg ht0 h
      linarith [hl i]
  · rw [Finset.sum_add_distrib, ← Finset.mul_sum, hs, hm0]; ring
  · simp only [add_mul, Finset.sum_add_distrib, mul_assoc, ← Finset.mul_sum, hg, hm1]; ring
  · simp only [add_mul, Finset.sum_add_distrib, mul_assoc, ← Finset.mul_sum]
    nlinarith
  · show l j + t * m j = 0
    rw [ht]
    have : m j ≠ 0 := hj0.ne
    rw [div_neg, neg_mul, div_mul_cancel₀ _ this, add_neg_cancel]

/-- Linear functions on points. -/
theorem inner_comb (d : Vec3 ℝ) (a b c : ℝ) (u v w z : Vec3 ℝ) : d.inner (Spec.comb a b c 0 u v w z) = a * d.inner u + b * d.inner v + c * d.inner w := by
  simp only [Spec.comb, Vec3.inner]; ring

theorem push {v0 v1 v2 x : Vec3 ℝ} {pl : Plane3 ℝ} (d : Vec3 ℝ) (hx : x ∈ Spec.triangle v0 v1 v2) (hg : g pl x = 0)
    (hne : ¬ (g pl v0 = g pl v1 ∧ g pl v1 = g pl v2)) :
    ∃ a, (a ∈ Spec.segment v0 v1 ∨ a ∈ Spec.segment v1 v2 ∨ a ∈ Spec.segment v2 v0) ∧ g pl a = 0 ∧ d.inner a ≤ d.inner x := by
  obtain ⟨a, b, c, ha, hb, hc, hs, rfl⟩ := hx
  rw [g_comb3 pl hs] at hg
  obtain ⟨k, k0, k1, k2, k3, i, ki⟩ := push3 (l := ![a, b, c]) (g := ![g pl v0, g pl v1, g pl v2]) (f := ![d.inner v0, d.inner v1, d.inner v2])
    (by intro i; fin_cases i <;> simpa) (by simpa [Fin.sum_univ_three] using hs) (by simpa [Fin.sum_univ_three] using hg) (by simpa using hne)
  simp only [Fin.sum_univ_three, Matrix.cons_val_zero, Matrix.cons_val_one, Matrix.cons_val] at k1 k2 k3
  refine ⟨Spec.comb (k 0) (k 1) (k 2) 0 v0 v1 v2 v0, ?_, by rw [g_comb3 pl k1]; exact k2, by rw [inner_comb, inner_comb]; exact k3⟩
  have z0 := k0 0; have z1 := k0 1; have z2 := k0 2
  fin_cases i
  · right; left
    replace ki : k 0 = 0 := ki
    exact ⟨k 1, k 2, z1, z2, by linarith, by ext <;> simp [Spec.comb, ki]⟩
  · right; right
    replace ki : k 1 = 0 := ki
    exact ⟨k 2, k 0, z2, z0, by linarith, by ext <;> simp [Spec.comb, ki] <;> ring⟩
  · left
    replace ki : k 2 = 0 := ki
    exact ⟨k 0, k 1, z0, z1, by linarith, by ext <;> simp [Spec.comb, ki]⟩

theorem tri_plane (v0 v1 v2 : Vec3 ℝ) (pl : Plane3 ℝ) : (∃ q ∈ Spec.triangle v0 v1 v2, g pl q = 0) ↔
    (∃ q ∈ Spec.segment v0 v1, g pl q = 0) ∨ (∃ q ∈ Spec.segment v1 v2, g pl q = 0) ∨ (∃ q ∈ Spec.segment v2 v0, g pl q = 0) := by
  constructor
  · rintro ⟨q, hq, hg⟩
    by_cases hne : g pl v0 = g pl v1 ∧ g pl v1 = g pl v2
    · left
      refine ⟨v0, seg_left _ _, ?_⟩
      obtain ⟨a, b, c, -, -, -, hs, rfl⟩ := hq
      rw [g_comb3 pl hs, ← hne.2, ← hne.1] at hg
      have : (a + b + c) * g pl v0 = 0 := by linarith
      rwa [hs, one_mul] at this
    · obtain ⟨a, h1 | h1 | h1, h2, -⟩ := push ⟨0, 0, 0⟩ hq hg hne
      · exact Or.inl ⟨a, h1, h2⟩
      · exact Or.inr (Or.inl ⟨a, h1, h2⟩)
      · exact Or.inr (Or.inr ⟨a, h1, h2⟩)
  · have := @seg_tri v0 v1 v2
    rintro (⟨q, hq, h⟩ | ⟨q, hq, h⟩ | ⟨q, hq, h⟩)
    · exact ⟨q, this.1 hq, h⟩
    · exact ⟨q, this.2.1 hq, h⟩
    · exact ⟨q, this.2.2 hq, h⟩

/-! ## The list of distinct points -/

theorem equal_refl {τ : ℝ} (hτ : 0 ≤ τ) (v : Vec3 ℝ) : Vec3.equal τ v v := by
  simp [Vec3.equal, zIsTol, hτ]

theorem addNew_sub {τ : ℝ} {ip : List (Vec3 ℝ)} {v p : Vec3 ℝ} (h : p ∈ addNew τ ip v) : p ∈ ip ∨ p = v := by
  unfold addNew at h
  split at h
  · exact Or.inl h
  · simpa using h

theorem sub_addNew {τ : ℝ} {ip : List (Vec3 ℝ)} (v : Vec3 ℝ) {p : Vec3 ℝ} (h : p ∈ ip) : p ∈ addNew τ ip v := by
  unfold addNew
  split
  · exact h
  · simp [h]

theorem addNew_has {τ : ℝ} (hτ : 0 ≤ τ) (ip : List (Vec3 ℝ)) (v : Vec3 ℝ) : ∃ q ∈ addNew τ ip v, Vec3.equal τ v q := by
  unfold addNew
  split
  · assumption
  · exact ⟨v, by simp, equal_refl hτ v⟩

theorem addNew_nodup {τ : ℝ} (hτ : 0 ≤ τ) {ip : List (Vec3 ℝ)} (v : Vec3 ℝ) (h : ip.Nodup) : (addNew τ ip v).Nodup := by
  unfold addNew
  split
  · exact h
  · rename_i hn
    rw [List.nodup_append]
    refine ⟨h, by simp, ?_⟩
    rintro a ha b hb rfl
    rw [List.mem_singleton] at hb
    subst hb
    exact hn ⟨a, ha, equal_refl hτ a⟩

theorem fold_sub {τ : ℝ} (l : List (Vec3 ℝ)) : ∀ {ip : List (Vec3 ℝ)} {p : Vec3 ℝ}, p ∈ l.foldl (addNew τ) ip → p ∈ ip ∨ p ∈ l := by
  induction l with
  | nil => intro ip p h; exact Or.inl h
  | cons v l ih =>
    intro ip p h
    rw [List.foldl_cons] at h
    rcases ih h with h | h
    · rcases addNew_sub h with h | h
      · exact Or.inl h
      · exact Or.inr (by simp [h])
    · exact Or.inr (by simp [h])

theorem sub_fold {τ : ℝ} (l : List (Vec3 ℝ)) : ∀ {ip : List (Vec3 ℝ)} {p : Vec3 ℝ}, p ∈ ip → p ∈ l.foldl (addNew τ) ip := by
  induction l with
  | nil => intro ip p h; exact h
  | cons v l ih => intro ip p h; exact ih (sub_addNew v h)

theorem fold_has {τ : ℝ} (hτ : 0 ≤ τ) (l : List (Vec3 ℝ)) : ∀ (ip : List (Vec3 ℝ)) {p : Vec3 ℝ}, p ∈ l → ∃ q ∈ l.foldl (addNew τ) ip, Vec3.equal τ p q := by
  induction l with
  | nil => intro ip p h; simp at h
  | cons v l ih =>
    intro ip p h
    rcases List.mem_cons.1 h with rfl | h
    · obtain ⟨q, hq, he⟩ := addNew_has hτ ip p
      exact ⟨q, sub_fold l hq, he⟩
    · exact ih _ h

theorem fold_nodup {τ : ℝ} (hτ : 0 ≤ τ) (l : List (Vec3 ℝ)) : ∀ {ip : List (Vec3 ℝ)}, ip.Nodup → (l.foldl (addNew τ) ip).Nodup := by
  induction l with
  | nil => intro ip h; exact h
  | cons v l ih => intro ip h; exact ih (addNew_nodup hτ v h)

theorem triPlane_eq (τ : ℝ) (v0 v1 v2 : Vec3 ℝ) (pl : Plane3 ℝ) : intersectTriPlane τ v0 v1 v2 pl =
    (intersectEdgePlane τ v0 v1 pl ++ intersectEdgePlane τ v1 v2 pl ++ intersectEdgePlane τ v2 v0 pl).foldl (addNew τ) [] := by
  rw [List.foldl_append, List.foldl_append]; rfl

theorem triPlane_mem {τ : ℝ} {v0 v1 v2 : Vec3 ℝ} {pl : Plane3 ℝ} {p : Vec3 ℝ} (h : p ∈ intersectTriPlane τ v0 v1 v2 pl) :
    p ∈ intersectEdgePlane τ v0 v1 pl ∨ p ∈ intersectEdgePlane τ v1 v2 pl ∨ p ∈ intersectEdgePlane τ v2 v0 pl := by
  rw [triPlane_eq] at h
  rcases fold_sub _ h with h | h
  · simp at h
  · simpa [or_assoc] using h

theorem triPlane_has {τ : ℝ} (hτ : 0 ≤ τ) {v0 v1 v2 : Vec3 ℝ} {pl : Plane3 ℝ} {p : Vec3 ℝ}
    (h : p ∈ intersectEdgePlane τ v0 v1 pl ∨ p ∈ intersectEdgePlane τ v1 v2 pl ∨ p ∈ intersectEdgePlane τ v2 v0 pl) :
    ∃ q ∈ intersectTriPlane τ v0 v1 v2 pl, Vec3.equal τ p q := by
  rw [triPlane_eq]
  exact fold_has hτ _ _ (by simpa [or_assoc] using h)

theorem triPlane_nodup {τ : ℝ} (hτ : 0 ≤ τ) (v0 v1 v2 : Vec3 ℝ) (pl : Plane3 ℝ) : (intersectTriPlane τ v0 v1 v2 pl).Nodup := by
  rw [triPlane_eq]; exact fold_nodup hτ _ List.nodup_nil

private theorem le4 {l : List (Vec3 ℝ)} (hn : l.Nodup) {a b c d : Vec3 ℝ} (h : ∀ p ∈ l, p = a ∨ p = b ∨ p = c ∨ p = d) : l.length ≤ 4 := by
  rw [← List.toFinset_card_of_nodup hn]
  refine (Finset.card_le_card (t := {a, b, c, d}) fun p hp => ?_).trans (Finset.card_le_four)
  have := h p (by simpa using hp)
  simpa using this

theorem triPlane_le {τ : ℝ} (hτ : 0 ≤ τ) (v0 v1 v2 : Vec3 ℝ) (pl : Plane3 ℝ) : (intersectTriPlane τ v0 v1 v2 pl).length ≤ 4 := by
  have hn := triPlane_nodup hτ v0 v1 v2 pl
  have K : ∀ e0 e1 : Vec3 ℝ, (∃ x, ∀ p ∈ intersectEdgePlane τ e0 e1 pl, p = x) ∨ intersectEdgePlane τ e0 e1 pl = [e0, e1] := fun e0 e1 => by
    rcases edge_cases hτ e0 e1 pl with ⟨h1, -⟩ | ⟨h1, -⟩ | ⟨-, q, -, -, h1, -⟩
    · left; exact ⟨e0, by simp [h1]⟩
    · exact Or.inr h1
    · left; exact ⟨q, by simp [h1]⟩
  have M := fun p (h : p ∈ intersectTriPlane τ v0 v1 v2 pl) => triPlane_mem h
  rcases K v0 v1 with ⟨x, hx⟩ | hx <;> rcases K v1 v2 with ⟨y, hy⟩ | hy <;> rcases K v2 v0 with ⟨z, hz⟩ | hz
  · exact le4 hn (a := x) (b := y) (c := z) (d := z) fun p hp => by
      rcases M p hp with h | h | h
      · simp [hx p h]
      · simp [hy p h]
      · simp [hz p h]
  · rw [hz] at M
    exact le4 hn (a := x) (b := y) (c := v2) (d := v0) fun p hp => by
      rcases M p hp with h | h | h
      · simp [hx p h]
      · simp [hy p h]
      · rcases List.mem_pair.1 h with h | h <;> simp [h]
  · rw [hy] at M
    exact le4 hn (a := x) (b := z) (c := v1) (d := v2) fun p hp => by
      rcases M p hp with h | h | h
      · simp [hx p h]
      · rcases List.mem_pair.1 h with h | h <;> simp [h]
      · simp [hz p h]
  · rw [hy, hz] at M
    exact le4 hn (a := x) (b := v0) (c := v1) (d := v2) fun p hp => by
      rcases M p hp with h | h | h
      · simp [hx p h]
      · rcases List.mem_pair.1 h with h | h <;> simp [h]
      · rcases List.mem_pair.1 h with h | h <;> simp [h]
  · rw [hx] at M
    exact le4 hn (a := y) (b := z) (c := v0) (d := v1) fun p hp => by
      rcases M p hp with h | h | h
      · rcases List.mem_pair.1 h with h | h <;> simp [h]
      · simp [hy p h]
      · simp [hz p h]
  · rw [hx, hz] at M
    exact le4 hn (a := y) (b := v0) (c := v1) (d := v2) fun p hp => by
      rcases M p hp with h | h | h
      · rcases List.mem_pair.1 h with h | h <;> simp [h]
      · simp [hy p h]
      · rcases List.mem_pair.1 h with h | h <;> simp [h]
  · rw [hx, hy] at M
    exact le4 hn (a := z) (b := v0) (c := v1) (d := v2) fun p hp => by
      rcases M p hp with h | h | h
      · rcases List.mem_pair.1 h with h | h <;> simp [h]
      · rcases List.mem_pair.1 h with h | h <;> simp [h]
      · simp [hz p h]
  · rw [hx, hy, hz] at M
    exact le4 hn (a := v0) (b := v0) (c := v1) (d := v2) fun p hp => by
      rcases M p hp with h | h | h <;> rcases List.mem_pair.1 h with h | h <;> simp [h]

/-! ## Convexity on a line -/

theorem tri_convex {v0 v1 v2 p q : Vec3 ℝ} (hp : p ∈ Spec.triangle v0 v1 v2) (hq : q ∈ Spec.triangle v0 v1 v2) {s t : ℝ} (hs : 0 ≤ s) (ht : 0 ≤ t)
    (hst : s + t = 1) : Spec.comb s t 0 0 p q p p ∈ Spec.triangle v0 v1 v2 := by
  obtain ⟨a, b, c, ha, hb, hc, hs', rfl⟩ := hp
  obtain ⟨a', b', c', ha', hb', hc', hs'', rfl⟩ := hq
  refine ⟨s * a + t * a', s * b + t * b', s * c + t * c', by positivity, by positivity, by positivity, ?_, ?_⟩
  · linear_combination s * hs' + t * hs'' + hst
  · ext <;> simp only [Spec.comb] <;> ring

/-- The plane made from a triangle. -/
theorem toPlane_create {τ : ℝ} (hτ : 0 ≤ τ) (hτ' : τ ≤ 1/4) {a b c : Vec3 ℝ} (h : ¬ (Tri3.outerProd a b c).isTol τ) :
    ∃ n, (Tri3.create τ a b c).2 = ⟨a, b, c, n⟩ ∧ (Tri3.create τ a b c).2.toPlane τ = some ⟨a, n⟩ ∧ n.sqrNorm = 1 ∧
      (∃ k, 0 < k ∧ Tri3.outerProd a b c = n.mul k) ∧ ∀ p ∈ Spec.triangle a b c, g ⟨a, n⟩ p = 0 := by
  obtain ⟨h1, h2, h3⟩ := normalize_unit hτ (old := Tri3.outerProd a b c) h
  set n := ((Tri3.outerProd a b c).normalize τ (Tri3.outerProd a b c)).2 with hn
  have hc : (Tri3.create τ a b c).2 = ⟨a, b, c, n⟩ := by
    unfold Tri3.create; dsimp only; rw [if_neg h]
  have hnt : ¬ n.isTol τ := by
    rintro ⟨k1, k2, k3⟩
    simp only [zIsTol] at k1 k2 k3
    have a1 := sq_le_sq' (by linarith [abs_le.1 k1]) (abs_le.1 k1).2
    have a2 := sq_le_sq' (by linarith [abs_le.1 k2]) (abs_le.1 k2).2
    have a3 := sq_le_sq' (by linarith [abs_le.1 k3]) (abs_le.1 k3).2
    simp only [Vec3.sqrNorm, Vec3.inner] at h1
    nlinarith
  have hnn : (n.normalize τ n).2 = n := by
    rw [Vec3.normalize, if_neg hnt, Vec3.normalizeNC]
    have : n.norm = 1 := by rw [Vec3.norm, h1, Real.sqrt_one]
    rw [this]
    ext <;> simp [Vec3.mul]
  refine ⟨n, hc, ?_, h1, ⟨_, h3, h2⟩, ?_⟩
  · rw [hc, Tri3.toPlane, Plane3.create]
    dsimp only
    rw [if_neg hnt, hnn]
  · rintro p ⟨x, y, z, -, -, -, hs, rfl⟩
    rw [g_comb3 _ hs]
    have e : ∀ v : Vec3 ℝ, g ⟨a, n⟩ v * (Tri3.outerProd a b c).norm = (v.sub a).inner (Tri3.outerProd a b c) := fun v => by
      generalize (Tri3.outerProd a b c).norm = k at h2
      rw [h2]; simp only [g, Vec3.inner, Vec3.sub, Vec3.mul]; ring
    have za : g ⟨a, n⟩ a = 0 := by simp [g, Vec3.inner, Vec3.sub]
    have zb : g ⟨a, n⟩ b = 0 := by
      have := e b
      rw [show (b.sub a).inner (Tri3.outerProd a b c) = 0 by simp only [Tri3.outerProd, zeo]; ring] at this
      exact (mul_eq_zero.1 this).resolve_right h3.ne'
    have zc : g ⟨a, n⟩ c = 0 := by
      have := e c
      rw [show (c.sub a).inner (Tri3.outerProd a b c) = 0 by simp only [Tri3.outerProd, zeo]; ring] at this
      exact (mul_eq_zero.1 this).resolve_right h3.ne'
    rw [za, zb, zc]; ring

end Zeo.Meet
