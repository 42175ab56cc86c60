import Verif.Lemmas.Nurbs
import Verif.Lemmas.Hull

/-! # Values of NURBS surfaces -/

namespace Zeo
open Finset Spec

theorem inHull_finset {ι : Type*} (s : Finset ι) (L : ι → ℝ) (p : ι → Vec3 ℝ) {S : Set (Vec3 ℝ)}
    (hp : ∀ i ∈ s, L i ≠ 0 → p i ∈ S) (h0 : ∀ i ∈ s, 0 ≤ L i) (h1 : ∑ i ∈ s, L i = 1) :
    InHull S ⟨∑ i ∈ s, L i * (p i).x, ∑ i ∈ s, L i * (p i).y, ∑ i ∈ s, L i * (p i).z⟩ := by
  classical
  set t := s.filter fun i => L i ≠ 0
  have ht : ∀ f : ι → ℝ, ∑ i ∈ s, L i * f i = ∑ k : Fin t.card, L (t.equivFin.symm k) * f (t.equivFin.symm k) := by
    intro f
    rw [← sum_filter_of_ne (s := s) (p := fun i => L i ≠ 0) (fun i _ h => left_ne_zero_of_mul h)]
    show ∑ i ∈ t, _ = _
    rw [← sum_coe_sort t fun i => L i * f i]
    exact (Fintype.sum_equiv t.equivFin.symm _ _ fun k => rfl).symm
  have hm : ∀ k : Fin t.card, (t.equivFin.symm k : ι) ∈ s ∧ L (t.equivFin.symm k) ≠ 0 :=
    fun k => mem_filter.1 (t.equivFin.symm k).2
  refine ⟨t.card, fun k => L (t.equivFin.symm k), fun k => p (t.equivFin.symm k), fun k => hp _ (hm k).1 (hm k).2,
    fun k => h0 _ (hm k).1, ?_, ?_⟩
  · have := ht fun _ => 1
    simp only [mul_one] at this
    rw [← this, h1]
  · rw [ht, ht, ht]

namespace Spec.KnotsOK
variable {b : BSpline} {n : ℕ}

theorem kmono (h : KnotsOK b n) {i j : ℕ} (hij : i ≤ j) (hj : j ≤ n + b.order) : b.kn i ≤ b.kn j :=
  BSpline.kn_mono h.mono hij (by rw [h.len]; omega)

theorem order_lt (h : KnotsOK b n) : b.order < n := by
  by_contra hc
  exact absurd h.wide (not_lt.2 (h.kmono (by omega) (by omega)))

theorem num_eq (h : KnotsOK b n) : b.num = n := by unfold BSpline.num; rw [h.len]; omega

theorem seg {sg : BSpline → ℝ → ℕ} (hs : IsSegment sg) (h : KnotsOK b n) {t : ℝ} (ht : InDomain b n t) :
    BSpline.Seg b t (sg b t) := by
  obtain ⟨h1, h2, h3, h4, h5⟩ := hs b n t h ht
  exact ⟨fun i j hij hj => BSpline.kn_mono h.mono hij hj, h3, h4, h5⟩

theorem nonneg {sg : BSpline → ℝ → ℕ} (hs : IsSegment sg) (h : KnotsOK b n) {t : ℝ} (ht : InDomain b n t) (i : ℕ) :
    0 ≤ b.basis t (sg b t) b.order i := by
  obtain ⟨h1, h2, -⟩ := hs b n t h ht
  exact BSpline.basis_nonneg (h.seg hs ht) _ _ (by rw [h.len]; omega)

theorem sum_one {sg : BSpline → ℝ → ℕ} (hs : IsSegment sg) (h : KnotsOK b n) {t : ℝ} (ht : InDomain b n t) :
    ∑ i ∈ range n, b.basis t (sg b t) b.order i = 1 := by
  obtain ⟨h1, h2, -⟩ := hs b n t h ht
  rw [← BSpline.basis_sum (h.seg hs ht) b.order h1 (by rw [h.len]; omega)]
  obtain ⟨d, hd⟩ : ∃ d, n = sg b t + 1 + d := ⟨n - (sg b t + 1), by omega⟩
  conv_lhs => rw [hd]
  rw [sum_range_add, sum_eq_zero (s := range d), add_zero]
  intro i _
  exact BSpline.basis_zero_of_lt _ _ _ _ _ (by omega)

theorem support {sg : BSpline → ℝ → ℕ} (hs : IsSegment sg) (h : KnotsOK b n) {t : ℝ} (ht : InDomain b n t) {i : ℕ}
    (hi : b.basis t (sg b t) b.order i ≠ 0) : i < n ∧ b.kn i ≤ t ∧ t ≤ b.kn (i + b.order + 1) := by
  obtain ⟨h1, h2, h3, h4, h5⟩ := hs b n t h ht
  have a1 : i ≤ sg b t := by
    by_contra hc; exact hi (BSpline.basis_zero_of_lt _ _ _ _ _ (by omega))
  have a2 : sg b t ≤ i + b.order := by
    by_contra hc; exact hi (BSpline.basis_zero_of_gt _ _ _ _ _ (by omega))
  exact ⟨by omega, (h.kmono a1 (by omega)).trans h4, h5.trans (h.kmono (by omega) (by omega))⟩

/-- Inside a segment the search finds that segment. -/
theorem seg_unique {sg : BSpline → ℝ → ℕ} (hs : IsSegment sg) (h : KnotsOK b n) {t : ℝ} (ht : InDomain b n t) {s : ℕ}
    (hs1 : s < n) (h1 : b.kn s < t) (h2 : t < b.kn (s + 1)) : sg b t = s := by
  obtain ⟨a1, a2, a3, a4, a5⟩ := hs b n t h ht
  rcases lt_trichotomy (sg b t) s with hl | he | hg
  · have := h.kmono (i := sg b t + 1) (j := s) (by omega) (by omega); linarith
  · exact he
  · have := h.kmono (i := s + 1) (j := sg b t) (by omega) (by omega); linarith

end Spec.KnotsOK

namespace NURBS
variable {n : NURBS} {sg : BSpline → ℝ → ℕ}

theorem _root_.Zeo.Spec.NurbsOK.inside (hn : NurbsOK n) (hs : IsSegment sg) {u v : ℝ} (hu : InDomain n.p0 n.n0 u)
    (hv : InDomain n.p1 n.n1 v) : Inside n (sg n.p0 u) (sg n.p1 v) := by
  obtain ⟨h1, h2, -⟩ := hs _ _ u hn.k0 hu
  obtain ⟨h3, h4, -⟩ := hs _ _ v hn.k1 hv
  exact ⟨h1, h2, h3, h4⟩

theorem dsum_prod (n0 n1 : ℕ) (A B : ℕ → ℝ) (X : ℕ → ℕ → ℝ) :
    dsum n0 n1 A B X = ∑ k ∈ range n0 ×ˢ range n1, A k.1 * B k.2 * X k.1 k.2 := by
  unfold dsum
  rw [sum_product]
  refine sum_congr rfl fun i _ => ?_
  rw [mul_sum]
  exact sum_congr rfl fun j _ => by ring

theorem dsum_add (n0 n1 : ℕ) (A B : ℕ → ℝ) (X Y : ℕ → ℕ → ℝ) :
    dsum n0 n1 A B (fun i j => X i j + Y i j) = dsum n0 n1 A B X + dsum n0 n1 A B Y := by
  simp only [dsum_prod, ← sum_add_distrib, mul_add]

theorem dsum_mul (n0 n1 : ℕ) (A B : ℕ → ℝ) (c : ℝ) (X : ℕ → ℕ → ℝ) :
    dsum n0 n1 A B (fun i j => c * X i j) = c * dsum n0 n1 A B X := by
  simp only [dsum_prod, mul_sum]
  exact sum_congr rfl fun i _ => by ring

/-- Positive weights give a positive denominator. -/
theorem den_pos (hn : NurbsOK n) (hs : IsSegment sg) {u v τ : ℝ} (hu : InDomain n.p0 n.n0 u) (hv : InDomain n.p1 n.n1 v)
    (hw : ∀ i < n.n0, ∀ j < n.n1, τ < n.w i j) :
    τ < dsum n.n0 n.n1 (n.p0.basis u (sg n.p0 u) n.p0.order) (n.p1.basis v (sg n.p1 v) n.p1.order) n.w := by
  set A := n.p0.basis u (sg n.p0 u) n.p0.order
  set B := n.p1.basis v (sg n.p1 v) n.p1.order
  have hA : ∀ i, 0 ≤ A i := hn.k0.nonneg hs hu
  have hB : ∀ i, 0 ≤ B i := hn.k1.nonneg hs hv
  have h1 : ∑ k ∈ range n.n0 ×ˢ range n.n1, A k.1 * B k.2 = 1 := by
    rw [sum_product]
    simp only [← mul_sum]
    rw [hn.k1.sum_one hs hv]
    simpa using hn.k0.sum_one hs hu
  rw [dsum_prod]
  have h2 : 0 ≤ ∑ k ∈ range n.n0 ×ˢ range n.n1, A k.1 * B k.2 * (n.w k.1 k.2 - τ) := by
    refine sum_nonneg fun k hk => ?_
    obtain ⟨a, b⟩ := mem_product.1 hk
    exact mul_nonneg (mul_nonneg (hA _) (hB _)) (sub_nonneg.2 (hw _ (mem_range.1 a) _ (mem_range.1 b)).le)
  have h3 : ∑ k ∈ range n.n0 ×ˢ range n.n1, A k.1 * B k.2 * (n.w k.1 k.2 - τ) =
      ∑ k ∈ range n.n0 ×ˢ range n.n1, A k.1 * B k.2 * n.w k.1 k.2 - τ := by
    simp only [mul_sub, sum_sub_distrib, ← sum_mul, h1, one_mul]
  rcases h2.eq_or_lt with he | hl
  · exfalso
    have := (sum_eq_zero_iff_of_nonneg (fun k hk => ?_)).1 he.symm
    · have : ∑ k ∈ range n.n0 ×ˢ range n.n1, A k.1 * B k.2 = 0 := sum_eq_zero fun k hk => by
        obtain ⟨a, b⟩ := mem_product.1 hk
        rcases mul_eq_zero.1 (this k hk) with h | h
        · exact h
        · exact absurd h (sub_pos.2 (hw _ (mem_range.1 a) _ (mem_range.1 b))).ne'
      linarith
    · obtain ⟨a, b⟩ := mem_product.1 hk
      exact mul_nonneg (mul_nonneg (hA _) (hB _)) (sub_nonneg.2 (hw _ (mem_range.1 a) _ (mem_range.1 b)).le)
  · linarith

end NURBS
end Zeo
