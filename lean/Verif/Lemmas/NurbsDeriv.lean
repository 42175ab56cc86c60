import Verif.Lemmas.NurbsEval

/-! # Tangents, corners and the search of segments of NURBS surfaces -/

namespace Zeo
open Finset Spec

/-- There is a search of segments that works. -/
theorem exists_segment : ∃ sg : BSpline → ℝ → ℕ, IsSegment sg := by
  classical
  refine ⟨fun b t => Nat.findGreatest (fun s => b.kn s ≤ t ∧ b.kn s < b.kn b.num) (b.num - 1), ?_⟩
  intro b n t h ⟨h1, h2⟩
  have ho := h.order_lt
  dsimp only
  rw [h.num_eq]
  set s := Nat.findGreatest (fun s => b.kn s ≤ t ∧ b.kn s < b.kn n) (n - 1) with hsd
  have hP : b.kn s ≤ t ∧ b.kn s < b.kn n :=
    Nat.findGreatest_spec (P := fun s => b.kn s ≤ t ∧ b.kn s < b.kn n) (m := b.order) (by omega) ⟨h1, h.wide⟩
  have hle : b.order ≤ s := Nat.le_findGreatest (by omega) ⟨h1, h.wide⟩
  have hsn : s ≤ n - 1 := Nat.findGreatest_le _
  have hN : b.kn s < b.kn (s + 1) ∧ t ≤ b.kn (s + 1) := by
    rcases Nat.lt_or_ge (s + 1) n with hl | hg
    · have := Nat.findGreatest_is_greatest (P := fun s => b.kn s ≤ t ∧ b.kn s < b.kn n) (n := n - 1) (k := s + 1)
        (by omega) (by omega)
      rw [not_and_or, not_le, not_lt] at this
      rcases this with h' | h'
      · exact ⟨lt_of_le_of_lt hP.1 h', h'.le⟩
      · exact ⟨lt_of_lt_of_le hP.2 h', h2.trans h'⟩
    · have : s + 1 = n := by omega
      rw [this]; exact ⟨hP.2, h2⟩
  exact ⟨hle, by omega, hN.1, hP.1, hN.2⟩

namespace BSpline

/-- At the start of a segment whose knots before are all equal, one basis function is one. -/
theorem basis_start {b : BSpline} {t : ℝ} {s : ℕ} (h1 : ∀ i, i ≤ s → b.kn i = t) (h2 : t < b.kn (s + 1)) :
    ∀ r i, r ≤ s → b.basis t s r i = if i + r = s then 1 else 0
  | 0, i, _ => by simp [basis]
  | r + 1, i, hr => by
    rw [basis]
    by_cases hi : s < i
    · rw [basis_zero_of_lt b t s r i hi, basis_zero_of_lt b t s r (i + 1) (by omega), if_neg (by omega)]; simp
    · rw [h1 i (by omega), sub_self, show ratio 0 (b.kn (i + r + 1) - t) = 0 by unfold ratio; split_ifs <;> simp,
        zero_mul, zero_add, basis_start h1 h2 r (i + 1) (by omega)]
      by_cases h : i + (r + 1) = s
      · rw [if_pos (by omega), if_pos h, h1 (i + 1) (by omega), show i + r + 2 = s + 1 by omega]
        unfold ratio
        rw [if_neg (sub_pos.2 h2).ne', div_self (sub_pos.2 h2).ne']; simp
      · rw [if_neg (by omega), if_neg h]; simp

/-- At the end of a segment whose knots behind are all equal, one basis function is one. -/
theorem basis_stop {b : BSpline} {t : ℝ} {s m : ℕ} (h1 : ∀ i, s < i → i ≤ m → b.kn i = t) (h2 : b.kn s < t) :
    ∀ r i, s + r + 1 ≤ m → b.basis t s r i = if i = s then 1 else 0
  | 0, i, _ => by simp [basis]
  | r + 1, i, hr => by
    rw [basis, basis_stop h1 h2 r i (by omega), basis_stop h1 h2 r (i + 1) (by omega)]
    by_cases h : i = s
    · subst h
      rw [if_pos rfl, if_neg (by omega), h1 (i + r + 1) (by omega) (by omega)]
      unfold ratio
      rw [if_neg (sub_pos.2 h2).ne', div_self (sub_pos.2 h2).ne']; simp
    · rw [if_neg h]
      by_cases h' : i + 1 = s
      · rw [if_pos h', h1 (i + r + 2) (by omega) (by omega), sub_self,
          show ratio 0 (t - b.kn (i + 1)) = 0 by unfold ratio; split_ifs <;> simp]
        simp
      · rw [if_neg h']; simp

end BSpline

namespace Spec.Clamped
variable {b : BSpline} {n : ℕ} {sg : BSpline → ℝ → ℕ}

theorem at_start (c : Clamped b n) (h : KnotsOK b n) (hs : IsSegment sg) (i : ℕ) :
    b.basis (b.kn b.order) (sg b (b.kn b.order)) b.order i = if i = 0 then 1 else 0 := by
  obtain ⟨a1, a2, a3, a4, a5⟩ := hs b n (b.kn b.order) h ⟨le_rfl, h.wide.le⟩
  have hso : sg b (b.kn b.order) = b.order := by
    by_contra hc
    have := h.kmono (i := b.order + 1) (j := sg b (b.kn b.order)) (by omega) (by omega)
    linarith [c.start]
  rw [hso, BSpline.basis_start c.first c.start b.order i le_rfl]
  simp

theorem at_stop (c : Clamped b n) (h : KnotsOK b n) (hs : IsSegment sg) (i : ℕ) :
    b.basis (b.kn n) (sg b (b.kn n)) b.order i = if i = n - 1 then 1 else 0 := by
  obtain ⟨a1, a2, a3, a4, a5⟩ := hs b n (b.kn n) h ⟨h.wide.le, le_rfl⟩
  have hso : sg b (b.kn n) = n - 1 := by
    by_contra hc
    have := h.kmono (i := sg b (b.kn n) + 1) (j := n - 1) (by omega) (by omega)
    linarith [c.stop]
  rw [hso, BSpline.basis_stop (m := n + b.order) (fun i h1 h2 => c.last i (by omega) h2) c.stop b.order i (by omega)]

end Spec.Clamped

namespace NURBS
variable {n : NURBS} {sg : BSpline → ℝ → ℕ}

theorem dsum_single (n0 n1 : ℕ) (A B : ℕ → ℝ) (X : ℕ → ℕ → ℝ) {a b : ℕ} (ha : a < n0) (hb : b < n1)
    (hA : ∀ i, A i = if i = a then 1 else 0) (hB : ∀ i, B i = if i = b then 1 else 0) : dsum n0 n1 A B X = X a b := by
  unfold dsum
  simp only [hA, hB, ite_mul, one_mul, zero_mul]
  rw [sum_ite_eq' (range n0) a, if_pos (mem_range.2 ha), sum_ite_eq' (range n1) b, if_pos (mem_range.2 hb)]

theorem dsum_deriv_left (n0 n1 : ℕ) (b : BSpline) (s : ℕ) (B : ℕ → ℝ) (X : ℕ → ℕ → ℝ) (u : ℝ) :
    HasDerivAt (fun u => dsum n0 n1 (b.basis u s b.order) B X) (dsum n0 n1 (b.basisDiff u s b.order) B X) u := by
  unfold dsum
  exact HasDerivAt.fun_sum fun i _ => (b.basis_deriv u s b.order i).mul_const _

theorem dsum_deriv_right (n0 n1 : ℕ) (b : BSpline) (s : ℕ) (A : ℕ → ℝ) (X : ℕ → ℕ → ℝ) (v : ℝ) :
    HasDerivAt (fun v => dsum n0 n1 A (b.basis v s b.order) X) (dsum n0 n1 A (b.basisDiff v s b.order) X) v := by
  unfold dsum
  exact HasDerivAt.fun_sum fun i _ => (HasDerivAt.fun_sum fun j _ => (b.basis_deriv v s b.order j).mul_const _).const_mul _

end NURBS

theorem Spec.KnotsOK.near {b : BSpline} {n : ℕ} {sg : BSpline → ℝ → ℕ} (h : KnotsOK b n) (hs : IsSegment sg) {t : ℝ}
    (ht : InDomain b n t) (hk : ∀ k ∈ b.knot, k ≠ t) :
    ∀ᶠ t' in nhds t, InDomain b n t' ∧ sg b t' = sg b t := by
  obtain ⟨a1, a2, a3, a4, a5⟩ := hs b n t h ht
  have hm : ∀ i, i < b.knot.length → b.kn i ∈ b.knot := fun i hi => by
    unfold BSpline.kn; rw [List.getD_eq_getElem _ _ hi]; exact List.getElem_mem hi
  have l1 : b.kn (sg b t) < t := lt_of_le_of_ne a4 (hk _ (hm _ (by rw [h.len]; omega)))
  have l2 : t < b.kn (sg b t + 1) := lt_of_le_of_ne a5 (hk _ (hm _ (by rw [h.len]; omega))).symm
  filter_upwards [lt_mem_nhds l1, gt_mem_nhds l2] with t' h1 h2
  have hd : InDomain b n t' := ⟨(h.kmono a1 (by omega)).trans h1.le, h2.le.trans (h.kmono (by omega) (by omega))⟩
  exact ⟨hd, h.seg_unique hs hd a2 h1 h2⟩

end Zeo
