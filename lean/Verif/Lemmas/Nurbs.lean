import Verif.Spec.NURBS
import Mathlib.Algebra.BigOperators.Intervals
import Mathlib.Tactic.Linarith
import Mathlib.Tactic.LinearCombination
import Mathlib.Tactic.FieldSimp
import Mathlib.Analysis.Calculus.Deriv.Mul
import Mathlib.Analysis.Calculus.Deriv.Inv
import Mathlib.Analysis.Calculus.Deriv.Add

/-! # Basis functions and sums of NURBS surfaces -/

namespace Zeo
open Finset
namespace BSpline

theorem basis_zero_of_lt (b : BSpline) (t : ℝ) (s : ℕ) : ∀ r i, s < i → b.basis t s r i = 0
  | 0, i, h => by simp [basis, h.ne']
  | r + 1, i, h => by
    rw [basis, basis_zero_of_lt b t s r i h, basis_zero_of_lt b t s r (i + 1) (by omega)]; simp

theorem basis_zero_of_gt (b : BSpline) (t : ℝ) (s : ℕ) : ∀ r i, i + r < s → b.basis t s r i = 0
  | 0, i, h => by simp [basis]; omega
  | r + 1, i, h => by
    rw [basis, basis_zero_of_gt b t s r i (by omega), basis_zero_of_gt b t s r (i + 1) (by omega)]; simp

/-- The segment `s` holds `t`, and the knots do not decrease. -/
structure Seg (b : BSpline) (t : ℝ) (s : ℕ) : Prop where
  mono : ∀ i j, i ≤ j → j < b.knot.length → b.kn i ≤ b.kn j
  pos : b.kn s < b.kn (s + 1)
  lo : b.kn s ≤ t
  hi : t ≤ b.kn (s + 1)

theorem kn_mono {b : BSpline} (h : b.knot.Pairwise (· ≤ ·)) {i j : ℕ} (hij : i ≤ j) (hj : j < b.knot.length) :
    b.kn i ≤ b.kn j := by
  unfold kn
  rw [List.getD_eq_getElem _ _ hj, List.getD_eq_getElem _ _ (by omega)]
  rcases hij.eq_or_lt with rfl | h'
  · exact le_rfl
  · exact List.pairwise_iff_getElem.1 h i j (by omega) hj h'

theorem basis_nonneg {b : BSpline} {t : ℝ} {s : ℕ} (h : Seg b t s) :
    ∀ r i, s + r + 1 < b.knot.length + 0 → 0 ≤ b.basis t s r i
  | 0, i, _ => by unfold basis; split_ifs <;> norm_num
  | r + 1, i, hl => by
    have ih := basis_nonneg h r
    rw [basis]
    have h1 : 0 ≤ ratio (t - b.kn i) (b.kn (i + r + 1) - b.kn i) * b.basis t s r i := by
      by_cases hi : i ≤ s
      · by_cases hi2 : s ≤ i + r
        · refine mul_nonneg ?_ (ih i (by omega))
          unfold ratio; split_ifs with h0
          · exact le_rfl
          · have a1 := h.mono i s hi (by omega)
            have a2 := h.mono (s + 1) (i + r + 1) (by omega) (by omega)
            exact div_nonneg (by linarith [h.lo]) (by linarith [h.pos])
        · rw [basis_zero_of_gt b t s r i (by omega)]; simp
      · rw [basis_zero_of_lt b t s r i (by omega)]; simp
    have h2 : 0 ≤ ratio (b.kn (i + r + 2) - t) (b.kn (i + r + 2) - b.kn (i + 1)) * b.basis t s r (i + 1) := by
      by_cases hi : i + 1 ≤ s
      · by_cases hi2 : s ≤ i + 1 + r
        · refine mul_nonneg ?_ (ih (i + 1) (by omega))
          unfold ratio; split_ifs with h0
          · exact le_rfl
          · have a1 := h.mono (i + 1) s hi (by omega)
            have a2 := h.mono (s + 1) (i + r + 2) (by omega) (by omega)
            exact div_nonneg (by linarith [h.hi]) (by linarith [h.pos])
        · rw [basis_zero_of_gt b t s r (i + 1) (by omega)]; simp
      · rw [basis_zero_of_lt b t s r (i + 1) (by omega)]; simp
    linarith

/-- The basis functions sum up to one. -/
theorem basis_sum {b : BSpline} {t : ℝ} {s : ℕ} (h : Seg b t s) :
    ∀ r, r ≤ s → s + r + 1 < b.knot.length + 0 → ∑ i ∈ range (s + 1), b.basis t s r i = 1
  | 0, _, _ => by simp [basis]
  | r + 1, hr, hl => by
    have ih := basis_sum h r (by omega) (by omega)
    have hc : ∀ i, i ≤ s → (ratio (t - b.kn i) (b.kn (i + r + 1) - b.kn i) +
        ratio (b.kn (i + r + 1) - t) (b.kn (i + r + 1) - b.kn i)) * b.basis t s r i = b.basis t s r i := by
      intro i hi
      by_cases hi2 : s ≤ i + r
      · have a1 := h.mono i s hi (by omega)
        have a2 := h.mono (s + 1) (i + r + 1) (by omega) (by omega)
        have h0 : b.kn (i + r + 1) - b.kn i ≠ 0 := by have := h.pos; intro h; linarith
        unfold ratio; rw [if_neg h0, if_neg h0, ← add_div]
        rw [show t - b.kn i + (b.kn (i + r + 1) - t) = b.kn (i + r + 1) - b.kn i by ring, div_self h0, one_mul]
      · rw [basis_zero_of_gt b t s r i (by omega)]; simp
    have e1 : ∑ i ∈ range (s + 1), b.basis t s (r + 1) i =
        ∑ i ∈ range (s + 1), ratio (t - b.kn i) (b.kn (i + r + 1) - b.kn i) * b.basis t s r i +
        ∑ i ∈ range (s + 1), ratio (b.kn (i + r + 2) - t) (b.kn (i + r + 2) - b.kn (i + 1)) * b.basis t s r (i + 1) := by
      rw [← sum_add_distrib]; rfl
    have e2 : ∑ i ∈ range (s + 1), ratio (b.kn (i + r + 2) - t) (b.kn (i + r + 2) - b.kn (i + 1)) * b.basis t s r (i + 1) =
        ∑ i ∈ range (s + 1), ratio (b.kn (i + r + 1) - t) (b.kn (i + r + 1) - b.kn i) * b.basis t s r i := by
      have := sum_range_succ' (fun i => ratio (b.kn (i + r + 1) - t) (b.kn (i + r + 1) - b.kn i) * b.basis t s r i) (s + 1)
      rw [sum_range_succ] at this
      simp only [basis_zero_of_lt b t s r (s + 1) (by omega), basis_zero_of_gt b t s r 0 (by omega), mul_zero,
        add_zero] at this
      rw [this]
      refine sum_congr rfl fun i _ => ?_
      rw [show i + 1 + r + 1 = i + r + 2 by ring]
    rw [e1, e2, ← sum_add_distrib, ← ih]
    refine sum_congr rfl fun i hi => ?_
    rw [← add_mul]
    exact hc i (by simpa [Nat.lt_succ_iff] using hi)

theorem hasDeriv_ratio {f : ℝ → ℝ} {f' t : ℝ} (c : ℝ) (h : HasDerivAt f f' t) :
    HasDerivAt (fun t => ratio (f t) c) (ratio f' c) t := by
  unfold ratio
  split_ifs
  · exact hasDerivAt_const _ _
  · exact h.div_const c

/-- `basisDiff` is the derivative of `basis`. -/
theorem basis_deriv (b : BSpline) (t : ℝ) (s : ℕ) : ∀ r i, HasDerivAt (fun t => b.basis t s r i) (b.basisDiff t s r i) t
  | 0, i => by
    unfold basis basisDiff
    exact hasDerivAt_const _ _
  | r + 1, i => by
    have h1 := basis_deriv b t s r i
    have h2 := basis_deriv b t s r (i + 1)
    have d1 := hasDeriv_ratio (b.kn (i + r + 1) - b.kn i) ((hasDerivAt_id t).sub_const (b.kn i))
    have d2 := hasDeriv_ratio (b.kn (i + r + 2) - b.kn (i + 1)) ((hasDerivAt_id t).const_sub (b.kn (i + r + 2)))
    exact (d1.mul h1).add (d2.mul h2)

theorem basisDiff_zero_of_lt (b : BSpline) (t : ℝ) (s : ℕ) : ∀ r i, s < i → b.basisDiff t s r i = 0
  | 0, _, _ => rfl
  | r + 1, i, h => by
    rw [basisDiff, basisDiff_zero_of_lt b t s r i h, basisDiff_zero_of_lt b t s r (i + 1) (by omega),
      basis_zero_of_lt b t s r i h, basis_zero_of_lt b t s r (i + 1) (by omega)]; simp

theorem basisDiff_zero_of_gt (b : BSpline) (t : ℝ) (s : ℕ) : ∀ r i, i + r < s → b.basisDiff t s r i = 0
  | 0, _, _ => rfl
  | r + 1, i, h => by
    rw [basisDiff, basisDiff_zero_of_gt b t s r i (by omega), basisDiff_zero_of_gt b t s r (i + 1) (by omega),
      basis_zero_of_gt b t s r i (by omega), basis_zero_of_gt b t s r (i + 1) (by omega)]; simp

end BSpline

namespace NURBS

/-- A double sum over the net. -/
noncomputable def dsum (n0 n1 : ℕ) (A B : ℕ → ℝ) (X : ℕ → ℕ → ℝ) : ℝ :=
  ∑ i ∈ range n0, A i * ∑ j ∈ range n1, B j * X i j

theorem span_sum (s o n : ℕ) (f : ℕ → ℝ) (ho : o ≤ s) (hn : s < n) (h1 : ∀ i, s < i → f i = 0)
    (h2 : ∀ i, i + o < s → f i = 0) : ((span s o).map f).sum = ∑ i ∈ range n, f i := by
  have e : ∀ (m : ℕ) (g : ℕ → ℝ), ((List.range m).map g).sum = ∑ i ∈ range m, g i := by
    intro m g
    induction m with
    | zero => simp
    | succ m ih => rw [List.range_succ, List.map_append, List.sum_append, ih, sum_range_succ]; simp
  unfold span
  rw [List.map_map, e]
  obtain ⟨d, rfl⟩ : ∃ d, n = (s - o) + (o + 1) + d := ⟨n - (s - o + (o + 1)), by omega⟩
  rw [sum_range_add f (s - o + (o + 1)) d, sum_range_add f (s - o) (o + 1), sum_eq_zero (s := range (s - o)),
    sum_eq_zero (s := range d)]
  · simp [Function.comp_def]
  · intro i _; exact h1 _ (by omega)
  · intro i hi; exact h2 _ (by have := mem_range.1 hi; omega)

theorem rowSum_aux (f : ℕ → ℝ) (p : ℕ → Vec3 ℝ) : ∀ (l : List ℕ) (a : ℝ × Vec3 ℝ),
    l.foldl (fun a j => (a.1 + f j, a.2.cat (f j) (p j))) a = (a.1 + (l.map f).sum,
      ⟨a.2.x + (l.map fun j => f j * (p j).x).sum, a.2.y + (l.map fun j => f j * (p j).y).sum,
       a.2.z + (l.map fun j => f j * (p j).z).sum⟩)
  | [], a => by simp
  | j :: l, a => by
    rw [List.foldl_cons, rowSum_aux f p l]
    simp only [List.map_cons, List.sum_cons, Vec3.cat]
    ext <;> simp <;> ring

theorem sums_aux (f d : ℕ → ℝ) (p : ℕ → Vec3 ℝ) : ∀ (l : List ℕ) (a : ℝ × Vec3 ℝ),
    l.foldl (fun a i => (a.1 + f i * d i, a.2.cat (f i) (p i))) a = (a.1 + (l.map fun i => f i * d i).sum,
      ⟨a.2.x + (l.map fun j => f j * (p j).x).sum, a.2.y + (l.map fun j => f j * (p j).y).sum,
       a.2.z + (l.map fun j => f j * (p j).z).sum⟩)
  | [], a => by simp
  | j :: l, a => by
    rw [List.foldl_cons, sums_aux f d p l]
    simp only [List.map_cons, List.sum_cons, Vec3.cat]
    ext <;> simp <;> ring

/-- The segments are inside the net. -/
structure Inside (n : NURBS) (su sv : ℕ) : Prop where
  ou : n.p0.order ≤ su
  nu : su < n.n0
  ov : n.p1.order ≤ sv
  nv : sv < n.n1

variable {n : NURBS} {su sv : ℕ}

theorem sums_eq (h : Inside n su sv) (u v : ℝ) :
    let T := dsum n.n0 n.n1 (n.p0.basis u su n.p0.order) (n.p1.basis v sv n.p1.order)
    n.sums u v su sv = (T n.w, ⟨T fun i j => n.w i j * (n.cp i j).x, T fun i j => n.w i j * (n.cp i j).y,
      T fun i j => n.w i j * (n.cp i j).z⟩) := by
  intro T
  have hr : ∀ i, n.rowSum v sv i = (∑ j ∈ range n.n1, n.p1.basis v sv n.p1.order j * n.w i j,
      ⟨∑ j ∈ range n.n1, n.p1.basis v sv n.p1.order j * (n.w i j * (n.cp i j).x),
       ∑ j ∈ range n.n1, n.p1.basis v sv n.p1.order j * (n.w i j * (n.cp i j).y),
       ∑ j ∈ range n.n1, n.p1.basis v sv n.p1.order j * (n.w i j * (n.cp i j).z)⟩) := by
    intro i
    unfold rowSum
    dsimp only
    rw [rowSum_aux (fun j => n.w i j * n.p1.basis v sv n.p1.order j) (n.cp i)]
    have hz1 : ∀ j, sv < j → n.p1.basis v sv n.p1.order j = 0 := fun j => BSpline.basis_zero_of_lt _ _ _ _ j
    have hz2 : ∀ j, j + n.p1.order < sv → n.p1.basis v sv n.p1.order j = 0 := fun j => BSpline.basis_zero_of_gt _ _ _ _ j
    have hs : ∀ g : ℕ → ℝ, ((span sv n.p1.order).map fun j => n.w i j * n.p1.basis v sv n.p1.order j * g j).sum =
        ∑ j ∈ range n.n1, n.p1.basis v sv n.p1.order j * (n.w i j * g j) := fun g => by
      rw [span_sum _ _ n.n1 _ h.ov h.nv (fun j hj => by simp [hz1 j hj]) (fun j hj => by simp [hz2 j hj])]
      exact sum_congr rfl fun j _ => by ring
    have h1 := hs fun _ => 1
    simp only [mul_one] at h1
    simp only [hs, h1, Vec3.zero, zero_add]
  unfold sums
  dsimp only
  rw [sums_aux (n.p0.basis u su n.p0.order) (fun i => (n.rowSum v sv i).1) (fun i => (n.rowSum v sv i).2)]
  have hz1 : ∀ j, su < j → n.p0.basis u su n.p0.order j = 0 := fun j => BSpline.basis_zero_of_lt _ _ _ _ j
  have hz2 : ∀ j, j + n.p0.order < su → n.p0.basis u su n.p0.order j = 0 := fun j => BSpline.basis_zero_of_gt _ _ _ _ j
  rw [span_sum _ _ n.n0 _ h.ou h.nu (fun j hj => by simp [hz1 j hj]) (fun j hj => by simp [hz2 j hj]),
    span_sum _ _ n.n0 _ h.ou h.nu (fun j hj => by simp [hz1 j hj]) (fun j hj => by simp [hz2 j hj]),
    span_sum _ _ n.n0 _ h.ou h.nu (fun j hj => by simp [hz1 j hj]) (fun j hj => by simp [hz2 j hj]),
    span_sum _ _ n.n0 _ h.ou h.nu (fun j hj => by simp [hz1 j hj]) (fun j hj => by simp [hz2 j hj])]
  simp only [Vec3.zero, zero_add, hr]
  rfl

theorem tRow_aux (f g : ℕ → ℝ) (p : ℕ → Vec3 ℝ) : ∀ (l : List ℕ) (a : TRow),
    l.foldl (fun a j => (⟨a.dv + f j, a.ddv + g j, a.pv.cat (f j) (p j), a.dpv.cat (g j) (p j)⟩ : TRow)) a =
      ⟨a.dv + (l.map f).sum, a.ddv + (l.map g).sum,
      ⟨a.pv.x + (l.map fun j => f j * (p j).x).sum, a.pv.y + (l.map fun j => f j * (p j).y).sum,
       a.pv.z + (l.map fun j => f j * (p j).z).sum⟩,
      ⟨a.dpv.x + (l.map fun j => g j * (p j).x).sum, a.dpv.y + (l.map fun j => g j * (p j).y).sum,
       a.dpv.z + (l.map fun j => g j * (p j).z).sum⟩⟩
  | [], a => by simp
  | j :: l, a => by
    rw [List.foldl_cons, tRow_aux f g p l]
    simp only [List.map_cons, List.sum_cons, Vec3.cat, TRow.mk.injEq, Vec3.mk.injEq]
    refine ⟨by ring, by ring, ⟨by ring, by ring, by ring⟩, by ring, by ring, by ring⟩

theorem tSums_aux (f g d e : ℕ → ℝ) (p q : ℕ → Vec3 ℝ) : ∀ (l : List ℕ) (a : TSum),
    l.foldl (fun a j => (⟨a.den + f j * d j, a.dubv + g j * d j, a.budv + f j * e j, a.p.cat (f j) (p j),
      a.tu.cat (g j) (p j), a.tv.cat (f j) (q j)⟩ : TSum)) a =
      ⟨a.den + (l.map fun j => f j * d j).sum, a.dubv + (l.map fun j => g j * d j).sum,
       a.budv + (l.map fun j => f j * e j).sum,
      ⟨a.p.x + (l.map fun j => f j * (p j).x).sum, a.p.y + (l.map fun j => f j * (p j).y).sum,
       a.p.z + (l.map fun j => f j * (p j).z).sum⟩,
      ⟨a.tu.x + (l.map fun j => g j * (p j).x).sum, a.tu.y + (l.map fun j => g j * (p j).y).sum,
       a.tu.z + (l.map fun j => g j * (p j).z).sum⟩,
      ⟨a.tv.x + (l.map fun j => f j * (q j).x).sum, a.tv.y + (l.map fun j => f j * (q j).y).sum,
       a.tv.z + (l.map fun j => f j * (q j).z).sum⟩⟩
  | [], a => by simp
  | j :: l, a => by
    rw [List.foldl_cons, tSums_aux f g d e p q l]
    simp only [List.map_cons, List.sum_cons, Vec3.cat, TSum.mk.injEq, Vec3.mk.injEq]
    refine ⟨by ring, by ring, by ring, ⟨by ring, by ring, by ring⟩, ⟨by ring, by ring, by ring⟩, by ring, by ring, by ring⟩

theorem tSums_eq (h : Inside n su sv) (u v : ℝ) :
    let T := dsum n.n0 n.n1 (n.p0.basis u su n.p0.order) (n.p1.basis v sv n.p1.order)
    let U := dsum n.n0 n.n1 (n.p0.basisDiff u su n.p0.order) (n.p1.basis v sv n.p1.order)
    let V := dsum n.n0 n.n1 (n.p0.basis u su n.p0.order) (n.p1.basisDiff v sv n.p1.order)
    n.tSums u v su sv = ⟨T n.w, U n.w, V n.w,
      ⟨T fun i j => n.w i j * (n.cp i j).x, T fun i j => n.w i j * (n.cp i j).y, T fun i j => n.w i j * (n.cp i j).z⟩,
      ⟨U fun i j => n.w i j * (n.cp i j).x, U fun i j => n.w i j * (n.cp i j).y, U fun i j => n.w i j * (n.cp i j).z⟩,
      ⟨V fun i j => n.w i j * (n.cp i j).x, V fun i j => n.w i j * (n.cp i j).y, V fun i j => n.w i j * (n.cp i j).z⟩⟩ := by
  intro T U V
  have hr : ∀ i, n.tRow v sv i = ⟨∑ j ∈ range n.n1, n.p1.basis v sv n.p1.order j * n.w i j,
      ∑ j ∈ range n.n1, n.p1.basisDiff v sv n.p1.order j * n.w i j,
      ⟨∑ j ∈ range n.n1, n.p1.basis v sv n.p1.order j * (n.w i j * (n.cp i j).x),
       ∑ j ∈ range n.n1, n.p1.basis v sv n.p1.order j * (n.w i j * (n.cp i j).y),
       ∑ j ∈ range n.n1, n.p1.basis v sv n.p1.order j * (n.w i j * (n.cp i j).z)⟩,
      ⟨∑ j ∈ range n.n1, n.p1.basisDiff v sv n.p1.order j * (n.w i j * (n.cp i j).x),
       ∑ j ∈ range n.n1, n.p1.basisDiff v sv n.p1.order j * (n.w i j * (n.cp i j).y),
       ∑ j ∈ range n.n1, n.p1.basisDiff v sv n.p1.order j * (n.w i j * (n.cp i j).z)⟩⟩ := by
    intro i
    unfold tRow
    dsimp only
    rw [tRow_aux (fun j => n.w i j * n.p1.basis v sv n.p1.order j) (fun j => n.w i j * n.p1.basisDiff v sv n.p1.order j)
      (n.cp i)]
    have hz1 : ∀ j, sv < j → n.p1.basis v sv n.p1.order j = 0 := fun j => BSpline.basis_zero_of_lt _ _ _ _ j
    have hz2 : ∀ j, j + n.p1.order < sv → n.p1.basis v sv n.p1.order j = 0 := fun j => BSpline.basis_zero_of_gt _ _ _ _ j
    have hz3 : ∀ j, sv < j → n.p1.basisDiff v sv n.p1.order j = 0 := fun j => BSpline.basisDiff_zero_of_lt _ _ _ _ j
    have hz4 : ∀ j, j + n.p1.order < sv → n.p1.basisDiff v sv n.p1.order j = 0 :=
      fun j => BSpline.basisDiff_zero_of_gt _ _ _ _ j
    have hs : ∀ g : ℕ → ℝ, ((span sv n.p1.order).map fun j => n.w i j * n.p1.basis v sv n.p1.order j * g j).sum =
        ∑ j ∈ range n.n1, n.p1.basis v sv n.p1.order j * (n.w i j * g j) := fun g => by
      rw [span_sum _ _ n.n1 _ h.ov h.nv (fun j hj => by simp [hz1 j hj]) (fun j hj => by simp [hz2 j hj])]
      exact sum_congr rfl fun j _ => by ring
    have hs' : ∀ g : ℕ → ℝ, ((span sv n.p1.order).map fun j => n.w i j * n.p1.basisDiff v sv n.p1.order j * g j).sum =
        ∑ j ∈ range n.n1, n.p1.basisDiff v sv n.p1.order j * (n.w i j * g j) := fun g => by
      rw [span_sum _ _ n.n1 _ h.ov h.nv (fun j hj => by simp [hz3 j hj]) (fun j hj => by simp [hz4 j hj])]
      exact sum_congr rfl fun j _ => by ring
    have h1 := hs fun _ => 1
    have h1' := hs' fun _ => 1
    simp only [mul_one] at h1 h1'
    simp only [hs, hs', h1, h1', Vec3.zero, zero_add]
  unfold tSums
  dsimp only
  rw [tSums_aux (n.p0.basis u su n.p0.order) (n.p0.basisDiff u su n.p0.order) (fun i => (n.tRow v sv i).dv)
    (fun i => (n.tRow v sv i).ddv) (fun i => (n.tRow v sv i).pv) (fun i => (n.tRow v sv i).dpv)]
  have hz1 : ∀ j, su < j → n.p0.basis u su n.p0.order j = 0 := fun j => BSpline.basis_zero_of_lt _ _ _ _ j
  have hz2 : ∀ j, j + n.p0.order < su → n.p0.basis u su n.p0.order j = 0 := fun j => BSpline.basis_zero_of_gt _ _ _ _ j
  have hz3 : ∀ j, su < j → n.p0.basisDiff u su n.p0.order j = 0 := fun j => BSpline.basisDiff_zero_of_lt _ _ _ _ j
  have hz4 : ∀ j, j + n.p0.order < su → n.p0.basisDiff u su n.p0.order j = 0 :=
    fun j => BSpline.basisDiff_zero_of_gt _ _ _ _ j
  have hs : ∀ g : ℕ → ℝ, ((span su n.p0.order).map fun j => n.p0.basis u su n.p0.order j * g j).sum =
      ∑ j ∈ range n.n0, n.p0.basis u su n.p0.order j * g j := fun g =>
    span_sum _ _ n.n0 _ h.ou h.nu (fun j hj => by simp [hz1 j hj]) (fun j hj => by simp [hz2 j hj])
  have hs' : ∀ g : ℕ → ℝ, ((span su n.p0.order).map fun j => n.p0.basisDiff u su n.p0.order j * g j).sum =
      ∑ j ∈ range n.n0, n.p0.basisDiff u su n.p0.order j * g j := fun g =>
    span_sum _ _ n.n0 _ h.ou h.nu (fun j hj => by simp [hz3 j hj]) (fun j hj => by simp [hz4 j hj])
  simp only [hs, hs', Vec3.zero, zero_add, hr]
  rfl

theorem vec_sums (seg : BSpline → ℝ → ℕ) (τ u v : ℝ) (n : NURBS) :
    n.vec seg τ u v = if |(n.sums u v (seg n.p0 u) (seg n.p1 v)).1| ≤ τ ∨ (n.sums u v (seg n.p0 u) (seg n.p1 v)).1 = 0
      then none else some ⟨(n.sums u v (seg n.p0 u) (seg n.p1 v)).2.x / (n.sums u v (seg n.p0 u) (seg n.p1 v)).1,
        (n.sums u v (seg n.p0 u) (seg n.p1 v)).2.y / (n.sums u v (seg n.p0 u) (seg n.p1 v)).1,
        (n.sums u v (seg n.p0 u) (seg n.p1 v)).2.z / (n.sums u v (seg n.p0 u) (seg n.p1 v)).1⟩ := by
  unfold vec eval
  generalize n.sums u v (seg n.p0 u) (seg n.p1 v) = s
  obtain ⟨d, p⟩ := s
  dsimp only
  unfold zIsTol
  by_cases h1 : |d| ≤ τ
  · simp [h1]
  · by_cases h0 : d = 0
    · subst h0
      simp only [abs_zero, not_le] at h1
      simp [not_le.2 h1, Vec3.div]
    · simp only [h1, h0, if_false, Vec3.div, or_self, Vec3.mul, if_true]
      simp only [Option.some.injEq, Vec3.mk.injEq]
      refine ⟨?_, ?_, ?_⟩ <;> ring

/-- What the loops compute, as a condition on the result of the evaluation. -/
theorem eval_eq (seg : BSpline → ℝ → ℕ) (τ u v : ℝ) (h : Inside n (seg n.p0 u) (seg n.p1 v)) :
    let T := dsum n.n0 n.n1 (n.p0.basis u (seg n.p0 u) n.p0.order) (n.p1.basis v (seg n.p1 v) n.p1.order)
    n.vec seg τ u v = if |T n.w| ≤ τ ∨ T n.w = 0 then none else
      some ⟨(T fun i j => n.w i j * (n.cp i j).x) / T n.w, (T fun i j => n.w i j * (n.cp i j).y) / T n.w,
        (T fun i j => n.w i j * (n.cp i j).z) / T n.w⟩ := by
  intro T
  rw [vec_sums, sums_eq h u v]

end NURBS
end Zeo
