import Verif.Props.C31
import Verif.Props.C17

/-! # C32: octree nearest neighbour search -/

namespace Zeo
noncomputable section
open Classical Oct

theorem oct_ed_sq (p q : Vec3 ℝ) : Spec.ed p q * Spec.ed p q = Spec.sqd p q :=
  Real.mul_self_sqrt (by unfold Spec.sqd; positivity)
theorem oct_sqrDist (p q : Vec3 ℝ) : q.sqrDist p = Spec.sqd p q := by simp only [zeo, Spec.sqd]; ring
theorem oct_ed (p q : Vec3 ℝ) : Real.sqrt (q.sqrDist p) = Spec.ed p q := by rw [oct_sqrDist]; rfl

/-- One axis of the distance to a box, for a point within `ε` of the box. -/
theorem sqrExcess_near {p q lo hi ε : ℝ} (h0 : 0 ≤ ε) (h1 : lo - ε ≤ q) (h2 : q ≤ hi + ε) :
    sqrExcess p lo hi ≤ (|p - q| + ε)^2 := by
  unfold sqrExcess
  split_ifs with ha hb
  · have hq : lo - p ≤ |p - q| + ε := by
      have := neg_abs_le (p - q); linarith
    nlinarith [abs_nonneg (p - q)]
  · have hq : p - hi ≤ |p - q| + ε := by
      have := le_abs_self (p - q); linarith
    nlinarith [abs_nonneg (p - q)]
  · positivity

/-- The distance from the query to the region of an octant exceeds the distance to a point stored below it
by at most `√3 ε`. -/
theorem region_dist_le {p q : Vec3 ℝ} {B : AABox3 ℝ} {ε : ℝ} (h0 : 0 ≤ ε) (h : Near ε B q) :
    B.sqrDistFromPoint p ≤ (Spec.ed p q + Real.sqrt 3 * ε)^2 := by
  obtain ⟨⟨a1, a2⟩, ⟨b1, b2⟩, c1, c2⟩ := h
  have hx := sqrExcess_near (p := p.x) h0 a1 a2
  have hy := sqrExcess_near (p := p.y) h0 b1 b2
  have hz := sqrExcess_near (p := p.z) h0 c1 c2
  have he := oct_ed_sq p q
  have h3 : Real.sqrt 3 * Real.sqrt 3 = 3 := Real.mul_self_sqrt (by norm_num)
  have hcs : |p.x - q.x| + |p.y - q.y| + |p.z - q.z| ≤ Real.sqrt 3 * Spec.ed p q := by
    rw [Spec.ed, ← Real.sqrt_mul (by norm_num)]
    apply Real.le_sqrt_of_sq_le
    unfold Spec.sqd
    nlinarith [sq_abs (p.x - q.x), sq_abs (p.y - q.y), sq_abs (p.z - q.z),
      sq_nonneg (|p.x - q.x| - |p.y - q.y|), sq_nonneg (|p.y - q.y| - |p.z - q.z|),
      sq_nonneg (|p.z - q.z| - |p.x - q.x|)]
  have e1 : (|p.x - q.x| + ε)^2 + (|p.y - q.y| + ε)^2 + (|p.z - q.z| + ε)^2 =
      Spec.sqd p q + 2 * ε * (|p.x - q.x| + |p.y - q.y| + |p.z - q.z|) + 3 * ε^2 := by
    unfold Spec.sqd
    rw [← sq_abs (p.x - q.x), ← sq_abs (p.y - q.y), ← sq_abs (p.z - q.z)]; ring
  have e2 : (Spec.ed p q + Real.sqrt 3 * ε)^2 =
      Spec.sqd p q + 2 * ε * (Real.sqrt 3 * Spec.ed p q) + 3 * ε^2 := by
    rw [← he]; linear_combination ε^2 * h3
  unfold AABox3.sqrDistFromPoint
  rw [e2]
  have := mul_le_mul_of_nonneg_left hcs (by positivity : 0 ≤ 2 * ε)
  linarith

/-- `st` is a candidate from `S` that is at most `δ` worse than the best of `S`. -/
def ABest (p : Vec3 ℝ) (δ : ℝ) (A S : Set (Vec3 ℝ)) (st : Option (Vec3 ℝ × ℝ)) : Prop :=
  (∀ h, st = some h → h.1 ∈ A ∧ h.2 = Spec.ed p h.1) ∧
  (∀ x ∈ S, ∃ h, st = some h ∧ h.2 ≤ Spec.ed p x + δ)

theorem ABest.test {p : Vec3 ℝ} {δ : ℝ} (h0 : 0 ≤ δ) {A S : Set (Vec3 ℝ)} {st : Option (Vec3 ℝ × ℝ)}
    (h : ABest p δ A S st) {q : Vec3 ℝ} (hq : q ∈ A) : ABest p δ A (insert q S) (nnTest p st q) := by
  unfold nnTest
  split_ifs with hc
  · rw [oct_ed]
    refine ⟨?_, ?_⟩
    · rintro h' h''; cases h''; exact ⟨hq, rfl⟩
    · intro x hx
      refine ⟨_, rfl, ?_⟩
      rcases hx with rfl | hx
      · dsimp only; linarith
      · obtain ⟨h1, rfl, hle⟩ := h.2 x hx
        have h2 := (h.1 h1 rfl).2
        have hc' : q.sqrDist p < h1.2 * h1.2 := hc
        rw [h2, oct_ed_sq, oct_sqrDist] at hc'
        have : Spec.ed p q ≤ Spec.ed p h1.1 := Real.sqrt_le_sqrt hc'.le
        dsimp only
        linarith
  · refine ⟨h.1, ?_⟩
    intro x hx
    rcases hx with rfl | hx
    · cases st with
      | none => exact absurd trivial hc
      | some h1 =>
        refine ⟨h1, rfl, ?_⟩
        have h2 := (h.1 h1 rfl).2
        have hc' : ¬ x.sqrDist p < h1.2 * h1.2 := hc
        rw [h2, oct_ed_sq, oct_sqrDist] at hc'
        rw [h2]
        have : Spec.ed p h1.1 ≤ Spec.ed p x := Real.sqrt_le_sqrt (not_lt.1 hc')
        linarith
    · exact h.2 x hx

theorem ABest.leaf {p : Vec3 ℝ} {δ : ℝ} (h0 : 0 ≤ δ) {A : Set (Vec3 ℝ)} (pts : List (Vec3 ℝ)) :
    ∀ {S : Set (Vec3 ℝ)} {st : Option (Vec3 ℝ × ℝ)}, ABest p δ A S st → (∀ q ∈ pts, q ∈ A) →
    ABest p δ A (S ∪ {q | q ∈ pts}) (leafNN p pts st) := by
  induction pts with
  | nil => intro S st h _; unfold leafNN; simpa using h
  | cons q pts ih =>
    intro S st h hA
    have := ih (h.test h0 (hA q (by simp))) (fun x hx => hA x (by simp [hx]))
    unfold leafNN at this ⊢
    rw [List.foldl_cons]
    convert this using 1
    ext x; simp only [Set.mem_union, Set.mem_setOf_eq, List.mem_cons, Set.mem_insert_iff]; tauto

/-- The points below an octant, as a set. -/
def Oct.stored (t : Oct ℝ) : Set (Vec3 ℝ) := {q | q ∈ bag t}

theorem stored_node (B pts) (sub : Fin 8 → Oct ℝ) :
    Oct.stored (node B pts sub) = {q | q ∈ pts} ∪ ⋃ i, (sub i).stored := by
  ext x; simp [Oct.stored, bag, Multiset.mem_sum]

theorem ABest.congr {p δ A S T st} (h : ABest p δ A S st) (e : S = T) : ABest p δ A T st := e ▸ h

theorem nnRec_abest {τ res ε δ : ℝ} (h0 : 0 ≤ ε) (hδ : δ = Real.sqrt 3 * ε) (p : Vec3 ℝ) (A : Set (Vec3 ℝ))
    (t : Oct ℝ) : ∀ (B : AABox3 ℝ) (S : Set (Vec3 ℝ)) st, WF τ res B t → Loc ε t → t.stored ⊆ A →
    ABest p δ A S st → ABest p δ A (S ∪ t.stored) (nnRec p t st) := by
  have hδ0 : 0 ≤ δ := by rw [hδ]; positivity
  induction t with
  | nil => intro B S st _ _ _ h; unfold nnRec; exact h.congr (by simp [Oct.stored, bag])
  | node B' pts sub ih =>
    intro B S st hw hl hA h
    obtain ⟨rfl, hs, hsm, hns, hsub⟩ := hw
    unfold nnRec
    rw [stored_node] at hA ⊢
    split_ifs with hp
    · have hnil : ∀ i, sub i = nil := by
        by_cases hc : IsSmallest τ res B'
        · exact hsm hc
        · exact absurd (hns hc) hp
      refine (ABest.leaf hδ0 pts h (fun q hq => hA (Or.inl hq))).congr ?_
      have : (⋃ i, (sub i).stored) = ∅ := by
        simp [hnil, Oct.stored, bag]
      rw [this, Set.union_empty]
    · have hp' : pts = [] := by simpa using hp
      subst hp'
      have step : ∀ (L : List (Fin 8)) (S : Set (Vec3 ℝ)) st, ABest p δ A S st →
          ABest p δ A (S ∪ ⋃ i ∈ L, (sub i).stored) (L.foldl (fun st i =>
            if exists? (sub i) = true ∧ farther (sqrDist p (sub i)) st then st else nnRec p (sub i) st) st) := by
        intro L
        induction L with
        | nil => intro S st h; simpa using h
        | cons i L ihL =>
          intro S st h
          rw [List.foldl_cons]
          have hstep : ABest p δ A (S ∪ (sub i).stored)
              (if exists? (sub i) = true ∧ farther (sqrDist p (sub i)) st then st
                else nnRec p (sub i) st) := by
            split_ifs with hf
            · refine ⟨h.1, ?_⟩
              rintro x (hx | hx)
              · exact h.2 x hx
              · cases st with
                | none => exact absurd hf.2 id
                | some h1 =>
                  refine ⟨h1, rfl, ?_⟩
                  have h2 := (h.1 h1 rfl).2
                  have hloc := hl.2 i
                  cases hsi : sub i with
                  | nil => rw [hsi] at hf; exact absurd hf.1 (by simp [exists?])
                  | node B2 pts2 sub2 =>
                    rw [hsi] at hf hloc hx
                    have hreg := region_dist_le (p := p) h0 (hloc.1 x hx)
                    have hf2 : B2.sqrDistFromPoint p > h1.2 * h1.2 := hf.2
                    rw [← hδ] at hreg
                    have hed : 0 ≤ Spec.ed p x := Real.sqrt_nonneg _
                    have h12 : 0 ≤ h1.2 := by rw [h2]; exact Real.sqrt_nonneg _
                    nlinarith
            · exact ih i _ _ _ (hsub i) (hl.2 i)
                (fun x hx => hA (Or.inr (Set.mem_iUnion.2 ⟨i, hx⟩))) h
          refine (ihL _ _ hstep).congr ?_
          ext x; simp only [Set.mem_union, Set.mem_iUnion, List.mem_cons, exists_prop]
          constructor
          · rintro ((h | h) | ⟨j, h1, h2⟩)
            · exact Or.inl h
            · exact Or.inr ⟨i, Or.inl rfl, h⟩
            · exact Or.inr ⟨j, Or.inr h1, h2⟩
          · rintro (h | ⟨j, rfl | h1, h2⟩)
            · exact Or.inl (Or.inl h)
            · exact Or.inl (Or.inr h2)
            · exact Or.inr ⟨j, h1, h2⟩
      refine (step (List.finRange 8) S st h).congr ?_
      simp

theorem findContainer_stored (τ : ℝ) (p : Vec3 ℝ) (t : Oct ℝ) : ∀ c, findContainer τ p t = some c →
    c.stored ⊆ t.stored := by
  induction t with
  | nil => intro c h; simp [findContainer] at h
  | node B pts sub ih =>
    intro c h
    unfold findContainer at h
    split_ifs at h
    split at h
    · rename_i t1 ht1
      cases h
      obtain ⟨i, -, hi⟩ := List.exists_of_findSome?_eq_some ht1
      rw [stored_node]
      exact (ih i _ hi).trans ((Set.subset_iUnion (fun i => (sub i).stored) i).trans Set.subset_union_right)
    · cases h; exact subset_rfl

theorem nn_abest {τ res ε : ℝ} (h0 : 0 ≤ ε) (p : Vec3 ℝ) {B : AABox3 ℝ} {t : Oct ℝ} (hw : WF τ res B t)
    (hl : Loc ε t) : ABest p (Real.sqrt 3 * ε) t.stored t.stored (nn τ t p) := by
  have hδ0 : 0 ≤ Real.sqrt 3 * ε := by positivity
  have hst : ABest p (Real.sqrt 3 * ε) t.stored ∅
      (match findContainer τ p t with | none => none | some c => leafNN p (top c) none) := by
    have hE : ABest p (Real.sqrt 3 * ε) t.stored ∅ none := ⟨by simp, by simp⟩
    split
    · exact hE
    · rename_i c hc
      have hsub := findContainer_stored τ p t c hc
      have := ABest.leaf hδ0 (top c) hE (by
        intro q hq
        apply hsub
        cases c with
        | nil => simp [top] at hq
        | node B pts sub => rw [stored_node]; exact Or.inl hq)
      exact ⟨this.1, by simp⟩
  have := nnRec_abest h0 rfl p t.stored t B ∅ _ hw hl subset_rfl hst
  unfold nn
  exact this.congr (by simp)

/-- The nearest neighbour search of any reachable octree with at least one accepted point returns an
accepted point, its distance, and is off from the true minimum by at most `√3 ε`, where `ε` bounds how far
accepted points are outside of the region. -/
theorem C32_nn_bound {τ : ℝ} {B : AABox3 ℝ} {res : ℝ} {t : Oct ℝ} {ps : List (Vec3 ℝ)}
    (h : Reach τ B res t ps) (hne : ps ≠ []) {ε : ℝ} (h0 : 0 ≤ ε)
    (hin : ∀ q ∈ ps, Near ε B q) (p : Vec3 ℝ) :
    ∃ q, nn τ t p = some (q, Spec.ed p q) ∧ q ∈ ps ∧ ∀ x ∈ ps, Spec.ed p q ≤ Spec.ed p x + Real.sqrt 3 * ε := by
  obtain ⟨-, -, hw, hl, hb⟩ := reach_inv h ε h0 hin
  have hab := nn_abest h0 p hw hl
  have hmem : ∀ x, x ∈ t.stored ↔ x ∈ ps := by intro x; simp [Oct.stored, hb]
  obtain ⟨x0, hx0⟩ := List.exists_mem_of_ne_nil ps hne
  obtain ⟨⟨q, d⟩, hs, -⟩ := hab.2 x0 ((hmem _).2 hx0)
  obtain ⟨h1, h2⟩ := hab.1 _ hs
  dsimp only at h1 h2
  subst h2
  refine ⟨q, hs, (hmem _).1 h1, ?_⟩
  intro x hx
  obtain ⟨h', hs', hle⟩ := hab.2 x ((hmem _).2 hx)
  rw [hs] at hs'; cases hs'
  exact hle

/-- Exactness when every accepted point lies in the closed region of the octree. `_partial`: the code also
accepts points up to the tolerance outside of the region, for which only `C32_nn_bound` holds (see
`C32_not_exact_outside`). -/
theorem C32_nn_partial {τ : ℝ} {B : AABox3 ℝ} {res : ℝ} {t : Oct ℝ} {ps : List (Vec3 ℝ)}
    (h : Reach τ B res t ps) (hne : ps ≠ [])
    (hin : ∀ q ∈ ps, (B.min.x ≤ q.x ∧ q.x ≤ B.max.x) ∧ (B.min.y ≤ q.y ∧ q.y ≤ B.max.y) ∧
      (B.min.z ≤ q.z ∧ q.z ≤ B.max.z)) (p : Vec3 ℝ) :
    ∃ q, nn τ t p = some (q, Spec.ed p q) ∧ q ∈ ps ∧ ∀ x ∈ ps, Spec.ed p q ≤ Spec.ed p x := by
  obtain ⟨q, h1, h2, h3⟩ := C32_nn_bound h hne le_rfl (by
    intro q hq
    obtain ⟨⟨a1, a2⟩, ⟨b1, b2⟩, c1, c2⟩ := hin q hq
    exact ⟨⟨by linarith, by linarith⟩, ⟨by linarith, by linarith⟩, by linarith, by linarith⟩) p
  refine ⟨q, h1, h2, fun x hx => ?_⟩
  have := h3 x hx
  rw [mul_zero, add_zero] at this
  exact this

/-- In every reachable octree the result is within `√3` times the tolerance of the optimum. -/
theorem C32_nn_tolerance {τ : ℝ} (hτ : 0 ≤ τ) {B : AABox3 ℝ} {res : ℝ} {t : Oct ℝ} {ps : List (Vec3 ℝ)}
    (h : Reach τ B res t ps) (hne : ps ≠ []) (p : Vec3 ℝ) :
    ∃ q, nn τ t p = some (q, Spec.ed p q) ∧ q ∈ ps ∧ ∀ x ∈ ps, Spec.ed p q ≤ Spec.ed p x + Real.sqrt 3 * τ :=
  C32_nn_bound h hne hτ (fun q hq => near_of_inside (reach_accepted hτ h q hq)) p

/-- On an octree without points the search returns HUGE_VAL and assigns no neighbour. -/
theorem C32_nn_empty {τ : ℝ} (hτ : 0 ≤ τ) {B : AABox3 ℝ} {res : ℝ} {t : Oct ℝ}
    (h : Reach τ B res t []) (p : Vec3 ℝ) : nn τ t p = none := by
  have hsh := C31_shape hτ h
  have hab := nn_abest hτ p hsh.2.1 hsh.2.2
  have hb := C31_points hτ h
  cases hn : nn τ t p with
  | none => rfl
  | some x =>
    have := (hab.1 x hn).1
    simp [Oct.stored, hb] at this

/-- The cube used in the counterexample. -/
def cube2 : AABox3 ℝ := ⟨⟨0,0,0⟩, ⟨2,2,2⟩⟩

theorem cube2_sub1 : subRegion cube2 1 = ⟨⟨1,0,0⟩,⟨2,1,1⟩⟩ := by
  rw [subRegion_eq (by norm_num [Sorted, cube2])]
  have b0 : Nat.testBit (1 : Fin 8).val 0 = true := by decide
  have b1 : Nat.testBit (1 : Fin 8).val 1 = false := by decide
  have b2 : Nat.testBit (1 : Fin 8).val 2 = false := by decide
  rw [b0, b1, b2]
  norm_num [cube2, Oct.center, Vec3.mid]
theorem cube2_sub3 : subRegion cube2 3 = ⟨⟨1,1,0⟩,⟨2,2,1⟩⟩ := by
  rw [subRegion_eq (by norm_num [Sorted, cube2])]
  have b0 : Nat.testBit (3 : Fin 8).val 0 = true := by decide
  have b1 : Nat.testBit (3 : Fin 8).val 1 = true := by decide
  have b2 : Nat.testBit (3 : Fin 8).val 2 = false := by decide
  rw [b0, b1, b2]
  norm_num [cube2, Oct.center, Vec3.mid]

/-- The code accepts points that are outside of the region by less than the tolerance, and then the nearest
neighbour search is not exact: for every tolerance in (0,1], in the cube `[0,2]³` at resolution 1 the points
`(2+τ/2,1,1/2)`, `(2+τ,1+τ/4,1/2)` are accepted, and for the query `(2+τ,1,1/2)` the search returns the
former at distance `τ/2` although the latter is at distance `τ/4`. -/
theorem C32_not_exact_outside (τ : ℝ) (h0 : 0 < τ) (h1 : τ ≤ 1) :
    ∃ t, Reach τ cube2 1 t [⟨2+τ/2,1,1/2⟩, ⟨2+τ,1+τ/4,1/2⟩] ∧
      nn τ t ⟨2+τ,1,1/2⟩ = some (⟨2+τ/2,1,1/2⟩, τ/2) ∧
      Spec.ed ⟨2+τ,1,1/2⟩ ⟨2+τ,1+τ/4,1/2⟩ = τ/4 := by
  have hnsm : ¬ IsSmallest τ 1 cube2 := by
    unfold IsSmallest cube2; rintro ⟨h, -⟩; dsimp only at h; linarith
  have hc : Oct.center cube2 = ⟨1,1,1⟩ := by norm_num [cube2, Oct.center, Vec3.mid]
  have hs1 : IsSmallest τ 1 (subRegion cube2 1) := by
    rw [cube2_sub1]; unfold IsSmallest; dsimp only; refine ⟨?_, ?_, ?_⟩ <;> linarith
  have hs3 : IsSmallest τ 1 (subRegion cube2 3) := by
    rw [cube2_sub3]; unfold IsSmallest; dsimp only; refine ⟨?_, ?_, ?_⟩ <;> linarith
  set q1 : Vec3 ℝ := ⟨2+τ/2,1,1/2⟩ with hq1
  set q2 : Vec3 ℝ := ⟨2+τ,1+τ/4,1/2⟩ with hq2
  have hi1 : index (Oct.center cube2) q1 = 1 := by
    rw [hc]; unfold index
    have a : (decide (q1.x > 1)) = true := by rw [decide_eq_true_eq, hq1]; dsimp only; linarith
    have b : (decide (q1.y > 1)) = false := by rw [decide_eq_false_iff_not, hq1]; dsimp only; linarith
    have c : (decide (q1.z > 1)) = false := by rw [decide_eq_false_iff_not, hq1]; dsimp only; linarith
    simp only [a, b, c]
  have hi3 : index (Oct.center cube2) q2 = 3 := by
    rw [hc]; unfold index
    have a : (decide (q2.x > 1)) = true := by rw [decide_eq_true_eq, hq2]; dsimp only; linarith
    have b : (decide (q2.y > 1)) = true := by rw [decide_eq_true_eq, hq2]; dsimp only; linarith
    have c : (decide (q2.z > 1)) = false := by rw [decide_eq_false_iff_not, hq2]; dsimp only; linarith
    simp only [a, b, c]
  have hin1 : cube2.pointIsInside q1 τ := by
    unfold AABox3.pointIsInside cube2; rw [hq1]; dsimp only
    refine ⟨⟨?_, ?_⟩, ⟨?_, ?_⟩, ?_, ?_⟩ <;> linarith
  have hin2 : cube2.pointIsInside q2 τ := by
    unfold AABox3.pointIsInside cube2; rw [hq2]; dsimp only
    refine ⟨⟨?_, ?_⟩, ⟨?_, ?_⟩, ?_, ?_⟩ <;> linarith
  have r0 : Reach τ cube2 1 (fresh cube2) [] := .init 1 one_pos (by norm_num [Sorted, cube2])
  set s1 : Fin 8 → Oct ℝ := Function.update (fun _ => nil) 1 (node (subRegion cube2 1) [q1] (fun _ => nil)) with hS1
  set s2 : Fin 8 → Oct ℝ := Function.update s1 3 (node (subRegion cube2 3) [q2] (fun _ => nil)) with hS2
  have r1 : Reach τ cube2 1 (node cube2 [] s1) [q1] := by
    refine .add 2 q1 r0 ?_
    unfold addPoint fresh; dsimp only
    rw [if_pos hin1]; unfold addRec; rw [if_neg hnsm, hi1]; dsimp only
    unfold alloc fresh addRec; dsimp only; rw [if_pos hs1]; rfl
  have r2 : Reach τ cube2 1 (node cube2 [] s2) [q1, q2] := by
    refine .add (ps := [q1]) 2 q2 r1 ?_
    unfold addPoint; dsimp only
    rw [if_pos hin2]; unfold addRec; rw [if_neg hnsm, hi3]; dsimp only
    have : s1 3 = nil := by simp [hS1]
    rw [this]
    unfold alloc fresh addRec; dsimp only; rw [if_pos hs3]; rfl
  refine ⟨_, r2, ?_, ?_⟩
  · have e0 : s2 0 = nil := by simp [hS1, hS2]
    have e1 : s2 1 = node (subRegion cube2 1) [q1] (fun _ => nil) := by simp [hS1, hS2]
    have e2 : s2 2 = nil := by simp [hS1, hS2]
    have e3 : s2 3 = node (subRegion cube2 3) [q2] (fun _ => nil) := by simp [hS2]
    have e4 : s2 4 = nil := by simp [hS1, hS2]
    have e5 : s2 5 = nil := by simp [hS1, hS2]
    have e6 : s2 6 = nil := by simp [hS1, hS2]
    have e7 : s2 7 = nil := by simp [hS1, hS2]
    have hfin : List.finRange 8 = [0,1,2,3,4,5,6,7] := by decide
    have hnil : ∀ p, findContainer τ p (nil : Oct ℝ) = none := fun _ => rfl
    set p : Vec3 ℝ := ⟨2+τ,1,1/2⟩ with hp
    have hpin : cube2.pointIsInside p τ := by
      unfold AABox3.pointIsInside cube2; rw [hp]; dsimp only
      refine ⟨⟨?_, ?_⟩, ⟨?_, ?_⟩, ?_, ?_⟩ <;> linarith
    have hpin1 : (subRegion cube2 1).pointIsInside p τ := by
      rw [cube2_sub1]; unfold AABox3.pointIsInside; rw [hp]; dsimp only
      refine ⟨⟨?_, ?_⟩, ⟨?_, ?_⟩, ?_, ?_⟩ <;> linarith
    have hf1 : findContainer τ p (s2 1) = some (node (subRegion cube2 1) [q1] (fun _ => nil)) := by
      rw [e1]; unfold findContainer; rw [if_pos hpin1, hfin]; simp [hnil]
    have hfc : findContainer τ p (node cube2 [] s2) = some (node (subRegion cube2 1) [q1] (fun _ => nil)) := by
      unfold findContainer
      rw [if_pos hpin, hfin]
      simp only [List.findSome?_cons, e0, hnil, hf1]
    have hd1 : q1.sqrDist p = (τ/2) * (τ/2) := by
      rw [hq1, hp]; simp only [zeo]; ring
    have hleaf : leafNN p [q1] none = some (q1, τ/2) := by
      unfold leafNN nnTest
      simp only [List.foldl_cons, List.foldl_nil, closer, if_true]
      rw [hd1, Real.sqrt_mul_self (by linarith)]
      exact if_pos trivial
    have hfar1 : exists? (s2 1) = true ∧ farther (sqrDist p (s2 1)) (some (q1, τ/2)) := by
      rw [e1]
      refine ⟨rfl, ?_⟩
      show (subRegion cube2 1).sqrDistFromPoint p > (τ/2) * (τ/2)
      rw [cube2_sub1, hp]; unfold AABox3.sqrDistFromPoint sqrExcess; dsimp only
      rw [if_neg (by linarith), if_pos (by linarith), if_neg (by norm_num), if_neg (by norm_num),
        if_neg (by norm_num), if_neg (by norm_num)]
      nlinarith
    have hfar3 : exists? (s2 3) = true ∧ farther (sqrDist p (s2 3)) (some (q1, τ/2)) := by
      rw [e3]
      refine ⟨rfl, ?_⟩
      show (subRegion cube2 3).sqrDistFromPoint p > (τ/2) * (τ/2)
      rw [cube2_sub3, hp]; unfold AABox3.sqrDistFromPoint sqrExcess; dsimp only
      rw [if_neg (by linarith), if_pos (by linarith), if_neg (by norm_num), if_neg (by norm_num),
        if_neg (by norm_num), if_neg (by norm_num)]
      nlinarith
    have hn : ∀ st, nnRec p (nil : Oct ℝ) st = st := fun _ => rfl
    unfold nn
    rw [hfc]
    dsimp only [top]
    rw [hleaf]
    unfold nnRec
    rw [if_neg (by simp), hfin]
    simp only [List.foldl_cons, List.foldl_nil, if_pos hfar1, if_pos hfar3, e0, e2, e4, e5, e6, e7, hn, ite_self]
  · unfold Spec.ed Spec.sqd
    rw [hq2]
    have : (2 + τ - (2 + τ))^2 + (1 - (1 + τ/4))^2 + ((1:ℝ)/2 - 1/2)^2 = (τ/4)*(τ/4) := by ring
    dsimp only
    rw [this, Real.sqrt_mul_self (by linarith)]

/-- The hypotheses of `C32_nn_partial` are met by a history with points in different octants. -/
example : ∃ t q, Reach (1/2) cube2 1 t [⟨1/2,1/2,1/2⟩, ⟨3/2,3/2,1/2⟩] ∧
    nn (1/2) t ⟨2,2,2⟩ = some (q, Spec.ed ⟨2,2,2⟩ q) ∧ q = ⟨3/2,3/2,1/2⟩ := by
  have r0 : Reach (1/2) cube2 1 (fresh cube2) [] := .init 1 one_pos (by norm_num [Sorted, cube2])
  obtain ⟨n1, hn1⟩ := (C31_accept (by norm_num) r0 ⟨1/2,1/2,1/2⟩).2 (by norm_num [cube2])
  obtain ⟨t1, ht1, -⟩ := hn1 (n1 + 1) (by omega)
  have r1 := Reach.add _ _ r0 ht1
  obtain ⟨n2, hn2⟩ := (C31_accept (by norm_num) r1 ⟨3/2,3/2,1/2⟩).2 (by norm_num [cube2])
  obtain ⟨t2, ht2, -⟩ := hn2 (n2 + 1) (by omega)
  have r2 := Reach.add _ _ r1 ht2
  obtain ⟨q, h1, h2, h3⟩ := C32_nn_partial r2 (by simp) (by
    intro q hq
    simp only [List.nil_append, List.cons_append, List.mem_cons, List.not_mem_nil, or_false] at hq
    rcases hq with rfl | rfl <;> norm_num [cube2]) ⟨2,2,2⟩
  refine ⟨t2, q, r2, h1, ?_⟩
  simp only [List.nil_append, List.cons_append, List.mem_cons, List.not_mem_nil, or_false] at h2
  rcases h2 with rfl | rfl
  · have := h3 ⟨3/2,3/2,1/2⟩ (by simp)
    unfold Spec.ed at this
    rw [Real.sqrt_le_sqrt_iff (by unfold Spec.sqd; positivity)] at this
    norm_num [Spec.sqd] at this
  · rfl

end
end Zeo
