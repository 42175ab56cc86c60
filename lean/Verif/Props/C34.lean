import Verif.Props.C33

/-! # C34: unifying octants -/

namespace Zeo
open Oct
variable {K : Type*} [Field K] [LinearOrder K] [IsStrictOrderedRing K]

/-- The octant has no suboctants. -/
def Oct.IsLeaf : Oct K → Prop
  | nil => False
  | node _ _ sub => ∀ i, sub i = nil

/-- Has at least one suboctant without suboctants. -/
def Oct.HasLeafChild : Oct K → Prop
  | nil => False
  | node _ _ sub => ∃ i, (sub i).IsLeaf

/-- Every octant properly below is a leaf or has a leaf among its suboctants. -/
def Oct.NoThin : Oct K → Prop
  | nil => True
  | node _ _ sub => ∀ i, (sub i).NoThin ∧ (sub i = nil ∨ (sub i).IsLeaf ∨ (sub i).HasLeafChild)

theorem unify_leaf {t : Oct K} (h : t.IsLeaf) : unify t = (t, true) := by
  cases t with
  | nil => exact absurd h id
  | node B pts sub =>
    have h' : sub = fun _ => nil := funext h
    subst h'
    unfold unify
    rw [if_pos (by intro i; simp [exists?])]
    simp [unify]

theorem unify_true {t : Oct K} (h : (unify t).2 = true) (hc : t.IsLeaf ∨ t.HasLeafChild) :
    bag (unify t).1 = (top (unify t).1 : Multiset (Vec3 K)) := by
  rcases hc with hc | hc
  · rw [unify_leaf hc]
    cases t with
    | nil => rfl
    | node B pts sub => have : sub = fun _ => nil := funext hc; subst this; simp [bag, top]
  · cases t with
    | nil => rfl
    | node B pts sub =>
      obtain ⟨j, hj⟩ := hc
      have hfj : (exists? (sub j) && (unify (sub j)).2) = true := by
        rw [unify_leaf hj]
        cases hs : sub j with
        | nil => rw [hs] at hj; exact absurd hj id
        | node => rfl
      unfold unify at h ⊢
      dsimp only at h ⊢
      split_ifs at h ⊢ with h1 h2
      · exact absurd (h1 j) (by rw [hfj]; simp)
      · simp [bag, top]

/-- When every proper octant is a leaf or has a leaf among its suboctants, unifying keeps every point
(with multiplicity). `_partial`: for other reachable octrees the claim fails, see `C34_unify_loses_points`. -/
theorem C34_unify_keeps_partial (t : Oct K) (h : t.NoThin) : bag (unifyOctant t) = bag t := by
  unfold unifyOctant
  induction t with
  | nil => rfl
  | node B pts sub ih =>
    have key := fun i => ih i (h i).1
    have e : (∑ i, bag (unify (sub i)).1) = ∑ i, bag (sub i) := Finset.sum_congr rfl (fun i _ => key i)
    unfold unify
    dsimp only
    split_ifs with h1 h2
    · rw [bag_node, bag_node, e]
    · have hall := h2
      rw [bag_node, bag_node, ← e, ← Multiset.coe_add, coe_flatMap_sum]
      simp only [bag, Finset.sum_const_zero, add_zero]
      congr 1
      refine Finset.sum_congr rfl (fun i _ => ?_)
      have hi := hall i
      rw [Bool.and_eq_true] at hi
      refine (unify_true hi.2 ?_).symm
      rcases (h i).2 with h3 | h3
      · rw [h3] at hi; exact absurd hi.1 (by simp [exists?])
      · exact h3
    · rw [bag_node, bag_node, e]

/-- Fold of insertions from a fresh octree over the cube `[0,s]³`. -/
def Oct.addAll (τ res : ℚ) (fuel : ℕ) : List (Vec3 ℚ) → Oct ℚ → Option (Oct ℚ)
  | [], t => some t
  | p :: ps, t => match addPoint τ res fuel p t with
    | .added t' => addAll τ res fuel ps t'
    | _ => none

theorem reach_addAll {τ res : ℚ} {fuel : ℕ} {B : AABox3 ℚ} (qs : List (Vec3 ℚ)) : ∀ {t t' : Oct ℚ}
    {ps : List (Vec3 ℚ)}, Reach τ B res t ps → addAll τ res fuel qs t = some t' → Reach τ B res t' (ps ++ qs) := by
  induction qs with
  | nil => intro t t' ps h e; cases e; simpa using h
  | cons p qs ih =>
    intro t t' ps h e
    unfold addAll at e
    split at e
    · rename_i t1 ht1
      have := ih (h.add fuel p ht1) e
      simpa using this
    · cases e

/-- The cube `[0,8]³`. -/
def cube8 : AABox3 ℚ := ⟨⟨0,0,0⟩,⟨8,8,8⟩⟩
/-- Eight points, one near each corner. -/
def corners8 : List (Vec3 ℚ) := [⟨1/2,1/2,1/2⟩, ⟨15/2,1/2,1/2⟩, ⟨1/2,15/2,1/2⟩, ⟨15/2,15/2,1/2⟩, ⟨1/2,1/2,15/2⟩,
  ⟨15/2,1/2,15/2⟩, ⟨1/2,15/2,15/2⟩, ⟨15/2,15/2,15/2⟩]

/-- The claim is false: in the cube `[0,8]³` at resolution 1, with one point near each corner, unifying
discards all eight points. An octant whose suboctants all refuse to be unified reports that it can be merged,
and merging it destroys its suboctants together with their points. -/
theorem C34_unify_loses_points : ∃ t, Reach (1/1000000000000) cube8 1 t corners8 ∧
    bag t = (corners8 : Multiset (Vec3 ℚ)) ∧ bag (unifyOctant t) = 0 := by
  have r0 : Reach (1/1000000000000) cube8 1 (fresh cube8) [] := .init 1 one_pos (by norm_num [Sorted, cube8])
  have hs : (addAll (1/1000000000000) 1 4 corners8 (fresh cube8)).isSome = true := by decide +kernel
  obtain ⟨t, ht⟩ := Option.isSome_iff_exists.1 hs
  have hr := reach_addAll corners8 r0 ht
  rw [List.nil_append] at hr
  refine ⟨t, hr, C31_points (by norm_num) hr, ?_⟩
  have hm : (addAll (1/1000000000000) 1 4 corners8 (fresh cube8)).map (fun t => bag (unifyOctant t)) = some 0 := by
    decide +kernel
  rw [ht] at hm
  simpa using hm

/-- The cube `[0,2]³`. -/
def cube2q : AABox3 ℚ := ⟨⟨0,0,0⟩,⟨2,2,2⟩⟩
/-- The eight cell centers of the cube. -/
def corners2 : List (Vec3 ℚ) := [⟨1/2,1/2,1/2⟩, ⟨3/2,1/2,1/2⟩, ⟨1/2,3/2,1/2⟩, ⟨3/2,3/2,1/2⟩, ⟨1/2,1/2,3/2⟩,
  ⟨3/2,1/2,3/2⟩, ⟨1/2,3/2,3/2⟩, ⟨3/2,3/2,3/2⟩]

/-- The hypothesis of `C34_unify_keeps_partial` is met: this octree is unified into a single octant holding
all eight points. -/
theorem C34_unify_example : ∃ t, Reach (1/1000000000000) cube2q 1 t corners2 ∧
    bag (unifyOctant t) = (corners2 : Multiset (Vec3 ℚ)) ∧ (unifyOctant t).top.length = 8 := by
  have r0 : Reach (1/1000000000000) cube2q 1 (fresh cube2q) [] := .init 1 one_pos (by norm_num [Sorted, cube2q])
  have hs : (addAll (1/1000000000000) 1 4 corners2 (fresh cube2q)).isSome = true := by decide +kernel
  obtain ⟨t, ht⟩ := Option.isSome_iff_exists.1 hs
  have hr := reach_addAll corners2 r0 ht
  rw [List.nil_append] at hr
  have hm : (addAll (1/1000000000000) 1 4 corners2 (fresh cube2q)).map
      (fun t => (bag (unifyOctant t), (unifyOctant t).top.length)) = some ((corners2 : Multiset (Vec3 ℚ)), 8) := by
    decide +kernel
  rw [ht] at hm
  simp only [Option.map_some, Option.some.injEq, Prod.mk.injEq] at hm
  exact ⟨t, hr, hm.1, hm.2⟩

/-- Inserting after unifying makes searches miss the new point: after unifying the eight cells of `[0,2]³`
and adding `(1,1,1)`, the point is stored, but a vicinity search of radius 1/4 around it is empty, because
the search does not look below an octant that holds points. -/
theorem C34_add_after_unify_missed : ∃ t t', Reach (1/1000000000000) cube2q 1 t corners2 ∧
    addPoint (1/1000000000000) 1 4 ⟨1,1,1⟩ (unifyOctant t) = .added t' ∧ ⟨1,1,1⟩ ∈ bag t' ∧
    vicinity t' ⟨1,1,1⟩ (1/4) = [] := by
  have r0 : Reach (1/1000000000000) cube2q 1 (fresh cube2q) [] := .init 1 one_pos (by norm_num [Sorted, cube2q])
  have hs : (addAll (1/1000000000000) 1 4 corners2 (fresh cube2q)).isSome = true := by decide +kernel
  obtain ⟨t, ht⟩ := Option.isSome_iff_exists.1 hs
  have hr := reach_addAll corners2 r0 ht
  rw [List.nil_append] at hr
  have h2 : ((addAll (1/1000000000000) 1 4 corners2 (fresh cube2q)).bind
      (fun t => addAll (1/1000000000000) 1 4 [⟨1,1,1⟩] (unifyOctant t))).map
      (fun t' => (bag t', vicinity t' ⟨1,1,1⟩ (1/4))) =
      some (((⟨1,1,1⟩ :: corners2 : List (Vec3 ℚ)) : Multiset (Vec3 ℚ)), []) := by decide +kernel
  rw [ht] at h2
  simp only [Option.bind_some, addAll] at h2
  cases ha : addPoint (1/1000000000000) 1 4 ⟨1,1,1⟩ (unifyOctant t) with
  | rejected => rw [ha] at h2; simp at h2
  | overflow => rw [ha] at h2; simp at h2
  | added t' =>
    rw [ha] at h2
    simp only [Option.map_some, Option.some.injEq, Prod.mk.injEq] at h2
    refine ⟨t, t', hr, ha, ?_, h2.2⟩
    rw [h2.1]; simp

/-- The nearest neighbour search likewise never looks below an octant that holds points, whatever is stored
there: for a query outside of the region only the points of the root are candidates. -/
theorem C34_nn_ignores_below (τ : ℝ) (B : AABox3 ℝ) (pts : List (Vec3 ℝ)) (sub sub' : Fin 8 → Oct ℝ)
    (p : Vec3 ℝ) (hp : pts ≠ []) (hout : ¬ B.pointIsInside p τ) :
    nn τ (node B pts sub) p = nn τ (node B pts sub') p := by
  unfold nn findContainer
  rw [if_neg hout, if_neg hout]
  unfold nnRec
  rw [if_pos hp, if_pos hp]

end Zeo
