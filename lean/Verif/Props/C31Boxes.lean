import Verif.Props.C31

/-! # C31: the boxes of the leaves of an octree -/

namespace Zeo
open Oct
variable {K : Type*} [Field K] [LinearOrder K] [IsStrictOrderedRing K]

/-- No point is strictly inside of both boxes. -/
def Spec.BoxApart (a b : AABox3 K) : Prop :=
  ∀ q : Vec3 K, ¬ (((a.min.x < q.x ∧ q.x < a.max.x) ∧ (a.min.y < q.y ∧ q.y < a.max.y) ∧ (a.min.z < q.z ∧ q.z < a.max.z)) ∧
    ((b.min.x < q.x ∧ q.x < b.max.x) ∧ (b.min.y < q.y ∧ q.y < b.max.y) ∧ (b.min.z < q.z ∧ q.z < b.max.z)))

/-- Every corner of `a` is in `b`. -/
def Spec.BoxIn (a b : AABox3 K) : Prop :=
  (b.min.x ≤ a.min.x ∧ a.max.x ≤ b.max.x) ∧ (b.min.y ≤ a.min.y ∧ a.max.y ≤ b.max.y) ∧ (b.min.z ≤ a.min.z ∧ a.max.z ≤ b.max.z)

private theorem sub_in {B : AABox3 K} (h : Sorted B) (i : Fin 8) : Spec.BoxIn (subRegion B i) B := by
  obtain ⟨⟨h1, h2⟩, ⟨h3, h4⟩, ⟨h5, h6⟩, -⟩ := h.center
  rw [subRegion_eq h]
  refine ⟨?_, ?_, ?_⟩ <;> dsimp only <;> split_ifs <;> constructor <;> first | exact le_rfl | assumption

private theorem sub_apart {B : AABox3 K} (h : Sorted B) {i j : Fin 8} (hij : i ≠ j) : Spec.BoxApart (subRegion B i) (subRegion B j) := by
  rw [subRegion_eq h, subRegion_eq h]
  have hb : i.val.testBit 0 ≠ j.val.testBit 0 ∨ i.val.testBit 1 ≠ j.val.testBit 1 ∨ i.val.testBit 2 ≠ j.val.testBit 2 := by
    revert hij; revert i j; decide
  rintro q ⟨⟨⟨a1, a2⟩, ⟨a3, a4⟩, a5, a6⟩, ⟨b1, b2⟩, ⟨b3, b4⟩, b5, b6⟩
  dsimp only at *
  rcases hb with hb | hb | hb
  · cases hi : i.val.testBit 0 <;> cases hj : j.val.testBit 0 <;> simp [hi, hj] at hb a1 a2 b1 b2 <;> linarith
  · cases hi : i.val.testBit 1 <;> cases hj : j.val.testBit 1 <;> simp [hi, hj] at hb a3 a4 b3 b4 <;> linarith
  · cases hi : i.val.testBit 2 <;> cases hj : j.val.testBit 2 <;> simp [hi, hj] at hb a5 a6 b5 b6 <;> linarith

private theorem apart_mono {a b a' b' : AABox3 K} (h : Spec.BoxApart a b) (ha : Spec.BoxIn a' a) (hb : Spec.BoxIn b' b) :
    Spec.BoxApart a' b' := by
  obtain ⟨⟨p1, p2⟩, ⟨p3, p4⟩, p5, p6⟩ := ha
  obtain ⟨⟨r1, r2⟩, ⟨r3, r4⟩, r5, r6⟩ := hb
  rintro q ⟨⟨⟨a1, a2⟩, ⟨a3, a4⟩, a5, a6⟩, ⟨b1, b2⟩, ⟨b3, b4⟩, b5, b6⟩
  exact h q ⟨⟨⟨by linarith, by linarith⟩, ⟨by linarith, by linarith⟩, by linarith, by linarith⟩,
    ⟨by linarith, by linarith⟩, ⟨by linarith, by linarith⟩, by linarith, by linarith⟩

private theorem leaf_in {τ res : K} (t : Oct K) : ∀ B, WF τ res B t → ∀ b ∈ leafBoxes t, Spec.BoxIn b B := by
  induction t with
  | nil => intro B _ b hb; simp [leafBoxes] at hb
  | node B' pts sub ih =>
    rintro B ⟨rfl, hs, -, -, hw⟩ b hb
    rw [leafBoxes] at hb
    split at hb
    · simp only [List.mem_flatMap, List.mem_finRange, true_and] at hb
      obtain ⟨i, hi⟩ := hb
      obtain ⟨⟨p1, p2⟩, ⟨p3, p4⟩, p5, p6⟩ := ih i _ (hw i) b hi
      obtain ⟨⟨r1, r2⟩, ⟨r3, r4⟩, r5, r6⟩ := sub_in hs i
      exact ⟨⟨r1.trans p1, p2.trans r2⟩, ⟨r3.trans p3, p4.trans r4⟩, r5.trans p5, p6.trans r6⟩
    · simp only [List.mem_singleton] at hb
      subst hb
      exact ⟨⟨le_rfl, le_rfl⟩, ⟨le_rfl, le_rfl⟩, le_rfl, le_rfl⟩

private theorem leaf_apart {τ res : K} (t : Oct K) : ∀ B, WF τ res B t → (leafBoxes t).Pairwise Spec.BoxApart := by
  induction t with
  | nil => intro B _; simp [leafBoxes]
  | node B' pts sub ih =>
    rintro B ⟨rfl, hs, -, -, hw⟩
    rw [leafBoxes]
    split
    · rw [List.pairwise_flatMap]
      refine ⟨fun i _ => ih i _ (hw i), ?_⟩
      refine (List.nodup_finRange 8).imp ?_
      intro i j hij a ha b hb
      exact apart_mono (sub_apart hs hij) (leaf_in _ _ (hw i) a ha) (leaf_in _ _ (hw j) b hb)
    · simp

private theorem leaf_near {τ res ε : K} (t : Oct K) : ∀ B, WF τ res B t → Loc ε t → ∀ q ∈ bag t,
    ∃ b ∈ leafBoxes t, Near ε b q ∧ IsSmallest τ res b := by
  induction t with
  | nil => intro B _ _ q hq; simp [bag] at hq
  | node B' pts sub ih =>
    rintro B ⟨rfl, hs, hsm, hns, hw⟩ ⟨hl, hl'⟩ q hq
    have hq' := hq
    rw [bag_node, Multiset.mem_add, Multiset.mem_sum] at hq
    rw [leafBoxes]
    rcases hq with hq | ⟨i, -, hq⟩
    · by_cases hS : IsSmallest τ res B'
      · rw [if_neg]
        · exact ⟨B', by simp, hl q hq', hS⟩
        · rintro ⟨i, hi⟩
          rw [hsm hS i] at hi
          simp [exists?] at hi
      · rw [hns hS] at hq; simp at hq
    · obtain ⟨b, hb, h1, h2⟩ := ih i _ (hw i) (hl' i) q hq
      refine ⟨b, ?_, h1, h2⟩
      rw [if_pos]
      · simp only [List.mem_flatMap, List.mem_finRange, true_and]; exact ⟨i, hb⟩
      · refine ⟨i, ?_⟩
        cases he : sub i with
        | nil => rw [he] at hq; simp [bag] at hq
        | node => rfl

/-- **C31** (`zVec3DOctreeToAABox3DList`): after any history the listed boxes lie in the region of the octree and have no
inner point in common, and every accepted point is within the tolerance of one that is not larger than the resolution. -/
theorem C31_boxes {τ : K} (hτ : 0 ≤ τ) {B : AABox3 K} {res : K} {t : Oct K} {ps : List (Vec3 K)}
    (h : Reach τ B res t ps) :
    (∀ b ∈ leafBoxes t, Spec.BoxIn b B) ∧ (leafBoxes t).Pairwise Spec.BoxApart ∧
    ∀ p ∈ ps, ∃ b ∈ leafBoxes t, Near τ b p ∧ IsSmallest τ res b := by
  obtain ⟨-, hw, hl⟩ := C31_shape hτ h
  refine ⟨leaf_in t B hw, leaf_apart t B hw, fun p hp => leaf_near t B hw hl p ?_⟩
  rw [C31_points hτ h]
  exact hp

/-- The hypothesis is met by the history of the cube `[0,2]³` at resolution 1 with one accepted point. -/
example : ∃ t, Reach (0:ℚ) ⟨⟨0,0,0⟩,⟨2,2,2⟩⟩ 1 t [⟨1/2,1/2,3/2⟩] := by
  have hi : Reach (0:ℚ) ⟨⟨0,0,0⟩,⟨2,2,2⟩⟩ 1 (fresh ⟨⟨0,0,0⟩,⟨2,2,2⟩⟩) [] :=
    .init 1 (by norm_num) (by norm_num [Sorted])
  obtain ⟨n, hn⟩ := (C31_accept le_rfl hi ⟨1/2,1/2,3/2⟩).2 (by norm_num)
  obtain ⟨t, ht, -⟩ := hn (n + 1) (by omega)
  exact ⟨t, .add _ _ hi ht⟩

end Zeo
