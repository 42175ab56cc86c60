import Verif.Model.FromOct
import Verif.Props.C34
import Verif.Props.C31Boxes
import Verif.Props.C18

/-! # C92: shapes from an octree -/

namespace Zeo
open Oct
variable {K : Type*} [Field K] [LinearOrder K] [IsStrictOrderedRing K]

/-! ## No empty octant below the root -/

/-- Every octant below the root holds a point, itself or below. -/
private def Busy : Oct K → Prop
  | nil => True
  | node _ _ sub => ∀ i, Busy (sub i) ∧ (sub i = nil ∨ bag (sub i) ≠ 0)

private theorem busy_fresh (B : AABox3 K) : Busy (fresh B) := fun _ => ⟨trivial, Or.inl rfl⟩

private theorem busy_alloc {B : AABox3 K} {i : Fin 8} {t : Oct K} (h : Busy t) : Busy (alloc B i t) := by
  cases t with
  | nil => exact busy_fresh _
  | node => exact h

private theorem add_bag {τ res : K} {p : Vec3 K} : ∀ (n : ℕ) (t t' : Oct K), addRec τ res p n t = some t' → bag t' = {p} + bag t := by
  intro n
  induction n with
  | zero => intro t t' h; simp [addRec] at h
  | succ n ih =>
    intro t t' h
    cases t with
    | nil => simp [addRec] at h
    | node B pts sub =>
      rw [addRec] at h
      split_ifs at h with hs
      · cases h
        simp only [bag, ← Multiset.coe_add, Multiset.coe_singleton]
        rw [add_comm (pts : Multiset (Vec3 K)), add_assoc]
      · dsimp only at h
        split at h
        · cases h
        · rename_i t1 h1
          cases h
          have := ih _ _ h1
          rw [bag_alloc] at this
          rw [bag_node, bag_node, sum_update _ _ _ _ this]
          rw [← add_assoc, add_comm (pts : Multiset (Vec3 K)), add_assoc]

private theorem busy_update {sub : Fin 8 → Oct K} (h : ∀ i, Busy (sub i) ∧ (sub i = nil ∨ bag (sub i) ≠ 0)) {i : Fin 8} {t : Oct K}
    (ht : Busy t) (hb : bag t ≠ 0) : ∀ j, Busy (Function.update sub i t j) ∧ (Function.update sub i t j = nil ∨ bag (Function.update sub i t j) ≠ 0) := by
  intro j
  by_cases hj : j = i
  · subst hj; simp [ht, hb]
  · simp only [Function.update_of_ne hj]; exact h j

private theorem busy_add {τ res : K} {p : Vec3 K} : ∀ (n : ℕ) (t t' : Oct K), Busy t → addRec τ res p n t = some t' → Busy t' := by
  intro n
  induction n with
  | zero => intro t t' _ h; simp [addRec] at h
  | succ n ih =>
    intro t t' hb h
    cases t with
    | nil => simp [addRec] at h
    | node B pts sub =>
      rw [addRec] at h
      split_ifs at h with hs
      · cases h; exact hb
      · dsimp only at h
        split at h
        · cases h
        · rename_i t1 h1
          cases h
          refine busy_update hb (ih _ _ (busy_alloc (hb _).1) h1) ?_
          rw [add_bag _ _ _ h1]; simp

private theorem busy_push {p : Vec3 K} {t : Oct K} (h : Busy t) : Busy (push p t) := by
  cases t with
  | nil => trivial
  | node => exact h

private theorem busy_distribute {B : AABox3 K} (L : List (Vec3 K)) : ∀ (sub : Fin 8 → Oct K),
    (∀ i, Busy (sub i) ∧ (sub i = nil ∨ bag (sub i) ≠ 0)) →
    ∀ i, Busy (L.foldl (distribute B) sub i) ∧ (L.foldl (distribute B) sub i = nil ∨ bag (L.foldl (distribute B) sub i) ≠ 0) := by
  induction L with
  | nil => intro sub h; exact h
  | cons p L ih =>
    intro sub h
    rw [List.foldl_cons]
    refine ih _ (busy_update h (busy_push (busy_alloc (h _).1)) ?_)
    rw [bag_push (alloc_ne_nil _ _ _)]; simp

private theorem busy_divide {τ res res' ε : K} (h0 : 0 ≤ ε) (hr : res' ≤ res) : ∀ (n : ℕ) (B : AABox3 K) (t t' : Oct K),
    WF τ res B t → Loc ε t → Busy t → divide τ res' n t = some t' → Busy t' := by
  intro n
  induction n with
  | zero =>
    intro B t t' _ _ hb h
    cases t with
    | nil => simp [divide] at h; rw [← h]; trivial
    | node => simp [divide] at h
  | succ n ih =>
    intro B t t' hw hl hb h
    cases t with
    | nil => simp [divide] at h; rw [← h]; trivial
    | node B' pts sub =>
      have hB : B' = B := hw.1
      subst hB
      obtain ⟨c1, c2, c3⟩ := divide_children h0 hw hl
      have c4 := busy_distribute (B := B') pts.reverse sub hb
      rw [divide] at h
      split_ifs at h with hs
      · cases h; exact hb
      · dsimp only at h
        split_ifs at h with hd
        rw [Option.some.injEq] at h
        subst h
        intro i
        have e : divide τ res' n (pts.reverse.foldl (distribute B') sub i) = some ((divide τ res' n (pts.reverse.foldl (distribute B') sub i)).get (hd i)) := by simp
        have hdv := divide_spec h0 hr n _ _ _ (c1 i) (c2 i) e
        refine ⟨ih _ _ _ (c1 i) (c2 i) (c4 i).1 e, ?_⟩
        rcases (c4 i).2 with hn | hn
        · left
          have e2 : ∀ t : Oct K, t = nil → divide τ res' n t = some nil := by rintro _ rfl; cases n <;> rfl
          exact Option.some.inj (e.symm.trans (e2 _ hn))
        · right; rw [hdv.2.2.1]; exact hn

private theorem busy_merge {τ res res' ε : K} (hr : res ≤ res') (t : Oct K) : ∀ B, WF τ res B t → Loc ε t → Busy t → Busy (merge τ res' t) := by
  induction t with
  | nil => intro B _ _ _; trivial
  | node B' pts sub ih =>
    intro B hw hl hb
    rw [merge]
    split_ifs with hs
    · exact fun i => ⟨trivial, Or.inl rfl⟩
    · intro i
      refine ⟨ih i _ (hw.2.2.2.2 i) (hl.2 i) (hb i).1, ?_⟩
      rcases (hb i).2 with hn | hn
      · left; show merge τ res' (sub i) = nil; rw [hn]; rfl
      · right; rw [(merge_spec hr (sub i) _ (hw.2.2.2.2 i) (hl.2 i)).2.2.1]; exact hn

private theorem reach_busy {τ : K} (hτ : 0 ≤ τ) {B : AABox3 K} {res : K} {t : Oct K} {ps : List (Vec3 K)} (h : Reach τ B res t ps) : Busy t := by
  induction h with
  | init => exact busy_fresh _
  | add fuel p _ hadd ih =>
    rename_i res t t' ps _
    cases t with
    | nil => simp [addPoint] at hadd
    | node B' pts sub =>
      unfold addPoint at hadd; dsimp only at hadd
      split_ifs at hadd with hin
      split at hadd
      · cases hadd
      · rename_i t1 ht1
        cases hadd
        exact busy_add _ _ _ ih ht1
  | change fuel res' hr0 hres' hch ih =>
    rename_i res t t' ps
    obtain ⟨-, hw, hl⟩ := C31_shape hτ hr0
    unfold changeResolution at hch
    split_ifs at hch with hlt
    · exact busy_divide hτ hlt.le _ _ _ _ hw hl ih hch
    · cases hch
      exact busy_merge (not_lt.1 hlt) t B hw hl ih

private theorem leaf_busy {ε : K} (t : Oct K) (hl : Loc ε t) (hb : Busy t) (h0 : bag t ≠ 0) : ∀ b ∈ leafBoxes t, ∃ q ∈ bag t, Near ε b q := by
  induction t with
  | nil => intro b hb; simp [leafBoxes] at hb
  | node B pts sub ih =>
    intro b hm
    rw [leafBoxes] at hm
    split at hm
    · simp only [List.mem_flatMap, List.mem_finRange, true_and] at hm
      obtain ⟨i, hi⟩ := hm
      have hi0 : bag (sub i) ≠ 0 := by
        rcases (hb i).2 with h | h
        · rw [h] at hi; simp [leafBoxes] at hi
        · exact h
      obtain ⟨q, hq, hn⟩ := ih i (hl.2 i) (hb i).1 hi0 b hi
      refine ⟨q, ?_, hn⟩
      rw [bag_node, Multiset.mem_add, Multiset.mem_sum]
      exact Or.inr ⟨i, by simp, hq⟩
    · simp only [List.mem_singleton] at hm
      subst hm
      obtain ⟨q, hq⟩ := Multiset.exists_mem_of_ne_zero h0
      exact ⟨q, hq, hl.1 q hq⟩

private theorem leaf_ne (t : Oct K) (h : t ≠ nil) : leafBoxes t ≠ [] := by
  induction t with
  | nil => exact absurd rfl h
  | node B pts sub ih =>
    rw [leafBoxes]
    split
    · rename_i he
      obtain ⟨i, hi⟩ := he
      intro hc
      rw [List.flatMap_eq_nil_iff] at hc
      have hs : sub i ≠ nil := by intro hn; rw [hn] at hi; simp [exists?] at hi
      exact ih i hs (hc i (List.mem_finRange i))
    · simp

private theorem leaf_sorted {τ res : K} (t : Oct K) : ∀ B, WF τ res B t → ∀ b ∈ leafBoxes t, Oct.Sorted b := by
  induction t with
  | nil => intro B _ b hb; simp [leafBoxes] at hb
  | node B' pts sub ih =>
    rintro B ⟨rfl, hs, -, -, hw⟩ b hb
    rw [leafBoxes] at hb
    split at hb
    · simp only [List.mem_flatMap, List.mem_finRange, true_and] at hb
      obtain ⟨i, hi⟩ := hb
      exact ih i _ (hw i) b hi
    · simp only [List.mem_singleton] at hb
      subst hb; exact hs

private theorem shapes_get (l : List (AABox3 K)) : ∀ (k i : ℕ), (octShapes k l)[i]? = l[i]?.map fun a => ⟨"box" ++ toString (k + i), .fromAABox a, 0⟩ := by
  induction l with
  | nil => intro k i; simp [octShapes]
  | cons a l ih =>
    intro k i
    cases i with
    | zero => simp [octShapes]
    | succ i => rw [octShapes, List.getElem?_cons_succ, List.getElem?_cons_succ, ih]; simp [Nat.add_comm, Nat.add_left_comm]

/-- **C92** (`zMultiShape3DFromOctree`): the shapes are boxes which lie in the region of the octree and do not overlap, every
accepted point is within the tolerance of one of them that is not larger than the resolution, and every box is within the
tolerance of an accepted point, so that no free space is filled. All boxes refer to the one optical information. -/
theorem C92_shapes {O : Type*} (white : O) {τ : K} (hτ : 0 ≤ τ) {B : AABox3 K} {res : K} {t : Oct K} {ps : List (Vec3 K)}
    (h : Reach τ B res t ps) (hp : ps ≠ []) (oi : Option O) : ∃ boxes : List (AABox3 K),
      (∀ a ∈ boxes, Spec.BoxIn a B) ∧ boxes.Pairwise Spec.BoxApart ∧
      (∀ p ∈ ps, ∃ a ∈ boxes, Near τ a p ∧ IsSmallest τ res a) ∧ (∀ a ∈ boxes, ∃ p ∈ ps, Near τ a p) ∧
      (fromOctree white t oi).2 = [oi.getD white] ∧
      (fromOctree white t oi).1.length = boxes.length ∧
      ∀ (i : ℕ) (a : AABox3 K), boxes[i]? = some a → ∃ s, (fromOctree white t oi).1[i]? = some s ∧
        s.name = "box" ++ toString i ∧ (s.optic : ℕ) < (fromOctree white t oi).2.length ∧ Spec.obox s.box = Spec.aabox a := by
  obtain ⟨h1, h2, h3⟩ := C31_boxes hτ h
  obtain ⟨hn, hw, hl⟩ := C31_shape hτ h
  have hb := C31_points hτ h
  refine ⟨leafBoxes t, h1, h2, h3, ?_, ?_, ?_, ?_⟩
  · intro a ha
    obtain ⟨q, hq, hq'⟩ := leaf_busy t hl (reach_busy hτ h) (by rw [hb]; simpa using hp) a ha
    rw [hb] at hq
    exact ⟨q, hq, hq'⟩
  · rw [fromOctree, if_neg (leaf_ne t hn)]
  · rw [fromOctree, if_neg (leaf_ne t hn)]
    have : ∀ (l : List (AABox3 K)) k, (octShapes k l).length = l.length := by
      intro l; induction l with
      | nil => intro k; rfl
      | cons a l ih => intro k; simp [octShapes, ih]
    exact this _ _
  · intro i a ha
    rw [fromOctree, if_neg (leaf_ne t hn)]
    refine ⟨_, by rw [shapes_get, ha]; rfl, by simp, by simp, ?_⟩
    rw [← (C18_ofAABox a (leaf_sorted t B hw a (List.mem_of_getElem? ha))).2]
    congr 1
    simp only [Box3.fromAABox, AABox3.toBox, Vec3.mid, zeo]
    congr 2
    ext <;> simp only [] <;> ring

/-- The boxes are never missing: an octree without any point becomes one box as large as its region, and the warning about
empty octrees (src/zeo_multishape3d.c:187) cannot occur. -/
theorem C92_empty_false {O : Type*} (white : O) (B : AABox3 K) (oi : Option O) :
    (fromOctree white (fresh B) oi).1.map OctShape.box = [Box3.fromAABox B] ∧ bag (fresh B) = 0 ∧
      ∀ {τ res : K} {t : Oct K} {ps : List (Vec3 K)}, 0 ≤ τ → Reach τ B res t ps → (fromOctree white t oi).1 ≠ [] := by
  have hl : leafBoxes (fresh B) = [B] := by simp [fresh, leafBoxes, exists?]
  refine ⟨?_, bag_fresh B, ?_⟩
  · rw [fromOctree, if_neg (by rw [hl]; simp), hl]; rfl
  · intro τ res t ps hτ h
    have hn := leaf_ne t (C31_shape hτ h).1
    rw [fromOctree, if_neg hn]
    cases hb : leafBoxes t with
    | nil => exact absurd hb hn
    | cons a l => simp [octShapes]

/-! ## After unifying -/

private theorem leaf_in' {τ res : K} (t : Oct K) {B : AABox3 K} (hw : WF τ res B t) : ∀ b ∈ leafBoxes t, Spec.BoxIn b B := by
  induction t generalizing B with
  | nil => intro b hb; simp [leafBoxes] at hb
  | node B' pts sub ih =>
    obtain ⟨rfl, hs, -, -, hw⟩ := hw
    intro b hb
    rw [leafBoxes] at hb
    split at hb
    · simp only [List.mem_flatMap, List.mem_finRange, true_and] at hb
      obtain ⟨i, hi⟩ := hb
      obtain ⟨⟨p1, p2⟩, ⟨p3, p4⟩, p5, p6⟩ := ih i (hw i) b hi
      obtain ⟨⟨h1, h2⟩, ⟨h3, h4⟩, ⟨h5, h6⟩, -⟩ := hs.center
      rw [subRegion_eq hs] at p1 p2 p3 p4 p5 p6
      dsimp only at p1 p2 p3 p4 p5 p6
      refine ⟨⟨le_trans ?_ p1, p2.trans ?_⟩, ⟨le_trans ?_ p3, p4.trans ?_⟩, le_trans ?_ p5, p6.trans ?_⟩ <;> split_ifs <;>
        first | exact le_rfl | assumption
    · simp only [List.mem_singleton] at hb
      subst hb
      exact ⟨⟨le_rfl, le_rfl⟩, ⟨le_rfl, le_rfl⟩, le_rfl, le_rfl⟩

private theorem unify_exists (t : Oct K) : exists? (unify t).1 = exists? t := by
  cases t with
  | nil => rfl
  | node B pts sub => unfold unify; dsimp only; split_ifs <;> rfl

private theorem unify_grow {τ res : K} (t : Oct K) {B : AABox3 K} (hw : WF τ res B t) :
    ∀ b ∈ leafBoxes t, ∃ b' ∈ leafBoxes (unify t).1, Spec.BoxIn b b' := by
  induction t generalizing B with
  | nil => intro b hb; simp [leafBoxes] at hb
  | node B' pts sub ih =>
    intro b hb
    have hin := leaf_in' _ hw b hb
    obtain ⟨rfl, hs, -, -, hw'⟩ := hw
    have main : ∀ p : List (Vec3 K), ∃ b' ∈ leafBoxes (node B' p fun i => (unify (sub i)).1), Spec.BoxIn b b' := by
      intro p
      rw [leafBoxes] at hb ⊢
      simp only [unify_exists]
      split at hb
      · rename_i he
        rw [if_pos he]
        simp only [List.mem_flatMap, List.mem_finRange, true_and] at hb ⊢
        obtain ⟨i, hi⟩ := hb
        obtain ⟨b', h1, h2⟩ := ih i (hw' i) b hi
        exact ⟨b', ⟨i, h1⟩, h2⟩
      · rename_i he
        rw [if_neg he]
        exact ⟨B', by simp, hin⟩
    unfold unify
    dsimp only
    split_ifs
    · exact main _
    · refine ⟨B', ?_, hin⟩
      simp [leafBoxes, exists?]
    · exact main _

private theorem unify_leaf' {t : Oct K} (h : (unify t).2 = true) (hc : t.IsLeaf ∨ t.HasLeafChild) : (unify t).1.IsLeaf := by
  rcases hc with hc | hc
  · rw [unify_leaf hc]; exact hc
  · cases t with
    | nil => exact absurd hc id
    | node B pts sub =>
      obtain ⟨j, hj⟩ := hc
      have hfj : (exists? (sub j) && (unify (sub j)).2) = true := by
        rw [unify_leaf hj]
        cases hs : sub j with
        | nil => rw [hs] at hj; exact absurd hj id
        | node => rfl
      unfold unify at h ⊢
      dsimp only at h ⊢
      split_ifs at h ⊢ with h1 h2
      · exact absurd (h1 j) (by rw [hfj]; simp)
      · exact fun i => rfl

private theorem unify_region (t : Oct K) {τ res : K} {B : AABox3 K} (hw : WF τ res B t) (h : (unify t).1.IsLeaf) : leafBoxes (unify t).1 = [B] := by
  cases t with
  | nil => exact absurd h id
  | node B' pts sub =>
    obtain ⟨rfl, -⟩ := hw
    have : ∃ p s, (unify (node B' pts sub)).1 = node B' p s := by
      unfold unify; dsimp only; split_ifs <;> exact ⟨_, _, rfl⟩
    obtain ⟨p, s, e⟩ := this
    rw [e] at h ⊢
    have : s = fun _ => nil := funext h
    subst this
    simp [leafBoxes, exists?]

private theorem sub_cover {B : AABox3 K} (hs : Oct.Sorted B) {q : Vec3 K} (hq : q ∈ Spec.aabox B) : ∃ i, q ∈ Spec.aabox (subRegion B i) := by
  refine ⟨index (center B) q, ?_⟩
  have h0 : Near 0 B q := by
    obtain ⟨⟨a, b⟩, ⟨c, d⟩, e, f⟩ := hq
    exact ⟨⟨by linarith, by linarith⟩, ⟨by linarith, by linarith⟩, by linarith, by linarith⟩
  obtain ⟨⟨a, b⟩, ⟨c, d⟩, e, f⟩ := h0.sub le_rfl hs
  exact ⟨⟨by linarith, by linarith⟩, ⟨by linarith, by linarith⟩, by linarith, by linarith⟩

private theorem unify_exact {τ res : K} (t : Oct K) {B : AABox3 K} (hw : WF τ res B t) (hN : t.NoThin) :
    ∀ b' ∈ leafBoxes (unify t).1, ∀ q ∈ Spec.aabox b', ∃ b ∈ leafBoxes t, q ∈ Spec.aabox b := by
  induction t generalizing B with
  | nil => intro b hb; simp [unify, leafBoxes] at hb
  | node B' pts sub ih =>
    intro b' hb q hq
    obtain ⟨rfl, hs, -, -, hw'⟩ := hw
    have main : ∀ p : List (Vec3 K), b' ∈ leafBoxes (node B' p fun i => (unify (sub i)).1) → ∃ b ∈ leafBoxes (node B' pts sub), q ∈ Spec.aabox b := by
      intro p hb
      rw [leafBoxes] at hb ⊢
      simp only [unify_exists] at hb
      split at hb
      · rename_i he
        rw [if_pos he]
        simp only [List.mem_flatMap, List.mem_finRange, true_and] at hb ⊢
        obtain ⟨i, hi⟩ := hb
        obtain ⟨b, h1, h2⟩ := ih i (hw' i) (hN i).1 b' hi q hq
        exact ⟨b, ⟨i, h1⟩, h2⟩
      · rename_i he
        rw [if_neg he]
        simp only [List.mem_singleton] at hb ⊢
        subst hb
        exact ⟨_, rfl, hq⟩
    unfold unify at hb
    dsimp only at hb
    split_ifs at hb with h1 h2
    · exact main _ hb
    · have hB : b' = B' := by simpa [leafBoxes, exists?] using hb
      subst hB
      obtain ⟨i, hi⟩ := sub_cover hs hq
      have hf := h2 i
      rw [Bool.and_eq_true] at hf
      have hl : (unify (sub i)).1.IsLeaf := by
        refine unify_leaf' hf.2 ?_
        rcases (hN i).2 with hn | hn
        · rw [hn] at hf; simp [exists?] at hf
        · exact hn
      have hr := unify_region _ (hw' i) hl
      obtain ⟨b, hb1, hb2⟩ := ih i (hw' i) (hN i).1 (subRegion b' i) (by rw [hr]; simp) q hi
      refine ⟨b, ?_, hb2⟩
      rw [leafBoxes, if_pos ⟨i, hf.1⟩]
      simp only [List.mem_flatMap, List.mem_finRange, true_and]
      exact ⟨i, hb1⟩
    · exact main _ hb

/-- Unifying the octants first does not uncover anything: every box is contained in a new one. `_partial`: if every octant
is a leaf or has a leaf among its suboctants, the new boxes cover nothing else; otherwise see `C92_unify_false`. -/
theorem C92_unify_partial {τ : K} (hτ : 0 ≤ τ) {B : AABox3 K} {res : K} {t : Oct K} {ps : List (Vec3 K)} (h : Reach τ B res t ps) :
    (∀ b ∈ leafBoxes t, ∃ b' ∈ leafBoxes (unifyOctant t), Spec.BoxIn b b') ∧
    (t.NoThin → ∀ b' ∈ leafBoxes (unifyOctant t), ∀ q ∈ Spec.aabox b', ∃ b ∈ leafBoxes t, q ∈ Spec.aabox b) :=
  ⟨unify_grow t (C31_shape hτ h).2.1, unify_exact t (C31_shape hτ h).2.1⟩

/-- Unifying may fill free space: with one point near each corner of the cube `[0,8]³` at resolution 1, eight boxes of edge
1 become one box of edge 8, although the middle of the cube is in none of the eight. -/
theorem C92_unify_false : ∃ t, Reach (1/1000000000000) cube8 1 t corners8 ∧ (leafBoxes t).length = 8 ∧
    (leafBoxes (unifyOctant t)).map (fun b => (b.min, b.max)) = [(cube8.min, cube8.max)] ∧
    ∀ b ∈ leafBoxes t, (⟨4, 4, 4⟩ : Vec3 ℚ) ∉ Spec.aabox b := by
  have r0 : Reach (1/1000000000000) cube8 1 (fresh cube8) [] := .init 1 one_pos (by norm_num [Oct.Sorted, cube8])
  have hs : (addAll (1/1000000000000) 1 4 corners8 (fresh cube8)).isSome = true := by decide +kernel
  obtain ⟨t, ht⟩ := Option.isSome_iff_exists.1 hs
  have hr := reach_addAll corners8 r0 ht
  rw [List.nil_append] at hr
  have hm : (addAll (1/1000000000000) 1 4 corners8 (fresh cube8)).map (fun t => ((leafBoxes t).length,
      (leafBoxes (unifyOctant t)).map (fun b => (b.min, b.max)), (leafBoxes t).all fun b => decide (b.max.x < 4 ∨ 4 < b.min.x))) =
      some (8, [(cube8.min, cube8.max)], true) := by
    decide +kernel
  rw [ht] at hm
  simp only [Option.map_some, Option.some.injEq, Prod.mk.injEq] at hm
  refine ⟨t, hr, hm.1, hm.2.1, ?_⟩
  intro b hb hq
  have := List.all_eq_true.1 hm.2.2 b hb
  obtain ⟨⟨a, c⟩, -⟩ := hq
  rcases of_decide_eq_true this with h | h <;> dsimp only at a c <;> linarith

/-- The hypotheses of `C92_shapes` are met by the octree with eight points. -/
example : ∃ t, Reach (1/1000000000000) cube8 1 t corners8 ∧ corners8 ≠ [] := by
  obtain ⟨t, h, -⟩ := C92_unify_false
  exact ⟨t, h, by simp [corners8]⟩

end Zeo
