import Verif.Model.Octree
import Verif.Lemmas.Rot
import Verif.Spec.Geometry
import Mathlib.Algebra.BigOperators.Fin
import Mathlib.Algebra.BigOperators.Group.Finset.Basic
import Mathlib.Data.Multiset.Basic
import Mathlib.Algebra.Order.Archimedean.Basic
import Mathlib.Tactic.Linarith
import Mathlib.Tactic.FinCases

/-! # Octree: invariants and helper lemmas -/

namespace Zeo.Oct
section
variable {K : Type*} [Field K] [LinearOrder K] [IsStrictOrderedRing K]

/-- All points stored in an octant and below it, with multiplicity. -/
def bag : Oct K → Multiset (Vec3 K)
  | nil => 0
  | node _ pts sub => (pts : Multiset (Vec3 K)) + ∑ i, bag (sub i)

/-- `min ≤ max`. -/
def Sorted (B : AABox3 K) : Prop := B.min.x ≤ B.max.x ∧ B.min.y ≤ B.max.y ∧ B.min.z ≤ B.max.z

/-- `q` is in the closed box enlarged by `ε` on every side. -/
def Near (ε : K) (B : AABox3 K) (q : Vec3 K) : Prop :=
  (B.min.x - ε ≤ q.x ∧ q.x ≤ B.max.x + ε) ∧ (B.min.y - ε ≤ q.y ∧ q.y ≤ B.max.y + ε) ∧
  (B.min.z - ε ≤ q.z ∧ q.z ≤ B.max.z + ε)

/-- Shape of the octree at a resolution: suboctants cover their part of the region, points are stored
only in the smallest octants, which have no suboctants. -/
def WF (τ res : K) : AABox3 K → Oct K → Prop
  | _, nil => True
  | B, node B' pts sub => B' = B ∧ Sorted B ∧ (IsSmallest τ res B → ∀ i, sub i = nil) ∧
      (¬ IsSmallest τ res B → pts = []) ∧ ∀ i, WF τ res (subRegion B i) (sub i)

/-- Every stored point is within `ε` of the region of every octant above it. -/
def Loc (ε : K) : Oct K → Prop
  | nil => True
  | node B pts sub => (∀ q ∈ bag (node B pts sub), Near ε B q) ∧ ∀ i, Loc ε (sub i)

theorem Sorted.center {B : AABox3 K} (h : Sorted B) :
    (B.min.x ≤ (center B).x ∧ (center B).x ≤ B.max.x) ∧ (B.min.y ≤ (center B).y ∧ (center B).y ≤ B.max.y) ∧
    (B.min.z ≤ (center B).z ∧ (center B).z ≤ B.max.z) ∧
    (center B).x - B.min.x = (B.max.x - B.min.x) / 2 ∧ (center B).y - B.min.y = (B.max.y - B.min.y) / 2 ∧
    (center B).z - B.min.z = (B.max.z - B.min.z) / 2 ∧
    B.max.x - (center B).x = (B.max.x - B.min.x) / 2 ∧ B.max.y - (center B).y = (B.max.y - B.min.y) / 2 ∧
    B.max.z - (center B).z = (B.max.z - B.min.z) / 2 := by
  obtain ⟨h1, h2, h3⟩ := h
  simp only [Oct.center, zeo]
  refine ⟨⟨by linarith, by linarith⟩, ⟨by linarith, by linarith⟩, ⟨by linarith, by linarith⟩, ?_⟩
  refine ⟨by ring, by ring, by ring, by ring, by ring, by ring⟩

theorem subRegion_eq {B : AABox3 K} (h : Sorted B) (i : Fin 8) : subRegion B i =
    ⟨⟨if i.val.testBit 0 then (center B).x else B.min.x, if i.val.testBit 1 then (center B).y else B.min.y,
      if i.val.testBit 2 then (center B).z else B.min.z⟩,
     ⟨if i.val.testBit 0 then B.max.x else (center B).x, if i.val.testBit 1 then B.max.y else (center B).y,
      if i.val.testBit 2 then B.max.z else (center B).z⟩⟩ := by
  obtain ⟨⟨h1, h2⟩, ⟨h3, h4⟩, ⟨h5, h6⟩, -⟩ := h.center
  unfold subRegion AABox3.create
  ext <;> dsimp only <;> split_ifs <;> simp [*]

theorem Sorted.sub {B : AABox3 K} (h : Sorted B) (i : Fin 8) : Sorted (subRegion B i) := by
  obtain ⟨⟨h1, h2⟩, ⟨h3, h4⟩, ⟨h5, h6⟩, -⟩ := h.center
  rw [subRegion_eq h]
  refine ⟨?_, ?_, ?_⟩ <;> dsimp only <;> split_ifs <;> assumption

theorem sub_dims {B : AABox3 K} (h : Sorted B) (i : Fin 8) :
    (subRegion B i).max.x - (subRegion B i).min.x = (B.max.x - B.min.x) / 2 ∧
    (subRegion B i).max.y - (subRegion B i).min.y = (B.max.y - B.min.y) / 2 ∧
    (subRegion B i).max.z - (subRegion B i).min.z = (B.max.z - B.min.z) / 2 := by
  obtain ⟨-, -, -, h1, h2, h3, h4, h5, h6⟩ := h.center
  rw [subRegion_eq h]
  refine ⟨?_, ?_, ?_⟩ <;> dsimp only <;> split_ifs <;> assumption

theorem IsSmallest.sub {τ res : K} {B : AABox3 K} (h : Sorted B) (hs : IsSmallest τ res B) (i : Fin 8) :
    IsSmallest τ res (subRegion B i) := by
  obtain ⟨d1, d2, d3⟩ := sub_dims h i
  obtain ⟨s1, s2, s3⟩ := hs
  obtain ⟨h1, h2, h3⟩ := h
  unfold IsSmallest
  rw [d1, d2, d3]
  refine ⟨by linarith, by linarith, by linarith⟩

theorem index_testBit (c p : Vec3 K) :
    ((index c p).val.testBit 0 = decide (p.x > c.x)) ∧ ((index c p).val.testBit 1 = decide (p.y > c.y)) ∧
    ((index c p).val.testBit 2 = decide (p.z > c.z)) := by
  unfold index
  cases decide (p.x > c.x) <;> cases decide (p.y > c.y) <;> cases decide (p.z > c.z) <;> decide

theorem Near.sub {ε : K} {B : AABox3 K} {p : Vec3 K} (h0 : 0 ≤ ε) (hs : Sorted B) (h : Near ε B p) :
    Near ε (subRegion B (index (center B) p)) p := by
  obtain ⟨i0, i1, i2⟩ := index_testBit (center B) p
  obtain ⟨⟨h1, h2⟩, ⟨h3, h4⟩, ⟨h5, h6⟩⟩ := h
  rw [subRegion_eq hs, i0, i1, i2]
  simp only [decide_eq_true_eq]
  refine ⟨?_, ?_, ?_⟩ <;> dsimp only <;> split_ifs with hc <;> constructor <;> linarith

theorem bag_node (B : AABox3 K) (pts : List (Vec3 K)) (sub : Fin 8 → Oct K) :
    bag (node B pts sub) = (pts : Multiset (Vec3 K)) + ∑ i, bag (sub i) := rfl

theorem sum_update (sub : Fin 8 → Oct K) (i : Fin 8) (t : Oct K) (m : Multiset (Vec3 K))
    (h : bag t = m + bag (sub i)) :
    ∑ j, bag (Function.update sub i t j) = m + ∑ j, bag (sub j) := by
  have e : (fun j => bag (Function.update sub i t j)) = Function.update (fun j => bag (sub j)) i (bag t) := by
    funext j
    by_cases hj : j = i
    · subst hj; simp
    · simp [hj]
  rw [e, Finset.sum_update_of_mem (Finset.mem_univ i), h, add_assoc,
    Finset.sdiff_singleton_eq_erase, Finset.add_sum_erase _ (fun j => bag (sub j)) (Finset.mem_univ i)]

theorem bag_fresh (B : AABox3 K) : bag (fresh B) = 0 := by simp [fresh, bag]

theorem bag_alloc (B : AABox3 K) (i : Fin 8) (t : Oct K) : bag (alloc B i t) = bag t := by
  cases t with
  | nil => exact bag_fresh _
  | node => rfl

theorem alloc_ne_nil (B : AABox3 K) (i : Fin 8) (t : Oct K) : alloc B i t ≠ nil := by
  cases t <;> simp [alloc, fresh]

theorem wf_fresh {τ res : K} {B : AABox3 K} (h : Sorted B) : WF τ res B (fresh B) :=
  ⟨rfl, h, fun _ _ => rfl, fun _ => rfl, fun _ => trivial⟩

theorem loc_fresh {ε : K} {B : AABox3 K} : Loc ε (fresh B) :=
  ⟨by intro q hq; rw [show bag (node B [] fun _ => nil) = 0 from bag_fresh B] at hq; simp at hq, fun _ => trivial⟩

theorem wf_alloc {τ res : K} {B : AABox3 K} (h : Sorted B) {i : Fin 8} {t : Oct K}
    (ht : WF τ res (subRegion B i) t) : WF τ res (subRegion B i) (alloc B i t) := by
  cases t with
  | nil => exact wf_fresh (h.sub i)
  | node => exact ht

theorem loc_alloc {ε : K} {B : AABox3 K} {i : Fin 8} {t : Oct K} (ht : Loc ε t) : Loc ε (alloc B i t) := by
  cases t with
  | nil => exact loc_fresh
  | node => exact ht

/-- Insertion below an octant. -/
theorem addRec_spec {τ res ε : K} (h0 : 0 ≤ ε) (p : Vec3 K) : ∀ (n : ℕ) (B : AABox3 K) (t t' : Oct K),
    WF τ res B t → Loc ε t → Near ε B p → addRec τ res p n t = some t' →
    t' ≠ nil ∧ WF τ res B t' ∧ Loc ε t' ∧ bag t' = {p} + bag t := by
  intro n
  induction n with
  | zero => intro B t t' _ _ _ h; simp [addRec] at h
  | succ n ih =>
    intro B t t' hw hl hp h
    cases t with
    | nil => simp [addRec] at h
    | node B' pts sub =>
      obtain ⟨rfl, hs, hsm, hns, hsub⟩ := hw
      unfold addRec at h
      split_ifs at h with hc
      · cases h
        refine ⟨by simp, ⟨rfl, hs, hsm, fun hn => absurd hc hn, hsub⟩, ?_, ?_⟩
        · refine ⟨?_, hl.2⟩
          intro q hq
          simp only [bag, Multiset.mem_add, Multiset.mem_coe, List.mem_append, List.mem_singleton] at hq
          rcases hq with (hq | rfl) | hq
          · exact hl.1 q (by rw [bag_node, Multiset.mem_add]; exact Or.inl hq)
          · exact hp
          · exact hl.1 q (by rw [bag_node, Multiset.mem_add]; exact Or.inr hq)
        · simp only [bag, ← Multiset.coe_add, Multiset.coe_singleton]
          rw [add_comm (pts : Multiset (Vec3 K)), add_assoc]
      · dsimp only at h
        have hpi := Near.sub h0 hs hp
        generalize index (center B') p = i at h hpi
        split at h
        · cases h
        · rename_i t1 ht1
          cases h
          obtain ⟨h1, h2, h3, h4⟩ := ih _ _ _ (wf_alloc hs (hsub i)) (loc_alloc (hl.2 i)) hpi ht1
          rw [bag_alloc] at h4
          have hbag : bag (node B' pts (Function.update sub i t1)) = {p} + bag (node B' pts sub) := by
            simp only [bag_node]
            rw [sum_update sub i t1 {p} h4, ← add_assoc, add_comm (pts : Multiset (Vec3 K)), add_assoc]
          refine ⟨by simp, ⟨rfl, hs, fun h => absurd h hc, hns, ?_⟩, ⟨?_, ?_⟩, hbag⟩
          · intro j
            by_cases hj : j = i
            · subst hj; simpa using h2
            · simpa [hj] using hsub j
          · intro q hq
            rw [hbag, Multiset.mem_add, Multiset.mem_singleton] at hq
            rcases hq with rfl | hq
            · exact hp
            · exact hl.1 q hq
          · intro j
            by_cases hj : j = i
            · subst hj; simpa using h3
            · simpa [hj] using hl.2 j

/-- The recursion of insertion ends once the halved region is small enough. -/
theorem addRec_total {τ res : K} (p : Vec3 K) : ∀ (n : ℕ) (B : AABox3 K) (t : Oct K), t ≠ nil →
    WF τ res B t → B.max.x - B.min.x < (res + τ) * 2^n → B.max.y - B.min.y < (res + τ) * 2^n →
    B.max.z - B.min.z < (res + τ) * 2^n → ∀ m, n < m → ∃ t', addRec τ res p m t = some t' := by
  intro n
  induction n with
  | zero =>
    intro B t ht hw hx hy hz m hm
    cases t with
    | nil => exact absurd rfl ht
    | node B' pts sub =>
      obtain ⟨rfl, -⟩ := hw
      cases m with
      | zero => omega
      | succ m =>
        unfold addRec
        rw [if_pos ⟨by simpa using hx, by simpa using hy, by simpa using hz⟩]
        exact ⟨_, rfl⟩
  | succ n ih =>
    intro B t ht hw hx hy hz m hm
    cases t with
    | nil => exact absurd rfl ht
    | node B' pts sub =>
      obtain ⟨rfl, hs, -, -, hsub⟩ := hw
      cases m with
      | zero => omega
      | succ m =>
        unfold addRec
        split_ifs with hc
        · exact ⟨_, rfl⟩
        · dsimp only
          generalize index (center B') p = i
          obtain ⟨d1, d2, d3⟩ := sub_dims hs i
          rw [pow_succ] at hx hy hz
          obtain ⟨t', ht'⟩ := ih (subRegion B' i) _ (alloc_ne_nil B' i (sub i)) (wf_alloc hs (hsub i))
            (by rw [d1]; linarith) (by rw [d2]; linarith) (by rw [d3]; linarith) m (by omega)
          rw [ht']
          exact ⟨_, rfl⟩

theorem exists_pow [Archimedean K] {r : K} (hr : 0 < r) (a b c : K) :
    ∃ n : ℕ, a < r * 2^n ∧ b < r * 2^n ∧ c < r * 2^n := by
  obtain ⟨n, hn⟩ := pow_unbounded_of_one_lt (max (max a b) c / r) (one_lt_two : (1:K) < 2)
  rw [div_lt_iff₀ hr] at hn
  refine ⟨n, ?_, ?_, ?_⟩
  · calc a ≤ max (max a b) c := (le_max_left _ _).trans (le_max_left _ _)
      _ < _ := by rw [mul_comm]; exact hn
  · calc b ≤ max (max a b) c := (le_max_right _ _).trans (le_max_left _ _)
      _ < _ := by rw [mul_comm]; exact hn
  · calc c ≤ max (max a b) c := le_max_right _ _
      _ < _ := by rw [mul_comm]; exact hn

theorem wf_push {τ res : K} {B : AABox3 K} {t : Oct K} (hB : IsSmallest τ res B) (h : WF τ res B t)
    (p : Vec3 K) : WF τ res B (push p t) := by
  cases t with
  | nil => trivial
  | node => obtain ⟨rfl, h1, h2, -, h4⟩ := h; exact ⟨rfl, h1, h2, fun hn => absurd hB hn, h4⟩

theorem bag_push {t : Oct K} (ht : t ≠ nil) (p : Vec3 K) : bag (push p t) = {p} + bag t := by
  cases t with
  | nil => exact absurd rfl ht
  | node B pts sub =>
    simp only [push, bag, ← Multiset.coe_add, Multiset.coe_singleton]
    rw [add_comm (pts : Multiset (Vec3 K)), add_assoc]

theorem loc_push {ε : K} {τ res : K} {B : AABox3 K} {t : Oct K} (hw : WF τ res B t) (h : Loc ε t) {p : Vec3 K}
    (hp : Near ε B p) : Loc ε (push p t) := by
  cases t with
  | nil => trivial
  | node B' pts sub =>
    obtain ⟨rfl, -⟩ := hw
    refine ⟨?_, h.2⟩
    intro q hq
    rw [show node B' (pts ++ [p]) sub = push p (node B' pts sub) from rfl, bag_push (by simp),
      Multiset.mem_add, Multiset.mem_singleton] at hq
    rcases hq with rfl | hq
    · exact hp
    · exact h.1 q hq

theorem distribute_spec {τ res ε : K} (h0 : 0 ≤ ε) {B : AABox3 K} (hB : Sorted B)
    (hsm : IsSmallest τ res B) (L : List (Vec3 K)) : ∀ (sub : Fin 8 → Oct K), (∀ q ∈ L, Near ε B q) →
    (∀ i, WF τ res (subRegion B i) (sub i)) → (∀ i, Loc ε (sub i)) →
    (∀ i, WF τ res (subRegion B i) (L.foldl (distribute B) sub i)) ∧
    (∀ i, Loc ε (L.foldl (distribute B) sub i)) ∧
    ∑ i, bag (L.foldl (distribute B) sub i) = (L : Multiset (Vec3 K)) + ∑ i, bag (sub i) := by
  induction L with
  | nil => intro sub _ h1 h2; exact ⟨h1, h2, by simp⟩
  | cons p L ih =>
    intro sub hn h1 h2
    rw [List.foldl_cons]
    have hpi := Near.sub h0 hB (hn p List.mem_cons_self)
    have hd : distribute B sub p = Function.update sub (index (center B) p)
      (push p (alloc B (index (center B) p) (sub (index (center B) p)))) := rfl
    generalize index (center B) p = k at hpi hd
    have a1 : ∀ i, WF τ res (subRegion B i) (distribute B sub p i) := by
      intro i; rw [hd]
      by_cases hi : i = k
      · subst hi; rw [Function.update_self]; exact wf_push (hsm.sub hB i) (wf_alloc hB (h1 i)) p
      · rw [Function.update_of_ne hi]; exact h1 i
    have a2 : ∀ i, Loc ε (distribute B sub p i) := by
      intro i; rw [hd]
      by_cases hi : i = k
      · subst hi; rw [Function.update_self]; exact loc_push (wf_alloc hB (h1 i)) (loc_alloc (h2 i)) hpi
      · rw [Function.update_of_ne hi]; exact h2 i
    obtain ⟨b1, b2, b3⟩ := ih _ (fun q hq => hn q (List.mem_cons_of_mem _ hq)) a1 a2
    refine ⟨b1, b2, ?_⟩
    rw [b3, hd, sum_update sub k _ {p} (by rw [bag_push (alloc_ne_nil _ _ _), bag_alloc]),
      ← Multiset.cons_coe, ← Multiset.singleton_add, ← add_assoc, add_comm (L : Multiset (Vec3 K))]

theorem isSmallest_mono {τ res res' : K} (h : res' ≤ res) {B : AABox3 K} (hs : IsSmallest τ res' B) :
    IsSmallest τ res B := by
  obtain ⟨h1, h2, h3⟩ := hs
  exact ⟨by linarith, by linarith, by linarith⟩

/-- The children handed to the recursion of the division. -/
theorem divide_children {τ res ε : K} (h0 : 0 ≤ ε) {B : AABox3 K} {pts : List (Vec3 K)} {sub : Fin 8 → Oct K}
    (hw : WF τ res B (node B pts sub)) (hl : Loc ε (node B pts sub)) :
    (∀ i, WF τ res (subRegion B i) (pts.reverse.foldl (distribute B) sub i)) ∧
    (∀ i, Loc ε (pts.reverse.foldl (distribute B) sub i)) ∧
    ∑ i, bag (pts.reverse.foldl (distribute B) sub i) = bag (node B pts sub) := by
  obtain ⟨-, hs, hsm, hns, hsub⟩ := hw
  by_cases hc : IsSmallest τ res B
  · obtain ⟨a, b, c⟩ := distribute_spec h0 hs hc pts.reverse sub (by
      intro q hq
      exact hl.1 q (by rw [bag_node, Multiset.mem_add]; exact Or.inl (by simpa using hq))) hsub hl.2
    refine ⟨a, b, ?_⟩
    rw [c, bag_node, Multiset.coe_reverse]
  · rw [hns hc]
    exact ⟨hsub, hl.2, by simp [bag_node]⟩

theorem divide_spec {τ res res' ε : K} (h0 : 0 ≤ ε) (hr : res' ≤ res) : ∀ (n : ℕ) (B : AABox3 K)
    (t t' : Oct K), WF τ res B t → Loc ε t → divide τ res' n t = some t' →
    WF τ res' B t' ∧ Loc ε t' ∧ bag t' = bag t ∧ (t ≠ nil → t' ≠ nil) := by
  intro n
  induction n with
  | zero =>
    intro B t t' hw hl h
    cases t with
    | nil => simp only [divide] at h; cases h; exact ⟨trivial, trivial, rfl, id⟩
    | node => simp [divide] at h
  | succ n ih =>
    intro B t t' hw hl h
    cases t with
    | nil => simp only [divide] at h; cases h; exact ⟨trivial, trivial, rfl, id⟩
    | node B' pts sub =>
      have hB : B' = B := hw.1
      subst hB
      obtain ⟨c1, c2, c3⟩ := divide_children h0 hw hl
      obtain ⟨-, hs, hsm, hns, hsub⟩ := hw
      unfold divide at h
      split_ifs at h with hc
      · cases h
        refine ⟨⟨rfl, hs, fun _ => hsm (isSmallest_mono hr hc), fun hn => absurd hc hn, ?_⟩, hl, rfl, id⟩
        intro i; rw [hsm (isSmallest_mono hr hc) i]; trivial
      · dsimp only at h
        generalize pts.reverse.foldl (distribute B') sub = sub' at c1 c2 c3 h
        split_ifs at h with hall
        · cases h
          have key := fun i => ih (subRegion B' i) (sub' i) _ (c1 i) (c2 i)
            (Option.some_get (hall i)).symm
          have hb : bag (node B' [] (fun i => (divide τ res' n (sub' i)).get (hall i))) =
              bag (node B' pts sub) := by
            rw [← c3, bag_node]
            simp only [Multiset.coe_nil, zero_add]
            exact Finset.sum_congr rfl (fun i _ => (key i).2.2.1)
          refine ⟨⟨rfl, hs, fun h => absurd h hc, fun _ => rfl, fun i => (key i).1⟩, ⟨?_, fun i => (key i).2.1⟩,
            hb, fun _ => by simp⟩
          intro q hq
          rw [hb] at hq
          exact hl.1 q hq

theorem divide_total {τ res res' : K} (hr : res' ≤ res) : ∀ (n : ℕ)
    (B : AABox3 K) (t : Oct K), WF τ res B t → (∃ ε, 0 ≤ ε ∧ Loc ε t) →
    B.max.x - B.min.x < (res' + τ) * 2^n → B.max.y - B.min.y < (res' + τ) * 2^n →
    B.max.z - B.min.z < (res' + τ) * 2^n → ∀ m, n < m → ∃ t', divide τ res' m t = some t' := by
  intro n
  induction n with
  | zero =>
    intro B t hw _ hx hy hz m hm
    cases t with
    | nil => cases m <;> exact ⟨nil, by simp [divide]⟩
    | node B' pts sub =>
      obtain ⟨rfl, -⟩ := hw
      cases m with
      | zero => omega
      | succ m =>
        unfold divide
        rw [if_pos ⟨by simpa using hx, by simpa using hy, by simpa using hz⟩]
        exact ⟨_, rfl⟩
  | succ n ih =>
    intro B t hw hloc hx hy hz m hm
    cases t with
    | nil => cases m <;> exact ⟨nil, by simp [divide]⟩
    | node B' pts sub =>
      have hB : B' = B := hw.1
      subst hB
      obtain ⟨ε, h0, hl⟩ := hloc
      obtain ⟨c1, c2, c3⟩ := divide_children h0 hw hl
      obtain ⟨-, hs, -, -, -⟩ := hw
      cases m with
      | zero => omega
      | succ m =>
        unfold divide
        split_ifs with hc
        · exact ⟨_, rfl⟩
        · dsimp only
          rw [pow_succ] at hx hy hz
          have hall : ∀ i, (divide τ res' m (pts.reverse.foldl (distribute B') sub i)).isSome := by
            intro i
            obtain ⟨d1, d2, d3⟩ := sub_dims hs i
            obtain ⟨t', ht'⟩ := ih (subRegion B' i) _ (c1 i) ⟨ε, h0, c2 i⟩
              (by rw [d1]; linarith) (by rw [d2]; linarith) (by rw [d3]; linarith) m (by omega)
            rw [ht']; rfl
          rw [dif_pos hall]
          exact ⟨_, rfl⟩

theorem coe_flatMap_sum (f : Fin 8 → List (Vec3 K)) :
    (((List.finRange 8).flatMap f : List (Vec3 K)) : Multiset (Vec3 K)) = ∑ i, (f i : Multiset (Vec3 K)) := by
  have h : ∀ L : List (Fin 8), ((L.flatMap f : List (Vec3 K)) : Multiset (Vec3 K)) =
      (L.map (fun i => (f i : Multiset (Vec3 K)))).sum := by
    intro L
    induction L with
    | nil => rfl
    | cons a L ih => rw [List.flatMap_cons, List.map_cons, List.sum_cons, ← ih, Multiset.coe_add]
  rw [h, Fin.sum_univ_def]

theorem merge_spec {τ res res' ε : K} (hr : res ≤ res') (t : Oct K) : ∀ (B : AABox3 K),
    WF τ res B t → Loc ε t →
    WF τ res' B (merge τ res' t) ∧ Loc ε (merge τ res' t) ∧ bag (merge τ res' t) = bag t ∧
    (IsSmallest τ res' B → bag (merge τ res' t) = (top (merge τ res' t) : Multiset (Vec3 K))) ∧
    (t ≠ nil → merge τ res' t ≠ nil) := by
  induction t with
  | nil => intro B _ _; exact ⟨trivial, trivial, rfl, fun _ => rfl, id⟩
  | node B' pts sub ih =>
    intro B hw hl
    obtain ⟨rfl, hs, hsm, hns, hsub⟩ := hw
    have key := fun i => ih i (subRegion B' i) (hsub i) (hl.2 i)
    unfold merge
    split_ifs with hc
    · have hb : bag (node B' (pts ++ (List.finRange 8).flatMap (fun i => top (merge τ res' (sub i)))) (fun _ => nil))
          = bag (node B' pts sub) := by
        simp only [bag_node, ← Multiset.coe_add, coe_flatMap_sum, bag, Finset.sum_const_zero, add_zero]
        congr 1
        refine Finset.sum_congr rfl (fun i _ => ?_)
        rw [← (key i).2.2.2.1 (hc.sub hs i), (key i).2.2.1]
      refine ⟨⟨rfl, hs, fun _ _ => rfl, fun h => absurd hc h, fun _ => trivial⟩, ⟨?_, fun _ => trivial⟩, hb,
        fun _ => ?_, fun _ => by simp⟩
      · intro q hq; rw [hb] at hq; exact hl.1 q hq
      · simp [bag_node, top, bag]
    · have hb : bag (node B' pts (fun i => merge τ res' (sub i))) = bag (node B' pts sub) := by
        simp only [bag_node]
        congr 1
        exact Finset.sum_congr rfl (fun i _ => (key i).2.2.1)
      refine ⟨⟨rfl, hs, fun h => absurd h hc, fun _ => ?_, fun i => (key i).1⟩, ⟨?_, fun i => (key i).2.1⟩, hb,
        fun h => absurd h hc, fun _ => by simp⟩
      · exact hns (fun h => hc (isSmallest_mono hr h))
      · intro q hq; rw [hb] at hq; exact hl.1 q hq

theorem sorted_create (x1 y1 z1 x2 y2 z2 : K) : Sorted (AABox3.create x1 y1 z1 x2 y2 z2) := by
  unfold Sorted AABox3.create
  exact ⟨min_le_max, min_le_max, min_le_max⟩

end
end Zeo.Oct
