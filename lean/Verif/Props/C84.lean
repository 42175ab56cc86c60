import Verif.Model.OctData
import Verif.Props.C31Boxes
import Verif.Props.C33
import Verif.Props.C37
import Verif.Props.C61

/-! # C84: octrees of point sets and the normals estimated with them -/

namespace Zeo
open Oct Data

/-! ## The region chosen by itself -/

private theorem le_of_logb {d res : ℝ} {m : ℤ} (hr : 0 < res) (hd : 0 ≤ d) (h : ⌈Real.logb 2 (d / res)⌉ ≤ m) (hm : 0 ≤ m) :
    d ≤ res * 2 ^ m := by
  rcases hd.eq_or_lt with rfl | hd
  · positivity
  · have h1 : Real.logb 2 (d / res) ≤ (m : ℝ) := (Int.le_ceil _).trans (by exact_mod_cast h)
    rw [Real.logb_le_iff_le_rpow (by norm_num) (by positivity), Real.rpow_intCast, div_le_iff₀ hr] at h1
    linarith [mul_comm ((2 : ℝ) ^ m) res]

private theorem lt_of_logb {d res : ℝ} {m : ℤ} (hr : 0 < res) (hd : 0 ≤ d) (h : ⌈Real.logb 2 (d / res)⌉ = m) (hm : 2 ≤ m) :
    res * 2 ^ (m - 1) < d := by
  have h1 : ((m - 1 : ℤ) : ℝ) < Real.logb 2 (d / res) := by
    rw [← Int.lt_ceil, h]; omega
  rcases hd.eq_or_lt with rfl | hd
  · exfalso
    rw [zero_div, Real.logb_zero] at h1
    have : (1 : ℝ) ≤ ((m - 1 : ℤ) : ℝ) := by exact_mod_cast (by omega : (1 : ℤ) ≤ m - 1)
    linarith
  · rw [Real.lt_logb_iff_rpow_lt (by norm_num) (by positivity), Real.rpow_intCast, lt_div_iff₀ hr] at h1
    linarith [mul_comm ((2 : ℝ) ^ (m - 1)) res]

/-- **C84** (`zVec3DOctreeInitAuto`): an empty octree over a cube with the center of the given box, with an edge
of `2^k` times the resolution, `1 ≤ k`, that contains the box; half of it does not, unless `k = 1`. -/
theorem C84_initAuto (B : AABox3 ℝ) (res : ℝ) (hB : B.min.x ≤ B.max.x ∧ B.min.y ≤ B.max.y ∧ B.min.z ≤ B.max.z) (hr : 0 < res) :
    ∃ k : ℕ, 1 ≤ k ∧ ∃ C : AABox3 ℝ, initAuto B res = fresh C ∧
      (C.max.x - C.min.x = res * 2 ^ k ∧ C.max.y - C.min.y = res * 2 ^ k ∧ C.max.z - C.min.z = res * 2 ^ k) ∧
      (C.min.x + C.max.x = B.min.x + B.max.x ∧ C.min.y + C.max.y = B.min.y + B.max.y ∧ C.min.z + C.max.z = B.min.z + B.max.z) ∧
      (C.min.x ≤ B.min.x ∧ B.max.x ≤ C.max.x ∧ C.min.y ≤ B.min.y ∧ B.max.y ≤ C.max.y ∧ C.min.z ≤ B.min.z ∧ B.max.z ≤ C.max.z) ∧
      (k = 1 ∨ res * 2 ^ (k - 1) < B.max.x - B.min.x ∨ res * 2 ^ (k - 1) < B.max.y - B.min.y ∨
        res * 2 ^ (k - 1) < B.max.z - B.min.z) := by
  obtain ⟨bx, by', bz⟩ := hB
  set lx := ⌈Real.logb 2 ((B.max.x - B.min.x) / res)⌉ with hlx
  set ly := ⌈Real.logb 2 ((B.max.y - B.min.y) / res)⌉ with hly
  set lz := ⌈Real.logb 2 ((B.max.z - B.min.z) / res)⌉ with hlz
  set m := max (max lx ly) lz with hm
  have mx : lx ≤ m := (le_max_left _ _).trans (le_max_left _ _)
  have my : ly ≤ m := (le_max_right _ _).trans (le_max_left _ _)
  have mz : lz ≤ m := le_max_right _ _
  have hh : autoHalf B res = res * max ((2 : ℝ) ^ (m - 1)) 1 := rfl
  -- the exponent
  obtain ⟨k, hk1, hk, hkx, hky, hkz, hkmin⟩ : ∃ k : ℕ, 1 ≤ k ∧ 2 * autoHalf B res = res * 2 ^ k ∧
      B.max.x - B.min.x ≤ res * 2 ^ k ∧ B.max.y - B.min.y ≤ res * 2 ^ k ∧ B.max.z - B.min.z ≤ res * 2 ^ k ∧
      (k = 1 ∨ res * 2 ^ (k - 1) < B.max.x - B.min.x ∨ res * 2 ^ (k - 1) < B.max.y - B.min.y ∨
        res * 2 ^ (k - 1) < B.max.z - B.min.z) := by
    by_cases h1 : m ≤ 1
    · refine ⟨1, le_rfl, ?_, ?_, ?_, ?_, Or.inl rfl⟩
      · rw [hh, max_eq_right (zpow_le_one_of_nonpos₀ (by norm_num) (by omega))]; ring
      · have := le_of_logb hr (sub_nonneg.2 bx) (mx.trans h1) (by norm_num); simpa using this
      · have := le_of_logb hr (sub_nonneg.2 by') (my.trans h1) (by norm_num); simpa using this
      · have := le_of_logb hr (sub_nonneg.2 bz) (mz.trans h1) (by norm_num); simpa using this
    · obtain ⟨k, hk⟩ := Int.eq_ofNat_of_zero_le (by omega : 0 ≤ m)
      have hp : (2 : ℝ) ^ m = 2 ^ k := by rw [hk]; exact zpow_natCast _ _
      have hp1 : (2 : ℝ) ^ (m - 1) = 2 ^ (k - 1) := by
        rw [hk, show ((k : ℤ) - 1) = ((k - 1 : ℕ) : ℤ) by omega, zpow_natCast]
      refine ⟨k, by omega, ?_, ?_, ?_, ?_, Or.inr ?_⟩
      · rw [hh, max_eq_left (one_le_zpow₀ (by norm_num) (by omega)), hp1]
        obtain ⟨j, rfl⟩ : ∃ j, k = j + 1 := ⟨k - 1, by omega⟩
        rw [Nat.add_sub_cancel, pow_succ]; ring
      · rw [← hp]; exact le_of_logb hr (sub_nonneg.2 bx) mx (by omega)
      · rw [← hp]; exact le_of_logb hr (sub_nonneg.2 by') my (by omega)
      · rw [← hp]; exact le_of_logb hr (sub_nonneg.2 bz) mz (by omega)
      · rw [← hp1]
        rcases max_choice (max lx ly) lz with e | e
        · rcases max_choice lx ly with e' | e'
          · exact Or.inl (lt_of_logb hr (sub_nonneg.2 bx) (by rw [hm, e, e']) (by omega))
          · exact Or.inr (Or.inl (lt_of_logb hr (sub_nonneg.2 by') (by rw [hm, e, e']) (by omega)))
        · exact Or.inr (Or.inr (lt_of_logb hr (sub_nonneg.2 bz) (by rw [hm, e]) (by omega)))
  have hpos : 0 ≤ autoHalf B res := by rw [hh]; positivity
  refine ⟨k, hk1, _, rfl, ?_⟩
  have m1 : ∀ c : ℝ, min (c - autoHalf B res) (c + autoHalf B res) = c - autoHalf B res := fun c => min_eq_left (by linarith)
  have m2 : ∀ c : ℝ, max (c - autoHalf B res) (c + autoHalf B res) = c + autoHalf B res := fun c => max_eq_right (by linarith)
  simp only [AABox3.create, m1, m2, Oct.center, zeo]
  refine ⟨⟨by linarith, by linarith, by linarith⟩, ⟨by ring, by ring, by ring⟩, ⟨?_, ?_, ?_, ?_, ?_, ?_⟩, hkmin⟩ <;> linarith

/-- A box of `3 × 1 × 0` meets the hypotheses. -/
example : ∃ B : AABox3 ℝ, (B.min.x ≤ B.max.x ∧ B.min.y ≤ B.max.y ∧ B.min.z ≤ B.max.z) ∧ B.max.x - B.min.x = 3 :=
  ⟨⟨⟨0, 0, 0⟩, ⟨3, 1, 0⟩⟩, by norm_num, by norm_num⟩

private theorem leaf_edge {τ res : ℝ} (h0 : 0 < τ) (h1 : τ ≤ res) (t : Oct ℝ) : ∀ (B : AABox3 ℝ) (k : ℕ), WF τ res B t →
    (B.max.x - B.min.x = res * 2 ^ k ∧ B.max.y - B.min.y = res * 2 ^ k ∧ B.max.z - B.min.z = res * 2 ^ k) →
    ∀ b ∈ leafBoxes t, IsSmallest τ res b → b.max.x - b.min.x = res ∧ b.max.y - b.min.y = res ∧ b.max.z - b.min.z = res := by
  induction t with
  | nil => intro B k _ _ b hb; simp [leafBoxes] at hb
  | node B' pts sub ih =>
    rintro B k ⟨rfl, hs, hsm, -, hsub⟩ ⟨ex, ey, ez⟩ b hb hS
    have hp : ∀ j : ℕ, (1 : ℝ) ≤ 2 ^ j := fun j => one_le_pow₀ (by norm_num)
    rw [leafBoxes] at hb
    split_ifs at hb with hc
    · obtain ⟨j, hj⟩ := hc
      have hn : ¬ IsSmallest τ res B' := fun h => by rw [hsm h j] at hj; simp [exists?] at hj
      have hk : k ≠ 0 := by
        rintro rfl
        apply hn
        refine ⟨?_, ?_, ?_⟩ <;> simp only [pow_zero, mul_one] at ex ey ez <;> linarith
      obtain ⟨l, rfl⟩ := Nat.exists_eq_succ_of_ne_zero hk
      simp only [List.mem_flatMap, List.mem_finRange, true_and] at hb
      obtain ⟨i, hi⟩ := hb
      obtain ⟨d1, d2, d3⟩ := sub_dims hs i
      rw [Nat.succ_eq_add_one, pow_succ] at ex ey ez
      exact ih i (subRegion B' i) l (hsub i) ⟨by rw [d1, ex]; ring, by rw [d2, ey]; ring, by rw [d3, ez]; ring⟩ b hi hS
    · rw [List.mem_singleton] at hb
      subst hb
      have hk : k = 0 := by
        by_contra hk
        obtain ⟨l, rfl⟩ := Nat.exists_eq_succ_of_ne_zero hk
        have := hS.1
        rw [ex, Nat.succ_eq_add_one, pow_succ] at this
        nlinarith [hp l]
      subst hk
      rw [pow_zero, mul_one] at ex ey ez
      exact ⟨ex, ey, ez⟩

/-- **C84**: in an octree over a cube whose edge is a power of two times the resolution (as
`zVec3DOctreeInitAuto` makes it) every accepted point is within the tolerance of a listed box that is a cube with
an edge of exactly the resolution. -/
theorem C84_auto_leaf {τ : ℝ} {B : AABox3 ℝ} {res : ℝ} {t : Oct ℝ} {ps : List (Vec3 ℝ)} (h0 : 0 < τ) (h1 : τ ≤ res)
    (h : Reach τ B res t ps) (k : ℕ)
    (hB : B.max.x - B.min.x = res * 2 ^ k ∧ B.max.y - B.min.y = res * 2 ^ k ∧ B.max.z - B.min.z = res * 2 ^ k) :
    ∀ p ∈ ps, ∃ b ∈ leafBoxes t, Near τ b p ∧ b.max.x - b.min.x = res ∧ b.max.y - b.min.y = res ∧ b.max.z - b.min.z = res := by
  intro p hp
  obtain ⟨b, hb, hn, hS⟩ := (C31_boxes h0.le h).2.2 p hp
  exact ⟨b, hb, hn, leaf_edge h0 h1 t B k (C31_shape h0.le h).2.1 hB b hb hS⟩

/-- The cube `[0,4]³` at resolution 1 with one accepted point. -/
example : ∃ t, Reach (1 / 2 : ℝ) ⟨⟨0,0,0⟩,⟨4,4,4⟩⟩ 1 t [⟨1,1,3⟩] ∧ (4 : ℝ) - 0 = 1 * 2 ^ 2 := by
  have hi : Reach (1 / 2 : ℝ) ⟨⟨0,0,0⟩,⟨4,4,4⟩⟩ 1 (fresh ⟨⟨0,0,0⟩,⟨4,4,4⟩⟩) [] :=
    .init 1 (by norm_num) (by norm_num [Sorted])
  obtain ⟨n, hn⟩ := (C31_accept (by norm_num) hi ⟨1,1,3⟩).2 (by norm_num)
  obtain ⟨t, ht, -⟩ := hn (n + 1) (by omega)
  exact ⟨t, .add _ _ hi ht, by norm_num⟩

/-! ## Adding a set of points -/

/-- The points an octree over `B` accepts. -/
def Oct.Accepts (τ : ℝ) (B : AABox3 ℝ) (p : Vec3 ℝ) : Prop :=
  (B.min.x - τ < p.x ∧ p.x ≤ B.max.x + τ) ∧ (B.min.y - τ < p.y ∧ p.y ≤ B.max.y + τ) ∧ (B.min.z - τ < p.z ∧ p.z ≤ B.max.z + τ)

private theorem step_fold {τ : ℝ} (hτ : 0 ≤ τ) {B : AABox3 ℝ} {res : ℝ} {n : ℕ}
    (hn : ∀ t ps, Reach τ B res t ps → ∀ p : Vec3 ℝ, Accepts τ B p → ∀ fuel, n < fuel → ∃ t', addPoint τ res fuel p t = .added t')
    {fuel : ℕ} (hf : n < fuel) : ∀ (xs : List (Vec3 ℝ)) (t : Oct ℝ) (ps : List (Vec3 ℝ)), Reach τ B res t ps →
    (∀ x ∈ xs, Accepts τ B x) → ∃ t', xs.foldl (addStep τ res fuel) (some (true, t)) = some (true, t') ∧ Reach τ B res t' (ps ++ xs) := by
  intro xs
  induction xs with
  | nil => intro t ps h _; exact ⟨t, rfl, by simpa using h⟩
  | cons x xs ih =>
    intro t ps h hx
    obtain ⟨t1, ht1⟩ := hn t ps h x (hx x (by simp)) fuel hf
    obtain ⟨t', e, hr⟩ := ih t1 (ps ++ [x]) (.add fuel x h ht1) (fun y hy => hx y (by simp [hy]))
    refine ⟨t', ?_, by simpa using hr⟩
    rw [List.foldl_cons]
    simp only [addStep, ht1]
    exact e

private theorem stuck (τ res : ℝ) (fuel : ℕ) (t : Oct ℝ) : ∀ xs : List (Vec3 ℝ),
    xs.foldl (addStep τ res fuel) (some (false, t)) = some (false, t) := by
  intro xs
  induction xs with
  | nil => rfl
  | cons x xs ih => rw [List.foldl_cons]; exact ih

/-- **C84** (`zVec3DOctreeAddData`, all points accepted): every point of the set is in the octree, besides those it
held, for every large enough recursion budget. -/
theorem C84_addData {τ : ℝ} (hτ : 0 ≤ τ) {B : AABox3 ℝ} {res : ℝ} {t : Oct ℝ} {ps : List (Vec3 ℝ)} (h : Reach τ B res t ps)
    {d : Data (Vec3 ℝ)} (hd : d.WF) {xs : List (Vec3 ℝ)} (hs : d.Shows xs) (hin : ∀ x ∈ xs, Accepts τ B x) :
    ∃ n, ∀ fuel, n < fuel → ∃ t', addData τ res fuel d t = some (true, t') ∧ bag t' = ((ps ++ xs : List _) : Multiset _) ∧
      Reach τ B res t' (ps ++ xs) := by
  have hr : 0 < res := (reach_inv h τ hτ (fun p hp => near_of_inside (reach_accepted hτ h p hp))).2.1
  obtain ⟨n, hn⟩ := C31_budget hτ B hr
  refine ⟨n, fun fuel hf => ?_⟩
  obtain ⟨t', e, r⟩ := step_fold hτ hn hf xs t ps h hin
  refine ⟨t', ?_, C31_points hτ r, r⟩
  rw [addData, (hd.forEach _ _).1, C35_shows_unique d _ _ hd.shows hs]
  exact e

/-- **C84** (`zVec3DOctreeAddData`, a point outside): the function stops at the first point that is not accepted and
returns NULL; the points before it remain in the octree. -/
theorem C84_addData_outside {τ : ℝ} (hτ : 0 ≤ τ) {B : AABox3 ℝ} {res : ℝ} {t : Oct ℝ} {ps : List (Vec3 ℝ)} (h : Reach τ B res t ps)
    {d : Data (Vec3 ℝ)} (hd : d.WF) {xs zs : List (Vec3 ℝ)} {q : Vec3 ℝ} (hs : d.Shows (xs ++ q :: zs))
    (hin : ∀ x ∈ xs, Accepts τ B x) (hq : ¬ Accepts τ B q) :
    ∃ n, ∀ fuel, n < fuel → ∃ t', addData τ res fuel d t = some (false, t') ∧ bag t' = ((ps ++ xs : List _) : Multiset _) := by
  have hr : 0 < res := (reach_inv h τ hτ (fun p hp => near_of_inside (reach_accepted hτ h p hp))).2.1
  obtain ⟨n, hn⟩ := C31_budget hτ B hr
  refine ⟨n, fun fuel hf => ?_⟩
  obtain ⟨t', e, r⟩ := step_fold hτ hn hf xs t ps h hin
  refine ⟨t', ?_, C31_points hτ r⟩
  rw [addData, (hd.forEach _ _).1, C35_shows_unique d _ _ hd.shows hs, List.foldl_append, e, List.foldl_cons]
  have : addStep τ res fuel (some (true, t')) q = some (false, t') := by
    simp only [addStep, (C31_accept hτ r q).1 hq fuel]
  rw [this, stuck]

example : Reach (1 / 2 : ℝ) ⟨⟨0,0,0⟩,⟨4,4,4⟩⟩ 1 (fresh ⟨⟨0,0,0⟩,⟨4,4,4⟩⟩) [] ∧ Accepts (1 / 2) ⟨⟨0,0,0⟩,⟨4,4,4⟩⟩ ⟨0,1,3⟩ ∧
    ¬ Accepts (1 / 2) ⟨⟨0,0,0⟩,⟨4,4,4⟩⟩ ⟨0,1,5⟩ :=
  ⟨.init 1 (by norm_num) (by norm_num [Sorted]), by norm_num [Accepts], by norm_num [Accepts]⟩

/-! ## Normals of a point set -/

private theorem lstWF (zs : List (Vec3 ℝ)) : (lst false zs none : Data (Vec3 ℝ)).WF := by intro k hk; cases hk

private theorem mat_ext {m m' : Mat3 ℝ} (h : ∀ i j, m.toMatrix i j = m'.toMatrix i j) : m = m' := by
  have e : ∀ i j, m.toMatrix i j = m'.toMatrix i j := h
  obtain ⟨⟨a, b, c⟩, ⟨d, e', f⟩, ⟨g, i, j⟩⟩ := m
  obtain ⟨⟨a', b', c'⟩, ⟨d', e'', f'⟩, ⟨g', i', j'⟩⟩ := m'
  have := e 0 0; have := e 0 1; have := e 0 2; have := e 1 0; have := e 1 1; have := e 1 2
  have := e 2 0; have := e 2 1; have := e 2 2
  simp [Mat3.toMatrix] at *
  simp_all

private theorem meanNormal_perm {τ : ℝ} {a b : List (Vec3 ℝ)} (h : a.Perm b) (c : Vec3 ℝ) :
    (lst false a none).meanNormal τ c = (lst false b none).meanNormal τ c := by
  by_cases ha : a = []
  · subst ha
    rw [List.nil_perm] at h
    rw [h]
  · have hb : b ≠ [] := fun e => ha (by rw [e] at h; exact h.eq_nil)
    obtain ⟨m, hm, em⟩ := C60_cov (lstWF a) (lstWF a).shows ha c
    obtain ⟨m', hm', em'⟩ := C60_cov (lstWF b) (lstWF b).shows hb c
    have hmean : ∀ f : Vec3 ℝ → ℝ, Spec.mean f a = Spec.mean f b := by
      intro f; unfold Spec.mean; rw [(h.map f).sum_eq, h.length_eq]
    have : m = m' := mat_ext fun i j => by
      rw [em, em']; exact hmean _
    rw [meanNormal, meanNormal, pca, pca, hm, hm', this]

/-- **C84** (`zVec3DDataNormalVec_Octree`): for every non-empty set and positive radius the result is the same as
that of `zVec3DDataNormalVec_Tree`, vector by vector; the octree over the bounding box accepts every point. -/
theorem C84_normals {τ : ℝ} (hτ : 0 < τ) {d : Data (Vec3 ℝ)} (hd : d.WF) {xs : List (Vec3 ℝ)} (hs : d.Shows xs) (hx : xs ≠ [])
    {radius : ℝ} (hr : 0 < radius) (old junk : Vec3 ℝ) (box : AABox3 ℝ) :
    ∃ n, ∀ fuel, n < fuel → d.normalVecOctree τ radius old junk box fuel = some (some (d.normalVecTree τ radius old junk)) := by
  have k : d.contents = xs := C35_shows_unique d _ _ hd.shows hs
  have ka : d.toAddrList = xs := C35_shows_unique d _ _ (C35_toAddrList d hd) hs
  obtain ⟨b, w, hb, hin, hw⟩ := C37_aabb hd (by rw [k]; exact hx)
  rw [k] at hin
  obtain ⟨x0, hx0⟩ := List.exists_mem_of_ne_nil _ hx
  have hs0 : Sorted b := by
    obtain ⟨a1, a2, a3, a4, a5, a6⟩ := hin x0 hx0
    exact ⟨by linarith, by linarith, by linarith⟩
  have hcr : AABox3.create b.min.x b.min.y b.min.z b.max.x b.max.y b.max.z = b := by
    simp only [AABox3.create, min_eq_left hs0.1, min_eq_left hs0.2.1, min_eq_left hs0.2.2, max_eq_right hs0.1,
      max_eq_right hs0.2.1, max_eq_right hs0.2.2]
  have hi : Reach τ b radius (fresh b) [] := .init radius hr hs0
  obtain ⟨n, hn⟩ := C84_addData hτ.le hi hd hs (by
    intro x hxm
    obtain ⟨a1, a2, a3, a4, a5, a6⟩ := hin x hxm
    exact ⟨⟨by linarith, by linarith⟩, ⟨by linarith, by linarith⟩, by linarith, by linarith⟩)
  refine ⟨n, fun fuel hf => ?_⟩
  obtain ⟨t, e, -, r⟩ := hn fuel hf
  rw [List.nil_append] at r
  have hof : ofData τ d b.min.x b.min.y b.min.z b.max.x b.max.y b.max.z radius fuel = some (true, t) := by
    rw [ofData, Oct.init, hcr]; exact e
  have hv : ∀ v c o, normalFromVicinity τ (lst false (t.vicinity v radius) none) v c o =
      normalFromVicinity τ (lst false ((Kd.build xs).vicinity v radius) none) v c o := by
    intro v c o
    have p1 := C33_vicinity_partial r (by
      intro q hq
      obtain ⟨a1, a2, a3, a4, a5, a6⟩ := hin q hq
      exact ⟨⟨a1, a2⟩, ⟨a3, a4⟩, a5, a6⟩) v radius hr.le
    have p2 := C30_vicinity xs v radius hr.le
    rw [normalFromVicinity, normalFromVicinity, meanNormal_perm (p1.trans p2.symm) v]
  rw [normalVecOctree, normalVecTree]
  simp only [hb, Option.map_some, Option.getD_some, hof, hv, ka]

/-- A single point in a list meets the hypotheses. -/
example : (lst false [(⟨1, 2, 3⟩ : Vec3 ℝ)] none).WF ∧ (lst false [(⟨1, 2, 3⟩ : Vec3 ℝ)] none).Shows [⟨1, 2, 3⟩] :=
  ⟨lstWF _, (lstWF _).shows⟩

/-! ## Normals of octants -/

private theorem moment_form (B : AABox3 ℝ) (x y : Vec3 ℝ) : ∀ (pts : List (Vec3 ℝ)) (m : Mat3 ℝ),
    y.inner ((pts.foldl (fun m p => m.addDyad (p.sub (Oct.center B)) (p.sub (Oct.center B))) m).mulVec x) =
      y.inner (m.mulVec x) + (pts.map fun p => (p.sub (Oct.center B)).inner y * (p.sub (Oct.center B)).inner x).sum := by
  intro pts
  induction pts with
  | nil => intro m; simp
  | cons p pts ih =>
    intro m
    rw [List.foldl_cons, ih, List.map_cons, List.sum_cons, ← add_assoc]
    congr 1
    simp only [zeo]; ring

private theorem zero_form (x y : Vec3 ℝ) : y.inner ((Mat3.zero : Mat3 ℝ).mulVec x) = 0 := by simp only [zeo]; ring

private theorem moment_symm (B : AABox3 ℝ) (pts : List (Vec3 ℝ)) : (moment B pts).toMatrix.IsSymm := by
  have e : ∀ x y : Vec3 ℝ, y.inner ((moment B pts).mulVec x) = x.inner ((moment B pts).mulVec y) := by
    intro x y
    rw [moment, moment_form, moment_form, zero_form, zero_form]
    congr 2
    refine List.map_congr_left fun p _ => mul_comm _ _
  refine Matrix.IsSymm.ext fun i j => ?_
  have e1 := e ⟨1, 0, 0⟩ ⟨0, 1, 0⟩
  have e2 := e ⟨1, 0, 0⟩ ⟨0, 0, 1⟩
  have e3 := e ⟨0, 1, 0⟩ ⟨0, 0, 1⟩
  simp only [zeo] at e1 e2 e3
  ring_nf at e1 e2 e3
  fin_cases i <;> fin_cases j <;> simp [Mat3.toMatrix, e1, e2, e3]

/-- **C84** (`zVec3DOctreeUpdateNormal`, one octant with points): a unit vector along which the points spread least
about the *center of the octant* (within twice the tolerance), on the side of the previous one. -/
theorem C84_octant_normal {τ : ℝ} (hτ : 0 < τ) (B : AABox3 ℝ) {pts : List (Vec3 ℝ)} (hp : pts ≠ []) (norm : Vec3 ℝ) :
    ∃ n, updateNormal τ B pts norm = some n ∧ n.sqrNorm = 1 ∧ 0 ≤ n.inner norm ∧ ∀ x : Vec3 ℝ, x.sqrNorm = 1 →
      (pts.map fun p => (p.sub (B.min.mid B.max)).inner n ^ 2).sum ≤ (pts.map fun p => (p.sub (B.min.mid B.max)).inner x ^ 2).sum + 2 * τ := by
  obtain ⟨n, hn, h1, h2⟩ := C59_symEigMin hτ (moment B pts) (moment_symm B pts)
  have hf : ∀ y : Vec3 ℝ, y.inner ((moment B pts).mulVec y) = (pts.map fun p => (p.sub (B.min.mid B.max)).inner y ^ 2).sum := by
    intro y
    rw [moment, moment_form, zero_form, zero_add]
    congr 1
    refine List.map_congr_left fun p _ => ?_
    rw [pow_two]; rfl
  simp only [hf] at h2
  by_cases hs : n.inner norm ≥ 0
  · exact ⟨n, by rw [updateNormal, if_neg hp, estimateNormal, hn, Option.map_some, if_pos hs], h1, hs, h2⟩
  · refine ⟨n.rev, by rw [updateNormal, if_neg hp, estimateNormal, hn, Option.map_some, if_neg hs], ?_, ?_, fun x hx => ?_⟩
    · rw [← h1]; simp only [zeo]; ring
    · have : n.rev.inner norm = -(n.inner norm) := by simp only [zeo]; ring
      rw [this]; linarith
    · have : ∀ p : Vec3 ℝ, (p.sub (B.min.mid B.max)).inner n.rev ^ 2 = (p.sub (B.min.mid B.max)).inner n ^ 2 := by
        intro p; simp only [zeo]; ring
      simp only [this]
      exact h2 x hx

/-- An octant without points keeps its normal. -/
theorem C84_octant_empty (τ : ℝ) (B : AABox3 ℝ) (norm : Vec3 ℝ) : updateNormal τ B [] norm = some norm := if_pos rfl

/-- **The normal is not that of the surface**: four points of the horizontal plane `z = 9/10` in the octant
`[0,1]³`.  The estimated normal is horizontal up to the tolerance, because the moments are taken about the center of
the octant and not about the points' own. -/
theorem C84_octant_normal_false {τ : ℝ} (hτ : 0 < τ) (norm : Vec3 ℝ) :
    ∃ pts : List (Vec3 ℝ), pts.length = 4 ∧ (∀ p ∈ pts, p.z = 9 / 10) ∧
      (∀ u : Vec3 ℝ, (∀ p ∈ pts, ∀ q ∈ pts, (p.sub q).inner u = 0) → u.x = 0 ∧ u.y = 0) ∧
      ∃ n, updateNormal τ ⟨⟨0, 0, 0⟩, ⟨1, 1, 1⟩⟩ pts norm = some n ∧ n.sqrNorm = 1 ∧ n.z ^ 2 ≤ 10 / 3 * τ := by
  refine ⟨[⟨4/10, 4/10, 9/10⟩, ⟨6/10, 4/10, 9/10⟩, ⟨4/10, 6/10, 9/10⟩, ⟨6/10, 6/10, 9/10⟩], rfl, by simp, ?_, ?_⟩
  · intro u hu
    have h1 := hu ⟨6/10, 4/10, 9/10⟩ (by simp) ⟨4/10, 4/10, 9/10⟩ (by simp)
    have h2 := hu ⟨4/10, 6/10, 9/10⟩ (by simp) ⟨4/10, 4/10, 9/10⟩ (by simp)
    simp only [zeo] at h1 h2
    constructor <;> linarith
  · obtain ⟨n, h, h1, -, h2⟩ := C84_octant_normal hτ ⟨⟨0, 0, 0⟩, ⟨1, 1, 1⟩⟩ (pts := [⟨4/10, 4/10, 9/10⟩, ⟨6/10, 4/10, 9/10⟩, ⟨4/10, 6/10, 9/10⟩, ⟨6/10, 6/10, 9/10⟩]) (by simp) norm
    refine ⟨n, h, h1, ?_⟩
    have := h2 ⟨1, 0, 0⟩ (by simp only [zeo]; norm_num)
    simp only [List.map_cons, List.map_nil, List.sum_cons, List.sum_nil] at this
    simp only [zeo] at this h1
    nlinarith

end Zeo
