import Verif.Lemmas.Octree

/-! # C31: the octree keeps every accepted point -/

namespace Zeo
open Oct
variable {K : Type*} [Field K] [LinearOrder K] [IsStrictOrderedRing K]

/-- The histories of an octree over the region `B`: initialise at a positive resolution, then in any order
insert accepted points and change the resolution to another positive value. The list is the sequence of
accepted points, `res` the current resolution. -/
inductive Oct.Reach (τ : K) (B : AABox3 K) : K → Oct K → List (Vec3 K) → Prop
  | init (res : K) : 0 < res → Sorted B → Reach τ B res (fresh B) []
  | add {res : K} {t t' : Oct K} {ps : List (Vec3 K)} (fuel : ℕ) (p : Vec3 K) : Reach τ B res t ps →
      addPoint τ res fuel p t = .added t' → Reach τ B res t' (ps ++ [p])
  | change {res : K} {t t' : Oct K} {ps : List (Vec3 K)} (fuel : ℕ) (res' : K) : Reach τ B res t ps →
      0 < res' → changeResolution τ res res' fuel t = some t' → Reach τ B res' t' ps

/-- All state facts at once. `ε` bounds how far accepted points are outside of the region. -/
theorem reach_inv {τ : K} {B : AABox3 K} {res : K} {t : Oct K} {ps : List (Vec3 K)}
    (h : Reach τ B res t ps) : ∀ ε, 0 ≤ ε → (∀ p ∈ ps, Near ε B p) →
    t ≠ nil ∧ 0 < res ∧ WF τ res B t ∧ Loc ε t ∧ bag t = (ps : Multiset (Vec3 K)) := by
  induction h with
  | init res hres hs => intro ε _ _; exact ⟨by simp [fresh], hres, wf_fresh hs, loc_fresh, bag_fresh _⟩
  | add fuel p _ hadd ih =>
    rename_i res t t' ps _
    intro ε h0 hn
    obtain ⟨h1, h2, h3, h4, h5⟩ := ih ε h0 (fun q hq => hn q (by simp [hq]))
    cases t with
    | nil => exact absurd rfl h1
    | node B' pts sub =>
      unfold addPoint at hadd; dsimp only at hadd
      split_ifs at hadd with hin
      split at hadd
      · cases hadd
      · rename_i t1 ht1
        cases hadd
        obtain ⟨a, b, c, d⟩ := addRec_spec h0 p _ _ _ _ h3 h4 (hn p (by simp)) ht1
        refine ⟨a, h2, b, c, ?_⟩
        rw [d, h5, ← Multiset.coe_add, Multiset.coe_singleton, add_comm]
  | change fuel res' _ hres' hch ih =>
    rename_i res t t' ps _
    intro ε h0 hn
    obtain ⟨h1, h2, h3, h4, h5⟩ := ih ε h0 hn
    unfold changeResolution at hch
    split_ifs at hch with hlt
    · obtain ⟨a, b, c, d⟩ := divide_spec h0 hlt.le _ _ _ _ h3 h4 hch
      exact ⟨d h1, hres', a, b, c.trans h5⟩
    · cases hch
      obtain ⟨a, b, c, -, d⟩ := merge_spec (not_lt.1 hlt) t B h3 h4
      exact ⟨d h1, hres', a, b, c.trans h5⟩

theorem near_of_inside {τ : K} {B : AABox3 K} {p : Vec3 K} (h : B.pointIsInside p τ) : Near τ B p := by
  obtain ⟨⟨h1, h2⟩, ⟨h3, h4⟩, h5, h6⟩ := h
  exact ⟨⟨h1.le, h2⟩, ⟨h3.le, h4⟩, h5.le, h6⟩

/-- Accepted points lie in the region enlarged by the tolerance. -/
theorem reach_accepted {τ : K} {B : AABox3 K} {res : K} {t : Oct K} {ps : List (Vec3 K)} (hτ : 0 ≤ τ)
    (h : Reach τ B res t ps) : ∀ p ∈ ps, B.pointIsInside p τ := by
  induction h with
  | init => simp
  | add fuel p hr hadd ih =>
    rename_i res t t' ps
    intro q hq
    rcases List.mem_append.1 hq with hq | hq
    · exact ih q hq
    · rw [List.mem_singleton] at hq
      subst hq
      have hi := reach_inv hr τ hτ (fun p hp => near_of_inside (ih p hp))
      cases t with
      | nil => exact absurd rfl hi.1
      | node B' pts sub =>
        have hB : B' = B := hi.2.2.1.1
        subst hB
        unfold addPoint at hadd; dsimp only at hadd
        split_ifs at hadd with hin
        exact hin
  | change _ _ _ _ _ ih => exact ih

/-- After any history of insertions and changes of resolution, the stored points are exactly the accepted
points, with multiplicity. -/
theorem C31_points {τ : K} (hτ : 0 ≤ τ) {B : AABox3 K} {res : K} {t : Oct K} {ps : List (Vec3 K)}
    (h : Reach τ B res t ps) : bag t = (ps : Multiset (Vec3 K)) :=
  (reach_inv h τ hτ (fun p hp => near_of_inside (reach_accepted hτ h p hp))).2.2.2.2

/-- After any history, the octree has its proper shape: points only in octants not larger than the
resolution, each octant covering its eighth of the parent, each point within the tolerance of the region of
every octant above it. -/
theorem C31_shape {τ : K} (hτ : 0 ≤ τ) {B : AABox3 K} {res : K} {t : Oct K} {ps : List (Vec3 K)}
    (h : Reach τ B res t ps) : t ≠ nil ∧ WF τ res B t ∧ Loc τ t :=
  let r := reach_inv h τ hτ (fun p hp => near_of_inside (reach_accepted hτ h p hp))
  ⟨r.1, r.2.2.1, r.2.2.2.1⟩

/-- In any reachable octree, a point is accepted exactly when it lies in the region (half-open, enlarged by
the tolerance); insertion then terminates for every large enough recursion budget. -/
theorem C31_accept [Archimedean K] {τ : K} (hτ : 0 ≤ τ) {B : AABox3 K} {res : K} {t : Oct K}
    {ps : List (Vec3 K)} (h : Reach τ B res t ps) (p : Vec3 K) :
    (¬ ((B.min.x - τ < p.x ∧ p.x ≤ B.max.x + τ) ∧ (B.min.y - τ < p.y ∧ p.y ≤ B.max.y + τ) ∧
        (B.min.z - τ < p.z ∧ p.z ≤ B.max.z + τ)) → ∀ fuel, addPoint τ res fuel p t = .rejected) ∧
    ((B.min.x - τ < p.x ∧ p.x ≤ B.max.x + τ) ∧ (B.min.y - τ < p.y ∧ p.y ≤ B.max.y + τ) ∧
        (B.min.z - τ < p.z ∧ p.z ≤ B.max.z + τ) →
      ∃ n, ∀ fuel, n < fuel → ∃ t', addPoint τ res fuel p t = .added t' ∧
        bag t' = p ::ₘ bag t) := by
  obtain ⟨h1, h2, h3, h4, h5⟩ :=
    reach_inv h τ hτ (fun p hp => near_of_inside (reach_accepted hτ h p hp))
  cases t with
  | nil => exact absurd rfl h1
  | node B' pts sub =>
    have hB : B' = B := h3.1
    subst hB
    refine ⟨?_, ?_⟩
    · intro hn fuel
      unfold addPoint; dsimp only
      rw [if_neg]
      exact hn
    · intro hin
      obtain ⟨n, n1, n2, n3⟩ := exists_pow (by linarith : 0 < res + τ) (B'.max.x - B'.min.x)
        (B'.max.y - B'.min.y) (B'.max.z - B'.min.z)
      refine ⟨n, fun fuel hf => ?_⟩
      obtain ⟨t', ht'⟩ := addRec_total (τ := τ) p n B' _ h1 h3 n1 n2 n3 fuel hf
      have hs := addRec_spec hτ p _ _ _ _ h3 h4 (near_of_inside hin) ht'
      refine ⟨t', ?_, ?_⟩
      · unfold addPoint; dsimp only
        rw [if_pos (show B'.pointIsInside p τ from hin), ht']
      · rw [hs.2.2.2, Multiset.singleton_add]

/-- The recursion budget in `C31_accept` depends on the region and the resolution only. -/
theorem C31_budget [Archimedean K] {τ : K} (hτ : 0 ≤ τ) (B : AABox3 K) {res : K} (hr : 0 < res) :
    ∃ n, ∀ t ps, Reach τ B res t ps → ∀ p : Vec3 K,
      (B.min.x - τ < p.x ∧ p.x ≤ B.max.x + τ) ∧ (B.min.y - τ < p.y ∧ p.y ≤ B.max.y + τ) ∧
        (B.min.z - τ < p.z ∧ p.z ≤ B.max.z + τ) →
      ∀ fuel, n < fuel → ∃ t', addPoint τ res fuel p t = .added t' := by
  obtain ⟨n, n1, n2, n3⟩ := exists_pow (by linarith : 0 < res + τ) (B.max.x - B.min.x) (B.max.y - B.min.y) (B.max.z - B.min.z)
  refine ⟨n, fun t ps h p hin fuel hf => ?_⟩
  obtain ⟨h1, h2, h3, h4, h5⟩ :=
    reach_inv h τ hτ (fun p hp => near_of_inside (reach_accepted hτ h p hp))
  cases t with
  | nil => exact absurd rfl h1
  | node B' pts sub =>
    have hB : B' = B := h3.1
    subst hB
    obtain ⟨t', ht'⟩ := addRec_total (τ := τ) p n B' _ h1 h3 n1 n2 n3 fuel hf
    refine ⟨t', ?_⟩
    unfold addPoint; dsimp only
    rw [if_pos (show B'.pointIsInside p τ from hin), ht']

/-- Changing the resolution of a reachable octree to any positive value terminates. -/
theorem C31_change_total [Archimedean K] {τ : K} (hτ : 0 ≤ τ) {B : AABox3 K} {res : K} {t : Oct K}
    {ps : List (Vec3 K)} (h : Reach τ B res t ps) (res' : K) (hr : 0 < res') :
    ∃ n, ∀ fuel, n < fuel → ∃ t', changeResolution τ res res' fuel t = some t' ∧ bag t' = bag t := by
  obtain ⟨h1, h2, h3, h4, h5⟩ :=
    reach_inv h τ hτ (fun p hp => near_of_inside (reach_accepted hτ h p hp))
  unfold changeResolution
  split_ifs with hlt
  · obtain ⟨n, n1, n2, n3⟩ := exists_pow (by linarith : 0 < res' + τ) (B.max.x - B.min.x)
      (B.max.y - B.min.y) (B.max.z - B.min.z)
    refine ⟨n, fun fuel hf => ?_⟩
    obtain ⟨t', ht'⟩ := divide_total hlt.le n B t h3 ⟨τ, hτ, h4⟩ n1 n2 n3 fuel hf
    exact ⟨t', ht', (divide_spec hτ hlt.le _ _ _ _ h3 h4 ht').2.2.1⟩
  · exact ⟨0, fun _ _ => ⟨_, rfl, (merge_spec (not_lt.1 hlt) t B h3 h4).2.2.1⟩⟩

/-- A concrete history: the cube `[0,2]³` at resolution 1, one point accepted, one rejected. -/
example : ∃ fuel t, addPoint (0:ℚ) 1 fuel ⟨1/2,1/2,3/2⟩ (fresh ⟨⟨0,0,0⟩,⟨2,2,2⟩⟩) = .added t ∧
    bag t = {⟨1/2,1/2,3/2⟩} ∧ addPoint (0:ℚ) 1 fuel ⟨5/2,1/2,3/2⟩ t = .rejected := by
  have hi : Reach (0:ℚ) ⟨⟨0,0,0⟩,⟨2,2,2⟩⟩ 1 (fresh ⟨⟨0,0,0⟩,⟨2,2,2⟩⟩) [] :=
    .init 1 (by norm_num) (by norm_num [Sorted])
  obtain ⟨n, hn⟩ := (C31_accept le_rfl hi ⟨1/2,1/2,3/2⟩).2 (by norm_num)
  obtain ⟨t, ht, hb⟩ := hn (n + 1) (by omega)
  refine ⟨n + 1, t, ht, ?_, ?_⟩
  · simpa using C31_points le_rfl (.add _ _ hi ht)
  · exact (C31_accept le_rfl (.add _ _ hi ht) _).1 (by norm_num) _

end Zeo
