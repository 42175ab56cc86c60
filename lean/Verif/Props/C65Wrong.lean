import Verif.Props.C65
import Verif.Lemmas.MPREval

/-! # C65: what `zMPR` gets wrong, and runs that meet the hypotheses of C65 -/

namespace Zeo
open MPR
noncomputable section
open Classical

private theorem wf (xs : List (Vec3 ℝ)) : (Data.assignList xs).WF := (Data.WF.rewind (d := .lst true xs none) (by intro k hk; cases hk)).1

/-- The centre and the support map for given points against the origin. -/
private theorem start {xs : List (Vec3 ℝ)} (hx : xs ≠ []) {m : Vec3 ℝ} (hm : Spec.meanDiff xs [.zero] = m) {τ : ℝ}
    (hf : τ < |m.x| ∨ τ < |m.y| ∨ τ < |m.z|) :
    Supp xs [.zero] (supportMap (Data.assignList xs) (Data.assignList [.zero])) ∧
    ∃ s0 : Slot, s0.v = m ∧ ∀ fuel, find τ fuel (Data.assignList xs) (Data.assignList [.zero]) =
      findFrom τ (supportMap (Data.assignList xs) (Data.assignList [.zero])) fuel s0 := by
  have hy : ([.zero] : List (Vec3 ℝ)) ≠ [] := by simp
  obtain ⟨c, hc, hcm, -⟩ := mpr_origin (wf xs) (wf [.zero]) (wf xs).shows (wf [.zero]).shows hx hy
  refine ⟨supp_pairs (wf xs) (wf _) (wf xs).shows (wf _).shows hx hy, c, hcm.trans hm, fun fuel => ?_⟩
  rw [find, hc]
  dsimp only
  have hcm' : c.v = m := hcm.trans hm
  rw [mpr_bias (by rw [hcm']; exact hf)]

local macro "mnum" h:ident : tactic => `(tactic| (simp only [$h:ident, normal, zeo]; norm_num))
local macro "mmax" h:ident : tactic => `(tactic| (
  simp only [List.forall_mem_cons, List.not_mem_nil, IsEmpty.forall_iff, implies_true, and_true]
  repeat' apply And.intro
  all_goals first
    | exact Or.inl rfl
    | exact Or.inl trivial
    | (right; simp only [$h:ident, normal, zeo]; norm_num)))

/-! ## The search need not end -/

/-- Nine points, of which three are the origin. -/
def hangPoints : List (Vec3 ℝ) :=
  [⟨-3, 1, 2⟩, ⟨-1, 0, 1⟩, ⟨3, 4, -1⟩, ⟨0, -2, -3⟩, ⟨-1, -6, -9⟩, ⟨2, 3, 1⟩, ⟨0, 0, 0⟩, ⟨0, 0, 0⟩, ⟨0, 0, 0⟩]

/-- The six states of the loop of the search. -/
private def hangStates : List (Vec3 ℝ × Vec3 ℝ) :=
  [(⟨-3, 1, 2⟩, ⟨-1, 0, 1⟩), (⟨3, 4, -1⟩, ⟨-1, 0, 1⟩), (⟨3, 4, -1⟩, ⟨2, 3, 1⟩), (⟨-1, -6, -9⟩, ⟨2, 3, 1⟩),
   (⟨-1, -6, -9⟩, ⟨0, -2, -3⟩), (⟨-3, 1, 2⟩, ⟨0, -2, -3⟩)]

private theorem hang_loop {τ : ℝ} (h0 : 0 ≤ τ) (h1 : τ ≤ 1 / 1000) {supp : Vec3 ℝ → Option Slot} (hS : Supp hangPoints [.zero] supp) {s0 : Slot}
    (hv : s0.v = ⟨0, 0, -1⟩) : ∀ fuel, ∀ s ∈ hangStates, ∀ d, unit (normal s0.v s.1 s.2) = some d →
      findLoop τ supp fuel s0 (pr s.1) (pr s.2) d = none := by
  intro fuel
  induction fuel with
  | zero => intro s _ d _; rfl
  | succ fuel ih =>
    intro s hs d hd
    simp only [hangStates, List.mem_cons, List.not_mem_nil, or_false] at hs
    rcases hs with rfl | rfl | rfl | rfl | rfl | rfl
    · obtain ⟨d', hd', e⟩ := loop_one hS h0 h1 fuel (c := ⟨3, 4, -1⟩) hd (by simp [hangPoints]) (by unfold hangPoints; mmax hv) (by mnum hv) (by mnum hv) (by mnum hv) (by mnum hv)
      exact e.trans (ih (⟨3, 4, -1⟩, ⟨-1, 0, 1⟩) (by simp [hangStates]) d' hd')
    · obtain ⟨d', hd', e⟩ := loop_two hS h0 h1 fuel (c := ⟨2, 3, 1⟩) hd (by simp [hangPoints]) (by unfold hangPoints; mmax hv) (by mnum hv) (by mnum hv) (by mnum hv)
      exact e.trans (ih (⟨3, 4, -1⟩, ⟨2, 3, 1⟩) (by simp [hangStates]) d' hd')
    · obtain ⟨d', hd', e⟩ := loop_one hS h0 h1 fuel (c := ⟨-1, -6, -9⟩) hd (by simp [hangPoints]) (by unfold hangPoints; mmax hv) (by mnum hv) (by mnum hv) (by mnum hv) (by mnum hv)
      exact e.trans (ih (⟨-1, -6, -9⟩, ⟨2, 3, 1⟩) (by simp [hangStates]) d' hd')
    · obtain ⟨d', hd', e⟩ := loop_two hS h0 h1 fuel (c := ⟨0, -2, -3⟩) hd (by simp [hangPoints]) (by unfold hangPoints; mmax hv) (by mnum hv) (by mnum hv) (by mnum hv)
      exact e.trans (ih (⟨-1, -6, -9⟩, ⟨0, -2, -3⟩) (by simp [hangStates]) d' hd')
    · obtain ⟨d', hd', e⟩ := loop_one hS h0 h1 fuel (c := ⟨-3, 1, 2⟩) hd (by simp [hangPoints]) (by unfold hangPoints; mmax hv) (by mnum hv) (by mnum hv) (by mnum hv) (by mnum hv)
      exact e.trans (ih (⟨-3, 1, 2⟩, ⟨0, -2, -3⟩) (by simp [hangStates]) d' hd')
    · obtain ⟨d', hd', e⟩ := loop_two hS h0 h1 fuel (c := ⟨-1, 0, 1⟩) hd (by simp [hangPoints]) (by unfold hangPoints; mmax hv) (by mnum hv) (by mnum hv) (by mnum hv)
      exact e.trans (ih (⟨-3, 1, 2⟩, ⟨-1, 0, 1⟩) (by simp [hangStates]) d' hd')

/-- **The search of the first portal need not end**: for these points against the origin (which is one of them)
`zMPR` and `zMPRDepth` run for ever, whatever the tolerance. -/
theorem C65_hang {τ : ℝ} (h0 : 0 ≤ τ) (h1 : τ ≤ 1 / 1000) (fuel iter : ℕ) (od : ℝ) (op odr : Vec3 ℝ) :
    find τ fuel (Data.assignList hangPoints) (Data.assignList [.zero]) = none ∧
    zMPR τ fuel (Data.assignList hangPoints) (Data.assignList [.zero]) = none ∧
    zMPRDepth τ fuel iter od op odr (Data.assignList hangPoints) (Data.assignList [.zero]) = none := by
  obtain ⟨hS, s0, hv, hf⟩ := start (xs := hangPoints) (by simp [hangPoints]) (m := ⟨0, 0, -1⟩)
    (by simp only [Spec.meanDiff, Spec.mean, hangPoints, Vec3.zero, List.map, List.sum_cons, List.sum_nil, List.length]; norm_num) (τ := τ)
    (by right; right; norm_num; linarith)
  obtain ⟨d, hd, e⟩ := findFrom_eval hS h0 h1 fuel (s0 := s0) (a := ⟨-3, 1, 2⟩) (b := ⟨-1, -6, -9⟩) (by simp [hangPoints]) (by simp [hangPoints])
    (by unfold hangPoints; mmax hv) (by unfold hangPoints; mmax hv) (by mnum hv) (by mnum hv) (by rw [hv]; simp [Vec3.zero]) (by mnum hv) (by mnum hv)
    (by left; mnum hv) (by mnum hv)
  have hnone : find τ fuel (Data.assignList hangPoints) (Data.assignList [.zero]) = none := by
    rw [hf, e]
    cases fuel with
    | zero => rfl
    | succ fuel =>
      obtain ⟨d', hd', e'⟩ := loop_two hS h0 h1 fuel (c := ⟨-1, 0, 1⟩) hd (by simp [hangPoints]) (by unfold hangPoints; mmax hv) (by mnum hv) (by mnum hv) (by mnum hv)
      exact e'.trans (hang_loop h0 h1 hS hv fuel (⟨-3, 1, 2⟩, ⟨-1, 0, 1⟩) (by simp [hangStates]) d' hd')
  exact ⟨hnone, by rw [zMPR, hnone], by rw [zMPRDepth, hnone]⟩

/-! ## A contact that is not there -/

/-- Five points whose hull does not contain the origin. -/
def ghostPoints : List (Vec3 ℝ) := [⟨-2, 0, -1⟩, ⟨0, -1, 0⟩, ⟨-4, 0, -3⟩, ⟨3, 0, 1⟩, ⟨3, 1, -17⟩]

/-- **A false contact**: the hull of these points is strictly on one side of a plane through the origin, and `zMPR`
reports a contact with the origin (a tie in `_zMPRExpandPortal`). -/
theorem C65_false_contact {τ : ℝ} (h0 : 0 < τ) (h1 : τ ≤ 1 / 1000) (fuel : ℕ) :
    zMPR τ (fuel + 2) (Data.assignList ghostPoints) (Data.assignList [.zero]) = some (some true) ∧
    (∀ a, Spec.InHull {p | p ∈ ghostPoints} a → -9 * a.x + a.y + 20 * a.z ≤ -1) := by
  refine ⟨?_, ?_⟩
  · obtain ⟨hS, s0, hv, hf⟩ := start (xs := ghostPoints) (by simp [ghostPoints]) (m := ⟨0, 0, -4⟩)
      (by simp only [Spec.meanDiff, Spec.mean, ghostPoints, Vec3.zero, List.map, List.sum_cons, List.sum_nil, List.length]; norm_num) (τ := τ)
      (by right; right; norm_num; linarith)
    obtain ⟨d, hd, e⟩ := findFrom_eval hS h0.le h1 (fuel + 2) (s0 := s0) (a := ⟨3, 0, 1⟩) (b := ⟨3, 1, -17⟩) (by simp [ghostPoints]) (by simp [ghostPoints])
      (by unfold ghostPoints; mmax hv) (by unfold ghostPoints; mmax hv) (by mnum hv) (by mnum hv) (by rw [hv]; simp [Vec3.zero]) (by mnum hv) (by mnum hv)
      (by right; left; mnum hv) (by mnum hv)
    have e2 := loop_done hS h0.le h1 (fuel + 1) (c := ⟨-4, 0, -3⟩) hd (by simp [ghostPoints]) (by unfold ghostPoints; mmax hv) (by mnum hv) (by mnum hv)
      (by simp only [hv, zeo]; norm_num; exact h0) (by simp only [hv, zeo]; norm_num; linarith)
    have e3 := refine_more hS h0.le h1 (fuel + 1) (s0 := s0) (a := ⟨3, 0, 1⟩) (b := ⟨3, 1, -17⟩) (c := ⟨-4, 0, -3⟩) (e := ⟨-2, 0, -1⟩) (by simp [ghostPoints])
      (by unfold ghostPoints; mmax hv) (by mnum hv) (by mnum hv) (by mnum hv) (by mnum hv)
    have e4 : Portal.expand ⟨s0, pr ⟨3, 0, 1⟩, pr ⟨3, 1, -17⟩, pr ⟨-4, 0, -3⟩⟩ (pr ⟨-2, 0, -1⟩) = ⟨s0, pr ⟨-2, 0, -1⟩, pr ⟨3, 1, -17⟩, pr ⟨-4, 0, -3⟩⟩ := by
      unfold Portal.expand
      dsimp only
      rw [pr_v, pr_v, pr_v, pr_v, if_neg (by mnum hv), if_neg (by mnum hv)]
    have e5 := refine_hit (supp := supportMap (Data.assignList ghostPoints) (Data.assignList [.zero])) h0.le fuel (s0 := s0) (a := ⟨-2, 0, -1⟩) (b := ⟨3, 1, -17⟩)
      (c := ⟨-4, 0, -3⟩) (by mnum hv)
    unfold zMPR
    rw [hf, e, e2]
    dsimp only
    rw [e3, e4, e5]
  · intro a ha
    have := GJK.inner_hull (T := {p | p ∈ ghostPoints}) (v := ⟨9, -1, -20⟩) (c := 1) (fun x hx => by
      simp only [ghostPoints, Set.mem_setOf_eq, List.mem_cons, List.not_mem_nil, or_false] at hx
      rcases hx with rfl | rfl | rfl | rfl | rfl <;> simp only [zeo] <;> norm_num) ha
    simp only [zeo] at this
    linarith

/-! ## Points in general position -/

/-- A tetrahedron around the origin. -/
def firmPoints : List (Vec3 ℝ) := [⟨1, 0, 0⟩, ⟨0, 3, -2⟩, ⟨-2, -1, 1⟩, ⟨1, -2, -3⟩]

private theorem firm_mean : Spec.meanDiff firmPoints [.zero] = ⟨0, 0, -1⟩ := by
  simp only [Spec.meanDiff, Spec.mean, firmPoints, Vec3.zero, List.map, List.sum_cons, List.sum_nil, List.length]; norm_num

private theorem firm_diff {v : Vec3 ℝ} (h : Spec.IsDiff firmPoints [.zero] v) : v = ⟨1, 0, 0⟩ ∨ v = ⟨0, 3, -2⟩ ∨ v = ⟨-2, -1, 1⟩ ∨ v = ⟨1, -2, -3⟩ := by
  obtain ⟨p, hp, q, hq, hx, hy, hz⟩ := h
  obtain rfl : q = .zero := by simpa using hq
  have : v = p := by ext <;> simp only [hx, hy, hz, Vec3.zero] <;> ring
  rw [this]
  simpa [firmPoints] using hp

private theorem firm_general {τ : ℝ} (h0 : 0 ≤ τ) (h1 : τ ≤ 1 / 1000) : Spec.GenPos τ firmPoints [.zero] (Spec.meanDiff firmPoints [.zero]) where
  pair v w hv hw hne := by
    rw [firm_mean]
    rcases firm_diff hv with rfl | rfl | rfl | rfl <;> rcases firm_diff hw with rfl | rfl | rfl | rfl <;>
      first
        | exact absurd rfl hne
        | (simp only [Spec.det]; norm_num; linarith)
  plane u v w hu hv hw hne := by
    have key : ∀ X Y : ℝ, X ≤ 1000000 → 1 ≤ Y → τ * Real.sqrt X ≤ Y := by
      intro X Y hX hY
      have : Real.sqrt X ≤ 1000 := Real.sqrt_le_iff.2 ⟨by norm_num, by linarith⟩
      nlinarith [Real.sqrt_nonneg X]
    rcases firm_diff hu with rfl | rfl | rfl | rfl <;> rcases firm_diff hv with rfl | rfl | rfl | rfl <;> rcases firm_diff hw with rfl | rfl | rfl | rfl <;>
      first
        | (exfalso; apply hne; simp only [Spec.perp]; norm_num; done)
        | (refine key _ _ ?_ ?_ <;> simp only [Spec.perp, Spec.dot] <;> norm_num)

private theorem firm_firm {τ : ℝ} (h1 : τ ≤ 1 / 1000) : Spec.Firm τ firmPoints [.zero] (Spec.meanDiff firmPoints [.zero]) where
  far := by rw [firm_mean]; right; right; norm_num; linarith
  line v hv := by
    rw [firm_mean]
    rcases firm_diff hv with rfl | rfl | rfl | rfl
    · right; left; norm_num; linarith
    · left; norm_num; linarith
    · left; norm_num; linarith
    · left; norm_num; linarith
  vol u v w hu hv hw hne := by
    rw [firm_mean]
    rcases firm_diff hu with rfl | rfl | rfl | rfl <;> rcases firm_diff hv with rfl | rfl | rfl | rfl <;> rcases firm_diff hw with rfl | rfl | rfl | rfl <;>
      first
        | (exfalso; apply hne; simp only [Spec.perp]; norm_num; done)
        | (refine le_trans h1 ?_; simp only [Spec.perp, Spec.dot]; norm_num)

private theorem firm_true {τ : ℝ} (h0 : 0 ≤ τ) (h1 : τ ≤ 1 / 1000) (fuel : ℕ) :
    zMPR τ (fuel + 2) (Data.assignList firmPoints) (Data.assignList [.zero]) = some (some true) := by
  obtain ⟨hS, s0, hv, hf⟩ := start (xs := firmPoints) (by simp [firmPoints]) (m := ⟨0, 0, -1⟩) firm_mean (τ := τ)
    (by right; right; norm_num; linarith)
  obtain ⟨d, hd, e⟩ := findFrom_eval hS h0 h1 (fuel + 2) (s0 := s0) (a := ⟨-2, -1, 1⟩) (b := ⟨1, -2, -3⟩) (by simp [firmPoints]) (by simp [firmPoints])
    (by unfold firmPoints; mmax hv) (by unfold firmPoints; mmax hv) (by mnum hv) (by mnum hv) (by rw [hv]; simp [Vec3.zero]) (by mnum hv) (by mnum hv)
    (by left; mnum hv) (by mnum hv)
  obtain ⟨d', hd', e'⟩ := loop_two hS h0 h1 (fuel + 1) (c := ⟨1, 0, 0⟩) hd (by simp [firmPoints]) (by unfold firmPoints; mmax hv) (by mnum hv) (by mnum hv) (by mnum hv)
  have e2 := loop_done hS h0 h1 fuel (c := ⟨0, 3, -2⟩) hd' (by simp [firmPoints]) (by unfold firmPoints; mmax hv) (by mnum hv) (by mnum hv)
    (by simp only [hv, zeo]; norm_num; linarith) (by simp only [hv, zeo]; norm_num; linarith)
  have e5 := refine_hit (supp := supportMap (Data.assignList firmPoints) (Data.assignList [.zero])) h0 (fuel + 1) (s0 := s0) (a := ⟨-2, -1, 1⟩) (b := ⟨1, 0, 0⟩)
    (c := ⟨0, 3, -2⟩) (by mnum hv)
  unfold zMPR
  rw [hf, e, e', e2]
  dsimp only
  rw [e5]

/-- A tetrahedron around the origin meets the hypotheses of `C65_true_partial`, `C65_ends_partial` and `C65_contact`. -/
example : Spec.GenPos (1 / 1000) firmPoints [.zero] (Spec.meanDiff firmPoints [.zero]) ∧
    Spec.Firm (1 / 1000) firmPoints [.zero] (Spec.meanDiff firmPoints [.zero]) ∧
    zMPR (1 / 1000) 2 (Data.assignList firmPoints) (Data.assignList [.zero]) = some (some true) ∧
    find (1 / 1000) 2 (Data.assignList firmPoints) (Data.assignList [.zero]) ≠ none := by
  have h := firm_true (τ := 1 / 1000) (by norm_num) le_rfl 0
  refine ⟨firm_general (by norm_num) le_rfl, firm_firm le_rfl, h, fun e => ?_⟩
  rw [zMPR, e] at h
  cases h
/-- And `zMPRDepth` returns true on them, as `C65_depth` asks. -/
example : ∃ depth pos dir, zMPRDepth (1 / 1000) 2 65 0 .zero .zero (Data.assignList firmPoints) (Data.assignList [.zero]) =
    some (.ret true depth pos dir) := by
  obtain ⟨depth, pos, dir, h, -⟩ := C65_contact (xs := firmPoints) (ys := [.zero]) (τ := 1 / 1000) (fuel := 2) (iter := 65) (od := 0) (op := .zero) (odr := .zero) (by norm_num) (wf firmPoints) (wf [.zero])
    (wf _).shows (wf _).shows (by simp [firmPoints]) (by simp) (firm_general (by norm_num) le_rfl) (firm_firm le_rfl) (by simp [firmPoints])
    (firm_true (by norm_num) le_rfl 0)
  exact ⟨depth, pos, dir, h⟩
/-- A point away from the origin meets the hypotheses of `C65_false`. -/
example : zMPR (1 / 1000) 0 (Data.assignList [⟨1, 0, 0⟩]) (Data.assignList [.zero]) = some (some false) := by
  obtain ⟨hS, s0, hv, hf⟩ := start (xs := [⟨1, 0, 0⟩]) (by simp) (m := ⟨1, 0, 0⟩)
    (by simp only [Spec.meanDiff, Spec.mean, Vec3.zero, List.map, List.sum_cons, List.sum_nil, List.length]; norm_num) (τ := 1 / 1000) (by left; norm_num)
  obtain ⟨d, hd⟩ := unit_some (v := s0.v.rev) (by rw [hv]; simp [Vec3.rev, Vec3.zero])
  obtain ⟨k1, -, u1⟩ := unit_spec hd
  have : findFrom (1 / 1000) (supportMap (Data.assignList [⟨1, 0, 0⟩]) (Data.assignList [.zero])) 0 s0 = some .outside := by
    unfold findFrom
    rw [hd]
    dsimp only
    rw [supp_eq hS hd (a := ⟨1, 0, 0⟩) (by simp) (by mmax hv)]
    dsimp only
    rw [if_pos]
    rw [pr_v, u1, div_lt_iff₀ k1]
    have : (⟨1, 0, 0⟩ : Vec3 ℝ).inner s0.v.rev = -1 := by mnum hv
    rw [this]
    linarith
  unfold zMPR
  rw [hf, this]

end
end Zeo
