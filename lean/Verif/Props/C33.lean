import Verif.Props.C32

/-! # C33: octree vicinity search -/

namespace Zeo
noncomputable section
open Classical Oct

theorem filter_list_sum (P : Vec3 ℝ → Prop) (L : List (Fin 8)) (f : Fin 8 → Multiset (Vec3 ℝ)) :
    ((L.map f).sum).filter P = (L.map (fun i => (f i).filter P)).sum := by
  induction L with
  | nil => simp
  | cons a L ih => rw [List.map_cons, List.sum_cons, Multiset.filter_add, ih, List.map_cons, List.sum_cons]

theorem sqd_lt_iff {p q : Vec3 ℝ} {r : ℝ} (hr : 0 ≤ r) : Spec.sqd p q < r * r ↔ Spec.ed p q < r := by
  rw [← oct_ed_sq]
  exact (mul_self_lt_mul_self_iff (Real.sqrt_nonneg _) hr).symm

theorem vicRec_spec {τ res ε r : ℝ} (h0 : 0 ≤ ε) (hr : 0 ≤ r) (p : Vec3 ℝ) (t : Oct ℝ) : ∀ (B : AABox3 ℝ) acc,
    WF τ res B t → Loc ε t → ∃ M : Multiset (Vec3 ℝ), (vicRec p (r*r) t acc : Multiset (Vec3 ℝ)) = ↑acc + M ∧
      M ≤ (bag t).filter (fun q => Spec.ed p q < r) ∧
      (bag t).filter (fun q => Spec.ed p q + Real.sqrt 3 * ε < r) ≤ M := by
  induction t with
  | nil => intro B acc _ _; exact ⟨0, by simp [vicRec], by simp, by simp [bag]⟩
  | node B' pts sub ih =>
    intro B acc hw hl
    obtain ⟨rfl, hs, hsm, hns, hsub⟩ := hw
    have hε : 0 ≤ Real.sqrt 3 * ε := by positivity
    unfold vicRec
    split_ifs with hd hp
    · refine ⟨0, by simp, by simp, ?_⟩
      rw [Multiset.filter_eq_nil.2]
      intro q hq hlt
      have h1 := region_dist_le (p := p) h0 (hl.1 q hq)
      have h2 : 0 ≤ Spec.ed p q := Real.sqrt_nonneg _
      nlinarith
    · have hnil : ∀ i, sub i = nil := by
        by_cases hc : IsSmallest τ res B'
        · exact hsm hc
        · exact absurd (hns hc) hp
      have hb : bag (node B' pts sub) = (pts : Multiset (Vec3 ℝ)) := by simp [bag_node, hnil, bag]
      rw [hb]
      have he : (fun q : Vec3 ℝ => decide (q.sqrDist p < r * r)) = (fun q => decide (Spec.ed p q < r)) := by
        funext q; rw [decide_eq_decide, oct_sqrDist, sqd_lt_iff hr]
      refine ⟨(pts : Multiset (Vec3 ℝ)).filter (fun q => Spec.ed p q < r), ?_, le_rfl, ?_⟩
      · rw [he, ← Multiset.coe_add, Multiset.filter_coe]
      · exact Multiset.monotone_filter_right _ (fun q hq => by linarith)
    · have hp' : pts = [] := by simpa using hp
      subst hp'
      have step : ∀ (L : List (Fin 8)) acc, ∃ M : Multiset (Vec3 ℝ),
          ((L.foldl (fun acc i => vicRec p (r*r) (sub i) acc) acc : List (Vec3 ℝ)) : Multiset (Vec3 ℝ)) =
            ↑acc + M ∧
          M ≤ (L.map (fun i => (bag (sub i)).filter (fun q => Spec.ed p q < r))).sum ∧
          (L.map (fun i => (bag (sub i)).filter (fun q => Spec.ed p q + Real.sqrt 3 * ε < r))).sum ≤ M := by
        intro L
        induction L with
        | nil => intro acc; exact ⟨0, by simp, by simp, by simp⟩
        | cons i L ihL =>
          intro acc
          obtain ⟨M1, a1, b1, c1⟩ := ih i _ acc (hsub i) (hl.2 i)
          obtain ⟨M2, a2, b2, c2⟩ := ihL (vicRec p (r*r) (sub i) acc)
          refine ⟨M1 + M2, ?_, ?_, ?_⟩
          · rw [List.foldl_cons, a2, a1, add_assoc]
          · rw [List.map_cons, List.sum_cons]; exact add_le_add b1 b2
          · rw [List.map_cons, List.sum_cons]; exact add_le_add c1 c2
      obtain ⟨M, a, b, c⟩ := step (List.finRange 8) acc
      refine ⟨M, a, ?_, ?_⟩
      · rw [bag_node, Multiset.coe_nil, zero_add, Fin.sum_univ_def, filter_list_sum]; exact b
      · rw [bag_node, Multiset.coe_nil, zero_add, Fin.sum_univ_def, filter_list_sum]; exact c

/-- In any reachable octree the search returns only accepted points closer than the radius, none more often
than it was accepted, and all those closer than the radius minus `√3 ε`, where `ε` bounds how far accepted
points are outside of the region. -/
theorem C33_vicinity_bound {τ : ℝ} {B : AABox3 ℝ} {res : ℝ} {t : Oct ℝ} {ps : List (Vec3 ℝ)}
    (h : Reach τ B res t ps) {ε : ℝ} (h0 : 0 ≤ ε) (hin : ∀ q ∈ ps, Near ε B q) (p : Vec3 ℝ) (r : ℝ) (hr : 0 ≤ r) :
    (vicinity t p r : Multiset (Vec3 ℝ)) ≤ (ps.filter (fun q => decide (Spec.ed p q < r)) : Multiset (Vec3 ℝ)) ∧
    (ps.filter (fun q => decide (Spec.ed p q + Real.sqrt 3 * ε < r)) : Multiset (Vec3 ℝ)) ≤ vicinity t p r := by
  obtain ⟨-, -, hw, hl, hb⟩ := reach_inv h ε h0 hin
  obtain ⟨M, a, b, c⟩ := vicRec_spec h0 hr p t B [] hw hl
  unfold vicinity
  rw [a]
  rw [hb, Multiset.filter_coe] at b c
  simpa using ⟨b, c⟩

/-- Exactness when every accepted point lies in the closed region of the octree. `_partial`: the code also
accepts points up to the tolerance outside of the region, for which only `C33_vicinity_bound` holds (see
`C33_not_exact_outside`). -/
theorem C33_vicinity_partial {τ : ℝ} {B : AABox3 ℝ} {res : ℝ} {t : Oct ℝ} {ps : List (Vec3 ℝ)}
    (h : Reach τ B res t ps)
    (hin : ∀ q ∈ ps, (B.min.x ≤ q.x ∧ q.x ≤ B.max.x) ∧ (B.min.y ≤ q.y ∧ q.y ≤ B.max.y) ∧
      (B.min.z ≤ q.z ∧ q.z ≤ B.max.z)) (p : Vec3 ℝ) (r : ℝ) (hr : 0 ≤ r) :
    (vicinity t p r).Perm (ps.filter (fun q => decide (Spec.ed p q < r))) := by
  have hb := C33_vicinity_bound h le_rfl (by
    intro q hq
    obtain ⟨⟨a1, a2⟩, ⟨b1, b2⟩, c1, c2⟩ := hin q hq
    exact ⟨⟨by linarith, by linarith⟩, ⟨by linarith, by linarith⟩, by linarith, by linarith⟩) p r hr
  simp only [mul_zero, add_zero] at hb
  exact Multiset.coe_eq_coe.1 (le_antisymm hb.1 hb.2)

/-- Every reachable octree: the search misses no point closer than the radius by more than `√3` times the
tolerance, and returns no point beyond the radius. -/
theorem C33_vicinity_tolerance {τ : ℝ} (hτ : 0 ≤ τ) {B : AABox3 ℝ} {res : ℝ} {t : Oct ℝ} {ps : List (Vec3 ℝ)}
    (h : Reach τ B res t ps) (p : Vec3 ℝ) (r : ℝ) (hr : 0 ≤ r) (q : Vec3 ℝ) :
    (q ∈ vicinity t p r → q ∈ ps ∧ Spec.ed p q < r) ∧
    (q ∈ ps → Spec.ed p q + Real.sqrt 3 * τ < r → q ∈ vicinity t p r) := by
  obtain ⟨h1, h2⟩ := C33_vicinity_bound h hτ (fun q hq => near_of_inside (reach_accepted hτ h q hq)) p r hr
  refine ⟨fun hq => ?_, fun hq hlt => ?_⟩
  · have := Multiset.mem_of_le h1 (Multiset.mem_coe.2 hq)
    simpa using this
  · exact Multiset.mem_coe.1 (Multiset.mem_of_le h2 (by simp [hq, hlt]))

/-- Points accepted outside of the region can be missed: for every positive tolerance the point
`(2+τ,1/2,1/2)` is accepted into the cube `[0,2]³`, and a search of radius `τ/2` centred at that very point
returns nothing. -/
theorem C33_not_exact_outside (τ : ℝ) (h0 : 0 < τ) :
    ∃ t, Reach τ cube2 1 t [⟨2+τ,1/2,1/2⟩] ∧ vicinity t ⟨2+τ,1/2,1/2⟩ (τ/2) = [] := by
  have r0 : Reach τ cube2 1 (fresh cube2) [] := .init 1 one_pos (by norm_num [Sorted, cube2])
  obtain ⟨n, hn⟩ := (C31_accept h0.le r0 ⟨2+τ,1/2,1/2⟩).2 (by
    simp only [cube2]; refine ⟨⟨?_, ?_⟩, ⟨?_, ?_⟩, ?_, ?_⟩ <;> linarith)
  obtain ⟨t, ht, -⟩ := hn (n + 1) (by omega)
  have r1 := Reach.add _ _ r0 ht
  refine ⟨t, r1, ?_⟩
  have hw := (C31_shape h0.le r1).2.1
  cases t with
  | nil => rfl
  | node B pts sub =>
    obtain ⟨rfl, -⟩ := hw
    unfold vicinity vicRec
    rw [if_pos]
    unfold AABox3.sqrDistFromPoint sqrExcess cube2
    dsimp only
    rw [if_neg (by linarith), if_pos (by linarith), if_neg (by norm_num), if_neg (by norm_num)]
    nlinarith

/-- The hypotheses of `C33_vicinity_partial` hold for a history whose points share an octant with the query
or not. -/
example : ∃ t, Reach (1/2) cube2 1 t [⟨1/2,1/2,1/2⟩, ⟨3/2,3/2,1/2⟩] ∧
    (vicinity t ⟨1/2,1/2,0⟩ 1).Perm [⟨1/2,1/2,1/2⟩] := by
  have r0 : Reach (1/2) cube2 1 (fresh cube2) [] := .init 1 one_pos (by norm_num [Sorted, cube2])
  obtain ⟨n1, hn1⟩ := (C31_accept (by norm_num) r0 ⟨1/2,1/2,1/2⟩).2 (by norm_num [cube2])
  obtain ⟨t1, ht1, -⟩ := hn1 (n1 + 1) (by omega)
  have r1 := Reach.add _ _ r0 ht1
  obtain ⟨n2, hn2⟩ := (C31_accept (by norm_num) r1 ⟨3/2,3/2,1/2⟩).2 (by norm_num [cube2])
  obtain ⟨t2, ht2, -⟩ := hn2 (n2 + 1) (by omega)
  have r2 := Reach.add _ _ r1 ht2
  refine ⟨t2, r2, ?_⟩
  refine (C33_vicinity_partial r2 (by
    intro q hq
    simp only [List.nil_append, List.cons_append, List.mem_cons, List.not_mem_nil, or_false] at hq
    rcases hq with rfl | rfl <;> norm_num [cube2]) ⟨1/2,1/2,0⟩ 1 zero_le_one).trans ?_
  have a : Spec.ed ⟨1/2,1/2,0⟩ ⟨1/2,1/2,1/2⟩ < 1 :=
    (sqd_lt_iff zero_le_one).1 (by norm_num [Spec.sqd])
  have b : ¬ Spec.ed ⟨1/2,1/2,0⟩ ⟨3/2,3/2,1/2⟩ < 1 := fun h => by
    have := (sqd_lt_iff zero_le_one).2 h
    norm_num [Spec.sqd] at this
  simp only [List.nil_append, List.cons_append, List.filter_cons, List.filter_nil, a, b, decide_true, decide_false]
  exact List.Perm.refl _

end
end Zeo
