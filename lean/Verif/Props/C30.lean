import Verif.Props.C29

/-! # C30: kd-tree vicinity search equals exhaustive filtering -/

namespace Zeo
noncomputable section
open Classical Kd

/-- The points of a subtree whose squared distance is below `r2`. -/
def Kd.hits (p : Vec3 ℝ) (r2 : ℝ) (t : Kd) : List (Vec3 ℝ) :=
  (t.contents.map Prod.snd).filter (fun q => decide (Spec.sqd p q < r2))

theorem hits_node (p r2 n i s q reg c0 c1) : (node n i s q reg c0 c1).hits p r2 =
    (if Spec.sqd p q < r2 then [q] else []) ++ (c0.hits p r2 ++ c1.hits p r2) := by
  unfold Kd.hits
  simp only [contents, List.map_cons, List.map_append, List.filter_cons, List.filter_append,
    decide_eq_true_eq]
  split_ifs <;> simp

theorem vicTest_eq (p r2 q acc) :
    vicTest p r2 q acc = acc ++ (if Spec.sqd p q < r2 then [q] else []) := by
  unfold vicTest; rw [sqrDist_eq_sqd]; split_ifs <;> simp

theorem hits_of_far {p : Vec3 ℝ} {r2 : ℝ} {c : Kd} {reg s} (hw : c.WellFormed reg s)
    (h : ¬ near p r2 c) : c.hits p r2 = [] := by
  cases c with
  | nil => rfl
  | node n i s' q reg' c0 c1 =>
    have hr : reg' = reg := hw.1
    subst hr
    have hn : ¬ reg'.sqrDist p < r2 := h
    unfold Kd.hits
    rw [List.filter_eq_nil_iff]
    intro x hx
    obtain ⟨y, hy, rfl⟩ := List.mem_map.1 hx
    have := Region.sqrDist_le (hw.has y hy) p
    simp only [decide_eq_true_eq, not_lt]
    linarith [not_lt.1 hn]

theorem vicOpp_perm (p : Vec3 ℝ) (r2 : ℝ) (t : Kd) : ∀ (reg : Region) (s : Fin 3) acc,
    t.WellFormed reg s → (vicOpp p r2 t acc).Perm (acc ++ t.hits p r2) := by
  induction t with
  | nil => intro _ _ acc _; simp [vicOpp, Kd.hits, contents]
  | node n i s q reg c0 c1 ih0 ih1 =>
    intro reg' s' acc hw
    obtain ⟨rfl, rfl, -, -, -, -, hw0, hw1⟩ := hw
    unfold vicOpp
    rw [hits_node, vicTest_eq]
    have h0 : ∀ a, (if near p r2 c0 then vicOpp p r2 c0 a else a).Perm (a ++ c0.hits p r2) := by
      intro a; split_ifs with h
      · exact ih0 _ _ a hw0
      · rw [hits_of_far hw0 h]; simp
    have h1 : ∀ a, (if near p r2 c1 then vicOpp p r2 c1 a else a).Perm (a ++ c1.hits p r2) := by
      intro a; split_ifs with h
      · exact ih1 _ _ a hw1
      · rw [hits_of_far hw1 h]; simp
    refine (h1 _).trans ?_
    refine ((h0 _).append_right _).trans ?_
    simp [List.append_assoc]

theorem vicRec_perm (p : Vec3 ℝ) (r2 : ℝ) (t : Kd) : ∀ (reg : Region) (s : Fin 3) acc,
    t.WellFormed reg s → (vicRec p r2 t acc).Perm (acc ++ t.hits p r2) := by
  induction t with
  | nil => intro _ _ acc _; simp [vicRec, Kd.hits, contents]
  | node n i s q reg c0 c1 ih0 ih1 =>
    intro reg' s' acc hw
    obtain ⟨rfl, rfl, -, -, -, -, hw0, hw1⟩ := hw
    have o0 : ∀ a, (if near p r2 c0 then vicOpp p r2 c0 a else a).Perm (a ++ c0.hits p r2) := by
      intro a; split_ifs with h
      · exact vicOpp_perm p r2 c0 _ _ a hw0
      · rw [hits_of_far hw0 h]; simp
    have o1 : ∀ a, (if near p r2 c1 then vicOpp p r2 c1 a else a).Perm (a ++ c1.hits p r2) := by
      intro a; split_ifs with h
      · exact vicOpp_perm p r2 c1 _ _ a hw1
      · rw [hits_of_far hw1 h]; simp
    unfold vicRec
    rw [hits_node]
    simp only [vicTest_eq]
    generalize (if Spec.sqd p q < r2 then [q] else []) = Q
    by_cases hb : p.e s ≥ q.e s
    · rw [if_pos hb]
      refine (o1 _).trans ?_
      refine (((ih0 _ _ acc hw0).append_right _).append_right _).trans ?_
      simp only [List.append_assoc]
      refine List.Perm.append_left _ ?_
      rw [← List.append_assoc, ← List.append_assoc]
      exact List.Perm.append_right _ List.perm_append_comm
    · rw [if_neg hb]
      refine (o0 _).trans ?_
      refine (((ih1 _ _ acc hw1).append_right _).append_right _).trans ?_
      simp only [List.append_assoc]
      refine List.Perm.append_left _ ?_
      refine List.perm_append_comm.trans ?_
      simp only [List.append_assoc]
      exact List.Perm.refl _

theorem sqd_lt_sq_iff (p q : Vec3 ℝ) (r : ℝ) : Spec.sqd p q < r * r ↔ Spec.ed p q < |r| := by
  rw [← ed_sq, ← abs_mul_abs_self r]
  exact (mul_self_lt_mul_self_iff (ed_nonneg' p q) (abs_nonneg r)).symm

/-- For every sequence of insertions (with repetitions counted) the search returns exactly the inserted
points at distance less than the radius. -/
theorem C30_vicinity (ps : List (Vec3 ℝ)) (p : Vec3 ℝ) (r : ℝ) (hr : 0 ≤ r) :
    ((build ps).vicinity p r).Perm (ps.filter (fun q => decide (Spec.ed p q < r))) := by
  refine (vicRec_perm p (r * r) (build ps) _ _ [] (wf_build ps)).trans ?_
  rw [List.nil_append]
  unfold Kd.hits
  have : (fun q => decide (Spec.sqd p q < r * r)) = (fun q => decide (Spec.ed p q < r)) := by
    funext q; rw [decide_eq_decide, sqd_lt_sq_iff, abs_of_nonneg hr]
  rw [this]
  exact (points_build ps).filter _

/-- A negative radius is taken by its absolute value: the search is not empty as one might expect. -/
theorem C30_vicinity_neg (ps : List (Vec3 ℝ)) (p : Vec3 ℝ) (r : ℝ) :
    (build ps).vicinity p (-r) = (build ps).vicinity p r := by
  unfold vicinity; rw [neg_mul_neg]

/-- Membership form. -/
theorem C30_mem (ps : List (Vec3 ℝ)) (p q : Vec3 ℝ) (r : ℝ) (hr : 0 ≤ r) :
    q ∈ (build ps).vicinity p r ↔ q ∈ ps ∧ Spec.ed p q < r := by
  rw [(C30_vicinity ps p r hr).mem_iff, List.mem_filter, decide_eq_true_eq]

/-- The inequality is strict, and a repeated point is reported as often as it was inserted. -/
example : ((build [⟨0,0,0⟩, ⟨1,0,0⟩, ⟨0,0,0⟩]).vicinity ⟨0,0,0⟩ 1).Perm [⟨0,0,0⟩, ⟨0,0,0⟩] := by
  refine (C30_vicinity _ _ _ zero_le_one).trans ?_
  simp [Spec.ed, Spec.sqd]

end
end Zeo
