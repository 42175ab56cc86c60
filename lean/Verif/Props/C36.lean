import Verif.Props.C35
import Verif.Spec.Geometry

/-! # C36: exhaustive nearest neighbour, vicinity and support map of point sets -/

namespace Zeo
namespace Data
noncomputable section
open Classical
variable {α : Type*}

theorem nn_fold (sq : α → ℝ) (x : α) (xs : List α) :
    ∀ w ∈ [x], ∃ v, (xs.foldl (nnStep sq) (some (w, sq w))) = some (v, sq v) ∧
      v ∈ w :: xs ∧ ∀ q ∈ w :: xs, sq v ≤ sq q := by
  suffices h : ∀ (xs : List α) w, ∃ v, (xs.foldl (nnStep sq) (some (w, sq w))) = some (v, sq v) ∧
      v ∈ w :: xs ∧ ∀ q ∈ w :: xs, sq v ≤ sq q by
    intro w _; exact h xs w
  intro xs
  induction xs with
  | nil => intro w; exact ⟨w, rfl, by simp, by simp⟩
  | cons x xs ih =>
    intro w
    rw [List.foldl_cons]
    dsimp only [nnStep]
    split_ifs with h
    · obtain ⟨v, h1, h2, h3⟩ := ih x
      refine ⟨v, h1, List.mem_cons_of_mem _ h2, ?_⟩
      intro q hq
      rcases List.mem_cons.1 hq with rfl | hq
      · exact (h3 x (by simp)).trans h.le
      · exact h3 q hq
    · obtain ⟨v, h1, h2, h3⟩ := ih w
      refine ⟨v, h1, ?_, ?_⟩
      · rcases List.mem_cons.1 h2 with rfl | h2
        · simp
        · exact List.mem_cons_of_mem _ (List.mem_cons_of_mem _ h2)
      · intro q hq
        rcases List.mem_cons.1 hq with rfl | hq
        · exact h3 _ (by simp)
        · rcases List.mem_cons.1 hq with rfl | hq
          · exact (h3 w (by simp)).trans (not_lt.1 h)
          · exact h3 q (List.mem_cons_of_mem _ hq)

theorem nnWith_spec (sq : α → ℝ) {d : Data α} (h : d.WF) :
    (d.contents = [] ∧ d.nnWith sq = none) ∨
    ∃ v, d.nnWith sq = some (v, Real.sqrt (sq v)) ∧ v ∈ d.contents ∧ ∀ q ∈ d.contents, sq v ≤ sq q := by
  unfold nnWith
  by_cases he : d.isEmpty = true
  · exact Or.inl ⟨(isEmpty_iff h).1 he, if_pos he⟩
  · right
    rw [if_neg he, (h.forEach _ _).1]
    have hne : d.contents ≠ [] := fun hc => he ((isEmpty_iff h).2 hc)
    revert hne
    generalize d.contents = xs
    intro hne
    cases xs with
    | nil => exact absurd rfl hne
    | cons x xs =>
      obtain ⟨v, h1, h2, h3⟩ := nn_fold sq x xs x (by simp)
      refine ⟨v, ?_, h2, h3⟩
      rw [List.foldl_cons]
      show Option.map _ (List.foldl (nnStep sq) (some (x, sq x)) xs) = _
      rw [h1]; rfl

theorem vicinityWith_spec (sq : α → ℝ) (r : ℝ) {d : Data α} (h : d.WF) :
    d.vicinityWith sq r = d.contents.filter (fun v => decide (sq v < r * r)) := by
  unfold vicinityWith
  rw [(h.forEach _ _).1]
  have key : ∀ (xs acc : List α), xs.foldl (fun l v => if sq v < r * r then l ++ [v] else l) acc =
      acc ++ xs.filter (fun v => decide (sq v < r * r)) := by
    intro xs
    induction xs with
    | nil => intro acc; simp
    | cons x xs ih =>
      intro acc
      rw [List.foldl_cons, ih]
      by_cases hx : sq x < r * r
      · rw [if_pos hx, List.filter_cons_of_pos (by simpa using hx)]; simp
      · rw [if_neg hx, List.filter_cons_of_neg (by simpa using hx)]
  rw [key]; rfl

theorem support_fold (ip : α → ℝ) : ∀ (xs : List α) (w : α),
    ∃ v, xs.foldl (fun (s : α × ℝ) v => if ip v > s.2 then (v, ip v) else s) (w, ip w) = (v, ip v) ∧
      v ∈ w :: xs ∧ ∀ q ∈ w :: xs, ip q ≤ ip v := by
  intro xs
  induction xs with
  | nil => intro w; exact ⟨w, rfl, by simp, by simp⟩
  | cons x xs ih =>
    intro w
    rw [List.foldl_cons]
    dsimp only
    split_ifs with h
    · obtain ⟨v, h1, h2, h3⟩ := ih x
      refine ⟨v, h1, List.mem_cons_of_mem _ h2, ?_⟩
      intro q hq
      rcases List.mem_cons.1 hq with rfl | hq
      · exact h.le.trans (h3 x (by simp))
      · exact h3 q hq
    · obtain ⟨v, h1, h2, h3⟩ := ih w
      refine ⟨v, h1, ?_, ?_⟩
      · rcases List.mem_cons.1 h2 with rfl | h2
        · simp
        · exact List.mem_cons_of_mem _ (List.mem_cons_of_mem _ h2)
      · intro q hq
        rcases List.mem_cons.1 hq with rfl | hq
        · exact h3 _ (by simp)
        · rcases List.mem_cons.1 hq with rfl | hq
          · exact (not_lt.1 h).trans (h3 w (by simp))
          · exact h3 q (List.mem_cons_of_mem _ hq)

theorem supportWith_spec (ip : α → ℝ) {d : Data α} (h : d.WF) :
    (d.contents = [] ∧ d.supportWith ip = none) ∨
    ∃ v, d.supportWith ip = some v ∧ v ∈ d.contents ∧ ∀ q ∈ d.contents, ip q ≤ ip v := by
  unfold supportWith
  by_cases he : d.isEmpty = true
  · exact Or.inl ⟨(isEmpty_iff h).1 he, if_pos he⟩
  · right
    rw [if_neg he]
    obtain ⟨r1, r2, r3⟩ := h.rewind
    obtain ⟨f1, f2, f3, f4, f5⟩ := r1.fetch
    have hne : d.contents ≠ [] := fun hc => he ((isEmpty_iff h).2 hc)
    rcases hf : d.rewind.fetch with ⟨_ | sp, d'⟩
    · rw [hf] at f3
      rw [r2, r3] at f3
      exact absurd (List.getElem?_eq_none_iff.1 f3.symm) (by
        have := List.length_pos_iff.2 hne; omega)
    · rw [hf] at f1 f2 f3 f4
      dsimp only at f1 f2 f3 f4 ⊢
      rw [r2] at f2 f3 f4
      rw [r3] at f3 f4
      rw [(f1.loop _ (d.size + 1) _ (by rw [f2, size_eq h]; omega)).1, f2, f4]
      revert hne f3
      generalize d.contents = xs
      intro hne f3
      cases xs with
      | nil => exact absurd rfl hne
      | cons x xs =>
        have f3 : sp = x := Option.some.inj f3
        subst f3
        obtain ⟨v, h1, h2, h3⟩ := support_fold ip xs sp
        refine ⟨v, ?_, h2, h3⟩
        have hm : min (0 + 1) (sp :: xs).length = 1 := by simp
        rw [hm, List.drop_one, List.tail_cons, h1]

end
end Data

noncomputable section
open Data

theorem sqrDist_sqd (p v : Vec3 ℝ) : v.sqrDist p = Spec.sqd p v := by
  simp only [Vec3.sqrDist, Vec3.sub, Vec3.sqrNorm, Vec3.inner, Spec.sqd]; ring
theorem sqrDist_sqd2 (p v : Vec2 ℝ) : v.sqrDist p = Spec.sqd2 p v := by
  simp only [Vec2.sqrDist, Vec2.sub, Vec2.sqrNorm, Vec2.inner, Spec.sqd2]; ring

/-- `zVec3DDataNN`: for every well-formed point set showing `xs`, an empty set is reported as such, and
otherwise the result is a point of the set with no nearer one, with its Euclidean distance. -/
theorem C36_nn (d : Data (Vec3 ℝ)) (h : d.WF) (xs : List (Vec3 ℝ)) (hx : d.Shows xs) (p : Vec3 ℝ) :
    (xs = [] ∧ d.nn3 p = none) ∨
    ∃ v, d.nn3 p = some (v, Spec.ed p v) ∧ Spec.IsNearest {q | q ∈ xs} p v := by
  have e := C35_shows_unique d _ _ hx h.shows
  subst e
  rcases nnWith_spec (fun v => v.sqrDist p) h with ⟨h1, h2⟩ | ⟨v, h1, h2, h3⟩
  · exact Or.inl ⟨h1, h2⟩
  · refine Or.inr ⟨v, ?_, h2, ?_⟩
    · unfold nn3; rw [h1]
      simp only [sqrDist_sqd, Spec.ed]
    · intro q hq
      have := h3 q hq
      simpa only [sqrDist_sqd] using this

/-- `zVec2DDataNN`. -/
theorem C36_nn2D (d : Data (Vec2 ℝ)) (h : d.WF) (xs : List (Vec2 ℝ)) (hx : d.Shows xs) (p : Vec2 ℝ) :
    (xs = [] ∧ d.nn2 p = none) ∨
    ∃ v, d.nn2 p = some (v, Spec.ed2 p v) ∧ Spec.IsNearest2 {q | q ∈ xs} p v := by
  have e := C35_shows_unique d _ _ hx h.shows
  subst e
  rcases nnWith_spec (fun v => v.sqrDist p) h with ⟨h1, h2⟩ | ⟨v, h1, h2, h3⟩
  · exact Or.inl ⟨h1, h2⟩
  · refine Or.inr ⟨v, ?_, h2, ?_⟩
    · unfold nn2; rw [h1]
      simp only [sqrDist_sqd2, Spec.ed2]
    · intro q hq
      have := h3 q hq
      simpa only [sqrDist_sqd2] using this

theorem sqd_pos3 (p v : Vec3 ℝ) : 0 ≤ Spec.sqd p v := by unfold Spec.sqd; positivity
theorem sqd_pos2 (p v : Vec2 ℝ) : 0 ≤ Spec.sqd2 p v := by unfold Spec.sqd2; positivity

theorem sqrt_lt_abs (x r : ℝ) (hx : 0 ≤ x) : x < r * r ↔ Real.sqrt x < |r| := by
  rw [← Real.sqrt_mul_self_eq_abs r, Real.sqrt_lt_sqrt_iff hx]

/-- `zVec3DDataVicinity`: for a non-negative radius, exactly the points strictly closer than the radius, in
order and with multiplicity; in general the absolute value of the radius is taken. -/
theorem C36_vicinity (d : Data (Vec3 ℝ)) (h : d.WF) (xs : List (Vec3 ℝ)) (hx : d.Shows xs) (p : Vec3 ℝ)
    (r : ℝ) :
    open Classical in d.vicinity3 p r = xs.filter (fun v => decide (Spec.ed p v < |r|)) ∧
      (0 ≤ r → d.vicinity3 p r = xs.filter (fun v => decide (Spec.ed p v < r))) := by
  classical
  have e := C35_shows_unique d _ _ hx h.shows
  subst e
  have key : open Classical in d.vicinity3 p r = d.contents.filter (fun v => decide (Spec.ed p v < |r|)) := by
    unfold vicinity3
    rw [vicinityWith_spec _ _ h]
    apply List.filter_congr
    intro v _
    have : (v.sqrDist p < r * r) ↔ Spec.ed p v < |r| := by
      rw [sqrDist_sqd, Spec.ed]; exact sqrt_lt_abs _ _ (sqd_pos3 p v)
    simp only [this]
  refine ⟨key, fun hr => ?_⟩
  rw [key, abs_of_nonneg hr]

/-- `zVec2DDataVicinity`: for a non-negative radius, exactly the points strictly closer than the radius, in
order and with multiplicity; in general the absolute value of the radius is taken. -/
theorem C36_vicinity2D (d : Data (Vec2 ℝ)) (h : d.WF) (xs : List (Vec2 ℝ)) (hx : d.Shows xs) (p : Vec2 ℝ)
    (r : ℝ) :
    open Classical in d.vicinity2 p r = xs.filter (fun v => decide (Spec.ed2 p v < |r|)) ∧
      (0 ≤ r → d.vicinity2 p r = xs.filter (fun v => decide (Spec.ed2 p v < r))) := by
  classical
  have e := C35_shows_unique d _ _ hx h.shows
  subst e
  have key : open Classical in d.vicinity2 p r = d.contents.filter (fun v => decide (Spec.ed2 p v < |r|)) := by
    unfold vicinity2
    rw [vicinityWith_spec _ _ h]
    apply List.filter_congr
    intro v _
    have : (v.sqrDist p < r * r) ↔ Spec.ed2 p v < |r| := by
      rw [sqrDist_sqd2, Spec.ed2]; exact sqrt_lt_abs _ _ (sqd_pos2 p v)
    simp only [this]
  refine ⟨key, fun hr => ?_⟩
  rw [key, abs_of_nonneg hr]

/-- `zVec3DDataSupportMap`: NULL for the empty set, otherwise a point of the set that maximises the inner
product with the direction. -/
theorem C36_supportMap (d : Data (Vec3 ℝ)) (h : d.WF) (xs : List (Vec3 ℝ)) (hx : d.Shows xs) (dir : Vec3 ℝ) :
    (xs = [] ∧ d.support3 dir = none) ∨
    ∃ v, d.support3 dir = some v ∧ v ∈ xs ∧
      ∀ q ∈ xs, q.x * dir.x + q.y * dir.y + q.z * dir.z ≤ v.x * dir.x + v.y * dir.y + v.z * dir.z := by
  have e := C35_shows_unique d _ _ hx h.shows
  subst e
  exact supportWith_spec (fun v => v.inner dir) h

/-- `zVec2DDataSupportMap`: NULL for the empty set, otherwise a point of the set that maximises the inner
product with the direction. -/
theorem C36_supportMap2D (d : Data (Vec2 ℝ)) (h : d.WF) (xs : List (Vec2 ℝ)) (hx : d.Shows xs) (dir : Vec2 ℝ) :
    (xs = [] ∧ d.support2 dir = none) ∨
    ∃ v, d.support2 dir = some v ∧ v ∈ xs ∧
      ∀ q ∈ xs, q.x * dir.x + q.y * dir.y ≤ v.x * dir.x + v.y * dir.y := by
  have e := C35_shows_unique d _ _ hx h.shows
  subst e
  exact supportWith_spec (fun v => v.inner dir) h

/-- The hypotheses hold of every point set made by the constructors and any history: e.g. a list with three
points, read in part. -/
example (a b c : Vec3 ℝ) : (run initList [.add a, .add b, .rewind, .fetch, .add c]).WF ∧
    (run initList [.add a, .add b, .rewind, .fetch, .add c]).Shows [a, b, c] :=
  ⟨initList_wf.run _, (C35_list _).1⟩

end
end Zeo
