import Verif.Model.OBB
import Verif.Spec.OBB
import Verif.Lemmas.Caliper
import Verif.Props.C63Near
import Verif.Props.C69

/-! # Lemmas for C70 -/

namespace Zeo.OBB
open Spec Caliper Hull2D
noncomputable section
open Classical

/-! ## Minima and maxima of the loops -/

private theorem depth_fold (ph : PH ℝ) (f : Face ℝ) : ∀ (L : List ℕ) (l : ℝ),
    let r := L.foldl (fun l j =>
      let ls := -(ph.tri f).distFromPointToPlane (ph.vert j)
      if ls > l then ls else l) l
    l ≤ r ∧ (∀ j ∈ L, -(ph.tri f).distFromPointToPlane (ph.vert j) ≤ r) ∧
      (r = l ∨ ∃ j ∈ L, r = -(ph.tri f).distFromPointToPlane (ph.vert j))
  | [], l => by simp
  | j :: L, l => by
    have ih := depth_fold ph f L (if -(ph.tri f).distFromPointToPlane (ph.vert j) > l then
      -(ph.tri f).distFromPointToPlane (ph.vert j) else l)
    dsimp only at ih ⊢
    rw [List.foldl_cons]
    obtain ⟨h1, h2, h3⟩ := ih
    have hl : l ≤ (if -(ph.tri f).distFromPointToPlane (ph.vert j) > l then
        -(ph.tri f).distFromPointToPlane (ph.vert j) else l) ∧ -(ph.tri f).distFromPointToPlane (ph.vert j) ≤
        (if -(ph.tri f).distFromPointToPlane (ph.vert j) > l then
        -(ph.tri f).distFromPointToPlane (ph.vert j) else l) := by
      split
      · rename_i h; exact ⟨h.le, le_rfl⟩
      · rename_i h; exact ⟨le_rfl, not_lt.1 h⟩
    refine ⟨hl.1.trans h1, fun i hi => ?_, ?_⟩
    · rcases List.mem_cons.1 hi with rfl | hi
      · exact hl.2.trans h1
      · exact h2 i hi
    · rcases h3 with h3 | ⟨i, hi, h3⟩
      · rw [h3]
        split
        · exact Or.inr ⟨j, List.mem_cons_self, rfl⟩
        · exact Or.inl rfl
      · exact Or.inr ⟨i, List.mem_cons_of_mem _ hi, h3⟩

theorem depth_spec (ph : PH ℝ) (f : Face ℝ) : 0 ≤ depth ph f ∧
    (∀ j < ph.nv, -(ph.tri f).distFromPointToPlane (ph.vert j) ≤ depth ph f) ∧
    (depth ph f = 0 ∨ ∃ j < ph.nv, depth ph f = -(ph.tri f).distFromPointToPlane (ph.vert j)) := by
  have := depth_fold ph f (List.range ph.nv) 0
  dsimp only at this
  simpa only [List.mem_range, depth] using this

private theorem min_fold (ph : PH ℝ) : ∀ (L : List (Face ℝ)) (b : Face ℝ),
    ∃ b', L.foldl (minStep ph) (some (b, depth ph b)) = some (b', depth ph b') ∧ (b' = b ∨ b' ∈ L) ∧
      depth ph b' ≤ depth ph b ∧ ∀ f ∈ L, depth ph b' ≤ depth ph f
  | [], b => ⟨b, rfl, Or.inl rfl, le_rfl, by simp⟩
  | f :: L, b => by
    rw [List.foldl_cons]
    simp only [minStep]
    split
    · rename_i h
      obtain ⟨b', e, h1, h2, h3⟩ := min_fold ph L f
      refine ⟨b', e, Or.inr (by rcases h1 with rfl | h1 <;> simp [*]), h2.trans h.le, fun g hg => ?_⟩
      rcases List.mem_cons.1 hg with rfl | hg
      · exact h2
      · exact h3 g hg
    · rename_i h
      obtain ⟨b', e, h1, h2, h3⟩ := min_fold ph L b
      refine ⟨b', e, by rcases h1 with rfl | h1 <;> simp [*], h2, fun g hg => ?_⟩
      rcases List.mem_cons.1 hg with rfl | hg
      · exact h2.trans (not_lt.1 h)
      · exact h3 g hg

theorem minDir_spec {ph : PH ℝ} (h : ph.face ≠ []) : ∃ b ∈ ph.face, minDir ph = some (b, depth ph b) ∧
    ∀ f ∈ ph.face, depth ph b ≤ depth ph f := by
  unfold minDir
  cases e : ph.face with
  | nil => exact absurd e h
  | cons f L =>
    obtain ⟨b, e, h1, h2, h3⟩ := min_fold ph L f
    refine ⟨b, by rcases h1 with rfl | h1 <;> simp [*], e, fun g hg => ?_⟩
    rcases List.mem_cons.1 hg with rfl | hg
    · exact h2
    · exact h3 g hg

private theorem range_fold (d : Vec3 ℝ) : ∀ (L : List (Vec3 ℝ)) (m : ℝ × ℝ), m.1 ≤ m.2 →
    let r := L.foldl (fun m v => (if d.inner v < m.1 then d.inner v else m.1, if d.inner v > m.2 then d.inner v else m.2)) m
    (r.1 ≤ m.1 ∧ m.2 ≤ r.2) ∧ (∀ v ∈ L, r.1 ≤ d.inner v ∧ d.inner v ≤ r.2) ∧
      (r.1 = m.1 ∨ ∃ v ∈ L, r.1 = d.inner v) ∧ (r.2 = m.2 ∨ ∃ v ∈ L, r.2 = d.inner v)
  | [], m, _ => by simp
  | v :: L, m, hm => by
    have hx : (if d.inner v < m.1 then d.inner v else m.1) ≤ d.inner v ∧
        (if d.inner v < m.1 then d.inner v else m.1) ≤ m.1 := by
      split
      · rename_i h; exact ⟨le_rfl, h.le⟩
      · rename_i h; exact ⟨not_lt.1 h, le_rfl⟩
    have hy : d.inner v ≤ (if d.inner v > m.2 then d.inner v else m.2) ∧
        m.2 ≤ (if d.inner v > m.2 then d.inner v else m.2) := by
      split
      · rename_i h; exact ⟨le_rfl, h.le⟩
      · rename_i h; exact ⟨not_lt.1 h, le_rfl⟩
    have ih := range_fold d L (if d.inner v < m.1 then d.inner v else m.1, if d.inner v > m.2 then d.inner v else m.2)
      (hx.2.trans (hm.trans hy.2))
    dsimp only at ih ⊢
    rw [List.foldl_cons]
    obtain ⟨⟨h1, h2⟩, h3, h4, h5⟩ := ih
    refine ⟨⟨h1.trans hx.2, hy.2.trans h2⟩, fun w hw => ?_, ?_, ?_⟩
    · rcases List.mem_cons.1 hw with rfl | hw
      · exact ⟨h1.trans hx.1, hy.1.trans h2⟩
      · exact h3 w hw
    · rcases h4 with h4 | ⟨w, hw, h4⟩
      · rw [h4]
        split
        · exact Or.inr ⟨v, List.mem_cons_self, rfl⟩
        · exact Or.inl rfl
      · exact Or.inr ⟨w, List.mem_cons_of_mem _ hw, h4⟩
    · rcases h5 with h5 | ⟨w, hw, h5⟩
      · rw [h5]
        split
        · exact Or.inr ⟨v, List.mem_cons_self, rfl⟩
        · exact Or.inl rfl
      · exact Or.inr ⟨w, List.mem_cons_of_mem _ hw, h5⟩

theorem range_spec (d : Vec3 ℝ) {t : Vec3 ℝ} {l : List (Vec3 ℝ)} (ht : t ∈ l) :
    ∃ a ∈ l, ∃ b ∈ l, (∀ v ∈ l, dot d a ≤ dot d v ∧ dot d v ≤ dot d b) ∧ range d t l = (dot d a, dot d b) := by
  have := range_fold d l (d.inner t, d.inner t) le_rfl
  dsimp only at this
  rw [← show range d t l = List.foldl (fun (m : ℝ × ℝ) v => (if d.inner v < m.1 then d.inner v else m.1,
    if d.inner v > m.2 then d.inner v else m.2)) (d.inner t, d.inner t) l from rfl] at this
  obtain ⟨-, h1, h2, h3⟩ := this
  obtain ⟨a, ha, e1⟩ : ∃ a ∈ l, (range d t l).1 = d.inner a := by
    rcases h2 with h2 | h2
    · exact ⟨t, ht, h2⟩
    · exact h2
  obtain ⟨b, hb, e2⟩ : ∃ b ∈ l, (range d t l).2 = d.inner b := by
    rcases h3 with h3 | h3
    · exact ⟨t, ht, h3⟩
    · exact h3
  refine ⟨a, ha, b, hb, fun v hv => ?_, Prod.ext e1 e2⟩
  have := h1 v hv
  change (range d t l).1 ≤ d.inner v ∧ d.inner v ≤ (range d t l).2 at this
  rw [e1, e2] at this
  exact this

/-- The rectangle of an edge. -/
def rectOf (τ : ℝ) (z t : Vec3 ℝ) (rim : List (Vec3 ℝ)) (vp : Vec3 ℝ × Vec3 ℝ) : Rect :=
  rect t rim (((vp.1.sub vp.2).normalize τ (vp.1.sub vp.2)).2)
    (((z.outer (vp.1.sub vp.2)).normalize τ (z.outer (vp.1.sub vp.2))).2)

private theorem max_fold (τ : ℝ) (z t : Vec3 ℝ) (rim : List (Vec3 ℝ)) : ∀ (L : List (Vec3 ℝ × Vec3 ℝ)) (s : Rect),
    ∃ s', L.foldl (maxStep τ z t rim) (some s) = some s' ∧ (s' = s ∨ ∃ e ∈ L, s' = rectOf τ z t rim e) ∧
      s'.l1 * s'.l2 ≤ s.l1 * s.l2 ∧ ∀ e ∈ L, s'.l1 * s'.l2 ≤ (rectOf τ z t rim e).l1 * (rectOf τ z t rim e).l2
  | [], s => ⟨s, rfl, Or.inl rfl, le_rfl, by simp⟩
  | e :: L, s => by
    rw [List.foldl_cons]
    have hstep : maxStep τ z t rim (some s) e = if (rectOf τ z t rim e).l1 * (rectOf τ z t rim e).l2 < s.l1 * s.l2 then
      some (rectOf τ z t rim e) else some s := rfl
    rw [hstep]
    split
    · rename_i h
      obtain ⟨s', h0, h1, h2, h3⟩ := max_fold τ z t rim L (rectOf τ z t rim e)
      refine ⟨s', h0, Or.inr ?_, h2.trans h.le, fun g hg => ?_⟩
      · rcases h1 with rfl | ⟨g, hg, h1⟩
        · exact ⟨e, List.mem_cons_self, rfl⟩
        · exact ⟨g, List.mem_cons_of_mem _ hg, h1⟩
      · rcases List.mem_cons.1 hg with rfl | hg
        · exact h2
        · exact h3 g hg
    · rename_i h
      obtain ⟨s', h0, h1, h2, h3⟩ := max_fold τ z t rim L s
      refine ⟨s', h0, ?_, h2, fun g hg => ?_⟩
      · rcases h1 with rfl | ⟨g, hg, h1⟩
        · exact Or.inl rfl
        · exact Or.inr ⟨g, List.mem_cons_of_mem _ hg, h1⟩
      · rcases List.mem_cons.1 hg with rfl | hg
        · exact h2.trans (not_lt.1 h)
        · exact h3 g hg

theorem maxLoop_spec (τ : ℝ) (z : Vec3 ℝ) {rim : List (Vec3 ℝ)} (h : rim ≠ []) : ∃ t ∈ rim, ∃ e ∈ Spec.edges rim,
    maxLoop τ z rim = some (rectOf τ z t rim e) ∧ ∀ f ∈ Spec.edges rim,
      (rectOf τ z t rim e).l1 * (rectOf τ z t rim e).l2 ≤ (rectOf τ z t rim f).l1 * (rectOf τ z t rim f).l2 := by
  cases hr : rim with
  | nil => exact absurd hr h
  | cons t l =>
    obtain ⟨y, hy⟩ : ∃ y, (t :: l).getLast? = some y := by
      cases hg : (t :: l).getLast? with
      | none => simp at hg
      | some y => exact ⟨y, rfl⟩
    have hE : Spec.edges (t :: l) = (y :: t :: l).zip (t :: l) := by unfold Spec.edges; rw [hy]
    have hM : maxLoop τ z (t :: l) = ((y :: t :: l).zip (t :: l)).foldl (maxStep τ z t (t :: l)) none := by
      unfold maxLoop; rw [hy]
    rw [hM, hE]
    simp only [List.zip_cons_cons, List.foldl_cons]
    obtain ⟨s', h0, h1, h2, h3⟩ := max_fold τ z t (t :: l) ((t :: l).zip l) (rectOf τ z t (t :: l) (y, t))
    have hstep : maxStep τ z t (t :: l) none (y, t) = some (rectOf τ z t (t :: l) (y, t)) := rfl
    rw [hstep, h0]
    have hall : ∀ f ∈ (y, t) :: (t :: l).zip l, s'.l1 * s'.l2 ≤ (rectOf τ z t (t :: l) f).l1 * (rectOf τ z t (t :: l) f).l2 := by
      intro f hf
      rcases List.mem_cons.1 hf with rfl | hf
      · exact h2
      · exact h3 f hf
    rcases h1 with rfl | ⟨e, he, rfl⟩
    · exact ⟨t, List.mem_cons_self, _, List.mem_cons_self, rfl, hall⟩
    · exact ⟨t, List.mem_cons_self, e, List.mem_cons_of_mem _ he, rfl, hall⟩

end
end Zeo.OBB
