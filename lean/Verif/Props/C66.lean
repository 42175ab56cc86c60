import Verif.Lemmas.BRepConv

/-! # C66: polyhedra and boundary representations

`zPH3D2BREP`, `zPH3D2BREPInBox`, `zBREP2PH3D`. -/

namespace Zeo
open Spec BRep

/-- The converted solid is a sound boundary representation without duplicate vertices or edges and without
unused ones.  Its faces are those of the polyhedron, in the same order and orientation, with each corner moved
by at most the tolerance per coordinate.  No point is invented. -/
theorem C66_sound {τ : ℝ} (hτ : 0 ≤ τ) (ph : PH ℝ) :
    Sound (ofPH τ ph) ∧ Distinct τ (ofPH τ ph) ∧ Used (ofPH τ ph) ∧
      List.Forall₂ (NearTri τ) ((ofPH τ ph).flist.map (corners (ofPH τ ph))) (facePts ph) ∧
      ∀ i ∈ (ofPH τ ph).vlist, ((ofPH τ ph).vert i).p ∈ cornerSet ph := by
  obtain ⟨h1, h2, h3, h4, h5⟩ := insertFaces_ok hτ ph ph.face
  refine ⟨h1, h2, h3, h4, fun i hi => ?_⟩
  obtain ⟨f, hf, h⟩ := h5 i hi
  exact ⟨(ph.vert f.i0, ph.vert f.i1, ph.vert f.i2), List.mem_map_of_mem hf, h⟩

private theorem forall₂_eq {α : Type*} {l m : List α} (h : List.Forall₂ (· = ·) l m) : l = m := List.forall₂_eq_eq_eq ▸ h

/-- When the corner points of the faces differ by more than the tolerance the conversion is exact. -/
theorem C66_exact {τ : ℝ} (hτ : 0 ≤ τ) (ph : PH ℝ) (h : Separated τ (cornerSet ph)) :
    (ofPH τ ph).flist.map (corners (ofPH τ ph)) = facePts ph := by
  obtain ⟨s, -, -, h4, h5⟩ := C66_sound hτ ph
  apply forall₂_eq
  have key : ∀ l m : List (Vec3 ℝ × Vec3 ℝ × Vec3 ℝ), List.Forall₂ (NearTri τ) l m →
      (∀ t ∈ l, t.1 ∈ cornerSet ph ∧ t.2.1 ∈ cornerSet ph ∧ t.2.2 ∈ cornerSet ph) →
      (∀ t ∈ m, t.1 ∈ cornerSet ph ∧ t.2.1 ∈ cornerSet ph ∧ t.2.2 ∈ cornerSet ph) → List.Forall₂ (· = ·) l m := by
    intro l m hlm
    induction hlm with
    | nil => intros; exact .nil
    | cons hab _ ih =>
      intro hl hm
      refine .cons ?_ (ih (fun t ht => hl t (by simp [ht])) fun t ht => hm t (by simp [ht]))
      have a := hl _ List.mem_cons_self
      have b := hm _ List.mem_cons_self
      exact Prod.ext (h _ a.1 _ b.1 hab.1) (Prod.ext (h _ a.2.1 _ b.2.1 hab.2.1) (h _ a.2.2 _ b.2.2 hab.2.2))
  refine key _ _ h4 ?_ ?_
  · intro t ht
    obtain ⟨f, hf, rfl⟩ := List.mem_map.1 ht
    exact ⟨h5 _ (s.corner f hf 0), h5 _ (s.corner f hf 1), h5 _ (s.corner f hf 2)⟩
  · intro t ht
    exact ⟨⟨t, ht, Or.inl rfl⟩, ⟨t, ht, Or.inr (Or.inl rfl)⟩, ⟨t, ht, Or.inr (Or.inr rfl)⟩⟩

private theorem map_meshEdges {α β : Type*} (g : α → β) (fs : List (α × α × α)) :
    meshEdges (fs.map fun f => (g f.1, g f.2.1, g f.2.2)) = (meshEdges fs).map (Prod.map g g) := by
  induction fs with
  | nil => rfl
  | cons f fs ih =>
    simp only [meshEdges, List.map_cons, List.flatMap_cons, List.map_append] at ih ⊢
    rw [ih]
    rfl

/-- A closed surface whose corner points differ by more than the tolerance becomes a closed mesh of vertex
cells: each directed edge between two cells is met as often as its reverse. -/
theorem C66_closed {τ : ℝ} (hτ : 0 ≤ τ) (ph : PH ℝ) (h : Separated τ (cornerSet ph)) (hc : Closed (facePts ph)) :
    Closed (cells (ofPH τ ph)) := by
  obtain ⟨s, p, -, -, -⟩ := C66_sound hτ ph
  set b := ofPH τ ph
  have e := C66_exact hτ ph h
  have e1 : facePts ph = (cells b).map fun f => ((b.vert f.1).p, (b.vert f.2.1).p, (b.vert f.2.2).p) := by
    rw [← e, cells, List.map_map]; rfl
  have inj : ∀ i ∈ b.vlist, ∀ j ∈ b.vlist, (b.vert i).p = (b.vert j).p → i = j := by
    intro i hi j hj hij
    exact p.verts i hi j hj (by rw [hij]; exact near_refl hτ _)
  have hm : ∀ x ∈ meshEdges (cells b), x.1 ∈ b.vlist ∧ x.2 ∈ b.vlist := by
    intro x hx
    simp only [meshEdges, cells, List.mem_flatMap, List.mem_map] at hx
    obtain ⟨-, ⟨f, hf, rfl⟩, hx⟩ := hx
    have := s.corner f hf
    simp only [triEdges, List.mem_cons, List.not_mem_nil, or_false] at hx
    rcases hx with rfl | rfl | rfl <;> exact ⟨this _, this _⟩
  unfold Closed at hc ⊢
  rw [e1, map_meshEdges (fun i => (b.vert i).p)] at hc
  have hsw : ((meshEdges (cells b)).map (Prod.map (fun i => (b.vert i).p) fun i => (b.vert i).p)).map Prod.swap =
      ((meshEdges (cells b)).map Prod.swap).map (Prod.map (fun i => (b.vert i).p) fun i => (b.vert i).p) := by
    rw [List.map_map, List.map_map]; rfl
  rw [hsw] at hc
  refine List.perm_iff_count.2 fun x => ?_
  by_cases hx : x.1 ∈ b.vlist ∧ x.2 ∈ b.vlist
  · have key : ∀ l : List (ℕ × ℕ), (∀ y ∈ l, y.1 ∈ b.vlist ∧ y.2 ∈ b.vlist) →
        l.countP (fun y => decide (Prod.map (fun i => (b.vert i).p) (fun i => (b.vert i).p) y =
          Prod.map (fun i => (b.vert i).p) (fun i => (b.vert i).p) x)) = l.count x := by
      intro l hl
      rw [List.count]
      refine List.countP_congr fun y hy => ?_
      simp only [decide_eq_true_eq, beq_iff_eq]
      constructor
      · intro h
        have := Prod.mk.inj h
        exact Prod.ext (inj _ (hl y hy).1 _ hx.1 this.1) (inj _ (hl y hy).2 _ hx.2 this.2)
      · rintro rfl; rfl
    rw [← key _ hm, ← key]
    · have := hc.countP_eq fun z => decide (z = Prod.map (fun i => (b.vert i).p) (fun i => (b.vert i).p) x)
      rw [List.countP_map, List.countP_map, List.countP_map] at this
      rw [List.countP_map]
      exact this
    · intro y hy
      obtain ⟨z, hz, rfl⟩ := List.mem_map.1 hy
      exact ⟨(hm z hz).2, (hm z hz).1⟩
  · rw [List.count_eq_zero.2 fun h => hx (hm x h), List.count_eq_zero.2 ?_]
    intro h
    obtain ⟨z, hz, rfl⟩ := List.mem_map.1 h
    exact hx ⟨(hm z hz).2, (hm z hz).1⟩

/-- `zBREP2PH3D` on a sound solid always succeeds: the same triangles in the same order, one vertex per cell,
indices within the vertices, and normal vectors computed from the corners. -/
theorem C66_toPH (τ : ℝ) {b : BRep} (h : Sound b) :
    ∃ ph, b.toPH τ = some ph ∧ ph.nv = b.vlist.length ∧ Valid ph ∧ facePts ph = b.flist.map (corners b) ∧
      (∀ f ∈ ph.face, f.norm = (Tri3.create τ (ph.vert f.i0) (ph.vert f.i1) (ph.vert f.i2)).2.norm) ∧
      (List.range ph.nv).map ph.vert = b.vlist.map fun i => (b.vert i).p := toPH_ok τ h.corner

/-- There and back again: the polyhedron keeps its faces when its corner points differ by more than the
tolerance, and has no vertex outside them. -/
theorem C66_roundtrip {τ : ℝ} (hτ : 0 ≤ τ) (ph : PH ℝ) (h : Separated τ (cornerSet ph)) :
    ∃ ph', (ofPH τ ph).toPH τ = some ph' ∧ facePts ph' = facePts ph ∧ Valid ph' ∧
      (∀ i < ph'.nv, ph'.vert i ∈ cornerSet ph) ∧
      (∀ i < ph'.nv, ∀ j < ph'.nv, ph'.vert i = ph'.vert j → i = j) := by
  obtain ⟨s, p, -, -, h5⟩ := C66_sound hτ ph
  obtain ⟨ph', e, e1, e2, e3, -, e4⟩ := C66_toPH τ s
  have hv : ∀ i (hi : i < ph'.nv), ph'.vert i = ((ofPH τ ph).vert ((ofPH τ ph).vlist[i]'(e1 ▸ hi))).p := by
    intro i hi
    have h1 : ((List.range ph'.nv).map ph'.vert)[i]? = some (ph'.vert i) := by simp [hi]
    rw [e4] at h1
    have h2 : i < (ofPH τ ph).vlist.length := e1 ▸ hi
    simp only [List.getElem?_map, List.getElem?_eq_getElem h2, Option.map_some, Option.some.injEq] at h1
    exact h1.symm
  refine ⟨ph', e, e3.trans (C66_exact hτ ph h), e2, fun i hi => ?_, fun i hi j hj hij => ?_⟩
  · rw [hv i hi]; exact h5 _ (List.getElem_mem _)
  · rw [hv i hi, hv j hj] at hij
    have := p.verts _ (List.getElem_mem (e1 ▸ hi)) _ (List.getElem_mem (e1 ▸ hj)) (by rw [hij]; exact near_refl hτ _)
    exact (List.Nodup.getElem_inj_iff s.vnodup).1 this

/-- Conversion within a box: the solid consists of the faces that the test against the box reports, in the
same order.  A face with a corner inside the box by more than the tolerance is among them. -/
theorem C66_inBox {τ : ℝ} (hτ : 0 ≤ τ) (ph : PH ℝ) (box : AABox3 ℝ) {b : BRep} (h : ofPHInBox τ ph box = some b) :
    ∃ fs : List (Face ℝ), fs.Sublist ph.face ∧ (∀ f ∈ ph.face, f ∈ fs ↔ colChkTriBox τ (ph.tri f) box = some True) ∧
      (∀ f ∈ ph.face, ∀ i ∈ [f.i0, f.i1, f.i2],
        (box.min.x + τ < (ph.vert i).x ∧ (ph.vert i).x < box.max.x - τ) ∧
        (box.min.y + τ < (ph.vert i).y ∧ (ph.vert i).y < box.max.y - τ) ∧
        (box.min.z + τ < (ph.vert i).z ∧ (ph.vert i).z < box.max.z - τ) → f ∈ fs) ∧
      Sound b ∧ Distinct τ b ∧ Used b ∧
      List.Forall₂ (NearTri τ) (b.flist.map (corners b)) (fs.map fun f => (ph.vert f.i0, ph.vert f.i1, ph.vert f.i2)) := by
  classical
  unfold ofPHInBox at h
  split at h
  swap
  · cases h
  rename_i hs
  cases h
  obtain ⟨h1, h2, h3, h4, -⟩ := insertFaces_ok hτ ph
    (ph.face.filter fun f => decide (colChkTriBox τ (ph.tri f) box = some True))
  have hmem : ∀ f ∈ ph.face, f ∈ ph.face.filter (fun f => decide (colChkTriBox τ (ph.tri f) box = some True)) ↔
      colChkTriBox τ (ph.tri f) box = some True := by
    intro f hf
    rw [List.mem_filter, decide_eq_true_eq]
    exact ⟨fun h => h.2, fun h => ⟨hf, h⟩⟩
  refine ⟨_, List.filter_sublist, hmem, ?_, h1, h2, h3, h4⟩
  intro f hf i hi hin
  rw [hmem f hf, colChkTriBox, if_pos]
  have : box.pointIsInside (ph.vert i) (-τ) := by
    obtain ⟨⟨a1, a2⟩, ⟨a3, a4⟩, a5, a6⟩ := hin
    refine ⟨⟨?_, ?_⟩, ⟨?_, ?_⟩, ?_, ?_⟩ <;> linarith
  simp only [List.mem_cons, List.not_mem_nil, or_false] at hi
  rcases hi with rfl | rfl | rfl
  · exact Or.inl this
  · exact Or.inr (Or.inl this)
  · exact Or.inr (Or.inr this)

/-! ## A concrete polyhedron: the corner of the unit cube -/

private noncomputable def tetraPH : PH ℝ :=
  ⟨4, fun i => if i = 0 then ⟨0, 0, 0⟩ else if i = 1 then ⟨1, 0, 0⟩ else if i = 2 then ⟨0, 1, 0⟩ else ⟨0, 0, 1⟩,
   [⟨0, 2, 1, ⟨0, 0, -1⟩⟩, ⟨0, 1, 3, ⟨0, -1, 0⟩⟩, ⟨0, 3, 2, ⟨-1, 0, 0⟩⟩, ⟨1, 2, 3, ⟨1, 0, 0⟩⟩]⟩

private theorem tetra_pts : facePts tetraPH = [(⟨0, 0, 0⟩, ⟨0, 1, 0⟩, ⟨1, 0, 0⟩), (⟨0, 0, 0⟩, ⟨1, 0, 0⟩, ⟨0, 0, 1⟩),
    (⟨0, 0, 0⟩, ⟨0, 0, 1⟩, ⟨0, 1, 0⟩), (⟨1, 0, 0⟩, ⟨0, 1, 0⟩, ⟨0, 0, 1⟩)] := by
  simp [facePts, tetraPH]

private theorem tetra_sep : Separated (1 / 4) (cornerSet tetraPH) := by
  have hc : ∀ p ∈ cornerSet tetraPH, p = ⟨0, 0, 0⟩ ∨ p = ⟨1, 0, 0⟩ ∨ p = ⟨0, 1, 0⟩ ∨ p = ⟨0, 0, 1⟩ := by
    rintro p ⟨t, ht, hp⟩
    rw [tetra_pts] at ht
    simp only [List.mem_cons, List.not_mem_nil, or_false] at ht
    rcases ht with rfl | rfl | rfl | rfl <;> rcases hp with rfl | rfl | rfl <;> simp
  intro p hp q hq h
  rcases hc p hp with rfl | rfl | rfl | rfl <;> rcases hc q hq with rfl | rfl | rfl | rfl <;>
    first
    | rfl
    | (exfalso; obtain ⟨h1, h2, h3⟩ := h; revert h1 h2 h3; norm_num)

example : (0 : ℝ) ≤ 1 / 4 ∧ Separated (1 / 4) (cornerSet tetraPH) ∧ Closed (facePts tetraPH) := by
  refine ⟨by norm_num, tetra_sep, ?_⟩
  rw [tetra_pts]
  have : ∀ a b c d : Vec3 ℝ, Closed [(a, c, b), (a, b, d), (a, d, c), (b, c, d)] := by
    intro a b c d
    simp only [Closed, meshEdges, triEdges, List.flatMap_cons, List.flatMap_nil, List.cons_append, List.nil_append,
      List.map_cons, List.map_nil, Prod.swap]
    classical
    rw [List.perm_iff_count]
    intro x
    simp only [List.count_cons, List.count_nil]
    ring
  exact this _ _ _ _

example : ∃ b, ofPHInBox (1 / 4) tetraPH ⟨⟨-1, -1, -1⟩, ⟨2, 2, 2⟩⟩ = some b := by
  classical
  unfold ofPHInBox
  rw [if_pos]
  · exact ⟨_, rfl⟩
  · intro f hf
    rw [colChkTriBox, if_pos]
    · rfl
    · left
      simp only [tetraPH, List.mem_cons, List.not_mem_nil, or_false] at hf
      rcases hf with rfl | rfl | rfl | rfl <;> norm_num [PH.tri, tetraPH, AABox3.pointIsInside]

end Zeo
