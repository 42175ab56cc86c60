import Verif.Props.C67
import Verif.Lemmas.BRepMerge

/-! # C68: merging boundary representations, intersection of polyhedra

`zBREPMerge`, `zIntersectPH3DBREP`. -/

namespace Zeo
open Spec BRep

/-- Merging: the faces of the target, unchanged, followed by the faces of the other solid with each corner moved
by at most the tolerance; vertices of the other solid that the target has are not added again.  All
corners and sides of the faces are live cells. -/
theorem C68_merge {τ : ℝ} (hτ : 0 ≤ τ) {t s : BRep} (ht : Sound t) (hs : Sound s) :
    ∃ m, t.merge τ s = m ∧ m.vlist.Nodup ∧ m.elist.Nodup ∧
      (∀ f ∈ m.flist, ∀ i, f.v i ∈ m.vlist ∧ f.e i ∈ m.elist) ∧
      (∃ A B, m.flist.map (corners m) = A ++ B ∧ A = t.flist.map (corners t) ∧
        List.Forall₂ (NearTri τ) B (s.flist.map (corners s))) ∧
      ∀ i ∈ m.vlist, (∃ j ∈ t.vlist, (m.vert i).p = (t.vert j).p) ∨
        ∃ j ∈ s.vlist, (m.vert i).p = (s.vert j).p ∧ ¬ HasVert τ t (s.vert j).p := by
  have h := merge_ok hτ ht hs
  refine ⟨_, rfl, h.vnodup, h.enodup, fun f hf i => ⟨h.corner f hf i, h.mem f hf i⟩, ?_, ?_⟩
  · obtain ⟨fs, gs, e, e1, e2⟩ := h.faces
    exact ⟨_, _, by rw [e, List.map_append], e1, e2⟩
  · intro i hi
    rcases h.verts i hi with h1 | ⟨j, hj, h1, h2⟩
    · exact Or.inl h1
    · exact Or.inr ⟨j, hj, h1, fun ⟨k, hk, hn⟩ => h2 k hk hn⟩

private theorem vmark_isSome {τ : ℝ} {t s : BRep} {i : ℕ} (hi : i ∈ s.vlist) :
    (vmark τ t s i).isSome ↔ HasVert τ t (s.vert i).p := by
  constructor
  · intro h
    obtain ⟨j, hj⟩ := Option.isSome_iff_exists.1 h
    exact ⟨j, vmark_some hj⟩
  · rintro ⟨k, hk, hn⟩
    by_contra h
    rw [Option.not_isSome_iff_eq_none, vmark, if_pos hi] at h
    exact vertFind_none h k hk hn

/-- The full claim, soundness of the merged solid, holds exactly when no edge of the other solid has exactly one end
in common with the target.  Otherwise `zBREPMerge` keeps the edge but frees one of its ends. -/
theorem C68_merge_sound_iff {τ : ℝ} (hτ : 0 ≤ τ) {t s : BRep} (ht : Sound t) (hs : Sound s) :
    Sound (t.merge τ s) ↔ ∀ e ∈ s.elist, HasVert τ t (s.vert (s.edge e).v0).p ↔ HasVert τ t (s.vert (s.edge e).v1).p := by
  constructor
  · intro h e he
    by_contra hc
    have hends := hs.ends e he
    have hvm : ∀ i j, vmark τ t s i = some j → j ∈ t.vlist := fun i j h => (vmark_some h).1
    have inv := mergeEdges_inv ht hs hvm
    have hends' := h.ends
    unfold merge at hends'
    dsimp only at hends'
    generalize s.elist.foldl (mergeEdge (vmark τ t s) s) ⟨t, fun _ => none⟩ = st at inv hends'
    rw [← vmark_isSome hends.1, ← vmark_isSome hends.2] at hc
    have hmiss : st.mark e = none := by
      apply inv.miss e he (by simp)
      by_contra hh
      push Not at hh
      exact hc ⟨fun _ => Option.isSome_iff_ne_none.2 hh.2, fun _ => Option.isSome_iff_ne_none.2 hh.1⟩
    have key := hends' (st.b.ne + e) (by
      simp only [List.mem_append, List.mem_map, List.mem_filter, List.mem_reverse]
      exact Or.inr ⟨e, ⟨he, by simp [hmiss]⟩, rfl⟩)
    rw [if_neg (by omega)] at key
    dsimp only at key
    rw [Nat.add_sub_cancel_left] at key
    have hv : ∀ i, st.b.nv + i ∈ st.b.vlist ++ ((s.vlist.reverse.filter fun i => (vmark τ t s i).isNone).map (st.b.nv + ·)) →
        ¬ (vmark τ t s i).isSome := by
      intro i hi
      rcases List.mem_append.1 hi with h1 | h1
      · have := inv.sound.vlt _ h1; omega
      · obtain ⟨j, hj, e⟩ := List.mem_map.1 h1
        have : j = i := by omega
        subst this
        have := (List.mem_filter.1 hj).2
        rw [Option.isNone_iff_eq_none] at this
        simp [this]
    exact hc ⟨fun h => absurd h (hv _ key.1), fun h => absurd h (hv _ key.2)⟩
  · intro h
    refine (merge_ok hτ ht hs).closed fun e he => ?_
    have hends := hs.ends e he
    rw [Bool.eq_iff_iff, vmark_isSome hends.1, vmark_isSome hends.2]
    exact h e he

/-- Intersection of two polyhedra with unit normal vectors: the faces are the part of the first surface below the
planes of the second polyhedron, followed by the part of the second surface below the planes of the first, with
corners moved by at most the tolerance. -/
theorem C68_intersect {τ : ℝ} (hτ : 0 ≤ τ) (hτ' : τ < 1 / 2) {p1 p2 : PH ℝ} (h1 : Separated τ (cornerSet p1))
    (h2 : Separated τ (cornerSet p2)) (u1 : UnitNormals p1) (u2 : UnitNormals p2) :
    ∃ r A B B', (∀ junk, phIntersect τ p1 p2 junk = some r) ∧ Valid r ∧ facePts r = A ++ B' ∧
      List.Forall₂ (NearTri τ) B' B ∧ ClippedTo τ (facePlanes p2) (facePts p1) A ∧
      ClippedTo τ (facePlanes p1) (facePts p2) B ∧
      ∀ f ∈ r.face, f.norm = (Tri3.create τ (r.vert f.i0) (r.vert f.i1) (r.vert f.i2)).2.norm := by
  obtain ⟨b1, e1, s1, -, c1⟩ := C67_truncPH hτ hτ' (C66_sound hτ p1).1 u2
  obtain ⟨b2, e2, s2, -, c2⟩ := C67_truncPH hτ hτ' (C66_sound hτ p2).1 u1
  obtain ⟨m, em, -, -, hc, ⟨A, B', ef, eA, eB⟩, -⟩ := C68_merge hτ s1 s2
  obtain ⟨r, er, -, v, p, n, -⟩ := toPH_ok τ (b := m) fun f hf i => (hc f hf i).1
  refine ⟨r, A, _, B', fun junk => ?_, v, p.trans ef, eB, ?_, ?_, n⟩
  · simp only [phIntersect, e1 junk, e2 junk]
    show (b1.merge τ b2).toPH τ = some r
    rw [em]; exact er
  · rw [eA, ← C66_exact hτ p1 h1]; exact c1
  · rw [← C66_exact hτ p2 h2]; exact c2

private theorem near_zero_eq {l m : List (Vec3 ℝ × Vec3 ℝ × Vec3 ℝ)} (h : List.Forall₂ (NearTri 0) l m) : l = m := by
  induction h with
  | nil => rfl
  | cons hab _ ih =>
    rw [ih]
    congr 1
    exact Prod.ext (near_zero hab.1) (Prod.ext (near_zero hab.2.1) (near_zero hab.2.2))

/-- At zero tolerance the surface of the result contains what either surface has strictly below the planes
of the other polyhedron, and nothing above them. -/
theorem C68_intersect_zero {p1 p2 : PH ℝ} (u1 : UnitNormals p1) (u2 : UnitNormals p2) :
    ∃ r, (∀ junk, phIntersect 0 p1 p2 junk = some r) ∧ Valid r ∧
      ({q ∈ triUnion (facePts p1) | ∀ pl ∈ facePlanes p2, height pl q < 0} ∪
        {q ∈ triUnion (facePts p2) | ∀ pl ∈ facePlanes p1, height pl q < 0} ⊆ triUnion (facePts r)) ∧
      triUnion (facePts r) ⊆ {q ∈ triUnion (facePts p1) | ∀ pl ∈ facePlanes p2, height pl q ≤ 0} ∪
        {q ∈ triUnion (facePts p2) | ∀ pl ∈ facePlanes p1, height pl q ≤ 0} := by
  have sep : ∀ p : PH ℝ, Separated 0 (cornerSet p) := fun p x _ y _ h => near_zero h
  obtain ⟨r, A, B, B', e, v, ef, eB, cA, cB, -⟩ := C68_intersect le_rfl (by norm_num) (sep p1) (sep p2) u1 u2
  have := near_zero_eq eB
  subst this
  have un : ∀ q, q ∈ triUnion (facePts r) ↔ q ∈ triUnion A ∨ q ∈ triUnion B' := by
    intro q
    rw [ef]
    simp only [triUnion, List.mem_append, Set.mem_setOf_eq]
    constructor
    · rintro ⟨t, h | h, hq⟩
      · exact Or.inl ⟨t, h, hq⟩
      · exact Or.inr ⟨t, h, hq⟩
    · rintro (⟨t, h, hq⟩ | ⟨t, h, hq⟩)
      · exact ⟨t, Or.inl h, hq⟩
      · exact ⟨t, Or.inr h, hq⟩
  refine ⟨r, e, v, ?_, ?_⟩
  · rintro q (⟨hq, hh⟩ | ⟨hq, hh⟩)
    · exact (un q).2 (Or.inl (cA.cover q hq fun pl hp => by rw [neg_zero]; exact hh pl hp))
    · exact (un q).2 (Or.inr (cB.cover q hq fun pl hp => by rw [neg_zero]; exact hh pl hp))
  · intro q hq
    rcases (un q).1 hq with ⟨t, ht, hq⟩ | ⟨t, ht, hq⟩
    · obtain ⟨t', ht', h, -⟩ := cA.origin t ht
      exact Or.inl ⟨⟨t', ht', (h q hq).1⟩, (h q hq).2⟩
    · obtain ⟨t', ht', h, -⟩ := cB.origin t ht
      exact Or.inr ⟨⟨t', ht', (h q hq).1⟩, (h q hq).2⟩

end Zeo
