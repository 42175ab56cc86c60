import Verif.Props.C68
import Verif.Props.C52Box

/-! # C68, continued: what goes wrong -/

namespace Zeo
open Spec BRep

private noncomputable def triPH (a b : Vec3 ℝ) (n : Vec3 ℝ) : PH ℝ :=
  ⟨3, fun i => if i = 0 then ⟨0, 0, 0⟩ else if i = 1 then a else b, [⟨0, 1, 2, n⟩]⟩

private theorem tri_pts (a b n : Vec3 ℝ) : facePts (triPH a b n) = [(⟨0, 0, 0⟩, a, b)] := by simp [facePts, triPH]

private theorem tri_corner {a b n p : Vec3 ℝ} (h : p ∈ cornerSet (triPH a b n)) : p = ⟨0, 0, 0⟩ ∨ p = a ∨ p = b := by
  obtain ⟨t, ht, h⟩ := h
  rw [tri_pts] at ht
  simp only [List.mem_cons, List.not_mem_nil, or_false] at ht
  subst ht
  exact h

/-- Two triangles with one corner in common: the merged solid has an edge whose end is a freed cell. -/
theorem C68_dangling {τ : ℝ} (hτ : 0 ≤ τ) (hτ' : τ ≤ 1 / 4) :
    ∃ p1 p2 : PH ℝ, Valid p1 ∧ Valid p2 ∧ UnitNormals p1 ∧ UnitNormals p2 ∧
      Separated τ (cornerSet p1) ∧ Separated τ (cornerSet p2) ∧
      ¬ Sound ((ofPH τ p1).merge τ (ofPH τ p2)) := by
  have hv : ∀ a b n, Valid (triPH a b n) := by
    intro a b n f hf
    simp only [triPH, List.mem_cons, List.not_mem_nil, or_false] at hf
    subst hf; simp [triPH]
  have hu : ∀ a b, UnitNormals (triPH a b ⟨0, 0, 1⟩) := by
    intro a b f hf
    simp only [triPH, List.mem_cons, List.not_mem_nil, or_false] at hf
    subst hf; norm_num
  have sep1 : Separated τ (cornerSet (triPH ⟨1, 0, 0⟩ ⟨0, 1, 0⟩ ⟨0, 0, 1⟩)) := by
    intro p hp q hq h
    rcases tri_corner hp with rfl | rfl | rfl <;> rcases tri_corner hq with rfl | rfl | rfl <;>
      first
      | rfl
      | (exfalso; obtain ⟨h1, h2, h3⟩ := h; norm_num at h1 h2 h3; linarith)
  have sep2 : Separated τ (cornerSet (triPH ⟨-1, 0, 0⟩ ⟨0, -1, 0⟩ ⟨0, 0, 1⟩)) := by
    intro p hp q hq h
    rcases tri_corner hp with rfl | rfl | rfl <;> rcases tri_corner hq with rfl | rfl | rfl <;>
      first
      | rfl
      | (exfalso; obtain ⟨h1, h2, h3⟩ := h; norm_num at h1 h2 h3; linarith)
  refine ⟨triPH ⟨1, 0, 0⟩ ⟨0, 1, 0⟩ ⟨0, 0, 1⟩, triPH ⟨-1, 0, 0⟩ ⟨0, -1, 0⟩ ⟨0, 0, 1⟩, hv _ _ _, hv _ _ _, hu _ _, hu _ _,
    sep1, sep2, ?_⟩
  obtain ⟨s1, -, -, -, c1⟩ := C66_sound hτ (triPH ⟨1, 0, 0⟩ ⟨0, 1, 0⟩ ⟨0, 0, 1⟩)
  obtain ⟨s2, -⟩ := C66_sound hτ (triPH ⟨-1, 0, 0⟩ ⟨0, -1, 0⟩ ⟨0, 0, 1⟩)
  have x1 := C66_exact hτ _ sep1
  have x2 := C66_exact hτ _ sep2
  rw [tri_pts] at x1 x2
  rw [C68_merge_sound_iff hτ s1 s2]
  intro h
  generalize ofPH τ (triPH ⟨1, 0, 0⟩ ⟨0, 1, 0⟩ ⟨0, 0, 1⟩) = t at *
  generalize ofPH τ (triPH ⟨-1, 0, 0⟩ ⟨0, -1, 0⟩ ⟨0, 0, 1⟩) = s at *
  obtain ⟨f, hf, -, e1, -⟩ : ∃ f ∈ t.flist, True ∧ (t.vert (f.v 0)).p = ⟨0, 0, 0⟩ ∧ True := by
    have : (⟨⟨0, 0, 0⟩, ⟨1, 0, 0⟩, ⟨0, 1, 0⟩⟩ : Vec3 ℝ × Vec3 ℝ × Vec3 ℝ) ∈ t.flist.map (corners t) := by rw [x1]; simp
    obtain ⟨f, hf, e⟩ := List.mem_map.1 this
    exact ⟨f, hf, trivial, (Prod.mk.inj e).1, trivial⟩
  obtain ⟨g, hg, g0, g1⟩ : ∃ g ∈ s.flist, (s.vert (g.v 0)).p = ⟨0, 0, 0⟩ ∧ (s.vert (g.v 1)).p = ⟨-1, 0, 0⟩ := by
    have : (⟨⟨0, 0, 0⟩, ⟨-1, 0, 0⟩, ⟨0, -1, 0⟩⟩ : Vec3 ℝ × Vec3 ℝ × Vec3 ℝ) ∈ s.flist.map (corners s) := by rw [x2]; simp
    obtain ⟨f, hf, e⟩ := List.mem_map.1 this
    exact ⟨f, hf, (Prod.mk.inj e).1, (Prod.mk.inj (Prod.mk.inj e).2).1⟩
  have yes : HasVert τ t (s.vert (g.v 0)).p := by
    refine ⟨_, s1.corner f hf 0, ?_⟩
    rw [e1, g0]; exact near_refl hτ _
  have no : ¬ HasVert τ t (s.vert (g.v 1)).p := by
    rintro ⟨k, hk, hn⟩
    rw [g1] at hn
    rcases tri_corner (c1 k hk) with e | e | e <;> rw [e] at hn <;> obtain ⟨h1, h2, h3⟩ := hn <;>
      norm_num at h1 h2 h3 <;> linarith
  have hside := s2.side g hg 2
  have hh := h _ hside.1
  rcases hside.2 with ⟨a, b⟩ | ⟨a, b⟩
  · rw [a, b] at hh; exact no (hh.1 yes)
  · rw [a, b] at hh; exact no (hh.2 yes)

private theorem foldl_sum {α : Type*} (g : α → ℝ) (l : List α) : ∀ a, l.foldl (fun v f => v + g f) a = a + (l.map g).sum := by
  induction l with
  | nil => intro a; simp
  | cons x l ih => intro a; rw [List.foldl_cons, ih, List.map_cons, List.sum_cons, add_assoc]

private theorem volume_eq (p : PH ℝ) :
    p.volume = ((facePts p).map fun t => Tri3.coneVolume t.1 t.2.1 t.2.2 .zero).sum := by
  rw [PH.volume, foldl_sum, zero_add, facePts, List.map_map]; rfl

/-- The intersection of a convex polyhedron with itself has every face twice, and so twice its volume. -/
theorem C68_self {τ : ℝ} (hτ : 0 ≤ τ) (hτ' : τ < 1 / 2) {p : PH ℝ} (hs : Separated τ (cornerSet p)) (hu : UnitNormals p)
    (hc : ∀ q ∈ cornerSet p, ∀ pl ∈ facePlanes p, height pl q ≤ τ) :
    ∃ r, (∀ junk, phIntersect τ p p junk = some r) ∧ facePts r = facePts p ++ facePts p ∧
      r.volume = 2 * p.volume := by
  obtain ⟨s, -, -, -, c⟩ := C66_sound hτ p
  obtain ⟨b, e, sb, -, -⟩ := C67_truncPH hτ hτ' s hu
  obtain ⟨b', e', t⟩ := truncPlanes_ok hτ hτ' p p.face hu ⟨.zero, .zero⟩ (ofPH τ p) s
  have : b' = b := Option.some.inj (e'.symm.trans (e _))
  subst this
  obtain ⟨q1, q2, -, -, q3⟩ := t.same fun pl hp i hi => hc _ (c i hi) pl hp
  have hb : b'.flist.map (corners b') = facePts p := by
    rw [q1, ← C66_exact hτ p hs]
    refine List.map_congr_left fun f _ => ?_
    have hq : ∀ i, (b'.vert i).p = ((ofPH τ p).vert i).p := q3
    simp only [corners, hq]
  have hcb : ∀ i ∈ b'.vlist, (b'.vert i).p ∈ cornerSet p := by
    intro i hi
    have hq : (b'.vert i).p = ((ofPH τ p).vert i).p := q3 i
    rw [hq]
    exact c i (q2 ▸ hi)
  obtain ⟨m, em, -, -, hm, ⟨A, B, ef, eA, eB⟩, hv⟩ := C68_merge hτ sb sb
  obtain ⟨r, er, -, -, pr, -, -⟩ := toPH_ok τ (b := m) fun f hf i => (hm f hf i).1
  have hmc : ∀ i ∈ m.vlist, (m.vert i).p ∈ cornerSet p := by
    intro i hi
    rcases hv i hi with ⟨j, hj, e⟩ | ⟨j, hj, e, -⟩ <;> rw [e] <;> exact hcb j hj
  rw [hb] at eA eB
  have hB : B = facePts p := by
    have key : ∀ l m : List (Vec3 ℝ × Vec3 ℝ × Vec3 ℝ), List.Forall₂ (NearTri τ) l m →
        (∀ t ∈ l, t.1 ∈ cornerSet p ∧ t.2.1 ∈ cornerSet p ∧ t.2.2 ∈ cornerSet p) →
        (∀ t ∈ m, t.1 ∈ cornerSet p ∧ t.2.1 ∈ cornerSet p ∧ t.2.2 ∈ cornerSet p) → l = m := by
      intro l m hlm
      induction hlm with
      | nil => intros; rfl
      | cons hab _ ih =>
        intro hl hm
        have a := hl _ List.mem_cons_self
        have b := hm _ List.mem_cons_self
        rw [ih (fun t ht => hl t (by simp [ht])) fun t ht => hm t (by simp [ht])]
        congr 1
        exact Prod.ext (hs _ a.1 _ b.1 hab.1) (Prod.ext (hs _ a.2.1 _ b.2.1 hab.2.1) (hs _ a.2.2 _ b.2.2 hab.2.2))
    refine key _ _ eB ?_ ?_
    · intro t ht
      have : t ∈ m.flist.map (corners m) := by rw [ef]; exact List.mem_append_right _ ht
      obtain ⟨f, hf, rfl⟩ := List.mem_map.1 this
      exact ⟨hmc _ (hm f hf 0).1, hmc _ (hm f hf 1).1, hmc _ (hm f hf 2).1⟩
    · intro t ht
      exact ⟨⟨t, ht, Or.inl rfl⟩, ⟨t, ht, Or.inr (Or.inl rfl)⟩, ⟨t, ht, Or.inr (Or.inr rfl)⟩⟩
  have hr : facePts r = facePts p ++ facePts p := by rw [pr, ef, eA, hB]
  refine ⟨r, fun junk => ?_, hr, ?_⟩
  · simp only [phIntersect, e junk]
    show (b'.merge τ b').toPH τ = some r
    rw [em]; exact er
  · rw [volume_eq, volume_eq, hr, List.map_append, List.sum_append, two_mul]

private noncomputable def tetraPH : PH ℝ :=
  ⟨4, fun i => if i = 0 then ⟨0, 0, 0⟩ else if i = 1 then ⟨2, 0, 0⟩ else if i = 2 then ⟨0, 1, 0⟩ else ⟨0, 0, 1⟩,
   [⟨0, 2, 1, ⟨0, 0, -1⟩⟩, ⟨0, 1, 3, ⟨0, -1, 0⟩⟩, ⟨0, 3, 2, ⟨-1, 0, 0⟩⟩, ⟨1, 2, 3, ⟨1 / 3, 2 / 3, 2 / 3⟩⟩]⟩

private theorem tetra_corner {p : Vec3 ℝ} (h : p ∈ cornerSet tetraPH) :
    p = ⟨0, 0, 0⟩ ∨ p = ⟨2, 0, 0⟩ ∨ p = ⟨0, 1, 0⟩ ∨ p = ⟨0, 0, 1⟩ := by
  obtain ⟨t, ht, h⟩ := h
  simp only [facePts, tetraPH, List.map_cons, List.map_nil, List.mem_cons, List.not_mem_nil, or_false] at ht
  rcases ht with rfl | rfl | rfl | rfl <;> rcases h with rfl | rfl | rfl <;> simp

/-- A tetrahedron of volume 1/3 meets the conditions. -/
example : Separated (1 / 4) (cornerSet tetraPH) ∧ UnitNormals tetraPH ∧
    (∀ q ∈ cornerSet tetraPH, ∀ pl ∈ facePlanes tetraPH, height pl q ≤ 1 / 4) ∧ tetraPH.volume = 1 / 3 := by
  refine ⟨?_, ?_, ?_, ?_⟩
  · intro p hp q hq h
    rcases tetra_corner hp with rfl | rfl | rfl | rfl <;> rcases tetra_corner hq with rfl | rfl | rfl | rfl <;>
      first
      | rfl
      | (exfalso; obtain ⟨h1, h2, h3⟩ := h; revert h1 h2 h3; norm_num)
  · intro f hf
    simp only [tetraPH, List.mem_cons, List.not_mem_nil, or_false] at hf
    rcases hf with rfl | rfl | rfl | rfl <;> norm_num
  · intro q hq pl hp
    simp only [facePlanes, tetraPH, List.map_cons, List.map_nil, List.mem_cons, List.not_mem_nil, or_false] at hp
    rcases hp with rfl | rfl | rfl | rfl <;> rcases tetra_corner hq with rfl | rfl | rfl | rfl <;> norm_num [height]
  · rw [volume_eq]
    norm_num [facePts, tetraPH, Tri3.coneVolume, Vec3.grassmann, Vec3.sub, Vec3.outer, Vec3.inner, Vec3.zero]

end Zeo
