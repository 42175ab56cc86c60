import Verif.Props.C66
import Verif.Lemmas.BRepPlanes
import Verif.Lemmas.BRepClosed

/-! # C67: truncation of boundary representations

`zBREPTrunc`, `zBREPTruncPH3D`, `zPH3DTruncBREP`. -/

namespace Zeo
open Spec BRep

/-- Truncation by a plane: the solid stays sound, and its surface becomes the part of the surface below the
plane, up to the tolerance, with the orientation kept. -/
theorem C67_trunc {τ : ℝ} (hτ : 0 ≤ τ) {b : BRep} (h : Sound b) (pl : Plane3 ℝ) :
    ∃ b', b.trunc τ pl = some b' ∧ Sound b' ∧ (Used b → Used b') ∧
      ClippedTo τ [pl] (b.flist.map (corners b)) (b'.flist.map (corners b')) := by
  obtain ⟨b', e, t⟩ := trunc_ok hτ h pl
  exact ⟨b', e, t.sound, t.used, clipped_cons t (clipped_refl τ _)⟩

/-- At zero tolerance the surface lies between the parts of the old surface strictly below and not above the
plane. -/
theorem C67_trunc_zero {b : BRep} (h : Sound b) (pl : Plane3 ℝ) :
    ∃ b', b.trunc 0 pl = some b' ∧ Sound b' ∧ {q ∈ surface b | height pl q < 0} ⊆ surface b' ∧
      surface b' ⊆ {q ∈ surface b | height pl q ≤ 0} := by
  obtain ⟨b', e, s, -, c⟩ := C67_trunc le_rfl h pl
  refine ⟨b', e, s, fun q hq => c.cover q hq.1 fun p hp => ?_, ?_⟩
  · rw [List.mem_singleton.1 hp, neg_zero]; exact hq.2
  · rintro q ⟨u, hu, hq⟩
    obtain ⟨t, ht, h1, -⟩ := c.origin u hu
    exact ⟨⟨t, ht, (h1 q hq).1⟩, (h1 q hq).2 pl (by simp)⟩

/-- A plane that no vertex exceeds by more than the tolerance changes nothing. -/
theorem C67_untouched {τ : ℝ} (hτ : 0 ≤ τ) {b : BRep} (h : Sound b) (pl : Plane3 ℝ)
    (hl : ∀ i ∈ b.vlist, height pl (b.vert i).p ≤ τ) :
    ∃ b', b.trunc τ pl = some b' ∧ b'.flist = b.flist ∧ b'.vlist = b.vlist ∧ b'.elist = b.elist ∧
      b'.edge = b.edge ∧ ∀ i, (b'.vert i).p = (b.vert i).p := by
  obtain ⟨b', e, t⟩ := trunc_ok hτ h pl
  exact ⟨b', e, t.same hl⟩

/-- A plane that all vertices exceed by more than the tolerance leaves nothing. -/
theorem C67_gone {τ : ℝ} (hτ : 0 ≤ τ) {b : BRep} (h : Sound b) (hu : Used b) (pl : Plane3 ℝ)
    (hl : ∀ i ∈ b.vlist, τ < height pl (b.vert i).p) :
    ∃ b', b.trunc τ pl = some b' ∧ b'.flist = [] ∧ b'.vlist = [] ∧ b'.elist = [] := by
  obtain ⟨b', e, t⟩ := trunc_ok hτ h pl
  have hf : b'.flist = [] := by
    rw [List.eq_nil_iff_forall_not_mem]
    intro g hg
    obtain ⟨f, hf, h1, -⟩ := t.origin g hg
    have hq : (b'.vert (g.v 0)).p ∈ triSet (corners b' g) := by
      refine ⟨1, 0, 0, by norm_num, by norm_num, by norm_num, by norm_num, ?_⟩
      ext <;> simp [comb, corners]
    obtain ⟨h2, h3⟩ := h1 _ hq
    obtain ⟨x, y, z, hx, hy, hz, hs, e⟩ := h2
    rw [e] at h3
    have e2 : height pl (comb x y z 0 (corners b f).1 (corners b f).2.1 (corners b f).2.2 .zero) =
        x * height pl (b.vert (f.v 0)).p + y * height pl (b.vert (f.v 1)).p + z * height pl (b.vert (f.v 2)).p := by
      simp only [height, comb, corners]
      have : z = 1 - x - y := by linarith
      subst this
      ring
    have e3 : height pl (comb x y z 0 (corners b f).1 (corners b f).2.1 (corners b f).2.2 .zero) ≤ τ := by
      simpa [comb, Vec3.zero] using h3
    rw [e2] at e3
    have a0 := hl _ (h.corner f hf 0)
    have a1 := hl _ (h.corner f hf 1)
    have a2 := hl _ (h.corner f hf 2)
    rcases hx.lt_or_eq with hx' | hx'
    · nlinarith
    · rcases hy.lt_or_eq with hy' | hy'
      · nlinarith
      · have hz1 : z = 1 := by linarith
        subst hz1
        rw [← hx', ← hy'] at e3
        linarith
  refine ⟨b', e, hf, ?_, ?_⟩
  · rw [List.eq_nil_iff_forall_not_mem]
    intro i hi
    obtain ⟨f, hf', -⟩ := (t.used hu).verts i hi
    rw [hf] at hf'; cases hf'
  · rw [List.eq_nil_iff_forall_not_mem]
    intro i hi
    obtain ⟨f, hf', -⟩ := (t.used hu).edges i hi
    rw [hf] at hf'; cases hf'

/-- A closed mesh is opened nowhere but at the plane: a directed edge that does not lie in the plane, up to
the tolerance, is met as often as its reverse. -/
theorem C67_closed {τ : ℝ} (hτ : 0 ≤ τ) {b : BRep} (h : Sound b) (hd : Distinct τ b) (hc : Closed (cells b))
    (pl : Plane3 ℝ) :
    ∃ b', b.trunc τ pl = some b' ∧ ∀ p ∈ b'.vlist, ∀ q ∈ b'.vlist,
      (τ < |height pl (b'.vert p).p| ∨ τ < |height pl (b'.vert q).p|) →
      (meshEdges (cells b')).count (p, q) = (meshEdges (cells b')).count (q, p) := by
  obtain ⟨b', e, -⟩ := trunc_ok hτ h pl
  exact ⟨b', e, fun p hp q hq hn => trunc_closed hτ h hd.edges hc e hp hq hn⟩

/-- Truncation by a polyhedron with unit normal vectors never fails, does not depend on the uninitialised plane
variable, and leaves the part of the surface below the planes of all the faces. -/
theorem C67_truncPH {τ : ℝ} (hτ : 0 ≤ τ) (hτ' : τ < 1 / 2) {b : BRep} (h : Sound b) {ph : PH ℝ}
    (hu : UnitNormals ph) :
    ∃ b', (∀ junk, b.truncPH τ ph junk = some b') ∧ Sound b' ∧ (Used b → Used b') ∧
      ClippedTo τ (facePlanes ph) (b.flist.map (corners b)) (b'.flist.map (corners b')) := by
  obtain ⟨b', e, t⟩ := truncPlanes_ok hτ hτ' ph ph.face hu ⟨.zero, .zero⟩ b h
  refine ⟨b', fun junk => ?_, t.sound, t.used, t.clip⟩
  rw [← e, truncPH]
  cases hf : ph.face with
  | nil => simp [truncPlanes]
  | cons f fs =>
    have e : (ph.tri f).toPlane τ = some ⟨ph.vert f.i0, f.norm⟩ := toPlane_unit hτ hτ' (hu f (by simp [hf]))
    simp only [truncPlanes, e, Option.getD_some]

/-- `zPH3DTruncBREP` of polyhedra. -/
theorem C67_phTrunc {τ : ℝ} (hτ : 0 ≤ τ) (hτ' : τ < 1 / 2) {src cut : PH ℝ} (hs : Separated τ (cornerSet src))
    (hu : UnitNormals cut) :
    ∃ r, (∀ junk, phTrunc τ src cut junk = some r) ∧ Valid r ∧
      ClippedTo τ (facePlanes cut) (facePts src) (facePts r) ∧
      ∀ f ∈ r.face, f.norm = (Tri3.create τ (r.vert f.i0) (r.vert f.i1) (r.vert f.i2)).2.norm := by
  obtain ⟨b', e, s, -, c⟩ := C67_truncPH hτ hτ' (C66_sound hτ src).1 hu
  obtain ⟨r, e1, -, v, p, n, -⟩ := C66_toPH τ s
  refine ⟨r, fun junk => ?_, v, ?_, n⟩
  · simp only [phTrunc, e junk]; exact e1
  · rw [p, ← C66_exact hτ src hs]; exact c

private noncomputable def triPH : PH ℝ :=
  ⟨3, fun i => if i = 0 then ⟨0, 0, 0⟩ else if i = 1 then ⟨1, 0, 0⟩ else ⟨0, 1, 0⟩, [⟨0, 1, 2, ⟨0, 0, 1⟩⟩]⟩

private theorem tri_faces (τ : ℝ) (hτ : 0 ≤ τ) : (ofPH τ triPH).flist.length = 1 := by
  have := (C66_sound hτ triPH).2.2.2.1.length_eq
  simpa [facePts, triPH] using this

/-- A face without a normal vector (its corners are collinear): `zBREPTruncPH3D` ignores that it has no plane and
cuts with whatever the uninitialised variable holds.  The same call keeps everything or nothing. -/
theorem C67_degenerate {τ : ℝ} (hτ : 0 ≤ τ) :
    ∃ (b : BRep) (ph : PH ℝ), Sound b ∧ b.flist ≠ [] ∧ Valid ph ∧
      (∀ f ∈ ph.face, Tri3.create τ (ph.vert f.i0) (ph.vert f.i1) (ph.vert f.i2) = (false, ph.tri f)) ∧
      ∃ j j' b1 b2, b.truncPH τ ph j = some b1 ∧ b1.flist = b.flist ∧ b.truncPH τ ph j' = some b2 ∧ b2.flist = [] := by
  obtain ⟨s, -, u, -, hc⟩ := C66_sound hτ triPH
  have hz : ∀ i ∈ (ofPH τ triPH).vlist, ((ofPH τ triPH).vert i).p.z = 0 := by
    intro i hi
    obtain ⟨t, ht, h⟩ := hc i hi
    simp only [facePts, triPH, List.map_cons, List.map_nil, List.mem_cons, List.not_mem_nil, or_false] at ht
    subst ht
    rcases h with h | h | h <;> rw [h] <;> simp
  refine ⟨ofPH τ triPH, ⟨1, fun _ => .zero, [⟨0, 0, 0, .zero⟩]⟩, s, ?_, ?_, ?_, ?_⟩
  · intro h
    have := tri_faces τ hτ
    rw [h] at this; cases this
  · intro f hf
    simp only [List.mem_cons, List.not_mem_nil, or_false] at hf
    subst hf; simp
  · intro f hf
    simp only [List.mem_cons, List.not_mem_nil, or_false] at hf
    subst hf
    have h0 : Tri3.outerProd (.zero : Vec3 ℝ) .zero .zero = .zero := by
      ext <;> simp [Tri3.outerProd, Vec3.outer, Vec3.sub, Vec3.zero]
    have : (Tri3.outerProd (.zero : Vec3 ℝ) .zero .zero).isTol τ := by
      rw [h0]; simp [Vec3.isTol, zIsTol, Vec3.zero, hτ]
    rw [Tri3.create]
    dsimp only
    rw [if_pos this, h0]
    rfl
  · have hn : ∀ (w : Vec3 ℝ), Tri3.toPlane τ ⟨w, w, w, .zero⟩ = none := by
      intro w
      rw [Tri3.toPlane, Plane3.create, if_pos]
      simp [Vec3.isTol, zIsTol, Vec3.zero, hτ]
    have hp : ∀ j, (ofPH τ triPH).truncPH τ ⟨1, fun _ => .zero, [⟨0, 0, 0, .zero⟩]⟩ j = (ofPH τ triPH).trunc τ j := by
      intro j
      simp only [truncPH, truncPlanes, PH.tri, hn, Option.getD_none]
      cases (ofPH τ triPH).trunc τ j <;> rfl
    obtain ⟨b1, e1, f1, -⟩ := C67_untouched hτ s ⟨.zero, ⟨0, 0, 1⟩⟩ (by
      intro i hi
      simp [height, hz i hi, Vec3.zero, hτ])
    obtain ⟨b2, e2, f2, -⟩ := C67_gone hτ s u ⟨⟨0, 0, -τ - 1⟩, ⟨0, 0, 1⟩⟩ (by
      intro i hi
      simp [height, hz i hi])
    exact ⟨_, _, b1, b2, (hp _).trans e1, f1, (hp _).trans e2, f2⟩

example : Separated (1 / 4) (cornerSet triPH) ∧ UnitNormals triPH ∧ (1 / 4 : ℝ) < 1 / 2 := by
  refine ⟨?_, ?_, by norm_num⟩
  · have hc : ∀ p ∈ cornerSet triPH, p = ⟨0, 0, 0⟩ ∨ p = ⟨1, 0, 0⟩ ∨ p = ⟨0, 1, 0⟩ := by
      rintro p ⟨t, ht, hp⟩
      simp only [facePts, triPH, List.map_cons, List.map_nil, List.mem_cons, List.not_mem_nil, or_false] at ht
      subst ht
      rcases hp with rfl | rfl | rfl <;> simp
    intro p hp q hq h
    rcases hc p hp with rfl | rfl | rfl <;> rcases hc q hq with rfl | rfl | rfl <;>
      first
      | rfl
      | (exfalso; obtain ⟨h1, h2, h3⟩ := h; revert h1 h2 h3; norm_num)
  · intro f hf
    simp only [triPH, List.mem_cons, List.not_mem_nil, or_false] at hf
    subst hf
    norm_num

end Zeo
