import Verif.Lemmas.Mesh

/-! # C40: polyhedron volume -/

namespace Zeo
open Spec

/-- For a closed mesh the summed cone volume is the same for every apex. -/
theorem C40_apex (ph : PH ℝ) (h : Closed (facePts ph)) (p : Vec3 ℝ) :
    (ph.face.map fun f => Tri3.coneVolume (ph.vert f.i0) (ph.vert f.i1) (ph.vert f.i2) p).sum = ph.volume := by
  rw [volume_eq_mom, ← mom_apex h p]
  unfold mom
  rw [← facePts_sum ph (coneMom p aOne aOne)]
  congr 1
  apply List.map_congr_left
  intro f _
  simp only [Tri3.coneVolume, coneMom, quad20, aev, aOne, det3, zeo]
  ring

/-- The cone of a single face: `zTri3DConeVolume` is the signed volume of the tetrahedron, a sixth of the
determinant, i.e. the integral of one over it (see `C49_cone_volume_integral`). -/
theorem C40_cone (v0 v1 v2 p : Vec3 ℝ) :
    Tri3.coneVolume v0 v1 v2 p = det3 (v0.sub p) (v1.sub p) (v2.sub p) / 6 := by
  simp only [Tri3.coneVolume, det3, zeo]; ring

private theorem sum_congr {ph ph' : PH ℝ} {c : ℝ} (fm : Face ℝ → Face ℝ) (hf : ph'.face = ph.face.map fm)
    (h : ∀ f ∈ ph.face, ph'.coneVolume (fm f) = c * ph.coneVolume f) : ph'.volume = c * ph.volume := by
  unfold PH.volume
  rw [foldl_add_sum, foldl_add_sum, zero_add, zero_add, hf, List.map_map, ← List.sum_map_mul_left]
  congr 1
  exact List.map_congr_left fun f hf => h f hf

/-- Scaling by `k` multiplies the volume by `k^3` (both the copying and the in-place variant). -/
theorem C40_scale (τ : ℝ) (ph : PH ℝ) (hv : Valid ph) (k : ℝ) :
    (PH.scale τ ph k).volume = k^3 * ph.volume ∧ (ph.scaleDRC k).volume = k^3 * ph.volume := by
  constructor
  · refine sum_congr (fun f => PH.mkFace τ ph.vert f.i0 f.i1 f.i2) rfl ?_
    intro f hf
    obtain ⟨h0, h1, h2⟩ := hv f hf
    simp only [PH.coneVolume, PH.scale, PH.scaleDRC, PH.clone, PH.mkFace, h0, h1, h2, if_true, Tri3.coneVolume, zeo]
    ring
  · refine sum_congr id (by simp [PH.scaleDRC]) ?_
    intro f hf
    obtain ⟨h0, h1, h2⟩ := hv f hf
    simp only [PH.coneVolume, PH.scaleDRC, id, h0, h1, h2, if_true, Tri3.coneVolume, zeo]
    ring

/-- Flipping all faces negates the volume; cloning keeps it. -/
theorem C40_flip (τ : ℝ) (ph : PH ℝ) :
    (PH.flip τ ph).volume = - ph.volume ∧ (PH.flipDRC τ ph).volume = - ph.volume ∧ (PH.clone τ ph).volume = ph.volume := by
  refine ⟨?_, ?_, ?_⟩
  · rw [← neg_one_mul]
    refine sum_congr (fun f => PH.mkFace τ ph.vert f.i0 f.i2 f.i1) ?_ ?_
    · simp [PH.flip, PH.flipDRC, PH.clone, PH.mkFace]
    · intro f _
      simp only [PH.coneVolume, PH.flip, PH.flipDRC, PH.clone, PH.mkFace, Tri3.coneVolume, zeo]; ring
  · rw [← neg_one_mul]
    refine sum_congr (fun f => PH.mkFace τ ph.vert f.i0 f.i2 f.i1) rfl ?_
    intro f _
    simp only [PH.coneVolume, PH.flipDRC, PH.mkFace, Tri3.coneVolume, zeo]; ring
  · rw [← one_mul ph.volume]
    refine sum_congr (fun f => PH.mkFace τ ph.vert f.i0 f.i1 f.i2) rfl ?_
    intro f _
    simp only [PH.coneVolume, PH.clone, PH.mkFace, Tri3.coneVolume, zeo]; ring

/-- Mirroring in a coordinate plane keeps the volume: the faces are turned over to compensate. -/
theorem C40_mirror (τ : ℝ) (ph : PH ℝ) (hv : Valid ph) (axis : Fin 3) : (PH.mirror τ ph axis).volume = ph.volume := by
  rw [← one_mul ph.volume]
  refine sum_congr (fun f => PH.mkFace τ (fun i => if i < ph.nv then PH.flipE (ph.vert i) axis else ph.vert i) f.i0 f.i2 f.i1) rfl ?_
  intro f hf
  obtain ⟨h0, h1, h2⟩ := hv f hf
  simp only [PH.coneVolume, PH.mirror, PH.mkFace, h0, h1, h2, if_true, Tri3.coneVolume]
  fin_cases axis <;> simp only [PH.flipE] <;> simp [Vec3.e, Vec3.setE, Vec3.grassmann, Vec3.inner, Vec3.outer, Vec3.sub, Vec3.zero] <;> ring

theorem xform_facePts (τ : ℝ) (src dest : PH ℝ) (fr : Frame3 ℝ) (hv : Valid src) (hn : dest.nv = src.nv)
    (hf : faceIdx dest = faceIdx src) :
    facePts (PH.xform τ src fr dest) = (facePts src).map fun f => (fr.xform f.1, fr.xform f.2.1, fr.xform f.2.2) := by
  have h1 : facePts (PH.xform τ src fr dest) = (faceIdx dest).map fun i =>
      ((PH.xform τ src fr dest).vert i.1, (PH.xform τ src fr dest).vert i.2.1, (PH.xform τ src fr dest).vert i.2.2) := by
    simp only [facePts, faceIdx, PH.xform, List.map_map]
    rfl
  rw [h1, hf]
  simp only [facePts, faceIdx, List.map_map]
  apply List.map_congr_left
  intro f hfm
  obtain ⟨h0, h1, h2⟩ := hv f hfm
  simp [PH.xform, hn, h0, h1, h2]

theorem xformInv_eq_xform (fr : Frame3 ℝ) (v : Vec3 ℝ) :
    fr.xformInv v = (⟨fr.att.mulTVec (Vec3.zero.sub fr.pos), fr.att.t⟩ : Frame3 ℝ).xform v := by
  ext <;> simp only [zeo] <;> ring

theorem xformInv_facePts (τ : ℝ) (src dest : PH ℝ) (fr : Frame3 ℝ) (hv : Valid src) (hn : dest.nv = src.nv)
    (hf : faceIdx dest = faceIdx src) :
    facePts (PH.xformInv τ src fr dest) = (facePts src).map fun f => (fr.xformInv f.1, fr.xformInv f.2.1, fr.xformInv f.2.2) := by
  have h1 : facePts (PH.xformInv τ src fr dest) = (faceIdx dest).map fun i =>
      ((PH.xformInv τ src fr dest).vert i.1, (PH.xformInv τ src fr dest).vert i.2.1, (PH.xformInv τ src fr dest).vert i.2.2) := by
    simp only [facePts, faceIdx, PH.xformInv, List.map_map]
    rfl
  rw [h1, hf]
  simp only [facePts, faceIdx, List.map_map]
  apply List.map_congr_left
  intro f hfm
  obtain ⟨h0, h1, h2⟩ := hv f hfm
  simp [PH.xformInv, hn, h0, h1, h2]

/-- A rigid motion preserves the volume of a closed mesh; `dest` is a polyhedron prepared with the same
vertex count and face indices, such as a clone of the source or the source itself. -/
theorem C40_xform (τ : ℝ) (src dest : PH ℝ) (fr : Frame3 ℝ) (hr : fr.att.IsRot) (hv : Valid src)
    (hc : Closed (facePts src)) (hn : dest.nv = src.nv) (hf : faceIdx dest = faceIdx src) :
    (PH.xform τ src fr dest).volume = src.volume ∧ (PH.xformInv τ src fr dest).volume = src.volume := by
  constructor
  · rw [volume_eq_mom, volume_eq_mom, xform_facePts τ src dest fr hv hn hf, mom_xform hr hc]
    congr 1 <;> simp [pullA, aOne, Mat3.mulTVec, Vec3.inner, Vec3.zero]
  · rw [volume_eq_mom, volume_eq_mom, xformInv_facePts τ src dest fr hv hn hf]
    have hr' : (⟨fr.att.mulTVec (Vec3.zero.sub fr.pos), fr.att.t⟩ : Frame3 ℝ).att.IsRot := hr.t
    simp only [xformInv_eq_xform]
    rw [mom_xform (fr := ⟨fr.att.mulTVec (Vec3.zero.sub fr.pos), fr.att.t⟩) hr' hc]
    congr 1 <;> simp [pullA, aOne, Mat3.mulTVec, Vec3.inner, Vec3.zero]

/-- Without closedness the number depends on the position: a single triangle has "volume" proportional to
its distance from the origin. -/
theorem C40_open_depends (τ : ℝ) : ∃ (ph : PH ℝ) (fr : Frame3 ℝ), Valid ph ∧ fr.att.IsRot ∧
    (PH.xform τ ph fr ph).volume ≠ ph.volume := by
  refine ⟨⟨3, fun i => if i = 0 then .zero else if i = 1 then .ex else .ey, [⟨0, 1, 2, .ez⟩]⟩, ⟨.ez, .ident⟩, ?_, Mat3.IsRot.ident, ?_⟩
  · intro f hf
    simp only [List.mem_singleton] at hf
    subst hf; decide
  · simp [PH.volume, PH.coneVolume, PH.xform, PH.mkFace, Tri3.coneVolume, zeo]

/-! ## A concrete closed mesh -/

/-- Tetrahedron with corners at the origin and the three unit points, outward faces. -/
noncomputable def exTetra : PH ℝ :=
  ⟨4, fun i => if i = 0 then .zero else if i = 1 then .ex else if i = 2 then .ey else .ez,
   [⟨0, 2, 1, ⟨0, 0, -1⟩⟩, ⟨0, 1, 3, ⟨0, -1, 0⟩⟩, ⟨0, 3, 2, ⟨-1, 0, 0⟩⟩, ⟨1, 2, 3, ⟨1, 1, 1⟩⟩]⟩

theorem exTetra_closed : Closed (facePts exTetra) := by
  apply closed_pts
  show Closed [(0, 2, 1), (0, 1, 3), (0, 3, 2), (1, 2, 3)]
  unfold Closed
  decide

theorem exTetra_valid : Valid exTetra := by
  intro f hf
  simp only [exTetra, List.mem_cons, List.not_mem_nil, or_false] at hf
  rcases hf with rfl | rfl | rfl | rfl <;> decide

/-- The tetrahedron meets the hypotheses of the theorems above and has volume one sixth. -/
example : Closed (facePts exTetra) ∧ Valid exTetra ∧ exTetra.volume = 1/6 ∧
    (exTetra.face.map fun f => Tri3.coneVolume (exTetra.vert f.i0) (exTetra.vert f.i1) (exTetra.vert f.i2) ⟨7, -3, 5⟩).sum = 1/6 := by
  have hv : exTetra.volume = 1/6 := by
    simp [exTetra, PH.volume, PH.coneVolume, Tri3.coneVolume, zeo]
  exact ⟨exTetra_closed, exTetra_valid, hv, (C40_apex _ exTetra_closed _).trans hv⟩

/-- Moved by a quarter turn and a shift it keeps its volume. -/
example (τ : ℝ) : (PH.xform τ exTetra ⟨⟨1, 2, 3⟩, ⟨.ey, Vec3.ex.rev, .ez⟩⟩ (PH.clone τ exTetra)).volume = exTetra.volume := by
  refine (C40_xform τ _ _ _ ?_ exTetra_valid exTetra_closed rfl ?_).1
  · rw [Mat3.isRot_iff]
    constructor <;> simp [zeo]
  · simp [faceIdx, PH.clone, PH.mkFace]

end Zeo
