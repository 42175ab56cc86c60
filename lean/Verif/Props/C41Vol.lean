import Verif.Props.C41
import Verif.Props.C40
import Verif.Props.C10
import Verif.Lemmas.Triangle
import Verif.Lemmas.Revolve

/-! # C41, continued: geometry of the generated meshes -/

namespace Zeo
open Spec Gen

/-! ## Box -/

/-- The polyhedron of a box has the volume of the box times the handedness of its axes. -/
theorem C41_box_volume (τ : ℝ) (b : Box3 ℝ) : (boxPH τ b).volume = b.frame.att.det * b.volume := by
  simp only [boxPH, toPH, box, quad, PH.volume, PH.coneVolume, PH.mkFace, List.map, List.append_eq, List.nil_append,
    List.cons_append, List.foldl, Tri3.coneVolume, Box3.volume]
  have e0 : b.vert 0 = b.frame.xform ⟨1/2 * b.span.x, 1/2 * b.span.y, 1/2 * b.span.z⟩ := by simp [Box3.vert]
  have e1 : b.vert 1 = b.frame.xform ⟨-(1/2) * b.span.x, 1/2 * b.span.y, 1/2 * b.span.z⟩ := by simp [Box3.vert, Nat.testBit]
  have e2 : b.vert 2 = b.frame.xform ⟨-(1/2) * b.span.x, -(1/2) * b.span.y, 1/2 * b.span.z⟩ := by simp [Box3.vert, Nat.testBit]
  have e3 : b.vert 3 = b.frame.xform ⟨1/2 * b.span.x, -(1/2) * b.span.y, 1/2 * b.span.z⟩ := by simp [Box3.vert, Nat.testBit]
  have e4 : b.vert 4 = b.frame.xform ⟨1/2 * b.span.x, 1/2 * b.span.y, -(1/2) * b.span.z⟩ := by simp [Box3.vert, Nat.testBit]
  have e5 : b.vert 5 = b.frame.xform ⟨-(1/2) * b.span.x, 1/2 * b.span.y, -(1/2) * b.span.z⟩ := by simp [Box3.vert, Nat.testBit]
  have e6 : b.vert 6 = b.frame.xform ⟨-(1/2) * b.span.x, -(1/2) * b.span.y, -(1/2) * b.span.z⟩ := by simp [Box3.vert, Nat.testBit]
  have e7 : b.vert 7 = b.frame.xform ⟨1/2 * b.span.x, -(1/2) * b.span.y, -(1/2) * b.span.z⟩ := by simp [Box3.vert, Nat.testBit]
  rw [e0, e1, e2, e3, e4, e5, e6, e7]
  simp only [zeo]
  ring

/-- So a box with right-handed orthonormal axes converts to a mesh of exactly its volume. -/
theorem C41_box_volume_rot (τ : ℝ) (b : Box3 ℝ) (h : b.frame.att.IsRot) : (boxPH τ b).volume = b.volume := by
  rw [C41_box_volume, h.det_eq, one_mul]

/-! ## Rims -/

private theorem rim_eq {τ : ℝ} (hτ : 0 ≤ τ) (hτ' : τ ≤ 1/4) {u s : Vec3 ℝ} (hu : u.sqrNorm = 1) (hs : s.inner u = 0)
    {div : ℕ} (hd : 2 ≤ div) (ht : Real.sqrt 3 * τ < 2 * Real.pi / div) (i : ℕ) :
    rim τ u s div i = some ((s.mul (Real.cos (2 * Real.pi * i / div))).add ((u.outer s).mul (Real.sin (2 * Real.pi * i / div)))) := by
  have h3 : Real.sqrt 3 * τ < 1 := by
    have : Real.sqrt 3 ≤ 2 := Real.sqrt_le_iff.2 ⟨by norm_num, by norm_num⟩
    nlinarith
  have hnu : u.norm = 1 := by rw [Vec3.norm, hu, Real.sqrt_one]
  have hdp : (0 : ℝ) < div := by positivity
  unfold rim
  rw [C10_vec3Rot τ hτ h3]
  congr 1
  rcases Nat.eq_zero_or_pos i with rfl | hi
  · have ht : (u.mul (2 * Real.pi * (0 : ℕ) / div)).isTol τ := by
      simp [Vec3.isTol, zIsTol, Vec3.mul, hτ]
    rw [Mat3.fromAA, if_pos ht]
    simp only [Nat.cast_zero, mul_zero, zero_div, Real.cos_zero, Real.sin_zero]
    vring
  · have hi1 : (1 : ℝ) ≤ i := by exact_mod_cast hi
    have hth : 2 * Real.pi / div ≤ 2 * Real.pi * i / div := by
      apply div_le_div_of_nonneg_right _ hdp.le
      nlinarith [Real.pi_pos]
    have hpos : 0 < 2 * Real.pi * i / div := by positivity
    generalize 2 * Real.pi * i / div = θ at *
    have hn : (u.mul θ).norm = θ := by rw [Vec3.norm_mul, hnu, mul_one, abs_of_pos hpos]
    have hnt : ¬ (u.mul θ).isTol τ := fun h => by
      have := Vec3.norm_le_of_isTol h; linarith
    rw [Mat3.fromAA, if_neg hnt]
    simp only [hn]
    have e : (u.mul θ).mul (1 / θ) = u := by ext <;> simp only [Vec3.mul] <;> field_simp
    rw [e]
    generalize Real.cos θ = c
    generalize Real.sin θ = sn
    simp only [zeo] at hu hs
    ext <;> simp only [zeo]
    · linear_combination (1 - c) * u.x * hs + (c - 1) * s.x * hu
    · linear_combination (1 - c) * u.y * hs + (c - 1) * s.y * hu
    · linear_combination (1 - c) * u.z * hs + (c - 1) * s.z * hu

private theorem toPH_volume {m : Mesh} (hm : Closed m.face) (τ : ℝ) (vert : ℕ → Vec3 ℝ) (p : Vec3 ℝ) :
    (toPH τ m vert).volume =
    (m.face.map fun f => det3 ((vert f.1).sub p) ((vert f.2.1).sub p) ((vert f.2.2).sub p) / 6).sum := by
  have hc : Closed (facePts (toPH τ m vert)) := by
    apply closed_pts
    have : faceIdx (toPH τ m vert) = m.face := by
      simp only [faceIdx, toPH, List.map_map, Function.comp_def, PH.mkFace]
      exact List.map_id' _
    rw [this]; exact hm
  rw [← C40_apex _ hc p]
  simp only [toPH, List.map_map, Function.comp_def, PH.mkFace, C40_cone]

/-- The regular polygon with radius vectors `s`, `t`. -/
private noncomputable def pv (s t : Vec3 ℝ) (n i : ℕ) : Vec3 ℝ :=
  (s.mul (Real.cos (2 * Real.pi * i / n))).add (t.mul (Real.sin (2 * Real.pi * i / n)))

private theorem pv_step {n : ℕ} (hn : 1 ≤ n) {p : ℕ × ℕ} (hp : p ∈ ring 0 n) (s t H : Vec3 ℝ) :
    det3 (pv s t n p.2) (pv s t n p.1) H = Real.sin (2 * Real.pi / n) * det3 s t H := by
  have hn' : (n : ℝ) ≠ 0 := by positivity
  have key : Real.cos (2 * Real.pi * p.2 / n) * Real.sin (2 * Real.pi * p.1 / n) -
      Real.sin (2 * Real.pi * p.2 / n) * Real.cos (2 * Real.pi * p.1 / n) = Real.sin (2 * Real.pi / n) := by
    have e : Real.cos (2 * Real.pi * p.2 / n) * Real.sin (2 * Real.pi * p.1 / n) -
      Real.sin (2 * Real.pi * p.2 / n) * Real.cos (2 * Real.pi * p.1 / n) =
      Real.sin (2 * Real.pi * p.1 / n - 2 * Real.pi * p.2 / n) := by rw [Real.sin_sub]; ring
    rw [e]
    simp only [ring, List.mem_map, List.mem_range, zero_add] at hp
    obtain ⟨k, hk, rfl⟩ := hp
    dsimp only
    rcases Nat.eq_zero_or_pos k with rfl | h0
    · simp only [if_true]
      rw [Nat.cast_sub hn]
      have : 2 * Real.pi * ((0:ℕ):ℝ) / n - 2 * Real.pi * ((n:ℝ) - (1:ℕ)) / n = 2 * Real.pi / n - 2 * Real.pi := by
        push_cast; field_simp; ring
      rw [this, Real.sin_sub_two_pi]
    · rw [if_neg (by omega), Nat.cast_sub h0]
      congr 1; push_cast; field_simp; ring
  rw [← key]
  simp only [pv, det3, zeo]; ring

private theorem ring_const {lo n : ℕ} {f : ℕ × ℕ → ℝ} {c : ℝ} (h : ∀ p ∈ ring lo n, f p = c) :
    ((ring lo n).map f).sum = n * c := by
  rw [List.map_congr_left h, List.map_const', List.sum_replicate, length_ring, nsmul_eq_mul]

private theorem pv_flat (s t : Vec3 ℝ) (n i j k : ℕ) : det3 (pv s t n i) (pv s t n j) (pv s t n k) = 0 := by
  simp only [pv, det3, zeo]; ring

private theorem sum_zero' {α : Type*} (l : List α) (f : α → ℝ) (h : ∀ a ∈ l, f a = 0) : (l.map f).sum = 0 := by
  rw [List.map_congr_left h]; simp

/-- Prism over a regular polygon. -/
private theorem prism_sum {div : ℕ} (hd : 2 ≤ div) (s t H : Vec3 ℝ) (w : ℕ → Vec3 ℝ)
    (hw : ∀ i, i < div → w i = pv s t div i) (hw' : ∀ i, i < div → w (i + div) = (pv s t div i).add H) :
    ((cyl div).face.map fun f => det3 (w f.1) (w f.2.1) (w f.2.2) / 6).sum =
      div / 2 * (Real.sin (2 * Real.pi / div) * det3 s t H) := by
  simp only [cyl, List.map_append, List.sum_append]
  rw [sum_zero' _ _ (by
    intro f hf
    simp only [List.mem_map, List.mem_range'_1] at hf
    obtain ⟨i, hi, rfl⟩ := hf
    dsimp only
    rw [hw _ (by omega), hw _ (by omega), hw _ (by omega), pv_flat, zero_div])]
  have h2 : (((ring 0 div).flatMap fun p => [(p.2, p.1, p.1 + div), (p.2, p.1 + div, p.2 + div)]).map
      fun f => det3 (w f.1) (w f.2.1) (w f.2.2) / 6).sum = div * (Real.sin (2 * Real.pi / div) * det3 s t H / 3) := by
    rw [List.map_flatMap, List.flatMap_def, List.sum_flatten, List.map_map]
    apply ring_const
    intro p hp
    have hm := mem_ring hp
    have st := pv_step (by omega) hp s t H
    simp only [Function.comp_apply, List.map_cons, List.map_nil, List.sum_cons, List.sum_nil]
    rw [hw _ (by omega : p.2 < div), hw _ (by omega : p.1 < div), hw' _ (by omega : p.1 < div), hw' _ (by omega : p.2 < div)]
    have : det3 (pv s t div p.2) (pv s t div p.1) ((pv s t div p.1).add H) / 6 +
        (det3 (pv s t div p.2) ((pv s t div p.1).add H) ((pv s t div p.2).add H) / 6 + 0) =
        det3 (pv s t div p.2) (pv s t div p.1) H / 3 := by
      simp only [det3, zeo]; ring
    rw [this, st]
  have h3 : (((List.range' div (div - 2)).map fun i => (div * 2 - 1, i, i + 1)).map
      fun f => det3 (w f.1) (w f.2.1) (w f.2.2) / 6).sum = div * (Real.sin (2 * Real.pi / div) * det3 s t H / 6) := by
    have hb := bd_fan' (h := fun a b => det3 (w a) (w b) H / 6) (by intro a b; simp only [det3]; ring) div div hd
    have e : ringSum (fun a b => det3 (w a) (w b) H / 6) div div = div * (Real.sin (2 * Real.pi / div) * det3 s t H / 6) := by
      have := ringSum_add (fun a b => det3 (w a) (w b) H / 6) 0 div div
      rw [zero_add] at this
      rw [this]
      apply ring_const
      intro p hp
      have hm := mem_ring hp
      rw [hw' _ (by omega), hw' _ (by omega), ← pv_step (by omega) hp s t H]
      simp only [det3, zeo]; ring
    rw [← e, ← hb, bd_map, List.map_map]
    congr 1
    apply List.map_congr_left
    intro i hi
    simp only [List.mem_range'_1] at hi
    simp only [Function.comp_apply]
    obtain ⟨j, rfl⟩ : ∃ j, i = j + div := ⟨i - div, by omega⟩
    rw [show div * 2 - 1 = (div - 1) + div by omega, show div + div - 1 = (div - 1) + div by omega,
      show j + div + 1 = (j + 1) + div by omega]
    rw [hw' _ (by omega : div - 1 < div), hw' _ (by omega : j < div), hw' _ (by omega : j + 1 < div)]
    have := pv_flat s t div (div - 1) j (j + 1)
    generalize pv s t div (div - 1) = a at *
    generalize pv s t div j = b at *
    generalize pv s t div (j + 1) = c at *
    have e : det3 (a.add H) (b.add H) (c.add H) = det3 a b c + (det3 (a.add H) (b.add H) H + det3 (b.add H) (c.add H) H + det3 (c.add H) (a.add H) H) := by
      simp only [det3, zeo]; ring
    rw [e, this]; ring
  rw [h2, h3]; ring

/-- Frame made by the generators: unit axis `u`, radius vector `s` of length `|radius|`, and `H = L u`. -/
private theorem gen_frame {τ : ℝ} (hτ : 0 ≤ τ) (hτ' : τ ≤ 1/4) {d : Vec3 ℝ} (hd : ¬ d.isTol τ) (r : ℝ) :
    let u := (Vec3.normalize τ d d).2
    let s := (Vec3.orthonormal τ u).2.mul r
    u.sqrNorm = 1 ∧ d = u.mul d.norm ∧ s.inner u = 0 ∧ s.sqrNorm = r ^ 2 := by
  intro u s
  obtain ⟨-, hL, hu, he⟩ := axis_normalize hτ (old := d) hd
  have hu1 : u.sqrNorm = 1 := by
    have : u.inner u = 1 := hu
    rw [← this]; simp only [zeo]
  obtain ⟨t1, ht, hn, ho⟩ := orthoSpace_unit hτ hτ' hu1
  have e : (Vec3.orthonormal τ u).2 = t1 := by
    unfold Vec3.orthoSpace at ht
    dsimp only at ht
    split at ht
    · cases ht
    · simp only [Option.some.injEq, Prod.mk.injEq] at ht; exact ht.1
  refine ⟨hu1, ?_, ?_, ?_⟩
  · rw [hL] at he; exact he
  · show (Vec3.mul (Vec3.orthonormal τ u).2 r).inner u = 0
    rw [e]; simp only [zeo] at ho ⊢; linear_combination r * ho
  · show (Vec3.mul (Vec3.orthonormal τ u).2 r).sqrNorm = r ^ 2
    rw [e]; simp only [zeo] at hn ⊢; linear_combination r ^ 2 * hn

private theorem pv_circle {u s : Vec3 ℝ} (hu : u.sqrNorm = 1) (hs : s.inner u = 0) (n i : ℕ) :
    (pv s (u.outer s) n i).inner u = 0 ∧ (pv s (u.outer s) n i).sqrNorm = s.sqrNorm := by
  have h := Real.sin_sq_add_cos_sq (2 * Real.pi * i / n)
  simp only [pv]
  generalize Real.sin (2 * Real.pi * i / n) = sn at *
  generalize Real.cos (2 * Real.pi * i / n) = c at *
  simp only [zeo] at *
  constructor
  · linear_combination c * hs
  · linear_combination (s.x^2+s.y^2+s.z^2) * h + sn^2 * (s.x^2+s.y^2+s.z^2) * hu - sn^2 * (s.x * u.x + s.y * u.y + s.z * u.z) * hs

private theorem det_frame {u s : Vec3 ℝ} (hu : u.sqrNorm = 1) (hs : s.inner u = 0) (L : ℝ) :
    det3 s (u.outer s) (u.mul L) = s.sqrNorm * L := by
  simp only [det3, zeo] at *
  linear_combination L * (s.x^2+s.y^2+s.z^2) * hu - L * (s.x * u.x + s.y * u.y + s.z * u.z) * hs

/-- Cylinder: all `2 div` vertices are produced; they lie on the two rims (in the end planes, at the radius
from the end centres), and the mesh has the volume of the inscribed prism, positive (outward faces). -/
theorem C41_cyl_volume (τ : ℝ) (hτ : 0 ≤ τ) (hτ' : τ ≤ 1/4) (c : Cyl ℝ) (hc : ¬ (c.c1.sub c.c0).isTol τ)
    (div : ℕ) (hd : 2 ≤ div) (ht : Real.sqrt 3 * τ < 2 * Real.pi / div) :
    ∃ vert : ℕ → Vec3 ℝ, (∀ n < 2 * div, cylVert τ c div n = some (vert n)) ∧
      (∀ n < div, ((vert n).sub c.c0).inner (c.c1.sub c.c0) = 0 ∧ sqd (vert n) c.c0 = c.radius ^ 2) ∧
      (∀ n, div ≤ n → n < 2 * div → ((vert n).sub c.c1).inner (c.c1.sub c.c0) = 0 ∧ sqd (vert n) c.c1 = c.radius ^ 2) ∧
      (toPH τ (cyl div) vert).volume =
        div / 2 * Real.sin (2 * Real.pi / div) * c.radius ^ 2 * ed c.c0 c.c1 := by
  obtain ⟨hu, hL, hs, hr⟩ := gen_frame hτ hτ' hc c.radius
  set d := c.c1.sub c.c0 with hdd
  set u := (Vec3.normalize τ d d).2 with huu
  set s := (Vec3.orthonormal τ u).2.mul c.radius with hss
  have hin : ∀ i, (pv s (u.outer s) div i).inner d = 0 := by
    intro i
    have := (pv_circle hu hs div i).1
    rw [hL]; simp only [zeo] at this ⊢; linear_combination d.norm * this
  have hsq : ∀ i, (pv s (u.outer s) div i).sqrNorm = c.radius ^ 2 := fun i => by rw [(pv_circle hu hs div i).2, hr]
  refine ⟨fun n => if n < div then c.c0.add (pv s (u.outer s) div n) else c.c1.add (pv s (u.outer s) div (n - div)), ?_, ?_, ?_, ?_⟩
  · intro n _
    simp only [cylVert, ← hdd, ← huu, ← hss]
    rw [rim_eq hτ hτ' hu hs hd ht]
    split_ifs <;> rfl
  · intro n hn
    simp only [hn, if_true]
    rw [← hin n, ← hsq n]
    constructor
    · simp only [zeo]; ring
    · simp only [sqd, zeo]; ring
  · intro n h1 h2
    simp only [if_neg (by omega : ¬ n < div)]
    rw [← hin (n - div), ← hsq (n - div)]
    constructor
    · simp only [zeo]; ring
    · simp only [sqd, zeo]; ring
  · rw [toPH_volume (C41_cyl div hd).1 τ _ c.c0]
    rw [prism_sum hd s (u.outer s) d (fun n => ((if n < div then c.c0.add (pv s (u.outer s) div n) else c.c1.add (pv s (u.outer s) div (n - div))) : Vec3 ℝ).sub c.c0)]
    · have e : d.norm = ed c.c0 c.c1 := Vec3.norm_eq_ed _ _
      rw [← e]
      have := det_frame hu hs d.norm
      rw [← hL, hr] at this
      rw [this]; ring
    · intro i hi; simp only [hi, if_true]; vring
    · intro i hi
      simp only [if_neg (by omega : ¬ i + div < div), Nat.add_sub_cancel, hdd]; vring

/-- Cone: the apex, the rim vertices, and the volume of the inscribed pyramid. -/
theorem C41_cone_volume (τ : ℝ) (hτ : 0 ≤ τ) (hτ' : τ ≤ 1/4) (c : Cone ℝ) (hc : ¬ (c.vert.sub c.center).isTol τ)
    (div : ℕ) (hd : 2 ≤ div) (ht : Real.sqrt 3 * τ < 2 * Real.pi / div) :
    ∃ vert : ℕ → Vec3 ℝ, (∀ n < div + 1, coneVert τ c div n = some (vert n)) ∧ vert 0 = c.vert ∧
      (∀ n, 0 < n → n ≤ div → ((vert n).sub c.center).inner (c.vert.sub c.center) = 0 ∧ sqd (vert n) c.center = c.radius ^ 2) ∧
      (toPH τ (cone div) vert).volume =
        div / 6 * Real.sin (2 * Real.pi / div) * c.radius ^ 2 * ed c.center c.vert := by
  obtain ⟨hu, hL, hs, hr⟩ := gen_frame hτ hτ' hc c.radius
  set d := c.vert.sub c.center with hdd
  set u := (Vec3.normalize τ d d).2 with huu
  set s := (Vec3.orthonormal τ u).2.mul c.radius with hss
  have hin : ∀ i, (pv s (u.outer s) div i).inner d = 0 := by
    intro i
    have := (pv_circle hu hs div i).1
    rw [hL]; simp only [zeo] at this ⊢; linear_combination d.norm * this
  have hsq : ∀ i, (pv s (u.outer s) div i).sqrNorm = c.radius ^ 2 := fun i => by rw [(pv_circle hu hs div i).2, hr]
  refine ⟨fun n => if n = 0 then c.vert else c.center.add (pv s (u.outer s) div (n - 1)), ?_, ?_, ?_, ?_⟩
  · intro n _
    simp only [coneVert, ← hdd, ← huu, ← hss]
    rw [rim_eq hτ hτ' hu hs hd ht]
    split_ifs <;> rfl
  · simp
  · intro n h1 h2
    simp only [if_neg (by omega : ¬ n = 0)]
    rw [← hin (n - 1), ← hsq (n - 1)]
    constructor
    · simp only [zeo]; ring
    · simp only [sqd, zeo]; ring
  · rw [toPH_volume (C41_cone div hd).1 τ _ c.center]
    have hw0 : ∀ i, ((if i + 1 = 0 then c.vert else c.center.add (pv s (u.outer s) div (i + 1 - 1))) : Vec3 ℝ).sub c.center = pv s (u.outer s) div i := by
      intro i; simp only [if_neg (by omega : ¬ i + 1 = 0), Nat.add_sub_cancel]; vring
    simp only [Gen.cone, List.map_append, List.sum_append, List.map_map]
    rw [sum_zero' (List.range' 3 (div - 2)) _ (by
      intro i hi
      simp only [List.mem_range'_1] at hi
      simp only [Function.comp_apply]
      have e1 := hw0 0
      have e2 := hw0 (i - 1)
      have e3 := hw0 (i - 1 - 1)
      rw [Nat.sub_add_cancel (by omega)] at e2 e3
      rw [zero_add] at e1
      rw [e1, e2, e3, pv_flat, zero_div])]
    have hr1 : ring 1 div = (ring 0 div).map fun p => (p.1 + 1, p.2 + 1) := by
      have := ring_add 0 div 1
      rwa [zero_add] at this
    rw [hr1, List.map_map]
    rw [ring_const (c := Real.sin (2 * Real.pi / div) * det3 s (u.outer s) d / 6)]
    · have e : d.norm = ed c.center c.vert := Vec3.norm_eq_ed _ _
      rw [← e]
      have := det_frame hu hs d.norm
      rw [← hL, hr] at this
      rw [this]; ring
    · intro p hp
      simp only [Function.comp_apply, if_true]
      have e1 := hw0 p.1
      have e2 := hw0 p.2
      rw [e1, e2, ← pv_step (by omega) hp s (u.outer s) d, ← hdd]
      simp only [det3]; ring

/-! ## Sphere: orientation -/

private noncomputable def sp (r a t : ℝ) : Vec3 ℝ := ⟨r * Real.sin a * Real.cos t, r * Real.sin a * Real.sin t, r * Real.cos a⟩

private theorem sphereVert_row (s : Sphere3 ℝ) {div i j : ℕ} (hi : i + 1 < div) (hj : j < div) :
    (sphereVert s div (j + (i * div + 1))).sub s.center = sp s.radius (Real.pi * (i + 1) / div) (2 * Real.pi * j / div) := by
  have h1 : i * div + div ≤ (div - 1) * div := by
    have : (i + 1) * div ≤ (div - 1) * div := Nat.mul_le_mul_right _ (by omega)
    linarith
  have h2 : (div - 1) * div = div * (div - 1) := Nat.mul_comm _ _
  have e1 : (j + (i * div + 1) - 1) / div = i := by
    rw [show j + (i * div + 1) - 1 = j + div * i by rw [Nat.mul_comm]; omega, Nat.add_mul_div_left _ _ (by omega), Nat.div_eq_of_lt hj]; omega
  have e2 : (j + (i * div + 1) - 1) % div = j := by
    rw [show j + (i * div + 1) - 1 = j + div * i by rw [Nat.mul_comm]; omega, Nat.add_mul_mod_self_left, Nat.mod_eq_of_lt hj]
  unfold sphereVert
  rw [if_neg (by omega), if_neg (by omega), e1, e2]
  simp only [sp]
  push_cast
  vring

private theorem sin_ang {n : ℕ} (hn : 1 ≤ n) {p : ℕ × ℕ} (hp : p ∈ ring 0 n) :
    Real.cos (2 * Real.pi * p.2 / n) * Real.sin (2 * Real.pi * p.1 / n) -
      Real.sin (2 * Real.pi * p.2 / n) * Real.cos (2 * Real.pi * p.1 / n) = Real.sin (2 * Real.pi / n) := by
  have h := pv_step hn hp ⟨1, 0, 0⟩ ⟨0, 1, 0⟩ ⟨0, 0, 1⟩
  simp only [pv, det3, zeo] at h
  linarith

private theorem sin_row {div : ℕ} (hd : 3 ≤ div) {i : ℕ} (hi : i + 1 < div) : 0 < Real.sin (Real.pi * (i + 1) / div) := by
  have hp := Real.pi_pos
  have hdp : (0 : ℝ) < div := by positivity
  apply Real.sin_pos_of_pos_of_lt_pi (by positivity)
  rw [div_lt_iff₀ hdp]
  have : (i : ℝ) + 1 < div := by exact_mod_cast hi
  nlinarith

private theorem sin_col {div : ℕ} (hd : 3 ≤ div) : 0 < Real.sin (2 * Real.pi / div) := by
  have hp := Real.pi_pos
  have hdp : (3 : ℝ) ≤ div := by exact_mod_cast hd
  have hdp' : (0 : ℝ) < div := by positivity
  apply Real.sin_pos_of_pos_of_lt_pi (by positivity)
  rw [div_lt_iff₀ hdp']
  nlinarith

/-- Every face of the sphere mesh that touches a pole looks inward and every other face looks outward: seen from
the centre, its cone volume is negative respectively positive. -/
theorem C41_sphere_orientation (s : Sphere3 ℝ) (hr : 0 < s.radius) (div : ℕ) (hd : 3 ≤ div) :
    ∀ f ∈ (sphere div).face,
      if f.1 = 0 ∨ f.2.1 = div * (div - 1) + 1 then
        Tri3.coneVolume (sphereVert s div f.1) (sphereVert s div f.2.1) (sphereVert s div f.2.2) s.center < 0
      else 0 < Tri3.coneVolume (sphereVert s div f.1) (sphereVert s div f.2.1) (sphereVert s div f.2.2) s.center := by
  intro f hf
  rw [sphere_last div (by omega)] at hf
  simp only [sphereUpper, List.mem_append, List.mem_map, List.mem_flatMap, List.mem_range'_1, sphereRow] at hf
  have hN : div * (div - 1) = (div - 2) * div + div := by
    obtain ⟨m, rfl⟩ : ∃ m, div = m + 2 := ⟨div - 2, by omega⟩
    rw [show m + 2 - 1 = m + 1 by omega, show m + 2 - 2 = m by omega]; ring
  have hc := sin_col hd
  rcases hf with (⟨p, hp, rfl⟩ | ⟨i, hi, p, hp, hf⟩) | ⟨p, hp, rfl⟩
  · have hr1 := ring_add 0 div 1
    rw [zero_add] at hr1
    rw [hr1, List.mem_map] at hp
    obtain ⟨q, hq, rfl⟩ := hp
    have hm := mem_ring hq
    simp only [true_or, if_true]
    rw [C40_cone]
    have e1 := sphereVert_row s (i := 0) (by omega : 0 + 1 < div) (by omega : q.1 < div)
    have e2 := sphereVert_row s (i := 0) (by omega : 0 + 1 < div) (by omega : q.2 < div)
    rw [Nat.zero_mul, zero_add] at e1 e2
    rw [e1, e2]
    have e0 : (sphereVert s div 0).sub s.center = ⟨0, 0, s.radius⟩ := by
      simp only [sphereVert, if_true]; vring
    rw [e0]
    have ha := sin_row hd (i := 0) (by omega)
    have hs := sin_ang (by omega) hq
    have : det3 ⟨0, 0, s.radius⟩ (sp s.radius (Real.pi * (((0:ℕ):ℝ) + 1) / div) (2 * Real.pi * q.1 / div))
        (sp s.radius (Real.pi * (((0:ℕ):ℝ) + 1) / div) (2 * Real.pi * q.2 / div)) / 6 =
        - (s.radius ^ 3 * Real.sin (Real.pi * (((0:ℕ):ℝ) + 1) / div) ^ 2 * Real.sin (2 * Real.pi / div) / 6) := by
      rw [← hs]; simp only [det3, sp]; ring
    rw [this, neg_lt_zero]; positivity
  · obtain ⟨t, rfl⟩ : ∃ t, i = t + 2 := ⟨i - 2, by omega⟩
    have hr1 := ring_add 0 div ((t + 1) * div + 1)
    rw [zero_add] at hr1
    rw [show t + 2 - 1 = t + 1 by omega, hr1, List.mem_map] at hp
    obtain ⟨q, hq, rfl⟩ := hp
    have hm := mem_ring hq
    have hs := sin_ang (by omega) hq
    have hb : (t + 1) * div + div ≤ div * (div - 1) := by
      have : (t + 2) * div ≤ (div - 1) * div := Nat.mul_le_mul_right _ (by omega)
      rw [Nat.mul_comm div]; linarith
    have hb' : (t + 1) * div = t * div + div := by ring
    have hsub : ∀ j, j + ((t + 1) * div + 1) - div = j + (t * div + 1) := by intro j; omega
    have hrow := sin_row hd (i := t + 1) (by omega)
    have hrow' := sin_row hd (i := t) (by omega)
    have hst := sin_row hd (i := 0) (by omega)
    have hdp : (0:ℝ) < div := by positivity
    have hstep : Real.sin (Real.pi * (((t + 1 : ℕ) : ℝ) + 1) / div) * Real.cos (Real.pi * ((t : ℝ) + 1) / div) -
        Real.cos (Real.pi * (((t + 1 : ℕ) : ℝ) + 1) / div) * Real.sin (Real.pi * ((t : ℝ) + 1) / div) =
        Real.sin (Real.pi * (((0 : ℕ) : ℝ) + 1) / div) := by
      rw [← Real.sin_sub]; congr 1; push_cast; ring
    have a1 := sphereVert_row s (i := t + 1) (by omega) (by omega : q.1 < div)
    have a2 := sphereVert_row s (i := t + 1) (by omega) (by omega : q.2 < div)
    have b1 := sphereVert_row s (i := t) (by omega) (by omega : q.1 < div)
    have b2 := sphereVert_row s (i := t) (by omega) (by omega : q.2 < div)
    simp only [List.mem_cons, List.not_mem_nil, or_false] at hf
    rcases hf with rfl | rfl
    · dsimp only
      rw [if_neg (by omega), C40_cone, hsub, a1, a2, b1]
      have : det3 (sp s.radius (Real.pi * (((t + 1 : ℕ) : ℝ) + 1) / div) (2 * Real.pi * q.2 / div))
          (sp s.radius (Real.pi * (((t + 1 : ℕ) : ℝ) + 1) / div) (2 * Real.pi * q.1 / div))
          (sp s.radius (Real.pi * ((t : ℝ) + 1) / div) (2 * Real.pi * q.1 / div)) / 6 =
          s.radius ^ 3 * Real.sin (Real.pi * (((t + 1 : ℕ) : ℝ) + 1) / div) * Real.sin (2 * Real.pi / div) *
            Real.sin (Real.pi * (((0 : ℕ) : ℝ) + 1) / div) / 6 := by
        rw [← hs, ← hstep]; simp only [det3, sp]; ring
      rw [this]; positivity
    · dsimp only
      rw [if_neg (by omega), C40_cone, hsub, hsub, a2, b1, b2]
      have : det3 (sp s.radius (Real.pi * (((t + 1 : ℕ) : ℝ) + 1) / div) (2 * Real.pi * q.2 / div))
          (sp s.radius (Real.pi * ((t : ℝ) + 1) / div) (2 * Real.pi * q.1 / div))
          (sp s.radius (Real.pi * ((t : ℝ) + 1) / div) (2 * Real.pi * q.2 / div)) / 6 =
          s.radius ^ 3 * Real.sin (Real.pi * ((t : ℝ) + 1) / div) * Real.sin (2 * Real.pi / div) *
            Real.sin (Real.pi * (((0 : ℕ) : ℝ) + 1) / div) / 6 := by
        rw [← hs, ← hstep]; simp only [det3, sp]; ring
      rw [this]; positivity
  · have hr1 := ring_add 0 div ((div - 2) * div + 1)
    rw [zero_add] at hr1
    rw [hr1, List.mem_map] at hp
    obtain ⟨q, hq, rfl⟩ := hp
    have hm := mem_ring hq
    simp only [or_true, if_true]
    rw [C40_cone]
    have e1 := sphereVert_row s (i := div - 2) (by omega) (by omega : q.1 < div)
    have e2 := sphereVert_row s (i := div - 2) (by omega) (by omega : q.2 < div)
    rw [e1, e2]
    have e0 : (sphereVert s div (div * (div - 1) + 1)).sub s.center = ⟨0, 0, - s.radius⟩ := by
      simp only [sphereVert, if_true]; rw [if_neg (by omega)]; vring
    rw [e0]
    have ha := sin_row hd (i := div - 2) (by omega)
    have hs := sin_ang (by omega) hq
    have : det3 (sp s.radius (Real.pi * (((div - 2 : ℕ):ℝ) + 1) / div) (2 * Real.pi * q.1 / div)) ⟨0, 0, - s.radius⟩
        (sp s.radius (Real.pi * (((div - 2 : ℕ):ℝ) + 1) / div) (2 * Real.pi * q.2 / div)) / 6 =
        - (s.radius ^ 3 * Real.sin (Real.pi * (((div - 2 : ℕ):ℝ) + 1) / div) ^ 2 * Real.sin (2 * Real.pi / div) / 6) := by
      rw [← hs]; simp only [det3, sp]; ring
    rw [this, neg_lt_zero]; positivity

/-- A sphere meeting the hypotheses; its mesh has faces of both kinds. -/
example : ∃ s : Sphere3 ℝ, 0 < s.radius ∧ (0, 1, 3) ∈ (sphere 3).face ∧ (6, 4, 1) ∈ (sphere 3).face :=
  ⟨⟨⟨1, 2, 3⟩, 2⟩, by norm_num, by decide, by decide⟩

/-- The hypotheses are met by a unit cylinder and cone divided into 32, at the tolerance `1e-12` of the library. -/
example : ∃ (c : Cyl ℝ) (τ : ℝ), 0 ≤ τ ∧ τ ≤ 1/4 ∧ ¬ (c.c1.sub c.c0).isTol τ ∧ Real.sqrt 3 * τ < 2 * Real.pi / (32 : ℕ) ∧
    0 < c.radius := by
  refine ⟨⟨⟨0,0,0⟩, ⟨0,0,1⟩, 1⟩, 1e-12, by norm_num, by norm_num, ?_, ?_, by norm_num⟩
  · simp only [zeo, Vec3.isTol, zIsTol]; norm_num
  · have h1 : Real.sqrt 3 ≤ 2 := Real.sqrt_le_iff.2 ⟨by norm_num, by norm_num⟩
    have h2 := Real.two_le_pi
    push_cast
    nlinarith

/-! ## Torus: normals -/

private theorem torus_fold (τ : ℝ) (div : ℕ) (vtx : ℕ → Vec3 ℝ) (l : List ((ℕ × ℕ) × (ℕ × ℕ))) (buf : ℕ → Vec3 ℝ) (fs : List (Face ℝ)) :
    (∀ m, (l.foldl (torusStep τ div vtx) (buf, fs)).1 m = if ∃ x ∈ l, x.1.1 * div + x.2.1 = m then vtx m else buf m) ∧
    ∃ gs, (l.foldl (torusStep τ div vtx) (buf, fs)).2 = fs ++ gs ∧
      gs.map (fun f => (f.i0, f.i1, f.i2)) = l.flatMap fun x =>
        [(x.1.1 * div + x.2.1, x.1.2 * div + x.2.1, x.1.2 * div + x.2.2), (x.1.1 * div + x.2.1, x.1.2 * div + x.2.2, x.1.1 * div + x.2.2)] := by
  induction l generalizing buf fs with
  | nil => exact ⟨fun m => by simp, [], by simp, rfl⟩
  | cons a l ih =>
    rw [List.foldl_cons]
    obtain ⟨h1, gs, h2, h3⟩ := ih (torusStep τ div vtx (buf, fs) a).1 (torusStep τ div vtx (buf, fs) a).2
    constructor
    · intro m
      rw [h1 m]
      simp only [torusStep, List.mem_cons, exists_eq_or_imp]
      by_cases hl : ∃ x ∈ l, x.1.1 * div + x.2.1 = m
      · rw [if_pos hl, if_pos (Or.inr hl)]
      · rw [if_neg hl]
        by_cases hm : a.1.1 * div + a.2.1 = m
        · rw [if_pos (Or.inl hm), ← hm, Function.update_self]
        · rw [if_neg (fun h => h.elim hm hl), Function.update_of_ne (fun h => hm h.symm)]
    · refine ⟨[PH.mkFace τ (torusStep τ div vtx (buf, fs) a).1 (a.1.1 * div + a.2.1) (a.1.2 * div + a.2.1) (a.1.2 * div + a.2.2),
        PH.mkFace τ (torusStep τ div vtx (buf, fs) a).1 (a.1.1 * div + a.2.1) (a.1.2 * div + a.2.2) (a.1.1 * div + a.2.2)] ++ gs, ?_, ?_⟩
      · rw [h2]; simp [torusStep]
      · rw [List.map_append, h3]; simp [PH.mkFace]

private theorem torusIdx_key (n div m : ℕ) : (∃ x ∈ torusIdx n div, x.1.1 * div + x.2.1 = m) ↔ m < n * div := by
  have hin : ∀ n i, (∃ p ∈ ring 0 n, p.1 = i) ↔ i < n := by
    intro n i
    constructor
    · rintro ⟨p, hp, rfl⟩; have := mem_ring hp; omega
    · intro h; refine ⟨_, List.mem_map.2 ⟨i, List.mem_range.2 h, rfl⟩, by simp⟩
  constructor
  · rintro ⟨⟨p, q⟩, hx, rfl⟩
    simp only [torusIdx, List.mem_flatMap, List.mem_map, Prod.mk.injEq] at hx
    obtain ⟨p', hp, q', hq, rfl, rfl⟩ := hx
    have h1 := mem_ring hp
    have h2 := mem_ring hq
    have : (p'.1 + 1) * div ≤ n * div := Nat.mul_le_mul_right _ (by omega)
    dsimp only
    rw [Nat.add_mul] at this
    omega
  · intro h
    have hd : 0 < div := Nat.pos_of_ne_zero (by rintro rfl; simp at h)
    obtain ⟨p, hp, e1⟩ := (hin n (m / div)).2 (Nat.div_lt_of_lt_mul (by rwa [Nat.mul_comm]))
    obtain ⟨q, hq, e2⟩ := (hin div (m % div)).2 (Nat.mod_lt _ hd)
    refine ⟨(p, q), ?_, ?_⟩
    · simp only [torusIdx, List.mem_flatMap, List.mem_map]; exact ⟨p, hp, q, hq, rfl⟩
    · dsimp only; rw [e1, e2, Nat.mul_comm]; exact Nat.div_add_mod m div

/-- The vertices and face indices of the torus are those of the mesh of `C41_torus`; there are `n * div`
vertices and every vertex slot is written. -/
theorem C41_torus_mesh (τ : ℝ) (n div : ℕ) (vtx junk : ℕ → Vec3 ℝ) :
    (torusRaw τ n div vtx junk).nv = n * div ∧
    (∀ m < n * div, (torusRaw τ n div vtx junk).vert m = vtx m) ∧ faceIdx (torusRaw τ n div vtx junk) = (torus n div).face := by
  obtain ⟨h1, gs, h2, h3⟩ := torus_fold τ div vtx (torusIdx n div) junk []
  refine ⟨rfl, ?_, ?_⟩
  · intro m hm
    show ((torusIdx n div).foldl (torusStep τ div vtx) (junk, [])).1 m = vtx m
    rw [h1 m, if_pos ((torusIdx_key n div m).2 hm)]
  · show ((torusIdx n div).foldl (torusStep τ div vtx) (junk, [])).2.map _ = _
    rw [h2, List.nil_append, h3]
    simp only [torusIdx, torus, List.flatMap_assoc, List.flatMap_map]

/-- When the direction correction is applied, every stored normal is the normal of the corners. -/
theorem C41_torus_normals_flipped (τ : ℝ) (n div : ℕ) (vtx junk : ℕ → Vec3 ℝ) (hv : (torusRaw τ n div vtx junk).volume < 0) :
    ∀ f ∈ (torusPH τ n div vtx junk).face, f = PH.mkFace τ (torusPH τ n div vtx junk).vert f.i0 f.i1 f.i2 := by
  intro f hf
  unfold torusPH at hf ⊢
  rw [if_pos hv] at hf ⊢
  simp only [PH.flipDRC, List.mem_map] at hf ⊢
  obtain ⟨g, -, rfl⟩ := hf
  rfl

/-- When no correction is applied, the first face keeps the normal it got while its second and third corners
were still unwritten: with a zeroed buffer, the zero vector, whatever the loop. -/
theorem C41_torus_normals_stale (τ : ℝ) (hτ : 0 ≤ τ) (n div : ℕ) (hn : 2 ≤ n) (hd : 1 ≤ div) (vtx : ℕ → Vec3 ℝ)
    (hv : ¬ (torusRaw τ n div vtx fun _ => .zero).volume < 0) :
    ∃ f fs, (torusPH τ n div vtx fun _ => .zero).face = f :: fs ∧
      (f.i0, f.i1, f.i2) = (0, (n - 1) * div, n * div - 1) ∧ f.norm = .zero := by
  obtain ⟨n, rfl⟩ : ∃ k, n = k + 2 := ⟨n - 2, by omega⟩
  obtain ⟨d, rfl⟩ : ∃ k, div = k + 1 := ⟨div - 1, by omega⟩
  unfold torusPH
  rw [if_neg hv]
  obtain ⟨l, hl⟩ : ∃ l, torusIdx (n + 2) (d + 1) = ((0, n + 1), (0, d)) :: l := by
    refine ⟨(torusIdx (n + 2) (d + 1)).tail, ?_⟩
    unfold torusIdx ring
    simp only [List.range_succ_eq_map, List.map_cons, List.flatMap_cons, List.cons_append, if_true, List.tail_cons,
      zero_add, Nat.add_sub_cancel, show n + 2 - 1 = n + 1 from rfl]
  have e : (torusRaw τ (n + 2) (d + 1) vtx fun _ => .zero).face =
      (((0, n + 1), (0, d)) :: l |>.foldl (torusStep τ (d + 1) vtx) ((fun _ => .zero), [])).2 := by rw [← hl]; rfl
  rw [e, List.foldl_cons]
  obtain ⟨-, gs, h2, -⟩ := torus_fold τ (d + 1) vtx l (torusStep τ (d + 1) vtx ((fun _ => .zero), []) ((0, n + 1), (0, d))).1
    (torusStep τ (d + 1) vtx ((fun _ => .zero), []) ((0, n + 1), (0, d))).2
  rw [h2]
  refine ⟨_, _, rfl, ?_, ?_⟩
  · simp only [PH.mkFace, Prod.mk.injEq]
    refine ⟨by omega, by rw [show n + 2 - 1 = n + 1 by omega]; omega, ?_⟩
    rw [show (n + 2) * (d + 1) = (n + 1) * (d + 1) + (d + 1) by ring]; omega
  · have h0 : (n + 1) * (d + 1) ≠ 0 := by positivity
    simp only [PH.mkFace, zero_mul, add_zero, Function.update_self]
    rw [Function.update_of_ne h0, Function.update_of_ne (by omega)]
    unfold Tri3.create
    simp [Tri3.outerProd, zeo, Vec3.isTol, zIsTol, hτ]

private theorem rot_z {τ : ℝ} (hτ : 0 ≤ τ) (hτ' : τ ≤ 1/4) (v : Vec3 ℝ) {θ : ℝ} (h : θ = 0 ∨ 1 ≤ θ) :
    Vec3.rot τ v ((⟨0, 0, 1⟩ : Vec3 ℝ).mul θ) =
      some ⟨Real.cos θ * v.x - Real.sin θ * v.y, Real.sin θ * v.x + Real.cos θ * v.y, v.z⟩ := by
  have h3 : Real.sqrt 3 * τ < 1 := by
    have : Real.sqrt 3 ≤ 2 := Real.sqrt_le_iff.2 ⟨by norm_num, by norm_num⟩
    nlinarith
  rw [C10_vec3Rot τ hτ h3]
  congr 1
  rcases h with rfl | h
  · have ht : ((⟨0, 0, 1⟩ : Vec3 ℝ).mul 0).isTol τ := by simp [Vec3.isTol, zIsTol, Vec3.mul, hτ]
    rw [Mat3.fromAA, if_pos ht]
    simp only [Real.cos_zero, Real.sin_zero]
    vring
  · have hpos : 0 < θ := by linarith
    have hn : ((⟨0, 0, 1⟩ : Vec3 ℝ).mul θ).norm = θ := by
      rw [Vec3.norm_mul, abs_of_pos hpos]; simp [Vec3.norm, zeo]
    have hnt : ¬ ((⟨0, 0, 1⟩ : Vec3 ℝ).mul θ).isTol τ := fun h => by
      have := Vec3.norm_le_of_isTol h; linarith
    rw [Mat3.fromAA, if_neg hnt]
    simp only [hn]
    have e : ((⟨0, 0, 1⟩ : Vec3 ℝ).mul θ).mul (1 / θ) = ⟨0, 0, 1⟩ := by ext <;> simp only [Vec3.mul] <;> field_simp
    rw [e]
    vring

/-- The section loop of the example. -/
private def exLoop : ℕ → Vec3 ℝ := fun i => if i = 0 then ⟨2, 0, 0⟩ else if i = 1 then ⟨2, 0, 1⟩ else ⟨3, 0, 0⟩
/-- Its twelve vertices turned about the z axis by quarter turns. -/
private def exVtx : ℕ → Vec3 ℝ := fun k =>
  if k = 0 then ⟨2, 0, 0⟩ else if k = 1 then ⟨0, 2, 0⟩ else if k = 2 then ⟨-2, 0, 0⟩ else if k = 3 then ⟨0, -2, 0⟩
  else if k = 4 then ⟨2, 0, 1⟩ else if k = 5 then ⟨0, 2, 1⟩ else if k = 6 then ⟨-2, 0, 1⟩ else if k = 7 then ⟨0, -2, 1⟩
  else if k = 8 then ⟨3, 0, 0⟩ else if k = 9 then ⟨0, 3, 0⟩ else if k = 10 then ⟨-3, 0, 0⟩ else ⟨0, -3, 0⟩

private theorem quarter (j : ℕ) (hj : j < 4) : (2 * Real.pi * j / (4 : ℕ) = 0 ∨ 1 ≤ 2 * Real.pi * j / (4 : ℕ)) ∧
    Real.cos (2 * Real.pi * j / (4 : ℕ)) = (if j = 0 then 1 else if j = 1 then 0 else if j = 2 then -1 else 0) ∧
    Real.sin (2 * Real.pi * j / (4 : ℕ)) = (if j = 0 then 0 else if j = 1 then 1 else if j = 2 then 0 else -1) := by
  have hp := Real.two_le_pi
  interval_cases j
  · simp
  · have : 2 * Real.pi * ((1 : ℕ) : ℝ) / (4 : ℕ) = Real.pi / 2 := by push_cast; ring
    rw [this]; exact ⟨Or.inr (by linarith), by simp, by simp⟩
  · have : 2 * Real.pi * ((2 : ℕ) : ℝ) / (4 : ℕ) = Real.pi := by push_cast; ring
    rw [this]; exact ⟨Or.inr (by linarith), by simp, by simp⟩
  · have : 2 * Real.pi * ((3 : ℕ) : ℝ) / (4 : ℕ) = Real.pi / 2 + Real.pi := by push_cast; ring
    rw [this]; exact ⟨Or.inr (by linarith), by simp [Real.cos_add_pi], by simp [Real.sin_add_pi]⟩

/-- A torus on which this happens: three section points, four copies, positive volume; the stored normal of the
first face is zero although its corners span a proper triangle. -/
theorem C41_torus_stale_example (τ : ℝ) (hτ : 0 ≤ τ) (hτ' : τ ≤ 1/4) :
    ∃ (loop vtx : ℕ → Vec3 ℝ), (∀ k < 3 * 4, torusVert τ loop .zero ⟨0, 0, 1⟩ 4 k = some (vtx k)) ∧
      (torusRaw τ 3 4 vtx fun _ => .zero).volume = 14 / 3 ∧
      (PH.mkFace τ vtx 0 8 11).norm ≠ .zero ∧
      ∃ f fs, (torusPH τ 3 4 vtx fun _ => .zero).face = f :: fs ∧ (f.i0, f.i1, f.i2) = (0, 8, 11) ∧ f.norm = .zero := by
  have hvol : (torusRaw τ 3 4 exVtx fun _ => .zero).volume = 14 / 3 := by
    obtain ⟨-, h1, h2⟩ := C41_torus_mesh τ 3 4 exVtx fun _ => .zero
    have : (torusRaw τ 3 4 exVtx fun _ => .zero).volume = ((torus 3 4).face.map fun f => det3 (exVtx f.1) (exVtx f.2.1) (exVtx f.2.2) / 6).sum := by
      unfold PH.volume
      rw [foldl_add_sum, zero_add, ← h2]
      unfold faceIdx
      rw [List.map_map]
      congr 1
      apply List.map_congr_left
      intro f hf
      have hm : (f.i0, f.i1, f.i2) ∈ (torus 3 4).face := by rw [← h2]; exact List.mem_map.2 ⟨f, hf, rfl⟩
      have hb := (C41_torus 3 4).2.2 _ hm
      unfold PH.coneVolume
      dsimp only at hb
      rw [h1 _ hb.1, h1 _ hb.2.1, h1 _ hb.2.2, C40_cone]
      simp only [Function.comp_apply, det3, zeo, sub_zero]
    rw [this]
    have hf : (torus 3 4).face = [(0, 8, 11), (0, 11, 3), (1, 9, 8), (1, 8, 0), (2, 10, 9), (2, 9, 1), (3, 11, 10), (3, 10, 2),
      (4, 0, 3), (4, 3, 7), (5, 1, 0), (5, 0, 4), (6, 2, 1), (6, 1, 5), (7, 3, 2), (7, 2, 6),
      (8, 4, 7), (8, 7, 11), (9, 5, 4), (9, 4, 8), (10, 6, 5), (10, 5, 9), (11, 7, 6), (11, 6, 10)] := by decide
    rw [hf]
    simp [exVtx, det3]
    norm_num
  refine ⟨exLoop, exVtx, ?_, hvol, ?_, ?_⟩
  · intro k hk
    unfold torusVert
    obtain ⟨hq, hcos, hsin⟩ := quarter (k % 4) (Nat.mod_lt _ (by norm_num))
    rw [rot_z hτ hτ' _ hq, hcos, hsin]
    interval_cases k <;> simp [exLoop, exVtx, zeo]
  · have hn : ¬ (Tri3.outerProd (exVtx 0) (exVtx 8) (exVtx 11)).isTol τ := by
      rintro ⟨-, -, h⟩
      have e : (Tri3.outerProd (exVtx 0) (exVtx 8) (exVtx 11)).z = -3 := by
        simp [Tri3.outerProd, exVtx, zeo]; norm_num
      rw [e, zIsTol, abs_neg] at h
      norm_num at h
      linarith
    obtain ⟨-, -, h1, -⟩ := axis_normalize hτ (old := Tri3.outerProd (exVtx 0) (exVtx 8) (exVtx 11)) hn
    intro h
    simp only [PH.mkFace, Tri3.create, if_neg hn] at h
    rw [h] at h1
    simp [zeo] at h1
  · have := C41_torus_normals_stale τ hτ 3 4 (by norm_num) (by norm_num) exVtx (by rw [hvol]; norm_num)
    simpa using this

end Zeo
