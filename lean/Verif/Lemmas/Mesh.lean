import Verif.Spec.Mesh
import Verif.Lemmas.Rot

/-! Sums over closed meshes and moments of polyhedra. -/

namespace Zeo
open Spec
variable {K : Type*} [Field K] [CharZero K]

theorem closed_map {α β : Type*} (φ : α → β) {fs : List (α × α × α)} (h : Closed fs) :
    Closed (fs.map fun f => (φ f.1, φ f.2.1, φ f.2.2)) := by
  have e : meshEdges (fs.map fun f => (φ f.1, φ f.2.1, φ f.2.2)) = (meshEdges fs).map (Prod.map φ φ) := by
    unfold meshEdges
    rw [List.flatMap_map, List.map_flatMap]
    rfl
  have := h.map (Prod.map φ φ)
  unfold Closed
  rw [e]
  rw [List.map_map] at this ⊢
  exact this

theorem closed_pts {L : Type*} {ph : PH L} (h : Closed (faceIdx ph)) : Closed (facePts ph) := by
  have := closed_map ph.vert h
  unfold faceIdx at this
  rw [List.map_map] at this
  exact this

theorem closed_sum {α : Type*} {fs : List (α × α × α)} (h : Closed fs) (g : α → α → K) (hg : ∀ a b, g a b = - g b a) :
    (fs.map fun f => g f.1 f.2.1 + g f.2.1 f.2.2 + g f.2.2 f.1).sum = 0 := by
  have e : ((meshEdges fs).map fun e => g e.1 e.2).sum = (fs.map fun f => g f.1 f.2.1 + g f.2.1 f.2.2 + g f.2.2 f.1).sum := by
    clear h
    induction fs with
    | nil => rfl
    | cons f fs ih =>
      unfold meshEdges at ih ⊢
      rw [List.flatMap_cons, List.map_append, List.sum_append, ih]
      simp [triEdges]; ring
  have h1 := (h.map fun e => g e.1 e.2).sum_eq
  rw [List.map_map] at h1
  have h2 : (List.map ((fun e : α × α => g e.1 e.2) ∘ Prod.swap) (meshEdges fs)).sum = - ((meshEdges fs).map fun e => g e.1 e.2).sum := by
    clear h1 e h
    induction meshEdges fs with
    | nil => simp
    | cons a l ih => simp only [List.map_cons, List.sum_cons, ih, Function.comp, Prod.fst_swap, Prod.snd_swap]; rw [hg]; ring
  rw [h2] at h1
  rw [← e]
  have : (2 : K) * ((meshEdges fs).map fun e => g e.1 e.2).sum = 0 := by linear_combination -h1
  exact (mul_eq_zero.1 this).resolve_left two_ne_zero

theorem foldl_add_sum {α : Type*} (l : List α) (g : α → K) (a : K) : l.foldl (fun v f => v + g f) a = a + (l.map g).sum := by
  induction l generalizing a with
  | nil => simp
  | cons b l ih => rw [List.foldl_cons, ih, List.map_cons, List.sum_cons]; ring

/-- Value at `x` of an affine function with gradient and constant `A`. -/
def aev (A : Vec3 K × K) (x : Vec3 K) : K := A.1.x * x.x + A.1.y * x.y + A.1.z * x.z + A.2

/-- Twenty times the mean over a tetrahedron of the product of two affine functions with the given corner values. -/
def quad20 (a1 a2 a3 a4 b1 b2 b3 b4 : K) : K :=
  a1 * b1 + a2 * b2 + a3 * b3 + a4 * b4 + (a1 + a2 + a3 + a4) * (b1 + b2 + b3 + b4)

/-- Moment of a product of affine functions over the cone from `q` to a triangle. -/
def coneMom (q : Vec3 K) (A B : Vec3 K × K) (f : Vec3 K × Vec3 K × Vec3 K) : K :=
  det3 (f.1.sub q) (f.2.1.sub q) (f.2.2.sub q) / 120 *
    quad20 (aev A f.1) (aev A f.2.1) (aev A f.2.2) (aev A q) (aev B f.1) (aev B f.2.1) (aev B f.2.2) (aev B q)

/-- Moment over the whole mesh. -/
def mom (T : List (Vec3 K × Vec3 K × Vec3 K)) (q : Vec3 K) (A B : Vec3 K × K) : K := (T.map (coneMom q A B)).sum

private theorem cocycle (A B C D N a1 a2 a3 a4 a0 b1 b2 b3 b4 b0 : K) (hN : N = D - A - B - C)
    (ha : a4 * D = A * a1 + B * a2 + C * a3 + N * a0) (hb : b4 * D = A * b1 + B * b2 + C * b3 + N * b0) :
    N * quad20 a1 a2 a3 a4 b1 b2 b3 b4 - D * quad20 a1 a2 a3 a0 b1 b2 b3 b0 =
      -(C * quad20 a0 a4 a1 a2 b0 b4 b1 b2 + A * quad20 a0 a4 a2 a3 b0 b4 b2 b3 + B * quad20 a0 a4 a3 a1 b0 b4 b3 b1) := by
  subst hN
  unfold quad20
  linear_combination (b1 + b2 + b3 + b0 + b4) * ha + (a1 + a2 + a3 + a0 + a4) * hb

theorem mom_apex {T : List (Vec3 K × Vec3 K × Vec3 K)} (h : Closed T) (q : Vec3 K) (A B : Vec3 K × K) :
    mom T q A B = mom T .zero A B := by
  have hs := closed_sum h (fun a b => det3 q a b * quad20 (aev A .zero) (aev A q) (aev A a) (aev A b)
    (aev B .zero) (aev B q) (aev B a) (aev B b)) (by intro a b; simp only [det3, quad20]; ring)
  have hf : ∀ f : Vec3 K × Vec3 K × Vec3 K, coneMom q A B f = coneMom .zero A B f + (-1/120) *
      ((fun a b => det3 q a b * quad20 (aev A .zero) (aev A q) (aev A a) (aev A b)
    (aev B .zero) (aev B q) (aev B a) (aev B b)) f.1 f.2.1 + (fun a b => det3 q a b * quad20 (aev A .zero) (aev A q) (aev A a) (aev A b)
    (aev B .zero) (aev B q) (aev B a) (aev B b)) f.2.1 f.2.2 + (fun a b => det3 q a b * quad20 (aev A .zero) (aev A q) (aev A a) (aev A b)
    (aev B .zero) (aev B q) (aev B a) (aev B b)) f.2.2 f.1) := by
    rintro ⟨a, b, c⟩
    have hc := cocycle (det3 q b c) (det3 q c a) (det3 q a b) (det3 a b c) (det3 (a.sub q) (b.sub q) (c.sub q))
      (aev A a) (aev A b) (aev A c) (aev A q) (aev A .zero) (aev B a) (aev B b) (aev B c) (aev B q) (aev B .zero)
      (by simp only [det3, zeo]; ring) (by simp only [aev, det3, zeo]; ring) (by simp only [aev, det3, zeo]; ring)
    have hz : det3 (a.sub .zero) (b.sub .zero) (c.sub .zero) = det3 a b c := by simp only [det3, zeo]; ring
    simp only [coneMom]
    rw [hz]
    linear_combination (1/120) * hc
  unfold mom
  rw [List.map_congr_left (fun f _ => hf f), List.sum_map_add, List.sum_map_mul_left, hs, mul_zero, add_zero]

/-- Pull back an affine function along a rigid motion. -/
def pullA (fr : Frame3 K) (A : Vec3 K × K) : Vec3 K × K :=
  (fr.att.mulTVec A.1, A.1.x * fr.pos.x + A.1.y * fr.pos.y + A.1.z * fr.pos.z + A.2)

theorem aev_pullA (fr : Frame3 K) (A : Vec3 K × K) (x : Vec3 K) : aev A (fr.xform x) = aev (pullA fr A) x := by
  simp only [aev, pullA, zeo]; ring

theorem det3_mulVec (m : Mat3 K) (a b c : Vec3 K) : det3 (m.mulVec a) (m.mulVec b) (m.mulVec c) = m.det * det3 a b c := by
  simp only [det3, zeo]; ring

private theorem xform_xformInv_m {fr : Frame3 K} (h : fr.att.IsRot) (x : Vec3 K) : fr.xform (fr.xformInv x) = x := by
  obtain ⟨r1, r2, r3, r4, r5, r6⟩ := h.rows
  ext
  · simp only [zeo]; linear_combination (x.x - fr.pos.x) * r1 + (x.y - fr.pos.y) * r4 + (x.z - fr.pos.z) * r6
  · simp only [zeo]; linear_combination (x.x - fr.pos.x) * r4 + (x.y - fr.pos.y) * r2 + (x.z - fr.pos.z) * r5
  · simp only [zeo]; linear_combination (x.x - fr.pos.x) * r6 + (x.y - fr.pos.y) * r5 + (x.z - fr.pos.z) * r3

theorem coneMom_xform {fr : Frame3 K} (h : fr.att.IsRot) (q : Vec3 K) (A B : Vec3 K × K) (f : Vec3 K × Vec3 K × Vec3 K) :
    coneMom (fr.xform q) A B (fr.xform f.1, fr.xform f.2.1, fr.xform f.2.2) = coneMom q (pullA fr A) (pullA fr B) f := by
  have e : ∀ a b : Vec3 K, (fr.xform a).sub (fr.xform b) = fr.att.mulVec (a.sub b) := by
    intro a b; ext <;> simp only [zeo] <;> ring
  simp only [coneMom, e, aev_pullA, det3_mulVec, h.det_eq, one_mul]

theorem mom_xform {fr : Frame3 K} (h : fr.att.IsRot) {T : List (Vec3 K × Vec3 K × Vec3 K)} (hT : Closed T) (A B : Vec3 K × K) :
    mom (T.map fun f => (fr.xform f.1, fr.xform f.2.1, fr.xform f.2.2)) .zero A B = mom T .zero (pullA fr A) (pullA fr B) := by
  rw [← mom_apex hT (fr.xformInv .zero)]
  unfold mom
  rw [List.map_map]
  congr 1
  apply List.map_congr_left
  intro f _
  show coneMom .zero A B (fr.xform f.1, fr.xform f.2.1, fr.xform f.2.2) = _
  rw [← coneMom_xform h, xform_xformInv_m h]

theorem mom_comm (T : List (Vec3 K × Vec3 K × Vec3 K)) (q : Vec3 K) (A B : Vec3 K × K) : mom T q A B = mom T q B A := by
  unfold mom
  congr 1
  apply List.map_congr_left
  intro f _
  simp only [coneMom, quad20]; ring

theorem mom_add_left (T : List (Vec3 K × Vec3 K × Vec3 K)) (q : Vec3 K) (a b : K) (A B C : Vec3 K × K) :
    mom T q ((A.1.mul a).add (B.1.mul b), a * A.2 + b * B.2) C = a * mom T q A C + b * mom T q B C := by
  unfold mom
  rw [← List.sum_map_mul_left, ← List.sum_map_mul_left, ← List.sum_map_add]
  congr 1
  apply List.map_congr_left
  intro f _
  have : ∀ x, aev ((A.1.mul a).add (B.1.mul b), a * A.2 + b * B.2) x = a * aev A x + b * aev B x := by
    intro x; simp only [aev, zeo]; ring
  simp only [coneMom, this, quad20]; ring

/-- Constant function one and the coordinate functions. -/
def aOne : Vec3 K × K := (.zero, 1)
def aX : Vec3 K × K := (.ex, 0)
def aY : Vec3 K × K := (.ey, 0)
def aZ : Vec3 K × K := (.ez, 0)

theorem mom_expand_left (T : List (Vec3 K × Vec3 K × Vec3 K)) (q : Vec3 K) (A B : Vec3 K × K) :
    mom T q A B = A.1.x * mom T q aX B + A.1.y * mom T q aY B + A.1.z * mom T q aZ B + A.2 * mom T q aOne B := by
  have e1 := mom_add_left T q A.1.x A.1.y aX aY B
  have e2 := mom_add_left T q 1 A.1.z ((aX.1.mul A.1.x).add (aY.1.mul A.1.y), A.1.x * aX.2 + A.1.y * aY.2) aZ B
  have e3 := mom_add_left T q 1 A.2 ((((aX.1.mul A.1.x).add (aY.1.mul A.1.y)).mul 1).add (aZ.1.mul A.1.z),
    1 * (A.1.x * aX.2 + A.1.y * aY.2) + A.1.z * aZ.2) aOne B
  have e : A = (((((aX.1.mul A.1.x).add (aY.1.mul A.1.y)).mul 1).add (aZ.1.mul A.1.z)).mul 1 |>.add ((aOne (K := K)).1.mul A.2),
      1 * (1 * (A.1.x * aX.2 + A.1.y * aY.2) + A.1.z * aZ.2) + A.2 * aOne.2) := by
    obtain ⟨⟨x, y, z⟩, k⟩ := A
    simp only [aX, aY, aZ, aOne, zeo, Prod.mk.injEq, Vec3.mk.injEq]
    refine ⟨⟨?_, ?_, ?_⟩, ?_⟩ <;> ring
  conv_lhs => rw [e]
  rw [e3, e2, e1]; ring

theorem mom_expand_right (T : List (Vec3 K × Vec3 K × Vec3 K)) (q : Vec3 K) (A B : Vec3 K × K) :
    mom T q A B = B.1.x * mom T q A aX + B.1.y * mom T q A aY + B.1.z * mom T q A aZ + B.2 * mom T q A aOne := by
  rw [mom_comm, mom_expand_left, mom_comm T q aX, mom_comm T q aY, mom_comm T q aZ, mom_comm T q aOne]

/-! ## The polyhedron functions as moments -/

omit [CharZero K] in
theorem facePts_sum (ph : PH K) (g : Vec3 K × Vec3 K × Vec3 K → K) :
    (ph.face.map fun f => g (ph.vert f.i0, ph.vert f.i1, ph.vert f.i2)).sum = ((facePts ph).map g).sum := by
  unfold facePts; rw [List.map_map]; rfl

theorem volume_eq_mom (ph : PH K) : ph.volume = mom (facePts ph) .zero aOne aOne := by
  unfold PH.volume mom
  rw [foldl_add_sum, zero_add, ← facePts_sum ph (coneMom .zero aOne aOne)]
  congr 1
  apply List.map_congr_left
  intro f _
  simp only [PH.coneVolume, Tri3.coneVolume, coneMom, quad20, aev, aOne, det3, zeo]
  ring

theorem bary_fold (ph : PH K) (l : List (Face K)) (s : K × Vec3 K) :
    l.foldl ph.baryStep s = (s.1 + (l.map fun f => coneMom .zero aOne aOne (ph.vert f.i0, ph.vert f.i1, ph.vert f.i2)).sum,
      ⟨s.2.x + (l.map fun f => coneMom .zero aX aOne (ph.vert f.i0, ph.vert f.i1, ph.vert f.i2)).sum,
       s.2.y + (l.map fun f => coneMom .zero aY aOne (ph.vert f.i0, ph.vert f.i1, ph.vert f.i2)).sum,
       s.2.z + (l.map fun f => coneMom .zero aZ aOne (ph.vert f.i0, ph.vert f.i1, ph.vert f.i2)).sum⟩) := by
  induction l generalizing s with
  | nil => simp
  | cons f l ih =>
    rw [List.foldl_cons, ih]
    simp only [List.map_cons, List.sum_cons]
    refine Prod.ext ?_ (Vec3.ext ?_ ?_ ?_)
    all_goals simp only [PH.baryStep, PH.coneVolume, Tri3.coneVolume, Tri3.coneBarycenter, coneMom, quad20, aev, aOne, aX, aY, aZ, det3, zeo]
    all_goals ring

theorem bary_eq_mom [DecidableEq K] (ph : PH K) (hv : ph.volume ≠ 0) :
    ph.barycenter = ⟨mom (facePts ph) .zero aX aOne / ph.volume, mom (facePts ph) .zero aY aOne / ph.volume,
      mom (facePts ph) .zero aZ aOne / ph.volume⟩ := by
  have h1 : ph.volume = (ph.face.map fun f => coneMom .zero aOne aOne (ph.vert f.i0, ph.vert f.i1, ph.vert f.i2)).sum := by
    rw [volume_eq_mom]; unfold mom; rw [← facePts_sum]
  unfold PH.barycenter
  rw [bary_fold]
  simp only [zero_add, ← h1]
  unfold Vec3.div
  rw [if_neg hv]
  simp only [mom, ← facePts_sum]
  ext <;> simp only [zeo] <;> ring

theorem inertia_fold (ph : PH K) (d : K) (l : List (Face K)) (m : Mat3 K) :
    l.foldl (ph.inertiaStep d) m =
      let P := fun A B => (l.map fun f => coneMom .zero A B (ph.vert f.i0, ph.vert f.i1, ph.vert f.i2)).sum
      ⟨⟨m.x.x + d * (P aY aY + P aZ aZ), m.x.y - d * P aX aY, m.x.z - d * P aX aZ⟩,
       ⟨m.y.x - d * P aX aY, m.y.y + d * (P aX aX + P aZ aZ), m.y.z - d * P aY aZ⟩,
       ⟨m.z.x - d * P aX aZ, m.z.y - d * P aY aZ, m.z.z + d * (P aX aX + P aY aY)⟩⟩ := by
  induction l generalizing m with
  | nil => simp
  | cons f l ih =>
    rw [List.foldl_cons, ih]
    simp only [List.map_cons, List.sum_cons]
    generalize hP : (fun A B : Vec3 K × K => (l.map fun f => coneMom .zero A B (ph.vert f.i0, ph.vert f.i1, ph.vert f.i2)).sum) = P
    have hP' : ∀ A B, (l.map fun f => coneMom .zero A B (ph.vert f.i0, ph.vert f.i1, ph.vert f.i2)).sum = P A B := by
      intro A B; rw [← hP]
    simp only [hP']
    refine Mat3.ext (Vec3.ext ?_ ?_ ?_) (Vec3.ext ?_ ?_ ?_) (Vec3.ext ?_ ?_ ?_)
    all_goals simp only [PH.inertiaStep, Tri3.coneInertia, Tri3.coneInertiaStep, coneMom, quad20, aev, aX, aY, aZ, det3, zeo]
    all_goals ring

theorem inertia_eq_mom (ph : PH K) (d : K) :
    ph.inertia d =
      let P := mom (facePts ph) .zero
      ⟨⟨d * (P aY aY + P aZ aZ), - (d * P aX aY), - (d * P aX aZ)⟩,
       ⟨- (d * P aX aY), d * (P aX aX + P aZ aZ), - (d * P aY aZ)⟩,
       ⟨- (d * P aX aZ), - (d * P aY aZ), d * (P aX aX + P aY aY)⟩⟩ := by
  unfold PH.inertia
  rw [inertia_fold]
  simp only [mom, ← facePts_sum]
  refine Mat3.ext (Vec3.ext ?_ ?_ ?_) (Vec3.ext ?_ ?_ ?_) (Vec3.ext ?_ ?_ ?_) <;> simp [Mat3.zero, Vec3.zero]

end Zeo
