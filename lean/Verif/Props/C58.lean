import Verif.Props.C56

/-! # C58: moving and mirroring a shape moves and mirrors its points

`zSphere3DXform`, `zCyl3DXform`, … have to act on a shape as they act on its points: the transformed shape
is the set of transformed points, `XformInv` undoes `Xform`, and `Mirror` reflects the set across a
coordinate plane.  The solids are the point sets of C18, C22, C25 and C56. -/

namespace Zeo

/-- The reflection across the coordinate plane perpendicular to an axis. -/
def Spec.reflect (axis : Fin 3) (p : Vec3 ℝ) : Vec3 ℝ :=
  ⟨if axis = 0 then -p.x else p.x, if axis = 1 then -p.y else p.y, if axis = 2 then -p.z else p.z⟩

/-- A one-to-one map of space that keeps the inner products of differences (hence distances and angles) and
maps affine combinations to affine combinations; `gi` is its inverse and `L` its linear part. -/
private structure Motion (g gi L : Vec3 ℝ → Vec3 ℝ) : Prop where
  gig : ∀ p, gi (g p) = p
  ggi : ∀ p, g (gi p) = p
  pres : ∀ p q r s, ((g q).sub (g p)).inner ((g s).sub (g r)) = (q.sub p).inner (s.sub r)
  aff : ∀ p u v w s t r, g (((p.cat s u).cat t v).cat r w) = (((g p).cat s (L u)).cat t (L v)).cat r (L w)
  lin : ∀ p q, L (q.sub p) = (g q).sub (g p)

private theorem motion_xform (f : Frame3 ℝ) (h : f.att.IsRot) : Motion f.xform f.xformInv f.att.mulVec where
  gig := xformInv_xform' f h
  ggi := xform_xformInv' f h
  pres p q r s := by
    obtain ⟨h1, h2, h3, h4, h5, h6⟩ := h.cols
    simp only [zeo]; grind
  aff p u v w s t r := by ext <;> simp only [zeo] <;> ring
  lin p q := by ext <;> simp only [zeo] <;> ring

private theorem motion_xformInv (f : Frame3 ℝ) (h : f.att.IsRot) : Motion f.xformInv f.xform f.att.mulTVec where
  gig := xform_xformInv' f h
  ggi := xformInv_xform' f h
  pres p q r s := by
    obtain ⟨h1, h2, h3, h4, h5, h6⟩ := h.rows
    simp only [zeo]; grind
  aff p u v w s t r := by ext <;> simp only [zeo] <;> ring
  lin p q := by ext <;> simp only [zeo] <;> ring

private theorem flip_eq (axis : Fin 3) (p : Vec3 ℝ) : p.flip axis = Spec.reflect axis p := by
  fin_cases axis <;> ext <;> simp [Vec3.flip, Vec3.setE, Vec3.e, Spec.reflect]

private theorem motion_reflect (axis : Fin 3) : Motion (Spec.reflect axis) (Spec.reflect axis) (Spec.reflect axis) where
  gig p := by fin_cases axis <;> ext <;> simp [Spec.reflect]
  ggi p := by fin_cases axis <;> ext <;> simp [Spec.reflect]
  pres p q r s := by fin_cases axis <;> simp [Spec.reflect, Vec3.sub, Vec3.inner] <;> ring
  aff p u v w s t r := by fin_cases axis <;> ext <;> simp [Spec.reflect, Vec3.cat] <;> ring
  lin p q := by fin_cases axis <;> ext <;> simp [Spec.reflect, Vec3.sub] <;> ring

namespace Motion
variable {g gi L : Vec3 ℝ → Vec3 ℝ}

private theorem ed_eq (h : Motion g gi L) (p q : Vec3 ℝ) : Spec.ed (g p) (g q) = Spec.ed p q := by
  have := h.pres p q p q
  rw [Spec.ed, Spec.ed]; congr 1
  simp only [Vec3.inner, Vec3.sub] at this
  simp only [Spec.sqd]; linear_combination this

private theorem perp (h : Motion g gi L) (p q r s : Vec3 ℝ) : Spec.Perp (g p) (g q) (g r) (g s) ↔ Spec.Perp p q r s := by
  have := h.pres p q r s
  simp only [Vec3.inner, Vec3.sub] at this
  simp only [Spec.Perp, this]

private theorem comb_eq (h : Motion g gi L) {a b : ℝ} (hab : a + b = 1) (u v : Vec3 ℝ) :
    g (Spec.comb a b 0 0 u v u u) = Spec.comb a b 0 0 (g u) (g v) (g u) (g u) := by
  obtain rfl : a = 1 - b := by linarith
  have h1 : Spec.comb (1 - b) b 0 0 u v u u = ((u.cat b (v.sub u)).cat 0 u).cat 0 u := by
    ext <;> simp only [Spec.comb, Vec3.cat, Vec3.sub] <;> ring
  rw [h1, h.aff, h.lin]
  ext <;> simp only [Spec.comb, Vec3.cat, Vec3.sub] <;> ring

private theorem image_iff (h : Motion g gi L) {S T : Set (Vec3 ℝ)} (hS : ∀ q, q ∈ S → g q ∈ T) (hT : ∀ q, q ∈ T → gi q ∈ S) : T = g '' S := by
  ext q; constructor
  · intro hq; exact ⟨gi q, hT q hq, h.ggi q⟩
  · rintro ⟨p, hp, rfl⟩; exact hS p hp

private theorem symm_comb (h : Motion g gi L) {a b : ℝ} (hab : a + b = 1) (u v : Vec3 ℝ) :
    gi (Spec.comb a b 0 0 (g u) (g v) (g u) (g u)) = Spec.comb a b 0 0 u v u u := by
  rw [← h.comb_eq hab, h.gig]

private theorem seg (h : Motion g gi L) {u v m : Vec3 ℝ} : g m ∈ Spec.segment (g u) (g v) ↔ m ∈ Spec.segment u v := by
  constructor
  · rintro ⟨a, b, h0, h1, hab, hm⟩
    refine ⟨a, b, h0, h1, hab, ?_⟩
    rw [← h.comb_eq hab] at hm
    rw [← h.gig m, hm, h.gig]
  · rintro ⟨a, b, h0, h1, hab, hm⟩
    exact ⟨a, b, h0, h1, hab, by rw [hm, h.comb_eq hab]⟩

private theorem ball (h : Motion g gi L) (c : Vec3 ℝ) (r : ℝ) : Spec.ball (g c) r = g '' Spec.ball c r := by
  refine h.image_iff (fun q hq => ?_) fun q hq => ?_
  · show Spec.ed _ _ ≤ _; rw [h.ed_eq]; exact hq
  · show Spec.ed _ _ ≤ _; rw [← h.ed_eq, h.ggi]; exact hq

private theorem capsule (h : Motion g gi L) (c0 c1 : Vec3 ℝ) (r : ℝ) : Spec.capsule (g c0) (g c1) r = g '' Spec.capsule c0 c1 r := by
  refine h.image_iff (fun q => ?_) fun q => ?_
  · rintro ⟨m, hm, hd⟩; exact ⟨g m, h.seg.2 hm, by rwa [h.ed_eq]⟩
  · rintro ⟨m, hm, hd⟩
    rw [← h.ggi m] at hm hd; rw [← h.ggi q] at hd
    exact ⟨gi m, h.seg.1 hm, by rwa [h.ed_eq] at hd⟩

private theorem cylinder (h : Motion g gi L) (c0 c1 : Vec3 ℝ) (r : ℝ) : Spec.cylinder (g c0) (g c1) r = g '' Spec.cylinder c0 c1 r := by
  refine h.image_iff (fun q => ?_) fun q => ?_
  · rintro ⟨m, hm, hp, hd⟩; exact ⟨g m, h.seg.2 hm, (h.perp ..).2 hp, by rwa [h.ed_eq]⟩
  · rintro ⟨m, hm, hp, hd⟩
    rw [← h.ggi m] at hm hd hp; rw [← h.ggi q] at hd hp
    exact ⟨gi m, h.seg.1 hm, (h.perp ..).1 hp, by rwa [h.ed_eq] at hd⟩

private theorem cone (h : Motion g gi L) (c v : Vec3 ℝ) (r : ℝ) : Spec.cone (g c) (g v) r = g '' Spec.cone c v r := by
  refine h.image_iff (fun q => ?_) fun q => ?_
  · rintro ⟨a, b, h0, h1, hab, hp, hd⟩
    refine ⟨a, b, h0, h1, hab, ?_, ?_⟩
    · rw [← h.comb_eq hab]; exact (h.perp ..).2 hp
    · rwa [← h.comb_eq hab, h.ed_eq]
  · rintro ⟨a, b, h0, h1, hab, hp, hd⟩
    rw [← h.comb_eq hab, ← h.ggi q] at hp hd
    exact ⟨a, b, h0, h1, hab, (h.perp ..).1 hp, by rwa [h.ed_eq] at hd⟩

/-- Point of an oriented solid with the coordinates `X Y Z`. -/
private theorem pt_iff (h : Motion g gi L) (p u v w q : Vec3 ℝ) (X Y Z : ℝ) :
    g q = (((g p).cat X (L u)).cat Y (L v)).cat Z (L w) ↔ q = ((p.cat X u).cat Y v).cat Z w := by
  rw [← h.aff]
  exact ⟨fun e => by rw [← h.gig q, e, h.gig], fun e => by rw [e]⟩

private theorem obox (h : Motion g gi L) (b : Box3 ℝ) :
    Spec.obox ⟨b.span, ⟨g b.frame.pos, ⟨L b.frame.att.x, L b.frame.att.y, L b.frame.att.z⟩⟩⟩ = g '' Spec.obox b := by
  have e : ∀ (c : Box3 ℝ) s t u, Spec.oboxPoint c s t u = ((c.frame.pos.cat s c.frame.att.x).cat t c.frame.att.y).cat u c.frame.att.z := by
    intro c s t u; simp only [Spec.oboxPoint]; ext <;> simp only [zeo]
  refine h.image_iff (fun q => ?_) fun q => ?_
  · rintro ⟨s, t, u, h1, h2, h3, hq⟩
    exact ⟨s, t, u, h1, h2, h3, by rw [e] at hq ⊢; exact (h.pt_iff ..).2 hq⟩
  · rintro ⟨s, t, u, h1, h2, h3, hq⟩
    refine ⟨s, t, u, h1, h2, h3, ?_⟩
    rw [e] at hq ⊢; rw [← h.ggi q] at hq
    exact (h.pt_iff ..).1 hq

private theorem ellipsoid (h : Motion g gi L) (e : Ellips ℝ) :
    Spec.ellipsoid ⟨e.radius, ⟨g e.f.pos, ⟨L e.f.att.x, L e.f.att.y, L e.f.att.z⟩⟩⟩ = g '' Spec.ellipsoid e := by
  have key : ∀ (c : Ellips ℝ) q X Y Z, (q.x = c.f.pos.x + X * c.f.att.x.x + Y * c.f.att.y.x + Z * c.f.att.z.x ∧
      q.y = c.f.pos.y + X * c.f.att.x.y + Y * c.f.att.y.y + Z * c.f.att.z.y ∧
      q.z = c.f.pos.z + X * c.f.att.x.z + Y * c.f.att.y.z + Z * c.f.att.z.z) ↔
      q = ((c.f.pos.cat X c.f.att.x).cat Y c.f.att.y).cat Z c.f.att.z := by
    intro c q X Y Z
    rw [Vec3.ext_iff]; simp only [Vec3.cat]
  refine h.image_iff (fun q => ?_) fun q => ?_
  · rintro ⟨s, t, u, h1, hq⟩
    exact ⟨s, t, u, h1, by rw [key] at hq ⊢; exact (h.pt_iff ..).2 hq⟩
  · rintro ⟨s, t, u, h1, hq⟩
    refine ⟨s, t, u, h1, ?_⟩
    rw [key] at hq ⊢; rw [← h.ggi q] at hq
    exact (h.pt_iff ..).1 hq

private theorem ecylinder (h : Motion g gi L) (c0 c1 : Vec3 ℝ) (r0 r1 : ℝ) (u w : Vec3 ℝ) :
    Spec.ecylinder (g c0) (g c1) r0 r1 (L u) (L w) = g '' Spec.ecylinder c0 c1 r0 r1 u w := by
  have key : ∀ (q m u w : Vec3 ℝ) s t, (q.x = m.x + s * u.x + t * w.x ∧ q.y = m.y + s * u.y + t * w.y ∧ q.z = m.z + s * u.z + t * w.z) ↔
      q = ((m.cat s u).cat t w).cat 0 u := by
    intro q m u w s t
    rw [Vec3.ext_iff]; simp only [Vec3.cat, zero_mul, add_zero]
  refine h.image_iff (fun q => ?_) fun q => ?_
  · rintro ⟨m, hm, s, t, h1, hq⟩
    exact ⟨g m, h.seg.2 hm, s, t, h1, by rw [key] at hq ⊢; exact (h.pt_iff ..).2 hq⟩
  · rintro ⟨m, hm, s, t, h1, hq⟩
    rw [← h.ggi m] at hm
    refine ⟨gi m, h.seg.1 hm, s, t, h1, ?_⟩
    rw [key] at hq ⊢; rw [← h.ggi q, ← h.ggi m] at hq
    exact (h.pt_iff ..).1 hq
end Motion

/-! ## Xform -/

/-- **C58** (`zSphere3DXform`, `zCyl3DXform`, `zCapsule3DXform`, `zCone3DXform`, `zBox3DXform`,
`zEllips3DXform`, `zECyl3DXform`): with a rotation as attitude, the transformed shape occupies exactly the
transformed points. -/
theorem C58_xform (f : Frame3 ℝ) (hf : f.att.IsRot) :
    (∀ s : Sphere3 ℝ, Spec.ball (s.xform f).center (s.xform f).radius = f.xform '' Spec.ball s.center s.radius) ∧
    (∀ c : Cyl ℝ, Spec.cylinder (c.xform f).c0 (c.xform f).c1 (c.xform f).radius = f.xform '' Spec.cylinder c.c0 c.c1 c.radius) ∧
    (∀ c : Cyl ℝ, Spec.capsule (c.xform f).c0 (c.xform f).c1 (c.xform f).radius = f.xform '' Spec.capsule c.c0 c.c1 c.radius) ∧
    (∀ c : Cone ℝ, Spec.cone (c.xform f).center (c.xform f).vert (c.xform f).radius = f.xform '' Spec.cone c.center c.vert c.radius) ∧
    (∀ b : Box3 ℝ, Spec.obox (b.xform f) = f.xform '' Spec.obox b) ∧
    (∀ e : Ellips ℝ, Spec.ellipsoid (e.xform f) = f.xform '' Spec.ellipsoid e) ∧
    (∀ c : ECyl ℝ, Spec.ecylinder (c.xform f).c0 (c.xform f).c1 (c.xform f).r0 (c.xform f).r1 (c.xform f).rv0 (c.xform f).rv1 =
      f.xform '' Spec.ecylinder c.c0 c.c1 c.r0 c.r1 c.rv0 c.rv1) := by
  have h := motion_xform f hf
  refine ⟨fun s => h.ball _ _, fun c => h.cylinder _ _ _, fun c => h.capsule _ _ _, fun c => h.cone _ _ _, fun b => ?_,
    fun e => h.ellipsoid e, fun c => h.ecylinder _ _ _ _ _ _⟩
  rw [← h.obox]; congr 1

/-- **C58** (the `XformInv` functions): the points of the transformed shape are the points whose image
under the frame lies in the original. -/
theorem C58_xformInv (f : Frame3 ℝ) (hf : f.att.IsRot) :
    (∀ s : Sphere3 ℝ, Spec.ball (s.xformInv f).center (s.xformInv f).radius = {q | f.xform q ∈ Spec.ball s.center s.radius}) ∧
    (∀ c : Cyl ℝ, Spec.cylinder (c.xformInv f).c0 (c.xformInv f).c1 (c.xformInv f).radius = {q | f.xform q ∈ Spec.cylinder c.c0 c.c1 c.radius}) ∧
    (∀ c : Cyl ℝ, Spec.capsule (c.xformInv f).c0 (c.xformInv f).c1 (c.xformInv f).radius = {q | f.xform q ∈ Spec.capsule c.c0 c.c1 c.radius}) ∧
    (∀ c : Cone ℝ, Spec.cone (c.xformInv f).center (c.xformInv f).vert (c.xformInv f).radius = {q | f.xform q ∈ Spec.cone c.center c.vert c.radius}) ∧
    (∀ b : Box3 ℝ, Spec.obox (b.xformInv f) = {q | f.xform q ∈ Spec.obox b}) ∧
    (∀ e : Ellips ℝ, Spec.ellipsoid (e.xformInv f) = {q | f.xform q ∈ Spec.ellipsoid e}) ∧
    (∀ c : ECyl ℝ, Spec.ecylinder (c.xformInv f).c0 (c.xformInv f).c1 (c.xformInv f).r0 (c.xformInv f).r1 (c.xformInv f).rv0 (c.xformInv f).rv1 =
      {q | f.xform q ∈ Spec.ecylinder c.c0 c.c1 c.r0 c.r1 c.rv0 c.rv1}) := by
  have h := motion_xformInv f hf
  have im : ∀ S : Set (Vec3 ℝ), f.xformInv '' S = {q | f.xform q ∈ S} := by
    intro S; ext q; constructor
    · rintro ⟨p, hp, rfl⟩; show f.xform (f.xformInv p) ∈ S; rwa [xform_xformInv' f hf]
    · intro hq; exact ⟨_, hq, xformInv_xform' f hf q⟩
  simp only [← im]
  refine ⟨fun s => h.ball _ _, fun c => h.cylinder _ _ _, fun c => h.capsule _ _ _, fun c => h.cone _ _ _, fun b => ?_,
    fun e => h.ellipsoid e, fun c => h.ecylinder _ _ _ _ _ _⟩
  rw [← h.obox]; congr 1

/-- **C58**: `Xform` and `XformInv` of the same frame undo each other. -/
theorem C58_roundtrip (f : Frame3 ℝ) (hf : f.att.IsRot) :
    (∀ s : Sphere3 ℝ, (s.xform f).xformInv f = s ∧ (s.xformInv f).xform f = s) ∧
    (∀ c : Cyl ℝ, (c.xform f).xformInv f = c ∧ (c.xformInv f).xform f = c) ∧
    (∀ c : Cone ℝ, (c.xform f).xformInv f = c ∧ (c.xformInv f).xform f = c) ∧
    (∀ b : Box3 ℝ, (b.xform f).xformInv f = b ∧ (b.xformInv f).xform f = b) ∧
    (∀ e : Ellips ℝ, (e.xform f).xformInv f = e ∧ (e.xformInv f).xform f = e) ∧
    (∀ c : ECyl ℝ, (c.xform f).xformInv f = c ∧ (c.xformInv f).xform f = c) := by
  have a := xformInv_xform' f hf
  have b := xform_xformInv' f hf
  have c : ∀ p, f.att.mulTVec (f.att.mulVec p) = p := by
    obtain ⟨h1, h2, h3, h4, h5, h6⟩ := hf.cols
    intro p; ext <;> simp only [zeo] <;> grind
  have d : ∀ p, f.att.mulVec (f.att.mulTVec p) = p := by
    obtain ⟨h1, h2, h3, h4, h5, h6⟩ := hf.rows
    intro p; ext <;> simp only [zeo] <;> grind
  refine ⟨fun s => ?_, fun s => ?_, fun s => ?_, fun s => ⟨(C18_xform s f hf 0 0 0).2.1, (C18_xform s f hf 0 0 0).2.2.1⟩, fun s => ?_, fun s => ?_⟩
  · simp only [Sphere3.xform, Sphere3.xformInv, a, b, and_self]
  · simp only [Cyl.xform, Cyl.xformInv, a, b, and_self]
  · simp only [Cone.xform, Cone.xformInv, a, b, and_self]
  · simp only [Ellips.xform, Ellips.xformInv, a, b, c, d, and_self]
  · simp only [ECyl.xform, ECyl.xformInv, a, b, c, d, and_self]

/-! ## Mirror -/

/-- **C58** (`zSphere3DMirror`, `zCyl3DMirror`, `zCapsule3DMirror`, `zCone3DMirror`, `zEllips3DMirror`,
`zECyl3DMirror`): the mirrored shape occupies exactly the reflected points.  The ellipsoid keeps its set
for any sign of the radii. -/
theorem C58_mirror (axis : Fin 3) :
    (∀ s : Sphere3 ℝ, Spec.ball (s.mirror axis).center (s.mirror axis).radius = Spec.reflect axis '' Spec.ball s.center s.radius) ∧
    (∀ c : Cyl ℝ, Spec.cylinder (c.mirror axis).c0 (c.mirror axis).c1 (c.mirror axis).radius = Spec.reflect axis '' Spec.cylinder c.c0 c.c1 c.radius) ∧
    (∀ c : Cyl ℝ, Spec.capsule (c.mirror axis).c0 (c.mirror axis).c1 (c.mirror axis).radius = Spec.reflect axis '' Spec.capsule c.c0 c.c1 c.radius) ∧
    (∀ c : Cone ℝ, Spec.cone (c.mirror axis).center (c.mirror axis).vert (c.mirror axis).radius = Spec.reflect axis '' Spec.cone c.center c.vert c.radius) ∧
    (∀ e : Ellips ℝ, Spec.ellipsoid (e.mirror axis) = Spec.reflect axis '' Spec.ellipsoid e) ∧
    (∀ c : ECyl ℝ, Spec.ecylinder (c.mirror axis).c0 (c.mirror axis).c1 (c.mirror axis).r0 (c.mirror axis).r1 (c.mirror axis).rv0 (c.mirror axis).rv1 =
      Spec.reflect axis '' Spec.ecylinder c.c0 c.c1 c.r0 c.r1 c.rv0 c.rv1) := by
  have h := motion_reflect axis
  refine ⟨fun s => ?_, fun c => ?_, fun c => ?_, fun c => ?_, fun e => ?_, fun c => ?_⟩
  · rw [← h.ball, show s.mirror axis = ⟨Spec.reflect axis s.center, s.radius⟩ from by rw [← flip_eq]; rfl]
  · simp only [Cyl.mirror, flip_eq]; exact h.cylinder _ _ _
  · simp only [Cyl.mirror, flip_eq]; exact h.capsule _ _ _
  · simp only [Cone.mirror, flip_eq]; exact h.cone _ _ _
  · have : Spec.ellipsoid e = Spec.ellipsoid e.copy := by
      ext q
      simp only [Spec.ellipsoid, Ellips.copy, Ellips.create, div_pow, sq_abs]
    rw [this, ← h.ellipsoid]
    simp only [Ellips.mirror, flip_eq]
  · simp only [ECyl.mirror, flip_eq]
    rw [← h.ecylinder]
    ext q
    constructor
    · rintro ⟨m, hm, s, t, h1, h2, h3, h4⟩
      exact ⟨m, hm, s, -t, by rwa [neg_div, neg_sq], by simp only [Vec3.rev] at h2; linarith,
        by simp only [Vec3.rev] at h3; linarith, by simp only [Vec3.rev] at h4; linarith⟩
    · rintro ⟨m, hm, s, t, h1, h2, h3, h4⟩
      exact ⟨m, hm, s, -t, by rwa [neg_div, neg_sq], by simp only [Vec3.rev]; linarith,
        by simp only [Vec3.rev]; linarith, by simp only [Vec3.rev]; linarith⟩

private theorem norm_unit {v : Vec3 ℝ} (h : v.sqrNorm = 1) : v.norm = 1 := by rw [Vec3.norm, h, Real.sqrt_one]

private theorem normalize_of_unit {τ : ℝ} (hτ : 0 ≤ τ) (hτ' : 3 * τ ^ 2 < 1) {v old : Vec3 ℝ} (h : v.sqrNorm = 1) : (v.normalize τ old).2 = v := by
  have ht : ¬ v.isTol τ := by
    intro ht
    have h3 : |v.x| ≤ τ ∧ |v.y| ≤ τ ∧ |v.z| ≤ τ := by
      simpa [Vec3.isTol, zIsTol, and_assoc] using ht
    have hx := sq_le_sq' (by linarith [abs_nonneg v.x]) h3.1
    have hy := sq_le_sq' (by linarith [abs_nonneg v.y]) h3.2.1
    have hz := sq_le_sq' (by linarith [abs_nonneg v.z]) h3.2.2
    rw [sq_abs] at hx hy hz
    simp only [Vec3.sqrNorm, Vec3.inner] at h
    nlinarith
  obtain ⟨-, h2, -⟩ := normalize_unit hτ (old := old) ht
  rw [norm_unit h] at h2
  conv_rhs => rw [h2]
  ext <;> simp only [Vec3.mul, one_mul]

/-- **C58** (`zBox3DMirror`): a box with unit axes (the copy inside renormalizes them) is mirrored as a
point set, for every tolerance below `1/√3`. -/
theorem C58_mirror_box {τ : ℝ} (hτ : 0 ≤ τ) (hτ' : 3 * τ ^ 2 < 1) (b : Box3 ℝ) (old : Mat3 ℝ) (axis : Fin 3)
    (hx : b.frame.att.x.sqrNorm = 1) (hy : b.frame.att.y.sqrNorm = 1) (hz : b.frame.att.z.sqrNorm = 1)
    (h0 : 0 ≤ b.span.x) (h1 : 0 ≤ b.span.y) (h2 : 0 ≤ b.span.z) :
    Spec.obox (b.mirror τ axis old) = Spec.reflect axis '' Spec.obox b ∧ (b.mirror τ axis old).volume = b.volume ∧
    ((b.mirror τ axis old).mirror τ axis old) = b := by
  have e : ∀ c : Box3 ℝ, c.frame.att.x.sqrNorm = 1 → c.frame.att.y.sqrNorm = 1 → c.frame.att.z.sqrNorm = 1 →
      0 ≤ c.span.x → 0 ≤ c.span.y → 0 ≤ c.span.z →
      c.mirror τ axis old = ⟨c.span, ⟨Spec.reflect axis c.frame.pos, ⟨Spec.reflect axis c.frame.att.x, Spec.reflect axis c.frame.att.y, Spec.reflect axis c.frame.att.z⟩⟩⟩ := by
    intro c hx hy hz h0 h1 h2
    simp only [Box3.mirror, Box3.create, normalize_of_unit hτ hτ' hx, normalize_of_unit hτ hτ' hy, normalize_of_unit hτ hτ' hz, flip_eq,
      abs_of_nonneg h0, abs_of_nonneg h1, abs_of_nonneg h2]
  have u : ∀ v : Vec3 ℝ, v.sqrNorm = 1 → (Spec.reflect axis v).sqrNorm = 1 := by
    intro v hv
    rw [← hv]
    fin_cases axis <;> simp [Spec.reflect, Vec3.sqrNorm, Vec3.inner]
  have r := (motion_reflect axis).gig
  rw [e b hx hy hz h0 h1 h2]
  refine ⟨(motion_reflect axis).obox b, rfl, ?_⟩
  refine (e ⟨b.span, ⟨Spec.reflect axis b.frame.pos, ⟨Spec.reflect axis b.frame.att.x, Spec.reflect axis b.frame.att.y, Spec.reflect axis b.frame.att.z⟩⟩⟩
    (u _ hx) (u _ hy) (u _ hz) h0 h1 h2).trans ?_
  simp only [r]

/-- **C58**: mirroring twice restores the shape (an ellipsoid if its radii are not negative). -/
theorem C58_mirror_twice (axis : Fin 3) :
    (∀ s : Sphere3 ℝ, (s.mirror axis).mirror axis = s) ∧ (∀ c : Cyl ℝ, (c.mirror axis).mirror axis = c) ∧
    (∀ c : Cone ℝ, (c.mirror axis).mirror axis = c) ∧ (∀ c : ECyl ℝ, (c.mirror axis).mirror axis = c) ∧
    (∀ e : Ellips ℝ, 0 ≤ e.radius.x → 0 ≤ e.radius.y → 0 ≤ e.radius.z → (e.mirror axis).mirror axis = e) := by
  have r := (motion_reflect axis).gig
  refine ⟨fun s => ?_, fun c => ?_, fun c => ?_, fun c => ?_, fun e h0 h1 h2 => ?_⟩
  · have : ∀ s : Sphere3 ℝ, s.mirror axis = ⟨Spec.reflect axis s.center, s.radius⟩ := fun s => by rw [← flip_eq]; rfl
    simp only [this, r]
  · simp only [Cyl.mirror, flip_eq, r]
  · simp only [Cone.mirror, flip_eq, r]
  · have : ∀ v : Vec3 ℝ, (Spec.reflect axis (Spec.reflect axis v).rev).rev = v := by
      intro v; fin_cases axis <;> ext <;> simp [Spec.reflect, Vec3.rev]
    simp only [ECyl.mirror, flip_eq, r, this]
  · simp only [Ellips.mirror, Ellips.copy, Ellips.create, flip_eq, r, abs_of_nonneg h0, abs_of_nonneg h1, abs_of_nonneg h2]

/-- **C58**: volumes do not change under `Xform` and `Mirror`. -/
theorem C58_volume (f : Frame3 ℝ) (hf : f.att.IsRot) (axis : Fin 3) :
    (∀ s : Sphere3 ℝ, (s.xform f).volume = s.volume ∧ (s.mirror axis).volume = s.volume) ∧
    (∀ c : Cyl ℝ, (c.xform f).volume = c.volume ∧ (c.mirror axis).volume = c.volume) ∧
    (∀ c : Cyl ℝ, Capsule.volume (c.xform f) = Capsule.volume c ∧ Capsule.volume (c.mirror axis) = Capsule.volume c) ∧
    (∀ c : Cone ℝ, (c.xform f).volume = c.volume ∧ (c.mirror axis).volume = c.volume) ∧
    (∀ e : Ellips ℝ, (e.xform f).volume = e.volume) ∧
    (∀ c : ECyl ℝ, (c.xform f).volume = c.volume ∧ (c.mirror axis).volume = c.volume) := by
  have n1 : ∀ p q, ((f.xform q).sub (f.xform p)).norm = (q.sub p).norm := fun p q => by
    rw [Vec3.norm, Vec3.norm, Vec3.sqrNorm, (motion_xform f hf).pres]; rfl
  have n2 : ∀ p q : Vec3 ℝ, ((q.flip axis).sub (p.flip axis)).norm = (q.sub p).norm := fun p q => by
    rw [flip_eq, flip_eq, Vec3.norm, Vec3.norm, Vec3.sqrNorm, (motion_reflect axis).pres]; rfl
  refine ⟨fun s => ⟨rfl, rfl⟩, fun c => ?_, fun c => ?_, fun c => ?_, fun e => rfl, fun c => ?_⟩
  · simp only [Cyl.volume, Cyl.height, Cyl.axis, Cyl.xform, Cyl.mirror, n1, n2, and_self]
  · simp only [Capsule.volume, Cyl.volume, Cyl.height, Cyl.axis, Cyl.xform, Cyl.mirror, n1, n2, and_self]
  · simp only [Cone.volume, Cone.height, Cone.axis, Cone.xform, Cone.mirror, n1, n2, and_self]
  · simp only [ECyl.volume, ECyl.height, ECyl.axis, ECyl.xform, ECyl.mirror, n1, n2, and_self]

/-! ## The frame of a mirrored shape -/

/-- **C58** (`zECyl3DMirror`): the radial vectors of a mirrored elliptic cylinder stay orthonormal and
perpendicular to the axis, and keep the turning direction around it. -/
theorem C58_mirror_ecyl (c : ECyl ℝ) (hc : Spec.ProperECyl c) (axis : Fin 3) :
    Spec.ProperECyl (c.mirror axis) ∧
    ((c.mirror axis).rv0.outer (c.mirror axis).rv1).inner (c.mirror axis).axis = (c.rv0.outer c.rv1).inner c.axis := by
  obtain ⟨⟨a, b, d⟩, e, f⟩ := hc
  simp only [ECyl.mirror, flip_eq, Spec.ProperECyl, ECyl.axis]
  fin_cases axis <;> simp [Spec.reflect, Vec3.rev, Vec3.outer, Vec3.inner, Vec3.sub] <;>
    exact ⟨⟨⟨by linarith, by linarith, by linarith⟩, by linarith, by linarith⟩, by ring⟩

/-- **C58** (finding): mirroring a box or an ellipsoid whose axes form a right-handed frame always produces
a left-handed frame: the attitude stored in the mirrored shape is orthonormal with determinant `-1`, never a
rotation. -/
theorem C58_mirror_lefthanded {τ : ℝ} (hτ : 0 ≤ τ) (hτ' : 3 * τ ^ 2 < 1) (old : Mat3 ℝ) (axis : Fin 3) :
    (∀ b : Box3 ℝ, b.frame.att.IsRot → (b.mirror τ axis old).frame.att.toMatrix.transpose * (b.mirror τ axis old).frame.att.toMatrix = 1 ∧
      (b.mirror τ axis old).frame.att.toMatrix.det = -1 ∧ ¬ (b.mirror τ axis old).frame.att.IsRot) ∧
    (∀ e : Ellips ℝ, e.f.att.IsRot → (e.mirror axis).f.att.toMatrix.transpose * (e.mirror axis).f.att.toMatrix = 1 ∧
      (e.mirror axis).f.att.toMatrix.det = -1 ∧ ¬ (e.mirror axis).f.att.IsRot) := by
  have key : ∀ m : Mat3 ℝ, m.IsRot →
      (⟨Spec.reflect axis m.x, Spec.reflect axis m.y, Spec.reflect axis m.z⟩ : Mat3 ℝ).toMatrix.transpose *
        (⟨Spec.reflect axis m.x, Spec.reflect axis m.y, Spec.reflect axis m.z⟩ : Mat3 ℝ).toMatrix = 1 ∧
      (⟨Spec.reflect axis m.x, Spec.reflect axis m.y, Spec.reflect axis m.z⟩ : Mat3 ℝ).toMatrix.det = -1 ∧
      ¬ (⟨Spec.reflect axis m.x, Spec.reflect axis m.y, Spec.reflect axis m.z⟩ : Mat3 ℝ).IsRot := by
    intro m hm
    have hd := hm.det_eq
    obtain ⟨h1, h2, h3, h4, h5, h6⟩ := hm.cols
    have h7 : (⟨Spec.reflect axis m.x, Spec.reflect axis m.y, Spec.reflect axis m.z⟩ : Mat3 ℝ).toMatrix.det = -1 := by
      rw [Matrix.det_fin_three]
      simp only [zeo] at hd
      fin_cases axis <;> simp [Mat3.toMatrix, Spec.reflect] <;> linarith
    refine ⟨?_, h7, fun h => ?_⟩
    · ext i j
      fin_cases axis <;> fin_cases i <;> fin_cases j <;> simp [Mat3.toMatrix, Spec.reflect, Matrix.mul_apply, Fin.sum_univ_three] <;> linarith
    · have := h.2; rw [h7] at this; norm_num at this
  refine ⟨fun b hb => ?_, fun e he => ?_⟩
  · obtain ⟨h1, h2, h3, h4, h5, h6⟩ := hb.cols
    have e : (b.mirror τ axis old).frame.att = ⟨Spec.reflect axis b.frame.att.x, Spec.reflect axis b.frame.att.y, Spec.reflect axis b.frame.att.z⟩ := by
      simp only [Box3.mirror, Box3.create, flip_eq]
      rw [normalize_of_unit hτ hτ' (by simp only [Vec3.sqrNorm, Vec3.inner]; linarith), normalize_of_unit hτ hτ' (by simp only [Vec3.sqrNorm, Vec3.inner]; linarith),
        normalize_of_unit hτ hτ' (by simp only [Vec3.sqrNorm, Vec3.inner]; linarith)]
    rw [e]; exact key _ hb
  · have e' : (e.mirror axis).f.att = ⟨Spec.reflect axis e.f.att.x, Spec.reflect axis e.f.att.y, Spec.reflect axis e.f.att.z⟩ := by
      simp only [Ellips.mirror, Ellips.copy, Ellips.create, flip_eq]
    rw [e']; exact key _ he

/-- The hypotheses hold: a quarter turn as attitude, a box and an elliptic cylinder. -/
example : (⟨Vec3.ey, Vec3.ex.rev, Vec3.ez⟩ : Mat3 ℝ).IsRot := by
  rw [Mat3.isRot_iff]; constructor
  · ext <;> simp only [zeo] <;> norm_num
  · simp only [zeo]; norm_num
example : Spec.ProperECyl (⟨⟨0, 0, 0⟩, ⟨0, 0, 4⟩, 2, 1, ⟨1, 0, 0⟩, ⟨0, 1, 0⟩⟩ : ECyl ℝ) := by
  simp only [Spec.ProperECyl]; norm_num
/-- A cylinder standing beside the mirror plane ends up on the other side. -/
example : (⟨-3, 0, 1⟩ : Vec3 ℝ) ∈ Spec.capsule ((⟨⟨3, 0, 0⟩, ⟨3, 0, 2⟩, 1⟩ : Cyl ℝ).mirror 0).c0 ((⟨⟨3, 0, 0⟩, ⟨3, 0, 2⟩, 1⟩ : Cyl ℝ).mirror 0).c1 1 := by
  have := (C58_mirror 0).2.2.1 (⟨⟨3, 0, 0⟩, ⟨3, 0, 2⟩, 1⟩ : Cyl ℝ)
  refine this.symm ▸ ⟨⟨3, 0, 1⟩, ⟨⟨3, 0, 1⟩, ⟨1/2, 1/2, by norm_num, by norm_num, by norm_num, ?_⟩, ?_⟩, ?_⟩
  · ext <;> simp only [Spec.comb] <;> norm_num
  · simp [Spec.ed, Spec.sqd]
  · simp [Spec.reflect]

end Zeo
