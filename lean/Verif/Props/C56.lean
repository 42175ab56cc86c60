import Verif.Model.Ellips
import Verif.Lemmas.Place
import Verif.Lemmas.Ortho
import Verif.Props.C18
import Verif.Props.C22
import Verif.Props.C10

/-! # C56: closed-form volumes, barycenters and inertia tensors are the integrals over the solid

The solids are the point sets of `Spec/Solids.lean` (also used for the closest-point queries, C25), the
oriented box of C18, balls, ellipsoids and elliptic cylinders.  Volume, centroid and inertia tensor are
Lebesgue integrals over the solid (`Spec/Mass.lean`). -/

namespace Zeo
open Real Moment

/-- `V`, `b`, `I` are the volume, the centroid and (for each density) the inertia tensor about the
centroid of the solid `S`. -/
structure Spec.MassOf (S : Set (Vec3 ℝ)) (V : ℝ) (b : Vec3 ℝ) (I : ℝ → Mat3 ℝ) : Prop where
  vol : Spec.IsVolume S V
  cen : Spec.IsCentroid S b
  ine : ∀ ρ, Spec.IsInertia S ρ b (I ρ)

private theorem norm_ed56 (p q : Vec3 ℝ) : (q.sub p).norm = Spec.ed p q := by
  rw [Vec3.norm, Spec.ed]; congr 1; simp only [Spec.sqd, Vec3.sqrNorm, Vec3.inner, Vec3.sub]; ring

/-- An orthonormal frame with the third axis along `c1 - c0`. -/
private theorem axis_frame {τ : ℝ} (hτ : 0 ≤ τ) (hτ' : τ ≤ 1/4) {c0 c1 : Vec3 ℝ} (h : 4 * τ < Spec.ed c0 c1) :
    ∃ E : Mat3 ℝ, E.t.mulMat E = .ident ∧ c1.sub c0 = E.z.mul (Spec.ed c0 c1) ∧
      (c1.sub c0).orthonormalSpace τ = some (E.z, E.x, E.y) := by
  rw [← norm_ed56] at h ⊢
  obtain ⟨s1, s2, -, h2, hr⟩ := orthonormalSpace_spec hτ hτ' h
  refine ⟨_, hr.tm, ?_, h2⟩
  have : (c1.sub c0).norm ≠ 0 := by linarith
  ext <;> simp only [Vec3.mul] <;> field_simp

private theorem axisInertia_eq {τ ixx izz : ℝ} {a : Vec3 ℝ} {E : Mat3 ℝ} (h : a.orthonormalSpace τ = some (E.z, E.x, E.y)) :
    axisInertia τ ixx izz a = some (E.rotMat (Mat3.create ixx 0 0 0 ixx 0 0 0 izz)) := by
  rw [axisInertia, h]; rfl

private theorem pt_ends {b c0 c1 : Vec3 ℝ} {E : Mat3 ℝ} {h s t : ℝ} (ha : c1.sub c0 = E.z.mul h) (hb : b = c0.cat s (c1.sub c0)) (ht : t = 1 - s) :
    c0 = pt b E 0 0 (-(s * h)) ∧ c1 = pt b E 0 0 (t * h) := by
  have e1 := congrArg Vec3.x ha
  have e2 := congrArg Vec3.y ha
  have e3 := congrArg Vec3.z ha
  simp only [Vec3.sub, Vec3.mul] at e1 e2 e3
  subst hb; subst ht
  constructor <;> ext <;> simp only [pt, Vec3.cat, Vec3.sub]
  · linear_combination -s * e1
  · linear_combination -s * e2
  · linear_combination -s * e3
  · linear_combination (1 - s) * e1
  · linear_combination (1 - s) * e2
  · linear_combination (1 - s) * e3

/-! ## Cylinder, cone, capsule -/

/-- The integrals over a cylinder, for any axis. -/
private theorem cyl_mass (c : Cyl ℝ) (hR : 0 < c.radius) {E : Mat3 ℝ} (hE : E.t.mulMat E = .ident) (h0 : 0 < Spec.ed c.c0 c.c1)
    (ha : c.c1.sub c.c0 = E.z.mul (Spec.ed c.c0 c.c1)) :
    Spec.MassOf (Spec.cylinder c.c0 c.c1 c.radius) c.volume c.barycenter fun ρ =>
      let m := ρ * c.volume
      E.rotMat (Mat3.create ((3 * m * c.radius^2 + m * (Spec.ed c.c0 c.c1)^2) / 12) 0 0
        0 ((3 * m * c.radius^2 + m * (Spec.ed c.c0 c.c1)^2) / 12) 0 0 0 (3 * m * c.radius^2 / 6)) := by
  set h := Spec.ed c.c0 c.c1 with hh
  have hvol : c.volume = c.radius * c.radius * h * π := by
    rw [Cyl.volume, Cyl.height, Cyl.axis, norm_ed56, ← hh]; ring
  obtain ⟨e0, e1⟩ := pt_ends (b := c.barycenter) (s := 1/2) (t := 1/2) ha
    (by ext <;> simp only [Cyl.barycenter, Vec3.mid, Vec3.cat, Vec3.sub, Vec3.add, Vec3.mul] <;> ring) (by norm_num)
  have hS := cylinder_place (b := c.barycenter) hE hR h0
  rw [show -(h / 2) = -(1 / 2 * h) by ring, show h / 2 = 1 / 2 * h by ring, ← e0, ← e1] at hS
  obtain ⟨p1, p2, p3⟩ := has_cyl.mass pi_ne_zero hE hR hR h0 hS
  refine ⟨hvol ▸ p1, p2, fun ρ => ?_⟩
  have := p3 ρ
  simp only [Matrix.cons_val_zero, Matrix.cons_val_one, Matrix.cons_val] at this
  convert this using 3 <;> rw [hvol] <;> ring

/-- **C56** (`zCyl3DVolume`, `zCyl3DBarycenter`): for every cylinder with a positive radius and distinct
base centers, the volume and the barycenter are those of the solid cylinder. -/
theorem C56_cyl_volume (c : Cyl ℝ) (hR : 0 < c.radius) (hc : 0 < Spec.ed c.c0 c.c1) :
    Spec.IsVolume (Spec.cylinder c.c0 c.c1 c.radius) c.volume ∧ Spec.IsCentroid (Spec.cylinder c.c0 c.c1 c.radius) c.barycenter := by
  obtain ⟨E, hE, ha, -⟩ := axis_frame le_rfl (by norm_num) (show 4 * (0 : ℝ) < Spec.ed c.c0 c.c1 by linarith)
  have := cyl_mass c hR hE hc ha
  exact ⟨this.vol, this.cen⟩

/-- **C56** (`zCyl3DBaryInertia`, `zCyl3DBaryInertiaMass`): if the base centers are more than four
tolerances apart, the inertia tensor for a density `ρ` is `ρ ∫ (|r|² 1 - r rᵀ)` over the solid cylinder
about its barycenter, and the one for a mass `m` is that of the uniform density `m / volume`. -/
theorem C56_cyl_inertia {τ : ℝ} (hτ : 0 ≤ τ) (hτ' : τ ≤ 1/4) (c : Cyl ℝ) (hR : 0 < c.radius) (hc : 4 * τ < Spec.ed c.c0 c.c1) (ρ : ℝ) :
    (∃ I, c.baryInertia τ ρ = some I ∧ Spec.IsInertia (Spec.cylinder c.c0 c.c1 c.radius) ρ c.barycenter I) ∧
    (∃ I, c.baryInertiaMass τ ρ = some I ∧ Spec.IsInertia (Spec.cylinder c.c0 c.c1 c.radius) (ρ / c.volume) c.barycenter I) := by
  obtain ⟨E, hE, ha, ho⟩ := axis_frame hτ hτ' hc
  have h0 : 0 < Spec.ed c.c0 c.c1 := by linarith
  have hm := cyl_mass c hR hE h0 ha
  have hsq : c.axis.sqrNorm = (Spec.ed c.c0 c.c1) ^ 2 := by rw [← norm_ed56, Vec3.norm_sq]; rfl
  have hv : c.volume ≠ 0 := by
    rw [Cyl.volume, Cyl.height, Cyl.axis, norm_ed56]; positivity
  constructor
  · refine ⟨_, axisInertia_eq ho, ?_⟩
    rw [hsq]; exact hm.ine ρ
  · refine ⟨_, axisInertia_eq ho, ?_⟩
    rw [hsq]
    have := hm.ine (ρ / c.volume)
    simp only [div_mul_cancel₀ _ hv] at this
    exact this

/-- The integrals over a cone, for any axis. -/
private theorem cone_mass (c : Cone ℝ) (hR : 0 < c.radius) {E : Mat3 ℝ} (hE : E.t.mulMat E = .ident) (h0 : 0 < Spec.ed c.center c.vert)
    (ha : c.vert.sub c.center = E.z.mul (Spec.ed c.center c.vert)) :
    Spec.MassOf (Spec.cone c.center c.vert c.radius) c.volume c.barycenter fun ρ =>
      let m := ρ * c.volume
      E.rotMat (Mat3.create (1/20 * (3 * m * c.radius^2 + 3/4 * m * (Spec.ed c.center c.vert)^2)) 0 0
        0 (1/20 * (3 * m * c.radius^2 + 3/4 * m * (Spec.ed c.center c.vert)^2)) 0 0 0 (1/10 * (3 * m * c.radius^2))) := by
  set h := Spec.ed c.center c.vert with hh
  have hvol : c.volume = c.radius * c.radius * h * (π / 3) := by
    rw [Cone.volume, Cone.height, Cone.axis, norm_ed56, ← hh]; ring
  obtain ⟨e0, e1⟩ := pt_ends (b := c.barycenter) (s := 1/4) (t := 3/4) ha
    (by ext <;> simp only [Cone.barycenter, Vec3.interDiv, Vec3.cat, Vec3.sub, Vec3.add, Vec3.mul]) (by norm_num)
  have hS := cone_place (b := c.barycenter) hE hR h0
  rw [show -(h / 4) = -(1 / 4 * h) by ring, show 3 * h / 4 = 3 / 4 * h by ring, ← e0, ← e1] at hS
  obtain ⟨p1, p2, p3⟩ := has_cone.mass (by positivity) hE hR hR h0 hS
  refine ⟨hvol ▸ p1, p2, fun ρ => ?_⟩
  have := p3 ρ
  simp only [Matrix.cons_val_zero, Matrix.cons_val_one, Matrix.cons_val] at this
  convert this using 3 <;> rw [hvol] <;> ring

/-- **C56** (`zCone3DVolume`, `zCone3DBarycenter`): the volume and the barycenter of a cone with a positive
radius and an apex away from the base center are those of the solid cone. -/
theorem C56_cone_volume (c : Cone ℝ) (hR : 0 < c.radius) (hc : 0 < Spec.ed c.center c.vert) :
    Spec.IsVolume (Spec.cone c.center c.vert c.radius) c.volume ∧ Spec.IsCentroid (Spec.cone c.center c.vert c.radius) c.barycenter := by
  obtain ⟨E, hE, ha, -⟩ := axis_frame le_rfl (by norm_num) (show 4 * (0 : ℝ) < Spec.ed c.center c.vert by linarith)
  have := cone_mass c hR hE hc ha
  exact ⟨this.vol, this.cen⟩

/-- **C56** (`zCone3DBaryInertia`, `zCone3DBaryInertiaMass`): the inertia tensor of the solid cone. -/
theorem C56_cone_inertia {τ : ℝ} (hτ : 0 ≤ τ) (hτ' : τ ≤ 1/4) (c : Cone ℝ) (hR : 0 < c.radius) (hc : 4 * τ < Spec.ed c.center c.vert) (ρ : ℝ) :
    (∃ I, c.baryInertia τ ρ = some I ∧ Spec.IsInertia (Spec.cone c.center c.vert c.radius) ρ c.barycenter I) ∧
    (∃ I, c.baryInertiaMass τ ρ = some I ∧ Spec.IsInertia (Spec.cone c.center c.vert c.radius) (ρ / c.volume) c.barycenter I) := by
  obtain ⟨E, hE, ha, ho⟩ := axis_frame hτ hτ' hc
  have h0 : 0 < Spec.ed c.center c.vert := by linarith
  have hm := cone_mass c hR hE h0 ha
  have hsq : c.axis.sqrNorm = (Spec.ed c.center c.vert) ^ 2 := by rw [← norm_ed56, Vec3.norm_sq]; rfl
  have hv : c.volume ≠ 0 := by
    rw [Cone.volume, Cone.height, Cone.axis, norm_ed56]; positivity
  constructor
  · refine ⟨_, axisInertia_eq ho, ?_⟩
    rw [hsq]; exact hm.ine ρ
  · refine ⟨_, axisInertia_eq ho, ?_⟩
    rw [hsq]
    have := hm.ine (ρ / c.volume)
    simp only [div_mul_cancel₀ _ hv] at this
    exact this

/-- The integrals over a capsule, for any axis. -/
private theorem capsule_mass (c : Cyl ℝ) (hR : 0 < c.radius) {E : Mat3 ℝ} (hE : E.t.mulMat E = .ident) (h0 : 0 < Spec.ed c.c0 c.c1)
    (ha : c.c1.sub c.c0 = E.z.mul (Spec.ed c.c0 c.c1)) :
    Spec.MassOf (Spec.capsule c.c0 c.c1 c.radius) (Capsule.volume c) c.barycenter fun ρ =>
      let r := c.radius
      let r2 := r^2
      let h := Spec.ed c.c0 c.c1
      let m := ρ * π
      let izz := m * r2 * r2 * (8 * r / 15 + 1/2 * h)
      let ixx := m * r2 * (r2 * (8 * r / 15 + 3/4 * h) + (r + 1/4 * h) * h * h / 3)
      E.rotMat (Mat3.create ixx 0 0 0 ixx 0 0 0 izz) := by
  set h := Spec.ed c.c0 c.c1 with hh
  have hvol : Capsule.volume c = 1 * 1 * 1 * (π * (c.radius ^ 2 * h + 4 * c.radius ^ 3 / 3)) := by
    rw [Capsule.volume, Cyl.volume, Cyl.height, Cyl.axis, norm_ed56, ← hh]; ring
  obtain ⟨e0, e1⟩ := pt_ends (b := c.barycenter) (s := 1/2) (t := 1/2) ha
    (by ext <;> simp only [Cyl.barycenter, Vec3.mid, Vec3.cat, Vec3.sub, Vec3.add, Vec3.mul] <;> ring) (by norm_num)
  have hS := capsule_place (b := c.barycenter) hE hR h0
  rw [show pt c.barycenter E 0 0 (-(h / 2)) = c.c0 by rw [e0]; congr 1; ring,
    show pt c.barycenter E 0 0 (h / 2) = c.c1 by rw [e1]; congr 1; ring] at hS
  obtain ⟨p1, p2, p3⟩ := (has_capsule hR h0).mass (by positivity) hE one_pos one_pos one_pos hS
  refine ⟨hvol ▸ p1, p2, fun ρ => ?_⟩
  have := p3 ρ
  simp only [Matrix.cons_val_zero, Matrix.cons_val_one, Matrix.cons_val] at this
  convert this using 3 <;> ring

/-- **C56** (`zCapsule3DVolume`, `zCapsule3DBarycenter`): the volume and the barycenter of a capsule are
those of the set of points within the radius of the segment. -/
theorem C56_capsule_volume (c : Cyl ℝ) (hR : 0 < c.radius) (hc : 0 < Spec.ed c.c0 c.c1) :
    Spec.IsVolume (Spec.capsule c.c0 c.c1 c.radius) (Capsule.volume c) ∧ Spec.IsCentroid (Spec.capsule c.c0 c.c1 c.radius) c.barycenter := by
  obtain ⟨E, hE, ha, -⟩ := axis_frame le_rfl (by norm_num) (show 4 * (0 : ℝ) < Spec.ed c.c0 c.c1 by linarith)
  have := capsule_mass c hR hE hc ha
  exact ⟨this.vol, this.cen⟩

private theorem ed_tri56 (x y z : Vec3 ℝ) : Spec.ed x z ≤ Spec.ed x y + Spec.ed y z := by
  have key : ∀ a b : Vec3 ℝ, (a.add b).norm ≤ a.norm + b.norm := fun a b => by
    have h := Vec3.norm_sq (a.add b); have ha := Vec3.norm_sq a; have hb := Vec3.norm_sq b
    have na : 0 ≤ a.norm := Real.sqrt_nonneg _
    have nb : 0 ≤ b.norm := Real.sqrt_nonneg _
    refine abs_le_of_sq_le_sq' ?_ (by positivity) |>.2
    have hcs : a.inner b ≤ a.norm * b.norm := by
      refine abs_le_of_sq_le_sq' ?_ (by positivity) |>.2
      have : (a.norm * b.norm) ^ 2 = a.norm ^ 2 * b.norm ^ 2 := by ring
      rw [this, ha, hb]
      simp only [zeo]
      nlinarith [sq_nonneg (a.x * b.y - a.y * b.x), sq_nonneg (a.y * b.z - a.z * b.y), sq_nonneg (a.z * b.x - a.x * b.z)]
    have : (a.norm + b.norm) ^ 2 = a.norm ^ 2 + b.norm ^ 2 + 2 * (a.norm * b.norm) := by ring
    rw [this, h, ha, hb]
    simp only [zeo] at hcs ⊢
    nlinarith
  have e : ∀ p q : Vec3 ℝ, Spec.ed p q = (q.sub p).norm := fun p q => (norm_ed56 p q).symm
  rw [e, e, e]
  have := key (y.sub x) (z.sub y)
  rwa [show (y.sub x).add (z.sub y) = z.sub x by vring, ] at this

/-- **C56** (`zCapsule3DHeight`): the height is the diameter of the capsule, the largest distance between two of
its points. -/
theorem C56_capsule_height (c : Cyl ℝ) (hR : 0 < c.radius) (hc : 0 < Spec.ed c.c0 c.c1) :
    (∃ p ∈ Spec.capsule c.c0 c.c1 c.radius, ∃ q ∈ Spec.capsule c.c0 c.c1 c.radius, Spec.ed p q = Capsule.height c) ∧
    ∀ p ∈ Spec.capsule c.c0 c.c1 c.radius, ∀ q ∈ Spec.capsule c.c0 c.c1 c.radius, Spec.ed p q ≤ Capsule.height c := by
  have hn : c.height = Spec.ed c.c0 c.c1 := norm_ed56 _ _
  have hs : Spec.ed c.c0 c.c1 * Spec.ed c.c0 c.c1 = Spec.sqd c.c0 c.c1 := Real.mul_self_sqrt (by simp only [Spec.sqd]; positivity)
  have ofsq : ∀ {p q : Vec3 ℝ} {x : ℝ}, 0 ≤ x → Spec.sqd p q = x ^ 2 → Spec.ed p q = x := fun hx h => by rw [Spec.ed, h, Real.sqrt_sq hx]
  unfold Capsule.height
  rw [hn]
  set L := Spec.ed c.c0 c.c1 with hL
  constructor
  · have hL' := hc.ne'
    have hdiv : ∀ p, Spec.sqd c.c0 c.c1 * (p / L) ^ 2 = p ^ 2 := by intro p; rw [← hs]; field_simp
    refine ⟨c.c0.cat (-(c.radius / L)) c.axis, ⟨c.c0, ⟨1, 0, by norm_num, by norm_num, by norm_num, by simp [Spec.comb]⟩, ?_⟩,
      c.c1.cat (c.radius / L) c.axis, ⟨c.c1, ⟨0, 1, by norm_num, by norm_num, by norm_num, by simp [Spec.comb]⟩, ?_⟩, ?_⟩
    · refine (ofsq hR.le ?_).le
      rw [← hdiv]
      simp only [Spec.sqd, Cyl.axis, zeo]; ring
    · refine (ofsq hR.le ?_).le
      rw [← hdiv]
      simp only [Spec.sqd, Cyl.axis, zeo]; ring
    · refine ofsq (by positivity) ?_
      have : (L + c.radius * 2) ^ 2 = Spec.sqd c.c0 c.c1 * (1 + 2 * (c.radius / L)) ^ 2 := by rw [← hs]; field_simp
      rw [this]
      simp only [Spec.sqd, Cyl.axis, zeo]; ring
  · rintro p ⟨m, ⟨a, b, ha, hb, hab, rfl⟩, hm⟩ q ⟨m', ⟨a', b', ha', hb', hab', rfl⟩, hm'⟩
    have h1 : Spec.ed (Spec.comb a b 0 0 c.c0 c.c1 c.c0 c.c0) (Spec.comb a' b' 0 0 c.c0 c.c1 c.c0 c.c0) = |b - b'| * L := by
      refine ofsq (by positivity) ?_
      have e1 : a = 1 - b := by linarith
      have e2 : a' = 1 - b' := by linarith
      rw [mul_pow, sq_abs, pow_two L, hs, e1, e2]
      simp only [Spec.sqd, Spec.comb]; ring
    have h2 : |b - b'| * L ≤ L := by
      have : |b - b'| ≤ 1 := abs_le.2 ⟨by linarith, by linarith⟩
      nlinarith
    have comm : ∀ p q : Vec3 ℝ, Spec.ed p q = Spec.ed q p := by intro p q; simp only [Spec.ed, Spec.sqd]; congr 1; ring
    rw [comm] at hm
    linarith [ed_tri56 p (Spec.comb a b 0 0 c.c0 c.c1 c.c0 c.c0) q, ed_tri56 (Spec.comb a b 0 0 c.c0 c.c1 c.c0 c.c0) (Spec.comb a' b' 0 0 c.c0 c.c1 c.c0 c.c0) q]

/-- **C56** (`zCapsule3DBaryInertia`, `zCapsule3DBaryInertiaMass`): the inertia tensor of the capsule. -/
theorem C56_capsule_inertia {τ : ℝ} (hτ : 0 ≤ τ) (hτ' : τ ≤ 1/4) (c : Cyl ℝ) (hR : 0 < c.radius) (hc : 4 * τ < Spec.ed c.c0 c.c1) (ρ : ℝ) :
    (∃ I, Capsule.baryInertia τ c ρ = some I ∧ Spec.IsInertia (Spec.capsule c.c0 c.c1 c.radius) ρ c.barycenter I) ∧
    (∃ I, Capsule.baryInertiaMass τ c ρ = some I ∧
      Spec.IsInertia (Spec.capsule c.c0 c.c1 c.radius) (ρ / Capsule.volume c) c.barycenter I) := by
  obtain ⟨E, hE, ha, ho⟩ := axis_frame hτ hτ' hc
  have h0 : 0 < Spec.ed c.c0 c.c1 := by linarith
  have hm := capsule_mass c hR hE h0 ha
  have hn : c.axis.norm = Spec.ed c.c0 c.c1 := norm_ed56 _ _
  constructor
  · refine ⟨_, axisInertia_eq ho, ?_⟩
    rw [hn]; exact hm.ine ρ
  · refine ⟨_, axisInertia_eq ho, ?_⟩
    rw [hn]; exact hm.ine _

/-- The cylinder, cone and capsule theorems apply to ordinary solids. -/
example : (0 : ℝ) < (⟨⟨0,0,0⟩, ⟨1,2,2⟩, 1⟩ : Cyl ℝ).radius ∧ 4 * (1/1000 : ℝ) < Spec.ed ⟨0,0,0⟩ ⟨1,2,2⟩ := by
  refine ⟨one_pos, ?_⟩
  have : Spec.ed ⟨0,0,0⟩ ⟨1,2,2⟩ = 3 := by
    rw [Spec.ed, show Spec.sqd (⟨0,0,0⟩ : Vec3 ℝ) ⟨1,2,2⟩ = 3 ^ 2 by norm_num [Spec.sqd]]; exact Real.sqrt_sq (by norm_num)
  rw [this]; norm_num

/-! ## Sphere, box, ellipsoid -/

private theorem ident_orth : (Mat3.ident : Mat3 ℝ).t.mulMat .ident = .ident := by
  ext <;> simp [zeo]

private theorem rot_ident (m : Mat3 ℝ) : (Mat3.ident : Mat3 ℝ).rotMat m = m := by
  ext <;> simp [zeo, Mat3.rotMat]

/-- **C56** (`zSphere3DVolume`, `zSphere3DBaryInertia`, `zSphere3DBaryInertiaMass`): volume, center and
inertia tensor of the ball. -/
theorem C56_sphere (s : Sphere3 ℝ) (hR : 0 < s.radius) :
    Spec.MassOf (Spec.ball s.center s.radius) s.volume s.center s.baryInertia ∧
    ∀ m, Spec.IsInertia (Spec.ball s.center s.radius) (m / s.volume) s.center (s.baryInertiaMass m) := by
  have hS := ball_place (b := s.center) ident_orth hR hR hR (S := Spec.ball s.center s.radius) fun X Y Z => by
    show Spec.ed _ _ ≤ _ ↔ _
    have : s.center = pt s.center .ident 0 0 0 := by ext <;> simp [pt]
    conv_lhs => rw [this]
    rw [ed_le hR.le, ← this, show Spec.sqd s.center (pt s.center .ident X Y Z) = X ^ 2 + Y ^ 2 + Z ^ 2 by
      simp [Spec.sqd, pt, zeo], div_pow, div_pow, div_pow, ← add_div, ← add_div, div_le_one (by positivity)]
  obtain ⟨p1, p2, p3⟩ := has_ball.mass (by positivity) ident_orth hR hR hR hS
  have hvol : s.volume = s.radius * s.radius * s.radius * (4 * π / 3) := by rw [Sphere3.volume]; ring
  have hv : s.volume ≠ 0 := by rw [Sphere3.volume]; positivity
  have hI : ∀ ρ, Spec.IsInertia (Spec.ball s.center s.radius) ρ s.center (s.baryInertia ρ) := fun ρ => by
    have := p3 ρ
    rw [rot_ident] at this
    simp only [Matrix.cons_val_zero, Matrix.cons_val_one, Matrix.cons_val] at this
    convert this using 2
    simp only [Sphere3.baryInertia, Sphere3.baryInertiaMass, hvol]
    congr 1 <;> ring
  refine ⟨⟨hvol ▸ p1, p2, hI⟩, fun m => ?_⟩
  have := hI (m / s.volume)
  rwa [Sphere3.baryInertia, div_mul_cancel₀ _ hv] at this

/-- **C56** (`zBox3DVolume`, `zBox3DBaryInertia`, `zBox3DBaryInertiaMass`): volume, center and inertia
tensor of an oriented box with orthonormal axes and positive spans. -/
theorem C56_box (b : Box3 ℝ) (hb : b.frame.att.t.mulMat b.frame.att = .ident) (hx : 0 < b.span.x) (hy : 0 < b.span.y) (hz : 0 < b.span.z) :
    Spec.MassOf (Spec.obox b) b.volume b.frame.pos b.baryInertia ∧
    ∀ m, Spec.IsInertia (Spec.obox b) (m / b.volume) b.frame.pos (b.baryInertiaMass m) := by
  have hS := box_place (b := b.frame.pos) hb hx hy hz (S := Spec.obox b) fun X Y Z => by
    constructor
    · rintro ⟨s, t, u, h1, h2, h3, he⟩
      obtain ⟨rfl, rfl, rfl⟩ := pt_inj hb (show pt b.frame.pos b.frame.att X Y Z = pt b.frame.pos b.frame.att s t u from he)
      exact ⟨h1, h2, h3⟩
    · rintro ⟨h1, h2, h3⟩
      exact ⟨X, Y, Z, h1, h2, h3, rfl⟩
  obtain ⟨p1, p2, p3⟩ := has_cube.mass one_ne_zero hb hx hy hz hS
  have hv : b.volume ≠ 0 := by rw [Box3.volume]; positivity
  have hI : ∀ ρ, Spec.IsInertia (Spec.obox b) ρ b.frame.pos (b.baryInertia ρ) := fun ρ => by
    have := p3 ρ
    simp only [Matrix.cons_val_zero, Matrix.cons_val_one, Matrix.cons_val] at this
    convert this using 1
    simp only [Box3.baryInertia, Box3.baryInertiaMass, Box3.volume]
    congr 2 <;> ring
  refine ⟨⟨by rw [mul_one] at p1; exact p1, p2, hI⟩, fun m => ?_⟩
  have := hI (m / b.volume)
  rwa [Box3.baryInertia, div_mul_cancel₀ _ hv] at this

/-- The ellipsoid: points whose coordinates along the axes satisfy the equation. -/
def Spec.ellipsoid (e : Ellips ℝ) : Set (Vec3 ℝ) :=
  {q | ∃ X Y Z, (X / e.radius.x) ^ 2 + (Y / e.radius.y) ^ 2 + (Z / e.radius.z) ^ 2 ≤ 1 ∧
    q.x = e.f.pos.x + X * e.f.att.x.x + Y * e.f.att.y.x + Z * e.f.att.z.x ∧
    q.y = e.f.pos.y + X * e.f.att.x.y + Y * e.f.att.y.y + Z * e.f.att.z.y ∧
    q.z = e.f.pos.z + X * e.f.att.x.z + Y * e.f.att.y.z + Z * e.f.att.z.z}

/-- **C56** (`zEllips3DVolume`, `zEllips3DBaryInertia`, `zEllips3DBaryInertiaMass`): volume, center and
inertia tensor of an ellipsoid with orthonormal axes. -/
theorem C56_ellips (e : Ellips ℝ) (he : e.f.att.t.mulMat e.f.att = .ident) (hx : 0 < e.radius.x) (hy : 0 < e.radius.y) (hz : 0 < e.radius.z) :
    Spec.MassOf (Spec.ellipsoid e) e.volume e.f.pos e.baryInertia ∧
    ∀ m, Spec.IsInertia (Spec.ellipsoid e) (m / e.volume) e.f.pos (e.baryInertiaMass m) := by
  have hS := ball_place (b := e.f.pos) he hx hy hz (S := Spec.ellipsoid e) fun X Y Z => by
    constructor
    · rintro ⟨s, t, u, h, h1, h2, h3⟩
      obtain ⟨rfl, rfl, rfl⟩ := pt_inj he (show pt e.f.pos e.f.att X Y Z = pt e.f.pos e.f.att s t u from Vec3.ext h1 h2 h3)
      exact h
    · intro h
      exact ⟨X, Y, Z, h, rfl, rfl, rfl⟩
  obtain ⟨p1, p2, p3⟩ := has_ball.mass (by positivity) he hx hy hz hS
  have hvol : e.volume = e.radius.x * e.radius.y * e.radius.z * (4 * π / 3) := by rw [Ellips.volume]; ring
  have hv : e.volume ≠ 0 := by rw [Ellips.volume]; positivity
  have hI : ∀ ρ, Spec.IsInertia (Spec.ellipsoid e) ρ e.f.pos (e.baryInertia ρ) := fun ρ => by
    have := p3 ρ
    simp only [Matrix.cons_val_zero, Matrix.cons_val_one, Matrix.cons_val] at this
    convert this using 1
    simp only [Ellips.baryInertia, Ellips.baryInertiaMass, hvol]
    congr 2 <;> ring
  refine ⟨⟨hvol ▸ p1, p2, hI⟩, fun m => ?_⟩
  have := hI (m / e.volume)
  rwa [Ellips.baryInertia, div_mul_cancel₀ _ hv] at this

/-- The box and ellipsoid theorems apply to a rotated frame, and to the left-handed frames made by the
`Mirror` functions. -/
example : (⟨⟨3/5, 4/5, 0⟩, ⟨-4/5, 3/5, 0⟩, ⟨0, 0, 1⟩⟩ : Mat3 ℝ).t.mulMat ⟨⟨3/5, 4/5, 0⟩, ⟨-4/5, 3/5, 0⟩, ⟨0, 0, 1⟩⟩ = .ident ∧
    (⟨⟨3/5, 4/5, 0⟩, ⟨-4/5, 3/5, 0⟩, ⟨0, 0, -1⟩⟩ : Mat3 ℝ).t.mulMat ⟨⟨3/5, 4/5, 0⟩, ⟨-4/5, 3/5, 0⟩, ⟨0, 0, -1⟩⟩ = .ident := by
  constructor <;> ext <;> simp only [zeo] <;> norm_num

/-! ## Elliptic cylinder -/

/-- The elliptic cylinder: foot on the axis between the base centers, and the offset from the axis in
the ellipse with semi-axes `r0` along `u` and `r1` along the direction perpendicular to `u` and the axis. -/
def Spec.ecylinder (c0 c1 : Vec3 ℝ) (r0 r1 : ℝ) (u w : Vec3 ℝ) : Set (Vec3 ℝ) :=
  {q | ∃ m ∈ segment c0 c1, ∃ s t, (s / r0) ^ 2 + (t / r1) ^ 2 ≤ 1 ∧
    q.x = m.x + s * u.x + t * w.x ∧ q.y = m.y + s * u.y + t * w.y ∧ q.z = m.z + s * u.z + t * w.z}

/-- The radial vectors are unit vectors, perpendicular to each other and to the axis. -/
def Spec.ProperECyl (c : ECyl ℝ) : Prop :=
  (c.rv0.x ^ 2 + c.rv0.y ^ 2 + c.rv0.z ^ 2 = 1 ∧ c.rv1.x ^ 2 + c.rv1.y ^ 2 + c.rv1.z ^ 2 = 1 ∧
    c.rv0.x * c.rv1.x + c.rv0.y * c.rv1.y + c.rv0.z * c.rv1.z = 0) ∧
  (c.rv0.x * (c.c1.x - c.c0.x) + c.rv0.y * (c.c1.y - c.c0.y) + c.rv0.z * (c.c1.z - c.c0.z) = 0 ∧
    c.rv1.x * (c.c1.x - c.c0.x) + c.rv1.y * (c.c1.y - c.c0.y) + c.rv1.z * (c.c1.z - c.c0.z) = 0)

theorem ecyl_frame {c : ECyl ℝ} (hc : Spec.ProperECyl c) (h0 : 0 < Spec.ed c.c0 c.c1) :
    (⟨c.rv0, c.rv1, c.axis.mul (1 / Spec.ed c.c0 c.c1)⟩ : Mat3 ℝ).t.mulMat ⟨c.rv0, c.rv1, c.axis.mul (1 / Spec.ed c.c0 c.c1)⟩ = .ident := by
  obtain ⟨⟨a, b, d⟩, e, f⟩ := hc
  set h := Spec.ed c.c0 c.c1 with hh
  have hsq : (c.c1.x - c.c0.x) ^ 2 + (c.c1.y - c.c0.y) ^ 2 + (c.c1.z - c.c0.z) ^ 2 = h ^ 2 := by
    rw [hh, Spec.ed, Real.sq_sqrt (by unfold Spec.sqd; positivity), Spec.sqd]; ring
  have h1 : 1 / h * h = 1 := by field_simp
  ext <;> simp only [zeo, ECyl.axis]
  · linarith
  · linarith
  · linear_combination (1 / h) * e
  · linarith
  · linarith
  · linear_combination (1 / h) * f
  · linear_combination (1 / h) * e
  · linear_combination (1 / h) * f
  · linear_combination (1 / h) ^ 2 * hsq + (1 / h * h + 1) * h1

/-- **C56** (`zECyl3DVolume`, `zECyl3DBarycenter`, `zECyl3DBaryInertia`, `zECyl3DBaryInertiaMass`): for
orthonormal radial vectors, the volume, the barycenter and the inertia tensor are those of the solid
elliptic cylinder. -/
theorem C56_ecyl {τ : ℝ} (c : ECyl ℝ) (hc : Spec.ProperECyl c) (h0 : 0 < c.r0) (h1 : 0 < c.r1) (ha : ¬ c.axis.isTol τ) (hτ : 0 ≤ τ) :
    Spec.MassOf (Spec.ecylinder c.c0 c.c1 c.r0 c.r1 c.rv0 c.rv1) c.volume c.barycenter (c.baryInertia τ) ∧
    ∀ m, Spec.IsInertia (Spec.ecylinder c.c0 c.c1 c.r0 c.r1 c.rv0 c.rv1) (m / c.volume) c.barycenter (c.baryInertiaMass τ m) := by
  obtain ⟨hu, hn, hp⟩ := normalize_unit hτ (old := c.axis) ha
  have hnorm : c.axis.norm = Spec.ed c.c0 c.c1 := norm_ed56 _ _
  rw [hnorm] at hp
  have hE := ecyl_frame hc hp
  set h := Spec.ed c.c0 c.c1 with hh
  set E : Mat3 ℝ := ⟨c.rv0, c.rv1, c.axis.mul (1 / h)⟩ with hEd
  have hax : c.c1.sub c.c0 = E.z.mul h := by
    show c.axis = _
    ext <;> simp only [hEd, Vec3.mul] <;> field_simp
  obtain ⟨e0, e1⟩ := pt_ends (b := c.barycenter) (s := 1/2) (t := 1/2) hax
    (by ext <;> simp only [ECyl.barycenter, Vec3.mid, Vec3.cat, Vec3.sub, Vec3.add, Vec3.mul] <;> ring) (by norm_num)
  have hS := pts_eq_place (b := c.barycenter) (S := Spec.ecylinder c.c0 c.c1 c.r0 c.r1 c.rv0 c.rv1) (U := Rev (fun _ => 1) (-(1/2)) (1/2)) hE h0 h1 hp
    fun X Y Z => by
    rw [mem_rev, le_div_iff₀ hp, div_le_iff₀ hp]
    constructor
    · rintro ⟨m, ⟨a, b, ha', hb', hab, rfl⟩, s, t, hst, q1, q2, q3⟩
      rw [e0, e1, comb_pt _ E hab] at q1 q2 q3
      have he : pt c.barycenter E X Y Z = pt c.barycenter E s t (a * -(1 / 2 * h) + b * (1 / 2 * h)) := by
        ext
        · rw [q1]; simp only [pt, hEd]; ring
        · rw [q2]; simp only [pt, hEd]; ring
        · rw [q3]; simp only [pt, hEd]; ring
      obtain ⟨rfl, rfl, hZ⟩ := pt_inj hE he
      refine ⟨⟨?_, ?_⟩, hst⟩ <;> rw [hZ] <;> nlinarith
    · rintro ⟨⟨z0, z1⟩, hst⟩
      have hab : (1/2 - Z / h) + (1/2 + Z / h) = 1 := by ring
      have k1 : Z / h ≤ 1/2 := by rw [div_le_iff₀ hp]; linarith
      have k2 : -(1/2) ≤ Z / h := by rw [le_div_iff₀ hp]; linarith
      refine ⟨_, ⟨1/2 - Z / h, 1/2 + Z / h, by linarith, by linarith, hab, rfl⟩, X, Y, hst, ?_⟩
      rw [e0, e1, comb_pt _ E hab, show (1/2 - Z / h) * -(1 / 2 * h) + (1/2 + Z / h) * (1 / 2 * h) = Z by field_simp; ring]
      simp only [pt, hEd]
      exact ⟨by ring, by ring, by ring⟩
  obtain ⟨p1, p2, p3⟩ := has_cyl.mass pi_ne_zero hE h0 h1 hp hS
  have hvol : c.volume = c.r0 * c.r1 * h * π := by rw [ECyl.volume, ECyl.height, hnorm]; ring
  have hv : c.volume ≠ 0 := by rw [hvol]; positivity
  have hsq : c.axis.sqrNorm = h ^ 2 := by rw [← Vec3.norm_sq, hnorm]
  have hI : ∀ ρ, Spec.IsInertia (Spec.ecylinder c.c0 c.c1 c.r0 c.r1 c.rv0 c.rv1) ρ c.barycenter (c.baryInertia τ ρ) := fun ρ => by
    have := p3 ρ
    simp only [Matrix.cons_val_zero, Matrix.cons_val_one, Matrix.cons_val] at this
    convert this using 1
    have hz : (c.axis.normalize τ c.axis).2 = c.axis.mul (1 / h) := by
      rw [Vec3.normalize, if_neg ha, Vec3.normalizeNC, hnorm]
    simp only [ECyl.baryInertia, ECyl.baryInertiaMass, hvol, hsq, hz]
    congr 2 <;> ring
  refine ⟨⟨hvol ▸ p1, p2, hI⟩, fun m => ?_⟩
  have := hI (m / c.volume)
  rwa [ECyl.baryInertia, div_mul_cancel₀ _ hv] at this

private theorem not_tol56 {τ : ℝ} (hτ : 0 ≤ τ) {v : Vec3 ℝ} (h : 3 * τ ^ 2 < v.sqrNorm) : ¬ v.isTol τ := by
  rintro ⟨h1, h2, h3⟩
  simp only [zIsTol] at h1 h2 h3
  have a1 := sq_le_sq' (by linarith [abs_le.1 h1]) (abs_le.1 h1).2
  have a2 := sq_le_sq' (by linarith [abs_le.1 h2]) (abs_le.1 h2).2
  have a3 := sq_le_sq' (by linarith [abs_le.1 h3]) (abs_le.1 h3).2
  simp only [Vec3.sqrNorm, Vec3.inner] at h
  nlinarith

/-- **C56** (`zECyl3DCreate` with a reference vector): if the reference vector is not tiny and keeps a
component across the axis that is longer than `√3` tolerances, the radial vectors are orthonormal and
perpendicular to the axis, so that the theorems on elliptic cylinders apply; the first one is the
direction of that component. -/
theorem C56_ecyl_ref {τ : ℝ} (hτ : 0 ≤ τ) (c0 c1 : Vec3 ℝ) (r0 r1 : ℝ) (ref : Vec3 ℝ) (old : ECyl ℝ)
    (ha : 3 * τ ^ 2 < Spec.sqd c0 c1) (hr : ¬ ref.isTol τ)
    (hp : 3 * τ ^ 2 * Spec.sqd c0 c1 < ref.sqrNorm * Spec.sqd c0 c1 - (ref.inner (c1.sub c0)) ^ 2) :
    Spec.ProperECyl (ECyl.create τ c0 c1 r0 r1 (some ref) old) ∧
    ∃ k m, 0 < k ∧ (ECyl.create τ c0 c1 r0 r1 (some ref) old).rv0 = (ref.cat m (c1.sub c0)).mul k := by
  set a := c1.sub c0 with ha'
  have hsq : Spec.sqd c0 c1 = a.sqrNorm := by rw [ha']; simp only [Spec.sqd, Vec3.sqrNorm, Vec3.inner, Vec3.sub]; ring
  rw [hsq] at ha hp
  have h0 : 0 < a.sqrNorm := lt_of_le_of_lt (by positivity) ha
  have hat := not_tol56 hτ ha
  set o := ref.cat (-a.inner ref / a.sqrNorm) a with ho
  have ho2 : o.sqrNorm * a.sqrNorm = ref.sqrNorm * a.sqrNorm - (ref.inner a) ^ 2 := by
    have : -a.inner ref / a.sqrNorm * a.sqrNorm = -a.inner ref := by field_simp
    set k := -a.inner ref / a.sqrNorm
    rw [ho]
    simp only [Vec3.sqrNorm, Vec3.inner, Vec3.cat] at this ⊢
    linear_combination (k * (a.x * a.x + a.y * a.y + a.z * a.z) + 2 * (ref.x * a.x + ref.y * a.y + ref.z * a.z) + (-(a.x * ref.x + a.y * ref.y + a.z * ref.z))) * this
  have hoa : o.inner a = 0 := by
    have : -a.inner ref / a.sqrNorm * a.sqrNorm = -a.inner ref := by field_simp
    set k := -a.inner ref / a.sqrNorm
    rw [ho]
    simp only [Vec3.sqrNorm, Vec3.inner, Vec3.cat] at this ⊢
    linear_combination this
  have hot : ¬ o.isTol τ := not_tol56 hτ (by
    rw [← ho2] at hp; exact lt_of_mul_lt_mul_right hp h0.le)
  obtain ⟨u1, u2, u3⟩ := normalize_unit hτ (old := o) hot
  set rv0 := (o.normalize τ o).2 with hrv
  have hra : rv0.inner a = 0 := by
    have : o.norm * rv0.inner a = o.inner a := by
      conv_rhs => rw [u2]
      simp only [Vec3.inner, Vec3.mul]; ring
    rw [hoa] at this
    exact (mul_eq_zero.1 this).resolve_left u3.ne'
  set n := a.outer rv0 with hn
  have hn2 : n.sqrNorm = a.sqrNorm := by
    have e1 : n.sqrNorm = a.sqrNorm * rv0.sqrNorm - (rv0.inner a) ^ 2 := by
      rw [hn]; simp only [Vec3.sqrNorm, Vec3.inner, Vec3.outer]; ring
    rw [e1, hra, u1]; ring
  have hnt : ¬ n.isTol τ := not_tol56 hτ (by rw [hn2]; exact ha)
  obtain ⟨w1, w2, w3⟩ := normalize_unit hτ (old := n) hnt
  have hcr : ECyl.create τ c0 c1 r0 r1 (some ref) old = ⟨c0, c1, r0, r1, rv0, (n.normalize τ n).2⟩ := by
    simp only [ECyl.create, ECyl.defAxis, if_neg hr, ECyl.axis, ← ha', Vec3.orthogonalize, if_neg hat, Option.getD_some]
    rfl
  set rv1 := (n.normalize τ n).2 with hrv1
  have hk : ∀ v : Vec3 ℝ, n.inner v = 0 → rv1.inner v = 0 := fun v hv => by
    have : n.norm * rv1.inner v = n.inner v := by
      conv_rhs => rw [w2]
      simp only [Vec3.inner, Vec3.mul]; ring
    rw [hv] at this
    exact (mul_eq_zero.1 this).resolve_left w3.ne'
  have k0 := hk rv0 (by rw [hn]; simp only [Vec3.inner, Vec3.outer]; ring)
  have k1 := hk a (by rw [hn]; simp only [Vec3.inner, Vec3.outer]; ring)
  rw [hcr]
  refine ⟨?_, 1 / o.norm, -a.inner ref / a.sqrNorm, by positivity, ?_⟩
  · simp only [Vec3.sqrNorm, Vec3.inner] at u1 w1 k0 k1 hra
    simp only [ha', Vec3.sub] at k1 hra
    refine ⟨⟨?_, ?_, ?_⟩, ?_, ?_⟩ <;> dsimp only
    · linarith
    · linarith
    · linarith
    · linarith
    · linarith
  · show rv0 = _
    rw [← ho, hrv, Vec3.normalize, if_neg hot]; rfl

/-- A slanted reference vector meets the hypotheses. -/
example : 3 * (1/1000 : ℝ) ^ 2 < Spec.sqd ⟨0,0,0⟩ ⟨0,0,2⟩ ∧ ¬ (⟨1,0,1⟩ : Vec3 ℝ).isTol (1/1000) ∧
    3 * (1/1000 : ℝ) ^ 2 * Spec.sqd ⟨0,0,0⟩ ⟨0,0,2⟩ < (⟨1,0,1⟩ : Vec3 ℝ).sqrNorm * Spec.sqd ⟨0,0,0⟩ ⟨0,0,2⟩ -
      ((⟨1,0,1⟩ : Vec3 ℝ).inner ((⟨0,0,2⟩ : Vec3 ℝ).sub ⟨0,0,0⟩)) ^ 2 := by
  refine ⟨by norm_num [Spec.sqd], ?_, by norm_num [Spec.sqd, Vec3.sqrNorm, Vec3.inner, Vec3.sub]⟩
  rintro ⟨h, -⟩; norm_num [zIsTol] at h

/-- **C56, what goes wrong** (`zECyl3DCreate` without a reference vector, as documented for a NULL or zero
`ref`): the second radial vector gets the length of the axis instead of one, so the radial vectors are
orthonormal only for an elliptic cylinder of height 1.  (`zVec3DOrthoSpace` is used where
`zVec3DOrthonormalSpace` is needed.) -/
theorem C56_ecyl_noref_wrong {τ : ℝ} (hτ : 0 ≤ τ) (hτ' : τ ≤ 1/4) (c0 c1 : Vec3 ℝ) (r0 r1 : ℝ) (old : ECyl ℝ) (ref : Option (Vec3 ℝ))
    (href : ∀ r, ref = some r → r.isTol τ) (hc : 4 * τ < Spec.ed c0 c1) :
    (ECyl.create τ c0 c1 r0 r1 ref old).rv1.norm = Spec.ed c0 c1 ∧
    (Spec.ProperECyl (ECyl.create τ c0 c1 r0 r1 ref old) ↔ Spec.ed c0 c1 = 1) := by
  rw [← norm_ed56] at hc ⊢
  obtain ⟨s1, s2, ho, -, hr⟩ := orthonormalSpace_spec hτ hτ' hc
  set a := c1.sub c0 with ha
  set h := a.norm with hh
  have hcr : ECyl.create τ c0 c1 r0 r1 ref old = ⟨c0, c1, r0, r1, s1, s2.mul h⟩ := by
    cases ref with
    | none => simp only [ECyl.create, ECyl.defAxis, ECyl.axis, ← ha, ho]
    | some r => simp only [ECyl.create, ECyl.defAxis, ECyl.axis, ← ha, ho, if_pos (href r rfl)]
  have hp : 0 < h := by linarith
  obtain ⟨⟨a1, a2, a3⟩, a4, a5, a6⟩ := cols_of hr.tm
  dsimp only at a1 a2 a3 a4 a5 a6
  have hn : (s2.mul h).norm = h := by
    rw [Vec3.norm_mul, abs_of_pos hp]
    have : s2.norm = 1 := by
      rw [Vec3.norm, Real.sqrt_eq_one, Vec3.sqrNorm, Vec3.inner]; linarith
    rw [this, mul_one]
  rw [hcr]
  refine ⟨hn, ?_⟩
  constructor
  · rintro ⟨⟨-, h2, -⟩, -⟩
    simp only [Vec3.mul] at h2
    have : h ^ 2 = 1 := by nlinarith
    nlinarith
  · intro h1
    simp only [h1, Vec3.mul, ha, Vec3.sub, div_one, one_mul] at a5 a6 ⊢
    refine ⟨⟨?_, ?_, ?_⟩, ?_, ?_⟩ <;> dsimp only <;> linarith

end Zeo
