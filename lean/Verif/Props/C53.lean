import Verif.Model.ZTK
import Verif.Props.C56

/-! # C53: optical information and shapes survive a ZTK write/read cycle -/

universe u

namespace Zeo
open ZTK

namespace Spec
/-- A vector whose components went through decimal notation. -/
def roundV {K : Type*} (fmt : K → K) (v : Vec3 K) : Vec3 K := ⟨fmt v.x, fmt v.y, fmt v.z⟩
/-- A colour whose components went through decimal notation. -/
def roundC {K : Type*} (fmt : K → K) (c : RGB K) : RGB K := ⟨fmt c.r, fmt c.g, fmt c.b⟩
end Spec

section
variable {K : Type*} [Field K] [LinearOrder K] [IsStrictOrderedRing K]

/-- **C53** (`zOpticalInfoFPrintZTK`, then `zOpticalInfoFromZTK`): the name and the three colours come back
(up to decimal notation), the Phong exponent, the shininess and the alpha value come back or were within the
tolerance of the default they get. -/
theorem C53_optic (fmt fmtF : K → K) (τ : K) (o : Optic K) (n : String) (hn : o.name = some n) :
    ∃ o', Optic.fromZTK τ (o.print fmt fmtF τ) = .ok o' ∧ o'.name = some n ∧
      o'.ambient = Spec.roundC fmtF o.ambient ∧ o'.diffuse = Spec.roundC fmtF o.diffuse ∧
      o'.specular = Spec.roundC fmtF o.specular ∧
      (o'.esr = fmt o.esr ∨ o'.esr = 0 ∧ |o'.esr - o.esr| ≤ τ) ∧
      (o'.shininess = fmt o.shininess ∨ o'.shininess = 0 ∧ |o'.shininess - o.shininess| ≤ τ) ∧
      (o'.alpha = fmt o.alpha ∨ o'.alpha = 1 ∧ |o'.alpha - o.alpha| ≤ τ) := by
  by_cases h1 : zIsTol o.esr τ <;> by_cases h2 : zIsTol o.shininess τ <;> by_cases h3 : zIsTol (1 - o.alpha) τ <;>
  · refine ⟨⟨some n, Spec.roundC fmtF o.ambient, Spec.roundC fmtF o.diffuse, Spec.roundC fmtF o.specular,
      if zIsTol o.esr τ then 0 else fmt o.esr, if zIsTol o.shininess τ then 0 else fmt o.shininess,
      if zIsTol (1 - o.alpha) τ then 1 else fmt o.alpha⟩, ?_, rfl, rfl, rfl, rfl, ?_, ?_, ?_⟩
    · simp [Optic.fromZTK, Optic.print, printKeys, opticPrp, evalKeys, evalField, store, rgb, num, dbl, word, rgbTok,
        List.range_succ, List.find?, h1, h2, h3, hn, Optic.init, Optic.create, Spec.roundC]
      rfl
    all_goals simp [h1, h2, h3]
    all_goals try (simp only [zIsTol] at h1; exact Or.inr h1)
    all_goals try (simp only [zIsTol] at h2; exact Or.inr h2)
    all_goals try (simp only [zIsTol] at h3; exact Or.inr h3)

/-- **C53** (`zOpticalInfoToZTK`, then `zOpticalInfoFromZTK`), partial: as before, provided that no colour is
black within `ZRGB_TOL` and the alpha value is not tiny. -/
theorem C53_optic_toZTK_partial (fmt fmtF : K → K) (τ ε : K) (o : Optic K) (n : String) (hn : o.name = some n)
    (ha : ¬ rgbIsZero ε o.ambient) (hd : ¬ rgbIsZero ε o.diffuse) (hs : ¬ rgbIsZero ε o.specular)
    (hal : ¬ zIsTol o.alpha τ) :
    ∃ o', Optic.fromZTK τ (o.toZTK fmt fmtF τ ε) = .ok o' ∧ o'.name = some n ∧
      o'.ambient = Spec.roundC fmtF o.ambient ∧ o'.diffuse = Spec.roundC fmtF o.diffuse ∧
      o'.specular = Spec.roundC fmtF o.specular ∧
      (o'.esr = fmt o.esr ∨ o'.esr = 0 ∧ |o'.esr - o.esr| ≤ τ) ∧
      (o'.shininess = fmt o.shininess ∨ o'.shininess = 0 ∧ |o'.shininess - o.shininess| ≤ τ) ∧
      o'.alpha = fmt o.alpha := by
  by_cases h1 : zIsTol o.esr τ <;> by_cases h2 : zIsTol o.shininess τ <;>
  · refine ⟨⟨some n, Spec.roundC fmtF o.ambient, Spec.roundC fmtF o.diffuse, Spec.roundC fmtF o.specular,
      if zIsTol o.esr τ then 0 else fmt o.esr, if zIsTol o.shininess τ then 0 else fmt o.shininess,
      fmt o.alpha⟩, ?_, rfl, rfl, rfl, rfl, ?_, ?_, rfl⟩
    · simp [Optic.fromZTK, Optic.toZTK, opticPrp, evalKeys, evalField, store, rgb, num, dbl, word, rgbTok,
        List.find?, h1, h2, ha, hd, hs, hal, hn, Optic.init, Optic.create, Spec.roundC]
      rfl
    all_goals simp [h1, h2]
    all_goals try (simp only [zIsTol] at h1; exact Or.inr h1)
    all_goals try (simp only [zIsTol] at h2; exact Or.inr h2)

/-- A grey, half transparent optical information meets the hypotheses. -/
example : ∃ o : Optic ℚ, o.name = some "grey" ∧ ¬ rgbIsZero (1/1000000) o.ambient ∧ ¬ rgbIsZero (1/1000000) o.diffuse ∧
    ¬ rgbIsZero (1/1000000) o.specular ∧ ¬ zIsTol o.alpha (1/1000000) :=
  ⟨⟨some "grey", ⟨1/2, 1/2, 1/2⟩, ⟨1/2, 1/2, 1/2⟩, ⟨1/4, 0, 0⟩, 0, 10, 1/2⟩, rfl, by decide +kernel, by decide +kernel,
    by decide +kernel, by decide +kernel⟩

set_option maxHeartbeats 1000000 in
/-- **C53, what goes wrong** (`zOpticalInfoToZTK` leaves out black colours and a tiny alpha value, but
`zOpticalInfoInit`, which supplies what is left out, sets colours to white and alpha to 1): a black colour is
read back as white, and a fully transparent material as opaque. -/
theorem C53_optic_toZTK_wrong (fmt fmtF : K → K) (τ ε : K) (o : Optic K) :
    ∃ o', Optic.fromZTK τ (o.toZTK fmt fmtF τ ε) = .ok o' ∧
      (rgbIsZero ε o.ambient → o'.ambient = ⟨1, 1, 1⟩) ∧ (rgbIsZero ε o.diffuse → o'.diffuse = ⟨1, 1, 1⟩) ∧
      (rgbIsZero ε o.specular → o'.specular = ⟨1, 1, 1⟩) ∧ (zIsTol o.alpha τ → o'.alpha = 1) := by
  have hset : RGB.set (1:K) 1 1 = ⟨1, 1, 1⟩ := by simp [RGB.set, zLimit]
  refine ⟨⟨some (o.name.getD ""), if rgbIsZero ε o.ambient then ⟨1, 1, 1⟩ else Spec.roundC fmtF o.ambient,
    if rgbIsZero ε o.diffuse then ⟨1, 1, 1⟩ else Spec.roundC fmtF o.diffuse,
    if rgbIsZero ε o.specular then ⟨1, 1, 1⟩ else Spec.roundC fmtF o.specular,
    if zIsTol o.esr τ then 0 else fmt o.esr, if zIsTol o.shininess τ then 0 else fmt o.shininess,
    if zIsTol o.alpha τ then 1 else fmt o.alpha⟩, ?_, fun h => if_pos h, fun h => if_pos h, fun h => if_pos h, fun h => if_pos h⟩
  by_cases h1 : zIsTol o.esr τ <;> by_cases h2 : zIsTol o.shininess τ <;> by_cases h3 : zIsTol o.alpha τ <;>
  by_cases ha : rgbIsZero ε o.ambient <;> by_cases hd : rgbIsZero ε o.diffuse <;> by_cases hs : rgbIsZero ε o.specular <;>
  · simp [Optic.fromZTK, Optic.toZTK, opticPrp, evalKeys, evalField, store, rgb, num, dbl, word, rgbTok,
      List.find?, h1, h2, h3, ha, hd, hs, Optic.init, Optic.create, Spec.roundC, hset]
    try rfl

/-- **C53, what goes wrong** (`zOpticalInfoCreateSimple`, then `zOpticalInfoToZTK`): the specular colour, black
at creation, is read back as white, whatever the colour. -/
theorem C53_optic_simple_wrong (fmt fmtF : K → K) (τ ε : K) (hε : 0 ≤ ε) (r g b : K) (n : String) :
    (Optic.createSimple r g b (some n)).specular = ⟨0, 0, 0⟩ ∧
    ∃ o', Optic.fromZTK τ ((Optic.createSimple r g b (some n)).toZTK fmt fmtF τ ε) = .ok o' ∧ o'.specular = ⟨1, 1, 1⟩ := by
  have h0 : (Optic.createSimple r g b (some n)).specular = ⟨0, 0, 0⟩ := by
    simp [Optic.createSimple, Optic.create, RGB.set, zLimit]
  refine ⟨h0, ?_⟩
  obtain ⟨o', ho, -, -, hs, -⟩ := C53_optic_toZTK_wrong fmt fmtF τ ε (Optic.createSimple r g b (some n))
  refine ⟨o', ho, hs ?_⟩
  rw [h0]
  simp [rgbIsZero, zIsTol, hε]

/-- **C53** (spheres, cylinders, capsules and cones): everything comes back, up to decimal notation, if the
number of divisions is positive (as it is after creation: zero is replaced by the default). -/
theorem C53_round (fmt : K → K) :
    (∀ s : WithDiv (Sphere3 K), 0 < s.div → sphereFromZTK (spherePrint fmt s) =
      .ok ⟨⟨Spec.roundV fmt s.body.center, fmt s.body.radius⟩, s.div⟩) ∧
    (∀ s : WithDiv (Cyl K), 0 < s.div → cylFromZTK (cylPrint fmt s) =
      .ok ⟨⟨Spec.roundV fmt s.body.c0, Spec.roundV fmt s.body.c1, fmt s.body.radius⟩, s.div⟩) ∧
    (∀ s : WithDiv (Cone K), 0 < s.div → coneFromZTK (conePrint fmt s) =
      .ok ⟨⟨Spec.roundV fmt s.body.center, Spec.roundV fmt s.body.vert, fmt s.body.radius⟩, s.div⟩) := by
  refine ⟨fun s h => ?_, fun s h => ?_, fun s h => ?_⟩
  · simp [sphereFromZTK, spherePrint, printKeys, spherePrp, evalKeys, evalField, store, vec, num, dbl, int, div, vecTok,
      List.range_succ, h, List.find?]
    rfl
  · simp [cylFromZTK, cylPrint, printKeys, cylPrp, evalKeys, evalField, store, vec, num, dbl, int, div, vecTok,
      List.range_succ, h, List.find?]
    rfl
  · simp [coneFromZTK, conePrint, printKeys, conePrp, evalKeys, evalField, store, vec, num, dbl, int, div, vecTok,
      List.range_succ, h, List.find?]
    rfl

end

private theorem unit_not_tol {τ : ℝ} (hτ : 0 ≤ τ) (hτ' : τ ≤ 1/4) {v : Vec3 ℝ} (h : v.sqrNorm = 1) : ¬ v.isTol τ := by
  rintro ⟨h1, h2, h3⟩
  simp only [zIsTol] at h1 h2 h3
  have a1 := sq_le_sq' (by linarith [abs_le.1 h1]) (abs_le.1 h1).2
  have a2 := sq_le_sq' (by linarith [abs_le.1 h2]) (abs_le.1 h2).2
  have a3 := sq_le_sq' (by linarith [abs_le.1 h3]) (abs_le.1 h3).2
  simp only [Vec3.sqrNorm, Vec3.inner] at h
  nlinarith

private theorem unit_normalize {τ : ℝ} (hτ : 0 ≤ τ) (hτ' : τ ≤ 1/4) {v : Vec3 ℝ} (h : v.sqrNorm = 1) :
    (v.normalize τ v).2 = v := by
  rw [Vec3.normalize, if_neg (unit_not_tol hτ hτ' h), Vec3.normalizeNC, Vec3.norm, h]
  ext <;> simp [Vec3.mul]

/-- **C53** (boxes and ellipsoids): everything comes back, up to decimal notation, if the axes are unit vectors
in the notation used; the axes need not be right-handed (a mirrored box has left-handed axes). -/
theorem C53_axes (fmt : ℝ → ℝ) {τ : ℝ} (hτ : 0 ≤ τ) (hτ' : τ ≤ 1/4) :
    (∀ b : Box3 ℝ, (∀ i, (Spec.roundV fmt (b.frame.att.v i)).sqrNorm = 1) → boxFromZTK τ (boxPrint fmt τ b) =
      .ok ⟨Spec.roundV fmt b.span, ⟨Spec.roundV fmt b.frame.pos,
        ⟨Spec.roundV fmt b.frame.att.x, Spec.roundV fmt b.frame.att.y, Spec.roundV fmt b.frame.att.z⟩⟩⟩) ∧
    (∀ e : WithDiv (Ellips ℝ), 0 < e.div → (∀ i, (Spec.roundV fmt (e.body.f.att.v i)).sqrNorm = 1) →
      ellipsFromZTK τ (ellipsPrint fmt τ e) =
      .ok ⟨⟨Spec.roundV fmt e.body.radius, ⟨Spec.roundV fmt e.body.f.pos,
        ⟨Spec.roundV fmt e.body.f.att.x, Spec.roundV fmt e.body.f.att.y, Spec.roundV fmt e.body.f.att.z⟩⟩⟩, e.div⟩) := by
  refine ⟨fun b h => ?_, fun e hd h => ?_⟩
  · have hx := unit_normalize hτ hτ' (h 0)
    have hy := unit_normalize hτ hτ' (h 1)
    have hz := unit_normalize hτ hτ' (h 2)
    simp only [Mat3.v, Spec.roundV] at hx hy hz
    simp [boxFromZTK, boxPrint, printKeys, boxPrp, evalKeys, evalField, store, vec, num, dbl, int, div, vecTok, axis, setCol,
      List.range_succ, List.find?, hx, hy, hz]
    rfl
  · have hx := unit_normalize hτ hτ' (h 0)
    have hy := unit_normalize hτ hτ' (h 1)
    have hz := unit_normalize hτ hτ' (h 2)
    simp only [Mat3.v, Spec.roundV] at hx hy hz
    simp [ellipsFromZTK, ellipsPrint, printKeys, ellipsPrp, evalKeys, evalField, store, vec, num, dbl, int, div, vecTok, axis, setCol,
      List.range_succ, List.find?, hx, hy, hz, hd]
    rfl

/-- **C53** (boxes and ellipsoids, any notation): if the axes, in the notation used, are not tiny, each axis read
back is the unit vector in its direction; this covers notations that do not keep lengths exactly. -/
theorem C53_axes_unit (fmt : ℝ → ℝ) {τ : ℝ} :
    (∀ b : Box3 ℝ, (∀ i, ¬ (Spec.roundV fmt (b.frame.att.v i)).isTol τ) → ∃ c, boxFromZTK τ (boxPrint fmt τ b) = .ok c ∧
      c.span = Spec.roundV fmt b.span ∧ c.frame.pos = Spec.roundV fmt b.frame.pos ∧
      ∀ i, c.frame.att.v i = (Spec.roundV fmt (b.frame.att.v i)).mul (1 / (Spec.roundV fmt (b.frame.att.v i)).norm)) ∧
    (∀ e : WithDiv (Ellips ℝ), 0 < e.div → (∀ i, ¬ (Spec.roundV fmt (e.body.f.att.v i)).isTol τ) →
      ∃ c, ellipsFromZTK τ (ellipsPrint fmt τ e) = .ok c ∧ c.div = e.div ∧
      c.body.radius = Spec.roundV fmt e.body.radius ∧ c.body.f.pos = Spec.roundV fmt e.body.f.pos ∧
      ∀ i, c.body.f.att.v i = (Spec.roundV fmt (e.body.f.att.v i)).mul (1 / (Spec.roundV fmt (e.body.f.att.v i)).norm)) := by
  have nn : ∀ {v : Vec3 ℝ}, ¬ v.isTol τ → (v.normalize τ v).2 = v.mul (1 / v.norm) := fun {v} h => by
    rw [Vec3.normalize, if_neg h]; rfl
  refine ⟨fun b h => ?_, fun e hd h => ?_⟩
  · have hx := nn (h 0)
    have hy := nn (h 1)
    have hz := nn (h 2)
    simp only [Mat3.v, Spec.roundV] at hx hy hz
    refine ⟨⟨Spec.roundV fmt b.span, ⟨Spec.roundV fmt b.frame.pos,
      ⟨(Spec.roundV fmt b.frame.att.x).mul (1 / (Spec.roundV fmt b.frame.att.x).norm),
       (Spec.roundV fmt b.frame.att.y).mul (1 / (Spec.roundV fmt b.frame.att.y).norm),
       (Spec.roundV fmt b.frame.att.z).mul (1 / (Spec.roundV fmt b.frame.att.z).norm)⟩⟩⟩, ?_, rfl, rfl, ?_⟩
    · simp [boxFromZTK, boxPrint, printKeys, boxPrp, evalKeys, evalField, store, vec, num, dbl, int, div, vecTok, axis, setCol,
        List.range_succ, List.find?, hx, hy, hz]
      rfl
    · intro i
      rcases (by decide : ∀ i : Fin 3, i = 0 ∨ i = 1 ∨ i = 2) i with rfl | rfl | rfl <;> rfl
  · have hx := nn (h 0)
    have hy := nn (h 1)
    have hz := nn (h 2)
    simp only [Mat3.v, Spec.roundV] at hx hy hz
    refine ⟨⟨⟨Spec.roundV fmt e.body.radius, ⟨Spec.roundV fmt e.body.f.pos,
      ⟨(Spec.roundV fmt e.body.f.att.x).mul (1 / (Spec.roundV fmt e.body.f.att.x).norm),
       (Spec.roundV fmt e.body.f.att.y).mul (1 / (Spec.roundV fmt e.body.f.att.y).norm),
       (Spec.roundV fmt e.body.f.att.z).mul (1 / (Spec.roundV fmt e.body.f.att.z).norm)⟩⟩⟩, e.div⟩, ?_, rfl, rfl, rfl, ?_⟩
    · simp [ellipsFromZTK, ellipsPrint, printKeys, ellipsPrp, evalKeys, evalField, store, vec, num, dbl, int, div, vecTok, axis, setCol,
        List.range_succ, List.find?, hx, hy, hz, hd]
      rfl
    · intro i
      rcases (by decide : ∀ i : Fin 3, i = 0 ∨ i = 1 ∨ i = 2) i with rfl | rfl | rfl <;> rfl

/-- A mirrored unit box, in exact notation, meets the hypotheses of both. -/
example : ∃ b : Box3 ℝ, (∀ i, (Spec.roundV id (b.frame.att.v i)).sqrNorm = 1) ∧
    (∀ i, ¬ (Spec.roundV id (b.frame.att.v i)).isTol (1/1000000)) := by
  refine ⟨⟨⟨1, 1, 1⟩, ⟨⟨1, 2, 3⟩, ⟨⟨-1, 0, 0⟩, ⟨0, 1, 0⟩, ⟨0, 0, 1⟩⟩⟩⟩, fun i => ?_, fun i => ?_⟩ <;>
  rcases (by decide : ∀ i : Fin 3, i = 0 ∨ i = 1 ∨ i = 2) i with rfl | rfl | rfl <;>
  norm_num [Spec.roundV, Mat3.v, Vec3.sqrNorm, Vec3.inner, Vec3.isTol, zIsTol]

private theorem ecyl_def {τ : ℝ} (hτ : 0 ≤ τ) (hτ' : τ ≤ 1/4) (c : ECyl ℝ) (r : Vec3 ℝ) (hr : r.sqrNorm = 1)
    (hp : r.inner c.axis = 0) (ha : 3 * τ ^ 2 < c.axis.sqrNorm) :
    c.defAxis τ (some r) = { c with rv0 := r, rv1 := (c.axis.outer r).mul (1 / c.axis.norm) } := by
  have nt : ∀ {v : Vec3 ℝ}, 3 * τ ^ 2 < v.sqrNorm → ¬ v.isTol τ := by
    rintro v h ⟨h1, h2, h3⟩
    simp only [zIsTol] at h1 h2 h3
    have a1 := sq_le_sq' (by linarith [abs_le.1 h1]) (abs_le.1 h1).2
    have a2 := sq_le_sq' (by linarith [abs_le.1 h2]) (abs_le.1 h2).2
    have a3 := sq_le_sq' (by linarith [abs_le.1 h3]) (abs_le.1 h3).2
    simp only [Vec3.sqrNorm, Vec3.inner] at h
    nlinarith
  have hsq : (c.axis.outer r).sqrNorm = c.axis.sqrNorm := by
    have : (c.axis.outer r).sqrNorm = c.axis.sqrNorm * r.sqrNorm - (r.inner c.axis) ^ 2 := by
      simp only [Vec3.sqrNorm, Vec3.inner, Vec3.outer]; ring
    rw [this, hr, hp]; ring
  have h0 : c.axis.inner r = 0 := by rw [← hp]; simp only [Vec3.inner]; ring
  have ho : Vec3.orthogonalize τ r c.axis = some r := by
    rw [Vec3.orthogonalize, if_neg (nt ha), h0]
    congr 1
    ext <;> simp [Vec3.cat]
  simp only [ECyl.defAxis, if_neg (unit_not_tol hτ hτ' hr), ho, Option.getD_some, unit_normalize hτ hτ' hr]
  rw [Vec3.normalize, if_neg (nt (by rw [hsq]; exact ha)), Vec3.normalizeNC, Vec3.norm, hsq]
  rfl

private theorem ok_bind {ε : Type} {α β : Type u} (a : α) (f : α → Except ε β) : (Except.ok a >>= f) = f a := rfl

/-- **C53** (elliptic cylinders): centers, radii and the first radial vector come back, up to decimal notation,
if in that notation the first radial vector is a unit vector perpendicular to an axis that is not tiny; the
second one is rebuilt as the unit vector that makes the three right-handed. -/
theorem C53_ecyl (fmt : ℝ → ℝ) {τ : ℝ} (hτ : 0 ≤ τ) (hτ' : τ ≤ 1/4) (e : WithDiv (ECyl ℝ)) (hd : 0 < e.div)
    (h1 : (Spec.roundV fmt e.body.rv0).sqrNorm = 1)
    (hp : (Spec.roundV fmt e.body.rv0).inner ((Spec.roundV fmt e.body.c1).sub (Spec.roundV fmt e.body.c0)) = 0)
    (ha : 3 * τ ^ 2 < ((Spec.roundV fmt e.body.c1).sub (Spec.roundV fmt e.body.c0)).sqrNorm) :
    ecylFromZTK τ (ecylPrint fmt τ e) =
      .ok ⟨⟨Spec.roundV fmt e.body.c0, Spec.roundV fmt e.body.c1, fmt e.body.r0, fmt e.body.r1, Spec.roundV fmt e.body.rv0,
        (((Spec.roundV fmt e.body.c1).sub (Spec.roundV fmt e.body.c0)).outer (Spec.roundV fmt e.body.rv0)).mul
          (1 / ((Spec.roundV fmt e.body.c1).sub (Spec.roundV fmt e.body.c0)).norm)⟩, e.div⟩ := by
  have := ecyl_def hτ hτ' ⟨Spec.roundV fmt e.body.c0, Spec.roundV fmt e.body.c1, fmt e.body.r0, fmt e.body.r1, .zero, .zero⟩
    (Spec.roundV fmt e.body.rv0) h1 hp ha
  simp only [Spec.roundV, ECyl.axis] at this ⊢
  simp [ecylFromZTK, ecylPrint, printKeys, ecylPrp, evalKeys, evalField, store, vec, num, dbl, int, div, vecTok,
    List.range_succ, List.find?, hd, this, ok_bind]

/-- **C53** (elliptic cylinders, exact notation): the cylinder read back has the same points; it is the same
structure when the radial vectors and the axis are right-handed, and otherwise (after mirroring) the second
radial vector is reversed. -/
theorem C53_ecyl_same {τ : ℝ} (hτ : 0 ≤ τ) (hτ' : τ ≤ 1/4) (e : WithDiv (ECyl ℝ)) (hd : 0 < e.div)
    (he : Spec.ProperECyl e.body) (ha : 3 * τ ^ 2 < e.body.axis.sqrNorm) :
    ∃ c, ecylFromZTK τ (ecylPrint id τ e) = .ok ⟨c, e.div⟩ ∧
      Spec.ecylinder c.c0 c.c1 c.r0 c.r1 c.rv0 c.rv1 =
        Spec.ecylinder e.body.c0 e.body.c1 e.body.r0 e.body.r1 e.body.rv0 e.body.rv1 ∧
      (c = e.body ∨ c = { e.body with rv1 := e.body.rv1.mul (-1) }) ∧
      (0 < (e.body.axis.outer e.body.rv0).inner e.body.rv1 → c = e.body) := by
  obtain ⟨⟨a1, a2, a3⟩, a4, a5⟩ := he
  have hl : 0 < e.body.axis.sqrNorm := lt_of_le_of_lt (by positivity) ha
  have hn : 0 < e.body.axis.norm := Real.sqrt_pos.2 hl
  have hsq : e.body.axis.norm ^ 2 = e.body.axis.sqrNorm := Real.sq_sqrt hl.le
  have key := C53_ecyl id hτ hτ' e hd (by simp only [Spec.roundV, Vec3.sqrNorm, Vec3.inner, id]; linarith)
    (by simp only [Spec.roundV, Vec3.inner, Vec3.sub, id]; linarith) ha
  have hid : ∀ v : Vec3 ℝ, Spec.roundV id v = v := fun v => rfl
  simp only [hid, id] at key
  set k := (e.body.axis.outer e.body.rv0).inner e.body.rv1 with hk
  have hw : e.body.axis.outer e.body.rv0 = e.body.rv1.mul k := by
    rw [hk]
    ext <;> simp only [Vec3.outer, Vec3.mul, Vec3.inner, ECyl.axis, Vec3.sub]
    · linear_combination (norm := skip) (-(e.body.axis.outer e.body.rv0).x) * a2 - (e.body.rv1.outer e.body.axis).x * a3 + (e.body.rv1.outer e.body.rv0).x * a5
      simp only [Vec3.outer, ECyl.axis, Vec3.sub]; ring
    · linear_combination (norm := skip) (-(e.body.axis.outer e.body.rv0).y) * a2 - (e.body.rv1.outer e.body.axis).y * a3 + (e.body.rv1.outer e.body.rv0).y * a5
      simp only [Vec3.outer, ECyl.axis, Vec3.sub]; ring
    · linear_combination (norm := skip) (-(e.body.axis.outer e.body.rv0).z) * a2 - (e.body.rv1.outer e.body.axis).z * a3 + (e.body.rv1.outer e.body.rv0).z * a5
      simp only [Vec3.outer, ECyl.axis, Vec3.sub]; ring
  have hkk : k ^ 2 = e.body.axis.norm ^ 2 := by
    have e1 : (e.body.axis.outer e.body.rv0).sqrNorm = k ^ 2 := by
      rw [hw]; simp only [Vec3.sqrNorm, Vec3.inner, Vec3.mul]; linear_combination k ^ 2 * a2
    have e2 : (e.body.axis.outer e.body.rv0).sqrNorm = e.body.axis.sqrNorm * e.body.rv0.sqrNorm - (e.body.rv0.inner e.body.axis) ^ 2 := by
      simp only [Vec3.sqrNorm, Vec3.inner, Vec3.outer]; ring
    have e3 : e.body.rv0.sqrNorm = 1 := by simp only [Vec3.sqrNorm, Vec3.inner]; linarith
    have e4 : e.body.rv0.inner e.body.axis = 0 := by simp only [ECyl.axis, Vec3.sub, Vec3.inner]; linarith
    rw [← e1, e2, e3, e4, hsq]; ring
  have hax : e.body.c1.sub e.body.c0 = e.body.axis := rfl
  rw [hax, hw] at key
  refine ⟨_, key, ?_⟩
  rcases sq_eq_sq_iff_eq_or_eq_neg.1 hkk with h | h
  · have e1 : (e.body.rv1.mul k).mul (1 / e.body.axis.norm) = e.body.rv1 := by
      rw [h]; ext <;> simp only [Vec3.mul] <;> field_simp
    rw [e1]
    exact ⟨rfl, Or.inl rfl, fun _ => rfl⟩
  · have e1 : (e.body.rv1.mul k).mul (1 / e.body.axis.norm) = e.body.rv1.mul (-1) := by
      rw [h]; ext <;> simp only [Vec3.mul] <;> field_simp
    rw [e1]
    refine ⟨?_, Or.inr rfl, fun hk' => absurd hk' (by rw [h]; linarith)⟩
    ext q
    constructor
    all_goals
      rintro ⟨m, hm, s, t, hst, e1, e2, e3⟩
      refine ⟨m, hm, s, -t, by rw [neg_div, neg_sq]; exact hst, ?_, ?_, ?_⟩ <;> simp only [Vec3.mul] at * <;> linarith

/-- The elliptic cylinder around the z axis and its mirror image meet the hypotheses. -/
example : ∃ e : WithDiv (ECyl ℝ), 0 < e.div ∧ Spec.ProperECyl e.body ∧ 3 * (1/1000000 : ℝ) ^ 2 < e.body.axis.sqrNorm ∧
    0 < (e.body.axis.outer e.body.rv0).inner e.body.rv1 :=
  ⟨⟨⟨⟨0, 0, 0⟩, ⟨0, 0, 2⟩, 3, 1, ⟨1, 0, 0⟩, ⟨0, 1, 0⟩⟩, 32⟩, by
    norm_num [Spec.ProperECyl, ECyl.axis, Vec3.sub, Vec3.sqrNorm, Vec3.inner, Vec3.outer]⟩
example : ∃ e : WithDiv (ECyl ℝ), 0 < e.div ∧ Spec.ProperECyl e.body ∧ 3 * (1/1000000 : ℝ) ^ 2 < e.body.axis.sqrNorm ∧
    (e.body.axis.outer e.body.rv0).inner e.body.rv1 < 0 :=
  ⟨⟨⟨⟨0, 0, 0⟩, ⟨0, 0, 2⟩, 3, 1, ⟨1, 0, 0⟩, ⟨0, -1, 0⟩⟩, 32⟩, by
    norm_num [Spec.ProperECyl, ECyl.axis, Vec3.sub, Vec3.sqrNorm, Vec3.inner, Vec3.outer]⟩

/-- **C53, what goes wrong** (`_zECyl3DRefFromZTK` uses the centers read so far): with the key `ref` in front of
the centers the axis is still zero, and both radial vectors stay zero, whatever the numbers; so they do without the key.  The order of keys in a section should not matter. -/
theorem C53_ecyl_ref_first {τ : ℝ} (hτ : 0 ≤ τ) (c0 c1 ref : Vec3 ℝ) (r0 r1 : ℝ) :
    (¬ ref.isTol τ → ∃ c, ecylFromZTK τ [("ref", vecTok id ref), ("center", vecTok id c0), ("center", vecTok id c1),
      ("radius", [.num r0]), ("radius", [.num r1])] = .ok c ∧ c.body.c0 = c0 ∧ c.body.c1 = c1 ∧
      c.body.rv0 = .zero ∧ c.body.rv1 = .zero) ∧
    (∃ c, ecylFromZTK τ [("center", vecTok id c0), ("center", vecTok id c1),
      ("radius", [.num r0]), ("radius", [.num r1])] = .ok c ∧ c.body.c0 = c0 ∧ c.body.c1 = c1 ∧
      c.body.rv0 = .zero ∧ c.body.rv1 = .zero) := by
  have h0 : (Vec3.zero : Vec3 ℝ).isTol τ := by simp [Vec3.isTol, Vec3.zero, zIsTol, hτ]
  have hs : (Vec3.zero : Vec3 ℝ).sub .zero = .zero := by ext <;> simp [Vec3.sub, Vec3.zero]
  have hn : ((Vec3.zero : Vec3 ℝ).normalize τ .zero).2 = .zero := by rw [Vec3.normalize, if_pos h0]
  have ho : (Vec3.zero : Vec3 ℝ).outer .zero = .zero := by ext <;> simp [Vec3.outer, Vec3.zero]
  have hd : ¬ ref.isTol τ → ECyl.defAxis τ (⟨.zero, .zero, 0, 0, .zero, .zero⟩ : ECyl ℝ) (some ref) = ⟨.zero, .zero, 0, 0, .zero, .zero⟩ :=
    fun h => by
      simp only [ECyl.defAxis, ECyl.axis, hs, if_neg h, Vec3.orthogonalize, if_pos h0, Option.getD_none, hn, ho]
  refine ⟨fun h => ⟨⟨⟨c0, c1, r0, r1, .zero, .zero⟩, 32⟩, ?_, rfl, rfl, rfl, rfl⟩, ⟨⟨c0, c1, r0, r1, .zero, .zero⟩, 32⟩, ?_, rfl, rfl, rfl, rfl⟩
  · simp [ecylFromZTK, ecylPrp, evalKeys, evalField, store, vec, num, dbl, vecTok, List.find?, hd h, ok_bind]
  · simp [ecylFromZTK, ecylPrp, evalKeys, evalField, store, vec, num, dbl, vecTok, List.find?, ok_bind]

end Zeo
