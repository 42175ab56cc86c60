import Verif.Lemmas.Convex
import Verif.Lemmas.Rot
import Verif.Spec.Solids

/-! Nearest points of solids of revolution: reduction to the meridian half-plane. -/

namespace Zeo

/-- Cauchy-Schwarz. -/
theorem Vec3.inner_le_norm (u v : Vec3 ℝ) : u.inner v ≤ u.norm * v.norm := by
  have h : u.inner v ^ 2 ≤ (u.norm * v.norm) ^ 2 := by
    rw [mul_pow, Vec3.norm_sq, Vec3.norm_sq]
    simp only [zeo]
    nlinarith [sq_nonneg (u.x * v.y - u.y * v.x), sq_nonneg (u.y * v.z - u.z * v.y), sq_nonneg (u.x * v.z - u.z * v.x)]
  exact le_of_sq_le_sq'' h (mul_nonneg u.norm_nonneg v.norm_nonneg)
where le_of_sq_le_sq'' {x y : ℝ} (h : x^2 ≤ y^2) (hy : 0 ≤ y) : x ≤ y := by nlinarith [sq_nonneg (x - y), sq_nonneg (x+y)]

theorem Vec3.norm_mul_nonneg (v : Vec3 ℝ) {k : ℝ} (hk : 0 ≤ k) : (v.mul k).norm = k * v.norm := by
  have h : (v.mul k).norm = Real.sqrt (k ^ 2 * v.sqrNorm) := by
    simp only [Vec3.norm]; congr 1; simp only [zeo]; ring
  rw [h, Real.sqrt_mul (sq_nonneg k), Real.sqrt_sq hk]; rfl

theorem Vec3.norm_eq_ed (p q : Vec3 ℝ) : (p.sub q).norm = Spec.ed q p := by
  simp only [Vec3.norm, Spec.ed, Spec.sqd, zeo]; congr 1; ring

theorem Vec3.dist_eq_ed (p q : Vec3 ℝ) : p.dist q = Spec.ed p q := by
  simp only [Vec3.dist, Spec.ed, Spec.sqd, zeo]; congr 1; ring

/-- The point with axial coordinate `d` and radial vector `s`. -/
noncomputable def cylPt (c a : Vec3 ℝ) (d : ℝ) (s : Vec3 ℝ) : Vec3 ℝ := (c.cat d a).add s

theorem cylPt_sqd {c a sp sq : Vec3 ℝ} {dp dq : ℝ} (ha : a.inner a = 1) (hp : a.inner sp = 0) (hq : a.inner sq = 0) :
    Spec.sqd (cylPt c a dp sp) (cylPt c a dq sq) = (dp - dq)^2 + (sp.sub sq).sqrNorm := by
  simp only [cylPt, Spec.sqd, zeo] at *
  linear_combination (dp - dq)^2 * ha + 2 * (dp - dq) * hp - 2 * (dp - dq) * hq

theorem sub_sqrNorm_ge (u v : Vec3 ℝ) : (u.norm - v.norm)^2 ≤ (u.sub v).sqrNorm := by
  have h := Vec3.inner_le_norm u v
  have h1 := u.norm_sq
  have h2 := v.norm_sq
  have : (u.sub v).sqrNorm = u.sqrNorm + v.sqrNorm - 2 * u.inner v := by simp only [zeo]; ring
  rw [this]; nlinarith

theorem sub_mul_sqrNorm (u : Vec3 ℝ) (k : ℝ) : (u.sub (u.mul k)).sqrNorm = (u.norm - k * u.norm)^2 := by
  have h1 := u.norm_sq
  have : (u.sub (u.mul k)).sqrNorm = (1 - k)^2 * u.sqrNorm := by simp only [zeo]; ring
  rw [this, ← h1]; ring

/-- Nearest points of a set described by its meridian profile. -/
theorem nearest_revolve {S : Set (Vec3 ℝ)} {c a sp : Vec3 ℝ} {dp dt k : ℝ} (P : ℝ → ℝ → Prop)
    (ha : a.inner a = 1) (hp : a.inner sp = 0)
    (hS : ∀ q ∈ S, ∃ d s, q = cylPt c a d s ∧ a.inner s = 0 ∧ P d s.norm)
    (hx : cylPt c a dt (sp.mul k) ∈ S)
    (hmin : ∀ d r, 0 ≤ r → P d r → (dp - dt)^2 + (sp.norm - k * sp.norm)^2 ≤ (dp - d)^2 + (sp.norm - r)^2) :
    Spec.IsNearest S (cylPt c a dp sp) (cylPt c a dt (sp.mul k)) ∧
    Spec.sqd (cylPt c a dp sp) (cylPt c a dt (sp.mul k)) = (dp - dt)^2 + (sp.norm - k * sp.norm)^2 := by
  have hk : a.inner (sp.mul k) = 0 := by simp only [zeo] at *; linear_combination k * hp
  have e : Spec.sqd (cylPt c a dp sp) (cylPt c a dt (sp.mul k)) = (dp - dt)^2 + (sp.norm - k * sp.norm)^2 := by
    rw [cylPt_sqd ha hp hk, sub_mul_sqrNorm]
  refine ⟨⟨hx, fun q hq => ?_⟩, e⟩
  obtain ⟨d, s, rfl, hs, hP⟩ := hS q hq
  rw [e, cylPt_sqd ha hp hs]
  have := hmin d s.norm s.norm_nonneg hP
  have := sub_sqrNorm_ge sp s
  linarith

/-- Decomposition of a point along a unit axis. -/
theorem cylPt_decomp (c a p : Vec3 ℝ) :
    p = cylPt c a (a.inner (p.sub c)) ((p.sub c).cat (-(a.inner (p.sub c))) a) := by
  ext <;> simp only [cylPt, zeo] <;> ring

theorem inner_radial (c a p : Vec3 ℝ) (ha : a.inner a = 1) :
    a.inner ((p.sub c).cat (-(a.inner (p.sub c))) a) = 0 := by
  have : a.inner ((p.sub c).cat (-(a.inner (p.sub c))) a) = a.inner (p.sub c) * (1 - a.inner a) := by
    simp only [zeo]; ring
  rw [this, ha]; ring

theorem outerNorm_radial (c a p : Vec3 ℝ) (ha : a.inner a = 1) :
    (p.sub c).outerNorm a = ((p.sub c).cat (-(a.inner (p.sub c))) a).norm := by
  unfold Vec3.outerNorm Vec3.norm
  congr 1
  generalize p.sub c = v
  simp only [zeo] at *
  linear_combination (v.x^2 + v.y^2 + v.z^2 - (a.x*v.x+a.y*v.y+a.z*v.z)^2) * ha

/-- A vector that is not tiny is its norm times a unit vector. -/
theorem axis_normalize {τ : ℝ} (hτ : 0 ≤ τ) {v old : Vec3 ℝ} (h : ¬ v.isTol τ) :
    0 < (v.normalize τ old).1 ∧ (v.normalize τ old).1 = v.norm ∧
    (v.normalize τ old).2.inner (v.normalize τ old).2 = 1 ∧
    v = (v.normalize τ old).2.mul (v.normalize τ old).1 := by
  have hp := Vec3.norm_pos_of_not_isTol hτ h
  have hs := v.norm_sq
  rw [Vec3.normalize, if_neg h]
  simp only [Vec3.normalizeNC]
  refine ⟨hp, trivial, ?_, ?_⟩
  · have : (v.mul (1 / v.norm)).inner (v.mul (1 / v.norm)) = v.sqrNorm / v.norm^2 := by
      simp only [zeo]; field_simp
    rw [this, ← hs]; field_simp
  · ext <;> simp only [zeo] <;> field_simp

end Zeo
