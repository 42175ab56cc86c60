import Verif.Lemmas.Mass
import Verif.Lemmas.Solid
import Verif.Spec.Solids
import Mathlib.Tactic.FieldSimp

/-! # Solids in the coordinates of an orthonormal frame -/

namespace Zeo.Moment
open MeasureTheory Set Real Matrix

/-- The point with coordinates `X, Y, Z` in the frame `(b, E)`. -/
def pt (b : Vec3 ℝ) (E : Mat3 ℝ) (X Y Z : ℝ) : Vec3 ℝ :=
  ⟨b.x + X * E.x.x + Y * E.y.x + Z * E.z.x, b.y + X * E.x.y + Y * E.y.y + Z * E.z.y, b.z + X * E.x.z + Y * E.y.z + Z * E.z.z⟩

theorem cols_of {E : Mat3 ℝ} (hE : E.t.mulMat E = .ident) :
    (E.x.x ^ 2 + E.x.y ^ 2 + E.x.z ^ 2 = 1 ∧ E.y.x ^ 2 + E.y.y ^ 2 + E.y.z ^ 2 = 1 ∧ E.z.x ^ 2 + E.z.y ^ 2 + E.z.z ^ 2 = 1) ∧
    E.x.x * E.y.x + E.x.y * E.y.y + E.x.z * E.y.z = 0 ∧ E.x.x * E.z.x + E.x.y * E.z.y + E.x.z * E.z.z = 0 ∧
    E.y.x * E.z.x + E.y.y * E.z.y + E.y.z * E.z.z = 0 := by
  have t1 := congrArg (fun m : Mat3 ℝ => m.x.x) hE
  have t2 := congrArg (fun m : Mat3 ℝ => m.y.y) hE
  have t3 := congrArg (fun m : Mat3 ℝ => m.z.z) hE
  have t4 := congrArg (fun m : Mat3 ℝ => m.x.y) hE
  have t5 := congrArg (fun m : Mat3 ℝ => m.x.z) hE
  have t6 := congrArg (fun m : Mat3 ℝ => m.y.z) hE
  simp only [zeo] at t1 t2 t3 t4 t5 t6
  exact ⟨⟨by linarith, by linarith, by linarith⟩, by linarith, by linarith, by linarith⟩

theorem sqd_pt {b : Vec3 ℝ} {E : Mat3 ℝ} (hE : E.t.mulMat E = .ident) (X Y Z X' Y' Z' : ℝ) :
    Spec.sqd (pt b E X Y Z) (pt b E X' Y' Z') = (X - X') ^ 2 + (Y - Y') ^ 2 + (Z - Z') ^ 2 := by
  obtain ⟨⟨a, b', c⟩, d, e, f⟩ := cols_of hE
  simp only [Spec.sqd, pt]
  linear_combination (X - X') ^ 2 * a + (Y - Y') ^ 2 * b' + (Z - Z') ^ 2 * c + 2 * (X - X') * (Y - Y') * d + 2 * (X - X') * (Z - Z') * e
    + 2 * (Y - Y') * (Z - Z') * f

theorem perp_pt {b : Vec3 ℝ} {E : Mat3 ℝ} (hE : E.t.mulMat E = .ident) (X Y Z w z0 z1 : ℝ) :
    Spec.Perp (pt b E 0 0 w) (pt b E X Y Z) (pt b E 0 0 z0) (pt b E 0 0 z1) ↔ (Z - w) * (z1 - z0) = 0 := by
  obtain ⟨⟨a, b', c⟩, d, e, f⟩ := cols_of hE
  simp only [Spec.Perp, pt]
  constructor <;> intro h
  · linear_combination h - (z1 - z0) * (Z - w) * c - X * (z1 - z0) * e - Y * (z1 - z0) * f
  · linear_combination h + (z1 - z0) * (Z - w) * c + X * (z1 - z0) * e + Y * (z1 - z0) * f

theorem comb_pt (b : Vec3 ℝ) (E : Mat3 ℝ) {s t : ℝ} (h : s + t = 1) (z0 z1 : ℝ) (u v : Vec3 ℝ) :
    Spec.comb s t 0 0 (pt b E 0 0 z0) (pt b E 0 0 z1) u v = pt b E 0 0 (s * z0 + t * z1) := by
  ext <;> simp only [Spec.comb, pt]
  · linear_combination b.x * h
  · linear_combination b.y * h
  · linear_combination b.z * h

theorem pt_surj {E : Mat3 ℝ} (hE : E.t.mulMat E = .ident) (b q : Vec3 ℝ) : ∃ X Y Z, q = pt b E X Y Z := by
  have hmt : E.mulMat E.t = .ident := (Mat3.orth_iff' E).1 ((Mat3.orth_iff E).2 hE)
  have m1 := congrArg (fun m : Mat3 ℝ => m.x.x) hmt
  have m2 := congrArg (fun m : Mat3 ℝ => m.y.y) hmt
  have m3 := congrArg (fun m : Mat3 ℝ => m.z.z) hmt
  have m4 := congrArg (fun m : Mat3 ℝ => m.x.y) hmt
  have m5 := congrArg (fun m : Mat3 ℝ => m.x.z) hmt
  have m6 := congrArg (fun m : Mat3 ℝ => m.y.z) hmt
  simp only [zeo] at m1 m2 m3 m4 m5 m6
  refine ⟨E.x.inner (q.sub b), E.y.inner (q.sub b), E.z.inner (q.sub b), ?_⟩
  ext <;> simp only [pt, zeo]
  · linear_combination -(q.x - b.x) * m1 - (q.y - b.y) * m4 - (q.z - b.z) * m5
  · linear_combination -(q.x - b.x) * m4 - (q.y - b.y) * m2 - (q.z - b.z) * m6
  · linear_combination -(q.x - b.x) * m5 - (q.y - b.y) * m6 - (q.z - b.z) * m3

theorem pt_inj {E : Mat3 ℝ} (hE : E.t.mulMat E = .ident) {b : Vec3 ℝ} {X Y Z X' Y' Z' : ℝ} (h : pt b E X Y Z = pt b E X' Y' Z') :
    X = X' ∧ Y = Y' ∧ Z = Z' := by
  have h0 := sqd_pt (b := b) hE X Y Z X' Y' Z'
  rw [h] at h0
  simp only [Spec.sqd, sub_self] at h0
  refine ⟨?_, ?_, ?_⟩ <;> nlinarith [sq_nonneg (X - X'), sq_nonneg (Y - Y'), sq_nonneg (Z - Z')]

theorem pts_eq_place {S : Set (Vec3 ℝ)} {U : Set (Fin 3 → ℝ)} {b : Vec3 ℝ} {E : Mat3 ℝ} (hE : E.t.mulMat E = .ident) {d0 d1 d2 : ℝ}
    (h0 : 0 < d0) (h1 : 0 < d1) (h2 : 0 < d2) (h : ∀ X Y Z, pt b E X Y Z ∈ S ↔ ![X / d0, Y / d1, Z / d2] ∈ U) :
    Spec.pts S = place b.toFin (Mat3.toMatrix ⟨E.x.mul d0, E.y.mul d1, E.z.mul d2⟩) U := by
  have key : ∀ u : Fin 3 → ℝ, b.toFin + Mat3.toMatrix (⟨E.x.mul d0, E.y.mul d1, E.z.mul d2⟩ : Mat3 ℝ) *ᵥ u
      = (pt b E (d0 * u 0) (d1 * u 1) (d2 * u 2)).toFin := by
    intro u
    funext i
    fin_cases i <;>
      simp [pt, Vec3.toFin, Mat3.toMatrix, Matrix.mulVec, dotProduct, Fin.sum_univ_three, Vec3.mul] <;> ring
  have hf : ∀ v : Vec3 ℝ, (⟨v.toFin 0, v.toFin 1, v.toFin 2⟩ : Vec3 ℝ) = v := fun v => rfl
  ext p
  constructor
  · intro hp
    obtain ⟨X, Y, Z, hq⟩ := pt_surj hE b ⟨p 0, p 1, p 2⟩
    refine ⟨![X / d0, Y / d1, Z / d2], (h X Y Z).1 (hq ▸ hp), ?_⟩
    dsimp only
    rw [key]
    simp only [Matrix.cons_val_zero, Matrix.cons_val_one, Matrix.cons_val]
    rw [mul_div_cancel₀ _ h0.ne', mul_div_cancel₀ _ h1.ne', mul_div_cancel₀ _ h2.ne', ← hq]
    funext i; fin_cases i <;> rfl
  · rintro ⟨u, hu, rfl⟩
    dsimp only
    rw [key]
    show (⟨_, _, _⟩ : Vec3 ℝ) ∈ S
    rw [hf, h, mul_div_cancel_left₀ _ h0.ne', mul_div_cancel_left₀ _ h1.ne', mul_div_cancel_left₀ _ h2.ne']
    convert hu using 1
    funext i; fin_cases i <;> rfl

theorem ed_le {p q : Vec3 ℝ} {R : ℝ} (hR : 0 ≤ R) : Spec.ed p q ≤ R ↔ Spec.sqd p q ≤ R ^ 2 := by
  rw [Spec.ed, Real.sqrt_le_left hR]

theorem mem_rev {g : ℝ → ℝ} {a b x y z : ℝ} : ![x, y, z] ∈ Rev g a b ↔ (a ≤ z ∧ z ≤ b) ∧ x ^ 2 + y ^ 2 ≤ g z := Iff.rfl

theorem cylinder_place {b : Vec3 ℝ} {E : Mat3 ℝ} (hE : E.t.mulMat E = .ident) {R h : ℝ} (hR : 0 < R) (hh : 0 < h) :
    Spec.pts (Spec.cylinder (pt b E 0 0 (-(h / 2))) (pt b E 0 0 (h / 2)) R) =
      place b.toFin (Mat3.toMatrix ⟨E.x.mul R, E.y.mul R, E.z.mul h⟩) (Rev (fun _ => 1) (-(1/2)) (1/2)) := by
  refine pts_eq_place hE hR hR hh fun X Y Z => ?_
  rw [mem_rev]
  have e1 : (X / R) ^ 2 + (Y / R) ^ 2 ≤ 1 ↔ X ^ 2 + Y ^ 2 ≤ R ^ 2 := by
    rw [div_pow, div_pow, ← add_div, div_le_one (by positivity)]
  rw [e1, le_div_iff₀ hh, div_le_iff₀ hh]
  constructor
  · rintro ⟨m, ⟨s, t, hs, ht, hst, rfl⟩, hp, he⟩
    rw [comb_pt b E hst, perp_pt hE] at *
    have hZ : Z = s * -(h / 2) + t * (h / 2) := by
      have : h / 2 - -(h / 2) ≠ 0 := by linarith
      have := (mul_eq_zero.1 hp).resolve_right this
      linarith
    rw [ed_le hR.le, sqd_pt hE, ← hZ] at he
    refine ⟨⟨?_, ?_⟩, by nlinarith⟩ <;> rw [hZ] <;> nlinarith
  · rintro ⟨⟨hz0, hz1⟩, hr⟩
    have hst : (1/2 - Z / h) + (1/2 + Z / h) = 1 := by ring
    refine ⟨_, ⟨1/2 - Z / h, 1/2 + Z / h, ?_, ?_, hst, rfl⟩, ?_, ?_⟩
    · rw [sub_nonneg, div_le_iff₀ hh]; linarith
    · have : -(1/2) ≤ Z / h := by rw [le_div_iff₀ hh]; linarith
      linarith
    · rw [comb_pt b E hst, perp_pt hE]; field_simp; ring
    · rw [comb_pt b E hst, ed_le hR.le, sqd_pt hE]
      have : (1/2 - Z / h) * -(h / 2) + (1/2 + Z / h) * (h / 2) = Z := by field_simp; ring
      rw [this]; nlinarith

theorem cone_place {b : Vec3 ℝ} {E : Mat3 ℝ} (hE : E.t.mulMat E = .ident) {R h : ℝ} (hR : 0 < R) (hh : 0 < h) :
    Spec.pts (Spec.cone (pt b E 0 0 (-(h / 4))) (pt b E 0 0 (3 * h / 4)) R) =
      place b.toFin (Mat3.toMatrix ⟨E.x.mul R, E.y.mul R, E.z.mul h⟩) (Rev (fun z => (3/4 - z) ^ 2) (-(1/4)) (3/4)) := by
  refine pts_eq_place hE hR hR hh fun X Y Z => ?_
  rw [mem_rev]
  have e1 : (X / R) ^ 2 + (Y / R) ^ 2 ≤ (3/4 - Z / h) ^ 2 ↔ X ^ 2 + Y ^ 2 ≤ ((3/4 - Z / h) * R) ^ 2 := by
    rw [div_pow, div_pow, ← add_div, div_le_iff₀ (by positivity), mul_pow]
  rw [e1]
  constructor
  · rintro ⟨s, t, hs, ht, hst, hp, he⟩
    rw [comb_pt b E hst] at hp he
    rw [perp_pt hE] at hp
    have hZ : Z = s * -(h / 4) + t * (3 * h / 4) := by
      have : 3 * h / 4 - -(h / 4) ≠ 0 := by linarith
      have := (mul_eq_zero.1 hp).resolve_right this
      linarith
    have hs' : Z / h = 3/4 - s := by rw [div_eq_iff hh.ne', hZ]; linear_combination (3 * h / 4) * hst
    rw [ed_le (by positivity), sqd_pt hE, ← hZ] at he
    rw [hs']
    refine ⟨⟨by linarith, by linarith⟩, ?_⟩
    have : (3/4 - (3/4 - s)) * R = s * R := by ring
    rw [this]; nlinarith
  · rintro ⟨⟨hz0, hz1⟩, hr⟩
    have hst : (3/4 - Z / h) + (1/4 + Z / h) = 1 := by ring
    refine ⟨3/4 - Z / h, 1/4 + Z / h, by linarith, by linarith, hst, ?_, ?_⟩
    · rw [comb_pt b E hst, perp_pt hE]; field_simp; ring
    · rw [comb_pt b E hst, ed_le (mul_nonneg (by linarith) hR.le), sqd_pt hE]
      have : (3/4 - Z / h) * -(h / 4) + (1/4 + Z / h) * (3 * h / 4) = Z := by field_simp; ring
      rw [this]; nlinarith

theorem ball_place {b : Vec3 ℝ} {E : Mat3 ℝ} (hE : E.t.mulMat E = .ident) {d0 d1 d2 : ℝ} (h0 : 0 < d0) (h1 : 0 < d1) (h2 : 0 < d2) {S : Set (Vec3 ℝ)}
    (hS : ∀ X Y Z, pt b E X Y Z ∈ S ↔ (X / d0) ^ 2 + (Y / d1) ^ 2 + (Z / d2) ^ 2 ≤ 1) :
    Spec.pts S = place b.toFin (Mat3.toMatrix ⟨E.x.mul d0, E.y.mul d1, E.z.mul d2⟩) (Rev (fun z => 1 - z ^ 2) (-1) 1) := by
  refine pts_eq_place hE h0 h1 h2 fun X Y Z => ?_
  rw [mem_rev, hS]
  refine ⟨fun h => ⟨abs_le.1 ((sq_le_one_iff_abs_le_one _).1 ?_), by linarith⟩, fun h => by linarith [h.2]⟩
  nlinarith [sq_nonneg (X / d0), sq_nonneg (Y / d1)]

theorem capsule_place {b : Vec3 ℝ} {E : Mat3 ℝ} (hE : E.t.mulMat E = .ident) {R h : ℝ} (hR : 0 < R) (hh : 0 < h) :
    Spec.pts (Spec.capsule (pt b E 0 0 (-(h / 2))) (pt b E 0 0 (h / 2)) R) =
      place b.toFin (Mat3.toMatrix ⟨E.x.mul 1, E.y.mul 1, E.z.mul 1⟩) (Rev (capG R h) (-(h / 2 + R)) (h / 2 + R)) := by
  refine pts_eq_place hE one_pos one_pos one_pos fun X Y Z => ?_
  rw [mem_rev, div_one, div_one, div_one, capG]
  constructor
  · rintro ⟨m, ⟨s, t, hs, ht, hst, rfl⟩, he⟩
    rw [comb_pt b E hst, ed_le hR.le, sqd_pt hE] at he
    set w := s * -(h / 2) + t * (h / 2) with hw
    have w1 : -(h / 2) ≤ w := by nlinarith
    have w2 : w ≤ h / 2 := by nlinarith
    have hzw : (Z - w) ^ 2 ≤ R ^ 2 := by nlinarith
    obtain ⟨z1, z2⟩ := abs_le.1 (abs_le_of_sq_le_sq hzw hR.le)
    refine ⟨⟨by linarith, by linarith⟩, ?_⟩
    have : (max (|Z| - h / 2) 0) ^ 2 ≤ (w - Z) ^ 2 := by
      rw [← sq_abs (w - Z)]
      apply pow_le_pow_left₀ (le_max_right _ _)
      refine max_le ?_ (abs_nonneg _)
      have : |Z| ≤ |Z - w| + |w| := by simpa using abs_add_le (Z - w) w
      have : |w| ≤ h / 2 := abs_le.2 ⟨w1, w2⟩
      rw [abs_sub_comm]; linarith
    nlinarith
  · rintro ⟨⟨z1, z2⟩, hr⟩
    set w := max (-(h / 2)) (min Z (h / 2)) with hw
    have w1 : -(h / 2) ≤ w := le_max_left _ _
    have w2 : w ≤ h / 2 := max_le (by linarith) (min_le_right _ _)
    have hst : (1/2 - w / h) + (1/2 + w / h) = 1 := by ring
    have e1 : w / h ≤ 1/2 := by rw [div_le_iff₀ hh]; linarith
    have e2 : -(1/2) ≤ w / h := by rw [le_div_iff₀ hh]; linarith
    refine ⟨_, ⟨1/2 - w / h, 1/2 + w / h, by linarith, by linarith, hst, rfl⟩, ?_⟩
    rw [comb_pt b E hst, ed_le hR.le, sqd_pt hE]
    have : (1/2 - w / h) * -(h / 2) + (1/2 + w / h) * (h / 2) = w := by field_simp; ring
    rw [this]
    have : (w - Z) ^ 2 = (max (|Z| - h / 2) 0) ^ 2 := by
      rcases le_total Z (-(h / 2)) with hc | hc
      · rw [hw, min_eq_left (by linarith), max_eq_left hc, abs_of_nonpos (by linarith), max_eq_left (by linarith)]; ring
      · rcases le_total Z (h / 2) with hc' | hc'
        · rw [hw, min_eq_left hc', max_eq_right hc, max_eq_right (by linarith [abs_le.2 ⟨hc, hc'⟩])]; ring
        · rw [hw, min_eq_right hc', max_eq_right (by linarith), abs_of_nonneg (by linarith), max_eq_left (by linarith)]; ring
    rw [this]; nlinarith

theorem box_place {b : Vec3 ℝ} {E : Mat3 ℝ} (hE : E.t.mulMat E = .ident) {d0 d1 d2 : ℝ} (h0 : 0 < d0) (h1 : 0 < d1) (h2 : 0 < d2) {S : Set (Vec3 ℝ)}
    (hS : ∀ X Y Z, pt b E X Y Z ∈ S ↔ 2 * |X| ≤ d0 ∧ 2 * |Y| ≤ d1 ∧ 2 * |Z| ≤ d2) :
    Spec.pts S = place b.toFin (Mat3.toMatrix ⟨E.x.mul d0, E.y.mul d1, E.z.mul d2⟩) (Icc (fun _ => -(1/2)) (fun _ => 1/2)) := by
  refine pts_eq_place hE h0 h1 h2 fun X Y Z => ?_
  have k : ∀ {x d : ℝ}, 0 < d → (2 * |x| ≤ d ↔ -(1/2) ≤ x / d ∧ x / d ≤ 1/2) := fun {x d} hd => by
    rw [le_div_iff₀ hd, div_le_iff₀ hd]
    constructor
    · intro h; obtain ⟨p, q⟩ := abs_le.1 (show |x| ≤ d / 2 by linarith); constructor <;> linarith
    · rintro ⟨p, q⟩; have := abs_le.2 (⟨by linarith, by linarith⟩ : -(d / 2) ≤ x ∧ x ≤ d / 2); linarith
  rw [hS, k h0, k h1, k h2, mem_Icc, Pi.le_def, Pi.le_def]
  constructor
  · rintro ⟨⟨a, b⟩, ⟨c, d⟩, e, f⟩
    refine ⟨fun i => ?_, fun i => ?_⟩ <;> fin_cases i <;> assumption
  · rintro ⟨p, q⟩
    exact ⟨⟨p 0, q 0⟩, ⟨p 1, q 1⟩, p 2, q 2⟩

end Zeo.Moment
