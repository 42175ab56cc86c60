import Verif.Props.C05
import Verif.Lemmas.Place

/-! # Coordinates along a scaled orthonormal frame (`zVec3DCatRatio`) -/

namespace Zeo.Moment
open Matrix

theorem maxAbs_mem (a b c : ℝ) : Mat3.maxAbs a b c = |a| ∨ Mat3.maxAbs a b c = |b| ∨ Mat3.maxAbs a b c = |c| := by
  simp only [Mat3.maxAbs]
  generalize (Mat3.minMaxIndex (⟨|a|, |b|, |c|⟩ : Vec3 ℝ)).1 = i
  fin_cases i
  · left; rfl
  · right; left; rfl
  · right; right; rfl

theorem maxAbs_le {a b c B : ℝ} (ha : |a| ≤ B) (hb : |b| ≤ B) (hc : |c| ≤ B) : Mat3.maxAbs a b c ≤ B := by
  rcases maxAbs_mem a b c with h | h | h <;> rw [h] <;> assumption

theorem maxAbs_nonneg (a b c : ℝ) : 0 ≤ Mat3.maxAbs a b c := (abs_nonneg a).trans (Mat3.maxAbs_ge a b c).1

private theorem le_mul3 {x y z a b c : ℝ} (hx : 0 ≤ x) (hy : 0 ≤ y) (hz : 0 ≤ z) (h1 : x ≤ a) (h2 : y ≤ b) (h3 : z ≤ c) : x * y * z ≤ a * b * c :=
  mul_le_mul (mul_le_mul h1 h2 hy (hx.trans h1)) h3 hz (mul_nonneg (hx.trans h1) (hy.trans h2))

/-- Row scaling followed by column scaling: the product of the scales. -/
private theorem row_first {u v w d B s0 s1 s2 : ℝ} (h0 : 0 < s0) (h1 : 0 < s1) (h2 : 0 < s2) (b0 : s0 ≤ B) (b1 : s1 ≤ B) (b2 : s2 ≤ B)
    (hu : |u| ≤ d) (hv : |v| ≤ d) (hw : |w| ≤ d) : s0 * s1 * s2 * Mat3.maxAbs (u / s0) (v / s1) (w / s2) ≤ d * B ^ 2 := by
  have hd : 0 ≤ d := (abs_nonneg u).trans hu
  have hB : 0 ≤ B := h0.le.trans b0
  rcases maxAbs_mem (u / s0) (v / s1) (w / s2) with h | h | h <;> rw [h, abs_div]
  · rw [abs_of_pos h0, show s0 * s1 * s2 * (|u| / s0) = |u| * s1 * s2 by field_simp, show d * B ^ 2 = d * B * B by ring]
    exact le_mul3 (abs_nonneg _) h1.le h2.le hu b1 b2
  · rw [abs_of_pos h1, show s0 * s1 * s2 * (|v| / s1) = |v| * s0 * s2 by field_simp, show d * B ^ 2 = d * B * B by ring]
    exact le_mul3 (abs_nonneg _) h0.le h2.le hv b0 b2
  · rw [abs_of_pos h2, show s0 * s1 * s2 * (|w| / s2) = |w| * s0 * s1 by field_simp, show d * B ^ 2 = d * B * B by ring]
    exact le_mul3 (abs_nonneg _) h0.le h1.le hw b0 b1

set_option maxHeartbeats 1000000 in
theorem balance_det {τ : ℝ} (hτ : 0 ≤ τ) (hτ1 : τ < 1) {E mb : Mat3 ℝ} {sr sc : Vec3 ℝ} (hE : E.t.mulMat E = .ident) {d0 d1 d2 B : ℝ}
    (h0 : 0 < d0) (h1 : 0 < d1) (h2 : 0 < d2) (b0 : d0 ≤ B) (b1 : d1 ≤ B) (b2 : d2 ≤ B)
    (hj : τ * (d0 * B ^ 2) < d0 * d1 * d2 ∨ τ * (d2 * B ^ 2) < d0 * d1 * d2)
    (hb : Mat3.balance ⟨E.x.mul d0, E.y.mul d1, E.z.mul d2⟩ = some (mb, sr, sc)) : τ < |mb.det| := by
  obtain ⟨⟨r1, r2, r3⟩, ⟨c1, c2, c3⟩, hm⟩ := Mat3.balance_spec hb
  set m : Mat3 ℝ := ⟨E.x.mul d0, E.y.mul d1, E.z.mul d2⟩ with hmd
  have hdet2 : E.det ^ 2 = 1 := by
    have : (E.t.mulMat E).det = E.det ^ 2 := by simp only [zeo]; ring
    rw [← this, hE]; simp only [zeo]; norm_num
  have hEabs : |E.det| = 1 := by
    rcases mul_self_eq_one_iff.1 ((sq E.det).symm.trans hdet2) with h | h <;> simp [h]
  have hmdet : |m.det| = d0 * d1 * d2 := by
    have : m.det = E.det * (d0 * d1 * d2) := by rw [hmd]; simp only [zeo]; ring
    rw [this, abs_mul, hEabs, one_mul, abs_of_pos (by positivity)]
  have hdd : m.det = (sr.x * sr.y * sr.z) * mb.det * (sc.x * sc.y * sc.z) := by
    have := congrArg Matrix.det hm
    rw [Matrix.det_mul, Matrix.det_mul, Matrix.det_diagonal, Matrix.det_diagonal, ← (C06_mat3_det_adj m m .zero).1,
      ← (C06_mat3_det_adj mb mb .zero).1, Fin.prod_univ_three, Fin.prod_univ_three] at this
    exact this
  obtain ⟨⟨q1, q2, q3⟩, -⟩ := cols_of hE
  have ent : ∀ {x y z : ℝ}, x ^ 2 + y ^ 2 + z ^ 2 = 1 → ∀ d, 0 < d → |d * x| ≤ d ∧ |d * y| ≤ d ∧ |d * z| ≤ d := fun {x y z} h d hd => by
    have k : ∀ t : ℝ, t ^ 2 ≤ 1 → |d * t| ≤ d := fun t ht => by
      rw [abs_mul, abs_of_pos hd]
      have := (sq_le_one_iff_abs_le_one t).1 ht
      nlinarith
    exact ⟨k x (by nlinarith [sq_nonneg y, sq_nonneg z]), k y (by nlinarith [sq_nonneg x, sq_nonneg z]), k z (by nlinarith [sq_nonneg y, sq_nonneg x])⟩
  obtain ⟨x1, x2, x3⟩ := ent q1 d0 h0
  obtain ⟨y1, y2, y3⟩ := ent q2 d1 h1
  obtain ⟨z1, z2, z3⟩ := ent q3 d2 h2
  -- it is enough to bound the product of the scales
  have fin : ∀ P, 0 < sr.x * sr.y * sr.z * (sc.x * sc.y * sc.z) → sr.x * sr.y * sr.z * (sc.x * sc.y * sc.z) ≤ P → τ * P < d0 * d1 * d2 → τ < |mb.det| := by
    intro P hp hP hlt
    have e : |m.det| = |mb.det| * (sr.x * sr.y * sr.z * (sc.x * sc.y * sc.z)) := by
      rw [hdd, show (sr.x * sr.y * sr.z) * mb.det * (sc.x * sc.y * sc.z) = mb.det * (sr.x * sr.y * sr.z * (sc.x * sc.y * sc.z)) by ring, abs_mul, abs_of_pos hp]
    rw [hmdet] at e
    by_contra hc
    push Not at hc
    have : |mb.det| * (sr.x * sr.y * sr.z * (sc.x * sc.y * sc.z)) ≤ τ * P := mul_le_mul hc hP hp.le hτ
    linarith
  have pos : ∀ {s : ℝ} {a b c : ℝ}, s = Mat3.maxAbs a b c → s ≠ 0 → 0 < s := fun {s a b c} h hn => lt_of_le_of_ne (h ▸ maxAbs_nonneg _ _ _) (Ne.symm hn)
  unfold Mat3.balance at hb
  split_ifs at hb with g1 g2
  · simp only [Option.some.injEq, Prod.mk.injEq] at hb
    obtain ⟨-, er, ec⟩ := hb
    have r1' : sr.x = Mat3.maxAbs (d0 * E.x.x) (d1 * E.y.x) (d2 * E.z.x) := by rw [← er]; rfl
    have r2' : sr.y = Mat3.maxAbs (d0 * E.x.y) (d1 * E.y.y) (d2 * E.z.y) := by rw [← er]; rfl
    have r3' : sr.z = Mat3.maxAbs (d0 * E.x.z) (d1 * E.y.z) (d2 * E.z.z) := by rw [← er]; rfl
    rw [er] at ec
    have c1' : sc.x = Mat3.maxAbs (d0 * E.x.x / sr.x) (d0 * E.x.y / sr.y) (d0 * E.x.z / sr.z) := by rw [← ec]; rfl
    have c2' : sc.y = Mat3.maxAbs (d1 * E.y.x / sr.x) (d1 * E.y.y / sr.y) (d1 * E.y.z / sr.z) := by rw [← ec]; rfl
    have c3' : sc.z = Mat3.maxAbs (d2 * E.z.x / sr.x) (d2 * E.z.y / sr.y) (d2 * E.z.z / sr.z) := by rw [← ec]; rfl
    have p1 := pos r1' r1; have p2 := pos r2' r2; have p3 := pos r3' r3
    have p4 := pos c1' c1; have p5 := pos c2' c2; have p6 := pos c3' c3
    have s1 : sr.x ≤ B := r1' ▸ maxAbs_le (x1.trans b0) (y1.trans b1) (z1.trans b2)
    have s2 : sr.y ≤ B := r2' ▸ maxAbs_le (x2.trans b0) (y2.trans b1) (z2.trans b2)
    have s3 : sr.z ≤ B := r3' ▸ maxAbs_le (x3.trans b0) (y3.trans b1) (z3.trans b2)
    have g1 := Mat3.maxAbs_ge (d0 * E.x.x) (d1 * E.y.x) (d2 * E.z.x)
    have g2 := Mat3.maxAbs_ge (d0 * E.x.y) (d1 * E.y.y) (d2 * E.z.y)
    have g3 := Mat3.maxAbs_ge (d0 * E.x.z) (d1 * E.y.z) (d2 * E.z.z)
    rw [← r1'] at g1; rw [← r2'] at g2; rw [← r3'] at g3
    have dv : ∀ {t s : ℝ}, 0 < s → |t| ≤ s → |t / s| ≤ 1 := fun {t s} hs h => by
      rw [abs_div, abs_of_pos hs, div_le_one hs]; exact h
    have t1 : sc.x ≤ 1 := c1' ▸ maxAbs_le (dv p1 g1.1) (dv p2 g2.1) (dv p3 g3.1)
    have t2 : sc.y ≤ 1 := c2' ▸ maxAbs_le (dv p1 g1.2.1) (dv p2 g2.2.1) (dv p3 g3.2.1)
    have t3 : sc.z ≤ 1 := c3' ▸ maxAbs_le (dv p1 g1.2.2) (dv p2 g2.2.2) (dv p3 g3.2.2)
    rcases hj with hj | hj
    · refine fin _ (by positivity) ?_ hj
      have k := row_first p1 p2 p3 s1 s2 s3 x1 x2 x3
      rw [← c1'] at k
      have : sc.y * sc.z ≤ 1 := by nlinarith
      calc sr.x * sr.y * sr.z * (sc.x * sc.y * sc.z) = (sr.x * sr.y * sr.z * sc.x) * (sc.y * sc.z) := by ring
        _ ≤ (sr.x * sr.y * sr.z * sc.x) * 1 := by gcongr
        _ ≤ d0 * B ^ 2 := by rw [mul_one]; exact k
    · refine fin _ (by positivity) ?_ hj
      have k := row_first p1 p2 p3 s1 s2 s3 z1 z2 z3
      rw [← c3'] at k
      have : sc.x * sc.y ≤ 1 := by nlinarith
      calc sr.x * sr.y * sr.z * (sc.x * sc.y * sc.z) = (sr.x * sr.y * sr.z * sc.z) * (sc.x * sc.y) := by ring
        _ ≤ (sr.x * sr.y * sr.z * sc.z) * 1 := by gcongr
        _ ≤ d2 * B ^ 2 := by rw [mul_one]; exact k
  · simp only [Option.some.injEq, Prod.mk.injEq] at hb
    obtain ⟨-, er, ec⟩ := hb
    have c1' : sc.x = Mat3.maxAbs (d0 * E.x.x) (d0 * E.x.y) (d0 * E.x.z) := by rw [← ec]; rfl
    have c2' : sc.y = Mat3.maxAbs (d1 * E.y.x) (d1 * E.y.y) (d1 * E.y.z) := by rw [← ec]; rfl
    have c3' : sc.z = Mat3.maxAbs (d2 * E.z.x) (d2 * E.z.y) (d2 * E.z.z) := by rw [← ec]; rfl
    rw [ec] at er
    have r1' : sr.x = Mat3.maxAbs (d0 * E.x.x / sc.x) (d1 * E.y.x / sc.y) (d2 * E.z.x / sc.z) := by rw [← er]; rfl
    have r2' : sr.y = Mat3.maxAbs (d0 * E.x.y / sc.x) (d1 * E.y.y / sc.y) (d2 * E.z.y / sc.z) := by rw [← er]; rfl
    have r3' : sr.z = Mat3.maxAbs (d0 * E.x.z / sc.x) (d1 * E.y.z / sc.y) (d2 * E.z.z / sc.z) := by rw [← er]; rfl
    have p1 := pos r1' r1; have p2 := pos r2' r2; have p3 := pos r3' r3
    have p4 := pos c1' c1; have p5 := pos c2' c2; have p6 := pos c3' c3
    have g1 := Mat3.maxAbs_ge (d0 * E.x.x) (d0 * E.x.y) (d0 * E.x.z)
    have g2 := Mat3.maxAbs_ge (d1 * E.y.x) (d1 * E.y.y) (d1 * E.y.z)
    have g3 := Mat3.maxAbs_ge (d2 * E.z.x) (d2 * E.z.y) (d2 * E.z.z)
    rw [← c1'] at g1; rw [← c2'] at g2; rw [← c3'] at g3
    have t1 : sc.x ≤ d0 := c1' ▸ maxAbs_le x1 x2 x3
    have t2 : sc.y ≤ d1 := c2' ▸ maxAbs_le y1 y2 y3
    have t3 : sc.z ≤ d2 := c3' ▸ maxAbs_le z1 z2 z3
    have dv : ∀ {t s : ℝ}, 0 < s → |t| ≤ s → |t / s| ≤ 1 := fun {t s} hs h => by
      rw [abs_div, abs_of_pos hs, div_le_one hs]; exact h
    have s1 : sr.x ≤ 1 := r1' ▸ maxAbs_le (dv p4 g1.1) (dv p5 g2.1) (dv p6 g3.1)
    have s2 : sr.y ≤ 1 := r2' ▸ maxAbs_le (dv p4 g1.2.1) (dv p5 g2.2.1) (dv p6 g3.2.1)
    have s3 : sr.z ≤ 1 := r3' ▸ maxAbs_le (dv p4 g1.2.2) (dv p5 g2.2.2) (dv p6 g3.2.2)
    refine fin (1 * 1 * 1 * (d0 * d1 * d2)) (by positivity) ?_ ?_
    · exact mul_le_mul (le_mul3 p1.le p2.le p3.le s1 s2 s3) (le_mul3 p4.le p5.le p6.le t1 t2 t3) (by positivity) (by norm_num)
    · have : 0 < d0 * d1 * d2 := by positivity
      nlinarith

/-- `zVec3DCatRatio` along a scaled orthonormal frame gives the coordinates. -/
theorem catRatio_pt {τ : ℝ} (hτ : 0 ≤ τ) (hτ1 : τ < 1) {E : Mat3 ℝ} (hE : E.t.mulMat E = .ident) {d0 d1 d2 B : ℝ}
    (h0 : 0 < d0) (h1 : 0 < d1) (h2 : 0 < d2) (b0 : d0 ≤ B) (b1 : d1 ≤ B) (b2 : d2 ≤ B)
    (hj : τ * (d0 * B ^ 2) < d0 * d1 * d2 ∨ τ * (d2 * B ^ 2) < d0 * d1 * d2) (b : Vec3 ℝ) (X Y Z : ℝ) (old : Mat3 ℝ) :
    Mat3.catRatio τ (E.x.mul d0) (E.y.mul d1) (E.z.mul d2) ((pt b E X Y Z).sub b) old = some ⟨X / d0, Y / d1, Z / d2⟩ := by
  set m : Mat3 ℝ := ⟨E.x.mul d0, E.y.mul d1, E.z.mul d2⟩ with hmd
  have hdet2 : E.det ^ 2 = 1 := by
    have : (E.t.mulMat E).det = E.det ^ 2 := by simp only [zeo]; ring
    rw [← this, hE]; simp only [zeo]; norm_num
  have hm0 : m.toMatrix.det ≠ 0 := by
    rw [← (C06_mat3_det_adj m m .zero).1]
    have : m.det = E.det * (d0 * d1 * d2) := by rw [hmd]; simp only [zeo]; ring
    rw [this]
    have : E.det ≠ 0 := fun h => by rw [h] at hdet2; norm_num at hdet2
    positivity
  have hbal := (C05_balance_defined m).2 hm0
  cases hb : m.balance with
  | none => exact absurd hb hbal
  | some t =>
    obtain ⟨mb, sr, sc⟩ := t
    have hd := balance_det hτ hτ1 hE h0 h1 h2 b0 b1 b2 hj hb
    obtain ⟨im, e1, -, e3⟩ := C05_inv_partial τ hτ m old mb sr sc hb hd
    rw [Mat3.catRatio, ← hmd, e1]
    simp only [Option.map_some, Option.some.injEq]
    have hv : (pt b E X Y Z).sub b = m.mulVec ⟨X / d0, Y / d1, Z / d2⟩ := by
      ext <;> simp only [pt, hmd, zeo] <;> field_simp <;> ring
    rw [hv]
    have e3' : im.mulMat m = .ident := by
      apply Mat3.toMatrix_injective
      rw [(C06_mat3_products im m .zero).1, e3]
      ext i j; fin_cases i <;> fin_cases j <;> simp [Mat3.toMatrix, zeo]
    have : im.mulVec (m.mulVec ⟨X / d0, Y / d1, Z / d2⟩) = (im.mulMat m).mulVec ⟨X / d0, Y / d1, Z / d2⟩ := by
      ext <;> simp only [zeo] <;> ring
    rw [this, e3']
    ext <;> simp only [zeo] <;> ring

end Zeo.Moment
