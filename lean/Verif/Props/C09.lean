import Verif.Props.C08
import Verif.Lemmas.Atan2

/-! # C09: Euler angles round-trip -/

namespace Zeo
open Matrix Spec

private theorem mul_back {b r : Mat3 ℝ} (hb : b.IsRot) : b.mulMat (b.t.mulMat r) = r := by
  have e : b.mulMat (b.t.mulMat r) = (b.mulMat b.t).mulMat r := by vring
  have e' : (Mat3.ident : Mat3 ℝ).mulMat r = r := by vring
  rw [e, hb.mt, e']

/-- For every proper rotation the z-y-x angles reproduce it, gimbal lock included. -/
theorem C09_zyx (r : Mat3 ℝ) (h : r.IsRot) :
    Mat3.fromZYX (Mat3.toZYX r).x (Mat3.toZYX r).y (Mat3.toZYX r).z = r := by
  obtain ⟨hxx, hyy, hzz, hxy, hyz, hzx⟩ := h.cols
  -- azimuth
  obtain ⟨a1, a2⟩ := atan2_cos_sin r.x.x r.x.y
  have a3 := Real.sin_sq_add_cos_sq (atan2 r.x.y r.x.x)
  have a4 : Real.sqrt (r.x.x * r.x.x + r.x.y * r.x.y) ^ 2 = r.x.x * r.x.x + r.x.y * r.x.y :=
    Real.sq_sqrt (by nlinarith [mul_self_nonneg r.x.x, mul_self_nonneg r.x.y])
  simp only [Mat3.toZYX, Mat3.fromZYX]
  generalize Real.sqrt (r.x.x * r.x.x + r.x.y * r.x.y) = ρ at *
  generalize Real.sin (atan2 r.x.y r.x.x) = sa at *
  generalize Real.cos (atan2 r.x.y r.x.x) = ca at *
  have hρ : r.x.x * ca + r.x.y * sa = ρ := by
    rw [← a1, ← a2]; linear_combination ρ * a3
  -- elevation
  have he : ρ * ρ + (-r.x.z) * (-r.x.z) = 1 := by linear_combination a4 + hxx
  obtain ⟨e1, e2⟩ := atan2_unit he
  rw [hρ, e1, e2]
  -- tilt
  have hb : (Mat3.fromZYXSC sa ca (-r.x.z) ρ 0 1).IsRot := by
    rw [fromZYXSC_eq]
    exact ((rzSC_isRot (by linear_combination a3)).mulMat (rySC_isRot (by linear_combination he))).mulMat
      (rxSC_isRot (by norm_num))
  have hm := hb.t.mulMat h
  have hx : ((Mat3.fromZYXSC sa ca (-r.x.z) ρ 0 1).t.mulMat r).x = ⟨1, 0, 0⟩ := by
    ext <;> simp only [zeo] <;> rw [← a1, ← a2] <;>
      first | linear_combination he + ρ * ρ * a3 | linear_combination 0 * he | linear_combination -ρ * r.x.z * a3
  have hback := mul_back (r := r) hb
  obtain ⟨⟨c1, c2, c3⟩, ⟨c4, c5, c6⟩, c7, c8, c9⟩ := hm.cof
  have hyy' := hm.cols.2.1
  set m := (Mat3.fromZYXSC sa ca (-r.x.z) ρ 0 1).t.mulMat r with hmdef
  rw [hx] at c4 c5 c6 c7 c8 c9
  have hc : -r.y.x * sa + r.y.y * ca = m.y.y := by rw [hmdef]; simp only [zeo]; ring
  have hs : r.z.x * sa - r.z.y * ca = -m.z.y := by rw [hmdef]; simp only [zeo]; ring
  simp only [zero_mul, mul_zero, one_mul, sub_self, sub_zero, zero_sub] at c4 c5 c6 c7 c8 c9
  have ht : m.y.y * m.y.y + -m.z.y * -m.z.y = 1 := by
    rw [← c4, ← c6] at hyy'; linear_combination hyy'
  obtain ⟨t1, t2⟩ := atan2_unit ht
  rw [hc, hs, t1, t2]
  conv_rhs => rw [← hback]
  have hm' : m = rxSC (-m.z.y) m.y.y := by
    ext
    · rw [hx]; rfl
    · rw [hx]; rfl
    · rw [hx]; rfl
    · exact c4.symm
    · rfl
    · exact c6.symm
    · exact c7.symm
    · simp [rxSC, zeo]
    · exact c9.symm
  rw [hm', fromZYXSC_eq, fromZYXSC_eq]
  ext <;> simp only [rxSC, rySC, rzSC, zeo] <;> ring

/-- For every proper rotation the z-y-z angles reproduce it, gimbal lock included. -/
theorem C09_zyz (r : Mat3 ℝ) (h : r.IsRot) :
    Mat3.fromZYZ (Mat3.toZYZ r).x (Mat3.toZYZ r).y (Mat3.toZYZ r).z = r := by
  obtain ⟨hxx, hyy, hzz, hxy, hyz, hzx⟩ := h.cols
  obtain ⟨a1, a2⟩ := atan2_cos_sin r.z.x r.z.y
  have a3 := Real.sin_sq_add_cos_sq (atan2 r.z.y r.z.x)
  have a4 : Real.sqrt (r.z.x * r.z.x + r.z.y * r.z.y) ^ 2 = r.z.x * r.z.x + r.z.y * r.z.y :=
    Real.sq_sqrt (by nlinarith [mul_self_nonneg r.z.x, mul_self_nonneg r.z.y])
  simp only [Mat3.toZYZ, Mat3.fromZYZ]
  generalize Real.sqrt (r.z.x * r.z.x + r.z.y * r.z.y) = ρ at *
  generalize Real.sin (atan2 r.z.y r.z.x) = sh at *
  generalize Real.cos (atan2 r.z.y r.z.x) = ch at *
  have hρ : r.z.x * ch + r.z.y * sh = ρ := by
    rw [← a1, ← a2]; linear_combination ρ * a3
  have he : r.z.z * r.z.z + ρ * ρ = 1 := by linear_combination a4 + hzz
  obtain ⟨e1, e2⟩ := atan2_unit he
  rw [hρ, e1, e2]
  have hb : (Mat3.fromZYZSC sh ch ρ r.z.z 0 1).IsRot := by
    rw [fromZYZSC_eq]
    exact ((rzSC_isRot (by linear_combination a3)).mulMat (rySC_isRot (by linear_combination he))).mulMat
      (rzSC_isRot (by norm_num))
  have hm := hb.t.mulMat h
  have hx : ((Mat3.fromZYZSC sh ch ρ r.z.z 0 1).t.mulMat r).z = ⟨0, 0, 1⟩ := by
    ext <;> simp only [zeo] <;> rw [← a1, ← a2] <;>
      first | linear_combination he + ρ * ρ * a3 | linear_combination 0 * he | linear_combination ρ * r.z.z * a3
  have hback := mul_back (r := r) hb
  obtain ⟨⟨c1, c2, c3⟩, ⟨c4, c5, c6⟩, c7, c8, c9⟩ := hm.cof
  have hyy' := hm.cols.2.1
  set m := (Mat3.fromZYZSC sh ch ρ r.z.z 0 1).t.mulMat r with hmdef
  rw [hx] at c1 c2 c3 c4 c5 c6
  have hc : -r.y.x * sh + r.y.y * ch = m.y.y := by rw [hmdef]; simp only [zeo]; ring
  have hs : -r.x.x * sh + r.x.y * ch = m.x.y := by rw [hmdef]; simp only [zeo]; ring
  simp only [zero_mul, mul_zero, mul_one, one_mul, sub_self, sub_zero, zero_sub] at c1 c2 c3 c4 c5 c6
  have ht : m.y.y * m.y.y + m.x.y * m.x.y = 1 := by
    rw [← c4, ← c6] at hyy'; linear_combination hyy'
  obtain ⟨t1, t2⟩ := atan2_unit ht
  rw [hc, hs, t1, t2]
  conv_rhs => rw [← hback]
  have hm' : m = rzSC m.x.y m.y.y := by
    ext
    · exact c1.symm
    · rfl
    · exact c3.symm
    · exact c4.symm
    · rfl
    · exact c6.symm
    · rw [hx]; rfl
    · rw [hx]; rfl
    · rw [hx]; rfl
  rw [hm', fromZYZSC_eq, fromZYZSC_eq]
  ext <;> simp only [rySC, rzSC, zeo] <;> ring

/-- Converse direction: z-y-x angles in the principal range, away from gimbal lock, are
recovered from the matrix. -/
theorem C09_zyx_recover (a e t : ℝ) (ha : -Real.pi < a ∧ a ≤ Real.pi)
    (he : -(Real.pi/2) < e ∧ e < Real.pi/2) (ht : -Real.pi < t ∧ t ≤ Real.pi) :
    Mat3.toZYX (Mat3.fromZYX a e t) = ⟨a, e, t⟩ := by
  have hc : 0 < Real.cos e := Real.cos_pos_of_mem_Ioo ⟨by linarith [he.1], he.2⟩
  have h1 : atan2 (Mat3.fromZYX a e t).x.y (Mat3.fromZYX a e t).x.x = a := by
    simp only [Mat3.fromZYX, zeo]; exact atan2_of_polar hc ha.1 ha.2
  have pa := Real.sin_sq_add_cos_sq a
  simp only [Mat3.toZYX, h1]
  have h2 : atan2 (-(Mat3.fromZYX a e t).x.z)
      ((Mat3.fromZYX a e t).x.x * Real.cos a + (Mat3.fromZYX a e t).x.y * Real.sin a) = e := by
    have := atan2_of_polar (r := 1) one_pos (θ := e) (by linarith [Real.pi_pos, he.1]) (by linarith [Real.pi_pos, he.2])
    rw [← this]; congr 1 <;> simp only [Mat3.fromZYX, zeo, this]
    · ring
    · linear_combination Real.cos e * pa
  have h3 : atan2 ((Mat3.fromZYX a e t).z.x * Real.sin a - (Mat3.fromZYX a e t).z.y * Real.cos a)
      (-(Mat3.fromZYX a e t).y.x * Real.sin a + (Mat3.fromZYX a e t).y.y * Real.cos a) = t := by
    have := atan2_of_polar (r := 1) one_pos (θ := t) ht.1 ht.2
    rw [← this]; congr 1 <;> simp only [Mat3.fromZYX, zeo, this]
    · linear_combination Real.sin t * pa
    · linear_combination Real.cos t * pa
  rw [h2, h3]

/-- Converse direction for z-y-z angles away from the singularity. -/
theorem C09_zyz_recover (a e t : ℝ) (ha : -Real.pi < a ∧ a ≤ Real.pi)
    (he : 0 < e ∧ e < Real.pi) (ht : -Real.pi < t ∧ t ≤ Real.pi) :
    Mat3.toZYZ (Mat3.fromZYZ a e t) = ⟨a, e, t⟩ := by
  have hc : 0 < Real.sin e := Real.sin_pos_of_pos_of_lt_pi he.1 he.2
  have h1 : atan2 (Mat3.fromZYZ a e t).z.y (Mat3.fromZYZ a e t).z.x = a := by
    have := atan2_of_polar hc ha.1 ha.2
    simp only [Mat3.fromZYZ, zeo]
    rw [mul_comm (Real.cos a), mul_comm (Real.sin a)]; exact this
  have pa := Real.sin_sq_add_cos_sq a
  simp only [Mat3.toZYZ, h1]
  have h2 : atan2 ((Mat3.fromZYZ a e t).z.x * Real.cos a + (Mat3.fromZYZ a e t).z.y * Real.sin a)
      (Mat3.fromZYZ a e t).z.z = e := by
    have := atan2_of_polar (r := 1) one_pos (θ := e) (by linarith [Real.pi_pos, he.1]) (by linarith [Real.pi_pos, he.2])
    rw [← this]; congr 1 <;> simp only [Mat3.fromZYZ, zeo, this]
    · linear_combination Real.sin e * pa
    · ring
  have h3 : atan2 (-(Mat3.fromZYZ a e t).x.x * Real.sin a + (Mat3.fromZYZ a e t).x.y * Real.cos a)
      (-(Mat3.fromZYZ a e t).y.x * Real.sin a + (Mat3.fromZYZ a e t).y.y * Real.cos a) = t := by
    have := atan2_of_polar (r := 1) one_pos (θ := t) ht.1 ht.2
    rw [← this]; congr 1 <;> simp only [Mat3.fromZYZ, zeo, this]
    · linear_combination Real.sin t * pa
    · linear_combination Real.cos t * pa
  rw [h2, h3]

/-- Gimbal lock: `Ry(π/2)` has elevation `π/2`, is a rotation, and satisfies the hypothesis. -/
example : (rySC (1 : ℝ) 0).IsRot ∧ (rySC (1 : ℝ) 0).x.x = 0 ∧ (rySC (1 : ℝ) 0).x.y = 0 :=
  ⟨rySC_isRot (by norm_num), rfl, rfl⟩
example : ∃ a e t : ℝ, (-Real.pi < a ∧ a ≤ Real.pi) ∧ (-(Real.pi/2) < e ∧ e < Real.pi/2) ∧
    (-Real.pi < t ∧ t ≤ Real.pi) ∧ a ≠ 0 ∧ e ≠ 0 ∧ t ≠ 0 :=
  ⟨1, 1/2, 1, by constructor <;> linarith [Real.two_le_pi], by constructor <;> linarith [Real.two_le_pi],
   by constructor <;> linarith [Real.two_le_pi], one_ne_zero, by norm_num, one_ne_zero⟩

end Zeo
