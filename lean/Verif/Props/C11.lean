import Verif.Props.C08
import Verif.Lemmas.Quat
import Verif.Lemmas.Atan2

/-! # C11: unit quaternions represent rotations faithfully -/

namespace Zeo
open Matrix

/-- Rotating a vector by a quaternion is multiplication by its matrix. -/
theorem C11_rotVec (q : EP ℝ) (v : Vec3 ℝ) :
    q.rotVec v = q.toMat.mulVec v ∧ (q.rotVec v).toFin = q.toMat.toMatrix *ᵥ v.toFin := by
  have h : q.rotVec v = q.toMat.mulVec v := by vring
  exact ⟨h, by rw [h, (C06_mat3_products q.toMat q.toMat v).2.2.2.1]⟩

/-- A unit quaternion preserves inner products, hence lengths. -/
theorem C11_norm (q : EP ℝ) (h : q.IsUnit) (u v : Vec3 ℝ) :
    (q.rotVec u).toFin ⬝ᵥ (q.rotVec v).toFin = u.toFin ⬝ᵥ v.toFin := by
  have e : (q.rotVec u).inner (q.rotVec v) =
      (q.w^2 + q.v.x^2 + q.v.y^2 + q.v.z^2)^2 * u.inner v := by vring
  rw [h] at e
  simp only [Vec3.toFin, Vec3.inner] at *
  simp only [dotProduct, Fin.sum_univ_three, cons_val_zero, cons_val_one, cons_val]
  linear_combination e

/-- Cascading `e1` with `e2` is the rotation `e1` followed by the rotation `e2`, and keeps
unit norm. -/
theorem C11_cascade (e1 e2 : EP ℝ) (v : Vec3 ℝ) :
    (EP.cascade e1 e2).rotVec v = e2.rotVec (e1.rotVec v) ∧
    (EP.cascade e1 e2).toMat = e2.toMat.mulMat e1.toMat ∧
    (e1.IsUnit → e2.IsUnit → (EP.cascade e1 e2).IsUnit) := by
  refine ⟨by vring, by vring, ?_⟩
  intro h1 h2
  have e : (EP.cascade e1 e2).w^2 + (EP.cascade e1 e2).v.x^2 + (EP.cascade e1 e2).v.y^2 +
      (EP.cascade e1 e2).v.z^2 = (e1.w^2 + e1.v.x^2 + e1.v.y^2 + e1.v.z^2) *
      (e2.w^2 + e2.v.x^2 + e2.v.y^2 + e2.v.z^2) := by vring
  unfold EP.IsUnit at *
  rw [e, h1, h2, one_mul]

/-- A quaternion whose products are the entries of `quatN m / 4` has matrix `m`. -/
private theorem toMat_of_prod {m : Mat3 ℝ} {a b c d : ℝ}
    (h00 : a * a = quatN m 0 0 / 4) (h01 : a * b = quatN m 0 1 / 4) (h02 : a * c = quatN m 0 2 / 4)
    (h03 : a * d = quatN m 0 3 / 4) (h11 : b * b = quatN m 1 1 / 4) (h12 : b * c = quatN m 1 2 / 4)
    (h13 : b * d = quatN m 1 3 / 4) (h22 : c * c = quatN m 2 2 / 4) (h23 : c * d = quatN m 2 3 / 4)
    (h33 : d * d = quatN m 3 3 / 4) :
    EP.toMat ⟨a, ⟨b, c, d⟩⟩ = m ∧ EP.IsUnit ⟨a, ⟨b, c, d⟩⟩ := by
  simp [quatN] at *
  constructor
  · ext <;> simp only [zeo] <;> linarith
  · simp only [EP.IsUnit]; nlinarith

private theorem prod_self {S : ℝ} (hS : 0 < S) (n : ℝ) :
    (1/2 * Real.sqrt S) * (1/2 * Real.sqrt S) = S / 4 ∧
    (1/2 * Real.sqrt S) * ((1/4 / (1/2 * Real.sqrt S)) * n) = n / 4 := by
  have h := Real.mul_self_sqrt hS.le
  have hp := Real.sqrt_pos.2 hS
  constructor
  · linear_combination h / 4
  · field_simp

private theorem prod_off {S n1 n2 n12 : ℝ} (hS : 0 < S) (h : n1 * n2 = S * n12) :
    ((1/4 / (1/2 * Real.sqrt S)) * n1) * ((1/4 / (1/2 * Real.sqrt S)) * n2) = n12 / 4 := by
  have h' := Real.mul_self_sqrt hS.le
  have hp := Real.sqrt_pos.2 hS
  have e : ((1/4 / (1/2 * Real.sqrt S)) * n1) * ((1/4 / (1/2 * Real.sqrt S)) * n2)
      = (n1 * n2) / (4 * (Real.sqrt S * Real.sqrt S)) := by field_simp; ring
  rw [e, h', h]; field_simp

theorem EP.matS_eq (m : Mat3 ℝ) (i : Fin 4) : EP.matS m i = quatN m i i := by
  fin_cases i <;> simp [EP.matS, quatN]

theorem EP.matImax_spec (m : Mat3 ℝ) (j : Fin 4) : EP.matS m j ≤ EP.matS m (EP.matImax m) := by
  unfold EP.matImax
  simp only []
  fin_cases j <;> split_ifs <;> simp_all <;> linarith

/-- Converting any rotation matrix to a quaternion succeeds, gives a unit quaternion, and
converting back reproduces the matrix. -/
theorem C11_ofMat (m : Mat3 ℝ) (h : m.IsRot) :
    ∃ q, EP.ofMat m = some q ∧ q.IsUnit ∧ q.toMat = m := by
  have hsum : EP.matS m 0 + EP.matS m 1 + EP.matS m 2 + EP.matS m 3 = 4 := by
    simp only [EP.matS]; ring
  have hpos : 0 < EP.matS m (EP.matImax m) := by
    have := EP.matImax_spec m 0; have := EP.matImax_spec m 1
    have := EP.matImax_spec m 2; have := EP.matImax_spec m 3; linarith
  have hr := quatN_rank h
  unfold EP.ofMat
  simp only [if_neg (not_le.2 hpos)]
  refine ⟨_, rfl, ?_⟩
  generalize EP.matImax m = i at *
  rw [EP.matS_eq] at hpos ⊢
  rw [and_comm]
  fin_cases i
  · refine toMat_of_prod (prod_self hpos 0).1 ?_ ?_ ?_ ?_ ?_ ?_ ?_ ?_ ?_
    · exact (prod_self hpos _).2
    · exact (prod_self hpos _).2
    · exact (prod_self hpos _).2
    · exact prod_off hpos (hr 0 1 1)
    · exact prod_off hpos (hr 0 1 2)
    · exact prod_off hpos (hr 0 1 3)
    · exact prod_off hpos (hr 0 2 2)
    · exact prod_off hpos (hr 0 2 3)
    · exact prod_off hpos (hr 0 3 3)
  · refine toMat_of_prod ?_ ?_ ?_ ?_ (prod_self hpos 0).1 ?_ ?_ ?_ ?_ ?_
    · exact prod_off hpos (hr 1 0 0)
    · rw [mul_comm]; exact (prod_self hpos _).2
    · exact prod_off hpos (hr 1 0 2)
    · exact prod_off hpos (hr 1 0 3)
    · exact (prod_self hpos _).2
    · exact (prod_self hpos _).2
    · exact prod_off hpos (hr 1 2 2)
    · exact prod_off hpos (hr 1 2 3)
    · exact prod_off hpos (hr 1 3 3)
  · refine toMat_of_prod ?_ ?_ ?_ ?_ ?_ ?_ ?_ (prod_self hpos 0).1 ?_ ?_
    · exact prod_off hpos (hr 2 0 0)
    · exact prod_off hpos (hr 2 0 1)
    · rw [mul_comm]; exact (prod_self hpos _).2
    · exact prod_off hpos (hr 2 0 3)
    · exact prod_off hpos (hr 2 1 1)
    · rw [mul_comm]; exact (prod_self hpos _).2
    · exact prod_off hpos (hr 2 1 3)
    · exact (prod_self hpos _).2
    · exact prod_off hpos (hr 2 3 3)
  · refine toMat_of_prod ?_ ?_ ?_ ?_ ?_ ?_ ?_ ?_ ?_ (prod_self hpos 0).1
    · exact prod_off hpos (hr 3 0 0)
    · exact prod_off hpos (hr 3 0 1)
    · exact prod_off hpos (hr 3 0 2)
    · rw [mul_comm]; exact (prod_self hpos _).2
    · exact prod_off hpos (hr 3 1 1)
    · exact prod_off hpos (hr 3 1 2)
    · rw [mul_comm]; exact (prod_self hpos _).2
    · exact prod_off hpos (hr 3 2 2)
    · rw [mul_comm]; exact (prod_self hpos _).2

private theorem four_sq_zero {a b c d : ℝ} (h : a^2 + b^2 + c^2 + d^2 = 0) :
    a = 0 ∧ b = 0 ∧ c = 0 ∧ d = 0 := by
  have ha := sq_nonneg a; have hb := sq_nonneg b; have hc := sq_nonneg c; have hd := sq_nonneg d
  exact ⟨pow_eq_zero_iff two_ne_zero |>.1 (by linarith), pow_eq_zero_iff two_ne_zero |>.1 (by linarith),
    pow_eq_zero_iff two_ne_zero |>.1 (by linarith), pow_eq_zero_iff two_ne_zero |>.1 (by linarith)⟩

/-- Two unit quaternions with the same matrix are equal up to sign. -/
theorem C11_two_to_one (p q : EP ℝ) (hp : p.IsUnit) (hq : q.IsUnit) :
    p.toMat = q.toMat ↔ p = q ∨ p = q.rev := by
  constructor
  · intro h
    simp only [zeo, Mat3.mk.injEq, Vec3.mk.injEq] at h
    obtain ⟨⟨a1, a2, a3⟩, ⟨b1, b2, b3⟩, c1, c2, c3⟩ := h
    unfold EP.IsUnit at hp hq
    -- (p·q)² = 1
    set k := p.w * q.w + p.v.x * q.v.x + p.v.y * q.v.y + p.v.z * q.v.z with hk
    have hk2 : k * k = 1 := by
      have e1 : p.w * p.w = q.w * q.w := by linarith
      have e2 : p.v.x * p.v.x = q.v.x * q.v.x := by linarith
      have e3 : p.v.y * p.v.y = q.v.y * q.v.y := by linarith
      have e4 : p.v.z * p.v.z = q.v.z * q.v.z := by linarith
      have e5 : p.v.x * p.v.y = q.v.x * q.v.y := by linarith
      have e6 : p.v.y * p.v.z = q.v.y * q.v.z := by linarith
      have e7 : p.v.z * p.v.x = q.v.z * q.v.x := by linarith
      have e8 : p.w * p.v.x = q.w * q.v.x := by linarith
      have e9 : p.w * p.v.y = q.w * q.v.y := by linarith
      have e10 : p.w * p.v.z = q.w * q.v.z := by linarith
      rw [hk]
      linear_combination q.w^2 * e1 + q.v.x^2 * e2 + q.v.y^2 * e3 + q.v.z^2 * e4
        + 2 * q.v.x * q.v.y * e5 + 2 * q.v.y * q.v.z * e6 + 2 * q.v.z * q.v.x * e7
        + 2 * q.w * q.v.x * e8 + 2 * q.w * q.v.y * e9 + 2 * q.w * q.v.z * e10
        + (q.w^2 + q.v.x^2 + q.v.y^2 + q.v.z^2 + 1) * hq
    have hd : (p.w - k * q.w)^2 + (p.v.x - k * q.v.x)^2 + (p.v.y - k * q.v.y)^2
        + (p.v.z - k * q.v.z)^2 = 0 := by
      have : (p.w - k * q.w)^2 + (p.v.x - k * q.v.x)^2 + (p.v.y - k * q.v.y)^2
        + (p.v.z - k * q.v.z)^2 = (p.w^2 + p.v.x^2 + p.v.y^2 + p.v.z^2) - 2 * k * k
          + k * k * (q.w^2 + q.v.x^2 + q.v.y^2 + q.v.z^2) := by rw [hk]; ring
      rw [this, hp, hq]; linear_combination -hk2
    obtain ⟨z1, z2, z3, z4⟩ := four_sq_zero hd
    rcases mul_self_eq_one_iff.1 hk2 with h1 | h1
    · left; rw [h1] at z1 z2 z3 z4
      ext
      · linarith
      · linarith
      · linarith
      · linarith
    · right; rw [h1] at z1 z2 z3 z4
      ext <;> simp only [zeo] <;> linarith
  · rintro (rfl | rfl)
    · rfl
    · vring

/-- Angular velocity and quaternion rate convert into each other for unit quaternions: the
rate of an angular velocity gives it back. -/
theorem C11_vel (q : EP ℝ) (h : q.IsUnit) (w : Vec3 ℝ) :
    EP.velToAngVel (EP.angVelToVel w q) q = w ∧ (EP.angVelToVel w q).inner q = 0 := by
  unfold EP.IsUnit at h
  constructor
  · ext <;> simp only [zeo]
    · linear_combination w.x * h
    · linear_combination w.y * h
    · linear_combination w.z * h
  · simp only [zeo]; ring

/-- ... and a quaternion rate tangent to the sphere is reproduced by its angular velocity. -/
theorem C11_vel' (q qd : EP ℝ) (h : q.IsUnit) (ht : qd.inner q = 0) :
    EP.angVelToVel (EP.velToAngVel qd q) q = qd := by
  unfold EP.IsUnit at h
  simp only [zeo] at ht
  ext <;> simp only [zeo]
  · linear_combination qd.w * h - q.w * ht
  · linear_combination qd.v.x * h - q.v.x * ht
  · linear_combination qd.v.y * h - q.v.y * ht
  · linear_combination qd.v.z * h - q.v.z * ht

/-- Concrete rotation (half turn about x, the trace is -1) meeting the hypotheses. -/
example : (Mat3.create (1:ℝ) 0 0 0 (-1) 0 0 0 (-1)).IsRot := by
  rw [Mat3.isRot_iff]; constructor
  · ext <;> norm_num [zeo]
  · norm_num [zeo]

end Zeo
