import Verif.Lemmas.Power
import Verif.Lemmas.Atan2
import Verif.Props.C05
import Verif.Props.C10
import Mathlib.Analysis.SpecificLimits.Basic
import Mathlib.LinearAlgebra.Matrix.ToLinearEquiv

/-! C82: orthonormalization, numerical differentiation of attitudes and power iteration. -/

namespace Zeo
open Matrix

/-! ## `zMat3DOrthonormalize` -/

private theorem v_setV (m : Mat3 ℝ) (i : Fin 3) (c : Vec3 ℝ) : (m.setV i c).v i = c := by
  fin_cases i <;> rfl
private theorem v_setV_ne (m : Mat3 ℝ) {i j : Fin 3} (h : j ≠ i) (c : Vec3 ℝ) : (m.setV i c).v j = m.v j := by
  fin_cases i <;> fin_cases j <;> first | rfl | exact absurd rfl h

private theorem unit_not_tol {τ : ℝ} (hτ : 0 ≤ τ) (h3 : 3 * τ ^ 2 < 1) {w : Vec3 ℝ} (hw : w.sqrNorm = 1) : ¬ w.isTol τ := by
  rintro ⟨a, b, c⟩
  simp only [zIsTol] at a b c
  have ha := sq_le_sq' (abs_le.1 a).1 (abs_le.1 a).2
  have hb := sq_le_sq' (abs_le.1 b).1 (abs_le.1 b).2
  have hc := sq_le_sq' (abs_le.1 c).1 (abs_le.1 c).2
  simp only [zeo] at hw
  nlinarith

private theorem unit_normalize {τ : ℝ} (hτ : 0 ≤ τ) (h3 : 3 * τ ^ 2 < 1) {w : Vec3 ℝ} (hw : w.sqrNorm = 1) (old : Vec3 ℝ) :
    (w.normalize τ old).2 = w := by
  rw [Vec3.normalize, if_neg (unit_not_tol hτ h3 hw)]
  have : w.norm = 1 := by rw [Vec3.norm, hw, Real.sqrt_one]
  simp only [Vec3.normalizeNC, this]
  ext <;> simp only [zeo] <;> ring

private theorem cols {τ : ℝ} (hτ : 0 ≤ τ) (h3 : 3 * τ ^ 2 < 1) {src dest : Mat3 ℝ} {i j k : Fin 3}
    (hij : i ≠ j) (hik : i ≠ k) (hjk : j ≠ k) (al : Bool) (hal : al = true → src = dest)
    (h1 : ¬ (src.v i).isTol τ)
    (h2 : ¬ ((src.v j).sub ((src.v i).mul ((src.v i).inner (src.v j) / (src.v i).sqrNorm))).isTol τ) :
    let d := Mat3.orthoCols τ al src i j k dest
    (d.v i).sqrNorm = 1 ∧ (d.v j).sqrNorm = 1 ∧ (d.v i).inner (d.v j) = 0 ∧ d.v k = (d.v i).outer (d.v j) ∧
    (∃ p, 0 < p ∧ src.v i = (d.v i).mul p) ∧
    ∃ q r, 0 < r ∧ src.v j = ((d.v i).mul q).add ((d.v j).mul r) := by
  set o := (src.v j).sub ((src.v i).mul ((src.v i).inner (src.v j) / (src.v i).sqrNorm)) with ho
  obtain ⟨a1, a2, a3⟩ := normalize_unit hτ (old := dest.v i) h1
  set e1 := ((src.v i).normalize τ (dest.v i)).2 with he1
  have hsn : (src.v i).sqrNorm = (src.v i).norm ^ 2 := (Vec3.norm_sq _).symm
  have hs0 : (if al then dest else src) = src := by
    cases al
    · rfl
    · exact (hal rfl).symm
  have hd1 : ∀ s1 : Mat3 ℝ, s1 = (if al then dest.setV i e1 else src) →
      (s1.v j).orthogonalize τ (s1.v i) = some o := by
    intro s1 hs1
    cases al
    · simp only [Bool.false_eq_true, if_false] at hs1
      subst hs1
      rw [Vec3.orthogonalize, if_neg h1, ho]
      congr 1
      ext <;> simp only [zeo] <;> ring
    · simp only [if_true] at hs1
      subst hs1
      rw [v_setV, v_setV_ne _ hij.symm, ← hal rfl, Vec3.orthogonalize, if_neg (unit_not_tol hτ h3 a1), ho, a1]
      congr 1
      have hn : (src.v i).sqrNorm ≠ 0 := by rw [hsn]; positivity
      have key : (src.v i).mul ((src.v i).inner (src.v j) / (src.v i).sqrNorm) = e1.mul (e1.inner (src.v j)) := by
        rw [hsn]
        conv_lhs => rw [show (src.v i).mul ((src.v i).inner (src.v j) / (src.v i).norm ^ 2) =
          (e1.mul (src.v i).norm).mul ((e1.mul (src.v i).norm).inner (src.v j) / (src.v i).norm ^ 2) by rw [← a2]]
        ext <;> simp only [zeo] <;> field_simp
      rw [key]
      ext <;> simp only [zeo] <;> ring
  obtain ⟨b1, b2, b3⟩ := normalize_unit hτ (old := o) h2
  set e2 := (o.normalize τ o).2 with he2
  have horth : e1.inner e2 = 0 := by
    have q1 : (src.v i).inner o = 0 := by
      have hn : (src.v i).sqrNorm ≠ 0 := by rw [hsn]; positivity
      have : (src.v i).inner o = (src.v i).inner (src.v j) -
          (src.v i).sqrNorm * ((src.v i).inner (src.v j) / (src.v i).sqrNorm) := by
        rw [ho]; simp only [zeo]; ring
      rw [this, mul_div_cancel₀ _ hn, sub_self]
    rw [a2, b2] at q1
    have : (e1.mul (src.v i).norm).inner (e2.mul o.norm) = ((src.v i).norm * o.norm) * e1.inner e2 := by
      simp only [zeo]; ring
    rw [this] at q1
    exact (mul_eq_zero.1 q1).resolve_left (by positivity)
  have hcross : (e1.outer e2).sqrNorm = 1 := by
    have : (e1.outer e2).sqrNorm = e1.sqrNorm * e2.sqrNorm - e1.inner e2 ^ 2 := by simp only [zeo]; ring
    rw [this, a1, b1, horth]; ring
  have hd : ∀ x, (Mat3.orthoCols τ al src i j k dest).v x = if x = i then e1 else if x = j then e2 else e1.outer e2 := by
    intro x
    unfold Mat3.orthoCols
    dsimp only
    rw [hs0, ← he1, hd1 _ rfl]
    dsimp only
    rw [v_setV _ j, ← he2]
    simp only [v_setV, v_setV_ne _ hik, v_setV_ne _ hij, v_setV_ne _ hjk]
    rw [unit_normalize hτ h3 hcross]
    by_cases hxi : x = i
    · rw [if_pos hxi, hxi, v_setV_ne _ hik, v_setV_ne _ hik, v_setV_ne _ hij, v_setV_ne _ hij, v_setV]
    · rw [if_neg hxi]
      by_cases hxj : x = j
      · rw [if_pos hxj, hxj, v_setV_ne _ hjk, v_setV_ne _ hjk, v_setV]
      · rw [if_neg hxj]
        have : x = k := by omega
        rw [this, v_setV]
  intro d
  rw [hd i, hd j, hd k, if_pos rfl, if_neg hij.symm, if_pos rfl, if_neg hik.symm, if_neg hjk.symm]
  refine ⟨a1, b1, horth, rfl, ⟨_, a3, a2⟩, e1.inner (src.v j), _, b3, ?_⟩
  rw [← b2, ho]
  have key : (src.v i).mul ((src.v i).inner (src.v j) / (src.v i).sqrNorm) = e1.mul (e1.inner (src.v j)) := by
    rw [hsn]
    conv_lhs => rw [show (src.v i).mul ((src.v i).inner (src.v j) / (src.v i).norm ^ 2) =
      (e1.mul (src.v i).norm).mul ((e1.mul (src.v i).norm).inner (src.v j) / (src.v i).norm ^ 2) by rw [← a2]]
    ext <;> simp only [zeo] <;> field_simp
  rw [key]
  ext <;> simp only [zeo] <;> ring

private theorem colIdx_nat (a : ℕ) {i : Fin 3} (h : a % 3 = i.val) : ((a : ℤ).tmod 3) = (i.val : ℤ) ∧
    Mat3.colIdx (i.val : ℤ) = some i := by
  constructor
  · rw [Int.tmod_eq_emod_of_nonneg (by positivity)]; omega
  · fin_cases i <;> rfl

/-- **Orthonormalization.**  For two different axes whose columns are independent beyond the
tolerance, the stored matrix is orthogonal, the first axis keeps its direction, the second one
stays in the half plane it spans with the first, and the determinant is `+1` exactly for the
axis pairs (X,Y), (Y,Z), (Z,X); source and destination may be the same object. -/
theorem C82_orthonormalize (τ : ℝ) (hτ : 0 ≤ τ) (h3 : 3 * τ ^ 2 < 1) (src dest : Mat3 ℝ) (al : Bool)
    (hal : al = true → src = dest) (axis1 axis2 : ℕ) (i j : Fin 3) (hi : axis1 % 3 = i.val) (hj : axis2 % 3 = j.val)
    (hij : i ≠ j) (h1 : ¬ (src.v i).isTol τ)
    (h2 : ¬ ((src.v j).sub ((src.v i).mul ((src.v i).inner (src.v j) / (src.v i).sqrNorm))).isTol τ) :
    ∃ d, Mat3.orthonormalize τ al src axis1 axis2 dest = .ok d ∧ d.toMatrixᵀ * d.toMatrix = 1 ∧
      d.toMatrix.det = (if j = i + 1 then 1 else -1) ∧
      (∃ p, 0 < p ∧ src.v i = (d.v i).mul p) ∧
      ∃ q r, 0 < r ∧ src.v j = ((d.v i).mul q).add ((d.v j).mul r) := by
  obtain ⟨i1, i2⟩ := colIdx_nat axis1 hi
  obtain ⟨j1, j2⟩ := colIdx_nat axis2 hj
  obtain ⟨k, hk, hik, hjk⟩ : ∃ k : Fin 3, Mat3.colIdx ((3 - (i.val : ℤ) - (j.val : ℤ)).tmod 3) = some k ∧ i ≠ k ∧ j ≠ k := by
    clear * - hij
    revert hij
    fin_cases i <;> fin_cases j <;> intro hij <;>
      first
        | exact absurd rfl hij
        | exact ⟨0, rfl, by decide, by decide⟩
        | exact ⟨1, rfl, by decide, by decide⟩
        | exact ⟨2, rfl, by decide, by decide⟩
  have hne : (i.val : ℤ) ≠ (j.val : ℤ) := by
    intro h; exact hij (Fin.ext (by exact_mod_cast h))
  refine ⟨Mat3.orthoCols τ al src i j k dest, ?_, ?_⟩
  · unfold Mat3.orthonormalize
    simp only [i1, j1, if_neg hne, i2, j2, hk]
  obtain ⟨a1, a2, a3, a4, a5⟩ := cols hτ h3 hij hik hjk al hal h1 h2
  generalize Mat3.orthoCols τ al src i j k dest = d at *
  refine ⟨?_, ?_, a5⟩
  · clear a5 h1 h2 hal hi hj i1 i2 j1 j2 hk hne
    obtain ⟨X, Y, Z⟩ := d
    ext r c
    fin_cases i <;> fin_cases j <;> fin_cases k <;>
      first
        | exact absurd rfl hij
        | exact absurd rfl hik
        | exact absurd rfl hjk
        | (simp only [Mat3.v, Fin.zero_eta, Fin.mk_one, Fin.reduceFinMk] at a1 a2 a3 a4
           subst a4
           simp only [zeo] at a1 a2 a3
           fin_cases r <;> fin_cases c <;>
             simp [Mat3.toMatrix, Matrix.mul_apply, Fin.sum_univ_three, zeo] <;> grind)
  · clear a5 h1 h2 hal hi hj i1 i2 j1 j2 hk hne
    obtain ⟨X, Y, Z⟩ := d
    fin_cases i <;> fin_cases j <;> fin_cases k <;>
      first
        | exact absurd rfl hij
        | exact absurd rfl hik
        | exact absurd rfl hjk
        | (simp only [Mat3.v, Fin.zero_eta, Fin.mk_one, Fin.reduceFinMk] at a1 a2 a3 a4
           subst a4
           simp only [zeo] at a1 a2 a3
           simp [Mat3.toMatrix, Matrix.det_fin_three, zeo]
           grind)

/-- The hypotheses are met by a sheared matrix and the axes (Z,Y) = (2,4 mod 3 = 1). -/
example : ∃ d, Mat3.orthonormalize (1/100) false ⟨⟨1, 0, 0⟩, ⟨0, 3, 1⟩, ⟨0, 0, 2⟩⟩ (2 : ℕ) (4 : ℕ) .zero = .ok d ∧
    d.toMatrix.det = -1 := by
  obtain ⟨d, h1, -, h2, -⟩ := C82_orthonormalize (1/100) (by norm_num) (by norm_num)
    ⟨⟨1, 0, 0⟩, ⟨0, 3, 1⟩, ⟨0, 0, 2⟩⟩ .zero false (by simp) 2 4 2 1 rfl rfl (by decide)
    (by simp [Mat3.v, Vec3.isTol, zIsTol]; norm_num)
    (by simp [Mat3.v, Vec3.isTol, zIsTol, zeo]; norm_num)
  exact ⟨d, h1, by rw [h2, if_neg (by decide)]⟩

/-- NULL is returned exactly for axes that are equal modulo 3 (C remainder). -/
theorem C82_orthonormalize_null (τ : ℝ) (al : Bool) (src dest : Mat3 ℝ) (axis1 axis2 : ℤ) :
    Mat3.orthonormalize τ al src axis1 axis2 dest = .null ↔ axis1.tmod 3 = axis2.tmod 3 := by
  unfold Mat3.orthonormalize
  dsimp only
  split_ifs with h
  · simp [h]
  · simp only [h, iff_false]
    split <;> simp

example : Mat3.orthonormalize 0 false .ident 1 4 .ident = .null :=
  (C82_orthonormalize_null _ _ _ _ _ _).2 (by decide)

/-- **Refuted: every axis code names an axis.**  `zAxis` is signed and `%` keeps the sign, so
that a negative axis addresses memory before the matrix. -/
theorem C82_orthonormalize_negative (τ : ℝ) (al : Bool) (src dest : Mat3 ℝ) :
    Mat3.orthonormalize τ al src (-1) 0 dest = .ub := rfl

/-- **Refuted: a matrix that is returned is orthonormal.**  Parallel columns are not reported:
the second and third columns of the returned matrix are zero. -/
theorem C82_orthonormalize_parallel (τ : ℝ) (hτ : 0 ≤ τ) (h3 : τ < 1) (dest : Mat3 ℝ) :
    Mat3.orthonormalize τ false ⟨⟨1, 0, 0⟩, ⟨2, 0, 0⟩, ⟨0, 0, 1⟩⟩ 0 1 dest = .ok ⟨⟨1, 0, 0⟩, .zero, .zero⟩ := by
  have e : Mat3.orthonormalize τ false ⟨⟨1, 0, 0⟩, ⟨2, 0, 0⟩, ⟨0, 0, 1⟩⟩ 0 1 dest =
    .ok (Mat3.orthoCols τ false ⟨⟨1, 0, 0⟩, ⟨2, 0, 0⟩, ⟨0, 0, 1⟩⟩ 0 1 2 dest) := rfl
  rw [e]
  have t1 : ¬ (⟨1, 0, 0⟩ : Vec3 ℝ).isTol τ := by
    rintro ⟨h, -, -⟩; simp [zIsTol] at h; linarith
  have t0 : (Vec3.zero : Vec3 ℝ).isTol τ := ⟨by simpa [zIsTol, zeo] using hτ, by simpa [zIsTol, zeo] using hτ, by simpa [zIsTol, zeo] using hτ⟩
  have n1 : ((⟨1, 0, 0⟩ : Vec3 ℝ).normalize τ dest.x).2 = ⟨1, 0, 0⟩ := by
    rw [Vec3.normalize, if_neg t1]
    have : (⟨1, 0, 0⟩ : Vec3 ℝ).norm = 1 := by rw [Vec3.norm]; simp [zeo]
    simp only [Vec3.normalizeNC, this]; ext <;> simp [zeo]
  have o1 : (⟨2, 0, 0⟩ : Vec3 ℝ).orthogonalize τ ⟨1, 0, 0⟩ = some .zero := by
    rw [Vec3.orthogonalize, if_neg t1]; congr 1; ext <;> simp [zeo]
  have n0 : ((Vec3.zero : Vec3 ℝ).normalize τ .zero).2 = .zero := by rw [Vec3.normalize, if_pos t0]
  have c0 : (⟨1, 0, 0⟩ : Vec3 ℝ).outer .zero = .zero := by ext <;> simp [zeo]
  unfold Mat3.orthoCols
  simp only [Mat3.v, Mat3.setV, Bool.false_eq_true, if_false, n1, o1, n0, c0]

example : (⟨⟨1, 0, 0⟩, .zero, .zero⟩ : Mat3 ℝ).toMatrixᵀ * (⟨⟨1, 0, 0⟩, .zero, .zero⟩ : Mat3 ℝ).toMatrix ≠ 1 := by
  intro h
  have := congrFun (congrFun h 1) 1
  simp [Mat3.toMatrix, Matrix.mul_apply, Fin.sum_univ_three, zeo] at this

/-- `zMat3DIsSymmetric` is symmetry. -/
theorem C82_symmetric (m : Mat3 ℝ) : m.isSymmetric ↔ m.toMatrixᵀ = m.toMatrix := by
  constructor
  · rintro ⟨a, b, c⟩
    ext i j; fin_cases i <;> fin_cases j <;> simp [Mat3.toMatrix, a, b, c]
  · intro h
    have a := congrFun (congrFun h 1) 0
    have b := congrFun (congrFun h 2) 1
    have c := congrFun (congrFun h 0) 2
    simp [Mat3.toMatrix] at a b c
    exact ⟨a, b, c⟩

example : (⟨⟨1, 2, 3⟩, ⟨2, 4, 5⟩, ⟨3, 5, 6⟩⟩ : Mat3 ℝ).isSymmetric ∧
    ¬ (⟨⟨1, 2, 3⟩, ⟨2, 4, 5⟩, ⟨3, 0, 6⟩⟩ : Mat3 ℝ).isSymmetric := by simp [Mat3.isSymmetric]

/-! ## `zMat3DDif` -/

private theorem toAA_of {r : Mat3 ℝ} {n : Vec3 ℝ} {θ : ℝ} (h0 : 0 < θ) (h1 : θ < Real.pi) (hn1 : n.sqrNorm = 1)
    (e1 : (⟨r.y.z - r.z.y, r.z.x - r.x.z, r.x.y - r.y.x⟩ : Vec3 ℝ) = n.mul (2 * Real.sin θ))
    (e3 : r.x.x + r.y.y + r.z.z - 1 = 2 * Real.cos θ) : Mat3.toAA 0 r = n.mul θ := by
  have hs : 0 < Real.sin θ := Real.sin_pos_of_pos_of_lt_pi h0 h1
  have e2 : (⟨r.y.z - r.z.y, r.z.x - r.x.z, r.x.y - r.y.x⟩ : Vec3 ℝ).norm = 2 * Real.sin θ := by
    rw [e1, Vec3.norm_mul, Vec3.norm, hn1, Real.sqrt_one, mul_one, abs_of_pos (by positivity)]
  have e4 : atan2 (⟨r.y.z - r.z.y, r.z.x - r.x.z, r.x.y - r.y.x⟩ : Vec3 ℝ).norm (r.x.x + r.y.y + r.z.z - 1) = θ := by
    rw [e2, e3, atan2_of_polar two_pos (by linarith [Real.pi_pos]) h1.le]
  rw [Mat3.toAA]
  dsimp only
  rw [if_neg (by rw [e4]; simp only [zIsTol, abs_of_pos h0]; exact not_le.2 h0),
    if_pos (by rw [e2]; simp only [zIsTol, abs_of_pos (by positivity : 0 < 2 * Real.sin θ)]; exact not_le.2 (by positivity)),
    e4, e2, e1]
  ext <;> simp only [zeo] <;> field_simp

private theorem aa_back (a : Vec3 ℝ) (h : a.norm < Real.pi) : Mat3.toAA 0 (Mat3.fromAA 0 a) = a := by
  by_cases h0 : a.isTol 0
  · rw [Mat3.fromAA, if_pos h0, (isTol_zero_iff.1 h0), Mat3.toAA]
    have : (⟨(Mat3.ident : Mat3 ℝ).y.z - (Mat3.ident : Mat3 ℝ).z.y, (Mat3.ident : Mat3 ℝ).z.x - (Mat3.ident : Mat3 ℝ).x.z,
      (Mat3.ident : Mat3 ℝ).x.y - (Mat3.ident : Mat3 ℝ).y.x⟩ : Vec3 ℝ).norm = 0 := by
      rw [Vec3.norm]; simp [zeo]
    dsimp only
    rw [this]
    have e := atan2_of_polar (r := 2) (θ := 0) two_pos (by linarith [Real.pi_pos]) Real.pi_pos.le
    simp only [Real.sin_zero, Real.cos_zero, mul_zero, mul_one] at e
    rw [if_pos]
    simp only [zeo]
    norm_num
    rw [e]; simp [zIsTol]
  have hp := Vec3.norm_pos_of_not_isTol le_rfl h0
  have hs : 0 < Real.sin a.norm := Real.sin_pos_of_pos_of_lt_pi hp h
  have hsq := Vec3.norm_sq a
  obtain ⟨n, hn, hn1⟩ : ∃ n : Vec3 ℝ, n = a.mul (1 / a.norm) ∧ n.sqrNorm = 1 := by
    refine ⟨_, rfl, ?_⟩
    have : (a.mul (1 / a.norm)).sqrNorm = a.sqrNorm / a.norm ^ 2 := by simp only [zeo]; field_simp
    rw [this, hsq, div_self]; rw [← hsq]; positivity
  have hna : a = n.mul a.norm := by
    rw [hn]; ext <;> simp only [zeo] <;> field_simp
  have hn2 : n.x * n.x + n.y * n.y + n.z * n.z = 1 := by simpa only [zeo] using hn1
  conv_rhs => rw [hna]
  rw [Mat3.fromAA, if_neg h0]
  dsimp only
  rw [← hn]
  refine toAA_of hp h hn1 ?_ ?_
  · ext <;> simp only [zeo] <;> ring
  · simp only [zeo]
    linear_combination (2 * Real.cos a.norm - 2) * hn2

/-- **Angular velocity between two attitudes** (zero tolerance).  The stored vector, held for
`dt`, turns the first attitude into the second one by at most half a turn; a zero `dt` is
reported, with the unscaled rotation left in the destination. -/
theorem C82_dif (m mnew : Mat3 ℝ) (hm : m.IsRot) (hn : mnew.IsRot) (dt : ℝ) :
    (dt ≠ 0 → ∃ w, Mat3.dif 0 m mnew dt = (true, w) ∧ Mat3.rotCat 0 m w dt = mnew ∧ w.norm * |dt| ≤ Real.pi) ∧
    (dt = 0 → ∃ w, Mat3.dif 0 m mnew dt = (false, w) ∧ Mat3.rot 0 m w = mnew) := by
  have h := (C10_error_cascade mnew m hn hm .zero .zero).1
  have hle : (Mat3.error 0 mnew m).norm ≤ Real.pi := by
    have e : mnew.mulMatT m = mnew.mulMat m.t := by vring
    rw [Mat3.error, e]; exact (C10_length _ (hn.mulMat hm.t)).1
  constructor
  · intro hdt
    have e : ((Mat3.error 0 mnew m).mul (1 / dt)).mul dt = Mat3.error 0 mnew m := by
      ext <;> simp only [zeo] <;> field_simp
    refine ⟨(Mat3.error 0 mnew m).mul (1 / dt), ?_, ?_, ?_⟩
    · rw [Mat3.dif, Vec3.div, if_neg hdt]
    · rw [Mat3.rotCat, e, h]
    · rw [mul_comm, ← Vec3.norm_mul, e]; exact hle
  · intro hdt
    exact ⟨Mat3.error 0 mnew m, by rw [Mat3.dif, Vec3.div, if_pos hdt], h⟩

/-- A constant angular velocity is recovered as long as the step is less than half a turn. -/
theorem C82_dif_recover (m : Mat3 ℝ) (hm : m.IsRot) (w : Vec3 ℝ) (dt : ℝ) (hdt : dt ≠ 0) (h : w.norm * |dt| < Real.pi) :
    Mat3.dif 0 m (Mat3.rotCat 0 m w dt) dt = (true, w) := by
  have e : (Mat3.rotCat 0 m w dt).mulMatT m = Mat3.fromAA 0 (w.mul dt) := by
    have e1 : (Mat3.rotCat 0 m w dt).mulMatT m = (Mat3.fromAA 0 (w.mul dt)).mulMat (m.mulMat m.t) := by
      rw [Mat3.rotCat, Mat3.rot]
      generalize Mat3.fromAA 0 (w.mul dt) = r
      vring
    have e2 : m.mulMat m.t = .ident := by
      have := hm.t.tm
      rwa [show m.t.t = m by vring] at this
    rw [e1, e2]
    generalize Mat3.fromAA 0 (w.mul dt) = r
    vring
  rw [Mat3.dif, Vec3.div, if_neg hdt, Mat3.error, e, aa_back _ (by rw [Vec3.norm_mul, mul_comm]; exact h)]
  congr 1
  ext <;> simp only [zeo] <;> field_simp

example : Mat3.dif 0 .ident (Mat3.rotCat 0 .ident ⟨0, 0, 2⟩ (1/2)) (1/2) = (true, ⟨0, 0, 2⟩) := by
  refine C82_dif_recover _ ?_ _ _ (by norm_num) ?_
  · refine ⟨?_, ?_⟩ <;> rw [(C06_mat3_linear (Mat3.ident : Mat3 ℝ) .ident 0 .zero .zero).2.2.2.2.2.2.2.2.1] <;> simp
  · have : (⟨0, 0, 2⟩ : Vec3 ℝ).norm = 2 := by
      rw [Vec3.norm, show (⟨0, 0, 2⟩ : Vec3 ℝ).sqrNorm = 2 ^ 2 by simp only [zeo]; norm_num, Real.sqrt_sq (by norm_num)]
    rw [this, abs_of_pos (by norm_num)]
    linarith [Real.two_le_pi]

/-! ## Power iteration -/

private theorem start {m : Mat3 ℝ} {u : Fin 3 → Vec3 ℝ} {l : Fin 3 → ℝ} (H : Eigenbasis m u l)
    (h0 : l 0 ≠ 0) {v0 : Vec3 ℝ} (ha : (u 0).inner v0 ≠ 0) (hd : l 1 ≠ l 0 ∧ l 2 ≠ l 0) (ev0 : Vec3 ℝ) (n : ℕ) :
    (m.eigPower 0 v0 ev0 (n + 1)).1 = rayleigh l (fun i => (u i).inner v0) n ∧
    ∃ c, c ≠ 0 ∧ ∀ i, (u i).inner (m.eigPower 0 v0 ev0 (n + 1)).2 = c * (l i ^ (n + 1) * (u i).inner v0) := by
  obtain ⟨h1, c, hc, h2⟩ := eigPowerLoop_spec (a := fun i => (u i).inner v0) H h0 ha hd n 0 1 ev0 v0 1 one_ne_zero
    (by intro i; simp)
  rw [Nat.zero_add] at h1 h2
  refine ⟨h1, ?_⟩
  simp only [Mat3.eigPower, Vec3.div]
  split_ifs with h
  · exact ⟨c, hc, h2⟩
  · refine ⟨c * (1 / (m.eigPowerLoop 0 (n + 1) ev0 v0 1).1), mul_ne_zero hc (one_div_ne_zero h), fun i => ?_⟩
    dsimp only
    have e : ∀ (w : Vec3 ℝ) (q : ℝ), (u i).inner (w.mul q) = q * (u i).inner w := by
      intro w q; simp only [zeo]; ring
    rw [e, h2]; ring

private theorem distinct {l : Fin 3 → ℝ} {ρ : ℝ} (hρ : ρ < 1) (h0 : l 0 ≠ 0)
    (h1 : |l 1| ≤ ρ * |l 0|) (h2 : |l 2| ≤ ρ * |l 0|) : l 1 ≠ l 0 ∧ l 2 ≠ l 0 := by
  have := abs_pos.2 h0
  constructor
  · intro h; rw [h] at h1; nlinarith
  · intro h; rw [h] at h2; nlinarith

/-- **The dominant eigenvalue and its eigenvector** (exact arithmetic, zero tolerance).  When
`m` has an orthonormal eigenbasis, the other eigenvalues are smaller by the factor `ρ < 1` in
absolute value and the start vector has a component along the dominant eigenvector, then the
error of the returned value shrinks with `ρ²` and the slope of the returned vector against the
eigenvector with `ρ` per iteration, whatever `ev` contained. -/
theorem C82_power (m : Mat3 ℝ) (u : Fin 3 → Vec3 ℝ) (l : Fin 3 → ℝ) (H : Eigenbasis m u l) (ρ : ℝ) (hρ : ρ < 1)
    (h0 : l 0 ≠ 0) (h1 : |l 1| ≤ ρ * |l 0|) (h2 : |l 2| ≤ ρ * |l 0|) (v0 ev0 : Vec3 ℝ) (hv : (u 0).inner v0 ≠ 0) (n : ℕ) :
    let r := m.eigPower 0 v0 ev0 (n + 1)
    |r.1 - l 0| * (u 0).inner v0 ^ 2 ≤ 2 * |l 0| * ρ ^ (2 * n) * ((u 1).inner v0 ^ 2 + (u 2).inner v0 ^ 2) ∧
    (u 0).inner r.2 ≠ 0 ∧
    ∀ i, i ≠ 0 → |(u i).inner r.2| * |(u 0).inner v0| ≤ ρ ^ (n + 1) * |(u i).inner v0| * |(u 0).inner r.2| := by
  intro r
  obtain ⟨e1, c, hc, e2⟩ := start H h0 hv (distinct hρ h0 h1 h2) ev0 n
  refine ⟨?_, ?_, ?_⟩
  · rw [e1]
    exact rayleigh_error (a := fun i => (u i).inner v0) hρ.le h0 hv h1 h2 n
  · rw [e2]; exact mul_ne_zero hc (mul_ne_zero (pow_ne_zero _ h0) hv)
  · intro i hi
    have hli : |l i| ≤ ρ * |l 0| := by
      have : i = 1 ∨ i = 2 := by omega
      rcases this with rfl | rfl
      · exact h1
      · exact h2
    rw [e2, e2, abs_mul, abs_mul, abs_mul, abs_mul, abs_pow, abs_pow]
    have := pow_le_pow_left₀ (abs_nonneg (l i)) hli (n + 1)
    rw [mul_pow] at this
    have q : 0 ≤ |c| * |(u i).inner v0| * |(u 0).inner v0| := by positivity
    nlinarith [mul_le_mul_of_nonneg_right this q]

open Filter Topology in
/-- The returned value converges to the dominant eigenvalue. -/
theorem C82_power_limit (m : Mat3 ℝ) (u : Fin 3 → Vec3 ℝ) (l : Fin 3 → ℝ) (H : Eigenbasis m u l)
    (h1 : |l 1| < |l 0|) (h2 : |l 2| < |l 0|) (v0 ev0 : Vec3 ℝ) (hv : (u 0).inner v0 ≠ 0) :
    Tendsto (fun n => (m.eigPower 0 v0 ev0 n).1) atTop (𝓝 (l 0)) := by
  have hl : 0 < |l 0| := lt_of_le_of_lt (abs_nonneg _) h1
  set ρ := max |l 1| |l 2| / |l 0| with hρd
  have hρ0 : 0 ≤ ρ := by rw [hρd]; positivity
  have hρ : ρ < 1 := by rw [hρd, div_lt_one hl]; exact max_lt h1 h2
  have q : ρ * |l 0| = max |l 1| |l 2| := div_mul_cancel₀ _ hl.ne'
  rw [← tendsto_add_atTop_iff_nat 1]
  have hp : 0 < (u 0).inner v0 ^ 2 := by positivity
  set K := 2 * |l 0| * ((u 1).inner v0 ^ 2 + (u 2).inner v0 ^ 2) / (u 0).inner v0 ^ 2 with hK
  have lim : Tendsto (fun n : ℕ => K * (ρ ^ 2) ^ n) atTop (𝓝 0) := by
    have := (tendsto_pow_atTop_nhds_zero_of_lt_one (sq_nonneg ρ) (by nlinarith : ρ ^ 2 < 1)).const_mul K
    rwa [mul_zero] at this
  rw [tendsto_iff_dist_tendsto_zero]
  refine squeeze_zero (fun _ => dist_nonneg) (fun n => ?_) lim
  have := (C82_power m u l H ρ hρ (abs_pos.1 hl) (by rw [q]; exact le_max_left _ _) (by rw [q]; exact le_max_right _ _)
    v0 ev0 hv n).1
  rw [Real.dist_eq, hK, div_mul_eq_mul_div, le_div_iff₀ hp, ← pow_mul]
  linarith

private noncomputable def mA : Mat3 ℝ := ⟨⟨2, 1, 0⟩, ⟨1, 2, 0⟩, ⟨0, 0, -1⟩⟩
private noncomputable def uA (i : Fin 3) : Vec3 ℝ :=
  ![⟨1 / Real.sqrt 2, 1 / Real.sqrt 2, 0⟩, ⟨1 / Real.sqrt 2, -(1 / Real.sqrt 2), 0⟩, ⟨0, 0, 1⟩] i

private theorem basisA : Eigenbasis mA uA ![3, 1, -1] := by
  have hs : (1 / Real.sqrt 2) * (1 / Real.sqrt 2) = 1 / 2 := by
    rw [div_mul_div_comm, one_mul, Real.mul_self_sqrt (by norm_num)]
  generalize hq : 1 / Real.sqrt 2 = q at hs
  constructor
  · intro i j
    fin_cases i <;> fin_cases j <;> simp [uA, Vec3.toFin, dotProduct, Fin.sum_univ_three] <;> simp only [one_div] at hq <;>
      rw [hq] <;> linarith
  · intro i
    ext j
    fin_cases i <;> fin_cases j <;> simp [uA, mA, Mat3.toMatrix, Vec3.toFin, mulVec, dotProduct, Fin.sum_univ_three] <;> ring

/-- A matrix with the eigenvalues 3, 1, -1. -/
example : ∃ n₀, ∀ n ≥ n₀, |(mA.eigPower 0 ⟨1, 0, 1/2⟩ .zero n).1 - 3| < 1 / 1000 := by
  have h := C82_power_limit mA uA ![3, 1, -1] basisA (by simp) (by simp) ⟨1, 0, 1/2⟩ .zero (by simp [uA, zeo])
  rw [Metric.tendsto_atTop] at h
  obtain ⟨n₀, h⟩ := h (1 / 1000) (by norm_num)
  exact ⟨n₀, fun n hn => by simpa [Real.dist_eq] using h n hn⟩

/-- **When the iteration stops by itself** (any tolerance) the returned value is within
`√3 zTOL` of an eigenvalue. -/
theorem C82_power_near (τ : ℝ) (hτ : 0 ≤ τ) (m : Mat3 ℝ) (u : Fin 3 → Vec3 ℝ) (l : Fin 3 → ℝ) (H : Eigenbasis m u l)
    (v0 ev0 : Vec3 ℝ) (hv : ¬ v0.isTol τ) (n : ℕ) (hb : (m.eigPowerLoop τ n ev0 v0 1).2.2.2 = true) :
    ∃ i, |(m.eigPower τ v0 ev0 n).1 - l i| ≤ Real.sqrt 3 * τ := by
  obtain ⟨h1, h2, h3, h4⟩ := eigPowerLoop_break hτ n ev0 v0 1 (.inl hv) hb
  show ∃ i, |(m.eigPowerLoop τ n ev0 v0 1).1 - l i| ≤ _
  generalize m.eigPowerLoop τ n ev0 v0 1 = r at *
  obtain ⟨q, v, e, b⟩ := r
  dsimp only at *
  rw [h2] at h4
  have hres : ((m.mulVec e).cat (-q) e).sqrNorm ≤ 3 * τ ^ 2 := by
    obtain ⟨a, b, c⟩ := h4
    simp only [zIsTol] at a b c
    have ha := sq_le_sq' (abs_le.1 a).1 (abs_le.1 a).2
    have hb := sq_le_sq' (abs_le.1 b).1 (abs_le.1 b).2
    have hc := sq_le_sq' (abs_le.1 c).1 (abs_le.1 c).2
    have : ∀ w : Vec3 ℝ, w.sqrNorm = w.x ^ 2 + w.y ^ 2 + w.z ^ 2 := by intro w; simp only [zeo]; ring
    rw [this]; linarith
  have hcomp : ∀ i, (u i).inner ((m.mulVec e).cat (-q) e) = (l i - q) * (u i).inner e := by
    intro i
    have : (u i).inner ((m.mulVec e).cat (-q) e) = (u i).inner (m.mulVec e) - q * (u i).inner e := by
      simp only [zeo]; ring
    rw [this, H.comp]; ring
  have p1 : ((m.mulVec e).cat (-q) e).sqrNorm = ((l 0 - q) * (u 0).inner e) ^ 2 + ((l 1 - q) * (u 1).inner e) ^ 2 +
      ((l 2 - q) * (u 2).inner e) ^ 2 := by
    rw [Vec3.sqrNorm, H.parseval, hcomp, hcomp, hcomp]; ring
  have p2 : (u 0).inner e ^ 2 + (u 1).inner e ^ 2 + (u 2).inner e ^ 2 = 1 := by
    have := H.parseval e e
    rw [show e.inner e = 1 from h1] at this; linarith
  rw [p1] at hres
  by_contra hn
  push Not at hn
  have big : ∀ i, 3 * τ ^ 2 < (l i - q) ^ 2 := by
    intro i
    have h := hn i
    have h' := pow_lt_pow_left₀ h (by positivity) (two_ne_zero)
    rw [mul_pow, Real.sq_sqrt (by norm_num), sq_abs] at h'
    linarith [sub_sq_comm q (l i)]
  have b0 := big 0; have b1 := big 1; have b2 := big 2
  have g : ∀ i, 3 * τ ^ 2 * (u i).inner e ^ 2 ≤ ((l i - q) * (u i).inner e) ^ 2 := by
    intro i; rw [mul_pow]; exact mul_le_mul_of_nonneg_right (big i).le (sq_nonneg _)
  have g0 := g 0; have g1 := g 1; have g2 := g 2
  -- some component is nonzero
  have : ∃ i, 0 < (u i).inner e ^ 2 := by
    by_contra hno
    push Not at hno
    have := hno 0; have := hno 1; have := hno 2; linarith
  obtain ⟨i, hi⟩ := this
  have gi : 3 * τ ^ 2 * (u i).inner e ^ 2 < ((l i - q) * (u i).inner e) ^ 2 := by
    rw [mul_pow]; exact mul_lt_mul_of_pos_right (big i) hi
  have hsum : 3 * τ ^ 2 * ((u 0).inner e ^ 2 + (u 1).inner e ^ 2 + (u 2).inner e ^ 2) = 3 * τ ^ 2 := by rw [p2, mul_one]
  fin_cases i <;> simp only [Fin.zero_eta, Fin.mk_one, Fin.reduceFinMk] at gi <;> linarith

/-- The iteration stops by itself at once from an eigenvector. -/
example : (mA.eigPowerLoop (1/100) 1 .zero ⟨0, 0, 1⟩ 1).2.2.2 = true := by
  have n1 : ((⟨0, 0, 1⟩ : Vec3 ℝ).normalize (1/100) .zero).2 = ⟨0, 0, 1⟩ :=
    unit_normalize (by norm_num) (by norm_num) (by simp [zeo]) _
  rw [Mat3.eigPowerLoop]
  rw [n1, if_pos]
  simp [mA, Vec3.isTol, zIsTol, zeo]

private noncomputable def mB : Mat3 ℝ := ⟨⟨1, 0, 0⟩, ⟨0, -1, 0⟩, .zero⟩

private theorem loopB {τ : ℝ} (hτ : 0 ≤ τ) (h4 : τ < 1 / 4) (n : ℕ) : ∀ (s : ℝ) (ev v : Vec3 ℝ) (q : ℝ),
    s * s = 1 → ¬ v.isTol τ → (v.normalize τ ev).2 = ⟨2 / Real.sqrt 5, s * (1 / Real.sqrt 5), 0⟩ →
    (mB.eigPowerLoop τ (n + 1) ev v q).1 = 3 / 5 := by
  have h5 : Real.sqrt 5 * Real.sqrt 5 = 5 := Real.mul_self_sqrt (by norm_num)
  have hpos : 0 < Real.sqrt 5 := Real.sqrt_pos.2 (by norm_num)
  have h94 : Real.sqrt 5 < 3 := by nlinarith
  have key : ∀ s : ℝ, s * s = 1 →
      (⟨2 / Real.sqrt 5, s * (1 / Real.sqrt 5), 0⟩ : Vec3 ℝ).inner (mB.mulVec ⟨2 / Real.sqrt 5, s * (1 / Real.sqrt 5), 0⟩) = 3 / 5 := by
    intro s hs
    simp only [mB, zeo]
    field_simp
    rw [show Real.sqrt 5 ^ 2 = 5 by rw [sq, h5]]
    nlinarith
  have nb : ∀ s : ℝ, s * s = 1 → ¬ ((mB.mulVec ⟨2 / Real.sqrt 5, s * (1 / Real.sqrt 5), 0⟩).cat (-(3 / 5))
      ⟨2 / Real.sqrt 5, s * (1 / Real.sqrt 5), 0⟩).isTol τ := by
    rintro s hs ⟨h, -, -⟩
    simp only [zIsTol, mB, zeo] at h
    have := (abs_le.1 h).2
    have e : 1 * (2 / Real.sqrt 5) + 0 * (s * (1 / Real.sqrt 5)) + 0 * 0 + -(3 / 5) * (2 / Real.sqrt 5) = 4 / 5 / Real.sqrt 5 := by
      field_simp; ring
    rw [e, div_le_iff₀ hpos] at this
    nlinarith
  induction n with
  | zero =>
    intro s ev v q hs hv hn
    rw [Mat3.eigPowerLoop]
    rw [hn, key s hs, if_neg (nb s hs)]
    rfl
  | succ n ih =>
    intro s ev v q hs hv hn
    rw [Mat3.eigPowerLoop]
    rw [hn, key s hs, if_neg (nb s hs)]
    have e : mB.mulVec ⟨2 / Real.sqrt 5, s * (1 / Real.sqrt 5), 0⟩ = ⟨2 / Real.sqrt 5, (-s) * (1 / Real.sqrt 5), 0⟩ := by
      ext <;> simp only [mB, zeo] <;> ring
    have h1 : (⟨2 / Real.sqrt 5, (-s) * (1 / Real.sqrt 5), 0⟩ : Vec3 ℝ).sqrNorm = 1 := by
      simp only [zeo]; field_simp; rw [show Real.sqrt 5 ^ 2 = 5 by rw [sq, h5]]; nlinarith
    rw [e]
    exact ih (-s) _ _ _ (by rw [neg_mul_neg, hs]) (unit_not_tol hτ (by nlinarith) h1) (unit_normalize hτ (by nlinarith) h1 _)

/-- **Refuted: the value returned after many iterations is an eigenvalue.**  For the symmetric
matrix diag(1,-1,0) and the start vector (1/2,1/4,0) every number of iterations returns 3/5,
which is no eigenvalue, without any sign of failure. -/
theorem C82_power_false (τ : ℝ) (hτ : 0 ≤ τ) (h4 : τ < 1 / 4) (ev0 : Vec3 ℝ) (n : ℕ) :
    (Mat3.eigPower τ ⟨⟨1, 0, 0⟩, ⟨0, -1, 0⟩, .zero⟩ ⟨1 / 2, 1 / 4, 0⟩ ev0 (n + 1)).1 = 3 / 5 ∧
    ∀ w : Vec3 ℝ, (⟨⟨1, 0, 0⟩, ⟨0, -1, 0⟩, .zero⟩ : Mat3 ℝ).toMatrix *ᵥ w.toFin = (3 / 5 : ℝ) • w.toFin → w = .zero := by
  have h5 : Real.sqrt 5 * Real.sqrt 5 = 5 := Real.mul_self_sqrt (by norm_num)
  have hpos : 0 < Real.sqrt 5 := Real.sqrt_pos.2 (by norm_num)
  have hv : ¬ (⟨1 / 2, 1 / 4, 0⟩ : Vec3 ℝ).isTol τ := by
    rintro ⟨h, -, -⟩
    simp only [zIsTol] at h
    rw [abs_of_pos (by norm_num)] at h; linarith
  constructor
  · refine loopB hτ h4 n 1 ev0 ⟨1 / 2, 1 / 4, 0⟩ 1 (by norm_num) hv ?_
    rw [Vec3.normalize, if_neg hv]
    have e : (⟨1 / 2, 1 / 4, 0⟩ : Vec3 ℝ).norm = Real.sqrt 5 / 4 := by
      rw [Vec3.norm, show (⟨1 / 2, 1 / 4, 0⟩ : Vec3 ℝ).sqrNorm = (Real.sqrt 5 / 4) ^ 2 by
        simp only [zeo]; rw [div_pow, sq (Real.sqrt 5), h5]; norm_num, Real.sqrt_sq (by positivity)]
    simp only [Vec3.normalizeNC, e]
    ext <;> simp only [zeo] <;> field_simp <;> norm_num
  · intro w h
    have a := congrFun h 0
    have b := congrFun h 1
    have c := congrFun h 2
    simp [Mat3.toMatrix, Vec3.toFin, mulVec, dotProduct, Fin.sum_univ_three, Vec3.zero] at a b c
    ext <;> simp only [Vec3.zero] <;> linarith

private theorem inv_basis {m old : Mat3 ℝ} {u : Fin 3 → Vec3 ℝ} {l : Fin 3 → ℝ} (H : Eigenbasis m u l) (hl : ∀ i, l i ≠ 0) :
    ∃ im, Mat3.inv 0 m old = (true, some im) ∧ Eigenbasis im u (fun i => 1 / l i) := by
  have inj : ∀ w : Vec3 ℝ, m.mulVec w = .zero → w = .zero := by
    intro w hw
    have z : ∀ i, (u i).inner w = 0 := by
      intro i
      have := H.comp i w
      rw [hw, show (u i).inner Vec3.zero = 0 by simp only [zeo]; ring] at this
      exact (mul_eq_zero.1 this.symm).resolve_left (hl i)
    rw [H.complete w, z, z, z]
    ext <;> simp only [zeo] <;> ring
  have hdet : m.toMatrix.det ≠ 0 := by
    intro h0
    obtain ⟨w, hw0, hw⟩ := Matrix.exists_mulVec_eq_zero_iff.2 h0
    apply hw0
    have := inj ⟨w 0, w 1, w 2⟩ (by
      have a := congrFun hw 0
      have b := congrFun hw 1
      have c := congrFun hw 2
      simp [Mat3.toMatrix, mulVec, dotProduct, Fin.sum_univ_three] at a b c
      ext <;> simp only [zeo] <;> linarith)
    rw [Vec3.ext_iff] at this
    ext i; fin_cases i
    · exact this.1
    · exact this.2.1
    · exact this.2.2
  have hbal := (C05_balance_defined m).2 hdet
  obtain ⟨⟨mb, sr, sc⟩, hb⟩ := Option.ne_none_iff_exists'.1 hbal
  obtain ⟨hr, hc, hm⟩ := Mat3.balance_spec hb
  have hmb : mb.det ≠ 0 := by
    intro h0
    apply hdet
    rw [hm, det_mul, det_mul, ← (C06_mat3_det_adj mb mb .zero).1, h0]; simp
  obtain ⟨im, h1, h2, h3⟩ := C05_inv_partial 0 le_rfl m old mb sr sc hb (abs_pos.2 hmb)
  refine ⟨im, h1, H.orth, fun i => ?_⟩
  have e := H.eig i
  have e2 := congrArg (fun w => im.toMatrix *ᵥ w) e
  simp only [mulVec_mulVec, h3, one_mulVec, mulVec_smul] at e2
  show _ = (1 / l i) • _
  rw [one_div, eq_inv_smul_iff₀ (hl i)]
  exact e2.symm

open Filter Topology in
/-- **The smallest eigenvalue** (exact arithmetic, zero tolerance): for a regular matrix with
an orthonormal eigenbasis whose first eigenvalue is strictly the smallest in absolute value, the
returned value converges to it. -/
theorem C82_power_inv (m old : Mat3 ℝ) (u : Fin 3 → Vec3 ℝ) (l : Fin 3 → ℝ) (H : Eigenbasis m u l) (h0 : l 0 ≠ 0)
    (h1 : |l 0| < |l 1|) (h2 : |l 0| < |l 2|) (v0 ev0 : Vec3 ℝ) (hv : (u 0).inner v0 ≠ 0) :
    ∃ f : ℕ → ℝ × Vec3 ℝ, (∀ n, Mat3.eigPowerInv 0 m old v0 ev0 n = some (f n)) ∧
      Tendsto (fun n => (f n).1) atTop (𝓝 (l 0)) := by
  have p0 := abs_pos.2 h0
  have hl : ∀ i, l i ≠ 0 := by
    intro i
    fin_cases i
    · exact h0
    · exact abs_pos.1 (p0.trans h1)
    · exact abs_pos.1 (p0.trans h2)
  obtain ⟨im, hi, Hi⟩ := inv_basis (old := old) H hl
  refine ⟨fun n => (1 / (im.eigPower 0 v0 ev0 n).1, (im.eigPower 0 v0 ev0 n).2), fun n => ?_, ?_⟩
  · simp only [Mat3.eigPowerInv, hi]
  · have := C82_power_limit im u _ Hi (by simp only [abs_div, abs_one]; exact one_div_lt_one_div_of_lt p0 h1)
      (by simp only [abs_div, abs_one]; exact one_div_lt_one_div_of_lt p0 h2) v0 ev0 hv
    have := this.inv₀ (one_div_ne_zero h0)
    simpa [one_div] using this

/-- The hypotheses are met by diag(1,2,-3). -/
example : Eigenbasis (⟨⟨1, 0, 0⟩, ⟨0, 2, 0⟩, ⟨0, 0, -3⟩⟩ : Mat3 ℝ) ![⟨1, 0, 0⟩, ⟨0, 1, 0⟩, ⟨0, 0, 1⟩] ![1, 2, -3] := by
  constructor
  · intro i j
    fin_cases i <;> fin_cases j <;> simp [Vec3.toFin, dotProduct, Fin.sum_univ_three]
  · intro i
    ext j
    fin_cases i <;> fin_cases j <;> simp [Mat3.toMatrix, Vec3.toFin, mulVec, dotProduct, Fin.sum_univ_three]

/-- **Refuted: a singular matrix is reported.**  `zMat3DInv` never returns NULL, so that the
value returned for the singular matrix of ones, whose eigenvalues are 0 and 3, is decided by
what the local variable `m_inv` happened to contain. -/
theorem C82_power_inv_singular (τ : ℝ) (hτ : 0 ≤ τ) (k : ℝ) (ev0 v0 : Vec3 ℝ)
    (hv : ¬ v0.isTol τ) :
    (Mat3.eigPowerInv τ ⟨⟨1, 1, 1⟩, ⟨1, 1, 1⟩, ⟨1, 1, 1⟩⟩ ⟨⟨k, 0, 0⟩, ⟨0, k, 0⟩, ⟨0, 0, k⟩⟩ v0 ev0 1).map Prod.fst =
      some (1 / k) := by
  have hb : (⟨⟨1, 1, 1⟩, ⟨1, 1, 1⟩, ⟨1, 1, 1⟩⟩ : Mat3 ℝ).balance =
      some (⟨⟨1, 1, 1⟩, ⟨1, 1, 1⟩, ⟨1, 1, 1⟩⟩, ⟨1, 1, 1⟩, ⟨1, 1, 1⟩) := by
    have hm : Mat3.maxAbs (1 : ℝ) 1 1 = 1 := by simp [Mat3.maxAbs, Mat3.minMaxIndex, zeo]
    simp [Mat3.balance, Mat3.allNonzero, Mat3.rowScale, Mat3.colScale, Mat3.rowBalancing, Mat3.colBalancing, zeo, hm]
  have hi : (Mat3.inv τ (⟨⟨1, 1, 1⟩, ⟨1, 1, 1⟩, ⟨1, 1, 1⟩⟩ : Mat3 ℝ) ⟨⟨k, 0, 0⟩, ⟨0, k, 0⟩, ⟨0, 0, k⟩⟩).2 =
      some ⟨⟨k, 0, 0⟩, ⟨0, k, 0⟩, ⟨0, 0, k⟩⟩ := by
    rw [Mat3.inv, hb]
    have : zIsTol (⟨⟨1, 1, 1⟩, ⟨1, 1, 1⟩, ⟨1, 1, 1⟩⟩ : Mat3 ℝ).det τ := by
      simp only [zIsTol, zeo]; norm_num; exact hτ
    simp only [Mat3.invCore, if_pos this]
    simp [Mat3.colBalancing, Mat3.rowBalancing, zeo]
  obtain ⟨n1, -, -⟩ := normalize_unit hτ (old := ev0) hv
  simp only [Mat3.eigPowerInv, hi, Mat3.eigPower, Mat3.eigPowerLoop, Option.map_some]
  generalize (v0.normalize τ ev0).2 = e at *
  have e1 : e.inner ((⟨⟨k, 0, 0⟩, ⟨0, k, 0⟩, ⟨0, 0, k⟩⟩ : Mat3 ℝ).mulVec e) = k := by
    have : e.inner ((⟨⟨k, 0, 0⟩, ⟨0, k, 0⟩, ⟨0, 0, k⟩⟩ : Mat3 ℝ).mulVec e) = k * e.sqrNorm := by simp only [zeo]; ring
    rw [this, n1, mul_one]
  split_ifs <;> simp only [e1]

end Zeo
