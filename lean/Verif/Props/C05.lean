import Verif.Props.C06
import Mathlib.Tactic.NormNum

/-! # C05: 3x3 inverse with balancing -/

namespace Zeo
open Matrix
variable {K : Type*} [Field K] [LinearOrder K] [IsStrictOrderedRing K]

theorem Mat3.maxAbs_ge (a b c : K) :
    |a| ≤ Mat3.maxAbs a b c ∧ |b| ≤ Mat3.maxAbs a b c ∧ |c| ≤ Mat3.maxAbs a b c := by
  simp only [Mat3.maxAbs, Mat3.minMaxIndex, gt_iff_lt]
  have e0 : (⟨|a|, |b|, |c|⟩ : Vec3 K).e 0 = |a| := rfl
  have e1 : (⟨|a|, |b|, |c|⟩ : Vec3 K).e 1 = |b| := rfl
  have e2 : (⟨|a|, |b|, |c|⟩ : Vec3 K).e 2 = |c| := rfl
  by_cases h1 : |b| < |a|
  · simp only [e0, e1, e2, if_pos h1]
    split_ifs <;> simp only [e0, e1, e2, not_lt] at * <;>
      refine ⟨?_, ?_, ?_⟩ <;> first | exact le_rfl | linarith
  · simp only [e0, e1, e2, if_neg h1]
    rw [not_lt] at h1
    split_ifs <;> simp only [e0, e1, e2, not_lt] at * <;>
      refine ⟨?_, ?_, ?_⟩ <;> first | exact le_rfl | linarith

theorem Mat3.maxAbs_eq_zero (a b c : K) : Mat3.maxAbs a b c = 0 ↔ a = 0 ∧ b = 0 ∧ c = 0 := by
  constructor
  · intro h
    obtain ⟨h1, h2, h3⟩ := Mat3.maxAbs_ge a b c
    rw [h] at h1 h2 h3
    exact ⟨abs_nonpos_iff.1 h1, abs_nonpos_iff.1 h2, abs_nonpos_iff.1 h3⟩
  · rintro ⟨rfl, rfl, rfl⟩
    simp only [Mat3.maxAbs, Mat3.minMaxIndex, zeo]
    split_ifs <;> simp [zeo]

/-- What the balancing step produces: `m = D(sr) mb D(sc)` with invertible diagonal scales. -/
theorem Mat3.balance_spec {m mb : Mat3 K} {sr sc : Vec3 K} (h : m.balance = some (mb, sr, sc)) :
    (sr.x ≠ 0 ∧ sr.y ≠ 0 ∧ sr.z ≠ 0) ∧ (sc.x ≠ 0 ∧ sc.y ≠ 0 ∧ sc.z ≠ 0) ∧
    m.toMatrix = diagonal sr.toFin * mb.toMatrix * diagonal sc.toFin := by
  unfold Mat3.balance at h
  split_ifs at h with h1 h2
  · push Not at h1
    obtain ⟨⟨r1, r2, r3⟩, c1, c2, c3⟩ := h1
    simp only [Option.some.injEq, Prod.mk.injEq] at h
    obtain ⟨rfl, rfl, rfl⟩ := h
    have hc : (Mat3.colScale (Mat3.rowBalancing m m.rowScale)).x ≠ 0 ∧
        (Mat3.colScale (Mat3.rowBalancing m m.rowScale)).y ≠ 0 ∧
        (Mat3.colScale (Mat3.rowBalancing m m.rowScale)).z ≠ 0 := by
      refine ⟨fun e => c1 ?_, fun e => c2 ?_, fun e => c3 ?_⟩ <;>
      · simp only [Mat3.colScale, Mat3.rowBalancing, zeo, Mat3.maxAbs_eq_zero, div_eq_zero_iff, r1, r2, r3,
          or_false] at e ⊢
        exact e
    refine ⟨⟨r1, r2, r3⟩, hc, ?_⟩
    generalize hs : Mat3.rowScale m = s at *
    generalize hcs : Mat3.colScale (Mat3.rowBalancing m s) = c at *
    obtain ⟨q1, q2, q3⟩ := hc
    ext i j; fin_cases i <;> fin_cases j <;>
      simp [Mat3.toMatrix, Mat3.colBalancing, Mat3.rowBalancing, zeo, Vec3.toFin, mul_apply,
        Fin.sum_univ_three, diagonal_apply] <;> field_simp
  · push Not at h1
    obtain ⟨⟨r1, r2, r3⟩, c1, c2, c3⟩ := h1
    simp only [Option.some.injEq, Prod.mk.injEq] at h
    obtain ⟨rfl, rfl, rfl⟩ := h
    have hc : (Mat3.rowScale (Mat3.colBalancing m m.colScale)).x ≠ 0 ∧
        (Mat3.rowScale (Mat3.colBalancing m m.colScale)).y ≠ 0 ∧
        (Mat3.rowScale (Mat3.colBalancing m m.colScale)).z ≠ 0 := by
      refine ⟨fun e => r1 ?_, fun e => r2 ?_, fun e => r3 ?_⟩ <;>
      · simp only [Mat3.rowScale, Mat3.colBalancing, zeo, Mat3.maxAbs_eq_zero, div_eq_zero_iff, c1, c2, c3,
          or_false] at e ⊢
        exact e
    refine ⟨hc, ⟨c1, c2, c3⟩, ?_⟩
    generalize hs : Mat3.colScale m = s at *
    generalize hcs : Mat3.rowScale (Mat3.colBalancing m s) = c at *
    obtain ⟨q1, q2, q3⟩ := hc
    ext i j; fin_cases i <;> fin_cases j <;>
      simp [Mat3.toMatrix, Mat3.colBalancing, Mat3.rowBalancing, zeo, Vec3.toFin, mul_apply,
        Fin.sum_univ_three, diagonal_apply] <;> field_simp

/-- Balancing divides by zero exactly when a row or a column vanishes; in particular it is
well defined for every matrix with non-zero determinant. -/
theorem C05_balance_defined (m : Mat3 K) :
    (m.balance = none ↔ (∃ i, ∀ j, m.toMatrix i j = 0) ∨ (∃ j, ∀ i, m.toMatrix i j = 0)) ∧
    (m.toMatrix.det ≠ 0 → m.balance ≠ none) := by
  have h : m.balance = none ↔ (∃ i, ∀ j, m.toMatrix i j = 0) ∨ (∃ j, ∀ i, m.toMatrix i j = 0) := by
    have e : m.balance = none ↔ (¬ Mat3.allNonzero m.rowScale ∨ ¬ Mat3.allNonzero m.colScale) := by
      unfold Mat3.balance; split_ifs <;> simp_all
    rw [e]
    simp only [Mat3.allNonzero, Mat3.rowScale, Mat3.colScale, not_and_or, not_not, Mat3.maxAbs_eq_zero, zeo,
      Fin.exists_fin_succ, Fin.forall_fin_succ, Mat3.toMatrix]
    simp
  refine ⟨h, fun hd hn => hd ?_⟩
  rcases h.1 hn with ⟨i, hi⟩ | ⟨j, hj⟩
  · exact det_eq_zero_of_row_eq_zero i hi
  · exact det_eq_zero_of_column_eq_zero j hj

private theorem diag_inv {s : Vec3 K} (h : s.x ≠ 0 ∧ s.y ≠ 0 ∧ s.z ≠ 0) :
    diagonal s.toFin * diagonal (fun i => (s.toFin i)⁻¹) = 1 ∧
    diagonal (fun i => (s.toFin i)⁻¹) * diagonal s.toFin = 1 := by
  obtain ⟨h1, h2, h3⟩ := h
  constructor <;> rw [diagonal_mul_diagonal, ← diagonal_one] <;> congr 1 <;> funext i <;> fin_cases i <;>
    simp [Vec3.toFin, h1, h2, h3]

private theorem rowBal_toMatrix (m : Mat3 K) (s : Vec3 K) :
    (m.rowBalancing s).toMatrix = diagonal (fun i => (s.toFin i)⁻¹) * m.toMatrix := by
  ext i j; fin_cases i <;> fin_cases j <;>
    simp [Mat3.toMatrix, Mat3.rowBalancing, zeo, Vec3.toFin, div_eq_inv_mul]
private theorem colBal_toMatrix (m : Mat3 K) (s : Vec3 K) :
    (m.colBalancing s).toMatrix = m.toMatrix * diagonal (fun i => (s.toFin i)⁻¹) := by
  ext i j; fin_cases i <;> fin_cases j <;>
    simp [Mat3.toMatrix, Mat3.colBalancing, zeo, Vec3.toFin, div_eq_mul_inv]
private theorem dem_toFin (v s : Vec3 K) :
    (v.dem s).toFin = diagonal (fun i => (s.toFin i)⁻¹) *ᵥ v.toFin := by
  ext i; fin_cases i <;> simp [zeo, Vec3.toFin, mulVec_diagonal, div_eq_inv_mul, mulVec, dotProduct,
    Fin.sum_univ_three, diagonal_apply]

/-- Inverse of the balanced matrix. -/
private theorem core_inv {mb : Mat3 K} (hd : mb.det ≠ 0) :
    mb.toMatrix * ((mb.det)⁻¹ • mb.toMatrix.adjugate) = 1 ∧
    ((mb.det)⁻¹ • mb.toMatrix.adjugate) * mb.toMatrix = 1 := by
  have e := (C06_mat3_det_adj mb mb .zero).1
  constructor
  · rw [Matrix.mul_smul, mul_adjugate, ← e, smul_smul, inv_mul_cancel₀ hd, one_smul]
  · rw [Matrix.smul_mul, adjugate_mul, ← e, smul_smul, inv_mul_cancel₀ hd, one_smul]

/-- **Inverse.**  Whenever the determinant of the balanced matrix exceeds the tolerance, the
stored matrix is the two-sided inverse, whatever the destination held. -/
theorem C05_inv_partial (τ : K) (hτ : 0 ≤ τ) (m old mb : Mat3 K) (sr sc : Vec3 K)
    (hb : m.balance = some (mb, sr, sc)) (hd : τ < |mb.det|) :
    ∃ im, Mat3.inv τ m old = (true, some im) ∧ m.toMatrix * im.toMatrix = 1 ∧
      im.toMatrix * m.toMatrix = 1 := by
  obtain ⟨hr, hc, hm⟩ := Mat3.balance_spec hb
  have hne : mb.det ≠ 0 := fun e => by rw [e, abs_zero] at hd; exact absurd hd (not_lt.2 hτ)
  have ht : ¬ zIsTol mb.det τ := not_le.2 hd
  refine ⟨_, by rw [Mat3.inv, hb], ?_⟩
  simp only [Mat3.invCore, if_neg ht]
  rw [colBal_toMatrix, rowBal_toMatrix, (C06_mat3_linear mb.adj mb (1 / mb.det) sr sr).2.2.2.1,
    (C06_mat3_det_adj mb mb .zero).2.1, hm, one_div]
  obtain ⟨i1, i2⟩ := core_inv hne
  obtain ⟨r1, r2⟩ := diag_inv hr
  obtain ⟨c1, c2⟩ := diag_inv hc
  generalize (mb.det)⁻¹ • mb.toMatrix.adjugate = I at *
  generalize mb.toMatrix = M at *
  constructor
  · calc diagonal sr.toFin * M * diagonal sc.toFin *
          (diagonal (fun i => (sc.toFin i)⁻¹) * I * diagonal fun i => (sr.toFin i)⁻¹)
        = diagonal sr.toFin * (M * ((diagonal sc.toFin * diagonal (fun i => (sc.toFin i)⁻¹)) * I)) *
          diagonal fun i => (sr.toFin i)⁻¹ := by simp only [Matrix.mul_assoc]
      _ = 1 := by rw [c1, Matrix.one_mul, i1, Matrix.mul_one, r1]
  · calc (diagonal (fun i => (sc.toFin i)⁻¹) * I * diagonal fun i => (sr.toFin i)⁻¹) *
          (diagonal sr.toFin * M * diagonal sc.toFin)
        = diagonal (fun i => (sc.toFin i)⁻¹) * (I * ((diagonal (fun i => (sr.toFin i)⁻¹) *
          diagonal sr.toFin) * M)) * diagonal sc.toFin := by simp only [Matrix.mul_assoc]
      _ = 1 := by rw [r2, Matrix.one_mul, i2, Matrix.mul_one, c2]

/-- **Linear system**, same condition: the stored vector solves `m x = v` (and is the only
solution, `m` being invertible). -/
theorem C05_solve_vec_partial (τ : K) (hτ : 0 ≤ τ) (m mb : Mat3 K) (sr sc v old : Vec3 K)
    (hb : m.balance = some (mb, sr, sc)) (hd : τ < |mb.det|) :
    ∃ x, Mat3.mulInvVec τ m v old = (true, some x) ∧ m.toMatrix *ᵥ x.toFin = v.toFin := by
  obtain ⟨hr, hc, hm⟩ := Mat3.balance_spec hb
  have hne : mb.det ≠ 0 := fun e => by rw [e, abs_zero] at hd; exact absurd hd (not_lt.2 hτ)
  have ht : ¬ zIsTol mb.det τ := not_le.2 hd
  refine ⟨_, by rw [Mat3.mulInvVec, hb], ?_⟩
  simp only [Mat3.mulInvVecCore, if_neg ht, if_true]
  have hmul : ∀ (u : Vec3 K) (k : K), (u.mul k).toFin = k • u.toFin := by
    intro u k; ext i; fin_cases i <;> simp [Vec3.toFin, zeo]
  rw [dem_toFin, hmul, (C06_mat3_det_adj mb mb _).2.2.1, dem_toFin, hm, one_div]
  obtain ⟨i1, i2⟩ := core_inv hne
  obtain ⟨r1, r2⟩ := diag_inv hr
  obtain ⟨c1, c2⟩ := diag_inv hc
  rw [← smul_mulVec]
  generalize (mb.det)⁻¹ • mb.toMatrix.adjugate = I at *
  generalize mb.toMatrix = M at *
  simp only [mulVec_mulVec]
  have e : diagonal sr.toFin * M * diagonal sc.toFin * diagonal (fun i => (sc.toFin i)⁻¹) *
      I * diagonal (fun i => (sr.toFin i)⁻¹) = 1 := by
    calc _ = diagonal sr.toFin * (M * ((diagonal sc.toFin * diagonal (fun i => (sc.toFin i)⁻¹)) * I)) *
          diagonal (fun i => (sr.toFin i)⁻¹) := by simp only [Matrix.mul_assoc]
      _ = 1 := by rw [c1, Matrix.one_mul, i1, Matrix.mul_one, r1]
  simp only [← Matrix.mul_assoc]
  rw [e, one_mulVec]

/-- **Matrix equation**, same condition. -/
theorem C05_solve_mat_partial (τ : K) (hτ : 0 ≤ τ) (m mb b old : Mat3 K) (sr sc : Vec3 K)
    (hb : m.balance = some (mb, sr, sc)) (hd : τ < |mb.det|) :
    ∃ x, Mat3.mulInvMat τ m b old = (true, some x) ∧ m.toMatrix * x.toMatrix = b.toMatrix := by
  obtain ⟨hr, hc, hm⟩ := Mat3.balance_spec hb
  have hne : mb.det ≠ 0 := fun e => by rw [e, abs_zero] at hd; exact absurd hd (not_lt.2 hτ)
  have ht : ¬ zIsTol mb.det τ := not_le.2 hd
  refine ⟨_, by rw [Mat3.mulInvMat, hb], ?_⟩
  simp only [Mat3.mulInvMatCore, if_neg ht, if_true]
  rw [rowBal_toMatrix, (C06_mat3_linear _ mb (1 / mb.det) sr sr).2.2.2.1,
    (C06_mat3_det_adj mb _ .zero).2.2.2.1, rowBal_toMatrix, hm, one_div, ← Matrix.smul_mul]
  obtain ⟨i1, i2⟩ := core_inv hne
  obtain ⟨r1, r2⟩ := diag_inv hr
  obtain ⟨c1, c2⟩ := diag_inv hc
  generalize (mb.det)⁻¹ • mb.toMatrix.adjugate = I at *
  generalize mb.toMatrix = M at *
  calc _ = diagonal sr.toFin * (M * ((diagonal sc.toFin * diagonal (fun i => (sc.toFin i)⁻¹)) * I)) *
          diagonal (fun i => (sr.toFin i)⁻¹) * b.toMatrix := by simp only [Matrix.mul_assoc]
      _ = b.toMatrix := by rw [c1, Matrix.one_mul, i1, Matrix.mul_one, r1, Matrix.one_mul]

/-- With zero tolerance (exact arithmetic) the three functions are right for **every**
non-singular matrix. -/
theorem C05_exact (m old b : Mat3 K) (v vold : Vec3 K) (hm : m.toMatrix.det ≠ 0) :
    (∃ im, Mat3.inv 0 m old = (true, some im) ∧ m.toMatrix * im.toMatrix = 1 ∧
      im.toMatrix * m.toMatrix = 1) ∧
    (∃ x, Mat3.mulInvVec 0 m v vold = (true, some x) ∧ m.toMatrix *ᵥ x.toFin = v.toFin) ∧
    (∃ x, Mat3.mulInvMat 0 m b old = (true, some x) ∧ m.toMatrix * x.toMatrix = b.toMatrix) := by
  have hb := (C05_balance_defined m).2 hm
  obtain ⟨⟨mb, sr, sc⟩, hb⟩ := Option.ne_none_iff_exists'.1 hb
  have hne : mb.det ≠ 0 := by
    intro e
    apply hm
    obtain ⟨-, -, h⟩ := Mat3.balance_spec hb
    rw [h, det_mul, det_mul, ← (C06_mat3_det_adj mb mb .zero).1, e, mul_zero, zero_mul]
  have hd : 0 < |mb.det| := abs_pos.2 hne
  exact ⟨C05_inv_partial 0 le_rfl m old mb sr sc hb hd, C05_solve_vec_partial 0 le_rfl m mb sr sc v vold hb hd,
    C05_solve_mat_partial 0 le_rfl m mb b old sr sc hb hd⟩

/-- **Violation.**  The documented NULL on a singular matrix is never returned: all three
functions return the output pointer for every matrix. -/
theorem C05_singular_not_reported (τ : K) (m b old : Mat3 K) (v vold : Vec3 K) :
    (Mat3.inv τ m old).1 = true ∧ (Mat3.mulInvVec τ m v vold).1 = true ∧
    (Mat3.mulInvMat τ m b old).1 = true := ⟨rfl, rfl, rfl⟩

/-- A singular matrix with no zero row or column for which "inverse" silently returns rescaled
rubbish from the destination buffer. -/
theorem C05_singular_garbage :
    ∃ m old im : Mat3 ℚ, m.toMatrix.det = 0 ∧ Mat3.inv (1/10^12) m old = (true, some im) ∧
      m.toMatrix * im.toMatrix ≠ 1 := by
  have hd : (Mat3.create 1 1 1 1 1 1 1 1 1 : Mat3 ℚ).toMatrix.det = 0 := by
    rw [det_fin_three]; norm_num [Mat3.toMatrix, zeo]
  obtain ⟨⟨b, im⟩, hi⟩ : ∃ p, Mat3.inv (1/10^12) (Mat3.create 1 1 1 1 1 1 1 1 1 : Mat3 ℚ) .ident = p := ⟨_, rfl⟩
  have hs : (Mat3.inv (1/10^12) (Mat3.create 1 1 1 1 1 1 1 1 1 : Mat3 ℚ) .ident).2.isSome = true := by
    decide +kernel
  have hb : (Mat3.inv (1/10^12) (Mat3.create 1 1 1 1 1 1 1 1 1 : Mat3 ℚ) .ident).1 = true := rfl
  rw [hi] at hs hb
  obtain ⟨im, rfl⟩ := Option.isSome_iff_exists.1 hs
  refine ⟨_, .ident, im, hd, by rw [hi]; exact Prod.ext hb rfl, fun h => ?_⟩
  have := congrArg Matrix.det h
  rw [det_mul, hd, zero_mul, det_one] at this
  exact zero_ne_one this

/-- A matrix with a zero row: the code divides by zero. -/
theorem C05_zero_row_nan :
    (Mat3.inv (1/10^12 : ℚ) (Mat3.create 0 0 0 1 2 3 4 5 7) .ident).2 = none := by rfl

/-- A badly scaled non-singular matrix meets the hypotheses: diag(1e-9, 1, 1e9) sheared. -/
example : ∃ mb sr sc, (Mat3.create (1/10^9) 1 0 0 1 0 0 0 (10^9) : Mat3 ℚ).balance = some (mb, sr, sc) ∧
    (1/10^12 : ℚ) < |mb.det| := by
  obtain ⟨o, ho⟩ : ∃ o, (Mat3.create (1/10^9) 1 0 0 1 0 0 0 (10^9) : Mat3 ℚ).balance = o := ⟨_, rfl⟩
  have h : (Mat3.create (1/10^9) 1 0 0 1 0 0 0 (10^9) : Mat3 ℚ).balance.any
      (fun p => decide ((1/10^12 : ℚ) < |p.1.det|)) = true := by decide +kernel
  rw [ho] at h
  cases o with
  | none => simp at h
  | some p => exact ⟨p.1, p.2.1, p.2.2, ho, by simpa using h⟩

end Zeo
