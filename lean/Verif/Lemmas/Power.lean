import Verif.Model.Power
import Verif.Spec.Eigen
import Verif.Lemmas.Triangle
import Mathlib.Tactic.FieldSimp
import Mathlib.Tactic.LinearCombination

/-! Facts behind the power iteration. -/

namespace Zeo
open Matrix

theorem isTol_zero_iff {v : Vec3 ℝ} : v.isTol 0 ↔ v = .zero := by
  simp only [Vec3.isTol, zIsTol, abs_nonpos_iff, Vec3.ext_iff, Vec3.zero]

namespace Eigenbasis
variable {m : Mat3 ℝ} {u : Fin 3 → Vec3 ℝ} {l : Fin 3 → ℝ}

theorem inner_eq (H : Eigenbasis m u l) (i j : Fin 3) : (u i).inner (u j) = if i = j then 1 else 0 := by
  rw [← H.orth i j]
  simp [Vec3.toFin, dotProduct, Fin.sum_univ_three, zeo]

theorem mulVec_eq (H : Eigenbasis m u l) (i : Fin 3) : m.mulVec (u i) = (u i).mul (l i) := by
  have h := H.eig i
  have h0 := congrFun h 0
  have h1 := congrFun h 1
  have h2 := congrFun h 2
  simp [Mat3.toMatrix, Vec3.toFin, mulVec, dotProduct, Fin.sum_univ_three] at h0 h1 h2
  ext <;> simp only [zeo] <;> linarith

theorem complete (H : Eigenbasis m u l) (w : Vec3 ℝ) :
    w = (((u 0).mul ((u 0).inner w)).add ((u 1).mul ((u 1).inner w))).add ((u 2).mul ((u 2).inner w)) := by
  let U : Matrix (Fin 3) (Fin 3) ℝ := fun i j => (u i).toFin j
  have h1 : U * Uᵀ = 1 := by
    ext i j
    rw [mul_apply, one_apply, ← H.orth i j]; rfl
  have h2 : Uᵀ * U = 1 := mul_eq_one_comm.1 h1
  have h : ∀ j k, (u 0).toFin j * (u 0).toFin k + (u 1).toFin j * (u 1).toFin k + (u 2).toFin j * (u 2).toFin k =
      if j = k then 1 else 0 := by
    intro j k
    have := congrFun (congrFun h2 j) k
    rw [mul_apply, one_apply, Fin.sum_univ_three] at this
    exact this
  have a00 := h 0 0; have a01 := h 0 1; have a02 := h 0 2; have a11 := h 1 1; have a12 := h 1 2; have a22 := h 2 2
  simp [Vec3.toFin] at a00 a01 a02 a11 a12 a22
  ext <;> simp only [zeo]
  · linear_combination -w.x * a00 - w.y * a01 - w.z * a02
  · linear_combination -w.x * a01 - w.y * a11 - w.z * a12
  · linear_combination -w.x * a02 - w.y * a12 - w.z * a22

theorem comp (H : Eigenbasis m u l) (i : Fin 3) (w : Vec3 ℝ) : (u i).inner (m.mulVec w) = l i * (u i).inner w := by
  have e : m.mulVec w = (((u 0).mul (l 0 * (u 0).inner w)).add ((u 1).mul (l 1 * (u 1).inner w))).add
      ((u 2).mul (l 2 * (u 2).inner w)) := by
    have lin : ∀ a b c : ℝ, m.mulVec ((((u 0).mul a).add ((u 1).mul b)).add ((u 2).mul c)) =
        (((m.mulVec (u 0)).mul a).add ((m.mulVec (u 1)).mul b)).add ((m.mulVec (u 2)).mul c) := by
      intro a b c
      ext <;> simp only [zeo] <;> ring
    conv_lhs => rw [H.complete w, lin, H.mulVec_eq, H.mulVec_eq, H.mulVec_eq]
    ext <;> simp only [zeo] <;> ring
  have lin : ∀ a b c : ℝ, (u i).inner ((((u 0).mul a).add ((u 1).mul b)).add ((u 2).mul c)) =
      (u i).inner (u 0) * a + (u i).inner (u 1) * b + (u i).inner (u 2) * c := by
    intro a b c; simp only [zeo]; ring
  rw [e, lin, H.inner_eq, H.inner_eq, H.inner_eq]
  fin_cases i <;> simp

theorem parseval (H : Eigenbasis m u l) (a b : Vec3 ℝ) :
    a.inner b = (u 0).inner a * (u 0).inner b + (u 1).inner a * (u 1).inner b + (u 2).inner a * (u 2).inner b := by
  conv_lhs => rw [H.complete b]
  simp only [zeo]; ring
end Eigenbasis

/-- Rayleigh quotient of `m^k v0` in terms of the components `a` of `v0`. -/
noncomputable def rayleigh (l a : Fin 3 → ℝ) (k : ℕ) : ℝ :=
  (l 0 * (l 0 ^ k * a 0) ^ 2 + l 1 * (l 1 ^ k * a 1) ^ 2 + l 2 * (l 2 ^ k * a 2) ^ 2) /
  ((l 0 ^ k * a 0) ^ 2 + (l 1 ^ k * a 1) ^ 2 + (l 2 ^ k * a 2) ^ 2)

theorem rayleigh_error {l a : Fin 3 → ℝ} {ρ : ℝ} (hρ1 : ρ ≤ 1) (h0 : l 0 ≠ 0) (ha : a 0 ≠ 0)
    (h1 : |l 1| ≤ ρ * |l 0|) (h2 : |l 2| ≤ ρ * |l 0|) (k : ℕ) :
    |rayleigh l a k - l 0| * a 0 ^ 2 ≤ 2 * |l 0| * ρ ^ (2 * k) * (a 1 ^ 2 + a 2 ^ 2) := by
  have hl0 : 0 < |l 0| := abs_pos.2 h0
  have hρ0 : 0 ≤ ρ := by
    by_contra hn
    have : ρ * |l 0| < 0 := mul_neg_of_neg_of_pos (not_le.1 hn) hl0
    have := abs_nonneg (l 1); linarith
  set A := (l 0 ^ k * a 0) ^ 2 with hA
  set B := (l 1 ^ k * a 1) ^ 2 with hB
  set C := (l 2 ^ k * a 2) ^ 2 with hC
  have hAp : 0 < A := by rw [hA]; positivity
  have hBp : 0 ≤ B := by rw [hB]; positivity
  have hCp : 0 ≤ C := by rw [hC]; positivity
  have hD : 0 < A + B + C := by linarith
  have e : rayleigh l a k - l 0 = ((l 1 - l 0) * B + (l 2 - l 0) * C) / (A + B + C) := by
    unfold rayleigh
    rw [← hA, ← hB, ← hC]
    field_simp; ring
  have pw : ∀ i, |l i| ≤ ρ * |l 0| → (l i ^ k * a i) ^ 2 ≤ ρ ^ (2 * k) * (l 0 ^ k) ^ 2 * a i ^ 2 := by
    intro i hi
    have h : (l i ^ k) ^ 2 ≤ ρ ^ (2 * k) * (l 0 ^ k) ^ 2 := by
      have e1 : (l i ^ k) ^ 2 = (|l i| ^ 2) ^ k := by rw [sq_abs, ← pow_mul, ← pow_mul, mul_comm]
      have e2 : ρ ^ (2 * k) * (l 0 ^ k) ^ 2 = ((ρ * |l 0|) ^ 2) ^ k := by
        rw [mul_pow, sq_abs, mul_pow, ← pow_mul, ← pow_mul, ← pow_mul, mul_comm k 2]
      rw [e1, e2]
      exact pow_le_pow_left₀ (by positivity) (pow_le_pow_left₀ (abs_nonneg _) hi 2) k
    rw [mul_pow]
    exact mul_le_mul_of_nonneg_right h (sq_nonneg _)
  have sm : ∀ i, |l i| ≤ ρ * |l 0| → |l i - l 0| ≤ 2 * |l 0| := by
    intro i hi
    have h3 := abs_sub (l i) (l 0)
    have h4 : ρ * |l 0| ≤ |l 0| := by nlinarith
    linarith
  have hP : 0 < (l 0 ^ k) ^ 2 := by positivity
  have num : |(l 1 - l 0) * B + (l 2 - l 0) * C| ≤ 2 * |l 0| * (B + C) := by
    refine (abs_add_le _ _).trans ?_
    rw [abs_mul, abs_mul, abs_of_nonneg hBp, abs_of_nonneg hCp]
    nlinarith [mul_le_mul_of_nonneg_right (sm 1 h1) hBp, mul_le_mul_of_nonneg_right (sm 2 h2) hCp]
  rw [e, abs_div, abs_of_pos hD, div_mul_eq_mul_div, div_le_iff₀ hD]
  have hA' : A = (l 0 ^ k) ^ 2 * a 0 ^ 2 := by rw [hA, mul_pow]
  have q : (B + C) ≤ ρ ^ (2 * k) * (l 0 ^ k) ^ 2 * (a 1 ^ 2 + a 2 ^ 2) := by
    have := pw 1 h1; have := pw 2 h2; linarith
  calc |(l 1 - l 0) * B + (l 2 - l 0) * C| * a 0 ^ 2
      ≤ 2 * |l 0| * (ρ ^ (2 * k) * (l 0 ^ k) ^ 2 * (a 1 ^ 2 + a 2 ^ 2)) * a 0 ^ 2 := by
        refine mul_le_mul_of_nonneg_right (num.trans ?_) (sq_nonneg _)
        exact mul_le_mul_of_nonneg_left q (by positivity)
    _ = 2 * |l 0| * ρ ^ (2 * k) * (a 1 ^ 2 + a 2 ^ 2) * A := by rw [hA']; ring
    _ ≤ 2 * |l 0| * ρ ^ (2 * k) * (a 1 ^ 2 + a 2 ^ 2) * (A + B + C) := by
        refine mul_le_mul_of_nonneg_left (by linarith) (by positivity)

/-- One pass of the loop with zero tolerance, in the coordinates of the eigenbasis. -/
private theorem pass {m : Mat3 ℝ} {u : Fin 3 → Vec3 ℝ} {l a : Fin 3 → ℝ} (H : Eigenbasis m u l)
    (h0 : l 0 ≠ 0) (ha : a 0 ≠ 0) {k : ℕ} {c : ℝ} {v : Vec3 ℝ} (ev : Vec3 ℝ) (hc : c ≠ 0)
    (hv : ∀ i, (u i).inner v = c * (l i ^ k * a i)) :
    ∃ d, d ≠ 0 ∧ (∀ i, (u i).inner (v.normalize 0 ev).2 = d * (l i ^ k * a i)) ∧
      (v.normalize 0 ev).2.inner (m.mulVec (v.normalize 0 ev).2) = rayleigh l a k := by
  have hX : l 0 ^ k * a 0 ≠ 0 := mul_ne_zero (pow_ne_zero _ h0) ha
  have hv0 : ¬ v.isTol 0 := by
    rw [isTol_zero_iff]; rintro rfl
    have := hv 0
    rw [show (u 0).inner Vec3.zero = 0 by simp only [zeo]; ring] at this
    exact (mul_ne_zero hc hX) this.symm
  obtain ⟨n1, n2, n3⟩ := normalize_unit le_rfl (old := ev) hv0
  generalize (v.normalize 0 ev).2 = e at *
  have hcomp : ∀ i, (u i).inner e = c / v.norm * (l i ^ k * a i) := by
    intro i
    have h1 := hv i
    rw [n2, show (u i).inner (e.mul v.norm) = (u i).inner e * v.norm by simp only [zeo]; ring] at h1
    rw [div_mul_eq_mul_div, eq_div_iff n3.ne', h1]
  refine ⟨c / v.norm, div_ne_zero hc n3.ne', hcomp, ?_⟩
  have p1 := H.parseval e e
  rw [show e.inner e = 1 from n1, hcomp, hcomp, hcomp] at p1
  rw [H.parseval, H.comp, H.comp, H.comp, hcomp, hcomp, hcomp]
  generalize c / v.norm = d at *
  unfold rayleigh
  have hS : 0 < (l 0 ^ k * a 0) ^ 2 + (l 1 ^ k * a 1) ^ 2 + (l 2 ^ k * a 2) ^ 2 := by positivity
  generalize l 0 ^ k * a 0 = A at *
  generalize l 1 ^ k * a 1 = B at *
  generalize l 2 ^ k * a 2 = C at *
  rw [eq_div_iff hS.ne']
  linear_combination (-(l 0 * A ^ 2 + l 1 * B ^ 2 + l 2 * C ^ 2)) * p1

/-- With zero tolerance the iteration computes the Rayleigh quotient of the powers, whether it
is left by `break` or not. -/
theorem eigPowerLoop_spec {m : Mat3 ℝ} {u : Fin 3 → Vec3 ℝ} {l a : Fin 3 → ℝ} (H : Eigenbasis m u l)
    (h0 : l 0 ≠ 0) (ha : a 0 ≠ 0) (hd : l 1 ≠ l 0 ∧ l 2 ≠ l 0) (n : ℕ) :
    ∀ (k : ℕ) (c : ℝ) (ev v : Vec3 ℝ) (q : ℝ), c ≠ 0 → (∀ i, (u i).inner v = c * (l i ^ k * a i)) →
    (m.eigPowerLoop 0 (n + 1) ev v q).1 = rayleigh l a (k + n) ∧
    ∃ c', c' ≠ 0 ∧ ∀ i, (u i).inner (m.eigPowerLoop 0 (n + 1) ev v q).2.1 = c' * (l i ^ (k + n + 1) * a i) := by
  have main : ∀ (n k : ℕ) (c : ℝ) (ev v : Vec3 ℝ) (q : ℝ), c ≠ 0 → (∀ i, (u i).inner v = c * (l i ^ k * a i)) →
      (∀ e' v' : Vec3 ℝ, ∀ q' d : ℝ, d ≠ 0 → (∀ i, (u i).inner v' = d * (l i ^ (k + 1) * a i)) → q' = rayleigh l a k →
        (m.eigPowerLoop 0 n e' v' q').1 = rayleigh l a (k + n) ∧
        ∃ c', c' ≠ 0 ∧ ∀ i, (u i).inner (m.eigPowerLoop 0 n e' v' q').2.1 = c' * (l i ^ (k + n + 1) * a i)) →
      (m.eigPowerLoop 0 (n + 1) ev v q).1 = rayleigh l a (k + n) ∧
      ∃ c', c' ≠ 0 ∧ ∀ i, (u i).inner (m.eigPowerLoop 0 (n + 1) ev v q).2.1 = c' * (l i ^ (k + n + 1) * a i) := by
    intro n k c ev v q hc hv hstep
    obtain ⟨d, hd0, he, hq⟩ := pass H h0 ha ev hc hv
    rw [Mat3.eigPowerLoop]
    try dsimp only
    rw [hq]
    generalize (v.normalize 0 ev).2 = e at *
    have hv' : ∀ i, (u i).inner (m.mulVec e) = d * (l i ^ (k + 1) * a i) := by
      intro i; rw [H.comp, he, pow_succ]; ring
    split_ifs with hb
    · rw [isTol_zero_iff] at hb
      have hz : ∀ i, (l i - rayleigh l a k) * (l i ^ k * a i) = 0 := by
        intro i
        have e1 : (u i).inner ((m.mulVec e).cat (-rayleigh l a k) e) =
            (u i).inner (m.mulVec e) - rayleigh l a k * (u i).inner e := by simp only [zeo]; ring
        rw [hb, H.comp, he, show (u i).inner Vec3.zero = 0 by simp only [zeo]; ring] at e1
        have : d * ((l i - rayleigh l a k) * (l i ^ k * a i)) = 0 := by linear_combination -e1
        exact (mul_eq_zero.1 this).resolve_left hd0
      have r0 : rayleigh l a k = l 0 := by
        have := (mul_eq_zero.1 (hz 0)).resolve_right (mul_ne_zero (pow_ne_zero _ h0) ha)
        linarith
      have z1 : l 1 ^ k * a 1 = 0 := (mul_eq_zero.1 (hz 1)).resolve_left (by rw [r0]; exact sub_ne_zero.2 hd.1)
      have z2 : l 2 ^ k * a 2 = 0 := (mul_eq_zero.1 (hz 2)).resolve_left (by rw [r0]; exact sub_ne_zero.2 hd.2)
      have y1 : ∀ j, l 1 ^ (k + j) * a 1 = 0 := fun j => by rw [pow_add]; linear_combination l 1 ^ j * z1
      have y2 : ∀ j, l 2 ^ (k + j) * a 2 = 0 := fun j => by rw [pow_add]; linear_combination l 2 ^ j * z2
      refine ⟨?_, d / l 0 ^ n, div_ne_zero hd0 (pow_ne_zero _ h0), ?_⟩
      · dsimp only
        rw [r0, rayleigh, y1, y2]
        have : l 0 ^ (k + n) * a 0 ≠ 0 := mul_ne_zero (pow_ne_zero _ h0) ha
        field_simp; ring
      · intro i
        dsimp only
        rw [hv']
        have : l 0 ^ n ≠ 0 := pow_ne_zero _ h0
        fin_cases i
        · simp only [Fin.zero_eta]
          rw [show k + n + 1 = k + 1 + n by ring, pow_add (l 0) (k + 1) n]; field_simp
        · simp only [Fin.mk_one]
          rw [y1 1, add_assoc, y1 (n + 1)]; simp
        · simp only [Fin.reduceFinMk]
          rw [y2 1, add_assoc, y2 (n + 1)]; simp
    · exact hstep _ _ _ d hd0 hv' rfl
  induction n with
  | zero =>
    intro k c ev v q hc hv
    refine main 0 k c ev v q hc hv ?_
    intro e' v' q' d hd0 hv' hq
    exact ⟨hq, d, hd0, hv'⟩
  | succ n ih =>
    intro k c ev v q hc hv
    refine main (n + 1) k c ev v q hc hv ?_
    intro e' v' q' d hd0 hv' hq
    have := ih (k + 1) d e' v' q' hd0 hv'
    rw [show k + (n + 1) = k + 1 + n by ring]
    exact this

/-- `ev` is a unit vector when the loop is left by `break`. -/
theorem eigPowerLoop_break {τ : ℝ} (hτ : 0 ≤ τ) {m : Mat3 ℝ} (n : ℕ) :
    ∀ (ev v : Vec3 ℝ) (q : ℝ), (¬ v.isTol τ ∨ ev.sqrNorm = 1) → (m.eigPowerLoop τ n ev v q).2.2.2 = true →
    let r := m.eigPowerLoop τ n ev v q
    r.2.2.1.sqrNorm = 1 ∧ r.2.1 = m.mulVec r.2.2.1 ∧ r.1 = r.2.2.1.inner (m.mulVec r.2.2.1) ∧
      (r.2.1.cat (-r.1) r.2.2.1).isTol τ := by
  induction n with
  | zero => intro ev v q _ h; simp [Mat3.eigPowerLoop] at h
  | succ n ih =>
    intro ev v q h hb
    have hu : (v.normalize τ ev).2.sqrNorm = 1 := by
      by_cases hv : v.isTol τ
      · rw [Vec3.normalize, if_pos hv]; exact h.resolve_left (not_not.2 hv)
      · exact (normalize_unit hτ hv).1
    rw [Mat3.eigPowerLoop] at hb ⊢
    dsimp only at hb ⊢
    generalize (v.normalize τ ev).2 = e at *
    split_ifs at hb ⊢ with hc
    · exact ⟨hu, rfl, rfl, hc⟩
    · exact ih _ _ _ (.inr hu) hb

end Zeo
