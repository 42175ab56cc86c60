import Verif.Model.Terra
import Verif.Spec.Linear
import Mathlib.Algebra.BigOperators.Group.List.Basic
import Mathlib.LinearAlgebra.Matrix.NonsingularInverse
import Mathlib.Tactic.Linarith
import Mathlib.Tactic.LinearCombination

/-! # C43: recursive terrain identification is regularised least squares -/

namespace Zeo
variable {K : Type*} [Field K] [LinearOrder K] [IsStrictOrderedRing K]

namespace Spec
/-- The regularised least-squares cost of the plane `z = a x + b y + c` on the points `ps`. -/
def planeCost (ps : List (Vec3 K)) (a b c : K) : K :=
  (ps.map (fun p => (a * p.x + b * p.y + c - p.z)^2)).sum + a^2 + b^2 + c^2
end Spec

namespace TerraCell
open Matrix

/-- A cell after the points `ps`, in order. -/
def feed (junk : Vec3 K) (ps : List (Vec3 K)) : TerraCell K := ps.foldl (update junk) init

theorem feed_snoc (junk : Vec3 K) (ps : List (Vec3 K)) (p : Vec3 K) :
    feed junk (ps ++ [p]) = (feed junk ps).update junk p := by
  simp [feed]

/-- The regressor of a point. -/
def reg (p : Vec3 K) : Vec3 K := ⟨p.x, p.y, 1⟩

/-- `I + Σ w wᵀ`, and `Σ z w`. -/
def info (ps : List (Vec3 K)) : Matrix (Fin 3) (Fin 3) K :=
  1 + (ps.map (fun p => vecMulVec (reg p).toFin (reg p).toFin)).sum
def rhs (ps : List (Vec3 K)) : Fin 3 → K := (ps.map (fun p => p.z • (reg p).toFin)).sum

theorem info_snoc (ps : List (Vec3 K)) (p : Vec3 K) :
    info (ps ++ [p]) = info ps + vecMulVec (reg p).toFin (reg p).toFin := by
  simp [info, add_assoc]
theorem rhs_snoc (ps : List (Vec3 K)) (p : Vec3 K) :
    rhs (ps ++ [p]) = rhs ps + p.z • (reg p).toFin := by
  simp [rhs]

theorem info_psd (ps : List (Vec3 K)) (u : Fin 3 → K) : 0 ≤ u ⬝ᵥ (info ps *ᵥ u) := by
  induction ps using List.reverseRecOn with
  | nil =>
    simp only [info, List.map_nil, List.sum_nil, add_zero, one_mulVec, dotProduct, Fin.sum_univ_three]
    nlinarith [mul_self_nonneg (u 0), mul_self_nonneg (u 1), mul_self_nonneg (u 2)]
  | append_singleton ps p ih =>
    rw [info_snoc, add_mulVec, dotProduct_add, vecMulVec_mulVec]
    have : u ⬝ᵥ (MulOpposite.op ((reg p).toFin ⬝ᵥ u) • (reg p).toFin) = ((reg p).toFin ⬝ᵥ u)^2 := by
      simp only [dotProduct, Fin.sum_univ_three, Pi.smul_apply, MulOpposite.smul_eq_mul_unop, MulOpposite.unop_op]
      ring
    rw [this]
    have := sq_nonneg ((reg p).toFin ⬝ᵥ u)
    linarith

theorem mulVec_toFin (m : Mat3 K) (v : Vec3 K) : (m.mulVec v).toFin = m.toMatrix *ᵥ v.toFin := by
  ext i; fin_cases i <;> simp [Mat3.mulVec, Vec3.toFin, Mat3.toMatrix, mulVec, dotProduct, Fin.sum_univ_three]
theorem inner_toFin (v w : Vec3 K) : v.inner w = v.toFin ⬝ᵥ w.toFin := by
  simp [Vec3.inner, Vec3.toFin, dotProduct, Fin.sum_univ_three]

theorem update_prm (junk : Vec3 K) (c : TerraCell K) (p : Vec3 K)
    (hd : 1 + (reg p).inner (c.s.mulVec (reg p)) ≠ 0) :
    (c.update junk p).prm.toFin = c.prm.toFin -
      ((c.prm.toFin ⬝ᵥ (reg p).toFin - p.z) / (1 + (reg p).inner (c.s.mulVec (reg p)))) •
        (c.s.toMatrix *ᵥ (reg p).toFin) := by
  have hd' := hd
  unfold reg at hd'
  rw [← mulVec_toFin]
  simp only [update, Vec3.div, hd', if_false, reg]
  ext i
  fin_cases i <;>
    simp [Vec3.toFin, Vec3.cat, Vec3.mul, residual, cellZ, dotProduct, Fin.sum_univ_three] <;> ring

theorem update_s (junk : Vec3 K) (c : TerraCell K) (p : Vec3 K)
    (hd : 1 + (reg p).inner (c.s.mulVec (reg p)) ≠ 0) :
    (c.update junk p).s.toMatrix = c.s.toMatrix -
      (1 + (reg p).inner (c.s.mulVec (reg p)))⁻¹ •
        vecMulVec (c.s.toMatrix *ᵥ (reg p).toFin) (c.s.toMatrix *ᵥ (reg p).toFin) := by
  have hd' := hd
  unfold reg at hd'
  rw [← mulVec_toFin]
  simp only [update, Vec3.div, hd', if_false, reg]
  ext i j
  fin_cases i <;> fin_cases j <;>
    simp [Vec3.toFin, Mat3.toMatrix, Mat3.subDyad, Vec3.cat, Vec3.mul, vecMulVec] <;> ring

/-- The invariant of the recursion: `_s` is the (symmetric) inverse of the information matrix and `_prm`
solves the normal equations. -/
theorem feed_inv (junk : Vec3 K) (ps : List (Vec3 K)) :
    info ps * (feed junk ps).s.toMatrix = 1 ∧ (feed junk ps).s.toMatrixᵀ = (feed junk ps).s.toMatrix ∧
      info ps *ᵥ (feed junk ps).prm.toFin = rhs ps := by
  induction ps using List.reverseRecOn with
  | nil =>
    have hs : (feed junk ([] : List (Vec3 K))).s.toMatrix = 1 := by
      ext i j
      fin_cases i <;> fin_cases j <;>
        simp [feed, init, Mat3.toMatrix, Mat3.ident, Vec3.ex, Vec3.ey, Vec3.ez]
    refine ⟨?_, ?_, ?_⟩
    · rw [hs]; simp [info]
    · rw [hs]; simp
    · ext i
      fin_cases i <;> simp [info, rhs, feed, init, Vec3.toFin]
  | append_singleton ps p ih =>
    obtain ⟨h1, h2, h3⟩ := ih
    rw [feed_snoc, info_snoc, rhs_snoc]
    revert h1 h2 h3
    generalize feed junk ps = c
    intro h1 h2 h3
    have hq : 0 ≤ (reg p).inner (c.s.mulVec (reg p)) := by
      rw [inner_toFin, mulVec_toFin]
      have := info_psd ps (c.s.toMatrix *ᵥ (reg p).toFin)
      rwa [mulVec_mulVec, h1, one_mulVec, dotProduct_comm] at this
    have hd : 1 + (reg p).inner (c.s.mulVec (reg p)) ≠ 0 := by positivity
    rw [update_s junk c p hd, update_prm junk c p hd]
    rw [inner_toFin, mulVec_toFin] at *
    have hMu : info ps *ᵥ (c.s.toMatrix *ᵥ (reg p).toFin) = (reg p).toFin := by
      rw [mulVec_mulVec, h1, one_mulVec]
    have hwS : (reg p).toFin ᵥ* c.s.toMatrix = c.s.toMatrix *ᵥ (reg p).toFin := by
      conv_lhs => rw [← h2]
      exact vecMul_transpose _ _
    revert hMu hwS hd
    generalize hu : c.s.toMatrix *ᵥ (reg p).toFin = u
    generalize (reg p).toFin = w
    intro hd hMu hwS
    refine ⟨?_, ?_, ?_⟩
    · rw [Matrix.mul_sub, Matrix.add_mul, Matrix.add_mul, h1, Matrix.mul_smul, Matrix.mul_smul,
        mul_vecMulVec, vecMulVec_mul, hMu, hwS, mul_vecMulVec, vecMulVec_mulVec]
      ext i j
      simp only [Matrix.add_apply, Matrix.sub_apply, Matrix.smul_apply, vecMulVec_apply, smul_eq_mul,
        Pi.smul_apply, MulOpposite.smul_eq_mul_unop, MulOpposite.unop_op]
      field_simp
      ring
    · rw [transpose_sub, transpose_smul, h2, transpose_vecMulVec]
    · rw [mulVec_sub, add_mulVec, h3, mulVec_smul, add_mulVec, hMu, vecMulVec_mulVec, vecMulVec_mulVec]
      ext i
      rw [dotProduct_comm c.prm.toFin w]
      simp only [Pi.add_apply, Pi.sub_apply, smul_eq_mul,
        Pi.smul_apply, MulOpposite.smul_eq_mul_unop, MulOpposite.unop_op]
      field_simp
      ring

theorem feed_np (junk : Vec3 K) (ps : List (Vec3 K)) : (feed junk ps).np = ps.length := by
  induction ps using List.reverseRecOn with
  | nil => rfl
  | append_singleton ps p ih => rw [feed_snoc, List.length_append, List.length_singleton, ← ih]; rfl

/-- The cost around a solution of the normal equations. -/
theorem cost_expand (ps : List (Vec3 K)) (v q : Vec3 K) :
    Spec.planeCost ps q.x q.y q.z = Spec.planeCost ps v.x v.y v.z +
      2 * ((q.toFin - v.toFin) ⬝ᵥ (info ps *ᵥ v.toFin - rhs ps)) +
      ((ps.map (fun p => ((q.x - v.x) * p.x + (q.y - v.y) * p.y + (q.z - v.z))^2)).sum +
        (q.x - v.x)^2 + (q.y - v.y)^2 + (q.z - v.z)^2) := by
  induction ps using List.reverseRecOn with
  | nil =>
    simp only [Spec.planeCost, info, rhs, List.map_nil, List.sum_nil, add_zero, one_mulVec, dotProduct,
      Fin.sum_univ_three, Vec3.toFin, Pi.sub_apply, Pi.zero_apply, sub_zero, Matrix.cons_val]
    ring
  | append_singleton ps p ih =>
    rw [info_snoc, rhs_snoc]
    simp only [Spec.planeCost, List.map_append, List.map_cons, List.map_nil, List.sum_append, List.sum_cons,
      List.sum_nil, add_zero] at ih ⊢
    have e : (q.toFin - v.toFin) ⬝ᵥ ((info ps + vecMulVec (reg p).toFin (reg p).toFin) *ᵥ v.toFin -
        (rhs ps + p.z • (reg p).toFin)) = (q.toFin - v.toFin) ⬝ᵥ (info ps *ᵥ v.toFin - rhs ps) +
        ((q.x - v.x) * p.x + (q.y - v.y) * p.y + (q.z - v.z)) * (v.x * p.x + v.y * p.y + v.z - p.z) := by
      rw [add_mulVec, vecMulVec_mulVec]
      simp only [dotProduct, Fin.sum_univ_three, Pi.sub_apply, Pi.add_apply, Pi.smul_apply,
        MulOpposite.smul_eq_mul_unop, MulOpposite.unop_op, smul_eq_mul, Vec3.toFin, reg, Matrix.cons_val]
      ring
    rw [e]
    linear_combination ih

end TerraCell

open TerraCell

/-- After any sequence of points the plane parameters of a cell are the unique minimiser of the sum of
squared vertical residuals plus the squared parameters. No division by zero occurs on the way: the result
does not depend on the uninitialised quotient. -/
theorem C43_minimiser (junk : Vec3 K) (ps : List (Vec3 K)) (a b c : K)
    (h : ¬ (a = (feed junk ps).prm.x ∧ b = (feed junk ps).prm.y ∧ c = (feed junk ps).prm.z)) :
    Spec.planeCost ps (feed junk ps).prm.x (feed junk ps).prm.y (feed junk ps).prm.z < Spec.planeCost ps a b c := by
  have h3 := (feed_inv junk ps).2.2
  revert h h3
  generalize (feed junk ps).prm = v
  intro h h3
  have e := cost_expand ps v ⟨a, b, c⟩
  rw [h3, sub_self, dotProduct_zero, mul_zero, add_zero] at e
  have hs : 0 ≤ (ps.map (fun p => ((a - v.x) * p.x + (b - v.y) * p.y + (c - v.z))^2)).sum := by
    apply List.sum_nonneg
    intro x hx
    obtain ⟨p, _, rfl⟩ := List.mem_map.1 hx
    positivity
  dsimp only at e
  rw [e]
  have hp : 0 < (a - v.x)^2 + (b - v.y)^2 + (c - v.z)^2 := by
    by_contra hc
    have := sq_nonneg (a - v.x)
    have := sq_nonneg (b - v.y)
    have := sq_nonneg (c - v.z)
    have ha : (a - v.x)^2 = 0 := by linarith
    have hb : (b - v.y)^2 = 0 := by linarith
    have hcc : (c - v.z)^2 = 0 := by linarith
    exact h ⟨sub_eq_zero.1 (pow_eq_zero_iff two_ne_zero |>.1 ha),
      sub_eq_zero.1 (pow_eq_zero_iff two_ne_zero |>.1 hb), sub_eq_zero.1 (pow_eq_zero_iff two_ne_zero |>.1 hcc)⟩
  linarith

/-- The number of points is counted, and the variance after `n ≥ 1` points is the mean of the squared
residuals, each taken just after the point was taken into account; before the first point it is one. -/
theorem C43_variance (junk : Vec3 K) (ps : List (Vec3 K)) :
    (feed junk ps).np = ps.length ∧ (ps = [] → (feed junk ps).var = 1) ∧
    (ps ≠ [] → (feed junk ps).var = (∑ k : Fin ps.length,
      ((feed junk (ps.take (k + 1))).prm.x * ps[k].x + (feed junk (ps.take (k + 1))).prm.y * ps[k].y +
        (feed junk (ps.take (k + 1))).prm.z - ps[k].z)^2) / ps.length) := by
  refine ⟨feed_np junk ps, ?_, ?_⟩
  · rintro rfl; rfl
  · induction ps using List.reverseRecOn with
    | nil => intro h; exact absurd rfl h
    | append_singleton ps p ih =>
      intro _
      have hv : (feed junk (ps ++ [p])).var = (feed junk ps).var +
          (((feed junk (ps ++ [p])).prm.x * p.x + (feed junk (ps ++ [p])).prm.y * p.y +
            (feed junk (ps ++ [p])).prm.z - p.z)^2 - (feed junk ps).var) / ((ps.length + 1 : ℕ) : K) := by
        rw [feed_snoc, ← feed_np junk ps, sq]; rfl
      have hsum : (∑ k : Fin (ps ++ [p]).length,
          ((feed junk ((ps ++ [p]).take (k + 1))).prm.x * (ps ++ [p])[k].x +
            (feed junk ((ps ++ [p]).take (k + 1))).prm.y * (ps ++ [p])[k].y +
            (feed junk ((ps ++ [p]).take (k + 1))).prm.z - (ps ++ [p])[k].z)^2) =
          (∑ k : Fin ps.length,
          ((feed junk (ps.take (k + 1))).prm.x * ps[k].x + (feed junk (ps.take (k + 1))).prm.y * ps[k].y +
            (feed junk (ps.take (k + 1))).prm.z - ps[k].z)^2) +
          ((feed junk (ps ++ [p])).prm.x * p.x + (feed junk (ps ++ [p])).prm.y * p.y +
            (feed junk (ps ++ [p])).prm.z - p.z)^2 := by
        have hl : (ps ++ [p]).length = ps.length + 1 := by simp
        rw [← Fin.sum_congr' _ hl.symm, Fin.sum_univ_castSucc]
        congr 1
        · apply Finset.sum_congr rfl
          intro k _
          have hk := k.isLt
          have e1 : (ps ++ [p]).take (k + 1) = ps.take (k + 1) := List.take_append_of_le_length (by omega)
          have e2 : (ps ++ [p])[(k : ℕ)]'(by omega) = ps[(k : ℕ)] := List.getElem_append_left _
          simp only [Fin.val_cast, Fin.val_castSucc, Fin.getElem_fin, e1, e2]
        · have e1 : (ps ++ [p]).take (ps.length + 1) = ps ++ [p] := List.take_of_length_le (by simp)
          simp only [Fin.val_cast, Fin.val_last, Fin.getElem_fin, e1, List.getElem_concat_length]
      rw [hsum, hv, List.length_append, List.length_singleton]
      rcases eq_or_ne ps [] with rfl | hne
      · simp [feed]
      · have h0 : (ps.length : K) ≠ 0 := by exact_mod_cast (List.length_pos_iff.2 hne).ne'
        have h1 := ih hne
        rw [eq_div_iff h0] at h1
        rw [← h1]
        have : ((ps.length + 1 : ℕ) : K) ≠ 0 := by positivity
        field_simp
        push_cast
        ring

/-- A concrete identification: after the single point (0,0,1) the plane is z = 1/2 and the variance 1/4. -/
example : (feed ⟨0, 0, 0⟩ [(⟨0, 0, 1⟩ : Vec3 ℚ)]).prm = ⟨0, 0, 1/2⟩ ∧
    (feed ⟨0, 0, 0⟩ [(⟨0, 0, 1⟩ : Vec3 ℚ)]).var = 1/4 := by decide +kernel

end Zeo
