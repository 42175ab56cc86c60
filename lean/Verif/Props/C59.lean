import Verif.Lemmas.Eig
import Verif.Props.C06
import Mathlib.LinearAlgebra.Matrix.Trace

/-! # C59: eigensystem of symmetric matrices and singular value decomposition

`zMat3DSymEig` (Jacobi's method), `zMat3DSymEigMin` and `zMat3DSVD`, in exact arithmetic with a positive
tolerance. -/

namespace Zeo
open Matrix

variable {τ : ℝ}

private theorem sym_iff {m : Mat3 ℝ} (h : m.toMatrix.IsSymm) : m.x.y = m.y.x ∧ m.y.z = m.z.y ∧ m.z.x = m.x.z := by
  have e : ∀ i j, m.toMatrix j i = m.toMatrix i j := fun i j => congrFun (congrFun h i) j
  exact ⟨by simpa [Mat3.toMatrix] using e 0 1, by simpa [Mat3.toMatrix] using e 1 2, by simpa [Mat3.toMatrix] using e 2 0⟩

private theorem inv_mat {m l r : Mat3 ℝ} (h : Eig.Inv m l r) : r.toMatrixᵀ * m.toMatrix * r.toMatrix = l.toMatrix := by
  have h1 := congrArg Mat3.toMatrix h.eq
  rw [(C06_mat3_products m r r.x).1, (C06_mat3_products r l r.x).1] at h1
  rw [Matrix.mul_assoc, h1, ← Matrix.mul_assoc, h.rot.1, Matrix.one_mul]

private theorem small_mat {m l r : Mat3 ℝ} (h : Eig.Inv m l r) (hs : Eig.Small τ l) {i j : Fin 3} (hij : i ≠ j) : |l.toMatrix i j| ≤ τ := by
  have a : |l.y.x| ≤ τ := hs 0
  have b : |l.z.y| ≤ τ := hs 1
  have c : |l.x.z| ≤ τ := hs 2
  fin_cases i <;> fin_cases j <;> simp [Mat3.toMatrix] at hij ⊢ <;> first | assumption | (rw [h.xy]; assumption) | (rw [h.yz]; assumption) | (rw [h.zx]; assumption)

/-- **C59** (`zMat3DSymEig`): for every symmetric matrix the iteration ends; `eigbase` is a rotation matrix,
the matrix expressed in it has the returned eigenvalues on its diagonal, and all its other components are
within the tolerance. -/
theorem C59_symEig (hτ : 0 < τ) (m : Mat3 ℝ) (hm : m.toMatrix.IsSymm) :
    ∃ val base, m.symEig τ = some (val, base) ∧ base.IsRot ∧
      (∀ i, (base.toMatrixᵀ * m.toMatrix * base.toMatrix) i i = val.toFin i) ∧
      ∀ i j, i ≠ j → |(base.toMatrixᵀ * m.toMatrix * base.toMatrix) i j| ≤ τ := by
  obtain ⟨h1, h2, h3⟩ := sym_iff hm
  obtain ⟨l, r, he, hI, hs⟩ := Eig.symEig_spec hτ h1 h2 h3
  refine ⟨_, r, he, hI.rot, fun i => ?_, fun i j hij => ?_⟩
  · rw [inv_mat hI]; fin_cases i <;> rfl
  · rw [inv_mat hI]; exact small_mat hI hs hij

/-- The columns of `eigbase` are eigenvectors up to the tolerance: the residual of the eigenvalue equation
has length at most `√2 τ`. -/
theorem C59_residual (hτ : 0 < τ) (m : Mat3 ℝ) (hm : m.toMatrix.IsSymm) (val : Vec3 ℝ) (base : Mat3 ℝ)
    (h : m.symEig τ = some (val, base)) (i : Fin 3) :
    ((m.mulVec (base.v i)).sub ((base.v i).mul (val.e i))).sqrNorm ≤ 2 * τ ^ 2 := by
  obtain ⟨h1, h2, h3⟩ := sym_iff hm
  obtain ⟨l, r, he, hI, hs⟩ := Eig.symEig_spec hτ h1 h2 h3
  rw [he] at h
  obtain ⟨rfl, rfl⟩ := Prod.mk.inj (Option.some.inj h)
  have a : l.y.x ^ 2 ≤ τ ^ 2 := sq_le_sq' (abs_le.1 (hs 0 : |l.y.x| ≤ τ)).1 (abs_le.1 (hs 0 : |l.y.x| ≤ τ)).2
  have b : l.z.y ^ 2 ≤ τ ^ 2 := sq_le_sq' (abs_le.1 (hs 1 : |l.z.y| ≤ τ)).1 (abs_le.1 (hs 1 : |l.z.y| ≤ τ)).2
  have c : l.x.z ^ 2 ≤ τ ^ 2 := sq_le_sq' (abs_le.1 (hs 2 : |l.x.z| ≤ τ)).1 (abs_le.1 (hs 2 : |l.x.z| ≤ τ)).2
  have key : ∀ p q s : ℝ, ((r.x.mul p).add ((r.y.mul q).add (r.z.mul s))).sqrNorm = p ^ 2 + q ^ 2 + s ^ 2 := by
    intro p q s
    obtain ⟨c1, c2, c3, c4, c5, c6⟩ := hI.rot.cols
    simp only [zeo]; grind
  have e1 := congrArg Mat3.x hI.eq
  have e2 := congrArg Mat3.y hI.eq
  have e3 := congrArg Mat3.z hI.eq
  rcases (by decide : ∀ i : Fin 3, i = 0 ∨ i = 1 ∨ i = 2) i with rfl | rfl | rfl
  · have : (m.mulVec (r.v 0)).sub ((r.v 0).mul l.x.x) = (r.x.mul 0).add ((r.y.mul l.x.y).add (r.z.mul l.x.z)) := by
      rw [show m.mulVec (r.v 0) = r.mulVec l.x from e1]
      ext <;> simp only [zeo] <;> ring
    show ((m.mulVec (r.v 0)).sub ((r.v 0).mul l.x.x)).sqrNorm ≤ _
    rw [this, key, hI.xy]; linarith
  · have : (m.mulVec (r.v 1)).sub ((r.v 1).mul l.y.y) = (r.x.mul l.y.x).add ((r.y.mul 0).add (r.z.mul l.y.z)) := by
      rw [show m.mulVec (r.v 1) = r.mulVec l.y from e2]
      ext <;> simp only [zeo] <;> ring
    show ((m.mulVec (r.v 1)).sub ((r.v 1).mul l.y.y)).sqrNorm ≤ _
    rw [this, key, hI.yz]; linarith
  · have : (m.mulVec (r.v 2)).sub ((r.v 2).mul l.z.z) = (r.x.mul l.z.x).add ((r.y.mul l.z.y).add (r.z.mul 0)) := by
      rw [show m.mulVec (r.v 2) = r.mulVec l.z from e3]
      ext <;> simp only [zeo] <;> ring
    show ((m.mulVec (r.v 2)).sub ((r.v 2).mul l.z.z)).sqrNorm ≤ _
    rw [this, key, hI.zx]; linarith

/-- No eigenvalue is missed: every eigenvalue of the matrix is within `2τ` of a returned one; and the
returned ones have the same sum. -/
theorem C59_eigenvalue (hτ : 0 < τ) (m : Mat3 ℝ) (hm : m.toMatrix.IsSymm) (val : Vec3 ℝ) (base : Mat3 ℝ)
    (h : m.symEig τ = some (val, base)) :
    (∀ (μ : ℝ) (x : Fin 3 → ℝ), x ≠ 0 → m.toMatrix *ᵥ x = μ • x → ∃ i, |μ - val.toFin i| ≤ 2 * τ) ∧
    val.x + val.y + val.z = Matrix.trace m.toMatrix := by
  obtain ⟨val', base', he, hR, hd, ho⟩ := C59_symEig hτ m hm
  rw [he] at h
  obtain ⟨rfl, rfl⟩ := Prod.mk.inj (Option.some.inj h)
  set D := base'.toMatrixᵀ * m.toMatrix * base'.toMatrix with hD
  have hRR : base'.toMatrix * base'.toMatrixᵀ = 1 := mul_eq_one_comm.1 hR.1
  constructor
  · intro μ x hx he
    set y := base'.toMatrixᵀ *ᵥ x with hy
    have hxy : x = base'.toMatrix *ᵥ y := by rw [hy, Matrix.mulVec_mulVec, hRR, Matrix.one_mulVec]
    have hDy : D *ᵥ y = μ • y := by
      rw [hD, hy, Matrix.mulVec_mulVec, Matrix.mul_assoc, hRR, Matrix.mul_one, ← Matrix.mulVec_mulVec, he, Matrix.mulVec_smul]
    have hy0 : y ≠ 0 := by rintro h0; rw [h0, Matrix.mulVec_zero] at hxy; exact hx hxy
    obtain ⟨i, hi⟩ := Finite.exists_max fun i => |y i|
    have hyi : 0 < |y i| := by
      rw [abs_pos]; rintro h0
      apply hy0; ext j
      have := hi j; rw [h0, abs_zero] at this
      simpa using abs_nonpos_iff.1 this
    refine ⟨i, ?_⟩
    have h1 : (μ - val'.toFin i) * y i = ∑ j ∈ Finset.univ.erase i, D i j * y j := by
      have := congrFun hDy i
      simp only [Matrix.mulVec, dotProduct, Pi.smul_apply, smul_eq_mul] at this
      rw [← Finset.add_sum_erase _ _ (Finset.mem_univ i), hd i] at this
      linarith
    have h2 : |(μ - val'.toFin i) * y i| ≤ 2 * τ * |y i| := by
      rw [h1]
      refine (Finset.abs_sum_le_sum_abs _ _).trans ?_
      have : ∀ j ∈ Finset.univ.erase i, |D i j * y j| ≤ τ * |y i| := by
        intro j hj
        rw [abs_mul]
        exact mul_le_mul (ho i j (Finset.ne_of_mem_erase hj).symm) (hi j) (abs_nonneg _) hτ.le
      refine (Finset.sum_le_card_nsmul _ _ _ this).trans ?_
      rw [Finset.card_erase_of_mem (Finset.mem_univ i)]
      simp; linarith
    rw [abs_mul] at h2
    exact le_of_mul_le_mul_right h2 hyi
  · have h1 : Matrix.trace D = Matrix.trace m.toMatrix := by
      rw [hD, Matrix.mul_assoc, Matrix.trace_mul_comm, Matrix.mul_assoc, hRR, Matrix.mul_one]
    rw [← h1, Matrix.trace, Fin.sum_univ_three]
    simp only [Matrix.diag_apply, hd, Vec3.toFin]; simp

/-- **C59** (`zMat3DSymEigMin`): the vector returned has unit length and minimises the quadratic form of the
matrix over all unit vectors, up to twice the tolerance. -/
theorem C59_symEigMin (hτ : 0 < τ) (m : Mat3 ℝ) (hm : m.toMatrix.IsSymm) :
    ∃ n, m.symEigMin τ = some n ∧ n.sqrNorm = 1 ∧ ∀ x : Vec3 ℝ, x.sqrNorm = 1 → n.inner (m.mulVec n) ≤ x.inner (m.mulVec x) + 2 * τ := by
  obtain ⟨h1, h2, h3⟩ := sym_iff hm
  obtain ⟨l, r, he, hI, hs⟩ := Eig.symEig_spec hτ h1 h2 h3
  have hl : (eigMinID ⟨l.x.x, l.y.y, l.z.z⟩ = 0 ∧ l.x.x ≤ l.y.y ∧ l.x.x ≤ l.z.z) ∨ (eigMinID ⟨l.x.x, l.y.y, l.z.z⟩ = 1 ∧ l.y.y ≤ l.x.x ∧ l.y.y ≤ l.z.z) ∨
      (eigMinID ⟨l.x.x, l.y.y, l.z.z⟩ = 2 ∧ l.z.z ≤ l.x.x ∧ l.z.z ≤ l.y.y) := by
    simp only [eigMinID]; split_ifs with a b c
    · exact Or.inl ⟨rfl, a.le, b.le⟩
    · exact Or.inr (Or.inr ⟨rfl, by linarith, by linarith⟩)
    · exact Or.inr (Or.inl ⟨rfl, by linarith, by linarith⟩)
    · exact Or.inr (Or.inr ⟨rfl, by linarith, by linarith⟩)
  refine ⟨r.v (eigMinID ⟨l.x.x, l.y.y, l.z.z⟩), by rw [Mat3.symEigMin, he]; rfl, ?_, ?_⟩
  · obtain ⟨c1, c2, c3, c4, c5, c6⟩ := hI.rot.cols
    rcases (by decide : ∀ i : Fin 3, i = 0 ∨ i = 1 ∨ i = 2) (eigMinID ⟨l.x.x, l.y.y, l.z.z⟩) with h | h | h <;> rw [h] <;> simp only [Mat3.v, zeo] <;> linarith
  intro x hx
  -- quadratic form in the eigenbase
  have quad : ∀ y : Vec3 ℝ, (r.mulVec y).inner (m.mulVec (r.mulVec y)) = y.inner (l.mulVec y) := by
    intro y
    have e0 : m.mulVec (r.mulVec y) = r.mulVec (l.mulVec y) := by
      have e1 := congrArg (fun M => Mat3.mulVec M y) hI.eq
      have a : ∀ A B : Mat3 ℝ, (A.mulMat B).mulVec y = A.mulVec (B.mulVec y) := by
        intro A B; ext <;> simp only [zeo] <;> ring
      simpa only [a] using e1
    rw [e0]
    obtain ⟨c1, c2, c3, c4, c5, c6⟩ := hI.rot.cols
    generalize l.mulVec y = w
    simp only [zeo]; grind
  have hn : (r.v (eigMinID ⟨l.x.x, l.y.y, l.z.z⟩)).inner (m.mulVec (r.v (eigMinID ⟨l.x.x, l.y.y, l.z.z⟩))) ≤ min l.x.x (min l.y.y l.z.z) := by
    rcases hl with ⟨h, a, b⟩ | ⟨h, a, b⟩ | ⟨h, a, b⟩ <;> rw [h]
    · have := quad .ex
      rw [show r.mulVec .ex = r.v 0 by ext <;> simp [zeo, Mat3.v]] at this
      rw [this]; refine le_min ?_ (le_min ?_ ?_) <;> simp only [zeo] <;> linarith
    · have := quad .ey
      rw [show r.mulVec .ey = r.v 1 by ext <;> simp [zeo, Mat3.v]] at this
      rw [this]; refine le_min ?_ (le_min ?_ ?_) <;> simp only [zeo] <;> linarith
    · have := quad .ez
      rw [show r.mulVec .ez = r.v 2 by ext <;> simp [zeo, Mat3.v]] at this
      rw [this]; refine le_min ?_ (le_min ?_ ?_) <;> simp only [zeo] <;> linarith
  refine hn.trans ?_
  set μ := min l.x.x (min l.y.y l.z.z) with hμ
  have m1 : μ ≤ l.x.x := min_le_left _ _
  have m2 : μ ≤ l.y.y := (min_le_right _ _).trans (min_le_left _ _)
  have m3 : μ ≤ l.z.z := (min_le_right _ _).trans (min_le_right _ _)
  have hxy : x = r.mulVec (r.mulTVec x) := by
    obtain ⟨c1, c2, c3, c4, c5, c6⟩ := hI.rot.rows
    ext <;> simp only [zeo] <;> grind
  have hy : (r.mulTVec x).sqrNorm = 1 := by
    rw [← hx]
    obtain ⟨c1, c2, c3, c4, c5, c6⟩ := hI.rot.rows
    simp only [zeo]; grind
  rw [hxy, quad]
  generalize r.mulTVec x = y at hy
  have a : -τ ≤ l.y.x ∧ l.y.x ≤ τ := abs_le.1 (hs 0)
  have b : -τ ≤ l.z.y ∧ l.z.y ≤ τ := abs_le.1 (hs 1)
  have c : -τ ≤ l.x.z ∧ l.x.z ≤ τ := abs_le.1 (hs 2)
  simp only [Vec3.sqrNorm, Vec3.inner] at hy
  have e : y.inner (l.mulVec y) = l.x.x * y.x ^ 2 + l.y.y * y.y ^ 2 + l.z.z * y.z ^ 2 + 2 * (l.y.x * (y.x * y.y) + l.z.y * (y.y * y.z) + l.x.z * (y.z * y.x)) := by
    have := hI.xy; have := hI.yz; have := hI.zx
    simp only [zeo]; grind
  rw [e]
  have bnd : ∀ k u : ℝ, -τ ≤ k → k ≤ τ → -(τ * |u|) ≤ k * u := by
    intro k u h1 h2
    have : |k * u| ≤ τ * |u| := by rw [abs_mul]; exact mul_le_mul_of_nonneg_right (abs_le.2 ⟨h1, h2⟩) (abs_nonneg _)
    exact (abs_le.1 this).1
  have q1 := bnd _ (y.x * y.y) a.1 a.2
  have q2 := bnd _ (y.y * y.z) b.1 b.2
  have q3 := bnd _ (y.z * y.x) c.1 c.2
  have s1 : |y.x * y.y| + |y.y * y.z| + |y.z * y.x| ≤ 1 := by
    rw [abs_mul, abs_mul, abs_mul]
    have := sq_abs y.x; have := sq_abs y.y; have := sq_abs y.z
    nlinarith [sq_nonneg (|y.x| - |y.y|), sq_nonneg (|y.y| - |y.z|), sq_nonneg (|y.z| - |y.x|)]
  have s2 : μ ≤ l.x.x * y.x ^ 2 + l.y.y * y.y ^ 2 + l.z.z * y.z ^ 2 := by
    have : μ = μ * y.x ^ 2 + μ * y.y ^ 2 + μ * y.z ^ 2 := by linear_combination -μ * hy
    linarith [mul_le_mul_of_nonneg_right m1 (sq_nonneg y.x), mul_le_mul_of_nonneg_right m2 (sq_nonneg y.y), mul_le_mul_of_nonneg_right m3 (sq_nonneg y.z)]
  nlinarith [mul_le_mul_of_nonneg_left s1 hτ.le]

/-! ## Singular values -/

/-- What a column of the decomposition is, `q` being the square of its singular value and `w` = `mᵀ` times the
column of `u`. -/
def Eig.Col (τ : ℝ) (w : Vec3 ℝ) (k : ℕ) (s : ℝ) (v : Vec3 ℝ) : Prop :=
  (w.sqrNorm ≤ τ ∧ k = 0 ∧ s = 0 ∧ v = w) ∨ (τ < w.sqrNorm ∧ k = 1 ∧ s * s = w.sqrNorm ∧ 0 < s ∧ w = v.mul s ∧ v.sqrNorm = 1)

private theorem svdCol_spec (hτ : 0 < τ) (rk : ℕ) (w : Vec3 ℝ) :
    ∃ k s v, svdCol τ rk w.sqrNorm w = (rk + k, s, v) ∧ Eig.Col τ w k s v := by
  have h0 : 0 ≤ w.sqrNorm := by simp only [zeo]; nlinarith [mul_self_nonneg w.x, mul_self_nonneg w.y, mul_self_nonneg w.z]
  unfold svdCol
  by_cases h : zIsTol w.sqrNorm τ
  · rw [if_pos h]
    exact ⟨0, 0, w, rfl, Or.inl ⟨(abs_le.1 h).2, rfl, rfl, rfl⟩⟩
  · rw [if_neg h]
    have h1 : τ < w.sqrNorm := by
      by_contra hc
      exact h (abs_le.2 ⟨by linarith, by linarith⟩)
    have hs : 0 < √w.sqrNorm := Real.sqrt_pos.2 (by linarith)
    have hss := Real.mul_self_sqrt h0
    generalize √w.sqrNorm = s at hs hss
    have hd : (w.div s w).2 = w.mul (1 / s) := by
      simp [Vec3.div, hs.ne']
    refine ⟨1, s, w.mul (1 / s), by rw [hd], Or.inr ⟨h1, rfl, hss, hs, ?_, ?_⟩⟩
    · ext <;> simp only [zeo] <;> field_simp
    · simp only [zeo] at hss ⊢
      field_simp
      linarith

theorem Eig.svd_spec (hτ : 0 < τ) (m : Mat3 ℝ) :
    ∃ (u : Mat3 ℝ) (val : Vec3 ℝ) (k0 k1 k2 : ℕ) (sv : Vec3 ℝ) (v : Mat3 ℝ), m.svd τ = some (k0 + k1 + k2, u, sv, v) ∧ u.IsRot ∧
      (m.mulMatT m).symEig τ = some (val, u) ∧
      val = ⟨(m.mulTVec u.x).sqrNorm, (m.mulTVec u.y).sqrNorm, (m.mulTVec u.z).sqrNorm⟩ ∧
      Eig.Col τ (m.mulTVec u.x) k0 sv.x v.x ∧ Eig.Col τ (m.mulTVec u.y) k1 sv.y v.y ∧ Eig.Col τ (m.mulTVec u.z) k2 sv.z v.z ∧
      |(m.mulTVec u.x).inner (m.mulTVec u.y)| ≤ τ ∧ |(m.mulTVec u.y).inner (m.mulTVec u.z)| ≤ τ ∧ |(m.mulTVec u.z).inner (m.mulTVec u.x)| ≤ τ := by
  have hsym : (m.mulMatT m).toMatrix.IsSymm := by
    rw [(C06_mat3_products m m m.x).2.2.1, Matrix.IsSymm, Matrix.transpose_mul, Matrix.transpose_transpose]
  obtain ⟨val, u, he, hR, hd, ho⟩ := C59_symEig hτ _ hsym
  have hW : u.toMatrixᵀ * (m.mulMatT m).toMatrix * u.toMatrix = (m.mulTMat u).toMatrixᵀ * (m.mulTMat u).toMatrix := by
    rw [(C06_mat3_products m m m.x).2.2.1, (C06_mat3_products m u m.x).2.1, Matrix.transpose_mul, Matrix.transpose_transpose]
    simp only [Matrix.mul_assoc]
  rw [hW] at hd ho
  have e0 := hd 0; have e1 := hd 1; have e2 := hd 2
  have o0 := ho 0 1 (by decide); have o1 := ho 1 2 (by decide); have o2 := ho 2 0 (by decide)
  simp only [Matrix.mul_apply, Fin.sum_univ_three, Matrix.transpose_apply, Mat3.toMatrix, Vec3.toFin] at e0 e1 e2 o0 o1 o2
  have hval : val = ⟨(m.mulTVec u.x).sqrNorm, (m.mulTVec u.y).sqrNorm, (m.mulTVec u.z).sqrNorm⟩ := by
    ext
    · exact e0.symm
    · exact e1.symm
    · exact e2.symm
  obtain ⟨k0, s0, v0, c0, d0⟩ := svdCol_spec hτ 0 (m.mulTVec u.x)
  obtain ⟨k1, s1, v1, c1, d1⟩ := svdCol_spec hτ k0 (m.mulTVec u.y)
  obtain ⟨k2, s2, v2, c2, d2⟩ := svdCol_spec hτ (k0 + k1) (m.mulTVec u.z)
  refine ⟨u, val, k0, k1, k2, ⟨s0, s1, s2⟩, ⟨v0, v1, v2⟩, ?_, hR, he, hval, d0, d1, d2, o0, o1, o2⟩
  rw [Nat.zero_add] at c0
  have f0 : svdCol τ 0 val.x (m.mulTMat u).x = (k0, s0, v0) := by rw [hval]; exact c0
  have f1 : svdCol τ k0 val.y (m.mulTMat u).y = (k0 + k1, s1, v1) := by rw [hval]; exact c1
  have f2 : svdCol τ (k0 + k1) val.z (m.mulTMat u).z = (k0 + k1 + k2, s2, v2) := by rw [hval]; exact c2
  simp only [Mat3.svd, he, Option.map_some, f0, f1, f2]

theorem Eig.Col.k {w v : Vec3 ℝ} {k : ℕ} {s : ℝ} (h : Eig.Col τ w k s v) : 0 ≤ s ∧ k = if s = 0 then 0 else 1 := by
  rcases h with ⟨_, h1, h2, _⟩ | ⟨_, h1, _, h2, _⟩
  · simp [h1, h2]
  · simp [h1, h2.ne', h2.le]

theorem Eig.Col.err {w v : Vec3 ℝ} {k : ℕ} {s : ℝ} (h : Eig.Col τ w k s v) : (w.sub (v.mul s)).sqrNorm ≤ (1 - k) * τ := by
  rcases h with ⟨h0, h1, h2, h3⟩ | ⟨h0, h1, h2, h3, h4, h5⟩
  · subst h1 h2 h3
    have : (v.sub (v.mul 0)).sqrNorm = v.sqrNorm := by simp only [zeo]; ring
    rw [this]; simpa using h0
  · subst h1; rw [← h4]; simp [zeo]

theorem Eig.Col.norm {w v : Vec3 ℝ} {k : ℕ} {s : ℝ} (h : Eig.Col τ w k s v) : (s = 0 → v.sqrNorm ≤ τ) ∧ (s ≠ 0 → v.sqrNorm = 1) := by
  rcases h with ⟨h0, h1, h2, h3⟩ | ⟨h0, h1, h2, h3, h4, h5⟩
  · exact ⟨fun _ => h3 ▸ h0, fun h => absurd h2 h⟩
  · exact ⟨fun h => absurd h h3.ne', fun _ => h5⟩

theorem Eig.Col.cross (hτ : 0 < τ) {w v w' v' : Vec3 ℝ} {k k' : ℕ} {s s' : ℝ} (h : Eig.Col τ w k s v) (h' : Eig.Col τ w' k' s' v')
    (hw : |w.inner w'| ≤ τ) : |v.inner v'| * (s * s') ≤ τ := by
  rcases h with ⟨h0, h1, h2, h3⟩ | ⟨h0, h1, h2, h3, h4, h5⟩
  · rw [h2]; simpa using hτ.le
  · rcases h' with ⟨g0, g1, g2, g3⟩ | ⟨g0, g1, g2, g3, g4, g5⟩
    · rw [g2]; simpa using hτ.le
    · rw [h4, g4] at hw
      have : (v.mul s).inner (v'.mul s') = v.inner v' * (s * s') := by simp only [zeo]; ring
      rwa [this, abs_mul, abs_of_pos (mul_pos h3 g3)] at hw

theorem Eig.Col.sq {w v : Vec3 ℝ} {k : ℕ} {s : ℝ} (h : Eig.Col τ w k s v) (hτ : 0 < τ) : |w.sqrNorm - s ^ 2| ≤ τ := by
  have h0 : 0 ≤ w.sqrNorm := by simp only [zeo]; nlinarith [mul_self_nonneg w.x, mul_self_nonneg w.y, mul_self_nonneg w.z]
  rcases h with ⟨h0, h1, h2, h3⟩ | ⟨h0, h1, h2, h3, h4, h5⟩
  · rw [h2]; simpa [abs_of_nonneg, *] using h0
  · rw [← h2]; simp [pow_two, hτ.le]

/-- **C59** (`zMat3DSVD`): the decomposition always ends; `u` is a rotation matrix, the singular values are not
negative, the returned rank counts the non-zero ones, and `u diag(sv) vᵀ` recovers the matrix with a squared
error (sum over the nine components) of at most the tolerance per vanishing singular value -- in particular
exactly if the rank is full. -/
theorem C59_svd (hτ : 0 < τ) (m : Mat3 ℝ) : ∃ rank u sv v, m.svd τ = some (rank, u, sv, v) ∧ u.IsRot ∧
    (∀ i, 0 ≤ sv.toFin i) ∧ rank = (Finset.univ.filter fun i => sv.toFin i ≠ 0).card ∧
    ∑ i, ∑ j, (m.toMatrix - u.toMatrix * Matrix.diagonal sv.toFin * v.toMatrixᵀ) i j ^ 2 ≤ (3 - rank) * τ ∧
    (rank = 3 → m.toMatrix = u.toMatrix * Matrix.diagonal sv.toFin * v.toMatrixᵀ) := by
  obtain ⟨u, val, k0, k1, k2, sv, v, h, hR, -, -, c0, c1, c2, -⟩ := Eig.svd_spec hτ m
  have main : ∑ i, ∑ j, (m.toMatrix - u.toMatrix * Matrix.diagonal sv.toFin * v.toMatrixᵀ) i j ^ 2 ≤ (3 - ((k0 + k1 + k2 : ℕ) : ℝ)) * τ := by
    have key : ∀ p q s : ℝ, ((u.x.mul p).add ((u.y.mul q).add (u.z.mul s))).sqrNorm = p ^ 2 + q ^ 2 + s ^ 2 := by
      intro p q s
      obtain ⟨c1, c2, c3, c4, c5, c6⟩ := hR.cols
      simp only [zeo]; grind
    have e0 := c0.err; have e1 := c1.err; have e2 := c2.err
    set d0 := (m.mulTVec u.x).sub (v.x.mul sv.x) with hd0
    set d1 := (m.mulTVec u.y).sub (v.y.mul sv.y) with hd1
    set d2 := (m.mulTVec u.z).sub (v.z.mul sv.z) with hd2
    have hm : m.toMatrix = u.toMatrix * (m.mulTMat u).toMatrixᵀ := by
      rw [(C06_mat3_products m u m.x).2.1, Matrix.transpose_mul, Matrix.transpose_transpose, ← Matrix.mul_assoc, mul_eq_one_comm.1 hR.1, Matrix.one_mul]
    have ent : ∀ a b, (m.toMatrix - u.toMatrix * Matrix.diagonal sv.toFin * v.toMatrixᵀ) a b =
        ((u.x.mul (d0.toFin b)).add ((u.y.mul (d1.toFin b)).add (u.z.mul (d2.toFin b)))).toFin a := by
      intro a b
      have t : (m.toMatrix - u.toMatrix * Matrix.diagonal sv.toFin * v.toMatrixᵀ) a b =
          (u.toMatrix * (m.mulTMat u).toMatrixᵀ) a b - (u.toMatrix * Matrix.diagonal sv.toFin * v.toMatrixᵀ) a b := by
        rw [← hm]; rfl
      rw [t, hd0, hd1, hd2]
      simp only [Matrix.mul_apply, Matrix.transpose_apply, Fin.sum_univ_three, Matrix.diagonal_apply]
      generalize hw : m.mulTMat u = W
      have w0 : m.mulTVec u.x = W.x := by rw [← hw]; rfl
      have w1 : m.mulTVec u.y = W.y := by rw [← hw]; rfl
      have w2 : m.mulTVec u.z = W.z := by rw [← hw]; rfl
      rw [w0, w1, w2]
      fin_cases a <;> fin_cases b <;> simp [Mat3.toMatrix, Vec3.toFin, zeo] <;> ring
    have col : ∀ b, ∑ a, (m.toMatrix - u.toMatrix * Matrix.diagonal sv.toFin * v.toMatrixᵀ) a b ^ 2 = d0.toFin b ^ 2 + d1.toFin b ^ 2 + d2.toFin b ^ 2 := by
      intro b
      rw [← key]
      simp only [ent, Fin.sum_univ_three]
      generalize (u.x.mul (d0.toFin b)).add ((u.y.mul (d1.toFin b)).add (u.z.mul (d2.toFin b))) = w
      simp [Vec3.toFin, zeo, pow_two]
    rw [Finset.sum_comm]
    simp only [col, Fin.sum_univ_three]
    simp only [Vec3.toFin, zeo] at e0 e1 e2 ⊢
    push_cast
    simp
    nlinarith
  refine ⟨k0 + k1 + k2, u, sv, v, h, hR, ?_, ?_, main, ?_⟩
  · intro i; fin_cases i
    · exact c0.k.1
    · exact c1.k.1
    · exact c2.k.1
  · rw [c0.k.2, c1.k.2, c2.k.2, Finset.card_filter, Fin.sum_univ_three]
    by_cases a : sv.x = 0 <;> by_cases b : sv.y = 0 <;> by_cases c : sv.z = 0 <;> simp [Vec3.toFin, a, b, c]
  · intro h3
    rw [h3] at main
    have hz : ∑ i, ∑ j, (m.toMatrix - u.toMatrix * Matrix.diagonal sv.toFin * v.toMatrixᵀ) i j ^ 2 = 0 :=
      le_antisymm (by simpa using main) (Finset.sum_nonneg fun i _ => Finset.sum_nonneg fun j _ => sq_nonneg _)
    ext i j
    have := (Finset.sum_eq_zero_iff_of_nonneg fun i _ => Finset.sum_nonneg fun j _ => sq_nonneg _).1 hz i (Finset.mem_univ i)
    have := (Finset.sum_eq_zero_iff_of_nonneg fun j _ => sq_nonneg _).1 this j (Finset.mem_univ j)
    exact sub_eq_zero.1 (pow_eq_zero_iff (two_ne_zero) |>.1 this)

/-- The columns of `v` that belong to a non-zero singular value are unit vectors, mutually orthogonal up to the
tolerance over the product of the singular values; the others are no longer than the square root of the
tolerance.  Every eigenvalue of `m mᵀ` is within `3τ` of the square of a returned singular value. -/
theorem C59_svd_columns (hτ : 0 < τ) (m : Mat3 ℝ) (rank : ℕ) (u : Mat3 ℝ) (sv : Vec3 ℝ) (v : Mat3 ℝ)
    (h : m.svd τ = some (rank, u, sv, v)) :
    (∀ i, sv.toFin i ≠ 0 → (v.toMatrixᵀ * v.toMatrix) i i = 1) ∧ (∀ i, sv.toFin i = 0 → (v.toMatrixᵀ * v.toMatrix) i i ≤ τ) ∧
    (∀ i j, i ≠ j → |(v.toMatrixᵀ * v.toMatrix) i j| * (sv.toFin i * sv.toFin j) ≤ τ) ∧
    ∀ (μ : ℝ) (x : Fin 3 → ℝ), x ≠ 0 → (m.toMatrix * m.toMatrixᵀ) *ᵥ x = μ • x → ∃ i, |μ - sv.toFin i ^ 2| ≤ 3 * τ := by
  obtain ⟨u', val, k0, k1, k2, sv', v', h', hR, he, hv, c0, c1, c2, o0, o1, o2⟩ := Eig.svd_spec hτ m
  rw [h] at h'
  obtain ⟨-, rfl, rfl, rfl⟩ : rank = _ ∧ u = u' ∧ sv = sv' ∧ v = v' := by simpa using h'
  have vv : ∀ i j, (v.toMatrixᵀ * v.toMatrix) i j = (v.v i).inner (v.v j) := by
    intro i j
    rcases (by decide : ∀ i : Fin 3, i = 0 ∨ i = 1 ∨ i = 2) i with rfl | rfl | rfl <;>
    rcases (by decide : ∀ i : Fin 3, i = 0 ∨ i = 1 ∨ i = 2) j with rfl | rfl | rfl <;>
    simp [Matrix.mul_apply, Fin.sum_univ_three, Mat3.toMatrix, Mat3.v, Vec3.inner]
  have comm : ∀ a b : Vec3 ℝ, a.inner b = b.inner a := by intro a b; simp only [zeo]; ring
  refine ⟨?_, ?_, ?_, ?_⟩
  · intro i hi
    rw [vv]
    rcases (by decide : ∀ i : Fin 3, i = 0 ∨ i = 1 ∨ i = 2) i with rfl | rfl | rfl
    · exact c0.norm.2 hi
    · exact c1.norm.2 hi
    · exact c2.norm.2 hi
  · intro i hi
    rw [vv]
    rcases (by decide : ∀ i : Fin 3, i = 0 ∨ i = 1 ∨ i = 2) i with rfl | rfl | rfl
    · exact c0.norm.1 hi
    · exact c1.norm.1 hi
    · exact c2.norm.1 hi
  · intro i j hij
    rw [vv]
    rcases (by decide : ∀ i : Fin 3, i = 0 ∨ i = 1 ∨ i = 2) i with rfl | rfl | rfl <;>
    rcases (by decide : ∀ i : Fin 3, i = 0 ∨ i = 1 ∨ i = 2) j with rfl | rfl | rfl
    · exact absurd rfl hij
    · exact c0.cross hτ c1 o0
    · exact c0.cross hτ c2 (comm _ _ ▸ o2)
    · exact c1.cross hτ c0 (comm _ _ ▸ o0)
    · exact absurd rfl hij
    · exact c1.cross hτ c2 o1
    · exact c2.cross hτ c0 o2
    · exact c2.cross hτ c1 (comm _ _ ▸ o1)
    · exact absurd rfl hij
  · intro μ x hx hxe
    have hT : (m.mulMatT m).toMatrix = m.toMatrix * m.toMatrixᵀ := (C06_mat3_products m m m.x).2.2.1
    have hsym : (m.mulMatT m).toMatrix.IsSymm := by
      rw [hT, Matrix.IsSymm, Matrix.transpose_mul, Matrix.transpose_transpose]
    obtain ⟨i, hi⟩ := (C59_eigenvalue hτ _ hsym _ _ he).1 μ x hx (hT ▸ hxe)
    refine ⟨i, ?_⟩
    have : |val.toFin i - sv.toFin i ^ 2| ≤ τ := by
      rw [hv]
      rcases (by decide : ∀ i : Fin 3, i = 0 ∨ i = 1 ∨ i = 2) i with rfl | rfl | rfl
      · exact c0.sq hτ
      · exact c1.sq hτ
      · exact c2.sq hτ
    calc |μ - sv.toFin i ^ 2| = |(μ - val.toFin i) + (val.toFin i - sv.toFin i ^ 2)| := by ring_nf
      _ ≤ _ := (abs_add_le _ _).trans (by linarith)

/-- **C59, refuted clause** (`zMat3DSVD`, in a singular value decomposition both `u` and `v` are orthogonal): for every singular matrix, `v` is not orthogonal -- its columns of vanishing singular values are not
completed to a basis. -/
theorem C59_svd_singular_wrong (hτ : 0 < τ) (hτ1 : τ < 1) (m : Mat3 ℝ) (hm : Matrix.det m.toMatrix = 0) (rank : ℕ) (u : Mat3 ℝ) (sv : Vec3 ℝ)
    (v : Mat3 ℝ) (h : m.svd τ = some (rank, u, sv, v)) : v.toMatrixᵀ * v.toMatrix ≠ 1 := by
  intro hv
  obtain ⟨_, u', sv', v', h', hR, hpos, hrk, -, h3⟩ := C59_svd hτ m
  rw [h] at h'
  obtain ⟨rfl, rfl, rfl, rfl⟩ : rank = _ ∧ u = u' ∧ sv = sv' ∧ v = v' := by simpa using h'
  obtain ⟨-, ht, -⟩ := C59_svd_columns hτ m _ _ _ _ h
  have hnz : ∀ i, sv.toFin i ≠ 0 := by
    intro i hi
    have := ht i hi
    rw [hv, Matrix.one_apply_eq] at this
    linarith
  have hr : rank = 3 := by rw [hrk, Finset.filter_true_of_mem fun i _ => hnz i]; rfl
  have hd := congrArg Matrix.det (h3 hr)
  rw [hm, Matrix.det_mul, Matrix.det_mul, Matrix.det_transpose, Matrix.det_diagonal, Fin.prod_univ_three] at hd
  have du : Matrix.det u.toMatrix ≠ 0 := by rw [hR.2]; exact one_ne_zero
  have dv : Matrix.det v.toMatrix ≠ 0 := by
    intro h0
    have := congrArg Matrix.det hv
    rw [Matrix.det_mul, h0, mul_zero, Matrix.det_one] at this
    exact zero_ne_one this
  exact (mul_ne_zero (mul_ne_zero du (mul_ne_zero (mul_ne_zero (hnz 0) (hnz 1)) (hnz 2))) dv) hd.symm

/-- **C59, refuted clause** (`zMat3DSVD` returns the number of non-zero singular values): the squares of the
singular values are compared with the tolerance, so `√τ` times the identity, whose singular values are far
above the tolerance, is reported to have rank zero. -/
theorem C59_svd_rank_wrong (hτ : 0 < τ) : ∃ u v, ((Mat3.ident : Mat3 ℝ).mul √τ).svd τ = some (0, u, ⟨0, 0, 0⟩, v) := by
  obtain ⟨u, val, k0, k1, k2, sv, v, h, hR, -, -, c0, c1, c2, -⟩ := Eig.svd_spec hτ ((Mat3.ident : Mat3 ℝ).mul √τ)
  have hs : √τ * √τ = τ := Real.mul_self_sqrt hτ.le
  obtain ⟨r1, r2, r3, -⟩ := hR.cols
  have n0 : ∀ w : Vec3 ℝ, w.x * w.x + w.y * w.y + w.z * w.z = 1 → (((Mat3.ident : Mat3 ℝ).mul √τ).mulTVec w).sqrNorm = τ := by
    intro w hw
    have : (((Mat3.ident : Mat3 ℝ).mul √τ).mulTVec w).sqrNorm = √τ * √τ * (w.x * w.x + w.y * w.y + w.z * w.z) := by
      simp only [zeo]; ring
    rw [this, hs, hw, mul_one]
  have z : ∀ {w v : Vec3 ℝ} {k : ℕ} {s : ℝ}, Eig.Col τ w k s v → w.sqrNorm = τ → k = 0 ∧ s = 0 := by
    rintro w v k s (⟨_, h1, h2, _⟩ | ⟨h1, _⟩) hw
    · exact ⟨h1, h2⟩
    · rw [hw] at h1; exact absurd h1 (lt_irrefl _)
  obtain ⟨a0, b0⟩ := z c0 (n0 _ r1)
  obtain ⟨a1, b1⟩ := z c1 (n0 _ r2)
  obtain ⟨a2, b2⟩ := z c2 (n0 _ r3)
  refine ⟨u, v, ?_⟩
  rw [h, a0, a1, a2, show sv = ⟨0, 0, 0⟩ from Vec3.ext b0 b1 b2]

/-- A symmetric matrix that is not diagonal, with eigenvalues 1, 3 and 5. -/
private def exSym : Mat3 ℝ := ⟨⟨2, 1, 0⟩, ⟨1, 2, 0⟩, ⟨0, 0, 5⟩⟩

private theorem exSym_symm : exSym.toMatrix.IsSymm := by
  ext i j
  rcases (by decide : ∀ i : Fin 3, i = 0 ∨ i = 1 ∨ i = 2) i with rfl | rfl | rfl <;>
  rcases (by decide : ∀ i : Fin 3, i = 0 ∨ i = 1 ∨ i = 2) j with rfl | rfl | rfl <;> simp [exSym, Mat3.toMatrix]

/-- The hypotheses hold for `exSym`, and all three of its eigenvalues are found. -/
example : ∃ val base, exSym.symEig (1 / 10) = some (val, base) ∧ base.IsRot ∧
    (∃ i, |1 - val.toFin i| ≤ 1 / 5) ∧ (∃ i, |3 - val.toFin i| ≤ 1 / 5) ∧ ∃ i, |5 - val.toFin i| ≤ 1 / 5 := by
  obtain ⟨val, base, h, hR, -⟩ := C59_symEig (by norm_num : (0 : ℝ) < 1 / 10) exSym exSym_symm
  have e := (C59_eigenvalue (by norm_num) exSym exSym_symm _ _ h).1
  have t : (2 * (1 / 10) : ℝ) = 1 / 5 := by norm_num
  rw [t] at e
  have ne : ∀ a b c : ℝ, a ≠ 0 ∨ c ≠ 0 → (![a, b, c] : Fin 3 → ℝ) ≠ 0 := by
    intro a b c h h0
    rcases h with h | h
    · exact h (congrFun h0 0)
    · exact h (congrFun h0 2)
  refine ⟨val, base, h, hR, e 1 ![1, -1, 0] (ne _ _ _ (by norm_num)) ?_, e 3 ![1, 1, 0] (ne _ _ _ (by norm_num)) ?_, e 5 ![0, 0, 1] (ne _ _ _ (by norm_num)) ?_⟩ <;>
  · ext i
    rcases (by decide : ∀ i : Fin 3, i = 0 ∨ i = 1 ∨ i = 2) i with rfl | rfl | rfl <;>
      simp [Matrix.mulVec, dotProduct, Fin.sum_univ_three, exSym, Mat3.toMatrix] <;> norm_num

/-- The projection onto the horizontal plane meets the hypotheses of the refutation. -/
example : Matrix.det (⟨⟨1, 0, 0⟩, ⟨0, 1, 0⟩, ⟨0, 0, 0⟩⟩ : Mat3 ℝ).toMatrix = 0 := by
  simp [Matrix.det_fin_three, Mat3.toMatrix]

end Zeo
