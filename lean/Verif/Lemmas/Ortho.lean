import Verif.Lemmas.Triangle
import Verif.Lemmas.Rot

/-! # The orthonormal frame completed from one vector -/

namespace Zeo
noncomputable section

private theorem not_tol_of_sq {τ : ℝ} (hτ : 0 ≤ τ) {v : Vec3 ℝ} (h : 3 * τ ^ 2 < v.sqrNorm) : ¬ v.isTol τ := by
  rintro ⟨h1, h2, h3⟩
  simp only [zIsTol] at h1 h2 h3
  have a1 := sq_le_sq' (by linarith [abs_le.1 h1]) (abs_le.1 h1).2
  have a2 := sq_le_sq' (by linarith [abs_le.1 h2]) (abs_le.1 h2).2
  have a3 := sq_le_sq' (by linarith [abs_le.1 h3]) (abs_le.1 h3).2
  simp only [Vec3.sqrNorm, Vec3.inner] at h
  nlinarith

/-- Completing a vector that is longer than four tolerances. -/
theorem orthonormalSpace_spec {τ : ℝ} (hτ : 0 ≤ τ) (hτ' : τ ≤ 1/4) {v : Vec3 ℝ} (h : 4 * τ < v.norm) :
    ∃ s1 s2, v.orthoSpace τ = some (s1, s2.mul v.norm) ∧ v.orthonormalSpace τ = some (v.mul (1 / v.norm), s1, s2) ∧
      Mat3.IsRot ⟨s1, s2, v.mul (1 / v.norm)⟩ := by
  have hn0 : 0 < v.norm := by linarith
  have hsq : v.norm ^ 2 = v.sqrNorm := Vec3.norm_sq v
  have h16 : 16 * τ ^ 2 < v.sqrNorm := by nlinarith
  have hv : ¬ v.isTol τ := not_tol_of_sq hτ (by nlinarith [sq_nonneg τ])
  set ov : Vec3 ℝ := if ¬ zIsTol v.x τ ∨ ¬ zIsTol v.y τ then ⟨v.y, -v.x, 0⟩ else ⟨v.y - v.z, v.z - v.x, v.x - v.y⟩ with hov
  have hperp : v.inner ov = 0 := by
    rw [hov]; split <;> simp only [Vec3.inner] <;> ring
  have hovt : ¬ ov.isTol τ := by
    rw [hov]
    split
    · rename_i hc
      rintro ⟨h1, h2, -⟩
      simp only [zIsTol, abs_neg] at h1 h2
      rcases hc with hc | hc
      · exact hc h2
      · exact hc h1
    · rename_i hc
      push Not at hc
      rintro ⟨h1, h2, -⟩
      simp only [zIsTol] at h1 h2 hc
      have a1 := abs_le.1 h1; have a2 := abs_le.1 hc.1; have a3 := abs_le.1 hc.2
      have hz : |v.z| ≤ 2 * τ := abs_le.2 ⟨by linarith, by linarith⟩
      have b1 := sq_le_sq' (by linarith [abs_le.1 hz]) (abs_le.1 hz).2
      have b2 := sq_le_sq' (by linarith) a2.2
      have b3 := sq_le_sq' (by linarith) a3.2
      simp only [Vec3.sqrNorm, Vec3.inner] at h16
      nlinarith
  obtain ⟨u1, u2, u3⟩ := normalize_unit hτ (old := ov) hovt
  set s1 := (ov.normalize τ ov).2 with hs1
  have ho : v.orthonormal τ = (true, s1) := by
    unfold Vec3.orthonormal
    dsimp only
    rw [← hov, if_neg hovt]
  have hperp1 : v.inner s1 = 0 := by
    rw [u2] at hperp
    have : v.inner (s1.mul ov.norm) = v.inner s1 * ov.norm := by simp only [Vec3.inner, Vec3.mul]; ring
    rw [this] at hperp
    rcases mul_eq_zero.1 hperp with h | h
    · exact h
    · exact absurd h u3.ne'
  have hs1t : ¬ s1.isTol τ := not_tol_of_sq hτ (by rw [u1]; nlinarith)
  have hs1n : (s1.normalize τ s1).2 = s1 := by
    obtain ⟨-, w2, -⟩ := normalize_unit hτ (old := s1) hs1t
    have hn : s1.norm = 1 := by rw [Vec3.norm, u1, Real.sqrt_one]
    rw [hn] at w2
    have : ∀ w : Vec3 ℝ, w.mul 1 = w := fun w => by ext <;> simp [Vec3.mul]
    rw [this] at w2; exact w2.symm
  set s2' := v.outer s1 with hs2'
  have hs2sq : s2'.sqrNorm = v.sqrNorm := by
    have : s2'.sqrNorm = v.sqrNorm * s1.sqrNorm - (v.inner s1) ^ 2 := by
      rw [hs2']; simp only [Vec3.sqrNorm, Vec3.inner, Vec3.outer]; ring
    rw [this, u1, hperp1]; ring
  have hs2t : ¬ s2'.isTol τ := not_tol_of_sq hτ (by rw [hs2sq]; nlinarith [sq_nonneg τ])
  have hs2norm : s2'.norm = v.norm := by rw [Vec3.norm, hs2sq, Vec3.norm]
  obtain ⟨-, w2, -⟩ := normalize_unit hτ (old := s2') hs2t
  rw [hs2norm] at w2
  set s2 := (s2'.normalize τ s2').2 with hs2
  have hvn : (v.normalize τ v).2 = v.mul (1 / v.norm) := by rw [Vec3.normalize, if_neg hv]; rfl
  have hos : v.orthoSpace τ = some (s1, s2') := by
    unfold Vec3.orthoSpace; rw [ho]; simp [hs2']
  refine ⟨s1, s2, by rw [hos, ← w2], ?_, ?_⟩
  · unfold Vec3.orthonormalSpace
    rw [hos]
    simp only [hvn, hs1n, ← hs2]
  · have hinv : v.norm * (1 / v.norm) = 1 := by field_simp
    set k := 1 / v.norm with hk
    have hs2v : s2 = s2'.mul k := by
      rw [w2]; ext <;> simp only [Vec3.mul] <;> linear_combination (-_) * hinv
    have hkk : v.sqrNorm * k ^ 2 = 1 := by rw [← hsq]; nlinarith
    rw [hs2v, hs2']
    simp only [Vec3.sqrNorm, Vec3.inner] at u1 hperp1 hkk
    have e1 : (Mat3.t ⟨s1, (v.outer s1).mul k, v.mul k⟩).mulMat ⟨s1, (v.outer s1).mul k, v.mul k⟩ = .ident := by
      ext <;> simp only [zeo] <;> grind
    rw [Mat3.isRot_iff]
    refine ⟨e1, ?_⟩
    simp only [zeo]
    grind

end
end Zeo
