import Verif.Model.Elem
import Verif.Lemmas.Convex

/-! Facts behind the closest point of a triangle. -/

namespace Zeo

theorem normalize_unit {τ : ℝ} (hτ : 0 ≤ τ) {n old : Vec3 ℝ} (h : ¬ n.isTol τ) :
    ((n.normalize τ old).2).sqrNorm = 1 ∧ n = ((n.normalize τ old).2).mul n.norm ∧ 0 < n.norm := by
  have hp := Vec3.norm_pos_of_not_isTol hτ h
  have hs := Vec3.norm_sq n
  rw [Vec3.normalize, if_neg h]
  refine ⟨?_, ?_, hp⟩
  · simp only [Vec3.normalizeNC]
    have : (n.mul (1 / n.norm)).sqrNorm = n.sqrNorm / n.norm ^ 2 := by
      simp only [Vec3.mul, Vec3.sqrNorm, Vec3.inner]; field_simp
    rw [this, hs, div_self]
    rw [← hs]; positivity
  · simp only [Vec3.normalizeNC]
    ext <;> simp only [Vec3.mul] <;> field_simp

/-- `zVec3DOrthoSpace` succeeds on unit vectors for every tolerance up to 1/4. -/
theorem orthoSpace_unit {τ : ℝ} (hτ : 0 ≤ τ) (hτ' : τ ≤ 1/4) {u : Vec3 ℝ} (hu : u.sqrNorm = 1) :
    ∃ t1, u.orthoSpace τ = some (t1, u.outer t1) ∧ t1.sqrNorm = 1 ∧ t1.inner u = 0 := by
  have hu' : u.x * u.x + u.y * u.y + u.z * u.z = 1 := by simpa only [zeo] using hu
  have main : ∀ ov : Vec3 ℝ, ov = (if ¬ zIsTol u.x τ ∨ ¬ zIsTol u.y τ then (⟨u.y, -u.x, 0⟩ : Vec3 ℝ)
      else ⟨u.y - u.z, u.z - u.x, u.x - u.y⟩) → ¬ ov.isTol τ ∧ ov.inner u = 0 := by
    intro ov hov
    by_cases hc : ¬ zIsTol u.x τ ∨ ¬ zIsTol u.y τ
    · rw [if_pos hc] at hov
      subst hov
      refine ⟨?_, by simp only [zeo]; ring⟩
      rintro ⟨h1, h2, -⟩
      simp only [zIsTol, abs_neg] at h1 h2 hc
      rcases hc with hc | hc
      · exact hc h2
      · exact hc h1
    · rw [if_neg hc] at hov
      subst hov
      refine ⟨?_, by simp only [zeo]; ring⟩
      rintro ⟨h1, h2, -⟩
      simp only [zIsTol, abs_le] at h1 h2 hc
      push Not at hc
      obtain ⟨⟨a1, a2⟩, b1, b2⟩ := hc
      have z1 : u.z ≤ 1/2 := by linarith [h1.1]
      have z2 : -(1/2) ≤ u.z := by linarith [h1.2]
      nlinarith
  obtain ⟨h1, h2⟩ := main _ rfl
  unfold Vec3.orthoSpace Vec3.orthonormal
  simp only [if_neg h1]
  obtain ⟨n1, n2, n3⟩ := normalize_unit hτ (old := (if ¬ zIsTol u.x τ ∨ ¬ zIsTol u.y τ then (⟨u.y, -u.x, 0⟩ : Vec3 ℝ)
      else ⟨u.y - u.z, u.z - u.x, u.x - u.y⟩)) h1
  refine ⟨_, by simp, n1, ?_⟩
  generalize (if ¬ zIsTol u.x τ ∨ ¬ zIsTol u.y τ then (⟨u.y, -u.x, 0⟩ : Vec3 ℝ)
      else ⟨u.y - u.z, u.z - u.x, u.x - u.y⟩) = ov at *
  rw [n2] at h2
  have : ((ov.normalize τ ov).2.mul ov.norm).inner u = ov.norm * ((ov.normalize τ ov).2.inner u) := by
    simp only [zeo]; ring
  rw [this] at h2
  exact (mul_eq_zero.1 h2).resolve_left n3.ne'

/-- The normalization of a direction does not change the sign of its products. -/
theorem normalize_inner_pos {τ : ℝ} (hτ : 0 ≤ τ) (n q : Vec3 ℝ) :
    0 < ((n.normalize τ n).2).inner q ↔ 0 < n.inner q := by
  by_cases h : n.isTol τ
  · rw [Vec3.normalize, if_pos h]
  · obtain ⟨-, h2, h3⟩ := normalize_unit hτ (old := n) h
    have : n.inner q = n.norm * ((n.normalize τ n).2.inner q) := by
      conv_lhs => rw [h2]
      simp only [Vec3.inner, Vec3.mul]; ring
    rw [this]
    exact (mul_pos_iff_of_pos_left h3).symm

section plane
variable {v0 v1 v2 u : Vec3 ℝ} {N : ℝ}

theorem tri_plane (hn : Tri3.outerProd v0 v1 v2 = u.mul N) (hN : 0 < N) :
    v1.inner u = v0.inner u ∧ v2.inner u = v0.inner u := by
  have h1 : (Tri3.outerProd v0 v1 v2).inner (v1.sub v0) = 0 := by simp only [Tri3.outerProd, zeo]; ring
  have h2 : (Tri3.outerProd v0 v1 v2).inner (v2.sub v0) = 0 := by simp only [Tri3.outerProd, zeo]; ring
  rw [hn] at h1 h2
  have e1 : (u.mul N).inner (v1.sub v0) = N * (v1.inner u - v0.inner u) := by simp only [zeo]; ring
  have e2 : (u.mul N).inner (v2.sub v0) = N * (v2.inner u - v0.inner u) := by simp only [zeo]; ring
  rw [e1] at h1
  rw [e2] at h2
  exact ⟨sub_eq_zero.1 ((mul_eq_zero.1 h1).resolve_left hN.ne'), sub_eq_zero.1 ((mul_eq_zero.1 h2).resolve_left hN.ne')⟩

theorem tri_bary_sum (hn : Tri3.outerProd v0 v1 v2 = u.mul N) (hu : u.sqrNorm = 1) :
    u.inner (v1.outer v2) + u.inner (v2.outer v0) + u.inner (v0.outer v1) = N := by
  have : u.inner (v1.outer v2) + u.inner (v2.outer v0) + u.inner (v0.outer v1) = u.inner (Tri3.outerProd v0 v1 v2) := by
    simp only [Tri3.outerProd, zeo]; ring
  rw [this, hn]
  have : u.inner (u.mul N) = N * u.sqrNorm := by simp only [zeo]; ring
  rw [this, hu, mul_one]

theorem tri_bary (hn : Tri3.outerProd v0 v1 v2 = u.mul N) :
    Spec.comb (u.inner (v1.outer v2)) (u.inner (v2.outer v0)) (u.inner (v0.outer v1)) 0 v0 v1 v2 v0
      = (u.mul (v0.inner u)).mul N := by
  have h : v0.inner (Tri3.outerProd v0 v1 v2) = v0.inner (v1.outer v2) := by simp only [Tri3.outerProd, zeo]; ring
  rw [hn] at h
  have h' : v0.inner (u.mul N) = N * v0.inner u := by simp only [zeo]; ring
  rw [h'] at h
  have e : Spec.comb (u.inner (v1.outer v2)) (u.inner (v2.outer v0)) (u.inner (v0.outer v1)) 0 v0 v1 v2 v0
      = u.mul (v0.inner (v1.outer v2)) := by
    ext <;> simp only [Spec.comb, zeo] <;> ring
  rw [e, ← h]
  ext <;> simp only [zeo] <;> ring

theorem tri_bary_div (hn : Tri3.outerProd v0 v1 v2 = u.mul N) (hN : 0 < N) :
    Spec.comb (u.inner (v1.outer v2) / N) (u.inner (v2.outer v0) / N) (u.inner (v0.outer v1) / N) 0 v0 v1 v2 v0
      = u.mul (v0.inner u) := by
  have h := tri_bary hn
  have hN' := hN.ne'
  have h1 := congrArg Vec3.x h
  have h2 := congrArg Vec3.y h
  have h3 := congrArg Vec3.z h
  simp only [Spec.comb, Vec3.mul] at h1 h2 h3
  ext <;> simp only [Spec.comb, Vec3.mul] <;> field_simp <;> linarith

/-- The projection of the origin computed by the code. -/
theorem tri_proj (hn : Tri3.outerProd v0 v1 v2 = u.mul N) (hN : 0 < N) :
    ((⟨v0, v1, v2, u⟩ : Tri3 ℝ).projPoint .zero).2 = u.mul (v0.inner u) := by
  obtain ⟨h1, h2⟩ := tri_plane hn hN
  have : (⟨v0, v1, v2, u⟩ : Tri3 ℝ).distFromPointToPlane .zero = -v0.inner u := by
    have e : (⟨v0, v1, v2, u⟩ : Tri3 ℝ).distFromPointToPlane .zero = -(v0.inner u + v1.inner u + v2.inner u) / 3 := by
      simp only [Tri3.distFromPointToPlane, zeo]; ring
    rw [e, h1, h2]; ring
  simp only [Tri3.projPoint, this]
  ext <;> simp only [zeo] <;> ring

/-- The edge test is the sign of the opposite barycentric coordinate. -/
theorem tri_outside {τ : ℝ} (hτ : 0 ≤ τ) (k : ℝ) (a b u : Vec3 ℝ) :
    Tri3.outsideEdge τ u a b (u.mul k) ↔ u.inner (a.outer b) < 0 := by
  simp only [Tri3.outsideEdge]
  rw [normalize_inner_pos hτ]
  have : ((b.sub a).outer u).inner ((u.mul k).sub a) = -u.inner (a.outer b) := by simp only [zeo]; ring
  rw [this, neg_pos]

/-- Points of the plane of the triangle: the squared norm splits. -/
theorem tri_inner_comb (h1 : v1.inner u = v0.inner u) (h2 : v2.inner u = v0.inner u) {a b c : ℝ} (hs : a + b + c = 1) :
    (Spec.comb a b c 0 v0 v1 v2 v0).inner u = v0.inner u := by
  have : (Spec.comb a b c 0 v0 v1 v2 v0).inner u = a * v0.inner u + b * v1.inner u + c * v2.inner u := by
    simp only [Spec.comb, zeo]; ring
  rw [this, h1, h2]; linear_combination v0.inner u * hs

theorem sqd_zero_split (hu : u.sqrNorm = 1) (q : Vec3 ℝ) {k : ℝ} (hq : q.inner u = k) :
    Spec.sqd .zero q = k ^ 2 + Spec.sqd (u.mul k) q := by
  have e : Spec.sqd (u.mul k) q = k^2 * u.sqrNorm - 2 * k * q.inner u + Spec.sqd .zero q := by
    simp only [Spec.sqd, zeo]; ring
  rw [e, hq, hu]; ring

theorem sqd_zero_proj (hu : u.sqrNorm = 1) (k : ℝ) : Spec.sqd .zero (u.mul k) = k ^ 2 := by
  have : Spec.sqd .zero (u.mul k) = k^2 * u.sqrNorm := by simp only [Spec.sqd, zeo]; ring
  rw [this, hu, mul_one]

end plane
end Zeo
