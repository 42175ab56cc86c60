import Verif.Spec.Linear
import Verif.Lemmas.Unfold

/-! # C01: vector algebra of the 3D (and 2D) products -/

namespace Zeo
open Matrix
variable {K : Type*} [Field K]

/-- The inner product is the dot product. -/
theorem C01_inner (u v : Vec3 K) : u.inner v = u.toFin ⬝ᵥ v.toFin := by
  simp [Vec3.toFin, Vec3.inner]; ring

/-- The outer product is the cross product. -/
theorem C01_outer (u v : Vec3 K) : (u.outer v).toFin = u.toFin ⨯₃ v.toFin := by
  simp [Vec3.toFin, Vec3.outer, cross_apply]

/-- Orthogonality to both factors. -/
theorem C01_outer_orthogonal (u v : Vec3 K) :
    u.toFin ⬝ᵥ (u.outer v).toFin = 0 ∧ v.toFin ⬝ᵥ (u.outer v).toFin = 0 := by
  rw [← C01_inner, ← C01_inner]; constructor <;> vring

/-- Antisymmetry. -/
theorem C01_outer_antisymm (u v : Vec3 K) : (u.outer v).toFin = -(v.outer u).toFin := by
  rw [C01_outer, C01_outer, cross_anticomm]

/-- Lagrange's identity. -/
theorem C01_outer_sqrNorm (u v : Vec3 K) :
    (u.outer v).sqrNorm = (u.toFin ⬝ᵥ u.toFin) * (v.toFin ⬝ᵥ v.toFin) - (u.toFin ⬝ᵥ v.toFin)^2 := by
  rw [← C01_inner, ← C01_inner, ← C01_inner]; vring

/-- The Grassmann product is the determinant of the matrix with the three rows. -/
theorem C01_grassmann_det (a b c : Vec3 K) :
    a.grassmann b c = (Matrix.of ![a.toFin, b.toFin, c.toFin]).det := by
  rw [det_fin_three]; simp [Vec3.toFin, zeo]; ring

/-- The vector triple product is a × (b × c), expanded by the BAC-CAB rule. -/
theorem C01_triple (a b c : Vec3 K) :
    (a.triple b c).toFin = a.toFin ⨯₃ (b.toFin ⨯₃ c.toFin) ∧
    (a.triple b c).toFin = (a.toFin ⬝ᵥ c.toFin) • b.toFin - (a.toFin ⬝ᵥ b.toFin) • c.toFin := by
  constructor
  · rw [Vec3.triple, C01_outer, C01_outer]
  · rw [← C01_inner, ← C01_inner]
    ext i; fin_cases i <;> simp [Vec3.toFin, zeo] <;> ring

/-- Jacobi's identity. -/
theorem C01_jacobi (a b c : Vec3 K) :
    ((a.triple b c).add (b.triple c a)).add (c.triple a b) = Vec3.zero := by vring

/-- The 2D outer product is the determinant; the 2D inner product the dot product. -/
theorem C01_2D (u v : Vec2 K) :
    u.inner v = u.toFin ⬝ᵥ v.toFin ∧ u.outer v = (Matrix.of ![u.toFin, v.toFin]).det ∧
    u.inner v ^ 2 + u.outer v ^ 2 = (u.toFin ⬝ᵥ u.toFin) * (v.toFin ⬝ᵥ v.toFin) := by
  refine ⟨by simp [Vec2.toFin, zeo], ?_, ?_⟩
  · rw [det_fin_two]; simp [Vec2.toFin, zeo]
  · simp [Vec2.toFin, zeo]; ring

/-- Add, subtract, scale, concatenate and interpolate are the vector-space operations. -/
theorem C01_linear (u v : Vec3 K) (k : K) :
    (u.add v).toFin = u.toFin + v.toFin ∧ (u.sub v).toFin = u.toFin - v.toFin ∧
    u.rev.toFin = -u.toFin ∧ (u.mul k).toFin = k • u.toFin ∧
    (u.cat k v).toFin = u.toFin + k • v.toFin ∧
    (u.interDiv v k).toFin = (1 - k) • u.toFin + k • v.toFin ∧
    u.sqrDist v = (u.toFin - v.toFin) ⬝ᵥ (u.toFin - v.toFin) := by
  refine ⟨?_, ?_, ?_, ?_, ?_, ?_, ?_⟩
  all_goals first
    | (ext i; fin_cases i <;> simp [Vec3.toFin, zeo] <;> ring)
    | (simp [Vec3.toFin, zeo]; ring)

/-- A concrete case: x × y = z and a non-degenerate Grassmann product. -/
example : (Vec3.ex : Vec3 ℚ).outer .ey = .ez ∧
    (⟨1, 2, 3⟩ : Vec3 ℚ).grassmann ⟨0, 1, 4⟩ ⟨5, 6, 0⟩ = 1 := by
  constructor <;> simp [zeo] <;> norm_num

end Zeo
