import Verif.Lemmas.Rot
import Mathlib.Tactic.LinearCombination

/-! The symmetric 4x4 matrix of a rotation has rank one. -/

namespace Zeo
variable {K : Type*} [Field K]

/-- The entries `N i j = 4 q_i q_j` of a rotation matrix with quaternion `q`. -/
def quatN (m : Mat3 K) : Fin 4 → Fin 4 → K :=
  ![![m.x.x + m.y.y + m.z.z + 1, m.y.z - m.z.y, m.z.x - m.x.z, m.x.y - m.y.x],
    ![m.y.z - m.z.y, m.x.x - m.y.y - m.z.z + 1, m.y.x + m.x.y, m.x.z + m.z.x],
    ![m.z.x - m.x.z, m.y.x + m.x.y, -m.x.x + m.y.y - m.z.z + 1, m.z.y + m.y.z],
    ![m.x.y - m.y.x, m.x.z + m.z.x, m.z.y + m.y.z, -m.x.x - m.y.y + m.z.z + 1]]

theorem quatN_rank {m : Mat3 K} (h : m.IsRot) (i j k : Fin 4) :
    quatN m i j * quatN m i k = quatN m i i * quatN m j k := by
  obtain ⟨a1, a2, a3, a4, a5, a6⟩ := h.cols
  obtain ⟨b1, b2, b3, b4, b5, b6⟩ := h.rows
  obtain ⟨⟨c1, c2, c3⟩, ⟨c4, c5, c6⟩, c7, c8, c9⟩ := h.cof
  fin_cases i <;> fin_cases j <;> fin_cases k <;> simp [quatN] <;> grind

end Zeo
