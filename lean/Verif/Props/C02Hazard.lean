import Verif.Props.C02Frame

/-!
# C02, third part: the operations that must not write over an operand

Each conjunct exhibits a memory on which the aliased call stores something else than the
non-aliased call would.  Together with `C02_vec2_distinct`, `C02_mat2_distinct`, ... (correct when
distinct) this is the complete classification of the modelled operations.  `ex` is the memory
`1, 2, 3, ...` used as a witness.
-/

namespace Zeo
open Mem Spec

/-- The memory with `i + 1` in cell `i`. -/
def ex : Mem ℚ := fun i => (i : ℚ) + 1

/-- 2D vectors: interior division (hence the midpoint) over the *first* point, rotation, rotation by
90 degrees and projection in place.  None of these is documented as forbidden. -/
theorem C02_vec2_hazards :
    (ex.vec2InterDiv 0 2 (1 / 2) 0).v2 0 ≠ (ex.v2 0).interDiv (ex.v2 2) (1 / 2) ∧
    (ex.vec2RotSC 0 1 0 0).v2 0 ≠ (ex.vec2RotSC 0 1 0 2).v2 2 ∧
    (ex.vec2Rot90CW 0 0).v2 0 ≠ (ex.v2 0).rot90CW ∧
    (ex.vec2Rot90CCW 0 0).v2 0 ≠ (ex.v2 0).rot90CCW ∧
    (ex.vec2Proj 0 ⟨3 / 5, 4 / 5⟩ 0).v2 0 ≠
      (⟨3 / 5, 4 / 5⟩ : Vec2 ℚ).mul ((⟨3 / 5, 4 / 5⟩ : Vec2 ℚ).inner (ex.v2 0)) := by
  decide +kernel

/-- What interior division over the first point really stores: the difference scaled by `1 + r`,
for every memory: the base point is lost. -/
theorem C02_vec2_interDiv_first {K : Type*} [Field K] (μ : Mem K) (v1 v2 : ℕ) (r : K)
    (h : Apart 2 v1 2 v2) :
    (μ.vec2InterDiv v1 v2 r v1).v2 v1 = ((μ.v2 v2).sub (μ.v2 v1)).mul (1 + r) := by
  unfold Apart at h
  simp (disch := omega) only [vec2InterDiv, vec2Sub, vec2Cat, set2, Mem.v2, put_self, put_ne,
    Vec2.sub, Vec2.mul, Vec2.mk.injEq]
  constructor <;> ring

example : ∃ v1 v2 : ℕ, Apart 2 v1 2 v2 := ⟨0, 2, Or.inl le_rfl⟩

/-- 3D vectors: the orthonormal complement written over the vector itself. -/
theorem C02_vec3_hazards :
    (ex.vec3Orthonormal0 0 0).v3 0 ≠ (ex.vec3Orthonormal0 0 3).v3 3 := by decide +kernel

/-- 2x2 matrices: transpose, adjugate, inverse and rotation in place, and the *functions*
`zMulMat2DVec2D` and `zMulMat2DTVec2D` over their vector (the macros of the same name with an
underscore are safe, `C02_mat2_products`). -/
theorem C02_mat2_hazards :
    (ex.mat2T 0 0).m2 0 ≠ (ex.m2 0).t ∧
    (ex.mat2Adj 0 0).m2 0 ≠ (ex.m2 0).adj ∧
    (some ((ex.mat2Inv 0 0).m2 0) ≠ (ex.m2 0).inv 0 ∧ ¬ zIsTol (ex.m2 0).det 0) ∧
    (ex.mat2RotSC 0 1 0 0).m2 0 ≠ (ex.m2 0).rotSC 1 0 ∧
    (ex.mulMat2Vec2 0 4 4).v2 4 ≠ (ex.m2 0).mulVec (ex.v2 4) ∧
    (ex.mulMat2TVec2 0 4 4).v2 4 ≠ (ex.m2 0).mulTVec (ex.v2 4) := by
  refine ⟨?_, ?_, ⟨?_, ?_⟩, ?_, ?_, ?_⟩ <;> decide +kernel

/-- 3x3 matrices: the transpose *macro*, the product of the adjugate and a vector over the vector,
the similarity transform over the rotation, the out-of-place rotation about an axis in place. -/
theorem C02_mat3_hazards :
    (ex.mat3TMacro 0 0).m3 0 ≠ (ex.m3 0).t ∧
    (ex.mulAdjMat3Vec3 0 9 9).v3 9 ≠ (ex.m3 0).mulAdjVec (ex.v3 9) ∧
    (ex.rotMat3 0 9 0).m3 0 ≠ (ex.m3 0).rotMat (ex.m3 9) ∧
    (ex.rotMat3Inv 0 9 0).m3 0 ≠ (ex.m3 0).rotMatInv (ex.m3 9) ∧
    (∀ old, (ex.mat3RotYawSC 0 1 0 0).m3 0 ≠ (ex.m3 0).rotYawSC 1 0 old) := by
  refine ⟨?_, ?_, ?_, ?_, fun old => ?_⟩
  case refine_5 =>
    have := (C02_mat3_distinct ex 0 9 0 9 1 0 old (by unfold Apart; omega) (by unfold Apart; omega)
      (by unfold Apart; omega)).1.1
    rw [← this]
    decide +kernel
  all_goals decide +kernel

/-- Euler parameters: rotating a vector in place, and the derivative over the parameters. -/
theorem C02_ep_hazards :
    (ex.epRotVec 0 4 4).v3 4 ≠ (ex.ep 0).rotVec (ex.v3 4) ∧
    (ex.angVelToEPVel 4 0 0).ep 0 ≠ EP.angVelToVel (ex.v3 4) (ex.ep 0) := by decide +kernel

/-- Frames and 6x6 matrices: inversion in place, composition over the *first* operand, transpose in
place.  The headers warn about the frames; nothing warns about `zMat6DT`. -/
theorem C02_frame_hazards :
    (ex.frame3Inv 0 0).f3 0 ≠ (ex.f3 0).inv ∧
    (ex.frame3Cascade 0 12 0).f3 0 ≠ (ex.f3 0).cascade (ex.f3 12) ∧
    (ex.frame3Xform 0 12 0).f3 0 ≠ (ex.f3 0).relative (ex.f3 12) ∧
    (ex.frame2Inv 0 0).f2 0 ≠ (ex.f2 0).inv ∧
    (ex.frame2Cascade 0 6 0).f2 0 ≠ (ex.f2 0).cascade (ex.f2 6) ∧
    (ex.frame2Xform 0 6 0).f2 0 ≠ (ex.f2 0).relative (ex.f2 6) ∧
    (ex.coord2InterDiv 0 3 (1 / 2) 0).c2 0 ≠ (ex.c2 0).interDiv (ex.c2 3) (1 / 2) ∧
    (ex.mat6T 0 0).m6 0 ≠ (ex.m6 0).t := by
  refine ⟨?_, ?_, ?_, ?_, ?_, ?_, ?_, ?_⟩ <;> decide +kernel

/-- `zCoord2DCascadeDRC(c,dc)`, the in-place cascade the library itself offers, is wrong for every
pose: the position of `c` is lost and the stored position is twice the rotated displacement
(src/zeo_coord2d.c:136-142, include/zeo/zeo_coord2d.h:202). -/
theorem C02_coord2_cascadeDRC (μ : Mem ℝ) (c dc : ℕ) (h : Apart 3 dc 3 c) :
    (μ.coord2Cascade c dc c).c2 c =
      ⟨((μ.c2 dc).pos.rot (μ.c2 c).angle).mul 2, (μ.c2 c).angle + (μ.c2 dc).angle⟩ := by
  unfold Apart at h
  simp (disch := omega) only [coord2Cascade, vec2RotSC, vec2Add, set2, Mem.v2, Mem.c2,
    put_self, put_ne, Vec2.rot, Vec2.mul, Coord2.mk.injEq, Vec2.mk.injEq, and_true]
  constructor <;> ring

example : ∃ c dc : ℕ, Apart 3 dc 3 c := ⟨0, 3, Or.inr le_rfl⟩

/-- So the result differs from the cascade of the two poses as soon as the rotated displacement is
not the position of `c`. -/
theorem C02_coord2_cascadeDRC_iff (μ : Mem ℝ) (c dc : ℕ) (h : Apart 3 dc 3 c) :
    (μ.coord2Cascade c dc c).c2 c = (μ.c2 c).cascade (μ.c2 dc) ↔
      (μ.c2 dc).pos.rot (μ.c2 c).angle = (μ.c2 c).pos := by
  rw [C02_coord2_cascadeDRC μ c dc h]
  simp only [Coord2.cascade, Coord2.mk.injEq, and_true]
  generalize (μ.c2 dc).pos.rot (μ.c2 c).angle = w
  generalize (μ.c2 c).pos = p
  obtain ⟨a, b⟩ := w
  obtain ⟨d, e⟩ := p
  simp only [Vec2.mul, Vec2.add, Vec2.mk.injEq]
  constructor <;> rintro ⟨h1, h2⟩ <;> constructor <;> linarith

/-- A pose at (1,0) moved in place by (0,1) ends at (0,2) instead of (1,1). -/
theorem C02_coord2_hazards : ∃ μ : Mem ℝ, Apart 3 3 3 0 ∧
    (μ.coord2Cascade 0 3 0).c2 0 ≠ (μ.c2 0).cascade (μ.c2 3) ∧
    (μ.coord2Xform 0 3 0).c2 0 ≠ (μ.c2 0).xform (μ.c2 3) := by
  refine ⟨fun i => if i = 0 then 1 else if i = 4 then 1 else if i = 5 then Real.pi else 0,
    Or.inr le_rfl, ?_, ?_⟩
  · rw [ne_eq, C02_coord2_cascadeDRC_iff _ _ _ (Or.inr le_rfl)]
    simp [Mem.c2, Mem.v2, Vec2.rot]
  · simp [coord2Xform, wr2, set2, Mem.c2, Mem.v2, put, Coord2.xform, Vec2.rot, Vec2.sub]
    norm_num

end Zeo
