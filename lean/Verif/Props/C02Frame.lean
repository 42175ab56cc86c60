import Verif.Props.C02

/-!
# C02, second part: frames, 2D coordinates, 6D vectors and matrices
-/

namespace Zeo
open Mem Spec
variable {K : Type*} [Field K]

/-- Transforming a point by a frame, or by its inverse, in 3D and in 2D, may be done in place; the
only condition is that the result does not overlap the frame. -/
theorem C02_xform (μ : Mem K) (f v tv : ℕ) :
    (Apart 12 f 3 tv → SameOrApart 3 v tv →
      ((μ.xform3 f v tv).v3 tv = (μ.f3 f).xform (μ.v3 v) ∧ Only 3 tv μ (μ.xform3 f v tv)) ∧
      ((μ.xform3Inv f v tv).v3 tv = (μ.f3 f).xformInv (μ.v3 v) ∧
        Only 3 tv μ (μ.xform3Inv f v tv))) ∧
    (Apart 6 f 2 tv → SameOrApart 2 v tv →
      ((μ.xform2 f v tv).v2 tv = (μ.f2 f).xform (μ.v2 v) ∧ Only 2 tv μ (μ.xform2 f v tv)) ∧
      ((μ.xform2Inv f v tv).v2 tv = (μ.f2 f).xformInv (μ.v2 v) ∧
        Only 2 tv μ (μ.xform2Inv f v tv))) := by
  refine ⟨fun hf hv => ⟨⟨?_, ?_⟩, ?_, ?_⟩, fun hf hv => ⟨⟨?_, ?_⟩, ?_, ?_⟩⟩ <;> unfold Apart at hf
  · simp (disch := omega) only [xform3, mulMat3Vec3, wr3, vec3Add, set3, Mem.v3, Mem.m3, Mem.f3,
      put_self, put_ne, Frame3.xform, Vec3.add]
  · intro a ha
    simp (disch := omega) only [xform3, mulMat3Vec3, wr3, vec3Add, set3, put_ne]
  · rcases hv with rfl | hv <;>
    simp (disch := omega) only [xform3Inv, mulMat3TVec3, wr3, vec3Sub, set3, Mem.v3, Mem.m3, Mem.f3,
      put_self, put_ne, Frame3.xformInv, Vec3.sub]
  · intro a ha
    simp (disch := omega) only [xform3Inv, mulMat3TVec3, wr3, vec3Sub, set3, put_ne]
  · simp (disch := omega) only [xform2, mulMat2Vec2Macro, wr2, vec2Add, set2, Mem.v2, Mem.m2, Mem.f2,
      put_self, put_ne, Frame2.xform, Vec2.add]
  · intro a ha
    simp (disch := omega) only [xform2, mulMat2Vec2Macro, wr2, vec2Add, set2, put_ne]
  · rcases hv with rfl | hv <;>
    simp (disch := omega) only [xform2Inv, mulMat2TVec2Macro, wr2, vec2Sub, set2, Mem.v2, Mem.m2,
      Mem.f2, put_self, put_ne, Frame2.xformInv, Vec2.sub]
  · intro a ha
    simp (disch := omega) only [xform2Inv, mulMat2TVec2Macro, wr2, vec2Sub, set2, put_ne]

/-- Composition of 3D frames may overwrite the *second* operand (not the first), the inverse needs
a distinct output. -/
theorem C02_frame3 (μ : Mem K) (f1 f2 f : ℕ) (h1 : Apart 12 f1 12 f) (h2 : SameOrApart 12 f2 f) :
    ((μ.frame3Inv f1 f).f3 f = (μ.f3 f1).inv ∧ Only 12 f μ (μ.frame3Inv f1 f)) ∧
    ((μ.frame3Cascade f1 f2 f).f3 f = (μ.f3 f1).cascade (μ.f3 f2) ∧
      Only 12 f μ (μ.frame3Cascade f1 f2 f)) ∧
    ((μ.frame3Xform f1 f2 f).f3 f = (μ.f3 f1).relative (μ.f3 f2) ∧
      Only 12 f μ (μ.frame3Xform f1 f2 f)) := by
  unfold Apart at h1
  refine ⟨⟨?_, ?_⟩, ⟨?_, ?_⟩, ?_, ?_⟩
  · simp (disch := omega) only [frame3Inv, mat3TMacro, mulMat3Vec3, wr3, vec3Rev, set3, Mem.v3,
      Mem.m3, Mem.f3, add_assoc, Nat.reduceAdd, put_self, put_ne, Frame3.inv, Vec3.rev, Mat3.t,
      Mat3.row, Mat3.e, Mat3.v, Vec3.e]
  · intro a ha
    simp (disch := omega) only [frame3Inv, mat3TMacro, mulMat3Vec3, wr3, vec3Rev, set3, put_ne]
  · rcases h2 with rfl | h2 <;>
    simp (disch := omega) only [frame3Cascade, mulMat3Mat3, wrM3, xform3, mulMat3Vec3, wr3, vec3Add,
      set3, Mem.v3, Mem.m3, Mem.f3, add_assoc, Nat.reduceAdd, put_self, put_ne, Frame3.cascade,
      Frame3.xform, Vec3.add, Mat3.mulMat]
  · intro a ha
    simp (disch := omega) only [frame3Cascade, mulMat3Mat3, wrM3, xform3, mulMat3Vec3, wr3, vec3Add,
      set3, put_ne]
  · rcases h2 with rfl | h2 <;>
    simp (disch := omega) only [frame3Xform, mulMat3TMat3, wrM3, xform3Inv, mulMat3TVec3, wr3,
      vec3Sub, set3, Mem.v3, Mem.m3, Mem.f3, add_assoc, Nat.reduceAdd, put_self, put_ne,
      Frame3.relative, Frame3.xformInv, Vec3.sub, Mat3.mulTMat]
  · intro a ha
    simp (disch := omega) only [frame3Xform, mulMat3TMat3, wrM3, xform3Inv, mulMat3TVec3, wr3,
      vec3Sub, set3, put_ne]

/-- The same for 2D frames. -/
theorem C02_frame2 (μ : Mem K) (f1 f2 f : ℕ) (h1 : Apart 6 f1 6 f) (h2 : SameOrApart 6 f2 f) :
    ((μ.frame2Inv f1 f).f2 f = (μ.f2 f1).inv ∧ Only 6 f μ (μ.frame2Inv f1 f)) ∧
    ((μ.frame2Cascade f1 f2 f).f2 f = (μ.f2 f1).cascade (μ.f2 f2) ∧
      Only 6 f μ (μ.frame2Cascade f1 f2 f)) ∧
    ((μ.frame2Xform f1 f2 f).f2 f = (μ.f2 f1).relative (μ.f2 f2) ∧
      Only 6 f μ (μ.frame2Xform f1 f2 f)) := by
  unfold Apart at h1
  refine ⟨⟨?_, ?_⟩, ⟨?_, ?_⟩, ?_, ?_⟩
  · simp (disch := omega) only [frame2Inv, mat2T, mulMat2Vec2Macro, wr2, vec2Rev, set2, Mem.v2,
      Mem.m2, Mem.f2, add_assoc, Nat.reduceAdd, put_self, put_ne, Frame2.inv, Vec2.rev, Mat2.t,
      Mat2.create]
  · intro a ha
    simp (disch := omega) only [frame2Inv, mat2T, mulMat2Vec2Macro, wr2, vec2Rev, set2, put_ne]
  · rcases h2 with rfl | h2 <;>
    simp (disch := omega) only [frame2Cascade, mulMat2Mat2, wrM2, xform2, mulMat2Vec2Macro, wr2,
      vec2Add, set2, Mem.v2, Mem.m2, Mem.f2, add_assoc, Nat.reduceAdd, put_self, put_ne,
      Frame2.cascade, Frame2.xform, Vec2.add]
  · intro a ha
    simp (disch := omega) only [frame2Cascade, mulMat2Mat2, wrM2, xform2, mulMat2Vec2Macro, wr2,
      vec2Add, set2, put_ne]
  · rcases h2 with rfl | h2 <;>
    simp (disch := omega) only [frame2Xform, mulMat2TMat2, wrM2, xform2Inv, mulMat2TVec2Macro, wr2,
      vec2Sub, set2, Mem.v2, Mem.m2, Mem.f2, add_assoc, Nat.reduceAdd, put_self, put_ne,
      Frame2.relative, Frame2.xformInv, Vec2.sub]
  · intro a ha
    simp (disch := omega) only [frame2Xform, mulMat2TMat2, wrM2, xform2Inv, mulMat2TVec2Macro, wr2,
      vec2Sub, set2, put_ne]

/-- Interior division of 2D poses may overwrite the second pose; the cascade needs an output
distinct from both operands; the relative pose may overwrite the target. -/
theorem C02_coord2 (μ : Mem ℝ) (a b c : ℕ) (r : ℝ) (h1 : Apart 3 a 3 c) :
    (SameOrApart 3 b c → (μ.coord2InterDiv a b r c).c2 c = (μ.c2 a).interDiv (μ.c2 b) r ∧
      Only 3 c μ (μ.coord2InterDiv a b r c)) ∧
    (Apart 3 b 3 c → (μ.coord2Cascade a b c).c2 c = (μ.c2 a).cascade (μ.c2 b) ∧
      Only 3 c μ (μ.coord2Cascade a b c)) ∧
    (SameOrApart 3 b c → (μ.coord2Xform a b c).c2 c = (μ.c2 a).xform (μ.c2 b) ∧
      Only 3 c μ (μ.coord2Xform a b c)) := by
  unfold Apart at h1
  refine ⟨fun h2 => ⟨?_, ?_⟩, fun h2 => ⟨?_, ?_⟩, fun h2 => ⟨?_, ?_⟩⟩
  · rcases h2 with rfl | h2 <;>
    simp (disch := omega) only [coord2InterDiv, vec2InterDiv, vec2Sub, vec2Cat, set2, Mem.v2, Mem.c2,
      put_self, put_ne, Coord2.interDiv, Vec2.interDiv, Vec2.cat, Vec2.sub]
  · intro d hd
    simp (disch := omega) only [coord2InterDiv, vec2InterDiv, vec2Sub, vec2Cat, set2, put_ne]
  · unfold Apart at h2
    simp (disch := omega) only [coord2Cascade, vec2RotSC, vec2Add, set2, Mem.v2, Mem.c2,
      put_self, put_ne, Coord2.cascade, Vec2.rot, Vec2.add]
  · intro d hd
    simp (disch := omega) only [coord2Cascade, vec2RotSC, vec2Add, set2, put_ne]
  · rcases h2 with rfl | h2 <;>
    simp (disch := omega) only [coord2Xform, wr2, set2, Mem.v2, Mem.c2,
      put_self, put_ne, Coord2.xform, Vec2.sub]
  · intro d hd
    simp (disch := omega) only [coord2Xform, wr2, set2, put_ne]

/-- Moving the reference point of a 6D vector may be done in place; the transpose of a 6x6 matrix
needs a distinct output. -/
theorem C02_vec6 (μ : Mem K) (s p d m tm : ℕ) (h1 : SameOrApart 6 s d) (hm : Apart 36 m 36 tm) :
    ((μ.vec6LinShift s p d).v6 d = (μ.v6 s).linShift (μ.v3 p) ∧
      Only 6 d μ (μ.vec6LinShift s p d)) ∧
    ((μ.vec6AngShift s p d).v6 d = (μ.v6 s).angShift (μ.v3 p) ∧
      Only 6 d μ (μ.vec6AngShift s p d)) ∧
    ((μ.mat6T m tm).m6 tm = (μ.m6 m).t ∧ Only 36 tm μ (μ.mat6T m tm)) := by
  unfold Apart at hm
  refine ⟨⟨?_, ?_⟩, ⟨?_, ?_⟩, ?_, ?_⟩
  · rcases h1 with rfl | h1 <;>
    simp (disch := omega) only [vec6LinShift, wr3, set3, Mem.v3, Mem.v6, add_assoc, Nat.reduceAdd,
      put_self, put_ne, Vec6.linShift, Vec3.add]
  · intro c hc
    simp (disch := omega) only [vec6LinShift, wr3, set3, put_ne]
  · rcases h1 with rfl | h1 <;>
    simp (disch := omega) only [vec6AngShift, wr3, set3, Mem.v3, Mem.v6, add_assoc, Nat.reduceAdd,
      put_self, put_ne, Vec6.angShift, Vec3.add]
  · intro c hc
    simp (disch := omega) only [vec6AngShift, wr3, set3, put_ne]
  · simp (disch := omega) only [mat6T, mat3TMacro, set3, Mem.v3, Mem.m3, Mem.m6, add_assoc,
      Nat.reduceAdd, put_self, put_ne, Mat6.t, Mat3.t, Mat3.row, Mat3.e, Mat3.v, Vec3.e]
  · intro c hc
    simp (disch := omega) only [mat6T, mat3TMacro, set3, put_ne]

/-- The hypotheses of the theorems of this file are met, also with the output on an operand. -/
example : Apart 12 0 3 12 ∧ SameOrApart 3 12 12 ∧ Apart 12 0 12 12 ∧ SameOrApart 12 12 12 ∧
    Apart 6 0 6 6 ∧ SameOrApart 6 6 6 ∧ Apart 3 0 3 3 ∧ SameOrApart 3 3 3 ∧ Apart 36 0 36 36 := by
  unfold Apart SameOrApart; omega

end Zeo
