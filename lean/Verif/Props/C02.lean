import Verif.Model.Alias
import Verif.Lemmas.Rot

/-!
# C02: writing the result over an operand

The operations on memory of `Model/Alias.lean` against the value-level operations.  `SameOrApart`
is the ordinary situation of two objects of the same type: the same object, or no common cell.
-/

namespace Zeo
open Mem
variable {K : Type*} [Field K]

namespace Spec
/-- Two objects of `n` cells are the same object or do not overlap. -/
def SameOrApart (n p q : ℕ) : Prop := p = q ∨ p + n ≤ q ∨ q + n ≤ p
/-- An object of `n` cells at `p` and an object of `m` cells at `q` do not overlap. -/
def Apart (n p m q : ℕ) : Prop := p + n ≤ q ∨ q + m ≤ p
/-- Nothing outside the `n` cells at `p` has changed. -/
def Only {K : Type*} (n p : ℕ) (μ ν : Mem K) : Prop := ∀ a, (a < p ∨ p + n ≤ a) → ν a = μ a
end Spec
open Spec

theorem put_self (μ : Mem K) (a : ℕ) (x : K) : (μ.put a x) a = x := if_pos rfl
theorem put_ne (μ : Mem K) {a b : ℕ} (x : K) (h : b ≠ a) : (μ.put a x) b = μ b := if_neg h

/-! ## 2D vectors -/

/-- Componentwise 2D operations give the same result whichever operands the output coincides
with, and change nothing else. -/
theorem C02_vec2 (μ : Mem K) (v1 v2 v : ℕ) (k : K) (h1 : SameOrApart 2 v1 v)
    (h2 : SameOrApart 2 v2 v) :
    ((μ.vec2Add v1 v2 v).v2 v = (μ.v2 v1).add (μ.v2 v2) ∧ Only 2 v μ (μ.vec2Add v1 v2 v)) ∧
    ((μ.vec2Sub v1 v2 v).v2 v = (μ.v2 v1).sub (μ.v2 v2) ∧ Only 2 v μ (μ.vec2Sub v1 v2 v)) ∧
    ((μ.vec2Rev v1 v).v2 v = (μ.v2 v1).rev ∧ Only 2 v μ (μ.vec2Rev v1 v)) ∧
    ((μ.vec2Mul v1 k v).v2 v = (μ.v2 v1).mul k ∧ Only 2 v μ (μ.vec2Mul v1 k v)) ∧
    ((μ.vec2Cat v1 k v2 v).v2 v = (μ.v2 v1).cat k (μ.v2 v2) ∧
      Only 2 v μ (μ.vec2Cat v1 k v2 v)) := by
  unfold SameOrApart at *
  refine ⟨⟨?_, ?_⟩, ⟨?_, ?_⟩, ⟨?_, ?_⟩, ⟨?_, ?_⟩, ⟨?_, ?_⟩⟩ <;>
    simp only [vec2Add, vec2Sub, vec2Rev, vec2Mul, vec2Cat, set2, Mem.v2, put, Vec2.add, Vec2.sub,
      Vec2.rev, Vec2.mul, Vec2.cat, Only] <;> grind

/-- Interior division, rotation and projection of 2D vectors are right when the output is
distinct from the operands; interior division also when the output is the *second* point. -/
theorem C02_vec2_distinct (μ : Mem K) (v1 v2 v : ℕ) (r s c : K) (d : Vec2 K)
    (h1 : Apart 2 v1 2 v) (h2 : SameOrApart 2 v2 v) :
    ((μ.vec2InterDiv v1 v2 r v).v2 v = (μ.v2 v1).interDiv (μ.v2 v2) r ∧
      Only 2 v μ (μ.vec2InterDiv v1 v2 r v)) ∧
    ((μ.vec2RotSC v1 s c v).v2 v = ⟨c * μ v1 - s * μ (v1 + 1), s * μ v1 + c * μ (v1 + 1)⟩ ∧
      Only 2 v μ (μ.vec2RotSC v1 s c v)) ∧
    ((μ.vec2Rot90CW v1 v).v2 v = (μ.v2 v1).rot90CW ∧ Only 2 v μ (μ.vec2Rot90CW v1 v)) ∧
    ((μ.vec2Rot90CCW v1 v).v2 v = (μ.v2 v1).rot90CCW ∧ Only 2 v μ (μ.vec2Rot90CCW v1 v)) ∧
    ((μ.vec2Proj v1 d v).v2 v = d.mul (d.inner (μ.v2 v1)) ∧ Only 2 v μ (μ.vec2Proj v1 d v)) := by
  unfold SameOrApart Apart at *
  refine ⟨⟨?_, ?_⟩, ⟨?_, ?_⟩, ⟨?_, ?_⟩, ⟨?_, ?_⟩, ⟨?_, ?_⟩⟩ <;>
    simp only [vec2InterDiv, vec2Sub, vec2Cat, vec2RotSC, vec2Rot90CW, vec2Rot90CCW, vec2Proj, set2,
      Mem.v2, put, Vec2.interDiv, Vec2.cat, Vec2.sub, Vec2.rot90CW, Vec2.rot90CCW, Vec2.mul,
      Vec2.inner, Only] <;> grind

/-! ## 3D vectors -/

/-- Componentwise 3D operations give the same result whichever operands the output coincides
with, and change nothing else. -/
theorem C02_vec3 (μ : Mem K) (v1 v2 v : ℕ) (k : K) (h1 : SameOrApart 3 v1 v)
    (h2 : SameOrApart 3 v2 v) :
    ((μ.vec3Add v1 v2 v).v3 v = (μ.v3 v1).add (μ.v3 v2) ∧ Only 3 v μ (μ.vec3Add v1 v2 v)) ∧
    ((μ.vec3Sub v1 v2 v).v3 v = (μ.v3 v1).sub (μ.v3 v2) ∧ Only 3 v μ (μ.vec3Sub v1 v2 v)) ∧
    ((μ.vec3Rev v1 v).v3 v = (μ.v3 v1).rev ∧ Only 3 v μ (μ.vec3Rev v1 v)) ∧
    ((μ.vec3Mul v1 k v).v3 v = (μ.v3 v1).mul k ∧ Only 3 v μ (μ.vec3Mul v1 k v)) ∧
    ((μ.vec3Amp v1 v2 v).v3 v = (μ.v3 v1).amp (μ.v3 v2) ∧ Only 3 v μ (μ.vec3Amp v1 v2 v)) ∧
    ((μ.vec3Dem v1 v2 v).v3 v = (μ.v3 v1).dem (μ.v3 v2) ∧ Only 3 v μ (μ.vec3Dem v1 v2 v)) ∧
    ((μ.vec3Cat v1 k v2 v).v3 v = (μ.v3 v1).cat k (μ.v3 v2) ∧
      Only 3 v μ (μ.vec3Cat v1 k v2 v)) ∧
    ((μ.vec3InterDiv v1 v2 k v).v3 v = (μ.v3 v1).interDiv (μ.v3 v2) k ∧
      Only 3 v μ (μ.vec3InterDiv v1 v2 k v)) := by
  unfold SameOrApart at *
  refine ⟨⟨?_, ?_⟩, ⟨?_, ?_⟩, ⟨?_, ?_⟩, ⟨?_, ?_⟩, ⟨?_, ?_⟩, ⟨?_, ?_⟩, ⟨?_, ?_⟩, ⟨?_, ?_⟩⟩ <;>
    simp only [vec3Add, vec3Sub, vec3Rev, vec3Mul, vec3Cat, vec3Amp, vec3Dem, vec3InterDiv, set3,
      Mem.v3, put, Vec3.add, Vec3.sub, Vec3.rev, Vec3.mul, Vec3.cat, Vec3.amp, Vec3.dem,
      Vec3.interDiv, Only] <;> grind

/-- A 3D vector written from locals is read back, and nothing else changes: no condition on the
addresses at all. -/
theorem wr3_spec (μ : Mem K) (p : ℕ) (w : Vec3 K) :
    (μ.wr3 p w).v3 p = w ∧ Only 3 p μ (μ.wr3 p w) := by
  constructor
  · simp only [wr3, set3, Mem.v3, put]; cases w; grind
  · simp only [wr3, set3, put, Only]; grind

/-- The outer and triple products, which go through local variables, are right for *every* choice
of output address, even one that overlaps an operand partially. -/
theorem C02_vec3_outer (μ : Mem K) (v1 v2 v3 v : ℕ) :
    ((μ.vec3Outer v1 v2 v).v3 v = (μ.v3 v1).outer (μ.v3 v2) ∧
      Only 3 v μ (μ.vec3Outer v1 v2 v)) ∧
    ((μ.vec3Triple v1 v2 v3 v).v3 v = (μ.v3 v1).triple (μ.v3 v2) (μ.v3 v3) ∧
      Only 3 v μ (μ.vec3Triple v1 v2 v3 v)) :=
  ⟨wr3_spec _ _ _, wr3_spec _ _ _⟩

/-- Projection and orthogonalisation: the factor is a local, so the output may coincide with the
vector or with the axis. -/
theorem C02_vec3_proj [LinearOrder K] [IsStrictOrderedRing K] (τ : K) (μ : Mem K) (v n pv : ℕ)
    (hn : ¬ (μ.v3 n).isTol τ) (h1 : SameOrApart 3 v pv) (h2 : SameOrApart 3 n pv) :
    (some ((μ.vec3Proj v n pv).v3 pv) = (μ.v3 v).proj τ (μ.v3 n) ∧
      Only 3 pv μ (μ.vec3Proj v n pv)) ∧
    (some ((μ.vec3Orthogonalize v n pv).v3 pv) = (μ.v3 v).orthogonalize τ (μ.v3 n) ∧
      Only 3 pv μ (μ.vec3Orthogonalize v n pv)) := by
  have e := fun k => C02_vec3 μ n n pv k h2 h2
  have e' := fun k => C02_vec3 μ v n pv k h1 h2
  refine ⟨⟨?_, (e _).2.2.2.1.2⟩, ⟨?_, (e' _).2.2.2.2.2.2.1.2⟩⟩
  · simp only [Vec3.proj, if_neg hn]
    exact congrArg some (e _).2.2.2.1.1
  · simp only [Vec3.orthogonalize, if_neg hn]
    exact congrArg some (e' _).2.2.2.2.2.2.1.1

/-! ## 2x2 matrices -/

theorem wr2_spec (μ : Mem K) (p : ℕ) (w : Vec2 K) :
    (μ.wr2 p w).v2 p = w ∧ Only 2 p μ (μ.wr2 p w) := by
  constructor
  · simp only [wr2, set2, Mem.v2, put]; cases w; grind
  · simp only [wr2, set2, put, Only]; grind

theorem wrM2_spec (μ : Mem K) (p : ℕ) (w : Mat2 K) :
    (μ.wrM2 p w).m2 p = w ∧ Only 4 p μ (μ.wrM2 p w) := by
  constructor
  · simp only [wrM2, wr2, set2, Mem.v2, Mem.m2, put]
    obtain ⟨⟨a, b⟩, ⟨c, d⟩⟩ := w; grind
  · simp only [wrM2, wr2, set2, put, Only]; grind

/-- Addition and scalar multiplication of 2x2 matrices may overwrite an operand, the in-place
transpose is the transpose, and the matrix products (through a temporary) as well as the
*macro* matrix-vector products are right for every output address. -/
theorem C02_mat2 (μ : Mem K) (a b m : ℕ) (k : K) (h1 : SameOrApart 4 a m)
    (h2 : SameOrApart 4 b m) :
    ((μ.mat2Add a b m).m2 m = (μ.m2 a).add (μ.m2 b) ∧ Only 4 m μ (μ.mat2Add a b m)) ∧
    ((μ.mat2Mul a k m).m2 m = (μ.m2 a).mul k ∧ Only 4 m μ (μ.mat2Mul a k m)) ∧
    ((μ.mat2TDRC m).m2 m = (μ.m2 m).t ∧ Only 4 m μ (μ.mat2TDRC m)) := by
  unfold SameOrApart at *
  refine ⟨⟨?_, ?_⟩, ⟨?_, ?_⟩, ⟨?_, ?_⟩⟩ <;>
    simp only [mat2Add, mat2Mul, mat2TDRC, set2, Mem.v2, Mem.m2, put, Mat2.add, Mat2.mul, Mat2.t,
      Mat2.create, Only] <;> grind

theorem C02_mat2_products (μ : Mem K) (a b m v mv : ℕ) :
    ((μ.mulMat2Mat2 a b m).m2 m = (μ.m2 a).mulMat (μ.m2 b) ∧ Only 4 m μ (μ.mulMat2Mat2 a b m)) ∧
    ((μ.mulMat2TMat2 a b m).m2 m = (μ.m2 a).mulTMat (μ.m2 b) ∧
      Only 4 m μ (μ.mulMat2TMat2 a b m)) ∧
    ((μ.mulMat2Mat2T a b m).m2 m = (μ.m2 a).mulMatT (μ.m2 b) ∧
      Only 4 m μ (μ.mulMat2Mat2T a b m)) ∧
    ((μ.mulMat2Vec2Macro a v mv).v2 mv = (μ.m2 a).mulVec (μ.v2 v) ∧
      Only 2 mv μ (μ.mulMat2Vec2Macro a v mv)) ∧
    ((μ.mulMat2TVec2Macro a v mv).v2 mv = (μ.m2 a).mulTVec (μ.v2 v) ∧
      Only 2 mv μ (μ.mulMat2TVec2Macro a v mv)) :=
  ⟨wrM2_spec _ _ _, wrM2_spec _ _ _, wrM2_spec _ _ _, wr2_spec _ _ _, wr2_spec _ _ _⟩

/-- Transpose, adjugate, inverse, rotation and the *function* matrix-vector products of the 2x2
matrices are right when the output is distinct from the operand. -/
theorem C02_mat2_distinct [LinearOrder K] [IsStrictOrderedRing K] (τ : K) (μ : Mem K)
    (m r v mv : ℕ) (s c : K) (h : Apart 4 m 4 r) (hm : Apart 4 m 2 mv) (hv : Apart 2 v 2 mv)
    (hd : ¬ zIsTol (μ.m2 m).det τ) :
    ((μ.mat2T m r).m2 r = (μ.m2 m).t ∧ Only 4 r μ (μ.mat2T m r)) ∧
    ((μ.mat2Adj m r).m2 r = (μ.m2 m).adj ∧ Only 4 r μ (μ.mat2Adj m r)) ∧
    (some ((μ.mat2Inv m r).m2 r) = (μ.m2 m).inv τ ∧ Only 4 r μ (μ.mat2Inv m r)) ∧
    ((μ.mat2RotSC m s c r).m2 r = (μ.m2 m).rotSC s c ∧ Only 4 r μ (μ.mat2RotSC m s c r)) ∧
    ((μ.mulMat2Vec2 m v mv).v2 mv = (μ.m2 m).mulVec (μ.v2 v) ∧
      Only 2 mv μ (μ.mulMat2Vec2 m v mv)) ∧
    ((μ.mulMat2TVec2 m v mv).v2 mv = (μ.m2 m).mulTVec (μ.v2 v) ∧
      Only 2 mv μ (μ.mulMat2TVec2 m v mv)) := by
  have e : (μ.m2 m).inv τ = some ((μ.m2 m).adj.mul (1 / (μ.m2 m).det)) := by
    simp only [Mat2.inv, if_neg hd]
  rw [e]
  generalize hD : (1 / (μ.m2 m).det : K) = D
  have eI : μ.mat2Inv m r = (μ.mat2Adj m r).mat2Mul r D r := by rw [← hD]; rfl
  rw [eI]
  unfold Apart at *
  refine ⟨⟨?_, ?_⟩, ⟨?_, ?_⟩, ⟨?_, ?_⟩, ⟨?_, ?_⟩, ⟨?_, ?_⟩, ⟨?_, ?_⟩⟩ <;>
    simp only [mat2T, mat2Adj, mat2Mul, mat2RotSC, mulMat2Vec2, mulMat2TVec2, set2,
      Mem.v2, Mem.m2, put, Mat2.t, Mat2.adj, Mat2.mul, Mat2.rotSC, Mat2.mulVec, Mat2.mulTVec,
      Mat2.create, Only] <;> grind

/-! ## 3x3 matrices -/

theorem wrM3_spec (μ : Mem K) (p : ℕ) (w : Mat3 K) :
    (μ.wrM3 p w).m3 p = w ∧ Only 9 p μ (μ.wrM3 p w) := by
  constructor
  · simp only [wrM3, wr3, set3, Mem.v3, Mem.m3, put]
    obtain ⟨⟨a, b, c⟩, ⟨d, e, f⟩, ⟨g, h, i⟩⟩ := w; grind
  · simp only [wrM3, wr3, set3, put, Only]; grind

/-- The function `zMat3DT` is the transpose also when it is asked to work in place, because it
tests for that; the sums and multiples may overwrite an operand. -/
theorem C02_mat3 (μ : Mem K) (a b m : ℕ) (k : K) (h1 : SameOrApart 9 a m)
    (h2 : SameOrApart 9 b m) :
    ((μ.mat3T a m).m3 m = (μ.m3 a).t ∧ Only 9 m μ (μ.mat3T a m)) ∧
    ((μ.mat3Add a b m).m3 m = (μ.m3 a).add (μ.m3 b) ∧ Only 9 m μ (μ.mat3Add a b m)) ∧
    ((μ.mat3Sub a b m).m3 m = (μ.m3 a).sub (μ.m3 b) ∧ Only 9 m μ (μ.mat3Sub a b m)) ∧
    ((μ.mat3Mul a k m).m3 m = (μ.m3 a).mul k ∧ Only 9 m μ (μ.mat3Mul a k m)) ∧
    ((μ.mat3Cat a k b m).m3 m = (μ.m3 a).cat k (μ.m3 b) ∧ Only 9 m μ (μ.mat3Cat a k b m)) := by
  refine ⟨⟨?_, ?_⟩, ⟨?_, ?_⟩, ⟨?_, ?_⟩, ⟨?_, ?_⟩, ⟨?_, ?_⟩⟩
  · rcases h1 with rfl | h1
    · simp (disch := omega) only [mat3T, mat3TDRC, if_true, Mem.v3, Mem.m3, put_self, put_ne, Mat3.t,
        Mat3.row, Mat3.e, Mat3.v, Vec3.e]
    · have hne : m ≠ a := by omega
      simp (disch := omega) only [mat3T, mat3TMacro, if_neg hne, set3, Mem.v3, Mem.m3, put_self,
        put_ne, Mat3.t, Mat3.row, Mat3.e, Mat3.v, Vec3.e]
  · intro c hc
    by_cases hne : m = a
    · simp (disch := omega) only [mat3T, mat3TDRC, if_pos hne, put_ne]
    · simp (disch := omega) only [mat3T, mat3TMacro, if_neg hne, set3, put_ne]
  all_goals first
    | (intro c hc
       simp (disch := omega) only [mat3Add, mat3Sub, mat3Mul, mat3Cat, vec3Add, vec3Sub, vec3Mul,
         vec3Cat, set3, put_ne]; done)
    | (rcases h1 with rfl | h1 <;> rcases h2 with rfl | h2 <;>
       simp (disch := omega) only [mat3Add, mat3Sub, mat3Mul, mat3Cat, vec3Add, vec3Sub, vec3Mul,
         vec3Cat, set3, Mem.v3, Mem.m3, put_self, put_ne, Mat3.add, Mat3.sub, Mat3.mul, Mat3.cat,
         Vec3.add, Vec3.sub, Vec3.mul, Vec3.cat])

/-- Matrix products and matrix-vector products of 3x3 matrices are right for every output
address, also one inside an operand (for instance a column of the matrix). -/
theorem C02_mat3_products (μ : Mem K) (a b m v mv : ℕ) :
    ((μ.mulMat3Mat3 a b m).m3 m = (μ.m3 a).mulMat (μ.m3 b) ∧ Only 9 m μ (μ.mulMat3Mat3 a b m)) ∧
    ((μ.mulMat3TMat3 a b m).m3 m = (μ.m3 a).mulTMat (μ.m3 b) ∧
      Only 9 m μ (μ.mulMat3TMat3 a b m)) ∧
    ((μ.mulMat3Mat3T a b m).m3 m = (μ.m3 a).mulMatT (μ.m3 b) ∧
      Only 9 m μ (μ.mulMat3Mat3T a b m)) ∧
    ((μ.mulMat3Vec3 a v mv).v3 mv = (μ.m3 a).mulVec (μ.v3 v) ∧
      Only 3 mv μ (μ.mulMat3Vec3 a v mv)) ∧
    ((μ.mulMat3TVec3 a v mv).v3 mv = (μ.m3 a).mulTVec (μ.v3 v) ∧
      Only 3 mv μ (μ.mulMat3TVec3 a v mv)) :=
  ⟨wrM3_spec _ _ _, wrM3_spec _ _ _, wrM3_spec _ _ _, wr3_spec _ _ _, wr3_spec _ _ _⟩

theorem Spec.Only.v3 {n p q : ℕ} {μ ν : Mem K} (h : Only n p μ ν) (hq : Apart n p 3 q) :
    ν.v3 q = μ.v3 q := by
  unfold Only Apart at *
  simp only [Mem.v3]
  rw [h q (by omega), h (q + 1) (by omega), h (q + 2) (by omega)]

theorem Spec.Only.m3 {n p q : ℕ} {μ ν : Mem K} (h : Only n p μ ν) (hq : Apart n p 9 q) :
    ν.m3 q = μ.m3 q := by
  unfold Apart at *
  have e1 : ν.v3 q = μ.v3 q := h.v3 (by unfold Apart; omega)
  have e2 : ν.v3 (q + 3) = μ.v3 (q + 3) := h.v3 (by unfold Apart; omega)
  have e3 : ν.v3 (q + 6) = μ.v3 (q + 6) := h.v3 (by unfold Apart; omega)
  simp only [Mem.m3, e1, e2, e3]

theorem Spec.Only.v2 {n p q : ℕ} {μ ν : Mem K} (h : Only n p μ ν) (hq : Apart n p 2 q) :
    ν.v2 q = μ.v2 q := by
  unfold Only Apart at *
  simp only [Mem.v2]
  rw [h q (by omega), h (q + 1) (by omega)]

theorem Spec.Only.m2 {n p q : ℕ} {μ ν : Mem K} (h : Only n p μ ν) (hq : Apart n p 4 q) :
    ν.m2 q = μ.m2 q := by
  unfold Apart at *
  have e1 : ν.v2 q = μ.v2 q := h.v2 (by unfold Apart; omega)
  have e2 : ν.v2 (q + 2) = μ.v2 (q + 2) := h.v2 (by unfold Apart; omega)
  simp only [Mem.m2, e1, e2]

theorem Spec.Only.trans {n p n1 p1 n2 p2 : ℕ} {μ ν ρ : Mem K} (h1 : Only n1 p1 μ ν)
    (h2 : Only n2 p2 ν ρ) (c1 : p ≤ p1 ∧ p1 + n1 ≤ p + n) (c2 : p ≤ p2 ∧ p2 + n2 ≤ p + n) :
    Only n p μ ρ := by
  intro a ha
  rw [h2 a (by omega), h1 a (by omega)]

/-- The similarity transforms `R M Rᵀ` and `Rᵀ M R` may overwrite `M`, provided the output is not
the rotation itself. -/
theorem C02_rotMat3 (μ : Mem K) (r m rm : ℕ) (h : Apart 9 rm 9 r) :
    ((μ.rotMat3 r m rm).m3 rm = (μ.m3 r).rotMat (μ.m3 m) ∧ Only 9 rm μ (μ.rotMat3 r m rm)) ∧
    ((μ.rotMat3Inv r m rm).m3 rm = (μ.m3 r).rotMatInv (μ.m3 m) ∧
      Only 9 rm μ (μ.rotMat3Inv r m rm)) := by
  constructor
  · have a := wrM3_spec μ rm ((μ.m3 r).mulMat (μ.m3 m))
    have b := wrM3_spec (μ.mulMat3Mat3 r m rm) rm
      (((μ.mulMat3Mat3 r m rm).m3 rm).mulMatT ((μ.mulMat3Mat3 r m rm).m3 r))
    refine ⟨?_, a.2.trans b.2 (by omega) (by omega)⟩
    have e : (μ.mulMat3Mat3 r m rm).m3 r = μ.m3 r := a.2.m3 h
    have e' : (μ.mulMat3Mat3 r m rm).m3 rm = (μ.m3 r).mulMat (μ.m3 m) := a.1
    exact b.1.trans (by rw [e, e']; rfl)
  · have a := wrM3_spec μ rm ((μ.m3 m).mulMat (μ.m3 r))
    have b := wrM3_spec (μ.mulMat3Mat3 m r rm) rm
      (((μ.mulMat3Mat3 m r rm).m3 r).mulTMat ((μ.mulMat3Mat3 m r rm).m3 rm))
    refine ⟨?_, a.2.trans b.2 (by omega) (by omega)⟩
    have e : (μ.mulMat3Mat3 m r rm).m3 r = μ.m3 r := a.2.m3 h
    have e' : (μ.mulMat3Mat3 m r rm).m3 rm = (μ.m3 m).mulMat (μ.m3 r) := a.1
    exact b.1.trans (by rw [e, e']; rfl)

/-- The rotation about the z axis: out of place with distinct matrices, and the separate in-place
version, give the value-level result; so does `adj · v` with a distinct output. -/
theorem C02_mat3_distinct (μ : Mem K) (m rm v av : ℕ) (s c : K) (old : Mat3 K)
    (h : Apart 9 m 9 rm) (hm : Apart 9 m 3 av) (hv : Apart 3 v 3 av) :
    ((μ.mat3RotYawSC m s c rm).m3 rm = (μ.m3 m).rotYawSC s c old ∧
      Only 9 rm μ (μ.mat3RotYawSC m s c rm)) ∧
    ((μ.mat3RotYawSCDRC m s c).m3 m = (μ.m3 m).rotYawSC s c old ∧
      Only 9 m μ (μ.mat3RotYawSCDRC m s c)) ∧
    ((μ.mulAdjMat3Vec3 m v av).v3 av = (μ.m3 m).mulAdjVec (μ.v3 v) ∧
      Only 3 av μ (μ.mulAdjMat3Vec3 m v av)) := by
  unfold Apart at *
  refine ⟨⟨?_, ?_⟩, ⟨?_, ?_⟩, ⟨?_, ?_⟩⟩
  · simp (disch := omega) only [mat3RotYawSC, Mem.v3, Mem.m3, put_self, put_ne,
      Mat3.rotYawSC, Mat3.rotRPYSC, Mat3.setE, Mat3.setV, Mat3.v, Mat3.e, Vec3.e, Vec3.setE]
  · intro a ha; simp (disch := omega) only [mat3RotYawSC, put_ne]
  · simp (disch := omega) only [mat3RotYawSCDRC, Mem.v3, Mem.m3, put_self, put_ne,
      Mat3.rotYawSC, Mat3.rotRPYSC, Mat3.setE, Mat3.setV, Mat3.v, Mat3.e, Vec3.e, Vec3.setE]
  · intro a ha; simp (disch := omega) only [mat3RotYawSCDRC, put_ne]
  · simp (disch := omega) only [mulAdjMat3Vec3, set3, Mem.v3, Mem.m3, put_self, put_ne,
      Mat3.v, Mat3.e, Vec3.e, Mat3.mulAdjVec, Mat3.mulAdjVecRow]
  · intro a ha; simp (disch := omega) only [mulAdjMat3Vec3, set3, put_ne]

/-! ## Euler parameters -/

theorem wrEP_spec (μ : Mem K) (p : ℕ) (w : EP K) :
    (μ.wrEP p w).ep p = w ∧ Only 4 p μ (μ.wrEP p w) := by
  constructor
  · simp only [wrEP, wr3, set3, Mem.v3, Mem.ep, put]
    obtain ⟨a, ⟨b, c, d⟩⟩ := w; grind
  · simp only [wrEP, wr3, set3, put, Only]; grind

/-- Composition of Euler parameters is right for every output address, their sum may overwrite an
operand, and a vector is rotated correctly into a distinct vector. -/
theorem C02_ep (μ : Mem K) (a b e v rv w : ℕ) (h1 : SameOrApart 4 a e) (h2 : SameOrApart 4 b e)
    (h3 : Apart 4 a 3 rv) (h4 : Apart 3 v 3 rv) (h5 : Apart 4 a 4 w) (h6 : Apart 3 v 4 w) :
    ((μ.epCascade a b e).ep e = (μ.ep a).cascade (μ.ep b) ∧ Only 4 e μ (μ.epCascade a b e)) ∧
    ((μ.epAdd a b e).ep e = (μ.ep a).add (μ.ep b) ∧ Only 4 e μ (μ.epAdd a b e)) ∧
    ((μ.epRotVec a v rv).v3 rv = (μ.ep a).rotVec (μ.v3 v) ∧ Only 3 rv μ (μ.epRotVec a v rv)) ∧
    ((μ.angVelToEPVel v a w).ep w = EP.angVelToVel (μ.v3 v) (μ.ep a) ∧
      Only 4 w μ (μ.angVelToEPVel v a w)) := by
  refine ⟨wrEP_spec _ _ _, ?_, ?_, ?_⟩
  · unfold SameOrApart at *
    constructor <;> simp only [epAdd, vec3Add, set3, Mem.v3, Mem.ep, put, EP.add, Vec3.add, Only] <;>
      grind
  · unfold Apart at *
    constructor
    · simp (disch := omega) only [epRotVec, vec3Outer, wr3, vec3Mul, vec3Cat, set3, Mem.v3, Mem.ep,
        put_self, put_ne, EP.rotVec, Vec3.outer, Vec3.mul, Vec3.cat, Vec3.sqrNorm, Vec3.inner]
    · intro c hc
      simp (disch := omega) only [epRotVec, vec3Outer, wr3, vec3Mul, vec3Cat, set3, put_ne]
  · unfold Apart at *
    constructor
    · simp (disch := omega) only [angVelToEPVel, vec3Outer, wr3, vec3Mul, vec3Cat, set3, Mem.v3,
        Mem.ep, put_self, put_ne, EP.angVelToVel, Vec3.outer, Vec3.mul, Vec3.cat, Vec3.inner]
    · intro c hc
      simp (disch := omega) only [angVelToEPVel, vec3Outer, wr3, vec3Mul, vec3Cat, set3, put_ne]

/-- The hypotheses of the theorems of this file are met, also with the output on an operand, and by
a matrix that is not singular and an axis that is not tiny. -/
example : SameOrApart 2 0 0 ∧ SameOrApart 2 0 2 ∧ Apart 2 0 2 2 ∧ SameOrApart 3 0 0 ∧
    SameOrApart 9 0 0 ∧ SameOrApart 9 9 0 ∧ Apart 9 0 9 9 ∧ Apart 4 0 4 4 ∧ Apart 4 0 3 4 ∧
    ¬ zIsTol (Mem.m2 (fun i => (i : ℚ) + 1) 0).det (1 / 1000) ∧
    ¬ (Mem.v3 (fun i => (i : ℚ) + 1) 0).isTol (1 / 1000) := by
  refine ⟨?_, ?_, ?_, ?_, ?_, ?_, ?_, ?_, ?_, ?_, ?_⟩
  case refine_10 => decide +kernel
  case refine_11 => decide +kernel
  all_goals simp [SameOrApart, Apart]

end Zeo
