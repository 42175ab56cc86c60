import Verif.Props.C02
import Verif.Model.Alias6

/-! # C02: writing the result over an operand: division, normalisation, 6D vectors and matrices, twists -/

namespace Zeo
open Mem Spec

section
variable {K : Type*} [Field K] [DecidableEq K]

/-- Division may overwrite its operand, and writes nothing if the divisor is zero; numerical differentiation may overwrite either of the two
vectors. -/
theorem C02_div (μ : Mem K) (v w d : ℕ) (k : K) (h1 : SameOrApart 3 v d) (h2 : SameOrApart 3 w d) (h3 : SameOrApart 2 v d) :
    (((μ.vec2Div v k d).1, (μ.vec2Div v k d).2.v2 d) = (μ.v2 v).div k (μ.v2 d) ∧ Only 2 d μ (μ.vec2Div v k d).2) ∧
    (((μ.vec3Div v k d).1, (μ.vec3Div v k d).2.v3 d) = (μ.v3 v).div k (μ.v3 d) ∧ Only 3 d μ (μ.vec3Div v k d).2) ∧
    (((μ.vec3Dif v w k d).1, (μ.vec3Dif v w k d).2.v3 d) = (μ.v3 v).dif (μ.v3 w) k ∧ Only 3 d μ (μ.vec3Dif v w k d).2) ∧
    (k = 0 → (μ.vec2Div v k d).2 = μ ∧ (μ.vec3Div v k d).2 = μ) := by
  by_cases hk : k = 0
  · have s := (C02_vec3 μ w v d k h2 h1).2.1
    refine ⟨⟨by simp [vec2Div, Vec2.div, hk], by simp [vec2Div, hk, Only]⟩, ⟨by simp [vec3Div, Vec3.div, hk], by simp [vec3Div, hk, Only]⟩,
      ⟨by simp [vec3Dif, vec3Div, Vec3.dif, Vec3.div, hk, s.1], by simpa [vec3Dif, vec3Div, hk] using s.2⟩, fun _ => by simp [vec2Div, vec3Div, hk]⟩
  · have s := (C02_vec3 μ w v d k h2 h1).2.1
    have a := (C02_vec2 μ v v d (1 / k) h3 h3).2.2.2.1
    have b := (C02_vec3 μ v v d (1 / k) h1 h1).2.2.2.1
    have c := (C02_vec3 (μ.vec3Sub w v d) d d d (1 / k) (.inl rfl) (.inl rfl)).2.2.2.1
    refine ⟨⟨by simp only [vec2Div, Vec2.div, hk, if_false, a.1], by simpa only [vec2Div, hk, if_false] using a.2⟩,
      ⟨by simp only [vec3Div, Vec3.div, hk, if_false, b.1], by simpa only [vec3Div, hk, if_false] using b.2⟩,
      ⟨by simp only [vec3Dif, vec3Div, Vec3.dif, Vec3.div, hk, if_false, c.1, s.1], ?_⟩, fun h => absurd h hk⟩
    simp only [vec3Dif, vec3Div, hk, if_false]
    exact fun x hx => (c.2 x hx).trans (s.2 x hx)

/-- Componentwise 6D operations give the same result whichever operands the output coincides with, and change nothing else. -/
theorem C02_vec6_sums (μ : Mem K) (v1 v2 v : ℕ) (k : K) (h1 : SameOrApart 6 v1 v) (h2 : SameOrApart 6 v2 v) :
    ((μ.vec6Add v1 v2 v).v6 v = (μ.v6 v1).add (μ.v6 v2) ∧ Only 6 v μ (μ.vec6Add v1 v2 v)) ∧
    ((μ.vec6Sub v1 v2 v).v6 v = (μ.v6 v1).sub (μ.v6 v2) ∧ Only 6 v μ (μ.vec6Sub v1 v2 v)) ∧
    ((μ.vec6Rev v1 v).v6 v = (μ.v6 v1).rev ∧ Only 6 v μ (μ.vec6Rev v1 v)) ∧
    ((μ.vec6Mul v1 k v).v6 v = (μ.v6 v1).mul k ∧ Only 6 v μ (μ.vec6Mul v1 k v)) ∧
    ((μ.vec6Cat v1 k v2 v).v6 v = (μ.v6 v1).cat k (μ.v6 v2) ∧ Only 6 v μ (μ.vec6Cat v1 k v2 v)) := by
  refine ⟨⟨?_, ?_⟩, ⟨?_, ?_⟩, ⟨?_, ?_⟩, ⟨?_, ?_⟩, ⟨?_, ?_⟩⟩
  all_goals first
    | (intro c hc
       simp (disch := omega) only [vec6Add, vec6Sub, vec6Rev, vec6Mul, vec6Cat, vec3Add, vec3Sub, vec3Rev, vec3Mul, vec3Cat, set3, put_ne]; done)
    | (rcases h1 with rfl | h1 <;> rcases h2 with rfl | h2 <;>
       simp (disch := omega) only [vec6Add, vec6Sub, vec6Rev, vec6Mul, vec6Cat, vec3Add, vec3Sub, vec3Rev, vec3Mul, vec3Cat, set3, Mem.v3, Mem.v6,
         add_assoc, Nat.reduceAdd, put_self, put_ne, Vec6.add, Vec6.sub, Vec6.rev, Vec6.mul, Vec6.cat, Vec3.add, Vec3.sub, Vec3.rev, Vec3.mul, Vec3.cat])

/-- Division and differentiation of 6D vectors may overwrite an operand. -/
theorem C02_vec6_div (μ : Mem K) (v w d : ℕ) (k : K) (h1 : SameOrApart 6 v d) (h2 : SameOrApart 6 w d) :
    (((μ.vec6Div v k d).1, (μ.vec6Div v k d).2.v6 d) = (μ.v6 v).div k (μ.v6 d) ∧ Only 6 d μ (μ.vec6Div v k d).2) ∧
    (((μ.vec6Dif v w k d).1, (μ.vec6Dif v w k d).2.v6 d) = (μ.v6 v).dif (μ.v6 w) k ∧ Only 6 d μ (μ.vec6Dif v w k d).2) := by
  have s := (C02_vec6_sums μ w v d k h2 h1).2.1
  by_cases hk : k = 0
  · exact ⟨⟨by simp [vec6Div, Vec6.div, hk], by simp [vec6Div, hk, Only]⟩,
      ⟨by simp [vec6Dif, vec6Div, Vec6.dif, Vec6.div, hk, s.1], by simpa [vec6Dif, vec6Div, hk] using s.2⟩⟩
  · have b := (C02_vec6_sums μ v v d (1 / k) h1 h1).2.2.2.1
    have c := (C02_vec6_sums (μ.vec6Sub w v d) d d d (1 / k) (.inl rfl) (.inl rfl)).2.2.2.1
    refine ⟨⟨by simp only [vec6Div, Vec6.div, hk, if_false, b.1], by simpa only [vec6Div, hk, if_false] using b.2⟩,
      ⟨by simp only [vec6Dif, vec6Div, Vec6.dif, Vec6.div, hk, if_false, c.1, s.1], ?_⟩⟩
    simp only [vec6Dif, vec6Div, hk, if_false]
    exact fun x hx => (c.2 x hx).trans (s.2 x hx)

omit [DecidableEq K] in
private theorem wr6_spec (μ : Mem K) (p : ℕ) (a b : Vec3 K) :
    ((μ.wr3 p a).wr3 (p + 3) b).v6 p = ⟨a, b⟩ ∧ Only 6 p μ ((μ.wr3 p a).wr3 (p + 3) b) := by
  constructor
  · simp (disch := omega) only [wr3, set3, Mem.v3, Mem.v6, add_assoc, Nat.reduceAdd, put_self, put_ne]
  · intro c hc
    simp (disch := omega) only [wr3, set3, put_ne]

omit [DecidableEq K] in
private theorem wrM6_spec (μ : Mem K) (p : ℕ) (a b c d : Mat3 K) : (μ.wrM6 p a b c d).m6 p = { ll := a, la := b, al := c, aa := d } ∧
    Only 36 p μ (μ.wrM6 p a b c d) := by
  have s1 := wrM3_spec μ p a
  have s2 := wrM3_spec (μ.wrM3 p a) (p + 9) b
  have s3 := wrM3_spec ((μ.wrM3 p a).wrM3 (p + 9) b) (p + 18) c
  have s4 := wrM3_spec (((μ.wrM3 p a).wrM3 (p + 9) b).wrM3 (p + 18) c) (p + 27) d
  constructor
  · unfold wrM6 Mem.m6
    rw [s4.1, s4.2.m3 (by unfold Apart; omega), s3.2.m3 (by unfold Apart; omega), s2.2.m3 (by unfold Apart; omega), s1.1,
      s4.2.m3 (by unfold Apart; omega), s3.2.m3 (by unfold Apart; omega), s2.1, s4.2.m3 (by unfold Apart; omega), s3.1]
  · intro x hx
    unfold wrM6
    rw [s4.2 x (by omega), s3.2 x (by omega), s2.2 x (by omega), s1.2 x (by omega)]

/-- The products with 6x6 matrices are right for every output address, even one within an operand. -/
theorem C02_mat6_products (μ : Mem K) (a b m v mv : ℕ) :
    ((μ.mulMat6Vec6 a v mv).v6 mv = (μ.m6 a).mulVec (μ.v6 v) ∧ Only 6 mv μ (μ.mulMat6Vec6 a v mv)) ∧
    ((μ.mulMat6TVec6 a v mv).v6 mv = (μ.m6 a).mulTVec (μ.v6 v) ∧ Only 6 mv μ (μ.mulMat6TVec6 a v mv)) ∧
    ((μ.mulMat6Mat6 a b m).m6 m = (μ.m6 a).mulMat (μ.m6 b) ∧ Only 36 m μ (μ.mulMat6Mat6 a b m)) ∧
    ((μ.mulMat6TMat6 a b m).m6 m = (μ.m6 a).mulTMat (μ.m6 b) ∧ Only 36 m μ (μ.mulMat6TMat6 a b m)) ∧
    ((μ.mulMat6Mat6T a b m).m6 m = (μ.m6 a).mulMatT (μ.m6 b) ∧ Only 36 m μ (μ.mulMat6Mat6T a b m)) :=
  ⟨wr6_spec _ _ _ _, wr6_spec _ _ _ _, wrM6_spec _ _ _ _ _ _, wrM6_spec _ _ _ _ _ _, wrM6_spec _ _ _ _ _ _⟩

/-- The sum of 6x6 matrices may overwrite an operand. -/
theorem C02_mat6_add (μ : Mem K) (a b m : ℕ) (h1 : SameOrApart 36 a m) (h2 : SameOrApart 36 b m) :
    (μ.mat6Add a b m).m6 m = (μ.m6 a).add (μ.m6 b) ∧ Only 36 m μ (μ.mat6Add a b m) := by
  have so : ∀ (x k : ℕ), SameOrApart 36 x m → SameOrApart 9 (x + k) (m + k) := by
    rintro x k (rfl | h)
    · exact .inl rfl
    · exact .inr (by omega)
  have s1 := (C02_mat3 μ a b m 0 (so a 0 h1) (so b 0 h2)).2.1
  set μ1 := μ.mat3Add a b m
  have s2 := (C02_mat3 μ1 (a + 9) (b + 9) (m + 9) 0 (so a 9 h1) (so b 9 h2)).2.1
  set μ2 := μ1.mat3Add (a + 9) (b + 9) (m + 9)
  have s3 := (C02_mat3 μ2 (a + 18) (b + 18) (m + 18) 0 (so a 18 h1) (so b 18 h2)).2.1
  set μ3 := μ2.mat3Add (a + 18) (b + 18) (m + 18)
  have s4 := (C02_mat3 μ3 (a + 27) (b + 27) (m + 27) 0 (so a 27 h1) (so b 27 h2)).2.1
  have ap : ∀ (x i k : ℕ), i + 9 ≤ k → k ≤ 27 → SameOrApart 36 x m → Apart 9 (m + i) 9 (x + k) := by
    rintro x i k hi hk (rfl | h) <;> unfold Apart <;> omega
  constructor
  · show (μ3.mat3Add (a + 27) (b + 27) (m + 27)).m6 m = _
    unfold Mem.m6 Mat6.add
    rw [s4.1, s4.2.m3 (q := m) (by unfold Apart; omega), s4.2.m3 (q := m + 9) (by unfold Apart; omega), s4.2.m3 (q := m + 18) (by unfold Apart; omega),
      s3.1, s3.2.m3 (q := m) (by unfold Apart; omega), s3.2.m3 (q := m + 9) (by unfold Apart; omega), s2.1, s2.2.m3 (q := m) (by unfold Apart; omega), s1.1]
    rw [s3.2.m3 (ap a 18 27 (by omega) (by omega) h1), s3.2.m3 (ap b 18 27 (by omega) (by omega) h2),
      s2.2.m3 (ap a 9 27 (by omega) (by omega) h1), s2.2.m3 (ap b 9 27 (by omega) (by omega) h2),
      s2.2.m3 (ap a 9 18 (by omega) (by omega) h1), s2.2.m3 (ap b 9 18 (by omega) (by omega) h2),
      s1.2.m3 (ap a 0 27 (by omega) (by omega) h1), s1.2.m3 (ap b 0 27 (by omega) (by omega) h2),
      s1.2.m3 (ap a 0 18 (by omega) (by omega) h1), s1.2.m3 (ap b 0 18 (by omega) (by omega) h2),
      s1.2.m3 (ap a 0 9 (by omega) (by omega) h1), s1.2.m3 (ap b 0 9 (by omega) (by omega) h2)]
  · intro x hx
    show (μ3.mat3Add (a + 27) (b + 27) (m + 27)) x = _
    rw [s4.2 x (by omega), s3.2 x (by omega), s2.2 x (by omega), s1.2 x (by omega)]

/-- A 3x3 matrix can be multiplied to a 6D vector in place if the matrix is not part of the output; -/
theorem C02_mat3_vec6 (μ : Mem K) (m v mv : ℕ) (h : SameOrApart 6 v mv) (hm : Apart 9 m 6 mv) :
    ((μ.mulMat3Vec6 m v mv).v6 mv = Vec6.mulMat3 (μ.m3 m) (μ.v6 v) ∧ Only 6 mv μ (μ.mulMat3Vec6 m v mv)) ∧
    ((μ.mulMat3TVec6 m v mv).v6 mv = Vec6.mulMat3T (μ.m3 m) (μ.v6 v) ∧ Only 6 mv μ (μ.mulMat3TVec6 m v mv)) := by
  have key : ∀ F : Mat3 K → Vec3 K → Vec3 K,
      ((μ.wr3 mv (F (μ.m3 m) (μ.v3 v))).wr3 (mv + 3) (F ((μ.wr3 mv (F (μ.m3 m) (μ.v3 v))).m3 m) ((μ.wr3 mv (F (μ.m3 m) (μ.v3 v))).v3 (v + 3)))).v6 mv =
        ⟨F (μ.m3 m) (μ.v3 v), F (μ.m3 m) (μ.v3 (v + 3))⟩ ∧
      Only 6 mv μ ((μ.wr3 mv (F (μ.m3 m) (μ.v3 v))).wr3 (mv + 3)
        (F ((μ.wr3 mv (F (μ.m3 m) (μ.v3 v))).m3 m) ((μ.wr3 mv (F (μ.m3 m) (μ.v3 v))).v3 (v + 3)))) := by
    intro F
    have s := (wr3_spec μ mv (F (μ.m3 m) (μ.v3 v))).2
    unfold Apart at hm
    have e1 := s.m3 (q := m) (by unfold Apart; omega)
    have e2 := s.v3 (q := v + 3) (by unfold Apart; rcases h with rfl | h <;> omega)
    rw [e1, e2]
    exact wr6_spec _ _ _ _
  exact ⟨key Mat3.mulVec, key Mat3.mulTVec⟩

/-- … inside the output it is overwritten between the two products. -/
theorem C02_mat3_vec6_hazard : ∃ μ : Mem ℚ, (μ.mulMat3Vec6 0 9 0).v6 0 ≠ Vec6.mulMat3 (μ.m3 0) (μ.v6 9) := by
  refine ⟨fun i => if i = 0 ∨ i = 4 ∨ i = 8 ∨ i = 12 then 1 else 0, ?_⟩
  intro h
  have := congrArg (fun x : Vec6 ℚ => x.ang.x) h
  norm_num [mulMat3Vec6, mulMat3Vec3, wr3, set3, Mem.v3, Mem.v6, Mem.m3, put, Vec6.mulMat3, Mat3.mulVec] at this

end

/-- Normalisation may be done in place and writes nothing to a vector regarded as zero. -/
theorem C02_normalize (τ : ℝ) (μ : Mem ℝ) (v d : ℕ) (h2 : SameOrApart 2 v d) (h3 : SameOrApart 3 v d) :
    (((vec2Normalize τ μ v d).1, (vec2Normalize τ μ v d).2.v2 d) = (μ.v2 v).normalize τ (μ.v2 d) ∧ Only 2 d μ (vec2Normalize τ μ v d).2) ∧
    (((vec3Normalize τ μ v d).1, (vec3Normalize τ μ v d).2.v3 d) = (μ.v3 v).normalize τ (μ.v3 d) ∧ Only 3 d μ (vec3Normalize τ μ v d).2) := by
  have a := (C02_vec2 μ v v d (1 / (μ.v2 v).norm) h2 h2).2.2.2.1
  have b := (C02_vec3 μ v v d (1 / (μ.v3 v).norm) h3 h3).2.2.2.1
  refine ⟨?_, ?_⟩
  · unfold vec2Normalize Vec2.normalize
    split
    · exact ⟨rfl, fun _ _ => rfl⟩
    · exact ⟨by simp only [a.1], a.2⟩
  · unfold vec3Normalize Vec3.normalize Vec3.normalizeNC
    split
    · exact ⟨rfl, fun _ _ => rfl⟩
    · exact ⟨by simp only [b.1], b.2⟩

/-- A frame can be twisted in place, by a twist that is no part of it. -/
theorem C02_twist (τ : ℝ) (μ : Mem ℝ) (f1 w f2 : ℕ) (h : SameOrApart 12 f1 f2) (hw : Apart 6 w 12 f2) :
    (frame3Twist τ μ f1 w f2).f3 f2 = (μ.f3 f1).twist τ (μ.v6 w) ∧ Only 12 f2 μ (frame3Twist τ μ f1 w f2) := by
  unfold Apart at hw
  have a := (C02_vec3 μ f1 w f2 0 (by rcases h with rfl | h; exact .inl rfl; exact .inr (by omega)) (.inr (by omega))).1
  have b := wrM3_spec (μ.vec3Add f1 w f2) (f2 + 3) ((Mat3.fromAA τ ((μ.vec3Add f1 w f2).v3 (w + 3))).mulMat ((μ.vec3Add f1 w f2).m3 (f1 + 3)))
  have e1 := a.2.v3 (q := w + 3) (by unfold Apart; omega)
  have e2 := a.2.m3 (q := f1 + 3) (by unfold Apart; rcases h with rfl | h <;> omega)
  constructor
  · unfold frame3Twist mat3Rot Mem.f3
    rw [b.1, b.2.v3 (by unfold Apart; omega), a.1, e1, e2]
    rfl
  · intro x hx
    unfold frame3Twist mat3Rot
    rw [b.2 x (by omega), a.2 x (by omega)]

/-- The hypotheses of the theorems of this file are met, also with the output on an operand. -/
example : SameOrApart 3 0 0 ∧ SameOrApart 3 3 0 ∧ SameOrApart 2 0 0 ∧ SameOrApart 6 6 6 ∧ Apart 9 0 6 9 ∧ SameOrApart 12 0 0 ∧ Apart 6 12 12 0 := by
  unfold Apart SameOrApart; omega

end Zeo
