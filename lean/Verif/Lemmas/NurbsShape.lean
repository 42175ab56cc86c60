import Verif.Lemmas.NurbsDeriv
import Mathlib.Topology.Order.IntermediateValue
import Mathlib.Analysis.Real.Sqrt

/-! # Rational curves of the axes of NURBS surfaces with weights that are products -/

namespace Zeo
open Finset Spec

/-- The rational curve of one axis, in the segment `s`. -/
noncomputable def rat (b : BSpline) (m s : ℕ) (a X : ℕ → ℝ) (t : ℝ) : ℝ :=
  (∑ i ∈ range m, b.basis t s b.order i * (a i * X i)) / ∑ i ∈ range m, b.basis t s b.order i * a i

theorem rat_affine {b : BSpline} {m s : ℕ} {a X : ℕ → ℝ} {t : ℝ}
    (h : ∑ i ∈ range m, b.basis t s b.order i * a i ≠ 0) (c d : ℝ) :
    rat b m s a (fun i => c + d * X i) t = c + d * rat b m s a X t := by
  unfold rat
  have : ∑ i ∈ range m, b.basis t s b.order i * (a i * (c + d * X i)) =
      c * ∑ i ∈ range m, b.basis t s b.order i * a i + d * ∑ i ∈ range m, b.basis t s b.order i * (a i * X i) := by
    rw [mul_sum, mul_sum, ← sum_add_distrib]
    exact sum_congr rfl fun i _ => by ring
  rw [this]
  field_simp

theorem rat_const {b : BSpline} {m s : ℕ} {a : ℕ → ℝ} {t : ℝ} (h : ∑ i ∈ range m, b.basis t s b.order i * a i ≠ 0) :
    rat b m s a (fun _ => 1) t = 1 := by
  unfold rat
  simp only [mul_one]
  exact div_self h

theorem rat_mul {b : BSpline} {m s : ℕ} {a X : ℕ → ℝ} {t : ℝ} (h : ∑ i ∈ range m, b.basis t s b.order i * a i ≠ 0)
    (c : ℝ) : rat b m s a (fun i => c * X i) t = c * rat b m s a X t := by
  have := rat_affine (X := X) h 0 c
  simpa using this

namespace NURBS
variable {n : NURBS} {sg : BSpline → ℝ → ℕ} {τ u v : ℝ}

theorem dsum_factor (n0 n1 : ℕ) (A B f g : ℕ → ℝ) (X : ℕ → ℕ → ℝ) (h : ∀ i < n0, ∀ j < n1, X i j = f i * g j) :
    dsum n0 n1 A B X = (∑ i ∈ range n0, A i * f i) * ∑ j ∈ range n1, B j * g j := by
  unfold dsum
  rw [sum_mul]
  refine sum_congr rfl fun i hi => ?_
  rw [mul_assoc]
  congr 1
  rw [mul_sum]
  exact sum_congr rfl fun j hj => by rw [h i (mem_range.1 hi) j (mem_range.1 hj)]; ring

theorem dsum_congr (n0 n1 : ℕ) (A B : ℕ → ℝ) (X Y : ℕ → ℕ → ℝ) (h : ∀ i < n0, ∀ j < n1, X i j = Y i j) :
    dsum n0 n1 A B X = dsum n0 n1 A B Y := by
  unfold dsum
  refine sum_congr rfl fun i hi => ?_
  congr 1
  exact sum_congr rfl fun j hj => by rw [h i (mem_range.1 hi) j (mem_range.1 hj)]

/-- Weights and coordinates that are products: the point is made of the curves of the axes. -/
theorem tensor (hs : IsSegment sg) (hn : NurbsOK n) (hτ : 0 ≤ τ) (hu : InDomain n.p0 n.n0 u) (hv : InDomain n.p1 n.n1 v)
    {a b x0 x1 y0 y1 z0 z1 : ℕ → ℝ} {c A B D : Vec3 ℝ} (hw : ∀ i < n.n0, ∀ j < n.n1, τ < n.w i j)
    (hab : ∀ i < n.n0, ∀ j < n.n1, n.w i j = a i * b j)
    (hc : ∀ i < n.n0, ∀ j < n.n1, n.cp i j = at3 c A B D (x0 i * x1 j) (y0 i * y1 j) (z0 i * z1 j)) :
    n.vec sg τ u v = some (at3 c A B D
      (rat n.p0 n.n0 (sg n.p0 u) a x0 u * rat n.p1 n.n1 (sg n.p1 v) b x1 v)
      (rat n.p0 n.n0 (sg n.p0 u) a y0 u * rat n.p1 n.n1 (sg n.p1 v) b y1 v)
      (rat n.p0 n.n0 (sg n.p0 u) a z0 u * rat n.p1 n.n1 (sg n.p1 v) b z1 v)) ∧
    ∑ i ∈ range n.n0, n.p0.basis u (sg n.p0 u) n.p0.order i * a i ≠ 0 ∧
    ∑ i ∈ range n.n1, n.p1.basis v (sg n.p1 v) n.p1.order i * b i ≠ 0 := by
  have hd := den_pos hn hs hu hv hw
  set P := n.p0.basis u (sg n.p0 u) n.p0.order with hP
  set Q := n.p1.basis v (sg n.p1 v) n.p1.order with hQ
  have e : dsum n.n0 n.n1 P Q n.w = (∑ i ∈ range n.n0, P i * a i) * ∑ j ∈ range n.n1, Q j * b j :=
    dsum_factor _ _ _ _ _ _ _ hab
  have hne : dsum n.n0 n.n1 P Q n.w ≠ 0 := (hτ.trans_lt hd).ne'
  have h0 : ∑ i ∈ range n.n0, P i * a i ≠ 0 := fun h => hne (by rw [e, h, zero_mul])
  have h1 : ∑ j ∈ range n.n1, Q j * b j ≠ 0 := fun h => hne (by rw [e, h, mul_zero])
  refine ⟨?_, h0, h1⟩
  have ev := eval_eq sg τ u v (hn.inside hs hu hv)
  dsimp only at ev
  rw [← hP, ← hQ] at ev
  rw [ev, if_neg (by rintro (h | h); exacts [absurd ((le_abs_self _).trans h) (not_le.2 hd), hne h])]
  have key : ∀ (f : Vec3 ℝ → ℝ) (c0 a0 b0 d0 : ℝ), (∀ x y z, f (at3 c A B D x y z) = c0 + x * a0 + y * b0 + z * d0) →
      (dsum n.n0 n.n1 P Q fun i j => n.w i j * f (n.cp i j)) / dsum n.n0 n.n1 P Q n.w =
      c0 + rat n.p0 n.n0 (sg n.p0 u) a x0 u * rat n.p1 n.n1 (sg n.p1 v) b x1 v * a0 +
        rat n.p0 n.n0 (sg n.p0 u) a y0 u * rat n.p1 n.n1 (sg n.p1 v) b y1 v * b0 +
        rat n.p0 n.n0 (sg n.p0 u) a z0 u * rat n.p1 n.n1 (sg n.p1 v) b z1 v * d0 := by
    intro f c0 a0 b0 d0 hf
    have : dsum n.n0 n.n1 P Q (fun i j => n.w i j * f (n.cp i j)) = dsum n.n0 n.n1 P Q (fun i j =>
        (c0 * n.w i j + a0 * (n.w i j * (x0 i * x1 j))) + (b0 * (n.w i j * (y0 i * y1 j)) + d0 * (n.w i j * (z0 i * z1 j)))) := by
      refine dsum_congr _ _ _ _ _ _ fun i hi j hj => ?_
      rw [hc i hi j hj, hf]; ring
    rw [this, dsum_add, dsum_add, dsum_add, dsum_mul, dsum_mul, dsum_mul, dsum_mul,
      dsum_factor _ _ _ _ (fun i => a i * x0 i) (fun j => b j * x1 j) (fun i j => n.w i j * (x0 i * x1 j))
        (fun i hi j hj => by rw [hab i hi j hj]; ring),
      dsum_factor _ _ _ _ (fun i => a i * y0 i) (fun j => b j * y1 j) (fun i j => n.w i j * (y0 i * y1 j))
        (fun i hi j hj => by rw [hab i hi j hj]; ring),
      dsum_factor _ _ _ _ (fun i => a i * z0 i) (fun j => b j * z1 j) (fun i j => n.w i j * (z0 i * z1 j))
        (fun i hi j hj => by rw [hab i hi j hj]; ring), e]
    unfold rat
    rw [← hP, ← hQ]
    field_simp
    ring
  rw [key Vec3.x c.x A.x B.x D.x (fun _ _ _ => rfl), key Vec3.y c.y A.y B.y D.y (fun _ _ _ => rfl),
    key Vec3.z c.z A.z B.z D.z (fun _ _ _ => rfl)]
  rfl

/-- What the curves of one axis reach together. -/
def Reach (sg : BSpline → ℝ → ℕ) (b : BSpline) (m : ℕ) (a X Y : ℕ → ℝ) (x y : ℝ) : Prop :=
  ∃ t, InDomain b m t ∧ rat b m (sg b t) a X t = x ∧ rat b m (sg b t) a Y t = y

theorem rat_den {b : BSpline} {m : ℕ} (hs : IsSegment sg) (h : KnotsOK b m) {a : ℕ → ℝ} (ha : ∀ i < m, 0 < a i) {t : ℝ}
    (ht : InDomain b m t) : ∑ i ∈ range m, b.basis t (sg b t) b.order i * a i ≠ 0 := by
  intro h0
  have h1 := (sum_eq_zero_iff_of_nonneg (fun i hi => mul_nonneg (h.nonneg hs ht i) (ha i (mem_range.1 hi)).le)).1 h0
  have h2 := h.sum_one hs ht
  rw [sum_eq_zero fun i hi => (mul_eq_zero.1 (h1 i hi)).resolve_right (ha i (mem_range.1 hi)).ne'] at h2
  exact zero_ne_one h2

/-- The surface, for weights and coordinates that are products. -/
theorem surface_tensor {b0 b1 : BSpline} {m0 m1 : ℕ} {cp : ℕ → ℕ → Vec3 ℝ} {w : ℕ → ℕ → ℝ} (hs : IsSegment sg) (hτ : 0 ≤ τ)
    (k0 : KnotsOK b0 m0) (k1 : KnotsOK b1 m1) (a b : ℕ → ℝ) (ha : ∀ i < m0, 0 < a i) (hb : ∀ i < m1, 0 < b i)
    (X Y R Z : ℕ → ℝ) (c A B D : Vec3 ℝ) (kx ky kz : ℝ)
    (hw : ∀ i < m0, ∀ j < m1, τ < w i j) (hab : ∀ i < m0, ∀ j < m1, w i j = a i * b j)
    (hc : ∀ i < m0, ∀ j < m1, cp i j = at3 c A B D (kx * (X i * R j)) (ky * (Y i * R j)) (kz * Z j)) :
    NurbsOK ⟨b0, b1, m0, m1, cp, w⟩ ∧ nurbsSurface sg τ ⟨b0, b1, m0, m1, cp, w⟩ =
      {p | ∃ x y r z, Reach sg b0 m0 a X Y x y ∧ Reach sg b1 m1 b R Z r z ∧
        p = at3 c A B D (kx * (x * r)) (ky * (y * r)) (kz * z)} := by
  have ok : NurbsOK ⟨b0, b1, m0, m1, cp, w⟩ := ⟨k0, k1⟩
  have hmove : ∀ x y z, at3 c A B D (kx * x) (ky * y) (kz * z) =
      at3 c ⟨kx * A.x, kx * A.y, kx * A.z⟩ ⟨ky * B.x, ky * B.y, ky * B.z⟩ ⟨kz * D.x, kz * D.y, kz * D.z⟩ x y z := by
    intro x y z; unfold at3; ext <;> ring
  have hc' : ∀ i < m0, ∀ j < m1, cp i j = at3 c ⟨kx * A.x, kx * A.y, kx * A.z⟩ ⟨ky * B.x, ky * B.y, ky * B.z⟩
      ⟨kz * D.x, kz * D.y, kz * D.z⟩ (X i * R j) (Y i * R j) ((fun _ => 1) i * Z j) := by
    intro i hi j hj
    rw [hc i hi j hj, hmove, one_mul]
  refine ⟨ok, ?_⟩
  ext p
  constructor
  · rintro ⟨u, v, hu, hv, h⟩
    have := (tensor (y1 := R) hs ok hτ hu hv hw hab hc').1
    rw [h] at this
    refine ⟨_, _, _, _, ⟨u, hu, rfl, rfl⟩, ⟨v, hv, rfl, rfl⟩, ?_⟩
    rw [Option.some.inj this, hmove]
    dsimp only
    rw [rat_const (rat_den hs k0 ha hu), one_mul]
  · rintro ⟨x, y, r, z, ⟨u, hu, rfl, rfl⟩, ⟨v, hv, rfl, rfl⟩, rfl⟩
    refine ⟨u, v, hu, hv, ?_⟩
    rw [(tensor (y1 := R) hs ok hτ hu hv hw hab hc').1, hmove]
    dsimp only
    rw [rat_const (rat_den hs k0 ha hu), one_mul]

/-- The same, with the roles of the axes exchanged. -/
theorem surface_tensor' {b0 b1 : BSpline} {m0 m1 : ℕ} {cp : ℕ → ℕ → Vec3 ℝ} {w : ℕ → ℕ → ℝ} (hs : IsSegment sg) (hτ : 0 ≤ τ)
    (k0 : KnotsOK b0 m0) (k1 : KnotsOK b1 m1) (a b : ℕ → ℝ) (_ : ∀ i < m0, 0 < a i) (hb : ∀ i < m1, 0 < b i)
    (X Y R Z : ℕ → ℝ) (c A B D : Vec3 ℝ) (kx ky kz : ℝ)
    (hw : ∀ i < m0, ∀ j < m1, τ < w i j) (hab : ∀ i < m0, ∀ j < m1, w i j = a i * b j)
    (hc : ∀ i < m0, ∀ j < m1, cp i j = at3 c A B D (kx * (R i * X j)) (ky * (R i * Y j)) (kz * Z i)) :
    NurbsOK ⟨b0, b1, m0, m1, cp, w⟩ ∧ nurbsSurface sg τ ⟨b0, b1, m0, m1, cp, w⟩ =
      {p | ∃ x y r z, Reach sg b1 m1 b X Y x y ∧ Reach sg b0 m0 a R Z r z ∧
        p = at3 c A B D (kx * (r * x)) (ky * (r * y)) (kz * z)} := by
  have ok : NurbsOK ⟨b0, b1, m0, m1, cp, w⟩ := ⟨k0, k1⟩
  have hmove : ∀ x y z, at3 c A B D (kx * x) (ky * y) (kz * z) =
      at3 c ⟨kx * A.x, kx * A.y, kx * A.z⟩ ⟨ky * B.x, ky * B.y, ky * B.z⟩ ⟨kz * D.x, kz * D.y, kz * D.z⟩ x y z := by
    intro x y z; unfold at3; ext <;> ring
  have hc' : ∀ i < m0, ∀ j < m1, cp i j = at3 c ⟨kx * A.x, kx * A.y, kx * A.z⟩ ⟨ky * B.x, ky * B.y, ky * B.z⟩
      ⟨kz * D.x, kz * D.y, kz * D.z⟩ (R i * X j) (R i * Y j) (Z i * (fun _ => 1) j) := by
    intro i hi j hj
    rw [hc i hi j hj, hmove, mul_one]
  refine ⟨ok, ?_⟩
  ext p
  constructor
  · rintro ⟨u, v, hu, hv, h⟩
    have := (tensor (y0 := R) hs ok hτ hu hv hw hab hc').1
    rw [h] at this
    refine ⟨_, _, _, _, ⟨v, hv, rfl, rfl⟩, ⟨u, hu, rfl, rfl⟩, ?_⟩
    rw [Option.some.inj this, hmove]
    dsimp only
    rw [rat_const (rat_den hs k1 hb hv), mul_one]
  · rintro ⟨x, y, r, z, ⟨v, hv, rfl, rfl⟩, ⟨u, hu, rfl, rfl⟩, rfl⟩
    refine ⟨u, v, hu, hv, ?_⟩
    rw [(tensor (y0 := R) hs ok hτ hu hv hw hab hc').1, hmove]
    dsimp only
    rw [rat_const (rat_den hs k1 hb hv), mul_one]
end NURBS

/-! ## Pieces of order 1 -/

theorem basis1 (b : BSpline) (t : ℝ) (q : ℕ) (h : b.kn (q + 1) < b.kn (q + 2)) (i : ℕ) :
    b.basis t (q + 1) 1 i = if i = q then (b.kn (q + 2) - t) / (b.kn (q + 2) - b.kn (q + 1)) else
      if i = q + 1 then (t - b.kn (q + 1)) / (b.kn (q + 2) - b.kn (q + 1)) else 0 := by
  have h0 : b.kn (q + 2) - b.kn (q + 1) ≠ 0 := by linarith
  simp only [BSpline.basis]
  by_cases h1 : i = q
  · subst h1
    simp [BSpline.ratio, h0]
  by_cases h2 : i = q + 1
  · subst h2
    simp [BSpline.ratio, h0]
  · rw [if_neg h2, if_neg (by omega), if_neg h1, if_neg h2]; simp

theorem sum_two {m q : ℕ} (h : q + 1 < m) (f : ℕ → ℝ) (hf : ∀ i, i ≠ q → i ≠ q + 1 → f i = 0) :
    ∑ i ∈ range m, f i = f q + f (q + 1) := by
  rw [← sum_subset (s₁ := {q, q + 1}) (fun i hi => by simp at hi ⊢; omega)
    (fun i _ hi => hf i (by simp at hi; tauto) (by simp at hi; tauto)), sum_pair (by omega)]

theorem sum_three {m q : ℕ} (h : q + 2 < m) (f : ℕ → ℝ) (hf : ∀ i, i ≠ q → i ≠ q + 1 → i ≠ q + 2 → f i = 0) :
    ∑ i ∈ range m, f i = f q + f (q + 1) + f (q + 2) := by
  rw [← sum_subset (s₁ := {q, q + 1, q + 2}) (fun i hi => by simp at hi ⊢; omega)
    (fun i _ hi => hf i (by simp at hi; tauto) (by simp at hi; tauto) (by simp at hi; tauto)),
    sum_insert (by simp), sum_pair (by omega), add_assoc]

/-- One piece of a curve of order 1 with equal weights is a segment. -/
theorem rat_line {b : BSpline} {m q : ℕ} (ho : b.order = 1) (hq : q + 1 < m) (h : b.kn (q + 1) < b.kn (q + 2)) (X : ℕ → ℝ)
    (t : ℝ) : rat b m (q + 1) (fun _ => 1) X t =
      X q + (t - b.kn (q + 1)) / (b.kn (q + 2) - b.kn (q + 1)) * (X (q + 1) - X q) := by
  have h0 : b.kn (q + 2) - b.kn (q + 1) ≠ 0 := by linarith
  unfold rat
  rw [ho, sum_two hq _ (fun i h1 h2 => by rw [basis1 b t q h, if_neg h1, if_neg h2, zero_mul]),
    sum_two hq _ (fun i h1 h2 => by rw [basis1 b t q h, if_neg h1, if_neg h2, zero_mul])]
  simp only [basis1 b t q h, if_true, if_neg (Nat.succ_ne_self q), one_mul, mul_one]
  have : (b.kn (q + 2) - t) / (b.kn (q + 2) - b.kn (q + 1)) = 1 - (t - b.kn (q + 1)) / (b.kn (q + 2) - b.kn (q + 1)) := by
    field_simp; ring
  rw [this]
  simp
  ring

/-- Knots of `N` segments in a chain. -/
structure LineKnots (b : BSpline) (N : ℕ) : Prop where
  ok : KnotsOK b (N + 1)
  order : b.order = 1
  kn : ∀ q < N, b.kn (q + 1) = q ∧ b.kn (q + 2) = q + 1

/-- What a chain of segments does at a parameter. -/
theorem line_at {b : BSpline} {N : ℕ} {sg : BSpline → ℝ → ℕ} (hs : IsSegment sg) (h : LineKnots b N) {t : ℝ}
    (ht : InDomain b (N + 1) t) : ∃ q θ, q < N ∧ 0 ≤ θ ∧ θ ≤ 1 ∧ t = q + θ ∧ ∀ X : ℕ → ℝ,
      rat b (N + 1) (sg b t) (fun _ => 1) X t = X q + θ * (X (q + 1) - X q) := by
  obtain ⟨a1, a2, a3, a4, a5⟩ := hs b _ t h.ok ht
  rw [h.order] at a1
  obtain ⟨q, hq⟩ : ∃ q, sg b t = q + 1 := ⟨sg b t - 1, by omega⟩
  rw [hq] at a3 a4 a5 ⊢
  obtain ⟨k1, k2⟩ := h.kn q (by omega)
  rw [show q + 1 + 1 = q + 2 from rfl] at a3 a5
  refine ⟨q, t - q, by omega, by linarith, by linarith, by ring, fun X => ?_⟩
  rw [rat_line h.order (by omega) a3, k1, k2]
  simp

/-- Every point of every segment is met. -/
theorem line_meet {b : BSpline} {N : ℕ} {sg : BSpline → ℝ → ℕ} (hs : IsSegment sg) (h : LineKnots b N) {q : ℕ} {θ : ℝ}
    (hq : q < N) (h0 : 0 ≤ θ) (h1 : θ ≤ 1) : ∃ t, InDomain b (N + 1) t ∧ ∀ X : ℕ → ℝ,
      rat b (N + 1) (sg b t) (fun _ => 1) X t = X q + θ * (X (q + 1) - X q) := by
  have hdom : InDomain b (N + 1) (q + θ) := by
    have hqN : (q : ℝ) + 1 ≤ N := by exact_mod_cast hq
    have hq0 : (0 : ℝ) ≤ q := by positivity
    have e0 : b.kn 1 = 0 := by simpa using (h.kn 0 (by omega)).1
    have e1 : b.kn (N + 1) = N := by
      have := (h.kn (N - 1) (by omega)).2
      rw [show N - 1 + 2 = N + 1 by omega] at this
      rw [this, Nat.cast_sub (by omega)]; simp
    refine ⟨?_, ?_⟩
    · rw [h.order, e0]; linarith
    · rw [e1]; linarith
  refine ⟨q + θ, hdom, fun X => ?_⟩
  obtain ⟨q', θ', c1, c2, c3, c4, c5⟩ := line_at hs h hdom
  rw [c5 X]
  rcases lt_trichotomy q q' with hl | he | hg
  · have : (q : ℝ) + 1 ≤ q' := by exact_mod_cast hl
    have t1 : θ = 1 := by linarith
    have t2 : θ' = 0 := by linarith
    have : q' = q + 1 := by
      have : (q' : ℝ) = q + 1 := by linarith
      exact_mod_cast this
    rw [t1, t2, this]; ring
  · subst he
    have : θ = θ' := by linarith
    rw [this]
  · have : (q' : ℝ) + 1 ≤ q := by exact_mod_cast hg
    have t1 : θ = 0 := by linarith
    have t2 : θ' = 1 := by linarith
    have : q = q' + 1 := by
      have : (q : ℝ) = q' + 1 := by linarith
      exact_mod_cast this
    rw [t1, t2, this]; ring

/-- The knots of two segments that do not hang together. -/
theorem split_ok : KnotsOK ⟨1, [0, 0, 1, 1, 2, 2], 0⟩ 4 := ⟨rfl, by norm_num, by norm_num [BSpline.kn]⟩

/-- What they give at a parameter: a point of the first or of the last segment, and none of the middle one. -/
theorem split_at' {sg : BSpline → ℝ → ℕ} (hs : IsSegment sg) {t : ℝ} (ht : InDomain ⟨1, [0, 0, 1, 1, 2, 2], 0⟩ 4 t) :
    (0 ≤ t ∧ t ≤ 1 ∧ ∀ X : ℕ → ℝ, rat ⟨1, [0, 0, 1, 1, 2, 2], 0⟩ 4 (sg ⟨1, [0, 0, 1, 1, 2, 2], 0⟩ t) (fun _ => 1) X t =
      X 0 + t * (X 1 - X 0)) ∨
    (1 ≤ t ∧ t ≤ 2 ∧ ∀ X : ℕ → ℝ, rat ⟨1, [0, 0, 1, 1, 2, 2], 0⟩ 4 (sg ⟨1, [0, 0, 1, 1, 2, 2], 0⟩ t) (fun _ => 1) X t =
      X 2 + (t - 1) * (X 3 - X 2)) := by
  obtain ⟨a1, a2, a3, a4, a5⟩ := hs _ _ t split_ok ht
  generalize sg ⟨1, [0, 0, 1, 1, 2, 2], 0⟩ t = s at *
  dsimp only at a1
  interval_cases s
  · left
    norm_num [BSpline.kn] at a4 a5
    refine ⟨a4, a5, fun X => ?_⟩
    rw [rat_line rfl (q := 0) (by norm_num) (by norm_num [BSpline.kn])]
    norm_num [BSpline.kn]
  · norm_num [BSpline.kn] at a3
  · right
    norm_num [BSpline.kn] at a4 a5
    refine ⟨a4, a5, fun X => ?_⟩
    rw [rat_line rfl (q := 2) (by norm_num) (by norm_num [BSpline.kn])]
    norm_num [BSpline.kn]

theorem split_meet {sg : BSpline → ℝ → ℕ} (hs : IsSegment sg) {θ : ℝ} (h0 : 0 ≤ θ) (h1 : θ < 1) :
    (∃ t, InDomain ⟨1, [0, 0, 1, 1, 2, 2], 0⟩ 4 t ∧ ∀ X : ℕ → ℝ,
      rat ⟨1, [0, 0, 1, 1, 2, 2], 0⟩ 4 (sg ⟨1, [0, 0, 1, 1, 2, 2], 0⟩ t) (fun _ => 1) X t = X 0 + θ * (X 1 - X 0)) ∧
    (∃ t, InDomain ⟨1, [0, 0, 1, 1, 2, 2], 0⟩ 4 t ∧ ∀ X : ℕ → ℝ,
      rat ⟨1, [0, 0, 1, 1, 2, 2], 0⟩ 4 (sg ⟨1, [0, 0, 1, 1, 2, 2], 0⟩ t) (fun _ => 1) X t = X 3 + θ * (X 2 - X 3)) := by
  have d1 : InDomain ⟨1, [0, 0, 1, 1, 2, 2], 0⟩ 4 θ := by
    constructor <;> norm_num [BSpline.kn] <;> linarith
  have d2 : InDomain ⟨1, [0, 0, 1, 1, 2, 2], 0⟩ 4 (2 - θ) := by
    constructor <;> norm_num [BSpline.kn] <;> linarith
  refine ⟨⟨θ, d1, fun X => ?_⟩, ⟨2 - θ, d2, fun X => ?_⟩⟩
  · rcases split_at' hs d1 with ⟨-, -, h⟩ | ⟨h, -⟩
    · exact h X
    · linarith
  · rcases split_at' hs d2 with ⟨-, h, -⟩ | ⟨-, -, h⟩
    · linarith
    · rw [h X]; ring

/-! ## Pieces of order 2 between double knots -/

theorem basis2 (b : BSpline) (t : ℝ) (q : ℕ) (h1 : b.kn (q + 1) = b.kn (q + 2)) (h : b.kn (q + 2) < b.kn (q + 3))
    (h2 : b.kn (q + 4) = b.kn (q + 3)) (i : ℕ) :
    let θ := (t - b.kn (q + 2)) / (b.kn (q + 3) - b.kn (q + 2))
    b.basis t (q + 2) 2 i = if i = q then (1 - θ) ^ 2 else if i = q + 1 then 2 * θ * (1 - θ) else
      if i = q + 2 then θ ^ 2 else 0 := by
  intro θ
  have h0 : b.kn (q + 3) - b.kn (q + 2) ≠ 0 := by linarith
  have e1 : (b.kn (q + 3) - t) / (b.kn (q + 3) - b.kn (q + 2)) = 1 - θ := by
    simp only [θ]; field_simp; ring
  have e2 : (t - b.kn (q + 2)) / (b.kn (q + 3) - b.kn (q + 2)) = θ := rfl
  rw [BSpline.basis, basis1 b t (q + 1) (by linarith), basis1 b t (q + 1) (by linarith)]
  by_cases c1 : i = q
  · subst c1
    rw [if_neg (show i ≠ i + 1 by omega), if_neg (show i ≠ i + 1 + 1 by omega)]
    simp [BSpline.ratio, h1, h0, e1, e2]
    ring
  by_cases c2 : i = q + 1
  · subst c2
    simp [BSpline.ratio, h1, h2, h0, e1, e2]
    ring
  by_cases c3 : i = q + 2
  · subst c3
    simp [BSpline.ratio, h1, h2, h0, e1, e2]
    ring
  · simp [c1, c2, c3]

/-- The first coordinate of the quarter of a circle as a rational curve. -/
noncomputable def arcX (θ : ℝ) : ℝ := ((1 - θ) ^ 2 + 2 * θ * (1 - θ) / Real.sqrt 2) /
  ((1 - θ) ^ 2 + 2 * θ * (1 - θ) / Real.sqrt 2 + θ ^ 2)
/-- The second coordinate. -/
noncomputable def arcY (θ : ℝ) : ℝ := (2 * θ * (1 - θ) / Real.sqrt 2 + θ ^ 2) /
  ((1 - θ) ^ 2 + 2 * θ * (1 - θ) / Real.sqrt 2 + θ ^ 2)

theorem arc_den {θ : ℝ} (h0 : 0 ≤ θ) (h1 : θ ≤ 1) : 0 < (1 - θ) ^ 2 + 2 * θ * (1 - θ) / Real.sqrt 2 + θ ^ 2 := by
  have : 0 ≤ 2 * θ * (1 - θ) / Real.sqrt 2 := div_nonneg (mul_nonneg (by linarith) (by linarith)) (Real.sqrt_nonneg _)
  nlinarith [sq_nonneg (1 - θ), sq_nonneg θ, sq_nonneg (1 - 2 * θ)]

theorem arc_circle {θ : ℝ} (h0 : 0 ≤ θ) (h1 : θ ≤ 1) : arcX θ ^ 2 + arcY θ ^ 2 = 1 ∧ 0 ≤ arcX θ ∧ 0 ≤ arcY θ := by
  have hd := arc_den h0 h1
  have hp : 0 ≤ 2 * θ * (1 - θ) / Real.sqrt 2 := div_nonneg (mul_nonneg (by linarith) (by linarith)) (Real.sqrt_nonneg _)
  have hsq : (2 * θ * (1 - θ) / Real.sqrt 2) ^ 2 = 2 * (θ * (1 - θ)) ^ 2 := by
    rw [div_pow, Real.sq_sqrt (by norm_num)]; ring
  unfold arcX arcY
  set k := 2 * θ * (1 - θ) / Real.sqrt 2
  refine ⟨?_, div_nonneg (by positivity) hd.le, div_nonneg (by positivity) hd.le⟩
  rw [div_pow, div_pow, ← add_div, div_eq_one_iff_eq (by positivity)]
  linear_combination hsq

theorem arc_surj {x y : ℝ} (hx : 0 ≤ x) (hy : 0 ≤ y) (h : x ^ 2 + y ^ 2 = 1) :
    ∃ θ, 0 ≤ θ ∧ θ ≤ 1 ∧ arcX θ = x ∧ arcY θ = y := by
  set f : ℝ → ℝ := fun θ => x * (2 * θ * (1 - θ) / Real.sqrt 2 + θ ^ 2) - y * ((1 - θ) ^ 2 + 2 * θ * (1 - θ) / Real.sqrt 2) with hf
  have hc : ContinuousOn f (Set.Icc 0 1) := by
    refine Continuous.continuousOn ?_
    simp only [hf]
    fun_prop
  have h01 : (0 : ℝ) ∈ Set.Icc (f 0) (f 1) := by
    constructor
    · simp only [hf]; norm_num [hy]
    · simp only [hf]; norm_num [hx]
  obtain ⟨θ, ⟨t0, t1⟩, ht⟩ := intermediate_value_Icc zero_le_one hc h01
  refine ⟨θ, t0, t1, ?_⟩
  obtain ⟨c1, c2, c3⟩ := arc_circle t0 t1
  have hd := arc_den t0 t1
  have hcross : x * arcY θ = y * arcX θ := by
    simp only [hf] at ht
    unfold arcX arcY
    rw [mul_div_assoc', mul_div_assoc']
    congr 1
    linarith
  have h1 : (arcX θ) ^ 2 = x ^ 2 := by
    have : (x * arcY θ) ^ 2 = (y * arcX θ) ^ 2 := by rw [hcross]
    nlinarith
  have h2 : (arcY θ) ^ 2 = y ^ 2 := by linarith
  exact ⟨(sq_eq_sq₀ c2 hx).1 h1, (sq_eq_sq₀ c3 hy).1 h2⟩

/-- Knots of `N` quarter arcs. -/
structure ArcKnots (b : BSpline) (N : ℕ) : Prop where
  ok : KnotsOK b (2 * N + 1)
  order : b.order = 2
  kn : ∀ q < N, b.kn (2 * q + 1) = q / N ∧ b.kn (2 * q + 2) = q / N ∧ b.kn (2 * q + 3) = (q + 1) / N ∧
    b.kn (2 * q + 4) = (q + 1) / N

variable {b : BSpline} {N : ℕ} {sg : BSpline → ℝ → ℕ}

private theorem piece2 (h : ArcKnots b N) {q : ℕ} (hq : q < N) (X : ℕ → ℝ) (hX : X (2 * q + 1) = X (2 * q) + X (2 * q + 2)) (t : ℝ) :
    rat b (2 * N + 1) (2 * q + 2) NURBS.ringW X t = arcX (N * t - q) * X (2 * q) + arcY (N * t - q) * X (2 * q + 2) := by
  obtain ⟨k1, k2, k3, k4⟩ := h.kn q hq
  have hN : (0 : ℝ) < N := by exact_mod_cast (by omega : 0 < N)
  have hlt : b.kn (2 * q + 2) < b.kn (2 * q + 3) := by
    rw [k2, k3, div_lt_div_iff_of_pos_right hN]; linarith
  have hθ : (t - b.kn (2 * q + 2)) / (b.kn (2 * q + 3) - b.kn (2 * q + 2)) = N * t - q := by
    rw [k2, k3]; field_simp; ring
  have hb := basis2 b t (2 * q) (by rw [k1, k2]) hlt (by rw [k3, k4])
  dsimp only at hb
  rw [hθ] at hb
  have w0 : NURBS.ringW (2 * q) = 1 := by simp [NURBS.ringW]
  have w1 : NURBS.ringW (2 * q + 1) = 1 / Real.sqrt 2 := by unfold NURBS.ringW; rw [if_neg (by omega)]
  have w2 : NURBS.ringW (2 * q + 2) = 1 := by unfold NURBS.ringW; rw [if_pos (by omega)]
  unfold rat
  rw [h.order, sum_three (q := 2 * q) (by omega) _ (fun i h1 h2 h3 => by rw [hb, if_neg h1, if_neg h2, if_neg h3, zero_mul]),
    sum_three (q := 2 * q) (by omega) _ (fun i h1 h2 h3 => by rw [hb, if_neg h1, if_neg h2, if_neg h3, zero_mul])]
  simp only [hb, w0, w1, w2, hX]
  simp only [if_true, if_neg (Nat.succ_ne_self (2 * q)), if_neg (show 2 * q + 2 ≠ 2 * q by omega),
    if_neg (show 2 * q + 2 ≠ 2 * q + 1 by omega)]
  unfold arcX arcY
  generalize (N * t - q : ℝ) = θ
  rw [show (1 - θ) ^ 2 * 1 + 2 * θ * (1 - θ) * (1 / Real.sqrt 2) + θ ^ 2 * 1 =
    (1 - θ) ^ 2 + 2 * θ * (1 - θ) / Real.sqrt 2 + θ ^ 2 by ring]
  ring

/-- What a curve of arcs does at a parameter. -/
theorem arc_at (hs : IsSegment sg) (h : ArcKnots b N) {t : ℝ} (ht : InDomain b (2 * N + 1) t) :
    ∃ q θ, q < N ∧ 0 ≤ θ ∧ θ ≤ 1 ∧ N * t = q + θ ∧ ∀ X : ℕ → ℝ, X (2 * q + 1) = X (2 * q) + X (2 * q + 2) →
      rat b (2 * N + 1) (sg b t) NURBS.ringW X t = arcX θ * X (2 * q) + arcY θ * X (2 * q + 2) := by
  obtain ⟨a1, a2, a3, a4, a5⟩ := hs b _ t h.ok ht
  rw [h.order] at a1
  rcases Nat.even_or_odd' (sg b t) with ⟨k, hk | hk⟩
  · obtain ⟨q, rfl⟩ : ∃ q, k = q + 1 := ⟨k - 1, by omega⟩
    have hq : q < N := by omega
    obtain ⟨k1, k2, k3, k4⟩ := h.kn q hq
    have hN : (0 : ℝ) < N := by exact_mod_cast (by omega : 0 < N)
    rw [show sg b t = 2 * q + 2 by omega] at a4 a5 ⊢
    rw [k2, div_le_iff₀ hN] at a4
    rw [show 2 * q + 2 + 1 = 2 * q + 3 by ring, k3, le_div_iff₀ hN] at a5
    exact ⟨q, N * t - q, hq, by linarith, by linarith, by ring, fun X hX => piece2 h hq X hX t⟩
  · exfalso
    have hq : k < N := by omega
    obtain ⟨k1, k2, -⟩ := h.kn k hq
    rw [hk, k1, show 2 * k + 1 + 1 = 2 * k + 2 by ring, k2] at a3
    exact lt_irrefl _ a3

theorem arcX_zero : arcX 0 = 1 ∧ arcY 0 = 0 ∧ arcX 1 = 0 ∧ arcY 1 = 1 := by
  unfold arcX arcY; norm_num

/-- Every point of every arc is met. -/
theorem arc_meet (hs : IsSegment sg) (h : ArcKnots b N) {q : ℕ} {θ : ℝ} (hq : q < N) (h0 : 0 ≤ θ) (h1 : θ ≤ 1) :
    ∃ t, InDomain b (2 * N + 1) t ∧ ∀ X : ℕ → ℝ, (∀ k < N, X (2 * k + 1) = X (2 * k) + X (2 * k + 2)) →
      rat b (2 * N + 1) (sg b t) NURBS.ringW X t = arcX θ * X (2 * q) + arcY θ * X (2 * q + 2) := by
  have hN : (0 : ℝ) < N := by exact_mod_cast (by omega : 0 < N)
  have hdom : InDomain b (2 * N + 1) ((q + θ) / N) := by
    have hqN : (q : ℝ) + 1 ≤ N := by exact_mod_cast hq
    have hq0 : (0 : ℝ) ≤ q := by positivity
    have e0 : b.kn 2 = 0 := by
      have := (h.kn 0 (by omega)).2.1
      simpa using this
    have e1 : b.kn (2 * N + 1) = 1 := by
      have := (h.kn (N - 1) (by omega)).2.2.1
      rw [show 2 * (N - 1) + 3 = 2 * N + 1 by omega] at this
      rw [this, Nat.cast_sub (by omega)]
      field_simp
      simp
    refine ⟨?_, ?_⟩
    · rw [h.order, e0]; positivity
    · rw [e1, div_le_one hN]; linarith
  refine ⟨(q + θ) / N, hdom, fun X hX => ?_⟩
  obtain ⟨q', θ', c1, c2, c3, c4, c5⟩ := arc_at hs h hdom
  rw [c5 X (hX q' c1)]
  have e : (q : ℝ) + θ = q' + θ' := by rw [← c4]; field_simp
  obtain ⟨z1, z2, z3, z4⟩ := arcX_zero
  rcases lt_trichotomy q q' with hl | he | hg
  · have : (q : ℝ) + 1 ≤ q' := by exact_mod_cast hl
    have t1 : θ = 1 := by linarith
    have t2 : θ' = 0 := by linarith
    have : q' = q + 1 := by
      have : (q' : ℝ) = q + 1 := by linarith
      exact_mod_cast this
    rw [t1, t2, this, z1, z2, z3, z4, show 2 * (q + 1) = 2 * q + 2 by ring]; ring
  · subst he
    have : θ = θ' := by linarith
    rw [this]
  · have : (q' : ℝ) + 1 ≤ q := by exact_mod_cast hg
    have t1 : θ = 0 := by linarith
    have t2 : θ' = 1 := by linarith
    have : q = q' + 1 := by
      have : (q : ℝ) = q' + 1 := by linarith
      exact_mod_cast this
    rw [t1, t2, this, z1, z2, z3, z4, show 2 * (q' + 1) = 2 * q' + 2 by ring]; ring

/-! ## The curves -/

/-- The first coordinates of the control points of a circle. -/
def ringX : ℕ → ℝ
  | 0 => 1 | 1 => 1 | 2 => 0 | 3 => -1 | 4 => -1 | 5 => -1 | 6 => 0 | 7 => 1 | 8 => 1 | _ => 0
/-- The second coordinates. -/
def ringY : ℕ → ℝ
  | 0 => 0 | 1 => 1 | 2 => 1 | 3 => 1 | 4 => 0 | 5 => -1 | 6 => -1 | 7 => -1 | 8 => 0 | _ => 0
/-- The radii of the control points of a half circle. -/
def halfR : ℕ → ℝ
  | 0 => 0 | 1 => 1 | 2 => 1 | 3 => 1 | 4 => 0 | _ => 0
/-- The heights. -/
def halfZ : ℕ → ℝ
  | 0 => -1 | 1 => -1 | 2 => 0 | 3 => 1 | 4 => 1 | _ => 0

private theorem ring_mid (q : ℕ) (h : q < 4) : ringX (2 * q + 1) = ringX (2 * q) + ringX (2 * q + 2) ∧
    ringY (2 * q + 1) = ringY (2 * q) + ringY (2 * q + 2) := by
  interval_cases q <;> norm_num [ringX, ringY]
private theorem half_mid (q : ℕ) (h : q < 2) : halfR (2 * q + 1) = halfR (2 * q) + halfR (2 * q + 2) ∧
    halfZ (2 * q + 1) = halfZ (2 * q) + halfZ (2 * q + 2) := by
  interval_cases q <;> norm_num [halfR, halfZ]

theorem ring_at (hs : IsSegment sg) (h : ArcKnots b 4) {t : ℝ} (ht : InDomain b 9 t) :
    rat b 9 (sg b t) NURBS.ringW ringX t ^ 2 + rat b 9 (sg b t) NURBS.ringW ringY t ^ 2 = 1 := by
  obtain ⟨q, θ, hq, h0, h1, -, e⟩ := arc_at hs h ht
  obtain ⟨m1, m2⟩ := ring_mid q hq
  rw [show 2 * 4 + 1 = 9 from rfl] at e
  rw [e _ m1, e _ m2]
  have := (arc_circle h0 h1).1
  interval_cases q <;> norm_num [ringX, ringY] <;> linarith

theorem ring_meet (hs : IsSegment sg) (h : ArcKnots b 4) {x y : ℝ} (hxy : x ^ 2 + y ^ 2 = 1) :
    ∃ t, InDomain b 9 t ∧ rat b 9 (sg b t) NURBS.ringW ringX t = x ∧ rat b 9 (sg b t) NURBS.ringW ringY t = y := by
  have key : ∀ q < 4, ∀ ξ η : ℝ, 0 ≤ ξ → 0 ≤ η → ξ ^ 2 + η ^ 2 = 1 →
      ξ * ringX (2 * q) + η * ringX (2 * q + 2) = x → ξ * ringY (2 * q) + η * ringY (2 * q + 2) = y →
      ∃ t, InDomain b 9 t ∧ rat b 9 (sg b t) NURBS.ringW ringX t = x ∧ rat b 9 (sg b t) NURBS.ringW ringY t = y := by
    intro q hq ξ η h1 h2 h3 h4 h5
    obtain ⟨θ, t0, t1, t2, t3⟩ := arc_surj h1 h2 h3
    obtain ⟨t, d, e⟩ := arc_meet hs h hq t0 t1
    refine ⟨t, d, ?_, ?_⟩
    · rw [e ringX fun k hk => (ring_mid k hk).1, t2, t3]; exact h4
    · rw [e ringY fun k hk => (ring_mid k hk).2, t2, t3]; exact h5
  rcases le_total 0 x with hx | hx <;> rcases le_total 0 y with hy | hy
  · exact key 0 (by norm_num) x y hx hy hxy (by norm_num [ringX]) (by norm_num [ringY])
  · exact key 3 (by norm_num) (-y) x (by linarith) hx (by linarith) (by norm_num [ringX]) (by norm_num [ringY])
  · exact key 1 (by norm_num) y (-x) hy (by linarith) (by linarith) (by norm_num [ringX]) (by norm_num [ringY])
  · exact key 2 (by norm_num) (-x) (-y) (by linarith) (by linarith) (by linarith) (by norm_num [ringX]) (by norm_num [ringY])

theorem half_at (hs : IsSegment sg) (h : ArcKnots b 2) {t : ℝ} (ht : InDomain b 5 t) :
    rat b 5 (sg b t) NURBS.ringW halfR t ^ 2 + rat b 5 (sg b t) NURBS.ringW halfZ t ^ 2 = 1 := by
  obtain ⟨q, θ, hq, h0, h1, -, e⟩ := arc_at hs h ht
  obtain ⟨m1, m2⟩ := half_mid q hq
  rw [show 2 * 2 + 1 = 5 from rfl] at e
  rw [e _ m1, e _ m2]
  have := (arc_circle h0 h1).1
  interval_cases q <;> norm_num [halfR, halfZ] <;> linarith

theorem half_meet (hs : IsSegment sg) (h : ArcKnots b 2) {r z : ℝ} (hr : 0 ≤ r) (hrz : r ^ 2 + z ^ 2 = 1) :
    ∃ t, InDomain b 5 t ∧ rat b 5 (sg b t) NURBS.ringW halfR t = r ∧ rat b 5 (sg b t) NURBS.ringW halfZ t = z := by
  have key : ∀ q < 2, ∀ ξ η : ℝ, 0 ≤ ξ → 0 ≤ η → ξ ^ 2 + η ^ 2 = 1 →
      ξ * halfR (2 * q) + η * halfR (2 * q + 2) = r → ξ * halfZ (2 * q) + η * halfZ (2 * q + 2) = z →
      ∃ t, InDomain b 5 t ∧ rat b 5 (sg b t) NURBS.ringW halfR t = r ∧ rat b 5 (sg b t) NURBS.ringW halfZ t = z := by
    intro q hq ξ η h1 h2 h3 h4 h5
    obtain ⟨θ, t0, t1, t2, t3⟩ := arc_surj h1 h2 h3
    obtain ⟨t, d, e⟩ := arc_meet hs h hq t0 t1
    refine ⟨t, d, ?_, ?_⟩
    · rw [e halfR fun k hk => (half_mid k hk).1, t2, t3]; exact h4
    · rw [e halfZ fun k hk => (half_mid k hk).2, t2, t3]; exact h5
  rcases le_total 0 z with hz | hz
  · exact key 1 (by norm_num) r z hr hz hrz (by norm_num [halfR]) (by norm_num [halfZ])
  · exact key 0 (by norm_num) (-z) r (by linarith) hr (by linarith) (by norm_num [halfR]) (by norm_num [halfZ])

/-- Polar coordinates. -/
theorem polar (x y : ℝ) : ∃ X Y : ℝ, X ^ 2 + Y ^ 2 = 1 ∧ Real.sqrt (x ^ 2 + y ^ 2) * X = x ∧ Real.sqrt (x ^ 2 + y ^ 2) * Y = y := by
  have hsq : Real.sqrt (x ^ 2 + y ^ 2) ^ 2 = x ^ 2 + y ^ 2 := Real.sq_sqrt (by positivity)
  by_cases h : Real.sqrt (x ^ 2 + y ^ 2) = 0
  · rw [h] at hsq
    have hx : x = 0 := by nlinarith [sq_nonneg x, sq_nonneg y]
    have hy : y = 0 := by nlinarith [sq_nonneg x, sq_nonneg y]
    exact ⟨1, 0, by norm_num, by rw [h, hx]; simp, by rw [hy]; simp⟩
  · refine ⟨x / Real.sqrt (x ^ 2 + y ^ 2), y / Real.sqrt (x ^ 2 + y ^ 2), ?_, mul_div_cancel₀ _ h, mul_div_cancel₀ _ h⟩
    rw [div_pow, div_pow, ← add_div, hsq, div_self]
    rw [← hsq]; exact pow_ne_zero 2 h

end Zeo
