import Verif.Model.Box
import Verif.Spec.Geometry
import Verif.Lemmas.Norm
import Mathlib.Tactic.NormNum

/-! # C17: the closest point of an axis-aligned box -/

namespace Zeo
variable {K : Type*} [Field K] [LinearOrder K] [IsStrictOrderedRing K]

/-- The closed box as a set of points. -/
def Spec.aabox (b : AABox3 K) : Set (Vec3 K) :=
  {p | (b.min.x ≤ p.x ∧ p.x ≤ b.max.x) ∧ (b.min.y ≤ p.y ∧ p.y ≤ b.max.y) ∧ (b.min.z ≤ p.z ∧ p.z ≤ b.max.z)}
/-- The closed 2D box as a set of points. -/
def Spec.aabox2 (b : AABox2 K) : Set (Vec2 K) :=
  {p | (b.min.x ≤ p.x ∧ p.x ≤ b.max.x) ∧ (b.min.y ≤ p.y ∧ p.y ≤ b.max.y)}
/-- A proper box: the invariant established by every constructor. -/
def Spec.Proper (b : AABox3 K) : Prop := b.min.x ≤ b.max.x ∧ b.min.y ≤ b.max.y ∧ b.min.z ≤ b.max.z
/-- A proper 2D box. -/
def Spec.Proper2 (b : AABox2 K) : Prop := b.min.x ≤ b.max.x ∧ b.min.y ≤ b.max.y

theorem zLimit_bounds {x lo hi : K} (h : lo ≤ hi) : lo ≤ zLimit x lo hi ∧ zLimit x lo hi ≤ hi := by
  unfold zLimit; split_ifs with h1 h2
  · exact ⟨le_rfl, h⟩
  · exact ⟨h, le_rfl⟩
  · exact ⟨not_lt.1 h1, not_lt.1 h2⟩

theorem zLimit_nearest {x lo hi y : K} (hy : lo ≤ y ∧ y ≤ hi) : (x - zLimit x lo hi)^2 ≤ (x - y)^2 := by
  obtain ⟨h1, h2⟩ := hy
  unfold zLimit; split_ifs with h3 h4
  · nlinarith
  · nlinarith
  · rw [sub_self]; nlinarith [sq_nonneg (x - y)]

theorem sqrExcess_eq (x lo hi : K) : sqrExcess x lo hi = (x - zLimit x lo hi)^2 := by
  unfold sqrExcess zLimit; simp only [gt_iff_lt]; split_ifs <;> ring

theorem zLimit_eq_self_iff {x lo hi : K} (h : lo ≤ hi) : zLimit x lo hi = x ↔ lo ≤ x ∧ x ≤ hi := by
  constructor
  · intro e; rw [← e]; exact zLimit_bounds h
  · rintro ⟨h1, h2⟩; rw [zLimit, if_neg (not_lt.2 h1), if_neg (not_lt.2 h2)]

/-- Every constructor makes a proper box. -/
theorem C17_constructors (x1 y1 z1 x2 y2 z2 m : K) (c : Vec3 K) (b b' : AABox3 K) (v : Vec3 K)
    (hb : Spec.Proper b) :
    Spec.Proper (AABox3.create x1 y1 z1 x2 y2 z2) ∧ Spec.Proper (AABox3.createFromSize c x1 y1 z1) ∧
    Spec.Proper (b.merge b') ∧ Spec.Proper (b.expand m) ∧ Spec.Proper (b.enlarge v) ∧
    Spec.Proper (AABox3.init : AABox3 K) ∧ (∀ i, b.intersect b' = some i → Spec.Proper i) := by
  have hs : ∀ (c : Vec3 K) (x y z : K), Spec.Proper (AABox3.createFromSize c x y z) := fun c x y z => by
    refine ⟨?_, ?_, ?_⟩ <;> simp only [AABox3.createFromSize]
    · linarith [abs_nonneg x]
    · linarith [abs_nonneg y]
    · linarith [abs_nonneg z]
  have hc : ∀ x1 y1 z1 x2 y2 z2 : K, Spec.Proper (AABox3.create x1 y1 z1 x2 y2 z2) :=
    fun _ _ _ _ _ _ => ⟨min_le_max, min_le_max, min_le_max⟩
  refine ⟨hc _ _ _ _ _ _, hs _ _ _ _, hc _ _ _ _ _ _, hs _ _ _ _, ?_, ⟨le_rfl, le_rfl, le_rfl⟩, ?_⟩
  · obtain ⟨h1, h2, h3⟩ := hb
    refine ⟨?_, ?_, ?_⟩ <;> simp only [AABox3.enlarge] <;> split_ifs <;> linarith
  · intro i hi
    unfold AABox3.intersect at hi
    split_ifs at hi
    rw [← Option.some.inj hi]; exact hc _ _ _ _ _ _

/-- **Main claim**: the returned point is the nearest point of the box, and the returned value is
its Euclidean distance. -/
theorem C17_closest (b : AABox3 ℝ) (p : Vec3 ℝ) (hb : Spec.Proper b) :
    Spec.IsNearest (Spec.aabox b) p (b.closestD p).2 ∧ (b.closestD p).1 = Spec.ed p (b.closestD p).2 := by
  obtain ⟨h1, h2, h3⟩ := hb
  refine ⟨⟨⟨zLimit_bounds h1, zLimit_bounds h2, zLimit_bounds h3⟩, ?_⟩, ?_⟩
  · rintro q ⟨q1, q2, q3⟩
    exact add_le_add (add_le_add (zLimit_nearest q1) (zLimit_nearest q2)) (zLimit_nearest q3)
  · simp only [AABox3.closestD, Vec3.dist, Spec.ed, zeo, Spec.sqd]; congr 1; ring

/-- The distance is zero exactly on the closed box, where the point is left unchanged. -/
theorem C17_zero_iff (b : AABox3 ℝ) (p : Vec3 ℝ) (hb : Spec.Proper b) :
    ((b.closestD p).1 = 0 ↔ p ∈ Spec.aabox b) ∧ (p ∈ Spec.aabox b → (b.closestD p).2 = p) := by
  obtain ⟨h1, h2, h3⟩ := hb
  have key : p ∈ Spec.aabox b → (b.closestD p).2 = p := by
    rintro ⟨q1, q2, q3⟩
    exact Vec3.ext ((zLimit_eq_self_iff h1).2 q1) ((zLimit_eq_self_iff h2).2 q2) ((zLimit_eq_self_iff h3).2 q3)
  refine ⟨⟨fun h => ?_, fun h => ?_⟩, key⟩
  · rw [(C17_closest b p ⟨h1, h2, h3⟩).2, Spec.ed,
      Real.sqrt_eq_zero (by unfold Spec.sqd; positivity)] at h
    unfold Spec.sqd at h
    have e1 : p.x = (b.closestD p).2.x := by nlinarith [sq_nonneg (p.x - (b.closestD p).2.x), sq_nonneg (p.y - (b.closestD p).2.y), sq_nonneg (p.z - (b.closestD p).2.z)]
    have e2 : p.y = (b.closestD p).2.y := by nlinarith [sq_nonneg (p.x - (b.closestD p).2.x), sq_nonneg (p.y - (b.closestD p).2.y), sq_nonneg (p.z - (b.closestD p).2.z)]
    have e3 : p.z = (b.closestD p).2.z := by nlinarith [sq_nonneg (p.x - (b.closestD p).2.x), sq_nonneg (p.y - (b.closestD p).2.y), sq_nonneg (p.z - (b.closestD p).2.z)]
    exact ⟨(zLimit_eq_self_iff h1).1 e1.symm, (zLimit_eq_self_iff h2).1 e2.symm, (zLimit_eq_self_iff h3).1 e3.symm⟩
  · rw [(C17_closest b p ⟨h1, h2, h3⟩).2, key h, Spec.ed, Spec.sqd]; simp

/-- The separate squared-distance routine agrees: it is the squared distance to the nearest point,
for every box. -/
theorem C17_sqrDist (b : AABox3 K) (p : Vec3 K) : b.sqrDistFromPoint p = Spec.sqd p (b.closest p) := by
  simp only [AABox3.sqrDistFromPoint, sqrExcess_eq, Spec.sqd, AABox3.closest, zero_add]

/-- `zAABox3DDistFromPoint` equals the value of `zAABox3DClosest`. -/
theorem C17_dist (b : AABox3 ℝ) (p : Vec3 ℝ) : b.distFromPoint p = (b.closestD p).1 := by
  simp only [AABox3.distFromPoint, C17_sqrDist, AABox3.closestD, Vec3.dist, Spec.sqd, zeo]; congr 1; ring

/-- Plane version: nearest point, its distance, and the squared-distance routine. -/
theorem C17_2D (b : AABox2 ℝ) (p : Vec2 ℝ) (hb : Spec.Proper2 b) :
    Spec.IsNearest2 (Spec.aabox2 b) p (b.closestD p).2 ∧ (b.closestD p).1 = Spec.ed2 p (b.closestD p).2 ∧
    b.sqrDistFromPoint p = Spec.sqd2 p (b.closestD p).2 ∧ ((b.closestD p).1 = 0 ↔ p ∈ Spec.aabox2 b) := by
  obtain ⟨h1, h2⟩ := hb
  have hd : (b.closestD p).1 = Spec.ed2 p (b.closestD p).2 := by
    simp only [AABox2.closestD, Vec2.dist, Spec.ed2, zeo, Spec.sqd2]; congr 1; ring
  refine ⟨⟨⟨zLimit_bounds h1, zLimit_bounds h2⟩, ?_⟩, hd, ?_, ?_⟩
  · rintro q ⟨q1, q2⟩
    exact add_le_add (zLimit_nearest q1) (zLimit_nearest q2)
  · simp only [AABox2.sqrDistFromPoint, sqrExcess_eq, Spec.sqd2, AABox2.closestD, AABox2.closest, zero_add]
  · rw [hd, Spec.ed2, Real.sqrt_eq_zero (by unfold Spec.sqd2; positivity), Spec.sqd2]
    constructor
    · intro h
      have e1 : p.x = (b.closestD p).2.x := by nlinarith [sq_nonneg (p.x - (b.closestD p).2.x), sq_nonneg (p.y - (b.closestD p).2.y)]
      have e2 : p.y = (b.closestD p).2.y := by nlinarith [sq_nonneg (p.x - (b.closestD p).2.x), sq_nonneg (p.y - (b.closestD p).2.y)]
      exact ⟨(zLimit_eq_self_iff h1).1 e1.symm, (zLimit_eq_self_iff h2).1 e2.symm⟩
    · rintro ⟨q1, q2⟩
      have e1 : (b.closestD p).2.x = p.x := (zLimit_eq_self_iff h1).2 q1
      have e2 : (b.closestD p).2.y = p.y := (zLimit_eq_self_iff h2).2 q2
      rw [e1, e2]; ring

/-- The containment test with a non-negative margin accepts no point farther than the margin from
the box along any axis, and with margin 0 it accepts the box except its lower faces. -/
theorem C17_inside (b : AABox3 K) (p : Vec3 K) :
    (b.pointIsInside p 0 ↔ p ∈ Spec.aabox b ∧ p.x ≠ b.min.x ∧ p.y ≠ b.min.y ∧ p.z ≠ b.min.z) ∧
    (∀ m, 0 < m → p ∈ Spec.aabox b → b.pointIsInside p m) := by
  simp only [AABox3.pointIsInside, Spec.aabox, sub_zero, add_zero, Set.mem_setOf_eq, gt_iff_lt]
  constructor
  · constructor
    · rintro ⟨⟨a1, a2⟩, ⟨b1, b2⟩, ⟨c1, c2⟩⟩
      exact ⟨⟨⟨a1.le, a2⟩, ⟨b1.le, b2⟩, ⟨c1.le, c2⟩⟩, a1.ne', b1.ne', c1.ne'⟩
    · rintro ⟨⟨⟨a1, a2⟩, ⟨b1, b2⟩, ⟨c1, c2⟩⟩, ha, hb, hc⟩
      exact ⟨⟨lt_of_le_of_ne a1 (Ne.symm ha), a2⟩, ⟨lt_of_le_of_ne b1 (Ne.symm hb), b2⟩, ⟨lt_of_le_of_ne c1 (Ne.symm hc), c2⟩⟩
  · rintro m hm ⟨⟨a1, a2⟩, ⟨b1, b2⟩, ⟨c1, c2⟩⟩
    refine ⟨⟨?_, ?_⟩, ⟨?_, ?_⟩, ⟨?_, ?_⟩⟩ <;> linarith

/-- Satisfiability: a flat box and a point outside two of its slabs. -/
example : Spec.Proper (⟨⟨0, 0, 1⟩, ⟨1, 2, 1⟩⟩ : AABox3 ℝ) := by
  refine ⟨?_, ?_, ?_⟩ <;> norm_num
example : (⟨⟨0, 0, 1⟩, ⟨1, 2, 1⟩⟩ : AABox3 ℚ).sqrDistFromPoint ⟨3, 1, -1⟩ = 8 := by decide +kernel

end Zeo
