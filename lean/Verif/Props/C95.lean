import Verif.Model.Cpp
import Verif.Props.C05
import Verif.Props.C07
import Verif.Props.C32
import Verif.Props.C13
import Verif.Props.C11
import Verif.Lemmas.Unfold
import Mathlib.Tactic

/-! # C95: methods and operators of the C++ classes -/

namespace Zeo
open Cpp Oct

/-! ## Division -/

/-- **Division** by a number other than zero: `v / k` and `v /= k` (and `v.div(k)`) agree, and multiplying by `k` undoes
them. -/
theorem C95_div (k : ℝ) (hk : k ≠ 0) :
    (∀ v : Vec2 ℝ, (divVec2 v k).mul k = v ∧ divAssignVec2 v k = divVec2 v k) ∧
    (∀ v : Vec3 ℝ, (divVec3 v k).mul k = v ∧ divAssignVec3 v k = divVec3 v k) ∧
    (∀ v : Vec6 ℝ, (divVec6 v k).mul k = v ∧ divMethodVec6 v k = some (divVec6 v k)) ∧
    (∀ m : Mat2 ℝ, (divMat2 m k).mul k = m ∧ divAssignMat2 m k = divMat2 m k) ∧
    (∀ m : Mat3 ℝ, (divMat3 m k).mul k = m ∧ divAssignMat3 m k = divMat3 m k) ∧
    (∀ c : Coord2 ℝ, (divCoord2 c k).mul k = c ∧ divAssignCoord2 c k = divCoord2 c k) := by
  refine ⟨?_, ?_, ?_, ?_, ?_, ?_⟩ <;> intro v <;>
    simp only [divVec2, divAssignVec2, divVec3, divAssignVec3, divVec6, divMethodVec6, divMat2, divAssignMat2, divMat3, divAssignMat3, divCoord2,
      divAssignCoord2, Vec2.div, Vec3.div, Vec6.div, Mat2.div, Mat3.div, Coord2.div, if_neg hk, if_true, and_true] <;>
    ext <;> simp only [zeo] <;> field_simp

/-- Division by **zero** is not the same in the two forms: `v / 0` is the zero vector, `v /= 0` leaves `v`. -/
theorem C95_div_zero (v : Vec3 ℝ) (w : Vec2 ℝ) (m : Mat3 ℝ) :
    divVec3 v 0 = .zero ∧ divAssignVec3 v 0 = v ∧ divVec2 w 0 = .zero ∧ divAssignVec2 w 0 = w ∧ divMat3 m 0 = .zero ∧ divAssignMat3 m 0 = m := by
  simp [divVec3, divAssignVec3, divVec2, divAssignVec2, divMat3, divAssignMat3, Vec3.div, Vec2.div, Mat3.div]

/-- So `v /= k` is **not** `v = v / k`; and `v.div(0)` of a 6D vector refers to NULL. -/
theorem C95_div_false : (∃ v : Vec3 ℝ, ∃ k, divAssignVec3 v k ≠ divVec3 v k) ∧ ∀ v : Vec6 ℝ, divMethodVec6 v 0 = none := by
  refine ⟨⟨⟨1, 0, 0⟩, 0, ?_⟩, ?_⟩
  · obtain ⟨h1, h2, -⟩ := C95_div_zero ⟨1, 0, 0⟩ .zero .zero
    rw [h1, h2]; simp [Vec3.zero]
  · intro v; simp [divMethodVec6, Vec6.div]

/-! ## Transposition -/

/-- **Transposition** of a 3D matrix: the result is the transpose and the object is left; in place it becomes the transpose. In
both dimensions the result is right. -/
theorem C95_transpose (m : Mat3 ℝ) (n : Mat2 ℝ) :
    (transposeMat3 m).1 = m ∧ (transposeMat3 m).2.toMatrix = m.toMatrix.transpose ∧ (transposeDirectMat3 m).toMatrix = m.toMatrix.transpose ∧
    (transposeMat2 n).2.toMatrix = n.toMatrix.transpose := by
  refine ⟨rfl, ?_, ?_, ?_⟩
  · ext i j; fin_cases i <;> fin_cases j <;> rfl
  · ext i j; fin_cases i <;> fin_cases j <;> rfl
  · ext i j; fin_cases i <;> fin_cases j <;> rfl

/-- `zMat2D::transpose()` **changes its object**; only a symmetric one is left. -/
theorem C95_transpose_false : (∃ n : Mat2 ℝ, (transposeMat2 n).1 ≠ n) ∧ ∀ n : Mat2 ℝ, (transposeMat2 n).1 = n ↔ n.x.y = n.y.x := by
  have key : ∀ n : Mat2 ℝ, (transposeMat2 n).1 = n ↔ n.x.y = n.y.x := by
    intro n
    simp only [transposeMat2, Mat2.t, Mat2.ext_iff, Vec2.ext_iff]
    constructor
    · rintro ⟨⟨-, h⟩, -⟩; exact h.symm
    · intro h; exact ⟨⟨trivial, h.symm⟩, h, trivial⟩
  refine ⟨⟨⟨⟨0, 1⟩, ⟨0, 0⟩⟩, ?_⟩, key⟩
  rw [Ne, key]; norm_num

/-! ## Inverses -/

/-- **Inverse** of a 3D matrix: `a.inv(b)` leaves `a` and makes `b` its inverse, if the balanced determinant is above the
tolerance; `a.inv()` returns the same. -/
theorem C95_inv {K : Type*} [Field K] [LinearOrder K] [IsStrictOrderedRing K] (τ : K) (hτ : 0 ≤ τ) (a b mb : Mat3 K) (sr sc : Vec3 K) (hb : a.balance = some (mb, sr, sc)) (hd : τ < |mb.det|) :
    ∃ i : Mat3 K, invMat3 τ a b = (a, some i) ∧ invMat3Value τ a = some i ∧ a.toMatrix * i.toMatrix = 1 ∧ i.toMatrix * a.toMatrix = 1 := by
  obtain ⟨i, h1, h2, h3⟩ := C05_inv_partial τ hτ a b mb sr sc hb hd
  obtain ⟨j, k1, k2, k3⟩ := C05_inv_partial τ hτ a .zero mb sr sc hb hd
  have hij : i = j := by
    have ht : ¬ zIsTol mb.det τ := not_le.2 hd
    have e1 := h1; have e2 := k1
    simp only [Mat3.inv, hb, Mat3.invCore, if_neg ht, Prod.mk.injEq, Option.some.injEq, true_and] at e1 e2
    rw [← e1, ← e2]
  refine ⟨i, ?_, ?_, h2, h3⟩
  · simp only [invMat3, h1]
  · simp only [invMat3Value, k1, hij]

/-- In the plane the **roles are exchanged**: `a.inv(b)` leaves `b` and makes `a` the inverse of `b`… -/
theorem C95_inv_plane (τ : ℝ) (hτ : 0 ≤ τ) (a b : Mat2 ℝ) (hd : τ < |b.det|) :
    (invMat2 τ a b).2 = b ∧ b.toMatrix * (invMat2 τ a b).1.toMatrix = 1 ∧ (invMat2 τ a b).1.toMatrix * b.toMatrix = 1 := by
  have h : ∃ i, b.inv τ = some i := by
    cases h : b.inv τ with
    | some i => exact ⟨i, rfl⟩
    | none =>
      exfalso
      unfold Mat2.inv at h
      split_ifs at h with hc
      exact absurd hd (not_lt.2 hc)
  obtain ⟨i, hi⟩ := h
  obtain ⟨h1, h2⟩ := C07_inv τ hτ b i hi
  simp only [invMat2, hi]
  exact ⟨trivial, h1, h2⟩

/-- …so it does **not** do what the method of the same name does in space: neither is `b` the inverse of `a`, nor is `a`
left. -/
theorem C95_inv_false (τ : ℝ) (hτ : 0 ≤ τ) (h1 : τ < 1) : ∃ a b : Mat2 ℝ, τ < |a.det| ∧ (invMat2 τ a b).1 ≠ a ∧ a.toMatrix * (invMat2 τ a b).2.toMatrix ≠ 1 := by
  refine ⟨⟨⟨2, 0⟩, ⟨0, 1⟩⟩, .ident, ?_, ?_, ?_⟩
  · norm_num [Mat2.det]; linarith
  · intro h
    have := (C95_inv_plane τ hτ ⟨⟨2, 0⟩, ⟨0, 1⟩⟩ .ident (by norm_num [Mat2.det, Mat2.ident]; exact h1)).2.1
    rw [h] at this
    have h0 := congrFun (congrFun this 0) 0
    simp [Mat2.toMatrix, Mat2.ident, Matrix.mul_apply, Fin.sum_univ_two] at h0
  · rw [(C95_inv_plane τ hτ ⟨⟨2, 0⟩, ⟨0, 1⟩⟩ .ident (by norm_num [Mat2.det, Mat2.ident]; exact h1)).1]
    intro this
    have h0 := congrFun (congrFun this 0) 0
    simp [Mat2.toMatrix, Mat2.ident, Matrix.mul_apply, Fin.sum_univ_two] at h0

/-! ## Products -/

/-- **Products with the transpose** of 3D vectors and matrices are what their name says: moving the matrix to the other side of
inner products. -/
theorem C95_mulT (m a : Mat3 ℝ) (n : Mat2 ℝ) :
    (∀ u v : Vec3 ℝ, (mulTVec3 m v).inner u = v.inner (m.mulVec u)) ∧ (∀ u v : Vec2 ℝ, (mulTVec2 n v).inner u = v.inner (n.mulVec u)) ∧
    ((mulTMat3 m a).toMatrix = m.toMatrix.transpose * a.toMatrix) := by
  refine ⟨?_, ?_, ?_⟩
  · intro u v; simp only [mulTVec3, zeo]; ring
  · intro u v; simp only [mulTVec2, zeo]; ring
  · ext i j
    fin_cases i <;> fin_cases j <;>
      simp [mulTMat3, Mat3.mulTMat, Mat3.mulTVec, Mat3.toMatrix, Matrix.mul_apply, Fin.sum_univ_three, Mat3.e, Mat3.v, Vec3.e, Vec3.inner]

/-- `zMat3D::mulT` of a **6D vector** multiplies by the matrix itself: it is the product with the transpose only for symmetric matrices. -/
theorem C95_mulT_false :
    (∀ (m : Mat3 ℝ) (v : Vec6 ℝ), mulTVec6 m v = ⟨m.mulVec v.lin, m.mulVec v.ang⟩) ∧
    ∀ m : Mat3 ℝ, (∀ v : Vec6 ℝ, mulTVec6 m v = ⟨m.mulTVec v.lin, m.mulTVec v.ang⟩) ↔ m.toMatrix.IsSymm := by
  refine ⟨fun _ _ => rfl, fun m => ⟨fun h => ?_, fun h v => ?_⟩⟩
  · have hx := congrArg Vec6.lin (h ⟨.ex, .zero⟩)
    have hy := congrArg Vec6.lin (h ⟨.ey, .zero⟩)
    simp only [mulTVec6, Vec6.mulMat3, zeo, Vec3.mk.injEq] at hx hy
    ring_nf at hx hy
    obtain ⟨-, a1, a2⟩ := hx
    obtain ⟨-, -, a3⟩ := hy
    rw [Matrix.IsSymm]
    ext i j
    fin_cases i <;> fin_cases j <;> simp [Mat3.toMatrix, Mat3.e, Mat3.v, Vec3.e, a1, a2, a3]
  · have e : ∀ i j, m.toMatrix i j = m.toMatrix j i := fun i j => (congrFun (congrFun h j) i)
    have a1 : m.y.x = m.x.y := e 0 1
    have a2 : m.z.x = m.x.z := e 0 2
    have a3 : m.z.y = m.y.z := e 1 2
    ext <;> simp only [mulTVec6, Vec6.mulMat3, zeo] <;> grind

/-- **Frames**: `(f * g) * v` is `f * (g * v)`, and `f *= g` makes `f` the product, also for `f *= f`. -/
theorem C95_frame (f g : Frame3 ℝ) (v : Vec3 ℝ) :
    frame3Vec (frame3Mul f g) v = frame3Vec f (frame3Vec g v) ∧ frame3MulAssign f g = frame3Mul f g := by
  refine ⟨?_, rfl⟩
  ext <;> simp only [frame3Vec, frame3Mul, zeo] <;> ring

/-! ## References to nothing -/

/-- **Euler parameters** made from four numbers are these divided by their norm, and those of a matrix are always made; but four
zeros make a reference to NULL. -/
theorem C95_ep (τ : ℝ) (hτ : 0 ≤ τ) :
    (∀ w x y z : ℝ, τ < Real.sqrt (w^2 + x^2 + y^2 + z^2) → ∃ q, createEP τ w x y z = some q ∧ q.inner q = 1 ∧
      ∃ k : ℝ, 0 < k ∧ (⟨w, ⟨x, y, z⟩⟩ : EP ℝ) = q.mul k) ∧
    createEP τ 0 0 0 0 = none ∧ ∀ m : Mat3 ℝ, fromMat3D m ≠ none := by
  refine ⟨?_, ?_, ?_⟩
  · intro w x y z h
    set n := Real.sqrt (w^2 + x^2 + y^2 + z^2) with hn
    have en : (⟨w, ⟨x, y, z⟩⟩ : EP ℝ).norm = n := by rw [EP.norm, hn]; congr 1; simp only [EP.inner, zeo]; ring
    have n0 : 0 < n := lt_of_le_of_lt hτ h
    have nn : n ^ 2 = w^2 + x^2 + y^2 + z^2 := Real.sq_sqrt (by positivity)
    have ht : ¬ zIsTol n τ := by simp only [zIsTol, not_le]; exact lt_of_lt_of_le h (le_abs_self _)
    refine ⟨⟨w / n, ⟨1 / n * x, 1 / n * y, 1 / n * z⟩⟩, ?_, ?_, n, n0, ?_⟩
    · simp only [createEP, EP.create, EP.normalize, en, if_neg ht, if_true, Vec3.div, if_neg n0.ne', Vec3.mul]
    · simp only [EP.inner, zeo]; field_simp; rw [nn]; ring
    · ext <;> simp only [EP.mul, zeo] <;> field_simp
  · have e0 : (⟨0, ⟨0, 0, 0⟩⟩ : EP ℝ).norm = 0 := by simp [EP.norm, EP.inner, Vec3.inner]
    have ht : zIsTol (0 : ℝ) τ := by simpa [zIsTol] using hτ
    simp [createEP, EP.create, EP.normalize, e0, ht]
  · intro m
    have hsum : EP.matS m 0 + EP.matS m 1 + EP.matS m 2 + EP.matS m 3 = 4 := by simp only [EP.matS]; ring
    have h0 := EP.matImax_spec m 0; have h1 := EP.matImax_spec m 1
    have h2 := EP.matImax_spec m 2; have h3 := EP.matImax_spec m 3
    have hp : ¬ EP.matS m (EP.matImax m) ≤ 0 := by linarith
    simp [fromMat3D, EP.ofMat, hp]

/-- **Nearest neighbour**: in an octree with points the method returns one of them, nearest to within `√3` tolerances; in one
without points it returns an indeterminate pointer. -/
theorem C95_nearest {τ : ℝ} (hτ : 0 ≤ τ) {B : AABox3 ℝ} {res : ℝ} {t : Oct ℝ} {ps : List (Vec3 ℝ)} (h : Reach τ B res t ps) (p : Vec3 ℝ) :
    (ps ≠ [] → ∃ q ∈ ps, nearestNeighbor τ t p = some q ∧ ∀ x ∈ ps, Spec.ed p q ≤ Spec.ed p x + Real.sqrt 3 * τ) ∧
    (ps = [] → nearestNeighbor τ t p = none) := by
  constructor
  · intro hne
    obtain ⟨q, h1, h2, h3⟩ := C32_nn_tolerance hτ h hne p
    exact ⟨q, h2, by simp [nearestNeighbor, h1], h3⟩
  · rintro rfl
    simp [nearestNeighbor, C32_nn_empty hτ h p]

/-! ## Cases that meet the hypotheses -/

example : (divVec3 (⟨2, 4, 6⟩ : Vec3 ℝ) 2).mul 2 = ⟨2, 4, 6⟩ := ((C95_div 2 (by norm_num)).2.1 _).1

example : ∃ i : Mat3 ℚ, invMat3Value (1/10^12) (Mat3.create (1/10^9) 1 0 0 1 0 0 0 (10^9)) = some i ∧
    (Mat3.create (1/10^9) 1 0 0 1 0 0 0 (10^9) : Mat3 ℚ).toMatrix * i.toMatrix = 1 := by
  obtain ⟨o, ho⟩ : ∃ o, (Mat3.create (1/10^9) 1 0 0 1 0 0 0 (10^9) : Mat3 ℚ).balance = o := ⟨_, rfl⟩
  have h : (Mat3.create (1/10^9) 1 0 0 1 0 0 0 (10^9) : Mat3 ℚ).balance.any
      (fun p => decide ((1/10^12 : ℚ) < |p.1.det|)) = true := by decide +kernel
  rw [ho] at h
  cases o with
  | none => simp at h
  | some p =>
    obtain ⟨i, -, h2, h3, -⟩ := C95_inv (1/10^12) (by norm_num) _ .zero p.1 p.2.1 p.2.2 ho (by simpa using h)
    exact ⟨i, h2, h3⟩

example : (invMat2 (1/100) ⟨⟨7, 7⟩, ⟨7, 7⟩⟩ (⟨⟨2, 0⟩, ⟨0, 1⟩⟩ : Mat2 ℝ)).1.toMatrix * (⟨⟨2, 0⟩, ⟨0, 1⟩⟩ : Mat2 ℝ).toMatrix = 1 :=
  (C95_inv_plane (1/100) (by norm_num) _ _ (by norm_num [Mat2.det])).2.2

example : ∃ q, createEP (1/100) 3 0 4 0 = some q ∧ q.inner q = 1 := by
  obtain ⟨q, h1, h2, -⟩ := (C95_ep (1/100) (by norm_num)).1 3 0 4 0 (by
    rw [show (3:ℝ)^2 + 0^2 + 4^2 + 0^2 = 5^2 by norm_num, Real.sqrt_sq (by norm_num)]; norm_num)
  exact ⟨q, h1, h2⟩

end Zeo
