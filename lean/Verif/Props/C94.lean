import Verif.Model.Equal
import Verif.Lemmas.Unfold
import Mathlib.Tactic

/-! # C94: comparison -/

namespace Zeo

/-! ## The specification -/

/-- Lists of the same length whose elements differ by at most `τ` each. -/
def Spec.Close (τ : ℝ) (a b : List ℝ) : Prop := List.Forall₂ (fun x y => |x - y| ≤ τ) a b

/-- The numbers an object is made of. -/
def Spec.nums2 (v : Vec2 ℝ) : List ℝ := [v.x, v.y]
/-- The numbers of a 3D vector. -/
def Spec.nums3 (v : Vec3 ℝ) : List ℝ := [v.x, v.y, v.z]
/-- The numbers of a 6D vector. -/
def Spec.nums6 (v : Vec6 ℝ) : List ℝ := Spec.nums3 v.lin ++ Spec.nums3 v.ang
/-- The numbers of a 2D matrix. -/
def Spec.numsM2 (m : Mat2 ℝ) : List ℝ := Spec.nums2 m.x ++ Spec.nums2 m.y
/-- The numbers of a 3D matrix. -/
def Spec.numsM3 (m : Mat3 ℝ) : List ℝ := Spec.nums3 m.x ++ Spec.nums3 m.y ++ Spec.nums3 m.z
/-- The numbers of a 2D frame. -/
def Spec.numsF2 (f : Frame2 ℝ) : List ℝ := Spec.nums2 f.pos ++ Spec.numsM2 f.att
/-- The numbers of a 3D frame. -/
def Spec.numsF3 (f : Frame3 ℝ) : List ℝ := Spec.nums3 f.pos ++ Spec.numsM3 f.att
/-- The numbers of a 2D box. -/
def Spec.numsB2 (b : AABox2 ℝ) : List ℝ := Spec.nums2 b.min ++ Spec.nums2 b.max
/-- The numbers of a 3D box. -/
def Spec.numsB3 (b : AABox3 ℝ) : List ℝ := Spec.nums3 b.min ++ Spec.nums3 b.max

/-- A chain of objects, each equal to the next by the test `eq`. -/
def Spec.Linked {α : Type} (eq : α → α → Prop) (f : ℕ → α) (n : ℕ) : Prop := ∀ i < n, eq (f i) (f (i + 1))

local macro "unf" : tactic => `(tactic| simp only [Spec.Close, Spec.nums2, Spec.nums3, Spec.nums6, Spec.numsM2, Spec.numsM3,
  Spec.numsF2, Spec.numsF3, Spec.numsB2, Spec.numsB3, List.cons_append, List.nil_append, List.forall₂_cons, List.forall₂_nil_left_iff, and_true,
  Vec2.equal, Vec3.equal, Vec6.equal, Mat2.equal, Mat3.equal, Frame2.equal, Frame3.equal, AABox2.equal, AABox3.equal, zIsTol, and_assoc])

/-! ## The theorems -/

/-- **Match**: the strict comparisons hold exactly for identical objects. -/
theorem C94_match :
    (∀ a b : Vec2 ℝ, a.eqv b ↔ a = b) ∧ (∀ a b : Vec3 ℝ, a.eqv b ↔ a = b) ∧ (∀ a b : Vec6 ℝ, a.eqv b ↔ a = b) ∧
    (∀ a b : Mat2 ℝ, a.eqv b ↔ a = b) ∧ (∀ a b : Mat3 ℝ, a.eqv b ↔ a = b) ∧ (∀ a b : Frame3 ℝ, a.eqv b ↔ a = b) := by
  refine ⟨?_, ?_, ?_, ?_, ?_, ?_⟩ <;> intro a b <;>
    simp only [Vec2.eqv, Vec3.eqv, Vec6.eqv, Mat2.eqv, Mat3.eqv, Frame3.eqv, Vec2.ext_iff, Vec3.ext_iff, Vec6.ext_iff, Mat2.ext_iff,
      Mat3.ext_iff, Frame3.ext_iff]

/-- **Equal**: the tolerant comparisons hold exactly if all numbers differ by at most the tolerance. -/
theorem C94_equal (τ : ℝ) :
    (∀ a b : Vec2 ℝ, a.equal τ b ↔ Spec.Close τ (Spec.nums2 a) (Spec.nums2 b)) ∧
    (∀ a b : Vec3 ℝ, a.equal τ b ↔ Spec.Close τ (Spec.nums3 a) (Spec.nums3 b)) ∧
    (∀ a b : Vec6 ℝ, a.equal τ b ↔ Spec.Close τ (Spec.nums6 a) (Spec.nums6 b)) ∧
    (∀ a b : Mat2 ℝ, a.equal τ b ↔ Spec.Close τ (Spec.numsM2 a) (Spec.numsM2 b)) ∧
    (∀ a b : Mat3 ℝ, a.equal τ b ↔ Spec.Close τ (Spec.numsM3 a) (Spec.numsM3 b)) ∧
    (∀ a b : Frame2 ℝ, a.equal τ b ↔ Spec.Close τ (Spec.numsF2 a) (Spec.numsF2 b)) ∧
    (∀ a b : Frame3 ℝ, a.equal τ b ↔ Spec.Close τ (Spec.numsF3 a) (Spec.numsF3 b)) ∧
    (∀ a b : AABox2 ℝ, a.equal τ b ↔ Spec.Close τ (Spec.numsB2 a) (Spec.numsB2 b)) ∧
    (∀ a b : AABox3 ℝ, a.equal τ b ↔ Spec.Close τ (Spec.numsB3 a) (Spec.numsB3 b)) := by
  refine ⟨?_, ?_, ?_, ?_, ?_, ?_, ?_, ?_, ?_⟩ <;> intro a b <;> unf

/-- **Tiny**: `IsTol` holds exactly if every number is at most the tolerance in absolute value. -/
theorem C94_isTol (tol : ℝ) :
    (∀ a : Vec2 ℝ, a.isTol tol ↔ ∀ x ∈ Spec.nums2 a, |x| ≤ tol) ∧ (∀ a : Vec3 ℝ, a.isTol tol ↔ ∀ x ∈ Spec.nums3 a, |x| ≤ tol) ∧
    (∀ a : Vec6 ℝ, a.isTol tol ↔ ∀ x ∈ Spec.nums6 a, |x| ≤ tol) ∧ (∀ a : Mat2 ℝ, a.isTol tol ↔ ∀ x ∈ Spec.numsM2 a, |x| ≤ tol) ∧
    (∀ a : Mat3 ℝ, a.isTol tol ↔ ∀ x ∈ Spec.numsM3 a, |x| ≤ tol) := by
  refine ⟨?_, ?_, ?_, ?_, ?_⟩ <;> intro a <;>
    simp only [Vec2.isTol, Vec3.isTol, Vec6.isTol, Mat2.isTol, Mat3.isTol, zIsTol, Spec.nums2, Spec.nums3, Spec.nums6, Spec.numsM2,
      Spec.numsM3, List.cons_append, List.nil_append, List.forall_mem_cons, List.not_mem_nil, false_implies, implies_true, and_true, and_assoc]

/-- The comparison of frames is **reflexive and symmetric**. -/
theorem C94_refl_symm (τ : ℝ) (hτ : 0 ≤ τ) :
    (∀ a : Frame3 ℝ, a.equal τ a) ∧ (∀ a b : Frame3 ℝ, a.equal τ b → b.equal τ a) ∧
    (∀ a : Frame2 ℝ, a.equal τ a) ∧ (∀ a b : Frame2 ℝ, a.equal τ b → b.equal τ a) := by
  refine ⟨?_, ?_, ?_, ?_⟩ <;> intro a
  · unf; simp [hτ]
  · intro b; unf; simp only [abs_sub_comm (b.pos.x), abs_sub_comm (b.pos.y), abs_sub_comm (b.pos.z), abs_sub_comm (b.att.x.x), abs_sub_comm (b.att.x.y), abs_sub_comm (b.att.x.z), abs_sub_comm (b.att.y.x), abs_sub_comm (b.att.y.y), abs_sub_comm (b.att.y.z), abs_sub_comm (b.att.z.x), abs_sub_comm (b.att.z.y), abs_sub_comm (b.att.z.z)]; exact id
  · unf; simp [hτ]
  · intro b; unf; simp only [abs_sub_comm (b.pos.x), abs_sub_comm (b.pos.y), abs_sub_comm (b.att.x.x), abs_sub_comm (b.att.x.y), abs_sub_comm (b.att.y.x), abs_sub_comm (b.att.y.y)]; exact id

private theorem close_trans {α β : ℝ} : ∀ {a b c : List ℝ}, Spec.Close α a b → Spec.Close β b c → Spec.Close (α + β) a c
  | _, _, _, .nil, .nil => .nil
  | _, _, _, .cons h1 t1, .cons h2 t2 =>
    .cons ((abs_sub_le _ _ _).trans (add_le_add h1 h2)) (close_trans t1 t2)

private theorem close_refl : ∀ a : List ℝ, Spec.Close 0 a a
  | [] => .nil
  | x :: l => .cons (by simp) (close_refl l)

/-- **Drift**: along a chain of `n` equal frames every number moves by at most `n` tolerances. -/
theorem C94_drift (τ : ℝ) (f : ℕ → Frame3 ℝ) (n : ℕ) (h : Spec.Linked (Frame3.equal τ) f n) :
    Spec.Close (n * τ) (Spec.numsF3 (f 0)) (Spec.numsF3 (f n)) := by
  induction n with
  | zero => simpa using close_refl _
  | succ n ih =>
    have h1 := ih fun i hi => h i (by omega)
    have h2 := ((C94_equal τ).2.2.2.2.2.2.1 _ _).mp (h n (by omega))
    have := close_trans h1 h2
    rw [show ((n + 1 : ℕ) : ℝ) * τ = n * τ + τ by push_cast; ring]
    exact this

/-- The comparison is **not transitive**: the chain can drift. -/
theorem C94_trans_false (τ : ℝ) (hτ : 0 < τ) : ∃ a b c : Frame3 ℝ, a.equal τ b ∧ b.equal τ c ∧ ¬ a.equal τ c := by
  refine ⟨.ident, ⟨⟨τ, 0, 0⟩, .ident⟩, ⟨⟨2 * τ, 0, 0⟩, .ident⟩, ?_, ?_, ?_⟩
  · unf; simp [Frame3.ident, Vec3.zero, abs_of_pos hτ, hτ.le]
  · unf; simp [Frame3.ident, Vec3.zero, hτ.le]; rw [show τ - 2 * τ = -τ by ring, abs_neg, abs_of_pos hτ]
  · unf; simp [Frame3.ident, Vec3.zero]; intro h; rw [abs_of_pos hτ] at h; linarith

private theorem lin_le {τ a b c d x y z : ℝ} (ha : |a| ≤ τ) (hb : |b| ≤ τ) (hc : |c| ≤ τ) (hd : |d| ≤ τ) :
    |a * x + b * y + c * z + d| ≤ τ * (1 + |x| + |y| + |z|) := by
  have e : ∀ {a x : ℝ}, |a| ≤ τ → |a * x| ≤ τ * |x| := fun h => by rw [abs_mul]; exact mul_le_mul_of_nonneg_right h (abs_nonneg _)
  have h1 := abs_add_le (a * x + b * y + c * z) d
  have h2 := abs_add_le (a * x + b * y) (c * z)
  have h3 := abs_add_le (a * x) (b * y)
  have := e (x := x) ha
  have := e (x := y) hb
  have := e (x := z) hc
  nlinarith

/-- **Equal frames act alike**: they send a point to places whose coordinates differ by at most
`τ (1 + |x| + |y| + |z|)`. -/
theorem C94_xform (τ : ℝ) (f g : Frame3 ℝ) (h : f.equal τ g) (v : Vec3 ℝ) :
    Spec.Close (τ * (1 + |v.x| + |v.y| + |v.z|)) (Spec.nums3 (f.xform v)) (Spec.nums3 (g.xform v)) := by
  revert h; unf
  rintro ⟨p1, p2, p3, h1, h2, h3, h4, h5, h6, h7, h8, h9⟩
  refine ⟨?_, ?_, ?_⟩
  · convert lin_le h1 h4 h7 p1 using 2; simp only [Frame3.xform, zeo]; ring
  · convert lin_le h2 h5 h8 p2 using 2; simp only [Frame3.xform, zeo]; ring
  · convert lin_le h3 h6 h9 p3 using 2; simp only [Frame3.xform, zeo]; ring

/-- The same in the plane. -/
theorem C94_xform_plane (τ : ℝ) (f g : Frame2 ℝ) (h : f.equal τ g) (v : Vec2 ℝ) :
    Spec.Close (τ * (1 + |v.x| + |v.y|)) (Spec.nums2 (f.xform v)) (Spec.nums2 (g.xform v)) := by
  revert h; unf
  rintro ⟨p1, p2, h1, h2, h4, h5⟩
  have h0 : |(0:ℝ)| ≤ τ := by simpa using (abs_nonneg _).trans p1
  refine ⟨?_, ?_⟩
  · convert lin_le (x := v.x) (y := v.y) (z := 0) h1 h4 h0 p1 using 2
    · simp only [Frame2.xform, zeo]; ring
    · simp
  · convert lin_le (x := v.x) (y := v.y) (z := 0) h2 h5 h0 p2 using 2
    · simp only [Frame2.xform, zeo]; ring
    · simp

/-- A frame that **is the identity** for the test leaves every point where it is to within
`τ (1 + |x| + |y| + |z|)`; and the identity passes the test. -/
theorem C94_ident (τ : ℝ) (hτ : 0 ≤ τ) :
    (Frame3.ident : Frame3 ℝ).isIdent τ ∧ (Mat3.ident : Mat3 ℝ).isIdent τ ∧ (Frame2.ident : Frame2 ℝ).isIdent τ ∧ (Mat2.ident : Mat2 ℝ).isIdent τ ∧
    (∀ f : Frame3 ℝ, f.isIdent τ → ∀ v, Spec.Close (τ * (1 + |v.x| + |v.y| + |v.z|)) (Spec.nums3 (f.xform v)) (Spec.nums3 v)) ∧
    (∀ m : Mat3 ℝ, m.isIdent τ ↔ (⟨.zero, m⟩ : Frame3 ℝ).isIdent τ) ∧
    (∀ f : Frame2 ℝ, f.isIdent τ → ∀ v, Spec.Close (τ * (1 + |v.x| + |v.y|)) (Spec.nums2 (f.xform v)) (Spec.nums2 v)) ∧
    (∀ m : Mat2 ℝ, m.isIdent τ ↔ (⟨.zero, m⟩ : Frame2 ℝ).isIdent τ) := by
  have i3 : ∀ v : Vec3 ℝ, (Frame3.ident : Frame3 ℝ).xform v = v := by
    intro v; ext <;> simp [Frame3.xform, Frame3.ident, Mat3.ident, zeo, Vec3.ex, Vec3.ey, Vec3.ez, Vec3.zero]
  have i2 : ∀ v : Vec2 ℝ, (Frame2.ident : Frame2 ℝ).xform v = v := by
    intro v; ext <;> simp [Frame2.xform, Frame2.ident, Mat2.ident, zeo, Vec2.zero]
  have r := C94_refl_symm τ hτ
  refine ⟨r.1 _, (r.1 .ident).2, r.2.2.1 _, (r.2.2.1 .ident).2, ?_, ?_, ?_, ?_⟩
  · intro f h v
    have := C94_xform τ f .ident h v
    rwa [i3] at this
  · intro m; exact ⟨fun h => ⟨(r.1 .ident).1, h⟩, fun h => h.2⟩
  · intro f h v
    have := C94_xform_plane τ f .ident h v
    rwa [i2] at this
  · intro m; exact ⟨fun h => ⟨(r.2.2.1 .ident).1, h⟩, fun h => h.2⟩

/-- **Euler parameters**: a quadruple that passes `zEPIsIdent` has an attitude matrix within `4τ(1+τ)` of the identity… -/
theorem C94_ep (τ : ℝ) (q : EP ℝ) (h : q.isIdent τ) : q.toMat.isIdent (4 * τ * (1 + τ)) := by
  obtain ⟨hw, hx, hy, hz⟩ := h
  simp only [zIsTol] at hw hx hy hz
  have h0 : 0 ≤ τ := (abs_nonneg _).trans hw
  obtain ⟨w, x, y, z⟩ := q
  dsimp only at hw hx hy hz
  have pr : ∀ {a b : ℝ}, |a| ≤ τ → |b| ≤ τ → -(τ * τ) ≤ a * b ∧ a * b ≤ τ * τ := fun ha hb => by
    rw [← abs_le, abs_mul]; exact mul_le_mul ha hb (abs_nonneg _) h0
  have ww := pr hw hw; have wx := pr hw hx; have wy := pr hw hy; have wz := pr hw hz
  have xx := pr hx hx; have xy := pr hx hy; have yy := pr hy hy; have yz := pr hy hz; have zx := pr hz hx; have zz := pr hz hz
  rw [abs_le] at hw hx hy hz
  simp only [Mat3.isIdent]; unf
  simp only [abs_le, EP.toMat, Mat3.create, Mat3.ident, Vec3.ex, Vec3.ey, Vec3.ez]
  refine ⟨⟨?_, ?_⟩, ⟨?_, ?_⟩, ⟨?_, ?_⟩, ⟨?_, ?_⟩, ⟨?_, ?_⟩, ⟨?_, ?_⟩, ⟨?_, ?_⟩, ⟨?_, ?_⟩, ⟨?_, ?_⟩⟩ <;>
    linarith [mul_nonneg h0 h0, ww.1, ww.2, wx.1, wx.2, wy.1, wy.2, wz.1, wz.2, xx.1, xx.2, xy.1, xy.2, yy.1, yy.2, yz.1, yz.2, zx.1, zx.2, zz.1, zz.2]

/-- …but the quadruple of the same attitude with the other sign does **not** pass it. -/
theorem C94_ep_false (τ : ℝ) (hτ : τ < 2) : ∃ q : EP ℝ, q.inner q = 1 ∧ (∀ v, q.rotVec v = v) ∧ q.toMat = .ident ∧ ¬ q.isIdent τ := by
  refine ⟨⟨-1, .zero⟩, ?_, ?_, ?_, ?_⟩
  · simp [EP.inner, zeo, Vec3.zero]
  · intro v; ext <;> simp [EP.rotVec, zeo, Vec3.zero]
  · ext <;> simp [EP.toMat, Mat3.create, Mat3.ident, zeo, Vec3.zero, Vec3.ex, Vec3.ey, Vec3.ez]
  · rintro ⟨h, -⟩
    simp only [zIsTol] at h
    norm_num at h
    linarith

/-! ## Boxes in the plane -/

/-- **Expanding** a box in the plane keeps its centre, multiplies both sides by the absolute magnitude and the area by its
square; the result contains the box if the magnitude is at least one and lies in it if it is at most one. -/
theorem C94_expand (b : AABox2 ℝ) (hx : b.min.x ≤ b.max.x) (hy : b.min.y ≤ b.max.y) (k : ℝ) :
    (b.expand k).min.x + (b.expand k).max.x = b.min.x + b.max.x ∧ (b.expand k).min.y + (b.expand k).max.y = b.min.y + b.max.y ∧
    (b.expand k).max.x - (b.expand k).min.x = |k| * (b.max.x - b.min.x) ∧
    (b.expand k).max.y - (b.expand k).min.y = |k| * (b.max.y - b.min.y) ∧
    (b.expand k).area = k^2 * b.area ∧
    (1 ≤ |k| → (b.expand k).min.x ≤ b.min.x ∧ b.max.x ≤ (b.expand k).max.x ∧ (b.expand k).min.y ≤ b.min.y ∧ b.max.y ≤ (b.expand k).max.y) ∧
    (|k| ≤ 1 → b.min.x ≤ (b.expand k).min.x ∧ (b.expand k).max.x ≤ b.max.x ∧ b.min.y ≤ (b.expand k).min.y ∧ (b.expand k).max.y ≤ b.max.y) := by
  have hm : (if k < 0 then k * -1 else k) = |k| := by
    split_ifs with h
    · rw [abs_of_neg h]; ring
    · rw [abs_of_nonneg (not_lt.mp h)]
  have ax : abs ((b.max.x - b.min.x) * |k|) = (b.max.x - b.min.x) * |k| := abs_of_nonneg (mul_nonneg (by linarith) (abs_nonneg _))
  have ay : abs ((b.max.y - b.min.y) * |k|) = (b.max.y - b.min.y) * |k| := abs_of_nonneg (mul_nonneg (by linarith) (abs_nonneg _))
  have e : b.expand k = ⟨⟨(b.min.x + b.max.x) / 2 - 1/2 * ((b.max.x - b.min.x) * |k|), (b.min.y + b.max.y) / 2 - 1/2 * ((b.max.y - b.min.y) * |k|)⟩,
      ⟨(b.min.x + b.max.x) / 2 + 1/2 * ((b.max.x - b.min.x) * |k|), (b.min.y + b.max.y) / 2 + 1/2 * ((b.max.y - b.min.y) * |k|)⟩⟩ := by
    simp only [AABox2.expand, hm, AABox2.createFromSize, ax, ay]
    ext <;> simp only [zeo, Vec2.mid, Vec2.interDiv] <;> ring
  have ea : (b.expand k).area = |k|^2 * b.area := by
    have h2 : |k|^2 = abs (|k|^2) := (abs_of_nonneg (sq_nonneg _)).symm
    rw [e, AABox2.area, AABox2.area, h2, ← abs_mul]
    congr 1; dsimp only; ring
  refine ⟨?_, ?_, ?_, ?_, ?_, ?_, ?_⟩
  · rw [e]; ring
  · rw [e]; ring
  · rw [e]; ring
  · rw [e]; ring
  · rw [ea, sq_abs]
  · intro h; rw [e]; refine ⟨?_, ?_, ?_, ?_⟩ <;> dsimp only <;> nlinarith
  · intro h; rw [e]; refine ⟨?_, ?_, ?_, ?_⟩ <;> dsimp only <;> nlinarith

/-- **From centre and sizes**: the box has that centre and the absolute sizes. -/
theorem C94_createFromSize (c : Vec2 ℝ) (d w : ℝ) :
    let b := AABox2.createFromSize c d w
    b.min.mid b.max = c ∧ b.max.x - b.min.x = |d| ∧ b.max.y - b.min.y = |w| ∧ b.area = |d * w| := by
  refine ⟨?_, ?_, ?_, ?_⟩
  · ext <;> simp only [AABox2.createFromSize, Vec2.mid, Vec2.interDiv, zeo] <;> ring
  · simp only [AABox2.createFromSize]; ring
  · simp only [AABox2.createFromSize]; ring
  · simp only [AABox2.createFromSize, AABox2.area]
    rw [show (c.x + 1/2 * |d| - (c.x - 1/2 * |d|)) = |d| by ring, show (c.y + 1/2 * |w| - (c.y - 1/2 * |w|)) = |w| by ring, abs_mul, abs_abs, abs_abs,
      abs_mul]

/-- **Corners**: the four corners 0, 1, 2, 3 go once counter-clockwise around the box: each consecutive pair shares a
side, and the area of the polygon they form is the area of the box. -/
theorem C94_vert (b : AABox2 ℝ) (hx : b.min.x ≤ b.max.x) (hy : b.min.y ≤ b.max.y) :
    b.vert 0 = b.max ∧ b.vert 2 = b.min ∧
    ({b.vert 0, b.vert 1, b.vert 2, b.vert 3} : Set (Vec2 ℝ)) = {p | (p.x = b.min.x ∨ p.x = b.max.x) ∧ (p.y = b.min.y ∨ p.y = b.max.y)} ∧
    ((b.vert 0).outer (b.vert 1) + (b.vert 1).outer (b.vert 2) + (b.vert 2).outer (b.vert 3) + (b.vert 3).outer (b.vert 0)) / 2 = b.area ∧
    ∀ i, b.vert (i + 4) = b.vert i := by
  have e0 : b.vert 0 = ⟨b.max.x, b.max.y⟩ := by simp [AABox2.vert, Nat.testBit]
  have e1 : b.vert 1 = ⟨b.min.x, b.max.y⟩ := by simp [AABox2.vert, Nat.testBit]
  have e2 : b.vert 2 = ⟨b.min.x, b.min.y⟩ := by simp [AABox2.vert, Nat.testBit]
  have e3 : b.vert 3 = ⟨b.max.x, b.min.y⟩ := by simp [AABox2.vert, Nat.testBit]
  refine ⟨e0, e2, ?_, ?_, ?_⟩
  · rw [e0, e1, e2, e3]
    ext p
    simp only [Set.mem_insert_iff, Set.mem_singleton_iff, Set.mem_setOf_eq, Vec2.ext_iff]
    tauto
  · rw [e0, e1, e2, e3, AABox2.area, abs_of_nonneg (mul_nonneg (by linarith) (by linarith))]
    simp only [zeo]; ring
  · intro i
    have h0 : (i + 4).testBit 0 = i.testBit 0 := by simp [Nat.testBit_zero]; omega
    have h1 : (i + 4).testBit 1 = i.testBit 1 := by
      rw [Nat.testBit_succ, Nat.testBit_succ, show (i + 4) / 2 = i / 2 + 2 by omega, Nat.testBit_zero, Nat.testBit_zero]; simp
    simp only [AABox2.vert, h0, h1]

/-! ## The order of lists of points -/

/-- **Sorting** (`zVec3DListQuickSortDefault`, `zVec2DListQuickSortDefault`): the comparison functions are total preorders in which two
points compare as 0 only if they are the same point. -/
theorem C94_sort :
    (∀ a b : Vec3 ℝ, a.sortCmp b = 0 ↔ a = b) ∧ (∀ a b : Vec3 ℝ, a.sortCmp b = -b.sortCmp a) ∧
    (∀ a b c : Vec3 ℝ, a.sortCmp b ≤ 0 → b.sortCmp c ≤ 0 → a.sortCmp c ≤ 0) ∧
    (∀ a b : Vec3 ℝ, a.x < b.x → a.sortCmp b < 0) ∧
    (∀ a b : Vec2 ℝ, a.sortCmp b = 0 ↔ a = b) ∧ (∀ a b : Vec2 ℝ, a.sortCmp b = -b.sortCmp a) ∧
    (∀ a b c : Vec2 ℝ, a.sortCmp b ≤ 0 → b.sortCmp c ≤ 0 → a.sortCmp c ≤ 0) ∧
    (∀ a b : Vec2 ℝ, a.x < b.x → a.sortCmp b < 0) := by
  refine ⟨?_, ?_, ?_, ?_, ?_, ?_, ?_, ?_⟩
  · intro a b; simp only [Vec3.sortCmp, Vec3.ext_iff]; grind
  · intro a b; simp only [Vec3.sortCmp]; grind
  · intro a b c; simp only [Vec3.sortCmp]; grind
  · intro a b h; simp only [Vec3.sortCmp]; grind
  · intro a b; simp only [Vec2.sortCmp, Vec2.ext_iff]; grind
  · intro a b; simp only [Vec2.sortCmp]; grind
  · intro a b c; simp only [Vec2.sortCmp]; grind
  · intro a b h; simp only [Vec2.sortCmp]; grind

/-- Frames that are equal for the test but not identical, a frame that moves nothing by more than the tolerance, and a proper box. -/
example : (⟨⟨1/10, 0, 0⟩, .ident⟩ : Frame3 ℝ).equal (1/10) .ident ∧ (⟨⟨1/10, 0, 0⟩, .ident⟩ : Frame3 ℝ) ≠ .ident ∧
    Spec.Linked (Frame3.equal (1/10 : ℝ)) (fun i => ⟨⟨i / 10, 0, 0⟩, .ident⟩) 5 ∧
    (⟨⟨0, 0⟩, ⟨1, 2⟩⟩ : AABox2 ℝ).min.x ≤ (⟨⟨0, 0⟩, ⟨1, 2⟩⟩ : AABox2 ℝ).max.x := by
  refine ⟨?_, ?_, ?_, ?_⟩
  · unf; norm_num [Frame3.ident, Vec3.zero, abs_le]
  · intro h; have := congrArg (fun f => f.pos.x) h; norm_num [Frame3.ident, Vec3.zero] at this
  · intro i _; unf; push_cast; ring_nf; norm_num [abs_le]
  · norm_num

end Zeo
