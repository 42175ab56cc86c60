import Verif.Props.C13

/-! Rotation matrices on the record type. -/

namespace Zeo
open Matrix
variable {K : Type*} [Field K]

theorem Mat3.isRot_iff (m : Mat3 K) : m.IsRot ↔ m.t.mulMat m = .ident ∧ m.det = 1 := by
  unfold Mat3.IsRot
  rw [Mat3.orth_iff, (C06_mat3_det_adj m m .zero).1]

namespace Mat3.IsRot
variable {m a b : Mat3 K}

theorem tm (h : m.IsRot) : m.t.mulMat m = .ident := ((Mat3.isRot_iff m).1 h).1
theorem det_eq (h : m.IsRot) : m.det = 1 := ((Mat3.isRot_iff m).1 h).2
theorem mt (h : m.IsRot) : m.mulMat m.t = .ident := (Mat3.orth_iff' m).1 h.1

theorem adj_eq (h : m.IsRot) : m.adj = m.t := by
  have e : (m.t.mulMat m).mulMat m.adj = m.t.mul m.det := by vring
  rw [h.tm, h.det_eq] at e
  have e1 : Mat3.ident.mulMat m.adj = m.adj := by vring
  have e2 : m.t.mul 1 = m.t := by vring
  rw [e1, e2] at e; exact e

theorem mulMat (ha : a.IsRot) (hb : b.IsRot) : (a.mulMat b).IsRot := by
  rw [Mat3.isRot_iff]
  have e : (a.mulMat b).t.mulMat (a.mulMat b) = b.t.mulMat ((a.t.mulMat a).mulMat b) := by vring
  have e' : (Mat3.ident : Mat3 K).mulMat b = b := by vring
  refine ⟨by rw [e, ha.tm, e', hb.tm], ?_⟩
  rw [(C06_mat3_det_adj a b .zero).2.2.2.2.1, ha.det_eq, hb.det_eq, mul_one]

theorem t (h : m.IsRot) : m.t.IsRot := by
  rw [Mat3.isRot_iff]
  have e : m.t.t = m := by vring
  have e' : m.t.det = m.det := by vring
  rw [e, h.mt, e', h.det_eq]; exact ⟨rfl, rfl⟩

theorem ident : (Mat3.ident : Mat3 K).IsRot := by
  rw [Mat3.isRot_iff]; constructor <;> vring

/-- Scalar relations between the entries: columns orthonormal. -/
theorem cols (h : m.IsRot) :
    m.x.x * m.x.x + m.x.y * m.x.y + m.x.z * m.x.z = 1 ∧
    m.y.x * m.y.x + m.y.y * m.y.y + m.y.z * m.y.z = 1 ∧
    m.z.x * m.z.x + m.z.y * m.z.y + m.z.z * m.z.z = 1 ∧
    m.x.x * m.y.x + m.x.y * m.y.y + m.x.z * m.y.z = 0 ∧
    m.y.x * m.z.x + m.y.y * m.z.y + m.y.z * m.z.z = 0 ∧
    m.z.x * m.x.x + m.z.y * m.x.y + m.z.z * m.x.z = 0 := by
  have e := h.tm
  simp only [zeo, Mat3.mk.injEq, Vec3.mk.injEq] at e
  obtain ⟨⟨a1, a2, a3⟩, ⟨b1, b2, b3⟩, c1, c2, c3⟩ := e
  exact ⟨a1, b2, c3, b1, c2, a3⟩

/-- Scalar relations between the entries: rows orthonormal. -/
theorem rows (h : m.IsRot) :
    m.x.x * m.x.x + m.y.x * m.y.x + m.z.x * m.z.x = 1 ∧
    m.x.y * m.x.y + m.y.y * m.y.y + m.z.y * m.z.y = 1 ∧
    m.x.z * m.x.z + m.y.z * m.y.z + m.z.z * m.z.z = 1 ∧
    m.x.x * m.x.y + m.y.x * m.y.y + m.z.x * m.z.y = 0 ∧
    m.x.y * m.x.z + m.y.y * m.y.z + m.z.y * m.z.z = 0 ∧
    m.x.z * m.x.x + m.y.z * m.y.x + m.z.z * m.z.x = 0 := by
  have e := h.mt
  simp only [zeo, Mat3.mk.injEq, Vec3.mk.injEq] at e
  obtain ⟨⟨a1, a2, a3⟩, ⟨b1, b2, b3⟩, c1, c2, c3⟩ := e
  exact ⟨a1, b2, c3, b1, c2, a3⟩

/-- Scalar relations between the entries: each entry is its cofactor. -/
theorem cof (h : m.IsRot) :
    (m.y.y * m.z.z - m.z.y * m.y.z = m.x.x ∧ m.z.x * m.y.z - m.y.x * m.z.z = m.x.y ∧
     m.y.x * m.z.y - m.z.x * m.y.y = m.x.z) ∧
    (m.z.y * m.x.z - m.x.y * m.z.z = m.y.x ∧ m.x.x * m.z.z - m.z.x * m.x.z = m.y.y ∧
     m.z.x * m.x.y - m.x.x * m.z.y = m.y.z) ∧
    (m.x.y * m.y.z - m.y.y * m.x.z = m.z.x ∧ m.y.x * m.x.z - m.x.x * m.y.z = m.z.y ∧
     m.x.x * m.y.y - m.y.x * m.x.y = m.z.z) := by
  have e := h.adj_eq
  simp only [zeo, Mat3.mk.injEq, Vec3.mk.injEq] at e
  obtain ⟨⟨a1, a2, a3⟩, ⟨b1, b2, b3⟩, c1, c2, c3⟩ := e
  refine ⟨⟨a1, b1, c1⟩, ⟨a2, ?_, ?_⟩, ?_, ?_, c3⟩
  · linear_combination b2
  · linear_combination c2
  · linear_combination a3
  · linear_combination b3

end Mat3.IsRot

/-- Elementary rotation about x with sine `s`, cosine `c`. -/
def rxSC (s c : K) : Mat3 K := Mat3.create 1 0 0 0 c (-s) 0 s c
def rySC (s c : K) : Mat3 K := Mat3.create c 0 s 0 1 0 (-s) 0 c
def rzSC (s c : K) : Mat3 K := Mat3.create c (-s) 0 s c 0 0 0 1

theorem rxSC_isRot {s c : K} (h : s * s + c * c = 1) : (rxSC s c).IsRot := by
  rw [Mat3.isRot_iff]; constructor
  · ext <;> simp [rxSC, zeo] <;> first | ring1 | linear_combination h
  · simp [rxSC, zeo]; linear_combination h
theorem rySC_isRot {s c : K} (h : s * s + c * c = 1) : (rySC s c).IsRot := by
  rw [Mat3.isRot_iff]; constructor
  · ext <;> simp [rySC, zeo] <;> first | ring1 | linear_combination h
  · simp [rySC, zeo]; linear_combination h
theorem rzSC_isRot {s c : K} (h : s * s + c * c = 1) : (rzSC s c).IsRot := by
  rw [Mat3.isRot_iff]; constructor
  · ext <;> simp [rzSC, zeo] <;> first | ring1 | linear_combination h
  · simp [rzSC, zeo]; linear_combination h

theorem fromZYXSC_eq (sa ca se ce st ct : K) :
    Mat3.fromZYXSC sa ca se ce st ct = ((rzSC sa ca).mulMat (rySC se ce)).mulMat (rxSC st ct) := by
  ext <;> simp only [rxSC, rySC, rzSC, zeo] <;> ring
theorem fromZYZSC_eq (sh ch sp cp sb cb : K) :
    Mat3.fromZYZSC sh ch sp cp sb cb = ((rzSC sh ch).mulMat (rySC sp cp)).mulMat (rzSC sb cb) := by
  ext <;> simp only [rySC, rzSC, zeo] <;> ring

/-- Unit quaternions give rotations. -/
theorem EP.toMat_isRot {q : EP K} (h : q.IsUnit) : q.toMat.IsRot := by
  rw [Mat3.isRot_iff]
  have e : q.toMat.t.mulMat q.toMat = Mat3.ident.mul ((q.w^2 + q.v.x^2 + q.v.y^2 + q.v.z^2)^2) := by vring
  have e' : q.toMat.det = (q.w^2 + q.v.x^2 + q.v.y^2 + q.v.z^2)^3 := by vring
  unfold EP.IsUnit at h
  rw [e, e', h]; exact ⟨by vring, one_pow 3⟩

end Zeo
