import Verif.Model.PH

/-! # What reading a list of triangles into a polyhedron means -/

namespace Zeo.Spec

/-- A triangle given by its corners. -/
abbrev Corners := Vec3 ℝ × Vec3 ℝ × Vec3 ℝ

/-- `p` is a corner of `t`. -/
def Corner (p : Vec3 ℝ) (t : Corners) : Prop := p = t.1 ∨ p = t.2.1 ∨ p = t.2.2

/-- The coordinates of `p` and `q` differ by at most `tol`. -/
def Within (tol : ℝ) (p q : Vec3 ℝ) : Prop := |p.x - q.x| ≤ tol ∧ |p.y - q.y| ≤ tol ∧ |p.z - q.z| ≤ tol

/-- The polyhedron has one face for each triangle, in the same order, with corners in its vertex buffer within
`tol` of those of the triangle; its vertices are corners of the triangles. -/
structure Holds (tol : ℝ) (ts : List Corners) (q : PH ℝ) : Prop where
  count : q.face.length = ts.length
  corners : ∀ (i : ℕ) (t : Corners) (f : Face ℝ), ts[i]? = some t → q.face[i]? = some f →
    (f.i0 < q.nv ∧ Within tol t.1 (q.vert f.i0)) ∧ (f.i1 < q.nv ∧ Within tol t.2.1 (q.vert f.i1)) ∧
    (f.i2 < q.nv ∧ Within tol t.2.2 (q.vert f.i2))
  used : ∀ k < q.nv, ∃ t ∈ ts, Corner (q.vert k) t

/-- Corners that differ are more than `tol` apart in some coordinate. -/
def Spread (tol : ℝ) (ts : List Corners) : Prop :=
  ∀ s ∈ ts, ∀ t ∈ ts, ∀ p q, Corner p s → Corner q t → Within tol p q → p = q

end Zeo.Spec
