import Verif.Model.PH
import Mathlib.MeasureTheory.Integral.IntervalIntegral.Basic

/-! # Specification vocabulary for triangle meshes -/

namespace Zeo.Spec

/-- The three directed edges of an oriented triangle. -/
def triEdges {α : Type*} (f : α × α × α) : List (α × α) := [(f.1, f.2.1), (f.2.1, f.2.2), (f.2.2, f.1)]

/-- The directed edges of a list of oriented triangles. -/
def meshEdges {α : Type*} (fs : List (α × α × α)) : List (α × α) := fs.flatMap triEdges

/-- A closed, consistently oriented mesh: every directed edge occurs exactly as often as its reverse. -/
def Closed {α : Type*} (fs : List (α × α × α)) : Prop := ((meshEdges fs).map Prod.swap).Perm (meshEdges fs)

/-- Index triples of the faces of a polyhedron. -/
def faceIdx {K : Type*} (ph : PH K) : List (ℕ × ℕ × ℕ) := ph.face.map fun f => (f.i0, f.i1, f.i2)

/-- Corner points of the faces of a polyhedron. -/
def facePts {K : Type*} (ph : PH K) : List (Vec3 K × Vec3 K × Vec3 K) :=
  ph.face.map fun f => (ph.vert f.i0, ph.vert f.i1, ph.vert f.i2)

/-- All face indices refer to vertices of the polyhedron. -/
def Valid {K : Type*} (ph : PH K) : Prop := ∀ f ∈ ph.face, f.i0 < ph.nv ∧ f.i1 < ph.nv ∧ f.i2 < ph.nv

/-- Determinant of three column vectors. -/
def det3 {K : Type*} [Field K] (a b c : Vec3 K) : K :=
  a.x * (b.y * c.z - b.z * c.y) - a.y * (b.x * c.z - b.z * c.x) + a.z * (b.x * c.y - b.y * c.x)

/-- Signed integral of `f` over the tetrahedron with apex the origin and base `a, b, c`, by the
parametrisation `(s,t,u) ↦ s a + t b + u c` of the unit simplex. -/
noncomputable def tetraInt (a b c : Vec3 ℝ) (f : Vec3 ℝ → ℝ) : ℝ :=
  det3 a b c * ∫ s in (0:ℝ)..1, ∫ t in (0:ℝ)..(1 - s), ∫ u in (0:ℝ)..(1 - s - t),
    f ⟨s * a.x + t * b.x + u * c.x, s * a.y + t * b.y + u * c.y, s * a.z + t * b.z + u * c.z⟩

end Zeo.Spec
