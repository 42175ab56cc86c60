import Verif.Model.BRep
import Verif.Spec.Geometry
import Verif.Spec.Mesh
import Verif.Spec.Linear

/-! # Specification vocabulary for boundary representations -/

namespace Zeo.Spec

/-- Two end points, in either order. -/
def SamePair (e : BEdge) (a b : ℕ) : Prop := (e.v0 = a ∧ e.v1 = b) ∨ (e.v0 = b ∧ e.v1 = a)

/-- Equal up to a tolerance, coordinate by coordinate. -/
def Near (τ : ℝ) (p q : Vec3 ℝ) : Prop := |p.x - q.x| ≤ τ ∧ |p.y - q.y| ≤ τ ∧ |p.z - q.z| ≤ τ

/-- A sound boundary representation: every pointer leads to a live cell, no cell is listed twice or handed out
twice, edge `i` of a face joins the two corners of the face other than corner `i`, and no edge carries a
cutting point. -/
structure Sound (b : BRep) : Prop where
  vnodup : b.vlist.Nodup
  enodup : b.elist.Nodup
  vlt : ∀ i ∈ b.vlist, i < b.nv
  elt : ∀ e ∈ b.elist, e < b.ne
  ends : ∀ e ∈ b.elist, (b.edge e).v0 ∈ b.vlist ∧ (b.edge e).v1 ∈ b.vlist
  nocut : ∀ e ∈ b.elist, (b.edge e).x = none
  corner : ∀ f ∈ b.flist, ∀ i, f.v i ∈ b.vlist
  side : ∀ f ∈ b.flist, ∀ i, f.e i ∈ b.elist ∧ SamePair (b.edge (f.e i)) (f.v (i + 1)) (f.v (i + 2))

/-- The corners of a face. -/
def corners (b : BRep) (f : BFace) : Vec3 ℝ × Vec3 ℝ × Vec3 ℝ :=
  ((b.vert (f.v 0)).p, (b.vert (f.v 1)).p, (b.vert (f.v 2)).p)
/-- The points of a triangle given by its corners. -/
def triSet (t : Vec3 ℝ × Vec3 ℝ × Vec3 ℝ) : Set (Vec3 ℝ) := triangle t.1 t.2.1 t.2.2
/-- The points of a list of triangles. -/
def triUnion (l : List (Vec3 ℝ × Vec3 ℝ × Vec3 ℝ)) : Set (Vec3 ℝ) := {q | ∃ t ∈ l, q ∈ triSet t}
/-- The points of the faces of a boundary representation. -/
def surface (b : BRep) : Set (Vec3 ℝ) := triUnion (b.flist.map (corners b))

/-- Normal vector of a triangle, of twice the length of its area: `(t₁ - t₀) × (t₂ - t₀)`. -/
def triNormal (t : Vec3 ℝ × Vec3 ℝ × Vec3 ℝ) : Vec3 ℝ :=
  ⟨(t.2.1.y - t.1.y) * (t.2.2.z - t.1.z) - (t.2.1.z - t.1.z) * (t.2.2.y - t.1.y),
   (t.2.1.z - t.1.z) * (t.2.2.x - t.1.x) - (t.2.1.x - t.1.x) * (t.2.2.z - t.1.z),
   (t.2.1.x - t.1.x) * (t.2.2.y - t.1.y) - (t.2.1.y - t.1.y) * (t.2.2.x - t.1.x)⟩

/-- Signed height of a point over a plane: the inner product of the offset with the normal vector. -/
def height (pl : Plane3 ℝ) (q : Vec3 ℝ) : ℝ :=
  (q.x - pl.org.x) * pl.norm.x + (q.y - pl.org.y) * pl.norm.y + (q.z - pl.org.z) * pl.norm.z

end Zeo.Spec

namespace Zeo.Spec

/-- No two vertices are equal up to the tolerance, no two edges join the same vertices. -/
structure Distinct (τ : ℝ) (b : BRep) : Prop where
  verts : ∀ i ∈ b.vlist, ∀ j ∈ b.vlist, Near τ (b.vert i).p (b.vert j).p → i = j
  edges : ∀ e ∈ b.elist, ∀ e' ∈ b.elist, SamePair (b.edge e) (b.edge e').v0 (b.edge e').v1 → e = e'

/-- Every vertex and every edge in the lists belongs to a face. -/
structure Used (b : BRep) : Prop where
  verts : ∀ i ∈ b.vlist, ∃ f ∈ b.flist, ∃ j, f.v j = i
  edges : ∀ e ∈ b.elist, ∃ f ∈ b.flist, ∃ j, f.e j = e

end Zeo.Spec

namespace Zeo.Spec

/-- `out` is what remains of the triangles `src` below all the planes `H`, up to the tolerance: every point of
`src` more than `τ` below all the planes is covered; every triangle of `out` lies in a triangle of `src` of the
same orientation and at most `τ` above any of the planes. -/
structure ClippedTo (τ : ℝ) (H : List (Plane3 ℝ)) (src out : List (Vec3 ℝ × Vec3 ℝ × Vec3 ℝ)) : Prop where
  cover : ∀ q ∈ triUnion src, (∀ pl ∈ H, height pl q < -τ) → q ∈ triUnion out
  origin : ∀ u ∈ out, ∃ t ∈ src, (∀ q ∈ triSet u, q ∈ triSet t ∧ ∀ pl ∈ H, height pl q ≤ τ) ∧
    ∃ k, 0 < k ∧ triNormal u = (triNormal t).mul k

/-- The planes of the faces of a polyhedron: first corner and normal vector. -/
def facePlanes (ph : PH ℝ) : List (Plane3 ℝ) := ph.face.map fun f => ⟨ph.vert f.i0, f.norm⟩
/-- The normal vectors of the faces are of unit length. -/
def UnitNormals (ph : PH ℝ) : Prop := ∀ f ∈ ph.face, f.norm.x ^ 2 + f.norm.y ^ 2 + f.norm.z ^ 2 = 1

/-- Points that are equal up to the tolerance are the same point. -/
def Separated (τ : ℝ) (S : Set (Vec3 ℝ)) : Prop := ∀ p ∈ S, ∀ q ∈ S, Near τ p q → p = q
/-- The corner points of the faces of a polyhedron. -/
def cornerSet (ph : PH ℝ) : Set (Vec3 ℝ) := {p | ∃ t ∈ facePts ph, p = t.1 ∨ p = t.2.1 ∨ p = t.2.2}
/-- Two triangles with corners equal up to the tolerance, corner by corner. -/
def NearTri (τ : ℝ) (s t : Vec3 ℝ × Vec3 ℝ × Vec3 ℝ) : Prop :=
  Near τ s.1 t.1 ∧ Near τ s.2.1 t.2.1 ∧ Near τ s.2.2 t.2.2
/-- Vertex cells of the faces. -/
def cells (b : BRep) : List (ℕ × ℕ × ℕ) := b.flist.map fun f => (f.v 0, f.v 1, f.v 2)

end Zeo.Spec

namespace Zeo.Spec

/-- A solid has a vertex equal to the point up to the tolerance. -/
def HasVert (τ : ℝ) (b : BRep) (p : Vec3 ℝ) : Prop := ∃ k ∈ b.vlist, Near τ (b.vert k).p p
/-- The axis-aligned boxes: every face lies in a plane `x`, `y` or `z = c` where `c` is the least or the greatest
such coordinate of the vertices. -/
def AxisFaced (ph : PH ℝ) : Prop :=
  ∀ f ∈ ph.face, ∃ (a : Fin 3) (c : ℝ), (∀ i ∈ [f.i0, f.i1, f.i2], (ph.vert i).toFin a = c) ∧
    ((∀ i < ph.nv, c ≤ (ph.vert i).toFin a) ∨ ∀ i < ph.nv, (ph.vert i).toFin a ≤ c)

end Zeo.Spec
