import Verif.Spec.QHull

/-! # Specification vocabulary for the intersection of polyhedra -/

namespace Zeo.Spec
noncomputable section

/-- The points that are behind all the faces of a polyhedron; for a convex polyhedron this is the solid. -/
def behind (ph : PH ℝ) : Set (Vec3 ℝ) := {x | ∀ f ∈ ph.face, height ⟨ph.vert f.i0, f.norm⟩ x ≤ 0}
/-- The normal vector of each face is at right angles to the face. -/
def FlatFaces (ph : PH ℝ) : Prop :=
  ∀ f ∈ ph.face, height ⟨ph.vert f.i0, f.norm⟩ (ph.vert f.i1) = 0 ∧ height ⟨ph.vert f.i0, f.norm⟩ (ph.vert f.i2) = 0

/-- The points that the face lets through when its plane is not nearer to `p` than `ε`. -/
def behindFrom (ε : ℝ) (p : Vec3 ℝ) (ph : PH ℝ) : Set (Vec3 ℝ) :=
  {x | ∀ f ∈ ph.face, dot f.norm (x.sub p) ≤ max ε (-height ⟨ph.vert f.i0, f.norm⟩ p)}

/-- The points `y` such that the planes `y · x = 1` are the planes of the faces, seen from `p`, and not nearer than `ε`. -/
def dualPoints (ε : ℝ) (p : Vec3 ℝ) (ph : PH ℝ) : List (Vec3 ℝ) :=
  ph.face.map fun f => f.norm.mul (1 / max ε (-height ⟨ph.vert f.i0, f.norm⟩ p))
/-- The points where three of the planes meet. -/
def meetPoints (p : Vec3 ℝ) (D : List (Vec3 ℝ)) : List (Vec3 ℝ) :=
  D.flatMap fun a => D.flatMap fun b => D.map fun c =>
    ((unitNormal a b c).mul (1 / dot (unitNormal a b c) a)).add p

end
end Zeo.Spec
