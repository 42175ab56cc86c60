import Verif.Model.OBJ

/-! # What the OBJ format says -/

namespace Zeo.Spec
open OBJ

/-- The reference names the vertex `n` (counted from one), possibly with a texture and a normal. -/
def Refers (r : List (Option ℤ)) (n : ℕ) : Prop := ∃ rest, r = some (n : ℤ) :: rest

/-- The lines describe the vertices and triangles (corners counted from zero), each triangle of vertices above it;
`pre` are the vertices above the lines. -/
inductive Describes : List (Vec3 ℝ) → List Line → List (Vec3 ℝ) → List (ℕ × ℕ × ℕ) → Prop
  | nil (pre : List (Vec3 ℝ)) : Describes pre [] [] []
  | vert (pre : List (Vec3 ℝ)) (x y z : ℝ) (more : List ℝ) (ls : List Line) (vs : List (Vec3 ℝ))
      (ts : List (ℕ × ℕ × ℕ)) : Describes (pre ++ [⟨x, y, z⟩]) ls vs ts →
      Describes pre (.v (x :: y :: z :: more) :: ls) (⟨x, y, z⟩ :: vs) ts
  | tri (pre : List (Vec3 ℝ)) (r0 r1 r2 : List (Option ℤ)) (i j k : ℕ) (ls : List Line) (vs : List (Vec3 ℝ))
      (ts : List (ℕ × ℕ × ℕ)) : Refers r0 (i + 1) → Refers r1 (j + 1) → Refers r2 (k + 1) →
      i < pre.length → j < pre.length → k < pre.length → Describes pre ls vs ts →
      Describes pre (.f [r0, r1, r2] :: ls) vs ((i, j, k) :: ts)
  | other (pre : List (Vec3 ℝ)) (ls : List Line) (vs : List (Vec3 ℝ)) (ts : List (ℕ × ℕ × ℕ)) :
      Describes pre ls vs ts → Describes pre (.other :: ls) vs ts

end Zeo.Spec
