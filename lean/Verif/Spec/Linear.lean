import Verif.Model.Mat2
import Verif.Model.EP
import Verif.Model.Frame
import Mathlib.LinearAlgebra.CrossProduct
import Mathlib.LinearAlgebra.Matrix.Adjugate

/-!
# Specification side: the model's records as Mathlib vectors and matrices

Only interpretation functions; the notions themselves (dot product, cross product,
matrix product, determinant, adjugate, transpose) are Mathlib's.
-/

namespace Zeo
variable {K : Type*}

/-- A 2D vector as a function on two indices. -/
def Vec2.toFin (v : Vec2 K) : Fin 2 → K := ![v.x, v.y]
/-- A 3D vector as a function on three indices. -/
def Vec3.toFin (v : Vec3 K) : Fin 3 → K := ![v.x, v.y, v.z]
/-- The 2x2 matrix with columns `m.x`, `m.y` (row index first). -/
def Mat2.toMatrix (m : Mat2 K) : Matrix (Fin 2) (Fin 2) K := !![m.x.x, m.y.x; m.x.y, m.y.y]
/-- The 3x3 matrix with columns `m.x`, `m.y`, `m.z` (row index first). -/
def Mat3.toMatrix (m : Mat3 K) : Matrix (Fin 3) (Fin 3) K :=
  !![m.x.x, m.y.x, m.z.x; m.x.y, m.y.y, m.z.y; m.x.z, m.y.z, m.z.z]

/-- A 6D vector as a function on six indices: linear part, then angular part. -/
def Vec6.toFin (v : Vec6 K) : Fin 6 → K :=
  ![v.lin.x, v.lin.y, v.lin.z, v.ang.x, v.ang.y, v.ang.z]
/-- The 6x6 matrix acting on (linear, angular) vectors with diagonal blocks `ll`, `aa`,
upper-right block `al` (angular to linear) and lower-left block `la` (linear to angular). -/
def Mat6.toMatrix (m : Mat6 K) : Matrix (Fin 6) (Fin 6) K :=
  !![m.ll.x.x, m.ll.y.x, m.ll.z.x, m.al.x.x, m.al.y.x, m.al.z.x;
     m.ll.x.y, m.ll.y.y, m.ll.z.y, m.al.x.y, m.al.y.y, m.al.z.y;
     m.ll.x.z, m.ll.y.z, m.ll.z.z, m.al.x.z, m.al.y.z, m.al.z.z;
     m.la.x.x, m.la.y.x, m.la.z.x, m.aa.x.x, m.aa.y.x, m.aa.z.x;
     m.la.x.y, m.la.y.y, m.la.z.y, m.aa.x.y, m.aa.y.y, m.aa.z.y;
     m.la.x.z, m.la.y.z, m.la.z.z, m.aa.x.z, m.aa.y.z, m.aa.z.z]

/-- A proper rotation of space: orthogonal with determinant one. -/
def Mat3.IsRot [Field K] (m : Mat3 K) : Prop :=
  m.toMatrix.transpose * m.toMatrix = 1 ∧ m.toMatrix.det = 1
/-- A proper rotation of the plane. -/
def Mat2.IsRot [Field K] (m : Mat2 K) : Prop :=
  m.toMatrix.transpose * m.toMatrix = 1 ∧ m.toMatrix.det = 1

/-- Unit quaternion. -/
def EP.IsUnit [Field K] (q : EP K) : Prop := q.w^2 + q.v.x^2 + q.v.y^2 + q.v.z^2 = 1

end Zeo
