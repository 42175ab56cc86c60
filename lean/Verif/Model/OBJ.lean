import Verif.Model.PH
import Verif.Model.ZTK

/-! # Reading polyhedra in the OBJ format: src/zeo_ph3d_obj.c

A file is the list of its lines.  Cutting a line into words (`zSTokenSkim` of the ZEDA library) and `atof`, `atoi`
are not part of /repo: a line that begins with `v ` is the list of its numbers, one that begins with `f ` the list
of its references, and a reference is the list of the integers between slashes, `none` where there is nothing.
Allocations succeed; what the memory of the vertices holds before they are read is `junk`. -/

namespace Zeo.OBJ
noncomputable section
open Classical

/-- A line of a file. -/
inductive Line
  | v (xs : List ℝ)
  | f (rs : List (List (Option ℤ)))
  | other

/-- `strncmp( buf, "v ", 2 ) == 0`, src/zeo_ph3d_obj.c:17, 91. -/
def Line.isV : Line → Bool
  | .v _ => true
  | _ => false

/-- `_zOBJCountKey( fp, "v " )`, src/zeo_ph3d_obj.c:9-20, 116. -/
def count (ls : List Line) : ℕ := ls.countP Line.isV

/-- The vertices, the number of those already read, the faces. -/
structure St where
  vert : ℕ → Vec3 ℝ
  vi : ℕ
  face : List (Face ℝ)

/-- `_zOBJFReadVert`, src/zeo_ph3d_obj.c:22-36.  `atof` of nothing is zero.  The counter cannot exceed the number of
lines that were counted. -/
def readVert (s : St) (xs : List ℝ) : St :=
  { s with vert := Function.update s.vert s.vi ⟨xs.getD 0 0, xs.getD 1 0, xs.getD 2 0⟩, vi := s.vi + 1 }

/-- The index of the vertex in `_zOBJFReadFaceIndex`, src/zeo_ph3d_obj.c:38-63; the others are discarded. -/
def faceIndex : Option (List (Option ℤ)) → ℤ
  | some (some n :: _) => n - 1
  | _ => 0

/-- `_zOBJFReadFace`, src/zeo_ph3d_obj.c:65-81.  The index is not checked: outside the vertices the behaviour is
undefined. -/
def readFace (τ : ℝ) (nv : ℕ) (s : St) (rs : List (List (Option ℤ))) : Except ZTK.Err St :=
  let i := faceIndex rs[0]?
  let j := faceIndex rs[1]?
  let k := faceIndex rs[2]?
  if 0 ≤ i ∧ i < nv ∧ 0 ≤ j ∧ j < nv ∧ 0 ≤ k ∧ k < nv then
    .ok { s with face := s.face ++ [⟨i.toNat, j.toNat, k.toNat,
      (Tri3.create τ (s.vert i.toNat) (s.vert j.toNat) (s.vert k.toNat)).2.norm⟩] }
  else .error .undef

/-- `_zOBJFReadPH3D`, src/zeo_ph3d_obj.c:83-109. -/
def readLines (τ : ℝ) (nv : ℕ) : St → List Line → Except ZTK.Err St
  | s, [] => .ok s
  | s, .v xs :: ls => readLines τ nv (readVert s xs) ls
  | s, .f rs :: ls =>
    match readFace τ nv s rs with
    | .error e => .error e
    | .ok s' => readLines τ nv s' ls
  | s, .other :: ls => readLines τ nv s ls

/-- `zPH3DFReadOBJ`, `zPH3DReadFileOBJ`, src/zeo_ph3d_obj.c:112-139. -/
def read (τ : ℝ) (junk : ℕ → Vec3 ℝ) (ls : List Line) : Except ZTK.Err (PH ℝ) :=
  match readLines τ (count ls) ⟨junk, 0, []⟩ ls with
  | .error e => .error e
  | .ok s => .ok ⟨count ls, s.vert, s.face⟩

end
end Zeo.OBJ
