import Verif.Model.Elem

/-! # Triangulation of a loop of vertices (src/zeo_elem3d_list.c)

A loop is the list of its cells in traversal order: the first element is `zListTail`, the last one
`zListHead` (cells are inserted at the head, include/zeo/zeo_vec3d_list.h). -/

namespace Zeo.Loop
noncomputable section
open Classical

/-- Index of the x-extreme cell, src/zeo_elem3d_list.c:62-67: the first cell of smallest x. -/
def minXIdx (L : List (Vec3 ℝ)) : ℕ :=
  (L.zipIdx.foldl (fun s c => if c.1.x < s.2 then (c.2, c.1.x) else s) (0, (L.headD .zero).x)).1
/-- `_zLoop3DTriangulateNorm`, src/zeo_elem3d_list.c:55-76, for a non-empty loop. Rotating the loop to the
extreme cell makes the following cell the second and the preceding cell the last one. -/
def norm (τ : ℝ) (L : List (Vec3 ℝ)) : Vec3 ℝ :=
  let R := L.rotate (minXIdx L)
  let st := R.headD .zero
  let pst := R.tail.headD st
  let pre := R.getLastD st
  let n := (pst.sub st).outer (pre.sub st)
  (n.normalize τ n).2

/-- The acceptance test of src/zeo_elem3d_list.c:106-107 with `_zLoop3DTriangulateCheck`, lines 79-91. -/
def isEar (τ : ℝ) (nrm pre vp pst : Vec3 ℝ) (others : List (Vec3 ℝ)) : Prop :=
  (Tri3.create τ pre vp pst).2.norm.inner nrm > 0 ∧ ∀ q ∈ others, ¬ Tri3.pointIsInside τ pre vp pst q τ

/-- One search of src/zeo_elem3d_list.c:101-111: `A` are the cells before `vp`, the second list starts with `vp`,
`z` is the head cell (predecessor of the tail cell), `t` the last triangle created. The result is whether an ear
was found, the triangle, and the loop after the purge of `vp`. The cells checked are those from the successor of
`pst` around to the predecessor of `pre`. -/
def scan (τ : ℝ) (nrm z : Vec3 ℝ) : List (Vec3 ℝ) → List (Vec3 ℝ) → Tri3 ℝ → Bool × Tri3 ℝ × List (Vec3 ℝ)
  | A, vp :: pst :: B, _ =>
    let pre := A.getLastD z
    let t := (Tri3.create τ pre vp pst).2
    if isEar τ nrm pre vp pst ((B ++ A).dropLast) then (true, t, A ++ pst :: B)
    else scan τ nrm z (A ++ [vp]) (pst :: B) t
  | A, _, t => (false, t, A)

/-- The outer loop of src/zeo_elem3d_list.c:100-115: triangles in order of addition, whether every search found
an ear, and the cells left. The first argument bounds the number of passes; one cell is purged per pass. -/
def run (τ : ℝ) (nrm : Vec3 ℝ) (junk : Tri3 ℝ) : ℕ → List (Vec3 ℝ) → List (Tri3 ℝ) × Bool × List (Vec3 ℝ)
  | 0, L => ([], true, L)
  | k + 1, L =>
    if L.length > 2 then
      let r := scan τ nrm (L.getLastD .zero) [] L junk
      let s := run τ nrm junk k r.2.2
      (r.2.1 :: s.1, r.1 && s.2.1, s.2.2)
    else ([], true, L)

/-- `_zLoop3DTriangulate`, src/zeo_elem3d_list.c:94-117, behind `zTriangulate` (lines 135-146) and
`zLoop3DTriangulate` (lines 121-130), allocation succeeding. `none`: the empty loop, where the code reads the
data of the list root. -/
def triangulate (τ : ℝ) (junk : Tri3 ℝ) (L : List (Vec3 ℝ)) : Option (List (Tri3 ℝ)) :=
  if L = [] then none else some (run τ (norm τ L) junk L.length L).1

/-- `zTri3DListAlign`, src/zeo_elem3d_list.c:29-36, with `zTri3DFlip`, src/zeo_elem3d.c:209-212. -/
def align (τ : ℝ) (ts : List (Tri3 ℝ)) (ref : Vec3 ℝ) : List (Tri3 ℝ) :=
  ts.map fun t => if ref.inner t.norm < 0 then (Tri3.create τ t.v0 t.v2 t.v1).2 else t

end
end Zeo.Loop
