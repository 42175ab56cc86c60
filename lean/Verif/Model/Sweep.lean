import Verif.Model.Triangulate
import Verif.Model.PH

/-! # Prisms and pyramids: src/zeo_ph3d.c:302-407

The triangles of the bottom point into the vertices of the polyhedron, so that the triangulation of
src/zeo_elem3d_list.c is followed here on the offsets of the vertices; `Sweep.run_map` states that it is the
triangulation of the vertices.  Allocations succeed. -/

namespace Zeo.Sweep
noncomputable section
open Classical

/-- How a solid is not made: NULL is returned; the behaviour is undefined. -/
inductive Err
  | null
  | undef

/-- `Loop.scan` (src/zeo_elem3d_list.c:101-111) on offsets of vertices. -/
def scan (τ : ℝ) (vert : ℕ → Vec3 ℝ) (nrm : Vec3 ℝ) (z : ℕ) : List ℕ → List ℕ → ℕ × ℕ × ℕ →
    Bool × (ℕ × ℕ × ℕ) × List ℕ
  | A, vp :: pst :: B, _ =>
    let pre := A.getLastD z
    if Loop.isEar τ nrm (vert pre) (vert vp) (vert pst) ((B ++ A).dropLast.map vert) then
      (true, (pre, vp, pst), A ++ pst :: B)
    else scan τ vert nrm z (A ++ [vp]) (pst :: B) (pre, vp, pst)
  | A, _, t => (false, t, A)

/-- `Loop.run` (src/zeo_elem3d_list.c:100-115) on offsets of vertices: the triangles in order of addition. -/
def run (τ : ℝ) (vert : ℕ → Vec3 ℝ) (nrm : Vec3 ℝ) : ℕ → List ℕ → List (ℕ × ℕ × ℕ)
  | 0, _ => []
  | k + 1, L =>
    if L.length > 2 then
      let r := scan τ vert nrm (L.getLastD 0) [] L (0, 0, 0)
      r.2.1 :: run τ vert nrm k r.2.2
    else []

/-- `_zPH3DSweepBottom`, src/zeo_ph3d.c:309-320, with `zTri3DListAlign` and `zTri3DListCopyArray`,
src/zeo_elem3d_list.c:28-47: the faces of the loop, all in the direction of `ref`. -/
def bottom (τ : ℝ) (vert : ℕ → Vec3 ℝ) (L : List ℕ) (ref : Vec3 ℝ) : List (Face ℝ) :=
  (run τ vert (Loop.norm τ (L.map vert)) L.length L).map fun t =>
    if ref.inner (PH.mkFace τ vert t.1 t.2.1 t.2.2).norm < 0 then PH.mkFace τ vert t.1 t.2.2 t.2.1
    else PH.mkFace τ vert t.1 t.2.1 t.2.2

/-- `_zPH3DLoopNext`, src/zeo_ph3d.c:302-306. -/
def next (n i : ℕ) : ℕ := if i + 1 = n then 0 else i + 1

/-- The choice of the orientation of the sides from the first face, src/zeo_ph3d.c:349-354, 389-394: flipped or not;
`none`: the fatal error. -/
def flipped (n : ℕ) (f : Face ℝ) : Option Bool :=
  if f.i1 = next n f.i0 then some true else if f.i2 = next n f.i0 then some false else none

/-- `zTri3DCreate` or `zTri3DCreateFlip`, src/zeo_elem3d.c:192-206. -/
def mk (τ : ℝ) (vert : ℕ → Vec3 ℝ) (flip : Bool) (a b c : ℕ) : Face ℝ :=
  if flip then PH.mkFace τ vert a c b else PH.mkFace τ vert a b c

/-- The sides of a prism, src/zeo_ph3d.c:355-361. -/
def prismSides (τ : ℝ) (vert : ℕ → Vec3 ℝ) (n : ℕ) (flip : Bool) : List (Face ℝ) :=
  (List.range n).flatMap fun i =>
    [mk τ vert flip i (next n i) (next n i + n), mk τ vert flip i (next n i + n) (i + n)]

/-- The vertices of a prism, src/zeo_ph3d.c:333-336. -/
def prismVert (b : List (Vec3 ℝ)) (shift : Vec3 ℝ) (i : ℕ) : Vec3 ℝ :=
  if i < b.length then b.getD i .zero else (b.getD (i - b.length) .zero).add shift

/-- `zPH3DCreatePrism`, src/zeo_ph3d.c:323-372.  With less than three vertices the first face is read though none was
stored.  The faces number exactly what was allocated (`C81_prism_partial`), so that nothing is reallocated. -/
def prism (τ : ℝ) (b : List (Vec3 ℝ)) (shift : Vec3 ℝ) : Except Err (PH ℝ) :=
  let n := b.length
  let vert := prismVert b shift
  match bottom τ vert (List.range n) shift.rev with
  | [] => .error .undef
  | f :: fs =>
    match flipped n f with
    | none => .error .null
    | some flip =>
      .ok ⟨n * 2, vert, f :: fs ++ bottom τ vert (List.range' n n) shift.rev.rev ++ prismSides τ vert n flip⟩

/-- The sides of a pyramid, src/zeo_ph3d.c:395-397. -/
def pyramidSides (τ : ℝ) (vert : ℕ → Vec3 ℝ) (n : ℕ) (flip : Bool) : List (Face ℝ) :=
  (List.range n).map fun i => mk τ vert flip i (next n i) n

/-- The vertices of a pyramid, src/zeo_ph3d.c:382-385. -/
def pyramidVert (b : List (Vec3 ℝ)) (v : Vec3 ℝ) (i : ℕ) : Vec3 ℝ := if i < b.length then b.getD i .zero else v

/-- `zPH3DCreatePyramid`, src/zeo_ph3d.c:374-410. -/
def pyramid (τ : ℝ) (b : List (Vec3 ℝ)) (v : Vec3 ℝ) : Except Err (PH ℝ) :=
  let n := b.length
  let vert := pyramidVert b v
  match bottom τ vert (List.range n) ((vert 0).sub v) with
  | [] => .error .undef
  | f :: fs =>
    match flipped n f with
    | none => .error .null
    | some flip => .ok ⟨n + 1, vert, f :: fs ++ pyramidSides τ vert n flip⟩

end
end Zeo.Sweep
