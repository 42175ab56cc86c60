import Verif.Model.Life
import Verif.Model.PH
import Mathlib.Logic.Equiv.Basic
import Mathlib.Logic.Function.Basic

/-! # Polyhedra in memory

The vertices of a polyhedron are in one block of memory and its faces in another; a face holds three pointers to vertices. Model/PH.lean has
indices in their place, and can neither share vertices nor lose memory. `none` is undefined behaviour. Simplifications: allocation succeeds
and `zArrayAlloc` of ZEDA fills memory with zeros; the normals of the faces, functions of their vertices, are left out. -/

namespace Zeo.MemPH
open Life (Ptr)
noncomputable section
open Classical

/-- A pointer to a vertex: null, or an element of a block. -/
abbrev VPtr := Option (ℕ × ℕ)
/-- The pointers of `zTri3D`, include/zeo/zeo_elem3d.h:236-239. -/
abbrev FaceM := Fin 3 → VPtr

/-- Memory: live blocks, a bound on the blocks ever given, and what is in those of vertices and of faces. -/
structure Mem where
  live : Finset ℕ
  next : ℕ
  vbuf : ℕ → List (Vec3 ℝ)
  fbuf : ℕ → List FaceM

/-- `zPH3D`, include/zeo/zeo_ph3d.h:18-20: two arrays, each a size and a buffer. -/
structure Obj where
  nv : ℕ
  vert : Ptr
  nf : ℕ
  face : Ptr

/-- `zFree` of ZEDA. -/
def Mem.free (m : Mem) : Ptr → Option Mem
  | .wild => none
  | .null => some m
  | .blk b => if b ∈ m.live then some { m with live := m.live.erase b } else none

/-- `zPH3DInit`, src/zeo_ph3d.c:11-16. -/
def init : Obj := ⟨0, .null, 0, .null⟩

/-- `zPH3DAllocVert`, src/zeo_ph3d.c:19-23. -/
def allocVert (n : ℕ) (p : Obj) (m : Mem) : Obj × Mem :=
  ({ p with nv := n, vert := .blk m.next },
   { m with live := insert m.next m.live, next := m.next + 1, vbuf := Function.update m.vbuf m.next (List.replicate n .zero) })
/-- `zPH3DAllocFace`, src/zeo_ph3d.c:26-30. -/
def allocFace (n : ℕ) (p : Obj) (m : Mem) : Obj × Mem :=
  ({ p with nf := n, face := .blk m.next },
   { m with live := insert m.next m.live, next := m.next + 1, fbuf := Function.update m.fbuf m.next (List.replicate n fun _ => none) })
/-- `zPH3DAlloc`, src/zeo_ph3d.c:33-48. -/
def alloc (nv nf : ℕ) (m : Mem) : Obj × Mem :=
  let a := if 0 < nv then allocVert nv init m else (init, m)
  if 0 < nf then allocFace nf a.1 a.2 else a

/-- `zPH3DDestroy`, src/zeo_ph3d.c:51-57. -/
def destroy (p : Obj) (m : Mem) : Option (Obj × Mem) :=
  (m.free p.vert).bind fun m => (m.free p.face).map fun m => (init, m)

/-- The first loop of `zPH3DClone`, src/zeo_ph3d.c:66-67. -/
def copyVert (src dest : Obj) (m : Mem) : Option Mem :=
  if src.nv = 0 then some m
  else match src.vert, dest.vert with
    | .blk s, .blk t =>
      if s ∈ m.live ∧ src.nv ≤ (m.vbuf s).length then some { m with vbuf := Function.update m.vbuf t ((m.vbuf s).take src.nv) } else none
    | _, _ => none
/-- The second loop of `zPH3DClone`, src/zeo_ph3d.c:68-72. A difference of pointers is defined within one array. -/
def copyFace (src dest : Obj) (m : Mem) : Option Mem :=
  if src.nf = 0 then some m
  else match src.vert, dest.vert, src.face, dest.face with
    | .blk s, .blk t, .blk u, .blk w =>
      if u ∈ m.live ∧ src.nf ≤ (m.fbuf u).length ∧ ∀ f ∈ (m.fbuf u).take src.nf, ∀ j, ∃ i < src.nv, f j = some (s, i) then
        some { m with fbuf := Function.update m.fbuf w (((m.fbuf u).take src.nf).map fun f j => (f j).map fun q => (t, q.2)) }
      else none
    | _, _, _, _ => none
/-- `zPH3DClone`, src/zeo_ph3d.c:60-74, into another polyhedron. -/
def clone (src : Obj) (m : Mem) : Option (Obj × Mem) :=
  let a := alloc src.nv src.nf m
  (copyVert src a.1 a.2).bind fun m => (copyFace src a.1 m).map fun m => (a.1, m)
/-- `zPH3DClone(p,p)`: after the allocation the source is the new polyhedron as well. -/
def cloneSelf (p : Obj) (m : Mem) : Option (Obj × Mem) :=
  let a := alloc p.nv p.nf m
  (copyVert a.1 a.1 a.2).bind fun m => (copyFace a.1 a.1 m).map fun m => (a.1, m)

/-- A loop over the vertices that replaces each by its image, as in `zPH3DMirror` (src/zeo_ph3d.c:82-83) and `zPH3DScaleDRC` (97-98). -/
def mapVert (g : Vec3 ℝ → Vec3 ℝ) (p : Obj) (m : Mem) : Mem :=
  match p.vert with
  | .blk b => { m with vbuf := Function.update m.vbuf b ((m.vbuf b).map g) }
  | _ => m
/-- A loop over the faces that exchanges the second and the third vertex, as in `zPH3DMirror` (src/zeo_ph3d.c:84-85) and `zPH3DFlipDRC`
(src/zeo_ph3d.c:110-117 with `zTri3DFlip`, src/zeo_elem3d.c:209-212). -/
def swapFace (p : Obj) (m : Mem) : Mem :=
  match p.face with
  | .blk b => { m with fbuf := Function.update m.fbuf b ((m.fbuf b).map fun f j => f (Equiv.swap 1 2 j)) }
  | _ => m

/-- `zPH3DMirror`, src/zeo_ph3d.c:77-90. -/
def mirror (src : Obj) (axis : Fin 3) (m : Mem) : Option (Obj × Mem) :=
  (clone src m).map fun r => (r.1, swapFace r.1 (mapVert (fun v => PH.flipE v axis) r.1 r.2))
/-- `zPH3DScale`, src/zeo_ph3d.c:103-107. -/
def scale (src : Obj) (k : ℝ) (m : Mem) : Option (Obj × Mem) := (clone src m).map fun r => (r.1, mapVert (fun v => v.mul k) r.1 r.2)
/-- `zPH3DFlip`, src/zeo_ph3d.c:120-124. -/
def flip (src : Obj) (m : Mem) : Option (Obj × Mem) := (clone src m).map fun r => (r.1, swapFace r.1 r.2)

/-- `zPH3DXform`, src/zeo_ph3d.c:127-136: the number of vertices is that of the destination, which may be the source. -/
def xform (src : Obj) (f : Frame3 ℝ) (dest : Obj) (m : Mem) : Option Mem :=
  if dest.nv = 0 then some m
  else match src.vert, dest.vert with
    | .blk s, .blk t =>
      if s ∈ m.live ∧ t ∈ m.live ∧ dest.nv ≤ (m.vbuf s).length ∧ dest.nv ≤ (m.vbuf t).length then
        some { m with vbuf := Function.update m.vbuf t (((m.vbuf s).take dest.nv).map f.xform ++ (m.vbuf t).drop dest.nv) }
      else none
    | _, _ => none

end
end Zeo.MemPH
