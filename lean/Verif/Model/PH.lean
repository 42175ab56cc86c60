import Verif.Model.Elem
import Verif.Model.Box

/-! # Polyhedra: include/zeo/zeo_ph3d.h, src/zeo_ph3d.c

A face (`zTri3D`) holds three pointers into the vertex buffer of the polyhedron and a normal. The model
keeps the three offsets from the start of the buffer. Allocations succeed. -/

namespace Zeo

/-- A face of a polyhedron: `zTri3D` with vertices in the vertex buffer, include/zeo/zeo_elem3d.h:236-239. -/
@[ext] structure Face (K : Type*) where
  i0 : ℕ
  i1 : ℕ
  i2 : ℕ
  norm : Vec3 K

/-- `zPH3D`, include/zeo/zeo_ph3d.h:18-21: `nv` vertices, buffer `vert` (meaningful below `nv`), faces. -/
structure PH (K : Type*) where
  nv : ℕ
  vert : ℕ → Vec3 K
  face : List (Face K)

namespace PH
section
variable {K : Type*} [Field K]

/-- The face as a triangle: `zPH3DFace`, include/zeo/zeo_ph3d.h:86. -/
def tri (ph : PH K) (f : Face K) : Tri3 K := ⟨ph.vert f.i0, ph.vert f.i1, ph.vert f.i2, f.norm⟩
/-- `zTri3DConeVolume( zPH3DFace(ph,i), ZVEC3DZERO )`, src/zeo_ph3d.c:223, 236. -/
def coneVolume (ph : PH K) (f : Face K) : K :=
  Tri3.coneVolume (ph.vert f.i0) (ph.vert f.i1) (ph.vert f.i2) .zero
/-- `zPH3DVolume`, src/zeo_ph3d.c:217-225. -/
def volume (ph : PH K) : K := ph.face.foldl (fun v f => v + ph.coneVolume f) 0
/-- One iteration of the loop of `zPH3DBarycenter`, src/zeo_ph3d.c:236-240, on (`vol`, `*c`). -/
def baryStep (ph : PH K) (s : K × Vec3 K) (f : Face K) : K × Vec3 K :=
  (s.1 + ph.coneVolume f,
   s.2.add ((Tri3.coneBarycenter (ph.vert f.i0) (ph.vert f.i1) (ph.vert f.i2) .zero).mul (ph.coneVolume f)))
/-- `zPH3DBarycenter`, src/zeo_ph3d.c:228-244: the result of the final `zVec3DDivDRC` is ignored, so a
zero volume leaves the sum undivided. -/
def barycenter [DecidableEq K] (ph : PH K) : Vec3 K :=
  let s := ph.face.foldl ph.baryStep (0, .zero)
  (s.2.div s.1 s.2).2
/-- One iteration of the loop of `zPH3DInertia`, src/zeo_ph3d.c:254-255. -/
def inertiaStep (ph : PH K) (density : K) (m : Mat3 K) (f : Face K) : Mat3 K :=
  m.add (Tri3.coneInertia (ph.vert f.i0) (ph.vert f.i1) (ph.vert f.i2) density)
/-- `zPH3DInertia`, src/zeo_ph3d.c:247-258. -/
def inertia (ph : PH K) (density : K) : Mat3 K := ph.face.foldl (ph.inertiaStep density) .zero
/-- `zPH3DInertiaMass`, src/zeo_ph3d.c:261-264: `none` for the division by a zero volume. -/
def inertiaMass [DecidableEq K] (ph : PH K) (mass : K) : Option (Mat3 K) :=
  if ph.volume = 0 then none else some (ph.inertia (mass / ph.volume))
/-- `zPH3DBaryInertia`, src/zeo_ph3d.c:267-275. -/
def baryInertia [DecidableEq K] (ph : PH K) (density : K) : Mat3 K :=
  (ph.inertia density).catDoubleOuter (density * ph.volume) ph.barycenter
/-- `zPH3DBaryInertiaMass`, src/zeo_ph3d.c:278-286. -/
def baryInertiaMass [DecidableEq K] (ph : PH K) (mass : K) : Option (Mat3 K) :=
  (ph.inertiaMass mass).map fun i => i.catDoubleOuter mass ph.barycenter

/-- `zPH3DScaleDRC`, src/zeo_ph3d.c:92-99: vertices only, normals are kept. -/
def scaleDRC (ph : PH K) (k : K) : PH K :=
  { ph with vert := fun i => if i < ph.nv then (ph.vert i).mul k else ph.vert i }

variable [LinearOrder K]
/-- `zPH3DPointIsInside`, src/zeo_ph3d.c:207-214. -/
def pointIsInside (ph : PH K) (p : Vec3 K) (margin : K) : Prop :=
  ∀ f ∈ ph.face, ¬ (ph.tri f).distFromPointToPlane p ≥ margin
/-- `zPH3DAABB`, src/zeo_ph3d.c:289-297: starts from `zAABox3DInit`, the box at the origin. -/
def aabb (ph : PH K) : AABox3 K := (List.range ph.nv).foldl (fun b i => b.enlarge (ph.vert i)) .init
end

noncomputable section

/-- `zTri3DCreate` on three vertices of the buffer, src/zeo_elem3d.c:192-200. -/
def mkFace (τ : ℝ) (vert : ℕ → Vec3 ℝ) (a b c : ℕ) : Face ℝ :=
  ⟨a, b, c, (Tri3.create τ (vert a) (vert b) (vert c)).2.norm⟩
/-- `zPH3DClone`, src/zeo_ph3d.c:60-74. -/
def clone (τ : ℝ) (src : PH ℝ) : PH ℝ :=
  { src with face := src.face.map fun f => mkFace τ src.vert f.i0 f.i1 f.i2 }
/-- Coordinate flip `e[axis] *= -1`, src/zeo_ph3d.c:83. -/
def flipE (v : Vec3 ℝ) (axis : Fin 3) : Vec3 ℝ := v.setE axis (v.e axis * -1)
/-- `zPH3DMirror`, src/zeo_ph3d.c:77-90. -/
def mirror (τ : ℝ) (src : PH ℝ) (axis : Fin 3) : PH ℝ :=
  let vert := fun i => if i < src.nv then flipE (src.vert i) axis else src.vert i
  ⟨src.nv, vert, src.face.map fun f => mkFace τ vert f.i0 f.i2 f.i1⟩
/-- `zPH3DScale`, src/zeo_ph3d.c:103-107. -/
def scale (τ : ℝ) (src : PH ℝ) (k : ℝ) : PH ℝ := (clone τ src).scaleDRC k
/-- `zPH3DFlipDRC`, src/zeo_ph3d.c:110-117, with `zTri3DFlip`, src/zeo_elem3d.c:209-212. -/
def flipDRC (τ : ℝ) (ph : PH ℝ) : PH ℝ :=
  { ph with face := ph.face.map fun f => mkFace τ ph.vert f.i0 f.i2 f.i1 }
/-- `zPH3DFlip`, src/zeo_ph3d.c:120-124. -/
def flip (τ : ℝ) (src : PH ℝ) : PH ℝ := flipDRC τ (clone τ src)
/-- `zPH3DXform`, src/zeo_ph3d.c:127-136: the vertex and face counts and the face indices are those of `dest`. -/
def xform (τ : ℝ) (src : PH ℝ) (fr : Frame3 ℝ) (dest : PH ℝ) : PH ℝ :=
  let vert := fun i => if i < dest.nv then fr.xform (src.vert i) else dest.vert i
  ⟨dest.nv, vert, dest.face.map fun f => mkFace τ vert f.i0 f.i1 f.i2⟩
/-- `zPH3DXformInv`, src/zeo_ph3d.c:139-148. -/
def xformInv (τ : ℝ) (src : PH ℝ) (fr : Frame3 ℝ) (dest : PH ℝ) : PH ℝ :=
  let vert := fun i => if i < dest.nv then fr.xformInv (src.vert i) else dest.vert i
  ⟨dest.nv, vert, dest.face.map fun f => mkFace τ vert f.i0 f.i1 f.i2⟩

/-- One iteration of the loop of `zPH3DContigVert`, src/zeo_ph3d.c:162-165, on (index of `v`, `dist_min`). -/
def contigStep (ph : PH ℝ) (p : Vec3 ℝ) (s : ℕ × ℝ) (i : ℕ) : ℕ × ℝ :=
  if (ph.vert i).dist p < s.2 then (i, (ph.vert i).dist p) else s
/-- `zPH3DContigVert`, src/zeo_ph3d.c:151-169: `none` is the NULL return. -/
def contigVert (ph : PH ℝ) (p : Vec3 ℝ) : Option (ℕ × ℝ) :=
  if ph.nv = 0 then none
  else some ((List.range' 1 (ph.nv - 1)).foldl (ph.contigStep p) (0, p.dist (ph.vert 0)))

/-- One iteration of the loop of `zPH3DClosest`, src/zeo_ph3d.c:188-193, on (`dist_min`, `*closestpoint`),
`dist_min = none` is `HUGE_VAL`. A face on which `zTri3DSignedClosest` yields NaN makes both comparisons
false, so the face is skipped. -/
def closestStep (τ : ℝ) (ph : PH ℝ) (p : Vec3 ℝ) (s : Option ℝ × Vec3 ℝ) (f : Face ℝ) : Option ℝ × Vec3 ℝ :=
  match (ph.tri f).signedClosest τ p with
  | none => s
  | some r =>
    if 0 < r.1 then
      match s.1 with
      | none => (some r.1, r.2)
      | some d => if r.1 < d then (some r.1, r.2) else s
    else s
/-- `zPH3DClosest`, src/zeo_ph3d.c:177-196: (return value, `*closestpoint`). -/
def closest (τ : ℝ) (ph : PH ℝ) (p : Vec3 ℝ) : ℝ × Vec3 ℝ :=
  if ph.face = [] then (0, p)
  else
    let s := ph.face.foldl (ph.closestStep τ p) (none, p)
    (s.1.getD 0, s.2)
/-- `zPH3DDistFromPoint`, src/zeo_ph3d.c:200-204. -/
def distFromPoint (τ : ℝ) (ph : PH ℝ) (p : Vec3 ℝ) : ℝ := (ph.closest τ p).1
end
end PH
end Zeo

namespace Zeo.Shape
variable {K : Type*} [Field K]
/-- `zShape3DInertiaMass`, src/zeo_shape3d.c:138-145, of a shape whose class methods return barycenter `c`
and inertia about the barycenter `bary mass`. -/
def inertiaMass (c : Vec3 K) (bary : K → Mat3 K) (mass : K) : Mat3 K := (bary mass).catDoubleOuter (-mass) c
/-- `zShape3DInertia`, src/zeo_shape3d.c:148-157, with class method volume `vol`. -/
def inertia (c : Vec3 K) (vol : K) (bary : K → Mat3 K) (density : K) : Mat3 K :=
  (bary (density * vol)).catDoubleOuter (-(density * vol)) c
end Zeo.Shape
