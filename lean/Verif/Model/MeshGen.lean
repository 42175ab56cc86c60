import Verif.Model.PH
import Verif.Model.Shape

/-! # Generation of meshes: the `*ToPH` conversions and the swept solids of src/zeo_ph3d.c

Each generator allocates a number of vertices and faces and then fills the face buffer in order. The model
of a generator is the pair of allocated sizes and the list of index triples in the order in which the loops
write them. Division counts are natural numbers (the code has `int`; non-positive counts allocate nothing). -/

namespace Zeo.Gen

/-- Sizes passed to `zPH3DAlloc` and the faces written. -/
structure Mesh where
  nv : ℕ
  nf : ℕ
  face : List (ℕ × ℕ × ℕ)

/-- The loop `for( i=lo, j=lo+n-1; i<lo+n; j=i++ )`: the successive values of `(i, j)`. -/
def ring (lo n : ℕ) : List (ℕ × ℕ) := (List.range n).map fun t => (lo + t, if t = 0 then lo + n - 1 else lo + t - 1)

/-- `__zBox3DToPH_tri`, src/zeo_shape3d_box.c:9-12. -/
def quad (i1 i2 i3 i4 : ℕ) : List (ℕ × ℕ × ℕ) := [(i1, i2, i3), (i1, i3, i4)]
/-- `zBox3DToPH`, src/zeo_shape3d_box.c:15-29. -/
def box : Mesh :=
  ⟨8, 12, quad 0 1 2 3 ++ quad 0 4 5 1 ++ quad 1 5 6 2 ++ quad 2 6 7 3 ++ quad 0 3 7 4 ++ quad 7 6 5 4⟩

/-- One row of general faces of `zSphere3DToPH`, src/zeo_shape3d_sphere.c:45-50: `k` starts at
`(i-1)*div+1`, `l` is the previous `k` (cyclically). -/
def sphereRow (div i : ℕ) : List (ℕ × ℕ × ℕ) :=
  (ring ((i - 1) * div + 1) div).flatMap fun p => [(p.2, p.1, p.1 - div), (p.2, p.1 - div, p.2 - div)]
/-- Arctic and general faces of `zSphere3DToPH`, src/zeo_shape3d_sphere.c:40-50. -/
def sphereUpper (div : ℕ) : List (ℕ × ℕ × ℕ) :=
  ((ring 1 div).map fun p => (0, p.1, p.2)) ++ (List.range' 2 (div - 2)).flatMap (sphereRow div)
/-- `zSphere3DToPH`, src/zeo_shape3d_sphere.c:11-58, and `zEllips3DToPH`, src/zeo_shape3d_ellips.c:192-241
(identical face loops). The antarctic loop runs while `n < zPH3DFaceNum(ph)`. -/
def sphere (div : ℕ) : Mesh :=
  let nv := div * (div - 1) + 2
  let nf := div * (div - 1) * 2
  let u := sphereUpper div
  ⟨nv, nf, u ++ (List.range (nf - u.length)).map fun t =>
    (nv - div - 1 + t, nv - 1, if t = 0 then nv - 2 else nv - div - 1 + t - 1)⟩

/-- `zCyl3DToPH`, src/zeo_shape3d_cyl.c:187, 211-224, and `zECyl3DToPH`, src/zeo_shape3d_ecyl.c:216, 239-252. -/
def cyl (div : ℕ) : Mesh :=
  ⟨div * 2, (div - 1) * 4,
   ((List.range' 2 (div - 2)).map fun i => (0, i, i - 1)) ++
   ((ring 0 div).flatMap fun p => [(p.2, p.1, p.1 + div), (p.2, p.1 + div, p.2 + div)]) ++
   ((List.range' div (div - 2)).map fun i => (div * 2 - 1, i, i + 1))⟩

/-- `zCone3DToPH`, src/zeo_shape3d_cone.c:207, 228-235. -/
def cone (div : ℕ) : Mesh :=
  ⟨div + 1, div * 2 - 2,
   ((ring 1 div).map fun p => (0, p.2, p.1)) ++ ((List.range' 3 (div - 2)).map fun i => (1, i, i - 1))⟩

/-- One row of general faces of `zCapsule3DToPH`, src/zeo_shape3d_capsule.c:170-175. -/
def capsuleRow (div i : ℕ) : List (ℕ × ℕ × ℕ) :=
  (ring 1 div).flatMap fun p =>
    let n1 := div * i + p.2
    let n2 := div * i + p.1
    let n4 := n1 - div
    let n3 := n2 - div
    [(n1, n3, n4), (n1, n2, n3)]
/-- `zCapsule3DToPH`, src/zeo_shape3d_capsule.c:121, 163-180. In the last loop `j` counts down from `div+1`
to 2 and `j2` is the previous `j` (first 2). -/
def capsule (div : ℕ) : Mesh :=
  let nv := div * div / 2 + 2
  ⟨nv, div * div,
   ((ring 1 div).map fun p => (0, p.2, p.1)) ++
   ((List.range' 1 (div / 4 * 2 - 1)).flatMap (capsuleRow div)) ++
   ((List.range div).map fun t => (nv - 1, nv - (div + 1 - t), nv - (if t = 0 then 2 else div + 1 - t + 1)))⟩
/-- Number of vertices the loops of `zCapsule3DToPH` assign, src/zeo_shape3d_capsule.c:136-161. -/
def capsuleAssigned (div : ℕ) : ℕ := 2 * (div / 4) * div + 2

/-- `zPH3DCreateTorus`, src/zeo_ph3d.c:418-446, before the facet direction correction. Face `2*k`, `2*k+1` for
`k = i*div+j` are written in order of increasing `k`. -/
def torus (n div : ℕ) : Mesh :=
  ⟨n * div, 2 * n * div,
   (ring 0 n).flatMap fun p => (ring 0 div).flatMap fun q =>
    [(p.1 * div + q.1, p.2 * div + q.1, p.2 * div + q.2), (p.1 * div + q.1, p.2 * div + q.2, p.1 * div + q.2)]⟩

/-- `zPH3DCreateLathe`, src/zeo_ph3d.c:449-488, before the facet direction correction. The cap loop writes face
`k` and face `k+div-2` in each pass, so the caps follow each other in the buffer. -/
def lathe (n div : ℕ) : Mesh :=
  ⟨n * div, 2 * (n - 1) * div + 2 * (div - 2),
   ((List.range (n - 1)).flatMap fun i0 => (ring 0 div).flatMap fun q =>
    [(i0 * div + q.1, i0 * div + q.2, (i0 + 1) * div + q.2), (i0 * div + q.1, (i0 + 1) * div + q.2, (i0 + 1) * div + q.1)]) ++
   ((List.range' 2 (div - 2)).map fun j => (0, j - 1, j)) ++
   ((List.range' 2 (div - 2)).map fun j => ((n - 1) * div, (n - 1) * div + j - 1, (n - 1) * div + j))⟩

/-- The facet direction correction of src/zeo_ph3d.c:442-444, 484-486 on the index triples (`zTri3DFlip`
exchanges the last two vertices, src/zeo_elem3d.c:209-212). -/
def flip (fs : List (ℕ × ℕ × ℕ)) : List (ℕ × ℕ × ℕ) := fs.map fun f => (f.1, f.2.2, f.2.1)

/-! ## Polyhedra with geometry -/

noncomputable section

/-- The polyhedron with the given vertices and mesh; faces are made by `zTri3DCreate` after all vertices. -/
def toPH (τ : ℝ) (m : Mesh) (vert : ℕ → Vec3 ℝ) : PH ℝ := ⟨m.nv, vert, m.face.map fun f => PH.mkFace τ vert f.1 f.2.1 f.2.2⟩

/-- `zBox3DToPH`, src/zeo_shape3d_box.c:15-29. -/
def boxPH (τ : ℝ) (b : Box3 ℝ) : PH ℝ := toPH τ box b.vert

/-- Vertices of `zSphere3DToPH`, src/zeo_shape3d_sphere.c:25-37, with `zVec3DCreatePolar`, src/zeo_vec3d.c:30-37. -/
def sphereVert (s : Sphere3 ℝ) (div n : ℕ) : Vec3 ℝ :=
  if n = 0 then ⟨s.center.x, s.center.y, s.center.z + s.radius⟩
  else if n = div * (div - 1) + 1 then ⟨s.center.x, s.center.y, s.center.z - s.radius⟩
  else
    let i := (n - 1) / div + 1
    let j := (n - 1) % div
    let a := Real.pi * i / div
    let t := 2 * Real.pi * j / div
    let rs := s.radius * Real.sin a
    Vec3.add ⟨rs * Real.cos t, rs * Real.sin t, s.radius * Real.cos a⟩ s.center
/-- `zSphere3DToPH`, src/zeo_shape3d_sphere.c:11-58. -/
def spherePH (τ : ℝ) (s : Sphere3 ℝ) (div : ℕ) : PH ℝ := toPH τ (sphere div) (sphereVert s div)

/-- The radial vector `r` of src/zeo_shape3d_cyl.c:204-205 and src/zeo_shape3d_cone.c:222-223: `s` turned by
`2π i/div` about the unit axis `d` (`none` if `zVec3DRot` failed). -/
def rim (τ : ℝ) (d s : Vec3 ℝ) (div i : ℕ) : Option (Vec3 ℝ) := Vec3.rot τ s (d.mul (2 * Real.pi * i / div))
/-- Vertices of `zCyl3DToPH`, src/zeo_shape3d_cyl.c:193-210; `none`: the routine fails. -/
def cylVert (τ : ℝ) (c : Cyl ℝ) (div n : ℕ) : Option (Vec3 ℝ) :=
  let d := c.c1.sub c.c0
  let u := (Vec3.normalize τ d d).2
  let s := (Vec3.orthonormal τ u).2.mul c.radius
  (rim τ u s div (if n < div then n else n - div)).map fun r => if n < div then c.c0.add r else c.c1.add r
/-- Vertices of `zCone3DToPH`, src/zeo_shape3d_cone.c:212-225. -/
def coneVert (τ : ℝ) (c : Cone ℝ) (div n : ℕ) : Option (Vec3 ℝ) :=
  let d := c.vert.sub c.center
  let u := (Vec3.normalize τ d d).2
  let s := (Vec3.orthonormal τ u).2.mul c.radius
  if n = 0 then some c.vert else (rim τ u s div (n - 1)).map fun r => c.center.add r

/-- Vertex `k = i*div+j` of `zPH3DCreateTorus`, src/zeo_ph3d.c:424-429. -/
def torusVert (τ : ℝ) (loop : ℕ → Vec3 ℝ) (center axis : Vec3 ℝ) (div k : ℕ) : Option (Vec3 ℝ) :=
  (Vec3.rot τ ((loop (k / div)).sub center) (axis.mul (2 * Real.pi * (k % div : ℕ) / div))).map fun v => v.add center
/-- One pass of the inner loop of `zPH3DCreateTorus`, src/zeo_ph3d.c:426-435: vertex `k` is written, then two
faces are created, each with the normal computed from what the vertex buffer holds at that moment. -/
def torusStep (τ : ℝ) (div : ℕ) (vtx : ℕ → Vec3 ℝ) (st : (ℕ → Vec3 ℝ) × List (Face ℝ)) (pq : (ℕ × ℕ) × (ℕ × ℕ)) :
    (ℕ → Vec3 ℝ) × List (Face ℝ) :=
  let k := pq.1.1 * div + pq.2.1
  let buf := Function.update st.1 k (vtx k)
  (buf, st.2 ++ [PH.mkFace τ buf k (pq.1.2 * div + pq.2.1) (pq.1.2 * div + pq.2.2),
    PH.mkFace τ buf k (pq.1.2 * div + pq.2.2) (pq.1.1 * div + pq.2.2)])
/-- The loop indices `((i,i0),(j,j0))` of src/zeo_ph3d.c:423-425 in order. -/
def torusIdx (n div : ℕ) : List ((ℕ × ℕ) × (ℕ × ℕ)) := (ring 0 n).flatMap fun p => (ring 0 div).map fun q => (p, q)
/-- The polyhedron before the facet direction correction; `junk` is the vertex buffer as allocated. -/
def torusRaw (τ : ℝ) (n div : ℕ) (vtx junk : ℕ → Vec3 ℝ) : PH ℝ :=
  let st := (torusIdx n div).foldl (torusStep τ div vtx) (junk, [])
  ⟨n * div, st.1, st.2⟩
open Classical in
/-- `zPH3DCreateTorus`, src/zeo_ph3d.c:417-443. -/
def torusPH (τ : ℝ) (n div : ℕ) (vtx junk : ℕ → Vec3 ℝ) : PH ℝ :=
  let ph := torusRaw τ n div vtx junk
  if ph.volume < 0 then ph.flipDRC τ else ph

end
end Zeo.Gen
