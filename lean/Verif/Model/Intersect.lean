import Verif.Model.Elem
import Verif.Model.Box

/-! # Intersections of edges, triangles, planes, axis-aligned boxes and spheres

src/zeo_col.c:9-38, 69-164, src/zeo_col_box.c:11-205, 305-319.

A function that fills the caller's array `ip[]` and returns the number of points is modelled by the list
of the points, in the order they are written: the length is the return value and the number of array
elements the call writes to.  `τ` is `zTOL`. -/

namespace Zeo
noncomputable section
open Classical

/-- `zColChkEdgePlane3D`, src/zeo_col.c:10-18; the edge is given by its two vertices. -/
def colChkEdgePlane (e0 e1 : Vec3 ℝ) (pl : Plane3 ℝ) : Prop :=
  (e0.sub pl.org).inner pl.norm * (e1.sub pl.org).inner pl.norm ≤ 0

/-- `zIntersectEdgePlane3D`, src/zeo_col.c:21-38; `zEdge3DVec` is the difference of the vertices
(`zEdge3DCreate`, include/zeo/zeo_elemxd.h:131-144). -/
def intersectEdgePlane (τ : ℝ) (e0 e1 : Vec3 ℝ) (pl : Plane3 ℝ) : List (Vec3 ℝ) :=
  if ¬ colChkEdgePlane e0 e1 pl then []
  else
    let v := pl.org.sub e0
    let d := (e1.sub e0).inner pl.norm
    if zIsTol d τ then [e0, e1]
    else [e0.add ((e1.sub e0).mul (v.inner pl.norm / d))]

/-- `zColChkTriPlane3D`, src/zeo_col.c:70-80. -/
def colChkTriPlane (v0 v1 v2 : Vec3 ℝ) (pl : Plane3 ℝ) : Prop :=
  colChkEdgePlane v0 v1 pl ∨ colChkEdgePlane v1 v2 pl ∨ colChkEdgePlane v2 v0 pl

/-- The search loop that appends a point unless `zVec3DEqual` holds with an earlier one,
src/zeo_col.c:94-97, 150-153, 158-161. -/
def addNew (τ : ℝ) (ip : List (Vec3 ℝ)) (v : Vec3 ℝ) : List (Vec3 ℝ) :=
  if ∃ q ∈ ip, Vec3.equal τ v q then ip else ip ++ [v]

/-- `zIntersectTriPlane3D`, src/zeo_col.c:83-101. -/
def intersectTriPlane (τ : ℝ) (v0 v1 v2 : Vec3 ℝ) (pl : Plane3 ℝ) : List (Vec3 ℝ) :=
  (intersectEdgePlane τ v2 v0 pl).foldl (addNew τ)
    ((intersectEdgePlane τ v1 v2 pl).foldl (addNew τ)
      ((intersectEdgePlane τ v0 v1 pl).foldl (addNew τ) []))

/-- `zTri3DToPlane3D`, include/zeo/zeo_elem3d.h:317 (`none` = NULL, the plane is untouched). -/
def Tri3.toPlane (τ : ℝ) (t : Tri3 ℝ) : Option (Plane3 ℝ) := Plane3.create τ t.v0 t.norm

/-- `zIntersectEdgeTri3D`, src/zeo_col.c:112-125. -/
def intersectEdgeTri (τ : ℝ) (e0 e1 : Vec3 ℝ) (t : Tri3 ℝ) : List (Vec3 ℝ) :=
  match t.toPlane τ with
  | none => []
  | some pl => (intersectEdgePlane τ e0 e1 pl).filter fun v => decide (Tri3.pointIsInside τ t.v0 t.v1 t.v2 v τ)
/-- `zColChkEdgeTri3D`, src/zeo_col.c:104-109. -/
def colChkEdgeTri (τ : ℝ) (e0 e1 : Vec3 ℝ) (t : Tri3 ℝ) : Prop := 0 < (intersectEdgeTri τ e0 e1 t).length

/-- The points of one triangle that are kept by `zIntersectTri3D`, src/zeo_col.c:147-154 and 155-162. -/
def keepInside (τ : ℝ) (t : Tri3 ℝ) (ip pts : List (Vec3 ℝ)) : List (Vec3 ℝ) :=
  pts.foldl (fun ip v => if ¬ Tri3.pointIsInside τ t.v0 t.v1 t.v2 v τ then ip else addNew τ ip v) ip

/-- The two local arrays `v[0]`, `v[1]` of `zIntersectTri3D`, src/zeo_col.c:143-146.  `none`: the plane of
the second triangle could not be made and is uninitialised.  When only the first triangle has no plane the
variable still holds the plane of the second one. -/
def triCuts (τ : ℝ) (t1 t2 : Tri3 ℝ) : Option (List (Vec3 ℝ) × List (Vec3 ℝ)) :=
  (t2.toPlane τ).map fun pl2 =>
    (intersectTriPlane τ t1.v0 t1.v1 t1.v2 pl2, intersectTriPlane τ t2.v0 t2.v1 t2.v2 ((t1.toPlane τ).getD pl2))
/-- `zIntersectTri3D`, src/zeo_col.c:136-164.  The local arrays hold three points each; that they are not
overrun is a separate question (`triCuts`). -/
def intersectTri (τ : ℝ) (t1 t2 : Tri3 ℝ) : Option (List (Vec3 ℝ)) :=
  (triCuts τ t1 t2).map fun c => keepInside τ t1 (keepInside τ t2 [] c.1) c.2
/-- `zColChkTri3D`, src/zeo_col.c:128-133: (result, points written to the local array `ip[2]`). -/
def colChkTri (τ : ℝ) (t1 t2 : Tri3 ℝ) : Option (Prop × ℕ) :=
  (intersectTri τ t1 t2).map fun l => (0 < l.length, l.length)

/-! ## Axis-aligned boxes -/

/-- `_zIntersectPlaneAABox3DEdge`, src/zeo_col_box.c:12-30. -/
def planeBoxEdge (τ : ℝ) (pl : Plane3 ℝ) (axis : Fin 3) (w1min w1max w2 w3 : ℝ) : List (Vec3 ℝ) :=
  if zIsTol (pl.norm.e axis) τ then []
  else
    let w1 := (pl.norm.inner pl.org - pl.norm.e (axis + 1) * w2 - pl.norm.e (axis + 2) * w3) / pl.norm.e axis
    if w1 > w1min ∧ w1 < w1max then [((Vec3.zero.setE axis w1).setE (axis + 1) w2).setE (axis + 2) w3]
    else []

/-- `zIntersectPlaneAABox3D`, src/zeo_col_box.c:60-84. -/
def intersectPlaneBox (τ : ℝ) (pl : Plane3 ℝ) (b : AABox3 ℝ) : List (Vec3 ℝ) :=
  planeBoxEdge τ pl 0 b.min.x b.max.x b.min.y b.min.z ++ planeBoxEdge τ pl 0 b.min.x b.max.x b.max.y b.min.z ++
  planeBoxEdge τ pl 0 b.min.x b.max.x b.max.y b.max.z ++ planeBoxEdge τ pl 0 b.min.x b.max.x b.min.y b.max.z ++
  planeBoxEdge τ pl 1 b.min.y b.max.y b.min.z b.min.x ++ planeBoxEdge τ pl 1 b.min.y b.max.y b.max.z b.min.x ++
  planeBoxEdge τ pl 1 b.min.y b.max.y b.max.z b.max.x ++ planeBoxEdge τ pl 1 b.min.y b.max.y b.min.z b.max.x ++
  planeBoxEdge τ pl 2 b.min.z b.max.z b.min.x b.min.y ++ planeBoxEdge τ pl 2 b.min.z b.max.z b.max.x b.min.y ++
  planeBoxEdge τ pl 2 b.min.z b.max.z b.max.x b.max.y ++ planeBoxEdge τ pl 2 b.min.z b.max.z b.min.x b.max.y

/-- `zColChkPlaneAABox3D`, src/zeo_col_box.c:33-57. -/
def colChkPlaneBox (τ : ℝ) (pl : Plane3 ℝ) (b : AABox3 ℝ) : Prop :=
  0 < (planeBoxEdge τ pl 0 b.min.x b.max.x b.min.y b.min.z).length ∨ 0 < (planeBoxEdge τ pl 0 b.min.x b.max.x b.max.y b.min.z).length ∨
  0 < (planeBoxEdge τ pl 0 b.min.x b.max.x b.max.y b.max.z).length ∨ 0 < (planeBoxEdge τ pl 0 b.min.x b.max.x b.min.y b.max.z).length ∨
  0 < (planeBoxEdge τ pl 1 b.min.y b.max.y b.min.z b.min.x).length ∨ 0 < (planeBoxEdge τ pl 1 b.min.y b.max.y b.max.z b.min.x).length ∨
  0 < (planeBoxEdge τ pl 1 b.min.y b.max.y b.max.z b.max.x).length ∨ 0 < (planeBoxEdge τ pl 1 b.min.y b.max.y b.min.z b.max.x).length ∨
  0 < (planeBoxEdge τ pl 2 b.min.z b.max.z b.min.x b.min.y).length ∨ 0 < (planeBoxEdge τ pl 2 b.min.z b.max.z b.max.x b.min.y).length ∨
  0 < (planeBoxEdge τ pl 2 b.min.z b.max.z b.max.x b.max.y).length ∨ 0 < (planeBoxEdge τ pl 2 b.min.z b.max.z b.min.x b.max.y).length

/-- `_zColChkTriAABox3DEdgeAxOne`, src/zeo_col_box.c:87-109: the point stored in `*ip` when the result is
true.  When both ends are on the plane of the face the quotients are 0/0 and all comparisons fail. -/
def triBoxEdgeAxOne (v1 v2 : Vec3 ℝ) (axis : Fin 3) (p : Vec3 ℝ) (b : AABox3 ℝ) : Option (Vec3 ℝ) :=
  let d1 := v1.e axis - p.e axis
  let d2 := v2.e axis - p.e axis
  if (d1 > 0 ∧ d2 > 0) ∨ (d1 < 0 ∧ d2 < 0) then none
  else if d2 - d1 = 0 then none
  else
    let s1 := v1.e (axis + 1) - (v2.e (axis + 1) - v1.e (axis + 1)) * d1 / (d2 - d1)
    let s2 := v1.e (axis + 2) - (v2.e (axis + 2) - v1.e (axis + 2)) * d1 / (d2 - d1)
    if s1 > b.min.e (axis + 1) ∧ s1 < b.max.e (axis + 1) ∧ s2 > b.min.e (axis + 2) ∧ s2 < b.max.e (axis + 2) then
      some (((Vec3.zero.setE axis (p.e axis)).setE (axis + 1) s1).setE (axis + 2) s2)
    else none

/-- `_zIntersectTriAABox3DEdgeAx`, src/zeo_col_box.c:156-168 (and `_zColChkTriAABox3DEdgeAx`, 112-117, which
asks whether the list is non-empty). -/
def triBoxEdgeAx (v1 v2 : Vec3 ℝ) (axis : Fin 3) (b : AABox3 ℝ) : List (Vec3 ℝ) :=
  (triBoxEdgeAxOne v1 v2 axis b.min b).toList ++ (triBoxEdgeAxOne v1 v2 axis b.max b).toList
/-- `_zIntersectTriAABox3DEdge`, src/zeo_col_box.c:171-177 (and `_zColChkTriAABox3DEdge`, 120-125). -/
def triBoxEdge (v1 v2 : Vec3 ℝ) (b : AABox3 ℝ) : List (Vec3 ℝ) :=
  triBoxEdgeAx v1 v2 0 b ++ triBoxEdgeAx v1 v2 1 b ++ triBoxEdgeAx v1 v2 2 b
/-- `_zIntersectTriAABox3DPlane`, src/zeo_col_box.c:180-192 (and `_zColChkTriAABox3DPlane`, 128-139).
`none`: the triangle has no plane and the variable is uninitialised. -/
def triBoxPlane (τ : ℝ) (t : Tri3 ℝ) (b : AABox3 ℝ) : Option (List (Vec3 ℝ)) :=
  (t.toPlane τ).map fun pl =>
    (intersectPlaneBox τ pl b).filter fun v => decide (Tri3.pointIsInside τ t.v0 t.v1 t.v2 v (-τ))

/-- `zColChkTriAABox3D`, src/zeo_col_box.c:142-153 (`none` as in `triBoxPlane`). -/
def colChkTriBox (τ : ℝ) (t : Tri3 ℝ) (b : AABox3 ℝ) : Option Prop :=
  if b.pointIsInside t.v0 (-τ) ∨ b.pointIsInside t.v1 (-τ) ∨ b.pointIsInside t.v2 (-τ) then some True
  else if triBoxEdge t.v0 t.v1 b ≠ [] ∨ triBoxEdge t.v1 t.v2 b ≠ [] ∨ triBoxEdge t.v2 t.v0 b ≠ [] then some True
  else (triBoxPlane τ t b).map fun l => l ≠ []
/-- `zIntersectTriAABox3D`, src/zeo_col_box.c:195-204. -/
def intersectTriBox (τ : ℝ) (t : Tri3 ℝ) (b : AABox3 ℝ) : Option (List (Vec3 ℝ)) :=
  (triBoxPlane τ t b).map fun l => triBoxEdge t.v0 t.v1 b ++ triBoxEdge t.v1 t.v2 b ++ triBoxEdge t.v2 t.v0 b ++ l

/-- `zColChkSphereAABox3D`, src/zeo_col_box.c:310-313. -/
def colChkSphereAABox (s : Sphere3 ℝ) (b : AABox3 ℝ) : Prop := b.distFromPoint s.center < s.radius
/-- `zColChkSphereBox3D`, src/zeo_col_box.c:316-319. -/
def colChkSphereBox (s : Sphere3 ℝ) (b : Box3 ℝ) : Prop := b.distFromPoint s.center < s.radius

end
end Zeo
