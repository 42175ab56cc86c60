import Verif.Model.ZTK
import Verif.Model.Box
import Verif.Model.Data
import Verif.Model.BBall
import Verif.Model.Octree

/-! # Shapes of any type, lists of shapes and multiple shapes

`zShape3D` calls through the table `com` of its type; the tables are those of src/zeo_shape3d_box.c:141-160,
src/zeo_shape3d_sphere.c:179-198, src/zeo_shape3d_ellips.c:362-381, src/zeo_shape3d_cyl.c:302-321,
src/zeo_shape3d_ecyl.c:336-355, src/zeo_shape3d_capsule.c:260-279, src/zeo_shape3d_cone.c:323-342 and
src/zeo_shape3d_ph.c:54-73.  `ZTK.Body` is the body together with its type.  NURBS shapes are not modelled.

`solve` is the polynomial solver of the ellipsoid functions, `τ` is `zTOL`, and `junk` stands for the
uninitialised memory in which a frame is built. -/

namespace Zeo.ZTK
noncomputable section
open Classical

/-- `zShape3DClosest`, src/zeo_shape3d.c:96-99: (return value, `*closestpoint`).  `none`: the class method has
no defined result (see `Cone.closest`, `Ellips.closest`, `ECyl.closest`). -/
def Body.closest (solve : List ℝ → List ℂ) (τ : ℝ) (junk : Mat3 ℝ) (b : Body) (p : Vec3 ℝ) : Option (ℝ × Vec3 ℝ) :=
  match b with
  | .box b => some (b.closestD p)
  | .sphere s => some (s.body.closest p)
  | .ellips e => e.body.closest solve τ p
  | .cyl c => some (c.body.closest τ p)
  | .ecyl c => c.body.closest solve τ p junk
  | .capsule c => some (Capsule.closest τ c.body p)
  | .cone c => c.body.closest τ p
  | .ph q => some (q.closest τ p)

/-- `zShape3DDistFromPoint`, src/zeo_shape3d.c:102-105; `zECyl3DDistFromPoint`,
src/zeo_shape3d_ecyl.c:127-132. -/
def Body.distFromPoint (solve : List ℝ → List ℂ) (τ : ℝ) (junk : Mat3 ℝ) (b : Body) (p : Vec3 ℝ) : Option ℝ :=
  match b with
  | .box b => some (b.distFromPoint p)
  | .sphere s => some (s.body.distFromPoint p)
  | .ellips e => e.body.distFromPoint solve τ p
  | .cyl c => some (c.body.distFromPoint τ p)
  | .ecyl c => (c.body.closest solve τ p junk).map Prod.fst
  | .capsule c => some (Capsule.distFromPoint τ c.body p)
  | .cone c => c.body.distFromPoint τ p
  | .ph q => some (q.distFromPoint τ p)

/-- `zShape3DPointIsInside`, src/zeo_shape3d.c:108-111. -/
def Body.pointIsInside (τ : ℝ) (junk : Mat3 ℝ) (b : Body) (p : Vec3 ℝ) (margin : ℝ) : Prop :=
  match b with
  | .box b => b.pointIsInside p margin
  | .sphere s => s.body.pointIsInside p margin
  | .ellips e => e.body.pointIsInside p margin
  | .cyl c => c.body.pointIsInside τ p margin
  | .ecyl c => c.body.pointIsInside τ p margin junk
  | .capsule c => Capsule.pointIsInside τ c.body p margin
  | .cone c => c.body.pointIsInside τ p margin
  | .ph q => q.pointIsInside p margin

/-- `zShape3DVolume`, src/zeo_shape3d.c:114-117. -/
def Body.volume : Body → ℝ
  | .box b => b.volume
  | .sphere s => s.body.volume
  | .ellips e => e.body.volume
  | .cyl c => c.body.volume
  | .ecyl c => c.body.volume
  | .capsule c => Capsule.volume c.body
  | .cone c => c.body.volume
  | .ph q => q.volume

/-- `zShape3DBarycenter`, src/zeo_shape3d.c:120-123. -/
def Body.barycenter : Body → Vec3 ℝ
  | .box b => b.frame.pos
  | .sphere s => s.body.center
  | .ellips e => e.body.f.pos
  | .cyl c => c.body.barycenter
  | .ecyl c => c.body.barycenter
  | .capsule c => c.body.barycenter
  | .cone c => c.body.barycenter
  | .ph q => q.barycenter

/-- `zShape3DBaryInertiaMass`, src/zeo_shape3d.c:126-129.  `none`: the class method has no defined result. -/
def Body.baryInertiaMass (τ : ℝ) (mass : ℝ) : Body → Option (Mat3 ℝ)
  | .box b => some (b.baryInertiaMass mass)
  | .sphere s => some (s.body.baryInertiaMass mass)
  | .ellips e => some (e.body.baryInertiaMass mass)
  | .cyl c => c.body.baryInertiaMass τ mass
  | .ecyl c => some (c.body.baryInertiaMass τ mass)
  | .capsule c => Capsule.baryInertiaMass τ c.body mass
  | .cone c => c.body.baryInertiaMass τ mass
  | .ph q => q.baryInertiaMass mass

/-- `zShape3DBaryInertia`, src/zeo_shape3d.c:132-135. -/
def Body.baryInertia (τ : ℝ) (density : ℝ) : Body → Option (Mat3 ℝ)
  | .box b => some (b.baryInertia density)
  | .sphere s => some (s.body.baryInertia density)
  | .ellips e => some (e.body.baryInertia density)
  | .cyl c => c.body.baryInertia τ density
  | .ecyl c => some (c.body.baryInertia τ density)
  | .capsule c => Capsule.baryInertia τ c.body density
  | .cone c => c.body.baryInertia τ density
  | .ph q => some (q.baryInertia density)

/-- `zShape3DInertiaMass`, src/zeo_shape3d.c:138-145. -/
def Body.inertiaMass (τ : ℝ) (mass : ℝ) (b : Body) : Option (Mat3 ℝ) :=
  (b.baryInertiaMass τ mass).map fun i => i.catDoubleOuter (-mass) b.barycenter

/-- `zShape3DInertia`, src/zeo_shape3d.c:148-157. -/
def Body.inertia (τ : ℝ) (density : ℝ) (b : Body) : Option (Mat3 ℝ) :=
  let mass := density * b.volume
  (b.baryInertiaMass τ mass).map fun i => i.catDoubleOuter (-mass) b.barycenter

/-- `zShape3DXform`, src/zeo_shape3d.c:82-86: the method of `src` is applied to the body of `dest`, whatever the
type of `dest`.  `none`: the types differ and the method writes through a pointer of the wrong type.  Each of the
methods copies the number of divisions, e.g. src/zeo_shape3d_cyl.c:55. -/
def Body.xform (τ : ℝ) (src : Body) (f : Frame3 ℝ) (dest : Body) : Option Body :=
  match src, dest with
  | .box b, .box _ => some (.box (b.xform f))
  | .sphere s, .sphere _ => some (.sphere ⟨s.body.xform f, s.div⟩)
  | .ellips e, .ellips _ => some (.ellips ⟨e.body.xform f, e.div⟩)
  | .cyl c, .cyl _ => some (.cyl ⟨c.body.xform f, c.div⟩)
  | .ecyl c, .ecyl _ => some (.ecyl ⟨c.body.xform f, c.div⟩)
  | .capsule c, .capsule _ => some (.capsule ⟨c.body.xform f, c.div⟩)
  | .cone c, .cone _ => some (.cone ⟨c.body.xform f, c.div⟩)
  | .ph s, .ph d => some (.ph (s.xform τ f d))
  | _, _ => none

/-- `zShape3DXformInv`, src/zeo_shape3d.c:89-93 (see `Body.xform`). -/
def Body.xformInv (τ : ℝ) (src : Body) (f : Frame3 ℝ) (dest : Body) : Option Body :=
  match src, dest with
  | .box b, .box _ => some (.box (b.xformInv f))
  | .sphere s, .sphere _ => some (.sphere ⟨s.body.xformInv f, s.div⟩)
  | .ellips e, .ellips _ => some (.ellips ⟨e.body.xformInv f, e.div⟩)
  | .cyl c, .cyl _ => some (.cyl ⟨c.body.xformInv f, c.div⟩)
  | .ecyl c, .ecyl _ => some (.ecyl ⟨c.body.xformInv f, c.div⟩)
  | .capsule c, .capsule _ => some (.capsule ⟨c.body.xformInv f, c.div⟩)
  | .cone c, .cone _ => some (.cone ⟨c.body.xformInv f, c.div⟩)
  | .ph s, .ph d => some (.ph (s.xformInv τ f d))
  | _, _ => none

/-- The number of divisions stored by the `Create` functions, e.g. src/zeo_shape3d_cyl.c:19;
`ZEO_SHAPE_DEFAULT_DIV` and `ZEO_ELEM_DEFAULT_DIV` are 32, include/zeo/zeo_shape3d.h:238, zeo_elem3d_sphere.h:15. -/
def storeDiv (d : ℤ) : ℤ := if d = 0 then 32 else d

/-- The class methods `_mirror`, e.g. src/zeo_shape3d_cyl.c:272-274.  Each starts with the copy of the source;
copying an ellipsoid, a cylinder, a cone or a sphere goes through `Create` (`storeDiv`), copying an elliptic
cylinder is an assignment (src/zeo_shape3d_ecyl.c:42-52). -/
def Body.mirror (τ : ℝ) (junk : Mat3 ℝ) (axis : Fin 3) : Body → Body
  | .box b => .box (b.mirror τ axis junk)
  | .sphere s => .sphere ⟨s.body.mirror axis, storeDiv s.div⟩
  | .ellips e => .ellips ⟨e.body.mirror axis, storeDiv e.div⟩
  | .cyl c => .cyl ⟨c.body.mirror axis, storeDiv c.div⟩
  | .ecyl c => .ecyl ⟨c.body.mirror axis, c.div⟩
  | .capsule c => .capsule ⟨c.body.mirror axis, storeDiv c.div⟩
  | .cone c => .cone ⟨c.body.mirror axis, storeDiv c.div⟩
  | .ph p => .ph (p.mirror τ axis)

/-! ## Lists and arrays of shapes -/

/-- `zShape3DListPush`, src/zeo_shape3d_list.c:10-18.  A list is written in the order in which the loops visit
it, from the tail to the head; `zListInsertTail` puts the new cell first. -/
def shapeListPush {α : Type*} (l : List α) (s : α) : List α := s :: l

/-- `zShape3DListPop`, src/zeo_shape3d_list.c:21-31. -/
def shapeListPop {α : Type*} (l : List α) : Option α × List α := (l.head?, l.tail)

/-- One iteration of the loop of `zMultiShape3DClosest`, src/zeo_multishape3d.c:103-107. -/
def closestStep (solve : List ℝ → List ℂ) (τ : ℝ) (junk : Mat3 ℝ) (p : Vec3 ℝ) (st : Option (ℝ × Vec3 ℝ)) (b : Body) :
    Option (ℝ × Vec3 ℝ) :=
  match st, b.closest solve τ junk p with
  | some s, some r => if r.1 < s.1 then some r else some s
  | _, _ => none

/-- `zMultiShape3DClosest`, src/zeo_multishape3d.c:96-109, on the array of shapes, and `zShape3DListClosest`,
src/zeo_shape3d_list.c:55-69, on the list in the order of the loop.  `none`: there is no shape, and the code
reads the first one, or a class method has no defined result. -/
def multiClosest (solve : List ℝ → List ℂ) (τ : ℝ) (junk : Mat3 ℝ) (l : List Body) (p : Vec3 ℝ) : Option (ℝ × Vec3 ℝ) :=
  match l with
  | [] => none
  | b :: l => l.foldl (closestStep solve τ junk p) (b.closest solve τ junk p)

/-- `zMultiShape3DPointIsInside`, src/zeo_multishape3d.c:112-120. -/
def multiInside (τ : ℝ) (junk : Mat3 ℝ) : List Body → Vec3 ℝ → ℝ → Prop
  | [], _, _ => False
  | b :: l, p, m => if b.pointIsInside τ junk p m then True else multiInside τ junk l p m

/-- `zShape3DContigVert`, include/zeo/zeo_shape3d.h:141: the body is cast to a polyhedron.  `none`: it is not a
polyhedron; `some none`: NULL. -/
def Body.contigVert (b : Body) (p : Vec3 ℝ) : Option (Option (Vec3 ℝ × ℝ)) :=
  match b with
  | .ph q => some ((q.contigVert p).map fun r => (q.vert r.1, r.2))
  | _ => none

/-- One iteration of the loop of `zMultiShape3DContigVert`, src/zeo_multishape3d.c:84-90.  A polyhedron without
vertices returns NULL and leaves `*distance`, which then equals `dist_min` or is larger, so that nothing
changes. -/
def contigStep (p : Vec3 ℝ) (st : Option (Vec3 ℝ × ℝ)) (b : Body) : Option (Vec3 ℝ × ℝ) :=
  match st, b.contigVert p with
  | some s, some (some r) => if r.2 < s.2 then some r else some s
  | some s, some none => some s
  | _, _ => none

/-- `zMultiShape3DContigVert`, src/zeo_multishape3d.c:74-93, and `zShape3DListContigVert`,
src/zeo_shape3d_list.c:34-52.  `none`: no shape, a shape that is not a polyhedron, or a first polyhedron without
vertices (`dist_min` is read from an unset variable). -/
def multiContigVert (l : List Body) (p : Vec3 ℝ) : Option (Vec3 ℝ × ℝ) :=
  match l with
  | [] => none
  | b :: l => l.foldl (contigStep p) (b.contigVert p).join

/-- The vertices of a polyhedron in the order of the array. -/
def phVerts (ph : PH ℝ) : List (Vec3 ℝ) := (List.range ph.nv).map ph.vert

/-- `zMultiShape3DVertData`, src/zeo_multishape3d.c:133-164: the points added to the list, `toPH` being the
conversion of a copy of a shape that is not a polyhedron.  `none`: NULL. -/
def multiVerts (toPH : Body → Option (PH ℝ)) : List Body → Option (List (Vec3 ℝ))
  | [] => some []
  | b :: l => do
    let vs ← match b with
      | .ph q => some (phVerts q)
      | b => (toPH b).map phVerts
    let ws ← multiVerts toPH l
    return vs ++ ws

/-- `zMultiShape3DBoundingBall`, src/zeo_multishape3d.c:167-178.  `none`: NULL. -/
def multiBoundingBall (toPH : Body → Option (PH ℝ)) (τ : ℝ) (fuel : ℕ) (junk : Ball3) (l : List Body) : Option (BBall.Res Ball3) :=
  (multiVerts toPH l).map fun vs =>
    boundingBall3 τ fuel (vs.foldl (fun d v => (d.add v).2) Data.initList) junk

/-! ## Filling an octree with a shape -/

/-- The test points of `zShape3DPutInOctree`, src/zeo_shape3d.c:197-207: `x` runs fastest. -/
def gridPoints (B : AABox3 ℝ) (res : ℝ) : List (Vec3 ℝ) :=
  let d := res * (1/2)
  let nd := ⌊(B.max.x - B.min.x) / d⌋₊
  let nw := ⌊(B.max.y - B.min.y) / d⌋₊
  let nh := ⌊(B.max.z - B.min.z) / d⌋₊
  (List.range (nh + 1)).flatMap fun (k : ℕ) => (List.range (nw + 1)).flatMap fun (j : ℕ) =>
    (List.range (nd + 1)).map fun (i : ℕ) => ⟨B.min.x + i * d, B.min.y + j * d, B.min.z + k * d⟩

/-- The loop of `zShape3DPutInOctree`, src/zeo_shape3d.c:201-212.  A point the octree rejects is skipped;
`none`: an insertion exceeds the recursion budget `fuel`. -/
def fillOctree (τ res : ℝ) (fuel : ℕ) (inside : Vec3 ℝ → Prop) : List (Vec3 ℝ) → Oct ℝ → Option (Oct ℝ)
  | [], t => some t
  | p :: ps, t =>
    if inside p then
      match t.addPoint τ res fuel p with
      | .overflow => none
      | .rejected => fillOctree τ res fuel inside ps t
      | .added t' => fillOctree τ res fuel inside ps t'
    else fillOctree τ res fuel inside ps t

/-- `zShape3DPutInOctree`, src/zeo_shape3d.c:190-215, on an octree whose root has the region `B`. -/
def Body.putInOctree (τ res : ℝ) (fuel : ℕ) (junk : Mat3 ℝ) (b : Body) (B : AABox3 ℝ) (t : Oct ℝ) : Option (Oct ℝ) :=
  (fillOctree τ res fuel (fun p => b.pointIsInside τ junk p 0) (gridPoints B res) t).map Oct.unifyOctant

end
end Zeo.ZTK
