import Verif.Model.Frame
import Verif.Model.Mat2

/-! # Lines, edges, planes, triangles, tetrahedra, disks and spheres:
include/zeo/zeo_elemxd.h, src/zeo_elem2d.c, src/zeo_elem2d_disk.c, src/zeo_elem3d.c, src/zeo_elem3d_sphere.c

Lines, edges, planes and triangles hold pointers to their points; the model stores the values those
pointers refer to (the one case where the pointer outlives its target is `intersectPlane`). -/

namespace Zeo

/-- `zLine3D`, include/zeo/zeo_elemxd.h:15-19. -/
@[ext] structure Line3 (K : Type*) where
  org : Vec3 K
  dir : Vec3 K
/-- `zLine2D`, include/zeo/zeo_elemxd.h:15-19. -/
@[ext] structure Line2 (K : Type*) where
  org : Vec2 K
  dir : Vec2 K
/-- `zPlane3D`, include/zeo/zeo_elem3d.h:164-173. -/
@[ext] structure Plane3 (K : Type*) where
  org : Vec3 K
  norm : Vec3 K
/-- `zTri3D`, include/zeo/zeo_elem3d.h:236-239. -/
@[ext] structure Tri3 (K : Type*) where
  v0 : Vec3 K
  v1 : Vec3 K
  v2 : Vec3 K
  norm : Vec3 K
/-- `zSphere3D`, include/zeo/zeo_elem3d_sphere.h (center and radius; the drawing division count is left out). -/
@[ext] structure Sphere3 (K : Type*) where
  center : Vec3 K
  radius : K
/-- `zDisk2D`, include/zeo/zeo_elem2d_disk.h. -/
@[ext] structure Disk2 (K : Type*) where
  center : Vec2 K
  radius : K

section
variable {K : Type*} [Field K]

/-! ## Lines -/

/-- `zLine3DPoint`, include/zeo/zeo_elemxd.h:66-72. -/
def Line3.point (l : Line3 K) (t : K) : Vec3 K := l.org.cat t l.dir
/-- `zLine2DPoint`, include/zeo/zeo_elemxd.h:66-72. -/
def Line2.point (l : Line2 K) (t : K) : Vec2 K := l.org.cat t l.dir
/-- `zLine3DProjPoint`, include/zeo/zeo_elemxd.h:75-81. -/
def Line3.projPoint (l : Line3 K) (p : Vec3 K) : Vec3 K := l.point (l.dir.inner (p.sub l.org))
/-- `zLine2DProjPoint`, include/zeo/zeo_elemxd.h:75-81. -/
def Line2.projPoint (l : Line2 K) (p : Vec2 K) : Vec2 K := l.point (l.dir.inner (p.sub l.org))

/-! ## Planes -/

/-- `zPlane3DDistFromPoint`, src/zeo_elem3d.c:139-145. -/
def Plane3.distFromPoint (pl : Plane3 K) (p : Vec3 K) : K := (p.sub pl.org).inner pl.norm
/-- `zPlane3DProjPoint`, src/zeo_elem3d.c:159-166: (return value, `*projection`). -/
def Plane3.projPoint (pl : Plane3 K) (p : Vec3 K) : K × Vec3 K :=
  (pl.distFromPoint p, p.cat (-pl.distFromPoint p) pl.norm)

/-! ## Triangles: centers and cones -/

/-- `_zTri3DWeightedCenter`, src/zeo_elem3d.c:252-258. -/
def Tri3.weightedCenter (v0 v1 v2 : Vec3 K) (w1 w2 w3 : K) : Vec3 K :=
  ⟨(w1 * v0.x + w2 * v1.x + w3 * v2.x) / (w1 + w2 + w3),
   (w1 * v0.y + w2 * v1.y + w3 * v2.y) / (w1 + w2 + w3),
   (w1 * v0.z + w2 * v1.z + w3 * v2.z) / (w1 + w2 + w3)⟩
/-- `_zTri2DWeightedCenter`, src/zeo_elem2d.c:109-114. -/
def Tri2.weightedCenter (v0 v1 v2 : Vec2 K) (w1 w2 w3 : K) : Vec2 K :=
  ⟨(w1 * v0.x + w2 * v1.x + w3 * v2.x) / (w1 + w2 + w3),
   (w1 * v0.y + w2 * v1.y + w3 * v2.y) / (w1 + w2 + w3)⟩
/-- `zTri3DBarycenter`, include/zeo/zeo_elemxd.h:319-324 (`zVec3DDivDRC(c,3)`). -/
def Tri3.barycenter [DecidableEq K] (v0 v1 v2 : Vec3 K) : Vec3 K :=
  (((v0.add v1).add v2).div 3 ((v0.add v1).add v2)).2
/-- `zTri3DCircumcenter`, include/zeo/zeo_elemxd.h:328-339. -/
def Tri3.circumcenter (v0 v1 v2 : Vec3 K) : Vec3 K :=
  let r0 := v2.sqrDist v1
  let r1 := v0.sqrDist v2
  let r2 := v1.sqrDist v0
  weightedCenter v0 v1 v2 (r0 * (r1 + r2 - r0)) (r1 * (r2 + r0 - r1)) (r2 * (r0 + r1 - r2))
/-- `zTri2DCircumcenter`, include/zeo/zeo_elemxd.h:328-339. -/
def Tri2.circumcenter (v0 v1 v2 : Vec2 K) : Vec2 K :=
  let r0 := v2.sqrDist v1
  let r1 := v0.sqrDist v2
  let r2 := v1.sqrDist v0
  weightedCenter v0 v1 v2 (r0 * (r1 + r2 - r0)) (r1 * (r2 + r0 - r1)) (r2 * (r0 + r1 - r2))
/-- `zTri3DOrthocenter`, include/zeo/zeo_elemxd.h:355-367: circumcenter of the anticomplementary
triangle. -/
def Tri3.orthocenter (v0 v1 v2 : Vec3 K) : Vec3 K :=
  circumcenter ((v0.add v1).sub v2) ((v1.add v2).sub v0) ((v2.add v0).sub v1)
/-- `zTri2DOrthocenter`, include/zeo/zeo_elemxd.h:355-367. -/
def Tri2.orthocenter (v0 v1 v2 : Vec2 K) : Vec2 K :=
  circumcenter ((v0.add v1).sub v2) ((v1.add v2).sub v0) ((v2.add v0).sub v1)
/-- `_zTri3DOuterProd`, src/zeo_elem3d.c:222-229. -/
def Tri3.outerProd (v0 v1 v2 : Vec3 K) : Vec3 K := (v1.sub v0).outer (v2.sub v1)
/-- `zTri3DDistFromPointToPlane`, src/zeo_elem3d.c:273-284. -/
def Tri3.distFromPointToPlane (t : Tri3 K) (p : Vec3 K) : K :=
  ((p.sub t.v0).inner t.norm + (p.sub t.v1).inner t.norm + (p.sub t.v2).inner t.norm) / 3
/-- `zTri3DProjPoint`, src/zeo_elem3d.c:287-294: (return value, `*projection`). -/
def Tri3.projPoint (t : Tri3 K) (p : Vec3 K) : K × Vec3 K :=
  (t.distFromPointToPlane p, p.cat (-t.distFromPointToPlane p) t.norm)
/-- `zTri3DConeVolume`, src/zeo_elem3d.c:476-484. -/
def Tri3.coneVolume (v0 v1 v2 v : Vec3 K) : K :=
  Vec3.grassmann (v0.sub v) (v1.sub v) (v2.sub v) / 6
/-- `zTri3DConeBarycenter`, src/zeo_elem3d.c:487-493. -/
def Tri3.coneBarycenter (v0 v1 v2 v : Vec3 K) : Vec3 K := (((v0.add v1).add v2).add v).mul (1/4)
/-- One iteration of the loop of `zTri3DConeInertia`, src/zeo_elem3d.c:503-514. -/
def Tri3.coneInertiaStep (i : Mat3 K) (v1 v2 : Vec3 K) : Mat3 K :=
  ((i.sub (Mat3.ofTriple v1 v1)).sub ((Mat3.ofTriple v1 v2).mul (1/2))).sub ((Mat3.ofTriple v2 v1).mul (1/2))
/-- `zTri3DConeInertia`, src/zeo_elem3d.c:496-517. -/
def Tri3.coneInertia (v0 v1 v2 : Vec3 K) (density : K) : Mat3 K :=
  (coneInertiaStep (coneInertiaStep (coneInertiaStep .zero v0 v1) v1 v2) v2 v0).mul
    (density * Vec3.grassmann v0 v1 v2 / 60)
/-- `zTri3DConeCircumcenter`, src/zeo_elem3d.c:520-529: (success of the final division, `*c`). -/
def Tri3.coneCircumcenter [DecidableEq K] (v0 v1 v2 : Vec3 K) : Bool × Vec3 K :=
  let c := (((Vec3.zero.cat v0.sqrNorm (v1.outer v2)).cat v1.sqrNorm (v2.outer v0)).cat v2.sqrNorm (v0.outer v1))
  c.div (2 * Vec3.grassmann v0 v1 v2) c

/-! ## Spheres -/

/-- `zSphere3DXform`, src/zeo_elem3d_sphere.c:47-53. -/
def Sphere3.xform (s : Sphere3 K) (f : Frame3 K) : Sphere3 K := ⟨f.xform s.center, s.radius⟩
/-- `zSphere3DXformInv`, src/zeo_elem3d_sphere.c:56-62. -/
def Sphere3.xformInv (s : Sphere3 K) (f : Frame3 K) : Sphere3 K := ⟨f.xformInv s.center, s.radius⟩
/-- `zSphere3DMirror`, src/zeo_elem3d_sphere.c:39-44. -/
def Sphere3.mirror (s : Sphere3 K) (axis : Fin 3) : Sphere3 K :=
  ⟨s.center.setE axis (s.center.e axis * -1), s.radius⟩
end

noncomputable section
open Classical

/-! ## Lines over ℝ -/

/-- `zLine3DCreate` on non-NULL arguments, include/zeo/zeo_elemxd.h:39-52 (`none` = NULL). -/
def Line3.create (τ : ℝ) (p d : Vec3 ℝ) : Option (Line3 ℝ) :=
  if d.isTol τ then none else some ⟨p, (d.normalizeNC).2⟩
/-- `zLine3DCreateTwoPoints`, include/zeo/zeo_elemxd.h:57-63. -/
def Line3.createTwoPoints (τ : ℝ) (p1 p2 : Vec3 ℝ) : Line3 ℝ :=
  ⟨p1, ((p2.sub p1).normalize τ (p2.sub p1)).2⟩
/-- `zLine3DDistFromPoint`, include/zeo/zeo_elemxd.h:86-91. -/
def Line3.distFromPoint (l : Line3 ℝ) (p : Vec3 ℝ) : ℝ := ((p.sub l.org).outer l.dir).norm
/-- `zLine3DPointIsOn`, include/zeo/zeo_elemxd.h:96-99. -/
def Line3.pointIsOn (l : Line3 ℝ) (p : Vec3 ℝ) (margin : ℝ) : Prop := l.distFromPoint p < margin
/-- `zLine2DDistFromPoint`, include/zeo/zeo_elemxd.h:86-91; `zVec2DOuterProdNorm` is the
absolute value, include/zeo/zeo_vec2d.h. -/
def Line2.distFromPoint (l : Line2 ℝ) (p : Vec2 ℝ) : ℝ := |(p.sub l.org).outer l.dir|
/-- `zLine3DCommonPerpEnd`, src/zeo_elem3d.c:36-57: (`*p1`, `*p2`). -/
def Line3.commonPerpEnd (τ : ℝ) (l1 l2 : Line3 ℝ) : Vec3 ℝ × Vec3 ℝ :=
  let r11 := l1.dir.inner l1.dir
  let r12 := l1.dir.inner l2.dir
  let r22 := l2.dir.inner l2.dir
  let det := r11 * r22 - r12 * r12
  if zIsTol det τ then (l1.org, l2.projPoint l1.org)
  else
    let dp := l2.org.sub l1.org
    let d1 := (l1.dir.mul r22).cat (-r12) l2.dir
    let d2 := (l1.dir.mul r12).cat (-r11) l2.dir
    (l1.point (d1.inner dp / det), l2.point (d2.inner dp / det))
/-- `zDistLine3DLine3D`, src/zeo_elem3d.c:69-75. -/
def Line3.distLine (τ : ℝ) (l1 l2 : Line3 ℝ) : ℝ :=
  (l1.commonPerpEnd τ l2).1.dist (l1.commonPerpEnd τ l2).2
/-- `zIntersectLine2D`, src/zeo_elem2d.c:35-48 (`none` = NULL). -/
def Line2.intersect (τ : ℝ) (l1 l2 : Line2 ℝ) : Option (Vec2 ℝ) :=
  let dp := l2.org.sub l1.org
  let m : Mat2 ℝ := ⟨l1.dir, l2.dir.rev⟩
  match m.mulInvVec τ dp with
  | none => none
  | some s => some (l1.point s.x)

/-! ## Planes over ℝ -/

/-- `zPlane3DCreate`, src/zeo_elem3d.c:127-136 (`none` = NULL). -/
def Plane3.create (τ : ℝ) (org norm : Vec3 ℝ) : Option (Plane3 ℝ) :=
  if norm.isTol τ then none else some ⟨org, (norm.normalize τ norm).2⟩
/-- `zPlane3DPointIsOn`, src/zeo_elem3d.c:148-156. -/
def Plane3.pointIsOn (τ : ℝ) (pl : Plane3 ℝ) (p : Vec3 ℝ) (margin : ℝ) : Prop :=
  if (p.sub pl.org).isTol τ then True
  else zIsTol (((p.sub pl.org).normalize τ (p.sub pl.org)).2.inner pl.norm) margin

/-- Return value and output of `zIntersectPlane3D`. `line` records the values `*line` holds at the
moment of the return; its `origin` member is a pointer, whose target is recorded by `orgIsLocal`
(true: the address of the callee's local variable `p`, dead after the return). -/
structure PlaneMeet where
  ret : ℤ
  line : Option (Line3 ℝ)
  orgIsLocal : Bool

/-- `zIntersectPlane3D`, src/zeo_col.c:41-67. `zLine3DCreate(line,&p,&d)` stores the address of the
local `p` in `line->origin` (include/zeo/zeo_elemxd.h:21,23,49). -/
def Plane3.intersect (τ : ℝ) (pl1 pl2 : Plane3 ℝ) : PlaneMeet :=
  let d := pl1.norm.outer pl2.norm
  let dp := pl1.org.sub pl2.org
  if d.isTol τ then
    if zIsTol (pl1.norm.inner dp) τ then ⟨-1, none, false⟩ else ⟨0, none, false⟩
  else
    let p := pl1.org.mid pl2.org
    let n := pl1.norm.inner pl2.norm
    let det := 2 * (1 - n * n)
    let s1 := pl1.norm.inner dp
    let s2 := pl2.norm.inner dp
    let k1 := (s1 + n * s2) / det
    let k2 := -(n * s1 + s2) / det
    ⟨1, Line3.create τ ((p.cat k1 pl1.norm).cat k2 pl2.norm) d, true⟩

/-! ## Edges -/

/-- Outcome of `zEdge3DClosestFromOrigin`. -/
structure EdgeRes3 where
  dist : ℝ
  s0 : ℝ
  s1 : ℝ
  cp : Vec3 ℝ
/-- Outcome of `zEdge2DClosestFromOrigin`. -/
structure EdgeRes2 where
  dist : ℝ
  s0 : ℝ
  s1 : ℝ
  cp : Vec2 ℝ

/-- `zEdge3DClosestFromOrigin`, include/zeo/zeo_elemxd.h:241-266. `none`: the divisor is zero and
the C code's results are all NaN. -/
def Edge3.closestFromOrigin (v0 v1 : Vec3 ℝ) : Option EdgeRes3 :=
  let vtv : Mat2 ℝ := ⟨⟨v0.sqrNorm, v0.inner v1⟩, ⟨v0.inner v1, v1.sqrNorm⟩⟩
  let u := vtv.mulAdjVec ⟨1, 1⟩
  if u.x + u.y = 0 then none
  else
    let d := 1 / (u.x + u.y)
    let s0 := u.x * d
    let s1 := u.y * d
    if s0 < 0 then some ⟨v1.norm, 0, 1, v1⟩
    else if s1 < 0 then some ⟨v0.norm, 1, 0, v0⟩
    else some ⟨((v0.mul s0).cat s1 v1).norm, s0, s1, (v0.mul s0).cat s1 v1⟩
/-- `zEdge2DClosestFromOrigin`, include/zeo/zeo_elemxd.h:241-266. -/
def Edge2.closestFromOrigin (v0 v1 : Vec2 ℝ) : Option EdgeRes2 :=
  let vtv : Mat2 ℝ := ⟨⟨v0.sqrNorm, v0.inner v1⟩, ⟨v0.inner v1, v1.sqrNorm⟩⟩
  let u := vtv.mulAdjVec ⟨1, 1⟩
  if u.x + u.y = 0 then none
  else
    let d := 1 / (u.x + u.y)
    let s0 := u.x * d
    let s1 := u.y * d
    if s0 < 0 then some ⟨v1.norm, 0, 1, v1⟩
    else if s1 < 0 then some ⟨v0.norm, 1, 0, v0⟩
    else some ⟨((v0.mul s0).cat s1 v1).norm, s0, s1, (v0.mul s0).cat s1 v1⟩
/-- `zEdge3DClosest`, include/zeo/zeo_elemxd.h:270-280: (return value, `*closestpoint`). -/
def Edge3.closest (e0 e1 p : Vec3 ℝ) : Option (ℝ × Vec3 ℝ) :=
  (closestFromOrigin (e0.sub p) (e1.sub p)).map fun r => (r.dist, r.cp.add p)
/-- `zEdge2DClosest`, include/zeo/zeo_elemxd.h:270-280: (return value, `*closestpoint`). -/
def Edge2.closest (e0 e1 p : Vec2 ℝ) : Option (ℝ × Vec2 ℝ) :=
  (closestFromOrigin (e0.sub p) (e1.sub p)).map fun r => (r.dist, r.cp.add p)
/-- `zEdge3DDistFromPoint`, include/zeo/zeo_elemxd.h:284-288. -/
def Edge3.distFromPoint (e0 e1 p : Vec3 ℝ) : Option ℝ := (closest e0 e1 p).map Prod.fst
/-- `zEdge3DPointIsOn`, include/zeo/zeo_elemxd.h:292-295 (a NaN distance compares false). -/
def Edge3.pointIsOn (e0 e1 p : Vec3 ℝ) (margin : ℝ) : Prop := ∃ d, distFromPoint e0 e1 p = some d ∧ d < margin
/-- `zEdge3DContigVert`, include/zeo/zeo_elemxd.h:224-237: (vertex, `*distance`). -/
def Edge3.contigVert (e0 e1 p : Vec3 ℝ) : Vec3 ℝ × ℝ :=
  if p.sqrDist e0 ≤ p.sqrDist e1 then (e0, Real.sqrt (p.sqrDist e0)) else (e1, Real.sqrt (p.sqrDist e1))

/-! ## Triangles over ℝ -/

/-- `zTri3DArea`, src/zeo_elem3d.c:232-238. -/
def Tri3.area (v0 v1 v2 : Vec3 ℝ) : ℝ := 1/2 * (outerProd v0 v1 v2).norm
/-- `zTri3DCreate` with `zTri3DCalcNorm`, src/zeo_elem3d.c:192-200, 241-247, on non-NULL vertices:
(non-NULL return, `*tri`). -/
def Tri3.create (τ : ℝ) (v0 v1 v2 : Vec3 ℝ) : Bool × Tri3 ℝ :=
  let n := outerProd v0 v1 v2
  if n.isTol τ then (false, ⟨v0, v1, v2, n⟩) else (true, ⟨v0, v1, v2, (n.normalize τ n).2⟩)
/-- `zTri3DIncenter`, include/zeo/zeo_elemxd.h:343-351. -/
def Tri3.incenter (v0 v1 v2 : Vec3 ℝ) : Vec3 ℝ :=
  weightedCenter v0 v1 v2 (v1.dist v2) (v2.dist v0) (v0.dist v1)
/-- `zTri2DIncenter`, include/zeo/zeo_elemxd.h:343-351. -/
def Tri2.incenter (v0 v1 v2 : Vec2 ℝ) : Vec2 ℝ :=
  weightedCenter v0 v1 v2 (v1.dist v2) (v2.dist v0) (v0.dist v1)
/-- `zTri3DContigVert`, include/zeo/zeo_elemxd.h:371-394: (vertex, `*d`). -/
def Tri3.contigVert (v0 v1 v2 p : Vec3 ℝ) : Vec3 ℝ × ℝ :=
  let d0 := p.sqrDist v0
  let d1 := p.sqrDist v1
  let d2 := p.sqrDist v2
  if d0 ≤ d1 then if d0 ≤ d2 then (v0, Real.sqrt d0) else (v2, Real.sqrt d2)
  else if d1 ≤ d2 then (v1, Real.sqrt d1) else (v2, Real.sqrt d2)
/-- `zTri3DPointIsOnPlane`, src/zeo_elem3d.c:297-306. -/
def Tri3.pointIsOnPlane (τ : ℝ) (t : Tri3 ℝ) (p : Vec3 ℝ) (margin : ℝ) : Prop :=
  if (p.sub t.v0).isTol τ then True
  else zIsTol (((p.sub t.v0).normalize τ (p.sub t.v0)).2.inner t.norm) margin

/-- One test of the loop of `_zTri3DProjIsInside`, src/zeo_elem3d.c:316-320: false means the loop
goes on. -/
def Tri3.outsideEdge (τ : ℝ) (norm v vnext q : Vec3 ℝ) : Prop :=
  let n := (vnext.sub v).outer norm
  0 < (n.normalize τ n).2.inner (q.sub v)
/-- `_zTri3DProjIsInside`, src/zeo_elem3d.c:309-323. -/
def Tri3.projIsInside (τ : ℝ) (t : Tri3 ℝ) (p : Vec3 ℝ) : Prop :=
  let q := (t.projPoint p).2
  ¬ outsideEdge τ t.norm t.v0 t.v1 q ∧ ¬ outsideEdge τ t.norm t.v1 t.v2 q ∧ ¬ outsideEdge τ t.norm t.v2 t.v0 q

/-- Outcome of `zTri3DClosestFromOrigin`. -/
structure TriRes3 where
  dist : ℝ
  s0 : ℝ
  s1 : ℝ
  s2 : ℝ
  cp : Vec3 ℝ

/-- `dist < *dist_min` where `none` is HUGE_VAL. -/
def ltMin (d : ℝ) : Option ℝ → Prop
  | none => True
  | some m => d < m

/-- `_zTri3DClosestFromOrigin_TestEdge` and the copy of the weights, src/zeo_elem3d.c:326-337,
365-367. `mk` places the two edge weights; a NaN distance (`none`) fails the comparison. -/
def Tri3.testEdge (va vb : Vec3 ℝ) (mk : ℝ → ℝ → ℝ × ℝ × ℝ) (best : Option TriRes3) : Option TriRes3 :=
  match Edge3.closestFromOrigin va vb with
  | none => best
  | some r =>
    if ltMin r.dist (best.map TriRes3.dist) then
      some ⟨r.dist, (mk r.s0 r.s1).1, (mk r.s0 r.s1).2.1, (mk r.s0 r.s1).2.2, r.cp⟩
    else best

/-- The case of `zTri3DClosestFromOrigin` where the projection is inside,
src/zeo_elem3d.c:350-362. The result of `zVec3DOrthoSpace` is not checked by the code; a failure
(which would leave `t1`, `t2` uninitialised) is represented by zero vectors. -/
def Tri3.insideRes (τ : ℝ) (t : Tri3 ℝ) (c : Vec3 ℝ) : TriRes3 :=
  let tt := (t.norm.orthoSpace τ).getD (.zero, .zero)
  let w := fun v : Vec3 ℝ => (⟨tt.1.inner (v.sub c), tt.2.inner (v.sub c)⟩ : Vec2 ℝ)
  let s0 := (w t.v1).outer (w t.v2)
  let s1 := (w t.v2).outer (w t.v0)
  let s2 := (w t.v0).outer (w t.v1)
  let inv := 1 / (s0 + s1 + s2)
  ⟨c.norm, s0 * inv, s1 * inv, s2 * inv, c⟩

/-- `zTri3DClosestFromOrigin`, src/zeo_elem3d.c:340-369. `none`: no edge test succeeded, HUGE_VAL is
returned and the outputs are not meaningful. -/
def Tri3.closestFromOrigin (τ : ℝ) (v0 v1 v2 : Vec3 ℝ) : Option TriRes3 :=
  let t := create τ v0 v1 v2
  if t.1 = true ∧ projIsInside τ t.2 .zero then some (insideRes τ t.2 (t.2.projPoint .zero).2)
  else
    testEdge v2 v0 (fun a b => (b, 0, a))
      (testEdge v1 v2 (fun a b => (0, a, b)) (testEdge v0 v1 (fun a b => (a, b, 0)) none))

/-- `zTri3DClosest`, src/zeo_elem3d.c:372-383: (return value, `*closestpoint`). -/
def Tri3.closest (τ : ℝ) (v0 v1 v2 p : Vec3 ℝ) : Option (ℝ × Vec3 ℝ) :=
  (closestFromOrigin τ (v0.sub p) (v1.sub p) (v2.sub p)).map fun r => (r.dist, r.cp.add p)
/-- `zTri3DSignedClosest`, src/zeo_elem3d.c:386-392. -/
def Tri3.signedClosest (τ : ℝ) (t : Tri3 ℝ) (p : Vec3 ℝ) : Option (ℝ × Vec3 ℝ) :=
  (closest τ t.v0 t.v1 t.v2 p).map fun r =>
    (if 0 ≤ t.distFromPointToPlane p then r.1 else -r.1, r.2)
/-- `zTri3DPointIsInside`, include/zeo/zeo_elemxd.h:398-409. -/
def Tri3.pointIsInside (τ : ℝ) (v0 v1 v2 p : Vec3 ℝ) (margin : ℝ) : Prop :=
  ∃ r, closest τ v0 v1 v2 p = some r ∧ r.1 < margin

/-- Outcome of `zTri2DClosestFromOrigin`. -/
structure TriRes2 where
  dist : ℝ
  s0 : ℝ
  s1 : ℝ
  s2 : ℝ
  cp : Vec2 ℝ
/-- `_zTri2DClosestFromOrigin_TestEdge` behind its guard `*si < 0`, src/zeo_elem2d.c:128-139, 155-160. -/
def Tri2.testEdge (s : ℝ) (va vb : Vec2 ℝ) (mk : ℝ → ℝ → ℝ × ℝ × ℝ) (best : Option TriRes2) : Option TriRes2 :=
  if s < 0 then
    match Edge2.closestFromOrigin va vb with
    | none => best
    | some r =>
      if ltMin r.dist (best.map TriRes2.dist) then
        some ⟨r.cp.norm, (mk r.s0 r.s1).1, (mk r.s0 r.s1).2.1, (mk r.s0 r.s1).2.2, r.cp⟩
      else best
  else best
/-- `zTri2DClosestFromOrigin`, src/zeo_elem2d.c:142-169. `none`: the divisor of the barycentric
coordinates is zero (collinear vertices). -/
def Tri2.closestFromOrigin (v0 v1 v2 : Vec2 ℝ) : Option TriRes2 :=
  let d := v1.outer v2 + v2.outer v0 + v0.outer v1
  if d = 0 then none
  else
    let inv := 1 / d
    let s0 := v1.outer v2 * inv
    let s1 := v2.outer v0 * inv
    let s2 := v0.outer v1 * inv
    match testEdge s2 v0 v1 (fun a b => (a, b, 0))
      (testEdge s1 v2 v0 (fun a b => (b, 0, a)) (testEdge s0 v1 v2 (fun a b => (0, a, b)) none)) with
    | none => some ⟨0, s0, s1, s2, .zero⟩
    | some r => some r
/-- `zTri2DClosest`, src/zeo_elem2d.c:172-183: (return value, `*closestpoint`). -/
def Tri2.closest (v0 v1 v2 p : Vec2 ℝ) : Option (ℝ × Vec2 ℝ) :=
  (closestFromOrigin (v0.sub p) (v1.sub p) (v2.sub p)).map fun r => (r.dist, r.cp.add p)

/-! ## Tetrahedra -/

/-- Outcome of `zTetra3DClosestFromOrigin`. -/
structure TetraRes where
  dist : ℝ
  s0 : ℝ
  s1 : ℝ
  s2 : ℝ
  s3 : ℝ
  cp : Vec3 ℝ
/-- `_zTetra3DClosestFromOrigin_TestTri` behind its guard `*si < 0`, src/zeo_elem3d.c:553-564,
581-588. A facet for which `zTri3DClosestFromOrigin` returns HUGE_VAL fails the comparison. -/
def Tetra.testTri (τ s : ℝ) (va vb vc : Vec3 ℝ) (mk : ℝ → ℝ → ℝ → ℝ × ℝ × ℝ × ℝ) (best : Option TetraRes) :
    Option TetraRes :=
  if s < 0 then
    match Tri3.closestFromOrigin τ va vb vc with
    | none => best
    | some r =>
      if ltMin r.dist (best.map TetraRes.dist) then
        let m := mk r.s0 r.s1 r.s2
        some ⟨r.cp.norm, m.1, m.2.1, m.2.2.1, m.2.2.2, r.cp⟩
      else best
  else best
/-- `zTetra3DClosestFromOrigin`, src/zeo_elem3d.c:567-598. `none`: the divisor of the barycentric
coordinates is zero (coplanar vertices). The comparison uses the facet's returned distance, which is
the norm of its point. -/
def Tetra.closestFromOrigin (τ : ℝ) (v0 v1 v2 v3 : Vec3 ℝ) : Option TetraRes :=
  let g0 := Vec3.grassmann v3 v2 v1
  let g1 := Vec3.grassmann v2 v3 v0
  let g2 := Vec3.grassmann v1 v0 v3
  let g3 := Vec3.grassmann v0 v1 v2
  let d := g0 + g1 + g2 + g3
  if d = 0 then none
  else
    let inv := 1 / d
    match testTri τ (g3 * inv) v0 v1 v2 (fun a b c => (a, b, c, 0))
      (testTri τ (g2 * inv) v3 v0 v1 (fun a b c => (b, c, 0, a))
      (testTri τ (g1 * inv) v2 v3 v0 (fun a b c => (c, 0, a, b))
      (testTri τ (g0 * inv) v1 v2 v3 (fun a b c => (0, a, b, c)) none))) with
    | none => some ⟨0, g0 * inv, g1 * inv, g2 * inv, g3 * inv, .zero⟩
    | some r => some r
/-- `zTetra3DClosest`, src/zeo_elem3d.c:601-613: (return value, `*closestpoint`). -/
def Tetra.closest (τ : ℝ) (v0 v1 v2 v3 p : Vec3 ℝ) : Option (ℝ × Vec3 ℝ) :=
  (closestFromOrigin τ (v0.sub p) (v1.sub p) (v2.sub p) (v3.sub p)).map fun r => (r.dist, r.cp.add p)

/-! ## Spheres and disks over ℝ -/

/-- `zSphere3DClosest`, src/zeo_elem3d_sphere.c:65-78: (return value, `*closestpoint`). For a point
at the center of a sphere of radius 0 the C code divides 0/0. -/
def Sphere3.closest (s : Sphere3 ℝ) (p : Vec3 ℝ) : ℝ × Vec3 ℝ :=
  let d := p.sub s.center
  let l := d.norm
  (l - s.radius, if l < s.radius then p else s.center.add (d.mul (s.radius / l)))
/-- `zSphere3DDistFromPoint`, src/zeo_elem3d_sphere.c:81-87. -/
def Sphere3.distFromPoint (s : Sphere3 ℝ) (p : Vec3 ℝ) : ℝ := (p.sub s.center).norm - s.radius
/-- `zSphere3DPointIsInside`, src/zeo_elem3d_sphere.c:90-93. -/
def Sphere3.pointIsInside (s : Sphere3 ℝ) (p : Vec3 ℝ) (margin : ℝ) : Prop := s.distFromPoint p < margin
/-- `zSphere3DFrom2`, src/zeo_elem3d_sphere.c:96-103. -/
def Sphere3.from2 (v1 v2 : Vec3 ℝ) : Sphere3 ℝ := ⟨v1.mid v2, (v1.mid v2).dist v1⟩
/-- `zSphere3DFrom3`, src/zeo_elem3d_sphere.c:106-115. -/
def Sphere3.from3 (v1 v2 v3 : Vec3 ℝ) : Sphere3 ℝ :=
  ⟨Tri3.circumcenter v1 v2 v3, (Tri3.circumcenter v1 v2 v3).dist v3⟩
/-- `zSphere3DFrom4`, src/zeo_elem3d_sphere.c:118-131. `none`: `zTri3DConeCircumcenter` returned
NULL, which the code passes to `zVec3DNorm` (NULL dereference). -/
def Sphere3.from4 (v1 v2 v3 v4 : Vec3 ℝ) : Option (Sphere3 ℝ) :=
  let c := Tri3.coneCircumcenter (v2.sub v1) (v3.sub v1) (v4.sub v1)
  if c.1 = true then some ⟨c.2.add v1, c.2.norm⟩ else none
/-- `zSphere3DVolume`, src/zeo_elem3d_sphere.c:134-137. -/
def Sphere3.volume (s : Sphere3 ℝ) : ℝ := 4 * Real.pi * s.radius ^ 3 / 3
/-- `zDisk2DDistFromPoint`, src/zeo_elem2d_disk.c:22-25. -/
def Disk2.distFromPoint (s : Disk2 ℝ) (p : Vec2 ℝ) : ℝ := s.center.dist p - s.radius
/-- `zDisk2DPointIsInside`, src/zeo_elem2d_disk.c:28-31. -/
def Disk2.pointIsInside (s : Disk2 ℝ) (p : Vec2 ℝ) (margin : ℝ) : Prop := s.distFromPoint p < margin
/-- `zDisk2DFrom2`, src/zeo_elem2d_disk.c:34-39. -/
def Disk2.from2 (v1 v2 : Vec2 ℝ) : Disk2 ℝ := ⟨v1.mid v2, (v1.mid v2).dist v1⟩
/-- `zDisk2DFrom3`, src/zeo_elem2d_disk.c:42-50. -/
def Disk2.from3 (v1 v2 v3 : Vec2 ℝ) : Disk2 ℝ :=
  ⟨Tri2.circumcenter v1 v2 v3, (Tri2.circumcenter v1 v2 v3).dist v3⟩
end
end Zeo
