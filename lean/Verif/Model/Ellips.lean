import Verif.Model.Shape
import Verif.Model.Box
import Mathlib.Data.Complex.Basic

/-! # Ellipses, ellipsoids, elliptic cylinders; mass properties of spheres and boxes

src/zeo_elem2d_disk.c:53-127, src/zeo_shape3d_ellips.c:14-189, src/zeo_shape3d_ecyl.c:14-206,
src/zeo_elem3d_sphere.c:140-153, src/zeo_elem3d_box.c:240-342.

Arithmetic is exact (ℝ).  `τ` is `zTOL`.  The polynomial root finder `zPexBH` belongs to another
library (ZM) and is not modelled: it is a parameter `solve` that maps the list of coefficients,
constant term first, to the list of computed complex roots.  The division number `div` is only used
by the conversions to polyhedra and is left out. -/

namespace Zeo

/-- `zEllips2D`, include/zeo/zeo_elem2d_disk.h:46-49. -/
@[ext] structure Ellips2 (K : Type*) where
  center : Vec2 K
  r0 : K
  r1 : K

/-- `zEllips3D`, include/zeo/zeo_shape3d_ellips.h:22-26: `zEllips3DCenter` is `f.pos`,
`zEllips3DAxis(e,i)` is column `i` of `f.att` (32-33). -/
@[ext] structure Ellips (K : Type*) where
  radius : Vec3 K
  f : Frame3 K

/-- `zECyl3D`, include/zeo/zeo_shape3d_ecyl.h:21-26: base centers, radii, radial vectors. -/
@[ext] structure ECyl (K : Type*) where
  c0 : Vec3 K
  c1 : Vec3 K
  r0 : K
  r1 : K
  rv0 : Vec3 K
  rv1 : Vec3 K

section Field
variable {K : Type*} [Field K] [LinearOrder K] [IsStrictOrderedRing K]

/-- The statement `v->e[axis] *= -1` of the `Mirror` functions, e.g. src/zeo_elem3d_box.c:243. -/
def Vec3.flip (v : Vec3 K) (axis : Fin 3) : Vec3 K := v.setE axis (v.e axis * -1)

/-- `zCyl3DMirror`, src/zeo_shape3d_cyl.c:41-47 (also `zCapsule3DMirror`). -/
def Cyl.mirror (c : Cyl K) (axis : Fin 3) : Cyl K := ⟨c.c0.flip axis, c.c1.flip axis, c.radius⟩
/-- `zCone3DMirror`, src/zeo_shape3d_cone.c:40-46. -/
def Cone.mirror (c : Cone K) (axis : Fin 3) : Cone K := ⟨c.center.flip axis, c.vert.flip axis, c.radius⟩

/-- `zEllips3DCreate`, src/zeo_shape3d_ellips.c:14-25. -/
def Ellips.create (c ax ay az : Vec3 K) (rx ry rz : K) : Ellips K := ⟨⟨|rx|, |ry|, |rz|⟩, ⟨c, ⟨ax, ay, az⟩⟩⟩
/-- `zEllips3DCreateAlign`, include/zeo/zeo_shape3d_ellips.h:63-64. -/
def Ellips.createAlign (c : Vec3 K) (rx ry rz : K) : Ellips K := Ellips.create c .ex .ey .ez rx ry rz
/-- `zEllips3DCopy`, src/zeo_shape3d_ellips.c:37-44. -/
def Ellips.copy (e : Ellips K) : Ellips K := Ellips.create e.f.pos e.f.att.x e.f.att.y e.f.att.z e.radius.x e.radius.y e.radius.z
/-- `zEllips3DMirror`, src/zeo_shape3d_ellips.c:47-55. -/
def Ellips.mirror (e : Ellips K) (axis : Fin 3) : Ellips K :=
  let d := e.copy
  ⟨d.radius, ⟨d.f.pos.flip axis, ⟨d.f.att.x.flip axis, d.f.att.y.flip axis, d.f.att.z.flip axis⟩⟩⟩
/-- `zEllips3DXform`, src/zeo_shape3d_ellips.c:58-69. -/
def Ellips.xform (e : Ellips K) (f : Frame3 K) : Ellips K :=
  ⟨e.radius, ⟨f.xform e.f.pos, ⟨f.att.mulVec e.f.att.x, f.att.mulVec e.f.att.y, f.att.mulVec e.f.att.z⟩⟩⟩
/-- `zEllips3DXformInv`, src/zeo_shape3d_ellips.c:72-83. -/
def Ellips.xformInv (e : Ellips K) (f : Frame3 K) : Ellips K :=
  ⟨e.radius, ⟨f.xformInv e.f.pos, ⟨f.att.mulTVec e.f.att.x, f.att.mulTVec e.f.att.y, f.att.mulTVec e.f.att.z⟩⟩⟩
/-- `zEllips3DPointIsInside`, src/zeo_shape3d_ellips.c:146-154.  (If a radius plus the margin is zero the
quotients are infinite or NaN and the comparison fails; the model is used with non-zero sums only.) -/
def Ellips.pointIsInside (e : Ellips K) (p : Vec3 K) (margin : K) : Prop :=
  let q := e.f.xformInv p
  (q.x / (e.radius.x + margin)) ^ 2 + (q.y / (e.radius.y + margin)) ^ 2 + (q.z / (e.radius.z + margin)) ^ 2 < 1
/-- `zSphere3DToEllips3D`, src/zeo_shape3d_ellips.c:186-189. -/
def Sphere3.toEllips (s : Sphere3 K) : Ellips K := Ellips.createAlign s.center s.radius s.radius s.radius

/-- `zEllips2DPointIsInside`, src/zeo_elem2d_disk.c:121-127 (same remark on zero sums). -/
def Ellips2.pointIsInside (e : Ellips2 K) (p : Vec2 K) (margin : K) : Prop :=
  ((p.x - e.center.x) / (e.r0 + margin)) ^ 2 + ((p.y - e.center.y) / (e.r1 + margin)) ^ 2 < 1

/-- `zECyl3DAxis`, include/zeo/zeo_shape3d_ecyl.h:65-66. -/
def ECyl.axis (c : ECyl K) : Vec3 K := c.c1.sub c.c0
/-- `zECyl3DMirror`, src/zeo_shape3d_ecyl.c:54-63. -/
def ECyl.mirror (c : ECyl K) (axis : Fin 3) : ECyl K :=
  ⟨c.c0.flip axis, c.c1.flip axis, c.r0, c.r1, c.rv0.flip axis, (c.rv1.flip axis).rev⟩
/-- `zECyl3DXform`, src/zeo_shape3d_ecyl.c:82-92. -/
def ECyl.xform (c : ECyl K) (f : Frame3 K) : ECyl K :=
  ⟨f.xform c.c0, f.xform c.c1, c.r0, c.r1, f.att.mulVec c.rv0, f.att.mulVec c.rv1⟩
/-- `zECyl3DXformInv`, src/zeo_shape3d_ecyl.c:95-105. -/
def ECyl.xformInv (c : ECyl K) (f : Frame3 K) : ECyl K :=
  ⟨f.xformInv c.c0, f.xformInv c.c1, c.r0, c.r1, f.att.mulTVec c.rv0, f.att.mulTVec c.rv1⟩
/-- `zECyl3DBarycenter`, src/zeo_shape3d_ecyl.c:165-168. -/
def ECyl.barycenter (c : ECyl K) : Vec3 K := c.c0.mid c.c1

/-- `zSphere3DBaryInertiaMass`, src/zeo_elem3d_sphere.c:140-147. -/
def Sphere3.baryInertiaMass (s : Sphere3 K) (mass : K) : Mat3 K :=
  let i := 2/5 * mass * s.radius ^ 2
  Mat3.create i 0 0 0 i 0 0 0 i
/-- `zBox3DBaryInertiaMass`, src/zeo_elem3d_box.c:322-336. -/
def Box3.baryInertiaMass (b : Box3 K) (mass : K) : Mat3 K :=
  let c := mass / 12
  let xx := b.span.x ^ 2 * c
  let yy := b.span.y ^ 2 * c
  let zz := b.span.z ^ 2 * c
  b.frame.att.rotMat (Mat3.create (yy + zz) 0 0 0 (zz + xx) 0 0 0 (xx + yy))
/-- `zBox3DBaryInertia`, src/zeo_elem3d_box.c:339-342. -/
def Box3.baryInertia (b : Box3 K) (density : K) : Mat3 K := b.baryInertiaMass (density * b.volume)
/-- `zEllips3DBaryInertiaMass`, src/zeo_shape3d_ellips.c:163-177. -/
def Ellips.baryInertiaMass (e : Ellips K) (mass : K) : Mat3 K :=
  let c := 1/5 * mass
  let xx := e.radius.x ^ 2 * c
  let yy := e.radius.y ^ 2 * c
  let zz := e.radius.z ^ 2 * c
  e.f.att.rotMat (Mat3.create (yy + zz) 0 0 0 (zz + xx) 0 0 0 (xx + yy))
end Field

noncomputable section Real
open Classical

/-- `zSphere3DBaryInertia`, src/zeo_elem3d_sphere.c:150-153. -/
def Sphere3.baryInertia (s : Sphere3 ℝ) (density : ℝ) : Mat3 ℝ := s.baryInertiaMass (density * s.volume)
/-- `zEllips3DVolume`, src/zeo_shape3d_ellips.c:157-160. -/
def Ellips.volume (e : Ellips ℝ) : ℝ := 4 * Real.pi * e.radius.x * e.radius.y * e.radius.z / 3
/-- `zEllips3DBaryInertia`, src/zeo_shape3d_ellips.c:180-183. -/
def Ellips.baryInertia (e : Ellips ℝ) (density : ℝ) : Mat3 ℝ := e.baryInertiaMass (density * e.volume)

/-- `zBox3DMirror`, src/zeo_elem3d_box.c:240-248.  `zBox3DCopy` goes through `zBox3DCreate`, which
normalizes the axes again; `old` as in `Box3.create`. -/
def Box3.mirror (τ : ℝ) (b : Box3 ℝ) (axis : Fin 3) (old : Mat3 ℝ) : Box3 ℝ :=
  let d := Box3.create τ b.frame.pos b.frame.att.x b.frame.att.y b.frame.att.z b.span.x b.span.y b.span.z old
  ⟨d.span, ⟨d.frame.pos.flip axis, ⟨d.frame.att.x.flip axis, d.frame.att.y.flip axis, d.frame.att.z.flip axis⟩⟩⟩

/-- The root-picking loop of `_zEllips2DClosest` (src/zeo_elem2d_disk.c:92-97) and `_zEllips3DClosest`
(src/zeo_shape3d_ellips.c:112-117): the first computed root with a non-negative real part, which has to
have a tiny imaginary part.  `none`: the error branch. -/
def pickRoot (τ : ℝ) (roots : List ℂ) : Option ℝ :=
  match roots.find? (fun z => decide (0 ≤ z.re)) with
  | none => none
  | some z => if zIsTol z.im τ then some z.re else none

/-- The coefficients set up by `_zEllips2DClosest`, src/zeo_elem2d_disk.c:84-88, constant term first. -/
def ellips2Coeff (x2 y2 r02 r12 : ℝ) : List ℝ :=
  [(r02 * r12 - x2 * r12 - y2 * r02) * r02 * r12, 2 * (r02 + r12 - x2 - y2) * r02 * r12,
   r02 * r02 + 4 * r02 * r12 + r12 * r12 - x2 * r02 - y2 * r12, 2 * (r02 + r12), 1]

/-- `zEllips2DClosest`, src/zeo_elem2d_disk.c:66-109 with margin 0.  `none`: NULL. -/
def Ellips2.closest (solve : List ℝ → List ℂ) (τ : ℝ) (e : Ellips2 ℝ) (p : Vec2 ℝ) : Option (Vec2 ℝ) :=
  let v := p.sub e.center
  let x2 := v.x ^ 2
  let y2 := v.y ^ 2
  let r02 := (e.r0 + 0) ^ 2
  let r12 := (e.r1 + 0) ^ 2
  if x2 / r02 + y2 / r12 > 1 then
    (pickRoot τ (solve (ellips2Coeff x2 y2 r02 r12))).map fun l =>
      (⟨v.x / (1 + l / r02), v.y / (1 + l / r12)⟩ : Vec2 ℝ).add e.center
  else some p
/-- `zEllips2DDistFromPoint`, src/zeo_elem2d_disk.c:112-118.  `none`: `HUGE_VAL`. -/
def Ellips2.distFromPoint (solve : List ℝ → List ℂ) (τ : ℝ) (e : Ellips2 ℝ) (p : Vec2 ℝ) : Option ℝ :=
  (e.closest solve τ p).map fun cp => cp.dist p

/-- The coefficients set up by `_zEllips3DClosest`, src/zeo_shape3d_ellips.c:93-108, constant term first. -/
def ellipsCoeff (a b c p q r : ℝ) : List ℝ :=
  let p2 := p * p
  let q2 := q * q
  let r2 := r * r
  let pqr := p * q * r
  [(1 - a - b - c) * pqr * pqr,
   2 * pqr * ((1 - b - a) * p * q + (1 - a - c) * r * p + (1 - c - b) * q * r),
   (1 - b - a) * p2 * q2 + (1 - a - c) * p2 * r2 + (1 - c - b) * q2 * r2 + 4 * pqr * ((1 - a) * p + (1 - b) * q + (1 - c) * r),
   2 * (1 - a) * (q + r) * p2 + 2 * (1 - b) * (r + p) * q2 + 2 * (1 - c) * (p + q) * r2 + 8 * p * q * r,
   (1 - a) * p2 + (1 - c) * r2 + (1 - b) * q2 + 4 * (p * q + q * r + r * p),
   2 * (p + q + r), 1]

/-- `_zEllips3DClosest`, src/zeo_shape3d_ellips.c:86-121.  `none`: NULL. -/
def ellipsClosest (solve : List ℝ → List ℂ) (τ rx ry rz : ℝ) (v : Vec3 ℝ) : Option (Vec3 ℝ) :=
  let a := (v.x / rx) ^ 2
  let b := (v.y / ry) ^ 2
  let c := (v.z / rz) ^ 2
  let p := rx * rx
  let q := ry * ry
  let r := rz * rz
  (pickRoot τ (solve (ellipsCoeff a b c p q r))).map fun l => ⟨v.x / (1 + l / p), v.y / (1 + l / q), v.z / (1 + l / r)⟩

/-- `zEllips3DClosest`, src/zeo_shape3d_ellips.c:124-137: (return value, `*cp`).  `none`: the NULL result of
`_zEllips3DClosest` is ignored and the previous content of `*cp` is transformed. -/
def Ellips.closest (solve : List ℝ → List ℂ) (τ : ℝ) (e : Ellips ℝ) (p : Vec3 ℝ) : Option (ℝ × Vec3 ℝ) :=
  if e.pointIsInside p τ then some (0, p)
  else (ellipsClosest solve τ e.radius.x e.radius.y e.radius.z (e.f.xformInv p)).map fun c =>
    (p.dist (e.f.xform c), e.f.xform c)
/-- `zEllips3DDistFromPoint`, src/zeo_shape3d_ellips.c:140-144. -/
def Ellips.distFromPoint (solve : List ℝ → List ℂ) (τ : ℝ) (e : Ellips ℝ) (p : Vec3 ℝ) : Option ℝ :=
  (e.closest solve τ p).map Prod.fst

/-- `zECyl3DDefAxis`, src/zeo_shape3d_ecyl.c:66-79.  `ref = none` is a NULL pointer; the in-place
normalizations keep a tiny vector; `zVec3DOrthogonalize` leaves the radial vector when the axis is tiny,
and so does (in this model) `zVec3DOrthoSpace`, which then has written one of them already. -/
def ECyl.defAxis (τ : ℝ) (c : ECyl ℝ) (ref : Option (Vec3 ℝ)) : ECyl ℝ :=
  let axis := c.axis
  let noref :=
    match axis.orthoSpace τ with
    | none => c
    | some (s1, s2) => { c with rv0 := s1, rv1 := s2 }
  match ref with
  | none => noref
  | some ref =>
    if ref.isTol τ then noref
    else
      let o := (Vec3.orthogonalize τ ref axis).getD c.rv0
      let rv0 := (o.normalize τ o).2
      let n := axis.outer rv0
      { c with rv0 := rv0, rv1 := (n.normalize τ n).2 }
/-- `zECyl3DCreate`, src/zeo_shape3d_ecyl.c:14-23; `old` supplies the radial vectors the structure held. -/
def ECyl.create (τ : ℝ) (c0 c1 : Vec3 ℝ) (r0 r1 : ℝ) (ref : Option (Vec3 ℝ)) (old : ECyl ℝ) : ECyl ℝ :=
  (ECyl.mk c0 c1 r0 r1 old.rv0 old.rv1).defAxis τ ref
/-- `zCyl3DToECyl3D`, src/zeo_shape3d_ecyl.c:199-206.  `none`: `zVec3DOrthonormalSpace` failed and the
reference vector is uninitialised. -/
def Cyl.toECyl (τ : ℝ) (c : Cyl ℝ) (old : ECyl ℝ) : Option (ECyl ℝ) :=
  (c.axis.orthonormalSpace τ).map fun s => ECyl.create τ c.c0 c.c1 c.radius c.radius (some s.2.1) old

/-- `zECyl3DClosest`, src/zeo_shape3d_ecyl.c:108-123: (return value, `*closestpoint`).  `none`: the matrix
of the radial vectors and the axis cannot be balanced, or the 2D search failed (its NULL result is
ignored and uninitialised coordinates are used). -/
def ECyl.closest (solve : List ℝ → List ℂ) (τ : ℝ) (c : ECyl ℝ) (p : Vec3 ℝ) (old : Mat3 ℝ) : Option (ℝ × Vec3 ℝ) :=
  let v := p.sub c.c0
  let axis := c.axis
  match Mat3.catRatio τ c.rv0 c.rv1 axis v old with
  | none => none
  | some vs =>
    match Ellips2.closest solve τ ⟨⟨0, 0⟩, c.r0, c.r1⟩ ⟨vs.x, vs.y⟩ with
    | none => none
    | some vc =>
      let z := zLimit vs.z 0 1
      let cp := ((c.c0.cat z axis).cat vc.x c.rv0).cat vc.y c.rv1
      some (cp.dist p, cp)
/-- `zECyl3DPointIsInside`, src/zeo_shape3d_ecyl.c:134-147.  When the matrix cannot be balanced the
coordinates are NaN: `False` here (all comparisons fail; the first two do not return). -/
def ECyl.pointIsInside (τ : ℝ) (c : ECyl ℝ) (p : Vec3 ℝ) (margin : ℝ) (old : Mat3 ℝ) : Prop :=
  let v := p.sub c.c0
  let n := c.axis.normalize τ c.axis
  match Mat3.catRatio τ c.rv0 c.rv1 n.2 v old with
  | none => False
  | some vs =>
    if vs.z ≤ -margin ∨ n.1 + margin ≤ vs.z then False
    else Ellips2.pointIsInside ⟨⟨0, 0⟩, c.r0, c.r1⟩ ⟨vs.x, vs.y⟩ margin
/-- `zECyl3DHeight`, src/zeo_shape3d_ecyl.c:150-155. -/
def ECyl.height (c : ECyl ℝ) : ℝ := c.axis.norm
/-- `zECyl3DVolume`, src/zeo_shape3d_ecyl.c:159-162. -/
def ECyl.volume (c : ECyl ℝ) : ℝ := Real.pi * c.r0 * c.r1 * c.height
/-- `zECyl3DBaryInertiaMass`, src/zeo_shape3d_ecyl.c:171-190. -/
def ECyl.baryInertiaMass (τ : ℝ) (c : ECyl ℝ) (mass : ℝ) : Mat3 ℝ :=
  let aa := 1/4 * mass * c.r0 ^ 2
  let bb := 1/4 * mass * c.r1 ^ 2
  let hh := c.axis.sqrNorm * mass / 12
  Mat3.rotMat ⟨c.rv0, c.rv1, (c.axis.normalize τ c.axis).2⟩
    (Mat3.create (bb + hh) 0 0 0 (aa + hh) 0 0 0 (aa + bb))
/-- `zECyl3DBaryInertia`, src/zeo_shape3d_ecyl.c:193-196. -/
def ECyl.baryInertia (τ : ℝ) (c : ECyl ℝ) (density : ℝ) : Mat3 ℝ := c.baryInertiaMass τ (density * c.volume)

end Real
end Zeo
