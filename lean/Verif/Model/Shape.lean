import Verif.Model.Elem

/-! # Cylinders, cones and capsules

src/zeo_shape3d_cyl.c, src/zeo_shape3d_cone.c, src/zeo_shape3d_capsule.c.

Arithmetic is exact (ℝ).  `τ` is `zTOL`.  The number of divisions used for the conversion to a
polyhedron is not part of these structures; the conversions are in `Model/Mesh.lean`. -/

namespace Zeo

/-- `zCyl3D` (also `zCapsule3D`, which is the same structure), include/zeo/zeo_shape3d_cyl.h:22-26:
the two base centers and the radius. -/
@[ext] structure Cyl (K : Type*) where
  c0 : Vec3 K
  c1 : Vec3 K
  radius : K

/-- `zCone3D`, include/zeo/zeo_shape3d_cone.h:21-26. -/
@[ext] structure Cone (K : Type*) where
  center : Vec3 K
  vert : Vec3 K
  radius : K

section Field
variable {K : Type*} [Field K] [LinearOrder K] [IsStrictOrderedRing K]

/-- `zCyl3DAxis`, include/zeo/zeo_shape3d_cyl.h:95. -/
def Cyl.axis (c : Cyl K) : Vec3 K := c.c1.sub c.c0
/-- `zCone3DAxis`, include/zeo/zeo_shape3d_cone.h:93. -/
def Cone.axis (c : Cone K) : Vec3 K := c.vert.sub c.center
/-- `zCyl3DXform`, src/zeo_shape3d_cyl.c:50-57 (and `zCapsule3DXform`, the same function). -/
def Cyl.xform (c : Cyl K) (f : Frame3 K) : Cyl K := ⟨f.xform c.c0, f.xform c.c1, c.radius⟩
/-- `zCyl3DXformInv`, src/zeo_shape3d_cyl.c:60-67. -/
def Cyl.xformInv (c : Cyl K) (f : Frame3 K) : Cyl K := ⟨f.xformInv c.c0, f.xformInv c.c1, c.radius⟩
/-- `zCone3DXform`, src/zeo_shape3d_cone.c:49-56. -/
def Cone.xform (c : Cone K) (f : Frame3 K) : Cone K := ⟨f.xform c.center, f.xform c.vert, c.radius⟩
/-- `zCone3DXformInv`, src/zeo_shape3d_cone.c:59-66. -/
def Cone.xformInv (c : Cone K) (f : Frame3 K) : Cone K := ⟨f.xformInv c.center, f.xformInv c.vert, c.radius⟩
/-- `zCyl3DBarycenter`, src/zeo_shape3d_cyl.c:150-153. -/
def Cyl.barycenter (c : Cyl K) : Vec3 K := c.c0.mid c.c1
/-- `zCone3DBarycenter`, src/zeo_shape3d_cone.c:170-173. -/
def Cone.barycenter (c : Cone K) : Vec3 K := c.center.interDiv c.vert (1/4)
end Field

noncomputable section Real
open Classical

/-- The variables set by `_zCyl3DClosestPrep`, src/zeo_shape3d_cyl.c:69-76, and
`_zCapsule3DClosestPrep`, src/zeo_shape3d_capsule.c:13-20. -/
structure CylPrep where
  axis : Vec3 ℝ
  v : Vec3 ℝ
  l : ℝ
  r : ℝ
  d : ℝ

/-- `_zCyl3DClosestPrep`, src/zeo_shape3d_cyl.c:69-76.  The in-place normalization keeps the axis
and returns 0 when the axis is tiny. -/
def Cyl.prep (τ : ℝ) (c : Cyl ℝ) (p : Vec3 ℝ) : CylPrep :=
  let n := c.axis.normalize τ c.axis
  let v := p.sub c.c0
  { axis := n.2, v := v, l := n.1, r := v.outerNorm n.2, d := n.2.inner v }

/-- `zCyl3DClosest`, src/zeo_shape3d_cyl.c:79-108: (return value, `*closestpoint`). -/
def Cyl.closest (τ : ℝ) (c : Cyl ℝ) (p : Vec3 ℝ) : ℝ × Vec3 ℝ :=
  let q := c.prep τ p
  if 0 ≤ q.d ∧ q.d ≤ q.l then
    if q.r ≤ c.radius then (0, p)
    else
      let v := q.v.sub (q.axis.mul q.d)
      (q.r - c.radius, p.cat (-(q.r - c.radius) / v.norm) v)
  else
    let d := if q.l < q.d then q.d - q.l else q.d
    let o := if q.l < q.d then c.c1 else c.c0
    let cp := p.cat (-d) q.axis
    if q.r ≤ c.radius then (-d, cp)
    else (Real.sqrt ((q.r - c.radius)^2 + d^2), o.cat (c.radius / q.r) (cp.sub o))

/-- `zCyl3DDistFromPoint`, src/zeo_shape3d_cyl.c:111-122. -/
def Cyl.distFromPoint (τ : ℝ) (c : Cyl ℝ) (p : Vec3 ℝ) : ℝ :=
  let q := c.prep τ p
  if 0 ≤ q.d ∧ q.d ≤ q.l then
    if q.r ≤ c.radius then 0 else q.r - c.radius
  else
    let d := if q.l < q.d then q.d - q.l else q.d
    if q.r ≤ c.radius then -d else Real.sqrt ((q.r - c.radius)^2 + d^2)

/-- `zCyl3DPointIsInside`, src/zeo_shape3d_cyl.c:125-133. -/
def Cyl.pointIsInside (τ : ℝ) (c : Cyl ℝ) (p : Vec3 ℝ) (margin : ℝ) : Prop :=
  let q := c.prep τ p
  if margin ≤ q.r - c.radius then False else -margin < q.d ∧ q.d < q.l + margin

/-- `zCyl3DHeight`, src/zeo_shape3d_cyl.c:136-141. -/
def Cyl.height (c : Cyl ℝ) : ℝ := c.axis.norm
/-- `zCyl3DVolume`, src/zeo_shape3d_cyl.c:144-147. -/
def Cyl.volume (c : Cyl ℝ) : ℝ := Real.pi * c.radius^2 * c.height

/-- The common last step of the three `BaryInertia` functions: rotate an aligned diagonal tensor by
the attitude built from the axis (src/zeo_shape3d_cyl.c:170-171).  `none`: `zVec3DOrthonormalSpace`
failed, and the attitude columns are uninitialised. -/
def axisInertia (τ ixx izz : ℝ) (axis : Vec3 ℝ) : Option (Mat3 ℝ) :=
  (axis.orthonormalSpace τ).map fun s =>
    Mat3.rotMat ⟨s.2.1, s.2.2, s.1⟩ (Mat3.create ixx 0 0 0 ixx 0 0 0 izz)

/-- `zCyl3DBaryInertiaMass`, src/zeo_shape3d_cyl.c:156-172. -/
def Cyl.baryInertiaMass (τ : ℝ) (c : Cyl ℝ) (mass : ℝ) : Option (Mat3 ℝ) :=
  let rr := 3 * mass * c.radius^2
  let hh := mass * c.axis.sqrNorm
  axisInertia τ ((rr + hh) / 12) (rr / 6) c.axis
/-- `zCyl3DBaryInertia`, src/zeo_shape3d_cyl.c:175-178. -/
def Cyl.baryInertia (τ : ℝ) (c : Cyl ℝ) (density : ℝ) : Option (Mat3 ℝ) :=
  c.baryInertiaMass τ (density * c.volume)

/-- `zCone3DClosest`, src/zeo_shape3d_cone.c:69-105.  `none`: the radius is zero or the axis is tiny
(so that `l = 0`) and the comparisons involve the infinities and NaNs of a division by zero. -/
def Cone.closest (τ : ℝ) (c : Cone ℝ) (p : Vec3 ℝ) : Option (ℝ × Vec3 ℝ) :=
  let na := c.axis.normalize τ c.axis
  let axis := na.2
  let l := na.1
  let v := p.sub c.center
  let d := axis.inner v
  let s0 := v.cat (-d) axis
  let ns := s0.normalize τ s0
  let s := ns.2
  let r := ns.1
  if c.radius = 0 ∨ l = 0 then none
  else if d < 0 ∧ r < c.radius then some (-d, p.cat (-d) axis)
  else if 0 ≤ d ∧ r < l * (d - l) / c.radius then some (Real.sqrt ((d - l)^2 + r * r), c.vert)
  else if 0 ≤ d ∧ d / l + r / c.radius ≤ 1 then some (0, p)
  else if 0 ≤ d ∧ r ≤ l * d / c.radius + c.radius then
    let g0 := (s.mul c.radius).cat (-l) axis
    let g := (g0.normalize τ g0).2
    let v := p.sub c.vert
    let cp := c.vert.cat (v.inner g) g
    some (p.dist cp, cp)
  else some (Real.sqrt (d * d + (r - c.radius)^2), c.center.cat c.radius s)

/-- `zCone3DDistFromPoint`, src/zeo_shape3d_cone.c:108-135. -/
def Cone.distFromPoint (τ : ℝ) (c : Cone ℝ) (p : Vec3 ℝ) : Option ℝ :=
  let na := c.axis.normalize τ c.axis
  let axis := na.2
  let l := na.1
  let v := p.sub c.center
  let d := axis.inner v
  let s0 := v.cat (-d) axis
  let ns := s0.normalize τ s0
  let s := ns.2
  let r := ns.1
  if c.radius = 0 ∨ l = 0 then none
  else if d < 0 ∧ r < c.radius then some (-d)
  else if 0 ≤ d ∧ r < l * (d - l) / c.radius then some (Real.sqrt ((d - l)^2 + r * r))
  else if 0 ≤ d ∧ d / l + r / c.radius ≤ 1 then some 0
  else if 0 ≤ d ∧ r ≤ l * d / c.radius + c.radius then
    let g0 := (s.mul c.radius).cat (-l) axis
    let g := (g0.normalize τ g0).2
    some ((p.sub c.vert).outerNorm g)
  else some (Real.sqrt (d * d + (r - c.radius)^2))

/-- `zCone3DPointIsInside`, src/zeo_shape3d_cone.c:138-153.  (The 2D vector is normalized without a
check; it is zero only if the radius and the height are.) -/
def Cone.pointIsInside (τ : ℝ) (c : Cone ℝ) (p : Vec3 ℝ) (margin : ℝ) : Prop :=
  let na := c.axis.normalize τ c.axis
  let v := p.sub c.vert
  let d := -(na.2.inner v)
  if d ≤ -margin ∨ na.1 + margin ≤ d then False
  else
    let p2 : Vec2 ℝ := ⟨d, Real.sqrt (v.sqrNorm - d * d)⟩
    let l0 : Vec2 ℝ := ⟨-c.radius, na.1⟩
    let l2 := l0.mul (1 / l0.norm)
    l2.inner p2 < margin

/-- `zCone3DHeight`, src/zeo_shape3d_cone.c:156-161. -/
def Cone.height (c : Cone ℝ) : ℝ := c.axis.norm
/-- `zCone3DVolume`, src/zeo_shape3d_cone.c:164-167. -/
def Cone.volume (c : Cone ℝ) : ℝ := Real.pi * c.radius^2 * c.height / 3
/-- `zCone3DBaryInertiaMass`, src/zeo_shape3d_cone.c:176-192. -/
def Cone.baryInertiaMass (τ : ℝ) (c : Cone ℝ) (mass : ℝ) : Option (Mat3 ℝ) :=
  let rr := 3 * mass * c.radius^2
  let hh := 3/4 * mass * c.axis.sqrNorm
  axisInertia τ (1/20 * (rr + hh)) (1/10 * rr) c.axis
/-- `zCone3DBaryInertia`, src/zeo_shape3d_cone.c:195-198. -/
def Cone.baryInertia (τ : ℝ) (c : Cone ℝ) (density : ℝ) : Option (Mat3 ℝ) :=
  c.baryInertiaMass τ (density * c.volume)

/-- `zCapsule3DClosest`, src/zeo_shape3d_capsule.c:23-51. -/
def Capsule.closest (τ : ℝ) (c : Cyl ℝ) (p : Vec3 ℝ) : ℝ × Vec3 ℝ :=
  let q := c.prep τ p
  if 0 ≤ q.d ∧ q.d ≤ q.l then
    if q.r ≤ c.radius then (0, p)
    else
      let v := q.v.sub (q.axis.mul q.d)
      (q.r - c.radius, p.cat (-(q.r - c.radius) / v.norm) v)
  else
    let o := if q.l < q.d then c.c1 else c.c0
    let cr := p.sub o
    let r := cr.norm
    if r ≤ c.radius then (0, p) else (r - c.radius, o.cat (c.radius / r) cr)

/-- `zCapsule3DDistFromPoint`, src/zeo_shape3d_capsule.c:54-65. -/
def Capsule.distFromPoint (τ : ℝ) (c : Cyl ℝ) (p : Vec3 ℝ) : ℝ :=
  let q := c.prep τ p
  if 0 ≤ q.d ∧ q.d ≤ q.l then
    if q.r ≤ c.radius then 0 else q.r - c.radius
  else if q.l < q.d then
    let r := p.dist c.c1
    if r < c.radius then 0 else c.radius - r
  else
    let r := p.dist c.c0
    if r < c.radius then 0 else c.radius - r

/-- `zCapsule3DPointIsInside`, src/zeo_shape3d_capsule.c:68-71. -/
def Capsule.pointIsInside (τ : ℝ) (c : Cyl ℝ) (p : Vec3 ℝ) (margin : ℝ) : Prop :=
  Capsule.distFromPoint τ c p < margin

/-- `zCapsule3DHeight`, src/zeo_shape3d_capsule.c:74-77. -/
def Capsule.height (c : Cyl ℝ) : ℝ := c.height + c.radius * 2
/-- `zCapsule3DVolume`, src/zeo_shape3d_capsule.c:80-83. -/
def Capsule.volume (c : Cyl ℝ) : ℝ := c.volume + 4 * Real.pi * c.radius^3 / 3
/-- `zCapsule3DBaryInertia`, src/zeo_shape3d_capsule.c:92-111. -/
def Capsule.baryInertia (τ : ℝ) (c : Cyl ℝ) (density : ℝ) : Option (Mat3 ℝ) :=
  let r := c.radius
  let r2 := r^2
  let h := c.axis.norm
  let m := density * Real.pi
  let izz := m * r2 * r2 * (8 * r / 15 + 1/2 * h)
  let ixx := m * r2 * (r2 * (8 * r / 15 + 3/4 * h) + (r + 1/4 * h) * h * h / 3)
  axisInertia τ ixx izz c.axis
/-- `zCapsule3DBaryInertiaMass`, src/zeo_shape3d_capsule.c:86-89. -/
def Capsule.baryInertiaMass (τ : ℝ) (c : Cyl ℝ) (mass : ℝ) : Option (Mat3 ℝ) :=
  Capsule.baryInertia τ c (mass / Capsule.volume c)

end Real
end Zeo
