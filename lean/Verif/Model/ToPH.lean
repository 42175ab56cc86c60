import Verif.Model.MeshGen
import Verif.Model.ShapeAny

/-! # Conversion of shapes to polyhedra

The class methods `_toph`, `zShape3DToPH` (src/zeo_shape3d.c:160-180) and `zMultiShape3DToPH`
(src/zeo_multishape3d.c:121-128). The meshes are those of `Model/MeshGen.lean`. `.error .null` is the return value
NULL; `.error .undef`: the loops write behind the face buffer (`C41_div_one_overflow`) or `zVec3DRot` leaves its
result unset; `.error .unmodelled`: the number of divisions of a capsule is not a multiple of four, so that vertices
and faces stay as allocated (`C41_capsule_unassigned`). Allocation is assumed to succeed. NURBS shapes are not
modelled. -/

namespace Zeo.Gen
noncomputable section

/-- Vertices of `zEllips3DToPH`, src/zeo_shape3d_ellips.c:207-225. -/
def ellipsVert (e : Ellips ℝ) (div n : ℕ) : Vec3 ℝ :=
  if n = 0 then e.f.xform (Vec3.ez.mul e.radius.z)
  else if n = div * (div - 1) + 1 then e.f.xform (Vec3.ez.mul (-e.radius.z))
  else
    let i := (n - 1) / div + 1
    let j := (n - 1) % div
    let a := Real.pi * i / div
    let t := 2 * Real.pi * j / div
    e.f.xform ⟨Real.sin a * Real.cos t * e.radius.x, Real.sin a * Real.sin t * e.radius.y, Real.cos a * e.radius.z⟩

/-- Vertices of `zECyl3DToPH`, src/zeo_shape3d_ecyl.c:227-235. -/
def ecylVert (c : ECyl ℝ) (div n : ℕ) : Vec3 ℝ :=
  let t := 2 * Real.pi * (if n < div then n else n - div : ℕ) / div
  let r := (c.rv0.mul (c.r0 * Real.cos t)).cat (c.r1 * Real.sin t) c.rv1
  if n < div then c.c0.add r else c.c1.add r

/-- Vertices of `zCapsule3DToPH`, src/zeo_shape3d_capsule.c:132-161, for a number of divisions which is a multiple
of four. -/
def capsuleVert (τ : ℝ) (c : Cyl ℝ) (div n : ℕ) : Option (Vec3 ℝ) :=
  let d := c.c1.sub c.c0
  let u := (Vec3.normalize τ d d).2
  let s := (Vec3.orthonormal τ u).2.mul c.radius
  let dr := u.mul c.radius
  let nh := div / 4
  if n = 0 then some (c.c1.add dr)
  else if n ≤ nh * div then
    let lat := Real.pi / 2 * ((n - 1) / div + 1 : ℕ) / nh
    (rim τ u ((dr.mul (Real.cos lat)).cat (Real.sin lat) s) div ((n - 1) % div)).map fun v => v.add c.c1
  else if n ≤ 2 * nh * div then
    let lat := Real.pi / 2 * (nh - (n - 1 - nh * div) / div : ℕ) / nh
    (rim τ u ((dr.rev.mul (Real.cos lat)).cat (Real.sin lat) s) div ((n - 1 - nh * div) % div)).map fun v => v.add c.c0
  else some (c.c0.add dr.rev)

/-- A mesh whose vertices are all set. -/
def setPH (τ : ℝ) (m : Mesh) (vert : ℕ → Option (Vec3 ℝ)) : Except ZTK.Err (PH ℝ) :=
  if (List.range m.nv).all (fun n => (vert n).isSome) then .ok (toPH τ m fun n => (vert n).getD .zero) else .error .undef

end
end Zeo.Gen

namespace Zeo.ZTK
noncomputable section
open Classical

/-- The class methods `_toph`: `zBox3DToPH`, src/zeo_shape3d_box.c:15-29, `zSphere3DToPH`,
src/zeo_shape3d_sphere.c:11-58, `zEllips3DToPH`, src/zeo_shape3d_ellips.c:192-241, `zCyl3DToPH`,
src/zeo_shape3d_cyl.c:181-226, `zECyl3DToPH`, src/zeo_shape3d_ecyl.c:209-254, `zCapsule3DToPH`,
src/zeo_shape3d_capsule.c:114-181, `zCone3DToPH`, src/zeo_shape3d_cone.c:202-237.  A polyhedron is not converted. -/
def Body.toPH (τ : ℝ) : Body → Except Err (PH ℝ)
  | .box b => .ok (Gen.boxPH τ b)
  | .sphere s => if s.div < 2 then .error .undef else .ok (Gen.spherePH τ s.body s.div.toNat)
  | .ellips e => if e.div < 2 then .error .undef else .ok (Gen.toPH τ (Gen.sphere e.div.toNat) (Gen.ellipsVert e.body e.div.toNat))
  | .cyl c =>
    if (c.body.c1.sub c.body.c0).isTol τ then .error .null
    else if c.div < 2 then .error .undef
    else Gen.setPH τ (Gen.cyl c.div.toNat) (Gen.cylVert τ c.body c.div.toNat)
  | .ecyl c =>
    if (c.body.axis.normalize τ c.body.axis).1 < 0 then .error .null
    else if c.div < 2 then .error .undef
    else .ok (Gen.toPH τ (Gen.cyl c.div.toNat) (Gen.ecylVert c.body c.div.toNat))
  | .capsule c =>
    if (c.body.c1.sub c.body.c0).isTol τ then .error .null
    else if c.div < 2 then .error .undef
    else if c.div % 4 ≠ 0 then .error .unmodelled
    else Gen.setPH τ (Gen.capsule c.div.toNat) (Gen.capsuleVert τ c.body c.div.toNat)
  | .cone c =>
    if (c.body.vert.sub c.body.center).isTol τ then .error .null
    else if c.div < 2 then .error .undef
    else Gen.setPH τ (Gen.cone c.div.toNat) (Gen.coneVert τ c.body c.div.toNat)
  | .ph q => .ok q

/-- `zShape3DToPH`, src/zeo_shape3d.c:160-180: (whether it succeeds, the shape afterwards). -/
def Body.convert (τ : ℝ) (b : Body) : Except Err (Bool × Body) :=
  match b.toPH τ with
  | .ok q => .ok (true, .ph q)
  | .error .null => .ok (false, b)
  | .error e => .error e

/-- `zMultiShape3DToPH`, src/zeo_multishape3d.c:121-128: (whether it succeeds, the shapes afterwards). -/
def multiToPH (τ : ℝ) : List Body → Except Err (Bool × List Body)
  | [] => .ok (true, [])
  | b :: l => do
    let r ← b.convert τ
    if r.1 then
      let s ← multiToPH τ l
      return (s.1, r.2 :: s.2)
    else return (false, r.2 :: l)

end
end Zeo.ZTK
