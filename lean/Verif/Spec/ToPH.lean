import Verif.Spec.Solids
import Verif.Props.C62

/-! # Where the vertices of a converted shape belong -/

namespace Zeo.Spec
open Zeo ZTK

/-- The corners of a box, the surface of a sphere or an ellipsoid, the two rims of a cylinder or an elliptic cylinder,
the two hemispheres of a capsule, the apex and the rim of a cone. -/
def frame : Body → Set (Vec3 ℝ)
  | .box b => {p | ∃ s t u, 2 * |s| = b.span.x ∧ 2 * |t| = b.span.y ∧ 2 * |u| = b.span.z ∧ p = oboxPoint b s t u}
  | .sphere s => {q | ed s.body.center q = s.body.radius}
  | .ellips e => {q | ∃ X Y Z, (X / e.body.radius.x) ^ 2 + (Y / e.body.radius.y) ^ 2 + (Z / e.body.radius.z) ^ 2 = 1 ∧
      q.x = e.body.f.pos.x + X * e.body.f.att.x.x + Y * e.body.f.att.y.x + Z * e.body.f.att.z.x ∧
      q.y = e.body.f.pos.y + X * e.body.f.att.x.y + Y * e.body.f.att.y.y + Z * e.body.f.att.z.y ∧
      q.z = e.body.f.pos.z + X * e.body.f.att.x.z + Y * e.body.f.att.y.z + Z * e.body.f.att.z.z}
  | .cyl c => {q | ∃ m, (m = c.body.c0 ∨ m = c.body.c1) ∧ Perp m q c.body.c0 c.body.c1 ∧ ed m q = c.body.radius}
  | .ecyl c => {q | ∃ m, (m = c.body.c0 ∨ m = c.body.c1) ∧ ∃ s t, (s / c.body.r0) ^ 2 + (t / c.body.r1) ^ 2 = 1 ∧
      q.x = m.x + s * c.body.rv0.x + t * c.body.rv1.x ∧ q.y = m.y + s * c.body.rv0.y + t * c.body.rv1.y ∧
      q.z = m.z + s * c.body.rv0.z + t * c.body.rv1.z}
  | .capsule c => {q | (ed c.body.c1 q = c.body.radius ∧ 0 ≤ dot (q.sub c.body.c1) (c.body.c1.sub c.body.c0)) ∨
      (ed c.body.c0 q = c.body.radius ∧ dot (q.sub c.body.c0) (c.body.c1.sub c.body.c0) ≤ 0)}
  | .cone c => {q | q = c.body.vert ∨ (Perp c.body.center q c.body.center c.body.vert ∧ ed c.body.center q = c.body.radius)}
  | .ph _ => ∅

/-- Numbers of divisions for which the buffers are as large as what is written to them. -/
def GoodDiv : Body → Prop
  | .box _ => True
  | .sphere s => 2 ≤ s.div
  | .ellips e => 2 ≤ e.div
  | .cyl c => 2 ≤ c.div
  | .ecyl c => 2 ≤ c.div
  | .capsule c => 2 ≤ c.div ∧ c.div % 4 = 0
  | .cone c => 2 ≤ c.div
  | .ph _ => True

/-- Numbers of vertices and faces. -/
def meshSize : Body → ℕ × ℕ
  | .box _ => (8, 12)
  | .sphere s => (s.div.toNat * (s.div.toNat - 1) + 2, s.div.toNat * (s.div.toNat - 1) * 2)
  | .ellips e => (e.div.toNat * (e.div.toNat - 1) + 2, e.div.toNat * (e.div.toNat - 1) * 2)
  | .cyl c => (c.div.toNat * 2, (c.div.toNat - 1) * 4)
  | .ecyl c => (c.div.toNat * 2, (c.div.toNat - 1) * 4)
  | .capsule c => (c.div.toNat * c.div.toNat / 2 + 2, c.div.toNat * c.div.toNat)
  | .cone c => (c.div.toNat + 1, c.div.toNat * 2 - 2)
  | .ph q => (q.nv, q.face.length)

end Zeo.Spec
