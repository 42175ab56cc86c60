import Verif.Model.QHull
import Verif.Model.Shape

/-! # Oriented bounding box of points in space: src/zeo_bv3d_obb.c

A polyhedron without faces would leave `bot` NULL, and an empty rim would leave two axes unset. Both outcomes are
`none` in the functions that meet them. `HUGE_VAL` is `none` in the running minima. -/

namespace Zeo
namespace OBB
noncomputable section
open Classical

/-- The inner loop of `_zOBB3DMinDir`, src/zeo_bv3d_obb.c:19-21. -/
def depth (ph : PH ℝ) (f : Face ℝ) : ℝ :=
  (List.range ph.nv).foldl (fun l j =>
    let ls := -(ph.tri f).distFromPointToPlane (ph.vert j)
    if ls > l then ls else l) 0

/-- One round of the outer loop of `_zOBB3DMinDir`, src/zeo_bv3d_obb.c:18-26; the state is `bot` and the height. -/
def minStep (ph : PH ℝ) (st : Option (Face ℝ × ℝ)) (f : Face ℝ) : Option (Face ℝ × ℝ) :=
  match st with
  | none => some (f, depth ph f)
  | some (b, h) => if depth ph f < h then some (f, depth ph f) else some (b, h)

/-- `_zOBB3DMinDir`, src/zeo_bv3d_obb.c:11-34: the face `bot` and the height. `none`: `bot` is NULL. -/
def minDir (ph : PH ℝ) : Option (Face ℝ × ℝ) := ph.face.foldl (minStep ph) none

/-- Smallest and largest value in the loop of `_zOBB3DRect`, src/zeo_bv3d_obb.c:42-51, for one direction. -/
def range (d : Vec3 ℝ) (t : Vec3 ℝ) (l : List (Vec3 ℝ)) : ℝ × ℝ :=
  l.foldl (fun m v => (if d.inner v < m.1 then d.inner v else m.1, if d.inner v > m.2 then d.inner v else m.2))
    (d.inner t, d.inner t)

/-- What `_zOBB3DRect` finds. -/
structure Rect where
  d1 : Vec3 ℝ
  d2 : Vec3 ℝ
  c : Vec3 ℝ
  l1 : ℝ
  l2 : ℝ

/-- `_zOBB3DRect`, src/zeo_bv3d_obb.c:37-55; `t` is the tail of the list. The area is `l1 * l2`. -/
def rect (t : Vec3 ℝ) (edge : List (Vec3 ℝ)) (d1 d2 : Vec3 ℝ) : Rect where
  d1 := d1
  d2 := d2
  c := (d1.mul (1 / 2 * ((range d1 t edge).2 + (range d1 t edge).1))).cat
    (1 / 2 * ((range d2 t edge).2 + (range d2 t edge).1)) d2
  l1 := (range d1 t edge).2 - (range d1 t edge).1
  l2 := (range d2 t edge).2 - (range d2 t edge).1

/-- One round of the loop of `_zOBB3DMaxDir`, src/zeo_bv3d_obb.c:81-95, on the cells `vp2`, `vp1`. -/
def maxStep (τ : ℝ) (z t : Vec3 ℝ) (rim : List (Vec3 ℝ)) (st : Option Rect) (vp : Vec3 ℝ × Vec3 ℝ) : Option Rect :=
  let e1 := vp.1.sub vp.2
  let e2 := z.outer e1
  let r := rect t rim (e1.normalize τ e1).2 (e2.normalize τ e2).2
  match st with
  | none => some r
  | some s => if r.l1 * r.l2 < s.l1 * s.l2 then some r else some s

/-- The loop of `_zOBB3DMaxDir`, src/zeo_bv3d_obb.c:76-95. `vp1` runs from the tail to the head, `vp2` is the cell
before it, the head in the first round. -/
def maxLoop (τ : ℝ) (z : Vec3 ℝ) (rim : List (Vec3 ℝ)) : Option Rect :=
  match rim, rim.getLast? with
  | t :: _, some h => ((h :: rim).zip rim).foldl (maxStep τ z t rim) none
  | _, _ => none

/-- The shift of a vertex in `_zOBB3DMaxDir`, src/zeo_bv3d_obb.c:68-72. -/
def flatten (c z v : Vec3 ℝ) : Vec3 ℝ := (Plane3.projPoint ⟨c, z⟩ v).2.sub c

/-- `zVec3DDataOBB`, src/zeo_bv3d_obb.c:103-112, with `_zOBB3DMaxDir` (58-100). `some none`: NULL; `none`: a NULL
face or unset axes. -/
def obb (τ : ℝ) (sort : (Vec3 ℝ → Vec3 ℝ → ℤ) → List (Vec3 ℝ) → List (Vec3 ℝ)) (d : Data (Vec3 ℝ)) :
    Option (Option (Box3 ℝ)) :=
  match convexHull3 τ sort d with
  | none => some none
  | some ch =>
    (minDir ch).bind fun b =>
      let z := b.1.norm
      let c := (ch.vert b.1.i0).cat (-(1 / 2) * b.2) z
      match Hull2D.hull τ sort (Data.assignArray ((List.range ch.nv).map fun i => flatten c z (ch.vert i))) with
      | none => some none
      | some rim => (maxLoop τ z rim).map fun r => some ⟨⟨r.l1, r.l2, b.2⟩, ⟨c.add r.c, ⟨r.d1, r.d2, z⟩⟩⟩

end
end OBB
end Zeo
