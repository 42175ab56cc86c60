import Verif.Model.MeshGen
import Verif.Model.Ellips
import Verif.Model.Hull2D

/-! # NURBS curves and surfaces: include/zeo/zeo_nurbs3d.h, src/zeo_nurbs3d.c, src/zeo_nurbs3d_shape.c

The B-spline parameters (`zBSplineParam`), the search of the knot segment (`zBSplineParamSeg`) and the basis functions
(`zBSplineParamBasis`, `zBSplineParamBasisDiff`) belong to the ZM library, which is not part of this repository. The
basis functions are modelled by the recursion of Cox and de Boor on a given segment, their derivatives by the derivative
of that recursion. The search of the segment is a parameter `seg` of the model; what is assumed of it is
`Spec.IsSegment`. Arithmetic is exact; `τ` is `zTOL`. Allocations succeed. -/

namespace Zeo
noncomputable section
open Classical

/-- `zBSplineParam` of the ZM library, as used in include/zeo/zeo_nurbs3d.h:39-46: the order, the knots and the number
of slices. -/
@[ext] structure BSpline where
  order : ℕ
  knot : List ℝ
  slice : ℕ

namespace BSpline
/-- `zBSplineParamKnot(param,j)`, through `zNURBS3DKnot`, include/zeo/zeo_nurbs3d.h:41. -/
def kn (b : BSpline) (j : ℕ) : ℝ := b.knot.getD j 0
/-- The number of control points that the knots are made for: as many knots as control points plus the order plus one,
src/zeo_nurbs3d.c:334. -/
def num (b : BSpline) : ℕ := b.knot.length - b.order - 1
/-- `zBSplineParamKnotS`, through `zNURBS3DKnotS`, include/zeo/zeo_nurbs3d.h:43. -/
def knotS (b : BSpline) : ℝ := b.kn b.order
/-- `zBSplineParamKnotE`, through `zNURBS3DKnotE`, include/zeo/zeo_nurbs3d.h:44. -/
def knotE (b : BSpline) : ℝ := b.kn b.num
/-- `zBSplineParamKnotSlice`, through `zNURBS3DKnotSlice`, include/zeo/zeo_nurbs3d.h:45: the ends of equal parts of the
domain. -/
def knotSlice (b : BSpline) (k : ℕ) : ℝ := b.knotS + (b.knotE - b.knotS) * k / b.slice
/-- `zBSplineParamAlloc`, `zBSplineParamKnotInit` for `size` control points, as called in src/zeo_nurbs3d.c:18-19,
30-31: uniform knots, repeated at both ends (include/zeo/zeo_nurbs3d.h:84-85). The number of slices is 0 here; ZM puts
its default. -/
def init (size order : ℕ) : BSpline :=
  ⟨order, (List.range (size + order + 1)).map fun j => ((min j size - order : ℕ) : ℝ), 0⟩

/-- A ratio, with 0 for a ratio of knots that coincide. -/
def ratio (a b : ℝ) : ℝ := if b = 0 then 0 else a / b
/-- `zBSplineParamBasis(param,t,i,r,seg)` of the ZM library, as called in src/zeo_nurbs3d.c:129, 132, 156, 161: the
basis function `i` of order `r` at `t` in the segment `s` (recursion of Cox and de Boor). -/
def basis (b : BSpline) (t : ℝ) (s : ℕ) : ℕ → ℕ → ℝ
  | 0, i => if i = s then 1 else 0
  | r + 1, i =>
    ratio (t - b.kn i) (b.kn (i + r + 1) - b.kn i) * basis b t s r i +
    ratio (b.kn (i + r + 2) - t) (b.kn (i + r + 2) - b.kn (i + 1)) * basis b t s r (i + 1)
/-- `zBSplineParamBasisDiff(param,t,i,r,seg,1)` of the ZM library, as called in src/zeo_nurbs3d.c:157, 162: the
derivative of `basis` by `t`. -/
def basisDiff (b : BSpline) (t : ℝ) (s : ℕ) : ℕ → ℕ → ℝ
  | 0, _ => 0
  | r + 1, i =>
    (ratio 1 (b.kn (i + r + 1) - b.kn i) * basis b t s r i +
      ratio (t - b.kn i) (b.kn (i + r + 1) - b.kn i) * basisDiff b t s r i) +
    (ratio (-1) (b.kn (i + r + 2) - b.kn (i + 1)) * basis b t s r (i + 1) +
      ratio (b.kn (i + r + 2) - t) (b.kn (i + r + 2) - b.kn (i + 1)) * basisDiff b t s r (i + 1))
end BSpline

/-- `zNURBS3D`, include/zeo/zeo_nurbs3d.h:19-40: B-spline parameters of the two axes, the net of control points `cp` of
`n0` rows and `n1` columns and the weights `w` (meaningful inside the net). -/
structure NURBS where
  p0 : BSpline
  p1 : BSpline
  n0 : ℕ
  n1 : ℕ
  cp : ℕ → ℕ → Vec3 ℝ
  w : ℕ → ℕ → ℝ

namespace NURBS

/-- `zNURBS3DAlloc`, src/zeo_nurbs3d.c:10-38. -/
def alloc (size1 size2 order1 order2 : ℕ) : Option NURBS :=
  if size1 ≤ order1 ∨ size2 ≤ order2 then none
  else some ⟨.init size1 order1, .init size2 order2, size1, size2, fun _ _ => .zero, fun _ _ => 1⟩

/-- `zNURBS3DCopy`, src/zeo_nurbs3d.c:59-72. `none`: the null pointer, for different sizes. `zBSplineParamCopy` of the
ZM library copies between parameters with equal numbers of knots and fails otherwise; it is called for the second axis
after the first has been copied. -/
def copy (src dest : NURBS) : Option NURBS :=
  if src.p0.knot.length ≠ dest.p0.knot.length ∨ src.p1.knot.length ≠ dest.p1.knot.length then none
  else if src.n0 ≠ dest.n0 ∨ src.n1 ≠ dest.n1 then none
  else some ⟨src.p0, src.p1, dest.n0, dest.n1, src.cp, src.w⟩
/-- `zNURBS3DClone`, src/zeo_nurbs3d.c:75-80. -/
def clone (src : NURBS) : Option NURBS := (alloc src.n0 src.n1 src.p0.order src.p1.order).bind fun d => src.copy d
/-- The control points replaced one by one, src/zeo_nurbs3d.c:88-90, 100-102, 112-114. -/
def mapCP (n : NURBS) (g : Vec3 ℝ → Vec3 ℝ) : NURBS := { n with cp := fun i j => g (n.cp i j) }
/-- `zNURBS3DMirror`, src/zeo_nurbs3d.c:83-92. -/
def mirror (src dest : NURBS) (axis : Fin 3) : Option NURBS := (src.copy dest).map fun d => d.mapCP fun p => p.flip axis
/-- `zNURBS3DXform`, src/zeo_nurbs3d.c:95-104. -/
def xform (src : NURBS) (f : Frame3 ℝ) (dest : NURBS) : Option NURBS := (src.copy dest).map fun d => d.mapCP f.xform
/-- `zNURBS3DXformInv`, src/zeo_nurbs3d.c:107-116. -/
def xformInv (src : NURBS) (f : Frame3 ℝ) (dest : NURBS) : Option NURBS :=
  (src.copy dest).map fun d => d.mapCP f.xformInv

/-- The indices `s-order`, ..., `s` of the loops in src/zeo_nurbs3d.c:128, 131, 155, 160. -/
def span (s order : ℕ) : List ℕ := (List.range (order + 1)).map fun k => s - order + k

/-- The loop of `zNURBS3DVec` over the second axis, src/zeo_nurbs3d.c:130-134: (`dv`, `tmp`). -/
def rowSum (n : NURBS) (v : ℝ) (sv i : ℕ) : ℝ × Vec3 ℝ :=
  (span sv n.p1.order).foldl (fun a j =>
    let bv := n.w i j * n.p1.basis v sv n.p1.order j
    (a.1 + bv, a.2.cat bv (n.cp i j))) (0, .zero)
/-- The loops of `zNURBS3DVec`, src/zeo_nurbs3d.c:127-137: (`den`, `*p`). -/
def sums (n : NURBS) (u v : ℝ) (su sv : ℕ) : ℝ × Vec3 ℝ :=
  (span su n.p0.order).foldl (fun a i =>
    let bu := n.p0.basis u su n.p0.order i
    let r := n.rowSum v sv i
    (a.1 + bu * r.1, a.2.cat bu r.2)) (0, .zero)
/-- `zNURBS3DVec`, src/zeo_nurbs3d.c:119-139: (non-NULL, `*p`). -/
def eval (seg : BSpline → ℝ → ℕ) (τ : ℝ) (n : NURBS) (u v : ℝ) : Bool × Vec3 ℝ :=
  let s := n.sums u v (seg n.p0 u) (seg n.p1 v)
  if zIsTol s.1 τ then (false, s.2) else s.2.div s.1 s.2
/-- The point that `zNURBS3DVec` computes; `none`: the null pointer is returned. -/
def vec (seg : BSpline → ℝ → ℕ) (τ : ℝ) (n : NURBS) (u v : ℝ) : Option (Vec3 ℝ) :=
  let r := n.eval seg τ u v
  if r.1 = true then some r.2 else none

/-- The local variables of the loops of `zNURBS3DVecTSpace`, src/zeo_nurbs3d.c:145-146. -/
structure TRow where
  dv : ℝ
  ddv : ℝ
  pv : Vec3 ℝ
  dpv : Vec3 ℝ
/-- The same, of the outer loop. -/
structure TSum where
  den : ℝ
  dubv : ℝ
  budv : ℝ
  p : Vec3 ℝ
  tu : Vec3 ℝ
  tv : Vec3 ℝ
/-- The inner loop of `zNURBS3DVecTSpace`, src/zeo_nurbs3d.c:158-165. -/
def tRow (n : NURBS) (v : ℝ) (sv i : ℕ) : TRow :=
  (span sv n.p1.order).foldl (fun a j =>
    let bv := n.w i j * n.p1.basis v sv n.p1.order j
    let dbv := n.w i j * n.p1.basisDiff v sv n.p1.order j
    ⟨a.dv + bv, a.ddv + dbv, a.pv.cat bv (n.cp i j), a.dpv.cat dbv (n.cp i j)⟩) ⟨0, 0, .zero, .zero⟩
/-- The loops of `zNURBS3DVecTSpace`, src/zeo_nurbs3d.c:152-172. -/
def tSums (n : NURBS) (u v : ℝ) (su sv : ℕ) : TSum :=
  (span su n.p0.order).foldl (fun a i =>
    let bu := n.p0.basis u su n.p0.order i
    let dbu := n.p0.basisDiff u su n.p0.order i
    let r := n.tRow v sv i
    ⟨a.den + bu * r.dv, a.dubv + dbu * r.dv, a.budv + bu * r.ddv, a.p.cat bu r.pv, a.tu.cat dbu r.pv,
      a.tv.cat bu r.dpv⟩) ⟨0, 0, 0, .zero, .zero, .zero⟩
/-- `zVec3DNormalizeDRC` unless the vector is tiny, src/zeo_nurbs3d.c:184-185. -/
def unitOr (τ : ℝ) (v : Vec3 ℝ) : Vec3 ℝ := if v.isTol τ then v else (v.normalize τ v).2
/-- What `zNURBS3DVecTSpace` puts into `*p`, `*n`, `*t1` and `*t2`. -/
@[ext] structure TSpace where
  p : Vec3 ℝ
  n : Vec3 ℝ
  t1 : Vec3 ℝ
  t2 : Vec3 ℝ
/-- `zNURBS3DVecTSpace`, src/zeo_nurbs3d.c:142-187, with non-null pointers; `none`: the null pointer is returned. What is
put into one of them does not depend on whether another is null. -/
def vecTSpace (seg : BSpline → ℝ → ℕ) (τ : ℝ) (n : NURBS) (u v : ℝ) : Option TSpace :=
  let s := n.tSums u v (seg n.p0 u) (seg n.p1 v)
  if zIsTol s.den τ then none
  else
    let p := (s.p.div s.den s.p).2
    let tu := s.tu.cat (-s.dubv) p
    let tv := s.tv.cat (-s.budv) p
    let m := tu.outer tv
    some ⟨p, if m.isTol τ then .zero else (m.normalize τ m).2, unitOr τ tu, unitOr τ tv⟩

/-- The variables of the loop of `zNURBS3DClosest`, src/zeo_nurbs3d.c:193-194. `ePrev = none` stands for `HUGE_VAL`. -/
structure ClState where
  u : ℝ
  v : ℝ
  uPrev : ℝ
  vPrev : ℝ
  ePrev : Option ℝ
  nn : Vec3 ℝ
/-- One iteration of the loop of `zNURBS3DClosest`, src/zeo_nurbs3d.c:203-219: (the loop is left, the variables). `none`:
the null pointer from `zNURBS3DVecTan` is ignored, or the division in line 211 is by zero. -/
def closestStep (seg : BSpline → ℝ → ℕ) (τ : ℝ) (n : NURBS) (p : Vec3 ℝ) (s : ClState) : Option (Bool × ClState) :=
  (n.vecTSpace seg τ s.u s.v).bind fun t =>
    let e := p.sub t.p
    let ev := e.norm
    let duu := t.t1.inner t.t1
    let duv := t.t1.inner t.t2
    let dvv := t.t2.inner t.t2
    let eu := t.t1.inner e
    let ew := t.t2.inner e
    let det := duu * dvv - duv * duv
    if det = 0 then none
    else
      let gain := 1 / 10 / det
      let u := zLimit (s.u + ((dvv + ev) * eu - duv * ew) * gain) n.p0.knotS n.p0.knotE
      let v := zLimit (s.v + ((duu + ev) * ew - duv * eu) * gain) n.p1.knotS n.p1.knotE
      let small := match s.ePrev with
        | none => False
        | some x => zIsTol (ev - x) τ
      if (zIsTol (u - s.uPrev) τ ∧ zIsTol (v - s.vPrev) τ) ∨ small then
        some (true, { s with u := u, v := v, nn := t.p })
      else some (false, ⟨u, v, u, v, some ev, t.p⟩)
/-- The loop of `zNURBS3DClosest`, src/zeo_nurbs3d.c:202-220. -/
def closestLoop (seg : BSpline → ℝ → ℕ) (τ : ℝ) (n : NURBS) (p : Vec3 ℝ) : ℕ → ClState → Option ClState
  | 0, s => some s
  | k + 1, s =>
    match n.closestStep seg τ p s with
    | none => none
    | some (true, s) => some s
    | some (false, s) => closestLoop seg τ n p k s
/-- `zNURBS3DClosest`, src/zeo_nurbs3d.c:191-222: (return value, `*nn`, `*u`, `*v`). `iter` is the number of iterations
set by `ZITERINIT`; `old` is `*nn` before. -/
def closest (seg : BSpline → ℝ → ℕ) (τ : ℝ) (iter : ℕ) (n : NURBS) (p old : Vec3 ℝ) : Option (ℝ × Vec3 ℝ × ℝ × ℝ) :=
  let u := 1 / 2 * (n.p0.knotS + n.p0.knotE)
  let v := 1 / 2 * (n.p1.knotS + n.p1.knotE)
  (n.closestLoop seg τ p iter ⟨u, v, u, v, none, old⟩).map fun s => (p.dist s.nn, s.nn, s.u, s.v)

/-- The pairs of the loops over slices of `zNURBS3DToPH`, src/zeo_nurbs3d.c:237-239. -/
def grid (n : NURBS) : List (ℕ × ℕ) :=
  (List.range (n.p0.slice + 1)).flatMap fun i => (List.range (n.p1.slice + 1)).map fun j => (i, j)
/-- One iteration of the loop of `zNURBS3DToPH` over vertices, src/zeo_nurbs3d.c:241: the vertex is written in any case,
and the pointer moves to the next one if the evaluation succeeded. -/
def vertStep (seg : BSpline → ℝ → ℕ) (τ : ℝ) (n : NURBS) (a : (ℕ → Vec3 ℝ) × ℕ) (k : ℕ × ℕ) : (ℕ → Vec3 ℝ) × ℕ :=
  let r := n.eval seg τ (n.p0.knotSlice k.1) (n.p1.knotSlice k.2)
  (Function.update a.1 a.2 r.2, if r.1 = true then a.2 + 1 else a.2)
/-- The faces of `zNURBS3DToPH`, src/zeo_nurbs3d.c:245-251, as offsets in the buffer of vertices. -/
def gridFaces (a b : ℕ) : List (ℕ × ℕ × ℕ) :=
  (List.range a).flatMap fun i => (List.range b).flatMap fun j =>
    let p := i * (b + 1)
    let q := p + (b + 1)
    [(p + j, q + j, q + (j + 1)), (p + j, q + (j + 1), p + (j + 1))]
/-- `zNURBS3DToPH`, src/zeo_nurbs3d.c:225-253. The buffer is zero before (`zPH3DAlloc`). -/
def toPH (seg : BSpline → ℝ → ℕ) (τ : ℝ) (n : NURBS) : PH ℝ :=
  let vert := (n.grid.foldl (n.vertStep seg τ) (fun _ => .zero, 0)).1
  ⟨(n.p0.slice + 1) * (n.p1.slice + 1), vert,
   (gridFaces n.p0.slice n.p1.slice).map fun f => PH.mkFace τ vert f.1 f.2.1 f.2.2⟩

/-! ## Surfaces of shapes: src/zeo_nurbs3d_shape.c -/

/-- The knots of `_zNURBS3DEllipsInitKnot`, src/zeo_nurbs3d_shape.c:10-29. The test of the number of knots is met by
all callers. -/
def ringKnot : List ℝ := [0, 0, 0, 1/4, 1/4, 1/2, 1/2, 3/4, 3/4, 1, 1, 1]
/-- The control points of `_zNURBS3DEllipsInitCP`, src/zeo_nurbs3d_shape.c:32-48. The test of the number of control
points is met by all callers. -/
def ringCP (center : Vec3 ℝ) (rx ry : ℝ) (ax ay : Vec3 ℝ) : ℕ → Vec3 ℝ
  | 0 => center.cat rx ax
  | 1 => (center.cat rx ax).cat ry ay
  | 2 => center.cat ry ay
  | 3 => (center.cat ry ay).cat (-rx) ax
  | 4 => center.cat (-rx) ax
  | 5 => (center.cat (-rx) ax).cat (-ry) ay
  | 6 => center.cat (-ry) ay
  | 7 => (center.cat (-ry) ay).cat rx ax
  | 8 => center.cat rx ax
  | _ => .zero
/-- The weight `zIsEven(i) ? 1.0 : 1.0/sqrt(2)`, src/zeo_nurbs3d_shape.c:97, 99, 136, 176, 211, 213. -/
def ringW (i : ℕ) : ℝ := if i % 2 = 0 then 1 else 1 / Real.sqrt 2

/-- The surface allocated with the given orders and sizes, after the given knots, control points and weights have been
put into it. -/
def shape (o0 o1 n0 n1 : ℕ) (k0 k1 : List ℝ) (cp : ℕ → ℕ → Vec3 ℝ) (w : ℕ → ℕ → ℝ) : Option NURBS :=
  (alloc n0 n1 o0 o1).map fun n => { n with p0.knot := k0, p1.knot := k1, cp := cp, w := w }

/-- `zNURBS3DBox`, src/zeo_nurbs3d_shape.c:51-82. -/
def ofBox (b : Box3 ℝ) : Option NURBS :=
  shape 1 1 4 5 [0, 0, 1, 1, 2, 2] [0, 0, 1, 2, 3, 4, 4] (fun i j =>
    match i with
    | 0 => b.frame.pos.cat (1 / 2 * b.span.z) b.frame.att.z
    | 1 => b.vert (if j = 4 then 0 else j)
    | 2 => b.vert ((if j = 4 then 0 else j) + 4)
    | 3 => b.frame.pos.cat (-(1 / 2) * b.span.z) b.frame.att.z
    | _ => .zero) (fun _ _ => 1)
/-- `zNURBS3DEllips`, src/zeo_nurbs3d_shape.c:85-112. -/
def ofEllips (e : Ellips ℝ) : Option NURBS :=
  let ring := ringCP e.f.pos e.radius.x e.radius.y e.f.att.x e.f.att.y
  shape 2 2 9 5 ringKnot [0, 0, 0, 1/2, 1/2, 1, 1, 1] (fun i j =>
    match j with
    | 0 => e.f.pos.cat (-e.radius.z) e.f.att.z
    | 1 => (ring i).cat (-e.radius.z) e.f.att.z
    | 2 => ring i
    | 3 => (ring i).cat e.radius.z e.f.att.z
    | 4 => e.f.pos.cat e.radius.z e.f.att.z
    | _ => .zero) (fun i j => ringW i * ringW j)
/-- `zNURBS3DSphere`, src/zeo_nurbs3d_shape.c:115-121. -/
def ofSphere (s : Sphere3 ℝ) : Option NURBS := ofEllips s.toEllips
/-- `zNURBS3DECyl`, src/zeo_nurbs3d_shape.c:124-149. -/
def ofECyl (c : ECyl ℝ) : Option NURBS :=
  let ring := ringCP c.c0 c.r0 c.r1 c.rv0 c.rv1
  shape 2 1 9 4 ringKnot [0, 0, 1, 1, 2, 2] (fun i j =>
    match j with
    | 0 => c.c0
    | 1 => ring i
    | 2 => (ring i).add c.axis
    | 3 => c.c1
    | _ => .zero) (fun i _ => ringW i)
/-- `zNURBS3DCyl`, src/zeo_nurbs3d_shape.c:152-158. `none` also if `zCyl3DToECyl3D` uses an uninitialised vector. -/
def ofCyl (τ : ℝ) (c : Cyl ℝ) (old : ECyl ℝ) : Option NURBS := (c.toECyl τ old).bind ofECyl
/-- `zNURBS3DCone`, src/zeo_nurbs3d_shape.c:161-187. `none` also if `zVec3DOrthoSpace` fails, after which the code goes on
with uninitialised vectors. -/
def ofCone (τ : ℝ) (c : Cone ℝ) : Option NURBS :=
  (c.axis.orthoSpace τ).bind fun s =>
    let ring := ringCP c.center c.radius c.radius (s.1.normalize τ s.1).2 (s.2.normalize τ s.2).2
    shape 2 1 9 3 ringKnot [0, 0, 1, 2, 2] (fun i j =>
      match j with
      | 0 => c.center
      | 1 => ring i
      | 2 => c.center.add c.axis
      | _ => .zero) (fun i _ => ringW i)
/-- The radius `r` of `zNURBS3DTorus`, src/zeo_nurbs3d_shape.c:199-203. -/
def torusR (rr ri : ℝ) (j : ℕ) : ℝ :=
  if j = 2 ∨ j = 6 then rr else if j = 3 ∨ j = 4 ∨ j = 5 then rr - ri else rr + ri
/-- The height `b` of `zNURBS3DTorus`, src/zeo_nurbs3d_shape.c:204-208. -/
def torusB (ri : ℝ) (j : ℕ) : ℝ :=
  if j = 1 ∨ j = 2 ∨ j = 3 then ri else if j = 5 ∨ j = 6 ∨ j = 7 then -ri else 0
/-- `zNURBS3DTorus`, src/zeo_nurbs3d_shape.c:190-219. -/
def ofTorus (center ax ay az : Vec3 ℝ) (rr ri : ℝ) : Option NURBS :=
  shape 2 2 9 9 ringKnot ringKnot (fun i j =>
    ringCP (center.cat (torusB ri j) az) (torusR rr ri j) (torusR rr ri j) ax ay i) (fun i j => ringW i * ringW j)

/-! ## Text: src/zeo_nurbs3d.c:255-356 -/

/-- The values of the keys that `zNURBS3DFPrintZTK` writes and `zNURBS3DFromZTK` reads, src/zeo_nurbs3d.c:257-327: the
knots of both axes, the size, the slices and the lines `cp` (row, column, weight, control point). -/
structure Text where
  uknot : List ℝ
  vknot : List ℝ
  size : ℕ × ℕ
  cps : List (ℕ × ℕ × ℝ × Vec3 ℝ)
  slice : ℕ × ℕ
/-- `zNURBS3DFPrintZTK`, src/zeo_nurbs3d.c:345-356 and 302-319. Numbers are printed exactly. -/
def print (n : NURBS) : Text :=
  ⟨n.p0.knot, n.p1.knot, (n.n0, n.n1),
   (List.range n.n0).flatMap fun i => (List.range n.n1).map fun j => (i, j, n.w i j, n.cp i j),
   (n.p0.slice, n.p1.slice)⟩
/-- One line `cp`, `_zNURBS3DCPFromZTK`, src/zeo_nurbs3d.c:289-300; `none`: a position outside the net. -/
def readCP (n0 n1 : ℕ) (a : (ℕ → ℕ → Vec3 ℝ) × (ℕ → ℕ → ℝ)) (l : ℕ × ℕ × ℝ × Vec3 ℝ) :
    Option ((ℕ → ℕ → Vec3 ℝ) × (ℕ → ℕ → ℝ)) :=
  if l.1 < n0 ∧ l.2.1 < n1 then
    some (fun i j => if i = l.1 ∧ j = l.2.1 then l.2.2.2 else a.1 i j,
          fun i j => if i = l.1 ∧ j = l.2.1 then l.2.2.1 else a.2 i j)
  else none
/-- `zNURBS3DFromZTK`, src/zeo_nurbs3d.c:330-341, of a text with every key once (the order of the table makes the size
come before the control points). `zArray2Alloc` clears the net. `none`: the null pointer. -/
def read (t : Text) : Option NURBS :=
  (t.cps.foldlM (readCP t.size.1 t.size.2) (fun _ _ => .zero, fun _ _ => 0)).bind fun a =>
    if (t.uknot.length : ℤ) - t.size.1 - 1 ≤ 0 ∨ (t.vknot.length : ℤ) - t.size.2 - 1 ≤ 0 then none
    else some ⟨⟨t.uknot.length - t.size.1 - 1, t.uknot, t.slice.1⟩, ⟨t.vknot.length - t.size.2 - 1, t.vknot, t.slice.2⟩,
      t.size.1, t.size.2, a.1, a.2⟩

end NURBS
end
end Zeo
