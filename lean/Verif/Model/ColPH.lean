import Verif.Model.QHull
import Verif.Model.GJK

/-! # Collision and intersection of polyhedra: src/zeo_col_ph.c -/

namespace Zeo
noncomputable section

/-- The array of vertices of a polyhedron: `zPH3DVertArray`, include/zeo/zeo_ph3d.h:30. -/
def PH.vertArray (ph : PH ℝ) : List (Vec3 ℝ) := (List.range ph.nv).map ph.vert

/-- `zColChkPH3D`, src/zeo_col_ph.c:10-21; the arguments of the GJK algorithm as for `gjk`. -/
def colChkPH (τ junk : ℝ) (junkv : Vec3 ℝ) (fuel : ℕ) (ph1 ph2 : PH ℝ) : Option GJK.Res :=
  gjk τ junk junkv fuel (Data.assignArray ph1.vertArray) (Data.assignArray ph2.vertArray)

namespace IPH

/-- `ZEO_TRI3D_DUALXFORM_MIN_OFFSET`, src/zeo_col_ph.c:25. -/
def minOffset : ℝ := 1 / 100000
/-- `ZEO_INTERSECT_PH3D_THRESHOLD`, include/zeo/zeo_col_ph.h:21. -/
def threshold : ℝ := 1 / 10000

/-- The replacement of a short distance, src/zeo_col_ph.c:33-35. -/
def clamp (d : ℝ) : ℝ :=
  if d < 0 ∧ d > -minOffset then -minOffset
  else if d ≥ 0 ∧ d < minOffset then minOffset
  else d
/-- `_zTri3DDualXform`, src/zeo_col_ph.c:27-37: whether it succeeded, and `*dx`. -/
def dualXform (t : Tri3 ℝ) (p old : Vec3 ℝ) : Bool × Vec3 ℝ := t.norm.div (clamp (t.norm.inner p)) old
/-- `_zTri3DDualXform_a`, src/zeo_col_ph.c:40-46. -/
def dualXformA (t : Tri3 ℝ) (c old : Vec3 ℝ) : Bool × Vec3 ℝ := dualXform t (t.v0.sub c) old
/-- `_zTri3DDualXform_b`, src/zeo_col_ph.c:49-52. -/
def dualXformB (t : Tri3 ℝ) (old : Vec3 ℝ) : Bool × Vec3 ℝ := dualXform t t.v0 old

/-- `_zIntersectPH3DPointIsInside`, src/zeo_col_ph.c:55-67: the face, and `*dis`. -/
def outside (τ : ℝ) (ph : PH ℝ) (p : Vec3 ℝ) : Option (Tri3 ℝ × ℝ) :=
  (ph.face.find? fun f => decide ((ph.tri f).distFromPointToPlane p ≥ -τ)).map fun f =>
    (ph.tri f, (ph.tri f).distFromPointToPlane p + τ)

/-- One correction of the base point, src/zeo_col_ph.c:96-97. -/
def push (τ : ℝ) (p : Vec3 ℝ) : Option (Tri3 ℝ × ℝ) → Vec3 ℝ
  | none => p
  | some (t, dis) => p.cat (-τ - dis) t.norm
/-- The loop for the base point, src/zeo_col_ph.c:91-98, with `n` rounds left. -/
def basePoint (τ : ℝ) (ph1 ph2 : PH ℝ) : ℕ → Vec3 ℝ → Option (Vec3 ℝ)
  | 0, p =>
    match outside τ ph1 p, outside τ ph2 p with
    | none, none => some p
    | _, _ => none
  | n + 1, p =>
    match outside τ ph1 p, outside τ ph2 p with
    | none, none => some p
    | t1, t2 => basePoint τ ph1 ph2 n (push τ (push τ p t1) t2)

/-- The loops that transform faces and add the points to an array, src/zeo_col_ph.c:107-116 and 122-126 (`c`: the point
added to the result). The second loop does not check whether the addition succeeded; the array has room for all. -/
def fill (x : Tri3 ℝ → Bool × Vec3 ℝ) (ts : List (Tri3 ℝ)) (c : Vec3 ℝ) (d : Data (Vec3 ℝ)) : Option (Data (Vec3 ℝ)) :=
  ts.foldlM (fun d t => if (x t).1 && (d.add ((x t).2.add c)).1 then some (d.add ((x t).2.add c)).2 else none) d

/-- The dual part of `zIntersectPH3D`, src/zeo_col_ph.c:102-127, from the base point `p`. `none`: NULL. The first
loop adds no point to the result, which is the same as adding zero. -/
def dual (τ : ℝ) (sort : (Vec3 ℝ → Vec3 ℝ → ℤ) → List (Vec3 ℝ) → List (Vec3 ℝ)) (ph1 ph2 : PH ℝ) (p old : Vec3 ℝ) :
    Option (PH ℝ) :=
  (fill (fun t => dualXformA t p old) (ph1.face.map ph1.tri ++ ph2.face.map ph2.tri) .zero
      (Data.initArray .zero (ph1.face.length + ph2.face.length))).bind fun d =>
    (convexHull3 τ sort d).bind fun ch =>
      (fill (fun t => dualXformB t old) (ch.face.map ch.tri) p (Data.initArray .zero ch.face.length)).bind fun e =>
        convexHull3 τ sort e

end IPH

/-- `zIntersectPH3D`, src/zeo_col_ph.c:75-132. `depth` is the result of `zGJKDepth` on the arrays of vertices (`none`:
false); `maxIter` is `Z_MAX_ITER_NUM` of ZM; `old` is what the uninitialised `p_temp` held. -/
def intersectPH (τ : ℝ) (sort : (Vec3 ℝ → Vec3 ℝ → ℤ) → List (Vec3 ℝ) → List (Vec3 ℝ)) (maxIter : ℕ)
    (depth : List (Vec3 ℝ) → List (Vec3 ℝ) → Option (Vec3 ℝ × Vec3 ℝ)) (ph1 ph2 : PH ℝ) (old : Vec3 ℝ) : Option (PH ℝ) :=
  (depth ph1.vertArray ph2.vertArray).bind fun c =>
    if c.1.dist c.2 < IPH.threshold then none
    else (IPH.basePoint τ ph1 ph2 maxIter (c.1.mid c.2)).bind fun p => IPH.dual τ sort ph1 ph2 p old

end
end Zeo
