import Verif.Model.Octree
import Verif.Model.Profile
import Verif.Model.BV
import Mathlib.Analysis.SpecialFunctions.Log.Base

/-! # Octrees of point sets: the rest of src/zeo_vec3d_octree.c, and `zVec3DDataNormalVec_Octree` -/

namespace Zeo
noncomputable section
open Classical

namespace Oct

/-- The half edge computed in `zVec3DOctreeInitAuto`, src/zeo_vec3d_octree.c:231-234.  For an extent of zero the
code computes the logarithm of zero, minus infinity, where `Real.logb` is 0: both are below the 2 from which on
the maximum with 1 has an influence. -/
def autoHalf (B : AABox3 ℝ) (res : ℝ) : ℝ :=
  let l := fun d : ℝ => ⌈Real.logb 2 (d / res)⌉
  res * max ((2 : ℝ) ^ (max (max (l (B.max.x - B.min.x)) (l (B.max.y - B.min.y))) (l (B.max.z - B.min.z)) - 1)) 1

/-- `zVec3DOctreeInitAuto`, src/zeo_vec3d_octree.c:226-239. -/
def initAuto (B : AABox3 ℝ) (res : ℝ) : Oct ℝ :=
  let h := autoHalf B res
  let c := center B
  init (c.x - h) (c.y - h) (c.z - h) (c.x + h) (c.y + h) (c.z + h)

/-- One round of the loop of `zVec3DOctreeAddData`, src/zeo_vec3d_octree.c:263-265, on the state: whether all
points up to now were accepted, and the octree.  `none`: the recursion does not end.  After a rejection the
function has returned; the remaining rounds leave the state. -/
def addStep (τ res : ℝ) (fuel : ℕ) (s : Option (Bool × Oct ℝ)) (p : Vec3 ℝ) : Option (Bool × Oct ℝ) :=
  match s with
  | some (true, t) =>
    match addPoint τ res fuel p t with
    | .rejected => some (false, t)
    | .overflow => none
    | .added t' => some (true, t')
  | s => s

/-- `zVec3DOctreeAddData`, src/zeo_vec3d_octree.c:258-267; the first component tells whether the return value is
not NULL. -/
def addData (τ res : ℝ) (fuel : ℕ) (d : Data (Vec3 ℝ)) (t : Oct ℝ) : Option (Bool × Oct ℝ) :=
  (d.forEach (addStep τ res fuel) (some (true, t))).2

/-- `zVec3DDataToOctree`, src/zeo_vec3d_octree.c:276-280; see `addData`. -/
def ofData (τ : ℝ) (d : Data (Vec3 ℝ)) (xmin ymin zmin xmax ymax zmax res : ℝ) (fuel : ℕ) : Option (Bool × Oct ℝ) :=
  addData τ res fuel d (init xmin ymin zmin xmax ymax zmax)

/-- `_zVec3DOctantEstimateNormal`, src/zeo_vec3d_octree.c:73-80: `_norm` afterwards.  `none`: the eigensystem does
not end. -/
def estimateNormal (τ : ℝ) (ncov : Mat3 ℝ) (norm : Vec3 ℝ) : Option (Vec3 ℝ) :=
  (ncov.symEigMin τ).map fun n => if n.inner norm ≥ 0 then n else n.rev

/-- `_ncov` in `_zVec3DOctantUpdateNormal`, src/zeo_vec3d_octree.c:102-106. -/
def moment (B : AABox3 ℝ) (pts : List (Vec3 ℝ)) : Mat3 ℝ :=
  pts.foldl (fun m p => m.addDyad (p.sub (center B)) (p.sub (center B))) .zero

/-- `_zVec3DOctantUpdateNormal` on one octant, src/zeo_vec3d_octree.c:101-108: `_norm` afterwards. -/
def updateNormal (τ : ℝ) (B : AABox3 ℝ) (pts : List (Vec3 ℝ)) (norm : Vec3 ℝ) : Option (Vec3 ℝ) :=
  if pts = [] then some norm else estimateNormal τ (moment B pts) norm

end Oct

namespace Data

/-- `zVec3DDataNormalVec_Octree`, src/zeo_vec3d_profile.c:52-76: `some none` is the return value NULL, otherwise
the points added to `normaldata`; `none`: the recursion of the octree does not end.  `old`, `junk` and `box` are the
uninitialised locals `normal`, `center` and `aabb`. -/
def normalVecOctree (τ : ℝ) (d : Data (Vec3 ℝ)) (radius : ℝ) (old junk : Vec3 ℝ) (box : AABox3 ℝ) (fuel : ℕ) :
    Option (Option (List (Vec3 ℝ))) :=
  let b := ((aabb3 d).map Prod.fst).getD box
  match Oct.ofData τ d b.min.x b.min.y b.min.z b.max.x b.max.y b.max.z radius fuel with
  | none => none
  | some (false, _) => some none
  | some (true, t) =>
    let center := d.barycenter.getD junk
    some (some (d.forEach (fun (s : List (Vec3 ℝ) × Vec3 ℝ) v =>
      let normal := normalFromVicinity τ (lst false (t.vicinity v radius) none) v center s.2
      (s.1 ++ [normal], normal)) ([], old)).2.1)

end Data
end
end Zeo
