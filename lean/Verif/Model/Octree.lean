import Verif.Model.Box
import Mathlib.Data.List.FinRange
import Mathlib.Analysis.Real.Sqrt

/-! # Octree of 3D points: src/zeo_vec3d_octree.c

The estimated normals (`_norm`, `_ncov`) are not modelled; they do not influence where points are stored.
Allocation is assumed to succeed. A NULL suboctant is `nil`. Point lists are in traversal order
(`zListForEach`), so `zVec3DListAdd`/`zListInsertHead` append at the end. The recursion of insertion and
division is bounded by a fuel argument; `none` means that the recursion did not finish (stack exhaustion),
and the theorems show that enough fuel exists whenever resolution + zTOL is positive. -/

namespace Zeo

/-- `zVec3DOctant`, include/zeo/zeo_vec3d_octree.h:15-24; the center is recomputed from the region. -/
inductive Oct (K : Type*)
  | nil
  | node (region : AABox3 K) (points : List (Vec3 K)) (sub : Fin 8 → Oct K)

namespace Oct
section
variable {K : Type*} [Field K] [LinearOrder K] [IsStrictOrderedRing K]

/-- `zAABox3DCenter`, include/zeo/zeo_elem3d_box.h:62, as stored by `_zVec3DOctantSetRegion`,
src/zeo_vec3d_octree.c:11-15. -/
def center (B : AABox3 K) : Vec3 K := B.min.mid B.max

/-- `zVec3DOctantIsSmallest`, include/zeo/zeo_vec3d_octree.h:30-33. -/
def IsSmallest (τ res : K) (B : AABox3 K) : Prop :=
  B.max.x - B.min.x < res + τ ∧ B.max.y - B.min.y < res + τ ∧ B.max.z - B.min.z < res + τ
instance (τ res : K) (B : AABox3 K) : Decidable (IsSmallest τ res B) :=
  inferInstanceAs (Decidable (_ ∧ _ ∧ _))

/-- The index chosen by `_zVec3DOctantAllocSuboctant`, src/zeo_vec3d_octree.c:51-53. -/
def index (c p : Vec3 K) : Fin 8 :=
  match decide (p.x > c.x), decide (p.y > c.y), decide (p.z > c.z) with
  | false, false, false => 0
  | true, false, false => 1
  | false, true, false => 2
  | true, true, false => 3
  | false, false, true => 4
  | true, false, true => 5
  | false, true, true => 6
  | true, true, true => 7

/-- The region given to suboctant `i`, src/zeo_vec3d_octree.c:60-66. -/
def subRegion (B : AABox3 K) (i : Fin 8) : AABox3 K :=
  let c := center B
  let xb := i.val.testBit 0
  let yb := i.val.testBit 1
  let zb := i.val.testBit 2
  .create (if xb then c.x else B.min.x) (if yb then c.y else B.min.y) (if zb then c.z else B.min.z)
    (if xb then B.max.x else c.x) (if yb then B.max.y else c.y) (if zb then B.max.z else c.z)

/-- `_zVec3DOctantInit` + `_zVec3DOctantSetRegion`, src/zeo_vec3d_octree.c:11-31. -/
def fresh (B : AABox3 K) : Oct K := node B [] (fun _ => nil)

/-- The suboctant returned by `_zVec3DOctantAllocSuboctant`, src/zeo_vec3d_octree.c:54-69. -/
def alloc (B : AABox3 K) (i : Fin 8) : Oct K → Oct K
  | nil => fresh (subRegion B i)
  | t => t

/-- `zVec3DOctreeInit`, src/zeo_vec3d_octree.c:217-223. -/
def init (xmin ymin zmin xmax ymax zmax : K) : Oct K := fresh (.create xmin ymin zmin xmax ymax zmax)

/-- `_zVec3DOctantAddPoint`, src/zeo_vec3d_octree.c:83-91. -/
def addRec (τ res : K) (p : Vec3 K) : ℕ → Oct K → Option (Oct K)
  | 0, _ => none
  | _ + 1, nil => none
  | n + 1, node B pts sub =>
    if IsSmallest τ res B then some (node B (pts ++ [p]) sub)
    else
      let i := index (center B) p
      match addRec τ res p n (alloc B i (sub i)) with
      | none => none
      | some t => some (node B pts (Function.update sub i t))

/-- Outcome of `zVec3DOctreeAddPoint`. -/
inductive AddResult (K : Type*)
  | rejected
  | overflow
  | added (t : Oct K)

/-- `zVec3DOctreeAddPoint`, src/zeo_vec3d_octree.c:248-255. -/
def addPoint (τ res : K) (fuel : ℕ) (p : Vec3 K) : Oct K → AddResult K
  | nil => .overflow
  | node B pts sub =>
    if B.pointIsInside p τ then
      match addRec τ res p fuel (node B pts sub) with
      | none => .overflow
      | some t => .added t
    else .rejected

/-- `zListInsertHead( &suboctant->points, cp )`, src/zeo_vec3d_octree.c:133. -/
def push (p : Vec3 K) : Oct K → Oct K
  | nil => nil
  | node B pts sub => node B (pts ++ [p]) sub

/-- One iteration of the loop in `_zVec3DOctantDivide`, src/zeo_vec3d_octree.c:131-133. -/
def distribute (B : AABox3 K) (sub : Fin 8 → Oct K) (p : Vec3 K) : Fin 8 → Oct K :=
  let i := index (center B) p
  Function.update sub i (push p (alloc B i (sub i)))

/-- `_zVec3DOctantDivide`, src/zeo_vec3d_octree.c:114-138; the list is emptied from its head, that is in
reverse traversal order. -/
def divide (τ res : K) : ℕ → Oct K → Option (Oct K)
  | _, nil => some nil
  | 0, node .. => none
  | n + 1, node B pts sub =>
    if IsSmallest τ res B then some (node B pts sub)
    else
      let sub' := pts.reverse.foldl (distribute B) sub
      if h : ∀ i, (divide τ res n (sub' i)).isSome then
        some (node B [] (fun i => (divide τ res n (sub' i)).get (h i)))
      else none

/-- `octant->points`. -/
def top : Oct K → List (Vec3 K)
  | nil => []
  | node _ pts _ => pts

/-- `_zVec3DOctantMerge` with `_zVec3DOctantMergeSuboctant`, src/zeo_vec3d_octree.c:140-165. Destroying a
suboctant discards whatever is below it (`_zVec3DOctantDestroy`, lines 34-44). -/
def merge (τ res : K) : Oct K → Oct K
  | nil => nil
  | node B pts sub =>
    if IsSmallest τ res B then
      node B (pts ++ (List.finRange 8).flatMap (fun i => top (merge τ res (sub i)))) (fun _ => nil)
    else node B pts (fun i => merge τ res (sub i))

/-- `zVec3DOctreeChangeResolution`, src/zeo_vec3d_octree.c:283-292, from resolution `old`. -/
def changeResolution (τ old res : K) (fuel : ℕ) (t : Oct K) : Option (Oct K) :=
  if res < old then divide τ res fuel t else some (merge τ res t)

/-- `octant->suboctant[i]` is not NULL. -/
def exists? : Oct K → Bool
  | nil => false
  | node .. => true

/-- `_zVec3DOctantUnify`, src/zeo_vec3d_octree.c:168-183: the octant afterwards and the return value. -/
def unify : Oct K → Oct K × Bool
  | nil => (nil, false)
  | node B pts sub =>
    let flag := fun i => exists? (sub i) && (unify (sub i)).2
    if ∀ i, flag i = false then (node B pts (fun i => (unify (sub i)).1), true)
    else if ¬ ∀ i, flag i = true then (node B pts (fun i => (unify (sub i)).1), false)
    else
      (node B (pts ++ (List.finRange 8).flatMap (fun i => top (unify (sub i)).1)) (fun _ => nil), true)

/-- `zVec3DOctreeUnifyOctant`, src/zeo_vec3d_octree.c:295-299. -/
def unifyOctant (t : Oct K) : Oct K := (unify t).1

/-- `_zVec3DOctantFindContainer`, src/zeo_vec3d_octree.c:186-196. -/
def findContainer (τ : K) (p : Vec3 K) : Oct K → Option (Oct K)
  | nil => none
  | node B pts sub =>
    if B.pointIsInside p τ then
      match (List.finRange 8).findSome? (fun i => findContainer τ p (sub i)) with
      | some t => some t
      | none => some (node B pts sub)
    else none

/-- `zAABox3DSqrDistFromPoint` of the region of an existing octant. -/
def sqrDist (p : Vec3 K) : Oct K → K
  | nil => 0
  | node B _ _ => B.sqrDistFromPoint p

/-- `_zVec3DOctantVicinity`, src/zeo_vec3d_octree.c:349-366. -/
def vicRec (p : Vec3 K) (r2 : K) : Oct K → List (Vec3 K) → List (Vec3 K)
  | nil, acc => acc
  | node B pts sub, acc =>
    if B.sqrDistFromPoint p ≥ r2 then acc
    else if pts ≠ [] then acc ++ pts.filter (fun q => decide (q.sqrDist p < r2))
    else (List.finRange 8).foldl (fun acc i => vicRec p r2 (sub i) acc) acc

/-- `zVec3DOctreeVicinity`, src/zeo_vec3d_octree.c:369-373. -/
def vicinity (t : Oct K) (p : Vec3 K) (r : K) : List (Vec3 K) := vicRec p (r * r) t []

/-- `_zVec3DOctantToAABox3DList`, src/zeo_vec3d_octree.c:199-212, order of addition. -/
def leafBoxes : Oct K → List (AABox3 K)
  | nil => []
  | node B _ sub =>
    if ∃ i, exists? (sub i) = true then (List.finRange 8).flatMap (fun i => leafBoxes (sub i)) else [B]
end

noncomputable section
open Classical

/-- `x < _zSqr(*dmin)`; before the first hit `*dmin` is HUGE_VAL. -/
def closer (x : ℝ) : Option (Vec3 ℝ × ℝ) → Prop
  | none => True
  | some h => x < h.2 * h.2

/-- `x > _zSqr(*dmin)`. -/
def farther (x : ℝ) : Option (Vec3 ℝ × ℝ) → Prop
  | none => False
  | some h => x > h.2 * h.2

/-- One iteration of the loop of `_zVec3DOctantLeafNN`, src/zeo_vec3d_octree.c:314-317. -/
def nnTest (p : Vec3 ℝ) (st : Option (Vec3 ℝ × ℝ)) (q : Vec3 ℝ) : Option (Vec3 ℝ × ℝ) :=
  if closer (q.sqrDist p) st then some (q, Real.sqrt (q.sqrDist p)) else st

/-- `_zVec3DOctantLeafNN`, src/zeo_vec3d_octree.c:308-320. -/
def leafNN (p : Vec3 ℝ) (pts : List (Vec3 ℝ)) (st : Option (Vec3 ℝ × ℝ)) : Option (Vec3 ℝ × ℝ) :=
  pts.foldl (nnTest p) st

/-- `_zVec3DOctantNN`, src/zeo_vec3d_octree.c:323-335. -/
def nnRec (p : Vec3 ℝ) : Oct ℝ → Option (Vec3 ℝ × ℝ) → Option (Vec3 ℝ × ℝ)
  | nil, st => st
  | node _ pts sub, st =>
    if pts ≠ [] then leafNN p pts st
    else (List.finRange 8).foldl (fun st i =>
      if exists? (sub i) = true ∧ farther (sqrDist p (sub i)) st then st else nnRec p (sub i) st) st

/-- `zVec3DOctreeNN`, src/zeo_vec3d_octree.c:338-346: `*nn` and the returned distance; `none` is HUGE_VAL
with `*nn` left unassigned. -/
def nn (τ : ℝ) (t : Oct ℝ) (p : Vec3 ℝ) : Option (Vec3 ℝ × ℝ) :=
  let st := match findContainer τ p t with
    | none => none
    | some c => leafNN p (top c) none
  nnRec p t st
end
end Oct
end Zeo
