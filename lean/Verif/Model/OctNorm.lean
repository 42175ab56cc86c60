import Verif.Model.OctData

/-! # Octrees with the normal vectors and moments of their octants: src/zeo_vec3d_octree.c

As `Model/Octree.lean`, with the members `_norm` and `_ncov` of the octants.  `none`: a recursion or an eigensystem
does not end. -/

namespace Zeo
noncomputable section
open Classical Oct

/-- `zVec3DOctant`, include/zeo/zeo_vec3d_octree.h:15-24, with `_norm` and `_ncov`. -/
inductive NOct
  | nil
  | node (region : AABox3 ℝ) (points : List (Vec3 ℝ)) (norm : Vec3 ℝ) (ncov : Mat3 ℝ) (sub : Fin 8 → NOct)

namespace NOct

/-- The members that `Model/Octree.lean` has. -/
def erase : NOct → Oct ℝ
  | nil => .nil
  | node B pts _ _ sub => .node B pts fun i => erase (sub i)

/-- `_zVec3DOctantInit` + `_zVec3DOctantSetRegion`, src/zeo_vec3d_octree.c:11-31, with the normal copied by
`_zVec3DOctantAllocSuboctant`, line 67. -/
def fresh (B : AABox3 ℝ) (norm : Vec3 ℝ) : NOct := node B [] norm .zero fun _ => nil

/-- The suboctant returned by `_zVec3DOctantAllocSuboctant`, src/zeo_vec3d_octree.c:54-69. -/
def alloc (B : AABox3 ℝ) (norm : Vec3 ℝ) (i : Fin 8) : NOct → NOct
  | nil => fresh (subRegion B i) norm
  | t => t

/-- `zVec3DOctreeInit`, src/zeo_vec3d_octree.c:217-223. -/
def init (xmin ymin zmin xmax ymax zmax : ℝ) : NOct := fresh (.create xmin ymin zmin xmax ymax zmax) ⟨0, 0, 0⟩

/-- `_zVec3DOctantAddPoint`, src/zeo_vec3d_octree.c:83-91. -/
def addRec (τ res : ℝ) (p : Vec3 ℝ) : ℕ → NOct → Option NOct
  | 0, _ => none
  | _ + 1, nil => none
  | n + 1, node B pts norm ncov sub =>
    if IsSmallest τ res B then some (node B (pts ++ [p]) norm ncov sub)
    else
      let i := index (center B) p
      match addRec τ res p n (alloc B norm i (sub i)) with
      | none => none
      | some t => some (node B pts norm ncov (Function.update sub i t))

/-- `_zVec3DOctantUpdateNormal`, src/zeo_vec3d_octree.c:94-111, and `zVec3DOctreeUpdateNormal`, 270-273. -/
def update (τ : ℝ) : NOct → Option NOct
  | nil => some nil
  | node B pts norm ncov sub =>
    match updateNormal τ B pts norm with
    | none => none
    | some n =>
      if h : ∀ i, (update τ (sub i)).isSome then
        some (node B pts n (if pts = [] then ncov else moment B pts) fun i => (update τ (sub i)).get (h i))
      else none

/-- `zListInsertHead( &suboctant->points, cp )`, src/zeo_vec3d_octree.c:133. -/
def push (p : Vec3 ℝ) : NOct → NOct
  | nil => nil
  | node B pts norm ncov sub => node B (pts ++ [p]) norm ncov sub

/-- One iteration of the loop in `_zVec3DOctantDivide`, src/zeo_vec3d_octree.c:131-133. -/
def distribute (B : AABox3 ℝ) (norm : Vec3 ℝ) (sub : Fin 8 → NOct) (p : Vec3 ℝ) : Fin 8 → NOct :=
  let i := index (center B) p
  Function.update sub i (push p (alloc B norm i (sub i)))

/-- `_zVec3DOctantDivide`, src/zeo_vec3d_octree.c:114-138.  In an octant of the smallest size the moments of the
points are added to what `_ncov` has already. -/
def divide (τ res : ℝ) : ℕ → NOct → Option NOct
  | _, nil => some nil
  | 0, node .. => none
  | n + 1, node B pts norm ncov sub =>
    if IsSmallest τ res B then
      let c := pts.foldl (fun m p => m.addDyad (p.sub (center B)) (p.sub (center B))) ncov
      (estimateNormal τ c norm).map fun v => node B pts v c sub
    else
      let sub' := pts.reverse.foldl (distribute B norm) sub
      if h : ∀ i, (divide τ res n (sub' i)).isSome then
        some (node B [] norm ncov fun i => (divide τ res n (sub' i)).get (h i))
      else none

/-- `octant->points`. -/
def top : NOct → List (Vec3 ℝ)
  | nil => []
  | node _ pts _ _ _ => pts
/-- `octant->_norm`, zero for a NULL suboctant, which is not merged. -/
def norm : NOct → Vec3 ℝ
  | nil => ⟨0, 0, 0⟩
  | node _ _ n _ _ => n
/-- `octant->_ncov`, likewise. -/
def ncov : NOct → Mat3 ℝ
  | nil => .zero
  | node _ _ _ c _ => c

/-- The suboctants `s` merged into an octant: `_zVec3DOctantMergeSuboctant`, src/zeo_vec3d_octree.c:141-148, for the
eight indices in order. -/
def mergeSubs (B : AABox3 ℝ) (pts : List (Vec3 ℝ)) (norm : Vec3 ℝ) (ncov : Mat3 ℝ) (s : Fin 8 → NOct) : NOct :=
  node B (pts ++ (List.finRange 8).flatMap fun i => top (s i))
    ((List.finRange 8).foldl (fun v i => v.add (NOct.norm (s i))) norm)
    ((List.finRange 8).foldl (fun m i => m.add (NOct.ncov (s i))) ncov) fun _ => nil

/-- The end of `_zVec3DOctantMerge`, src/zeo_vec3d_octree.c:162-163. -/
def reestimate (τ : ℝ) : NOct → Option NOct
  | nil => some nil
  | node B pts norm ncov sub =>
    if pts = [] then some (node B pts norm ncov sub)
    else (estimateNormal τ ncov norm).map fun v => node B pts v ncov sub

/-- `_zVec3DOctantMerge`, src/zeo_vec3d_octree.c:151-165. -/
def merge (τ res : ℝ) : NOct → Option NOct
  | nil => some nil
  | node B pts norm ncov sub =>
    if h : ∀ i, (merge τ res (sub i)).isSome then
      let s := fun i => (merge τ res (sub i)).get (h i)
      if IsSmallest τ res B then reestimate τ (mergeSubs B pts norm ncov s)
      else some (node B pts norm ncov s)
    else none

/-- `zVec3DOctreeChangeResolution`, src/zeo_vec3d_octree.c:283-292, from resolution `old`. -/
def changeResolution (τ old res : ℝ) (fuel : ℕ) (t : NOct) : Option NOct :=
  if res < old then divide τ res fuel t else merge τ res t

/-- `octant->suboctant[i]` is not NULL. -/
def exists? : NOct → Bool
  | nil => false
  | node .. => true

/-- `_zVec3DOctantUnify`, src/zeo_vec3d_octree.c:168-183: the octant afterwards and the return value. -/
def unify : NOct → NOct × Bool
  | nil => (nil, false)
  | node B pts norm ncov sub =>
    let flag := fun i => exists? (sub i) && (unify (sub i)).2
    if ∀ i, flag i = false then (node B pts norm ncov (fun i => (unify (sub i)).1), true)
    else if ¬ ∀ i, flag i = true then (node B pts norm ncov (fun i => (unify (sub i)).1), false)
    else (mergeSubs B pts norm ncov fun i => (unify (sub i)).1, true)

/-- The octant reached from the root by the suboctants `path`. -/
def sub? : List (Fin 8) → NOct → NOct
  | [], t => t
  | _ :: _, nil => nil
  | i :: path, node _ _ _ _ s => sub? path (s i)

end NOct
end
end Zeo
