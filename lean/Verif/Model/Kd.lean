import Verif.Model.Vec3

/-! # kd-tree of 3D points: src/zeo_vec3d_tree.c

A NULL child is `nil`. An initialised tree whose root has an invalid split axis (`zVec3DTreeInit`,
src/zeo_vec3d_tree.c:10-16) is also `nil`: it holds no point. Allocation is assumed to succeed. -/

namespace Zeo
noncomputable section
open Classical

/-- `zAABox3D` used as a region (src/zeo_vec3d_tree.c:14); `none` stands for -HUGE_VAL in `lo` and
HUGE_VAL in `hi`. -/
@[ext] structure Region where
  lo : Fin 3 → Option ℝ
  hi : Fin 3 → Option ℝ
/-- The whole space, src/zeo_vec3d_tree.c:14. -/
def Region.full : Region := ⟨fun _ => none, fun _ => none⟩
/-- `region.min.e[k] = a`, src/zeo_vec3d_tree.c:57. -/
def Region.setLo (r : Region) (k : Fin 3) (a : ℝ) : Region := ⟨Function.update r.lo k (some a), r.hi⟩
/-- `region.max.e[k] = a`, src/zeo_vec3d_tree.c:59. -/
def Region.setHi (r : Region) (k : Fin 3) (a : ℝ) : Region := ⟨r.lo, Function.update r.hi k (some a)⟩
/-- Contribution above the upper bound, src/zeo_elem3d_box.c:101-102. -/
def Region.upper (p : ℝ) : Option ℝ → ℝ
  | none => 0
  | some h => if p > h then (p - h) * (p - h) else 0
/-- One iteration of the loop, src/zeo_elem3d_box.c:98-102. -/
def Region.excess (p : ℝ) : Option ℝ → Option ℝ → ℝ
  | none, hi => upper p hi
  | some l, hi => if p < l then (p - l) * (p - l) else upper p hi
/-- `zAABox3DSqrDistFromPoint`, src/zeo_elem3d_box.c:92-105, with infinite sides. -/
def Region.sqrDist (r : Region) (p : Vec3 ℝ) : ℝ :=
  0 + excess (p.e 0) (r.lo 0) (r.hi 0) + excess (p.e 1) (r.lo 1) (r.hi 1) + excess (p.e 2) (r.lo 2) (r.hi 2)

/-- `zVec3DTree`, include/zeo/zeo_vec3d_tree.h:23-32. -/
inductive Kd
  | nil
  | node (size : ℕ) (id : ℕ) (split : Fin 3) (point : Vec3 ℝ) (region : Region) (c0 c1 : Kd)

namespace Kd
/-- `tree->size`. -/
def size : Kd → ℕ
  | nil => 0
  | node n .. => n

/-- `_zVec3DTreeAddPoint`, src/zeo_vec3d_tree.c:43-61, with `_zVec3DTreeChooseBranch` (lines 37-41)
and `_zVec3DTreeCreateLeaf` (lines 20-35). Not called on NULL. -/
def addTo (p : Vec3 ℝ) (id : ℕ) : Kd → Kd
  | nil => nil
  | node n i s q reg c0 c1 =>
    if p.e s ≥ q.e s then
      match c0 with
      | nil => node (n + 1) i s q reg (node 1 id (s + 1) p (reg.setLo s (q.e s)) nil nil) c1
      | node .. => node (n + 1) i s q reg (addTo p id c0) c1
    else
      match c1 with
      | nil => node (n + 1) i s q reg c0 (node 1 id (s + 1) p (reg.setHi s (q.e s)) nil nil)
      | node .. => node (n + 1) i s q reg c0 (addTo p id c1)

/-- `zVec3DTreeAddPoint`, src/zeo_vec3d_tree.c:63-74. -/
def add (t : Kd) (p : Vec3 ℝ) : Kd :=
  match t with
  | nil => node 1 0 0 p .full nil nil
  | node .. => addTo p t.size t

/-- Repeated insertion into a fresh tree: `zVec3DArrayToTree`, `zVec3DListToTree`, `zVec3DDataToTree`,
src/zeo_vec3d_tree.c:177-186, 228-238, 240-257. -/
def build (ps : List (Vec3 ℝ)) : Kd := ps.foldl add nil

/-- `zVec3DTreePart`, src/zeo_vec3d_tree.c:76-84. -/
def part (p : Vec3 ℝ) : Kd → Kd
  | nil => nil
  | node n i s q reg c0 c1 =>
    if p.e s ≥ q.e s then
      match c0 with
      | nil => node n i s q reg c0 c1
      | node .. => part p c0
    else
      match c1 with
      | nil => node n i s q reg c0 c1
      | node .. => part p c1

/-- `*nn` (as the id and point of the node) and `*dmin`; before the first hit `*nn` is NULL and `*dmin`
is HUGE_VAL. -/
structure Hit where
  id : ℕ
  pt : Vec3 ℝ
  d : ℝ

/-- `x < _zSqr(*dmin)`. -/
def closer (x : ℝ) : Option Hit → Prop
  | none => True
  | some h => x < h.d * h.d

/-- `_zVec3DTreeNNTest`, src/zeo_vec3d_tree.c:91-100. -/
def nnTest (p : Vec3 ℝ) (i : ℕ) (q : Vec3 ℝ) (st : Option Hit) : Option Hit :=
  if closer (q.sqrDist p) st then some ⟨i, q, Real.sqrt (q.sqrDist p)⟩ else st

/-- The guard `node->child[k] && _zVec3DTreeIsOverlap(...)`, src/zeo_vec3d_tree.c:89, 106, 108, 123.
A NULL child is skipped by the recursion itself. -/
def overlap (p : Vec3 ℝ) (st : Option Hit) : Kd → Prop
  | nil => False
  | node _ _ _ _ reg _ _ => closer (reg.sqrDist p) st

/-- `_zVec3DTreeNNOpp`, src/zeo_vec3d_tree.c:102-111. -/
def nnOpp (p : Vec3 ℝ) : Kd → Option Hit → Option Hit
  | nil, st => st
  | node _ i _ q _ c0 c1, st =>
    let st0 := nnTest p i q st
    let st1 := if overlap p st0 c0 then nnOpp p c0 st0 else st0
    if overlap p st1 c1 then nnOpp p c1 st1 else st1

/-- `_zVec3DTreeNN`, src/zeo_vec3d_tree.c:113-126. -/
def nnRec (p : Vec3 ℝ) : Kd → Option Hit → Option Hit
  | nil, st => st
  | node _ i s q _ c0 c1, st =>
    if p.e s ≥ q.e s then
      let st1 := nnTest p i q (nnRec p c0 st)
      if overlap p st1 c1 then nnOpp p c1 st1 else st1
    else
      let st1 := nnTest p i q (nnRec p c1 st)
      if overlap p st1 c0 then nnOpp p c0 st1 else st1

/-- `zVec3DTreeNN`, src/zeo_vec3d_tree.c:128-135. On an initialised but empty tree the code reads
`point->e[-1]`; `none` there only stands for "no meaningful result". -/
def nn (t : Kd) (p : Vec3 ℝ) : Option Hit := nnRec p t none

/-- `_zVec3DTreeVicinityTest`, src/zeo_vec3d_tree.c:137-144: points appended to the result. -/
def vicTest (p : Vec3 ℝ) (r2 : ℝ) (q : Vec3 ℝ) (acc : List (Vec3 ℝ)) : List (Vec3 ℝ) :=
  if q.sqrDist p < r2 then acc ++ [q] else acc

/-- The guard of the vicinity search, src/zeo_vec3d_tree.c:150, 152, 167. -/
def near (p : Vec3 ℝ) (r2 : ℝ) : Kd → Prop
  | nil => False
  | node _ _ _ _ reg _ _ => reg.sqrDist p < r2

/-- `_zVec3DTreeVicinityOpp`, src/zeo_vec3d_tree.c:146-155. -/
def vicOpp (p : Vec3 ℝ) (r2 : ℝ) : Kd → List (Vec3 ℝ) → List (Vec3 ℝ)
  | nil, acc => acc
  | node _ _ _ q _ c0 c1, acc =>
    let a0 := vicTest p r2 q acc
    let a1 := if near p r2 c0 then vicOpp p r2 c0 a0 else a0
    if near p r2 c1 then vicOpp p r2 c1 a1 else a1

/-- `_zVec3DTreeVicinity`, src/zeo_vec3d_tree.c:157-170. -/
def vicRec (p : Vec3 ℝ) (r2 : ℝ) : Kd → List (Vec3 ℝ) → List (Vec3 ℝ)
  | nil, acc => acc
  | node _ _ s q _ c0 c1, acc =>
    if p.e s ≥ q.e s then
      let a1 := vicTest p r2 q (vicRec p r2 c0 acc)
      if near p r2 c1 then vicOpp p r2 c1 a1 else a1
    else
      let a1 := vicTest p r2 q (vicRec p r2 c1 acc)
      if near p r2 c0 then vicOpp p r2 c0 a1 else a1

/-- `zVec3DTreeVicinity`, src/zeo_vec3d_tree.c:171-175 (the traversal order of the address list is the
order of addition). -/
def vicinity (t : Kd) (p : Vec3 ℝ) (r : ℝ) : List (Vec3 ℝ) := vicRec p (r * r) t []

/-- `_zVec3DTreeToArray`, src/zeo_vec3d_tree.c:188-200; `none`: an id outside the array (NULL). -/
def toArrayRec : Kd → Array (Vec3 ℝ) → Option (Array (Vec3 ℝ))
  | nil, a => some a
  | node _ i _ q _ c0 c1, a =>
    if h : i < a.size then
      match toArrayRec c0 (a.set i q h) with
      | none => none
      | some a0 => toArrayRec c1 a0
    else none

/-- `zVec3DTreeToArray`, src/zeo_vec3d_tree.c:202-207; `zArrayAlloc` clears the elements. -/
def toArray (t : Kd) : Option (Array (Vec3 ℝ)) := toArrayRec t (Array.replicate t.size .zero)

/-- `_zVec3DTreeNodeToList`/`_zVec3DTreeToData`, src/zeo_vec3d_tree.c:209-226, 259-277: order of
addition. -/
def preorder : Kd → List (Vec3 ℝ)
  | nil => []
  | node _ _ _ q _ c0 c1 => q :: (preorder c0 ++ preorder c1)

end Kd
end
end Zeo
