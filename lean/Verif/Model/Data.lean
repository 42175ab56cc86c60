import Verif.Model.Frame
import Verif.Model.Vec2
import Mathlib.Analysis.Real.Sqrt
import Mathlib.Data.List.GetD

/-! # Sets of points with a cursor: include/zeo/zeo_vecxd_data.h

`zVec2DData` and `zVec3DData` are generated from the same macros; `α` is the vector type. Allocation is
assumed to succeed. A list is given in traversal order, that is from `zListTail` through `zListCellNext`;
`zVecXDListAdd` inserts at the head, so it appends. For address lists the vectors behind the addresses are
assumed not to change, so an address list is the list of the vectors. -/

namespace Zeo

/-- `zVecXDData`, include/zeo/zeo_vecxd_data.h:18-98: the method table selects the representation.
* `dummy`: 113-130.
* `arr`: the array kinds (132-183, 247-273): the cells up to the capacity, `zArraySize`, `pointer.i`.
* `lst`: the list and address list kinds (185-245, 275-331): the cells, and `pointer.cp`/`pointer.ap` as
  the position of a cell, `none` being the root of the list.
`ro` marks the kinds whose `add` is the dummy one (169-183, 247-331). -/
inductive Data (α : Type*)
  | dummy
  | arr (ro : Bool) (cells : List α) (size i : ℕ)
  | lst (ro : Bool) (xs : List α) (cur : Option ℕ)

namespace Data
variable {α : Type*}

/-- `zVecXDDataInitArray`, 334-353; `z` is the zero the allocated cells are cleared to. -/
def initArray (z : α) (capacity : ℕ) : Data α := arr false (List.replicate capacity z) 0 0
/-- `zVecXDDataInitList`, 356-369, and `zVecXDDataInitAddrList`, 372-385. -/
def initList : Data α := lst false [] none
/-- `zVecXDDataAssignArrayDirect`, 388-406 (`vec` non-NULL, positive size), and `zVecXDDataAssignArray`,
409-421; both are rewound. -/
def assignArray (xs : List α) : Data α := arr true xs xs.length 0
/-- `zVecXDDataAssignList`, 424-436, and `zVecXDDataAssignAddrList`, 439-451; rewound. -/
def assignList (xs : List α) : Data α := lst true xs (if xs = [] then none else some 0)

/-- `zVecXDDataSize`. -/
def size : Data α → ℕ
  | dummy => 0
  | arr _ _ n _ => n
  | lst _ xs _ => xs.length
/-- `zVecXDDataIsEmpty`. -/
def isEmpty : Data α → Bool
  | dummy => true
  | arr _ _ n _ => n == 0
  | lst _ xs _ => xs.isEmpty

/-- `zVecXDDataAdd`: 117, 140-146, 193, 224. -/
def add (v : α) : Data α → Bool × Data α
  | dummy => (false, dummy)
  | arr true cells n i => (false, arr true cells n i)
  | arr false cells n i =>
    if i ≥ cells.length then (false, arr false cells n i)
    else (true, arr false (cells.set i v) (i + 1) (i + 1))
  | lst true xs c => (false, lst true xs c)
  | lst false xs c => (true, lst false (xs ++ [v]) c)

/-- `zVecXDDataRewind`: 118, 147, 194, 225, 282, 311. -/
def rewind : Data α → Data α
  | dummy => dummy
  | arr ro cells n _ => arr ro cells n 0
  | lst ro xs _ => lst ro xs (if xs = [] then none else some 0)

/-- `zVecXDDataPeek`: 119, 148-151, 195-198, 226-229, 254-257, 283-286, 312-315. -/
def peek : Data α → Option α
  | dummy => none
  | arr _ cells n i => if i ≥ n then none else cells[i]?
  | lst _ _ none => none
  | lst _ xs (some k) => xs[k]?

/-- Advance the cursor, as `fetch` does after a successful peek. -/
def advance : Data α → Data α
  | dummy => dummy
  | arr ro cells n i => arr ro cells n (i + 1)
  | lst ro xs none => lst ro xs none
  | lst ro xs (some k) => lst ro xs (if k + 1 < xs.length then some (k + 1) else none)

/-- `zVecXDDataFetch`: 120, 152-157, 199-204, 230-235, 258-263, 287-292, 316-321. -/
def fetch (d : Data α) : Option α × Data α :=
  match peek d with
  | none => (none, d)
  | some v => (some v, advance d)

/-- `while( ( v = zVecXDDataFetch( data ) ) ) s = f(s,v);` with at most `n` iterations. -/
def loop {σ : Type*} (f : σ → α → σ) : ℕ → Data α → σ → Data α × σ
  | 0, d, s => (d, s)
  | n + 1, d, s =>
    match fetch d with
    | (none, d') => (d', s)
    | (some v, d') => loop f n d' (f s v)

/-- `zVecXDDataRewind( data ); while( ( v = zVecXDDataFetch( data ) ) ) ...`. The bound on the number of
iterations is shown not to cut the loop short (`C35_loop`). -/
def forEach {σ : Type*} (f : σ → α → σ) (d : Data α) (s : σ) : Data α × σ := loop f (d.size + 1) d.rewind s

/-- `zVecXDDataToAddrList`, 454-468. -/
def toAddrList (d : Data α) : List α := (d.forEach (fun l v => l ++ [v]) []).2
/-- One round of the search: a hit ends it (476-478). -/
def findStep (eq : α → Bool) (s : Option α) (v : α) : Option α :=
  match s with
  | some w => some w
  | none => if eq v then some v else none
/-- `zVecXDDataFind`, 471-480, with the comparison as a parameter; the loop stops at the first hit. -/
def find (eq : α → Bool) (d : Data α) : Option α :=
  (d.forEach (findStep eq) none).2
/-- `zVecXDDataXform`, 483-496: the contents of the list created in `dest`; `g` is the transformation
followed by the scaling. -/
def xformWith (g : α → α) (d : Data α) : List α := (d.forEach (fun l v => l ++ [g v]) []).2

noncomputable section
open Classical
/-- One round of the nearest neighbour search (517-520); `none` is the initial `dmin` = HUGE_VAL. -/
def nnStep (sq : α → ℝ) (s : Option (α × ℝ)) (v : α) : Option (α × ℝ) :=
  match s with
  | none => some (v, sq v)
  | some (w, m) => if sq v < m then some (v, sq v) else some (w, m)
/-- `zVecXDDataNN`, 499-523, with the squared distance to the query as a parameter: (`*nn`, returned
distance), `none` for the empty set (`*nn` = NULL, HUGE_VAL). -/
def nnWith (sq : α → ℝ) (d : Data α) : Option (α × ℝ) :=
  if d.isEmpty then none
  else
    ((d.forEach (nnStep sq) none).2).map (fun s => (s.1, Real.sqrt s.2))

/-- `zVecXDDataVicinity`, 526-539. -/
def vicinityWith (sq : α → ℝ) (radius : ℝ) (d : Data α) : List α :=
  (d.forEach (fun l v => if sq v < radius * radius then l ++ [v] else l) []).2

/-- `zVecXDDataSupportMap`, 542-563, with the inner product with the direction as a parameter; `none` is
NULL. The first fetch sets the candidate, the loop continues from there. -/
def supportWith (ip : α → ℝ) (d : Data α) : Option α :=
  if d.isEmpty then none
  else
    match fetch d.rewind with
    | (none, _) => none  -- dereference of NULL; excluded by the emptiness test
    | (some sp, d') =>
      some (loop (fun (s : α × ℝ) v => if ip v > s.2 then (v, ip v) else s) (d.size + 1) d' (sp, ip sp)).2.1
end

/-- `zVec3DDataFind`. -/
noncomputable def find3 (τ : ℝ) (d : Data (Vec3 ℝ)) (p : Vec3 ℝ) : Option (Vec3 ℝ) :=
  open Classical in d.find (fun v => decide (Vec3.equal τ p v))
/-- `zVec3DDataXform`, with `zXform3D` then `zVec3DMulDRC`. -/
def xform3 {K : Type*} [Field K] (f : Frame3 K) (scale : K) (d : Data (Vec3 K)) : List (Vec3 K) :=
  d.xformWith (fun v => (f.xform v).mul scale)
/-- `zVec2DDataXform`. -/
def xform2 {K : Type*} [Field K] (f : Frame2 K) (scale : K) (d : Data (Vec2 K)) : List (Vec2 K) :=
  d.xformWith (fun v => (f.xform v).mul scale)
/-- `zVec3DDataNN`. -/
noncomputable def nn3 (d : Data (Vec3 ℝ)) (p : Vec3 ℝ) : Option (Vec3 ℝ × ℝ) := d.nnWith (fun v => v.sqrDist p)
/-- `zVec2DDataNN`. -/
noncomputable def nn2 (d : Data (Vec2 ℝ)) (p : Vec2 ℝ) : Option (Vec2 ℝ × ℝ) := d.nnWith (fun v => v.sqrDist p)
/-- `zVec3DDataVicinity`. -/
noncomputable def vicinity3 (d : Data (Vec3 ℝ)) (p : Vec3 ℝ) (r : ℝ) : List (Vec3 ℝ) :=
  d.vicinityWith (fun v => v.sqrDist p) r
/-- `zVec2DDataVicinity`. -/
noncomputable def vicinity2 (d : Data (Vec2 ℝ)) (p : Vec2 ℝ) (r : ℝ) : List (Vec2 ℝ) :=
  d.vicinityWith (fun v => v.sqrDist p) r
/-- `zVec3DDataSupportMap`. -/
noncomputable def support3 (d : Data (Vec3 ℝ)) (dir : Vec3 ℝ) : Option (Vec3 ℝ) := d.supportWith (fun v => v.inner dir)
/-- `zVec2DDataSupportMap`. -/
noncomputable def support2 (d : Data (Vec2 ℝ)) (dir : Vec2 ℝ) : Option (Vec2 ℝ) := d.supportWith (fun v => v.inner dir)

end Data
end Zeo
