import Verif.Model.Elem
import Verif.Model.Hull2D

/-! # Convex hull of points in space: src/zeo_bv3d_convexhull.c

The points are numbered in the order in which they were fetched from the data, `pos i` is the place of point
`i`.  A facet cell is a number too; the contents of the cells are the function `fac`, the list `fl` says which
cells are in the facet list, and `nf` is the number of the next cell to be allocated, so that no cell is handed
out twice.  A pointer to a facet is an `Option`, `none` for NULL.

Lists are written from the tail to the head, the order in which `zListForEach` visits them: `zListInsertHead`
and `zListAppend`, `zListAppendA` put cells at the end, `zListInsertTail`, `zListAppendZ` at the beginning,
`zListDeleteTail` takes the first cell and `zListDeleteHead` the last one.  (These macros belong to the ZEDA
library, outside /repo.)  Freeing a point cell is dropping its number; allocations succeed. -/

namespace Zeo
noncomputable section
open Classical

/-- `zQHFacet`, src/zeo_bv3d_convexhull.c:22-31. -/
structure QFacet where
  p : Fin 3 → ℕ
  c : Fin 3 → Option ℕ
  merge : Fin 3 → Bool
  op : List ℕ
  n : Vec3 ℝ
  dmax : ℝ
  visible : Bool
  check : Bool

/-- `zQH`, src/zeo_bv3d_convexhull.c:34-37, with the memory of the facet cells and the flags `discard` of the
points (15-18). -/
structure QH where
  fac : ℕ → QFacet
  nf : ℕ
  fl : List ℕ
  vl : List ℕ
  discard : ℕ → Bool

namespace QH

/-- Overwrite the contents of a facet cell. -/
def set (q : QH) (i : ℕ) (f : QFacet) : QH := { q with fac := Function.update q.fac i f }

/-- `_zQHFacetCreate`, src/zeo_bv3d_convexhull.c:49-67. The normal vector of three points on a line is NaN in C,
zero here; both fail both comparisons of `testBB`. -/
def facetCreate (τ : ℝ) (pos : ℕ → Vec3 ℝ) (p0 p1 p2 : ℕ) : QFacet where
  p := ![p0, p1, p2]
  c := fun _ => none
  merge := fun _ => false
  op := []
  n := ((((pos p1).sub (pos p0)).outer ((pos p2).sub (pos p0))).normalizeNC).2
  dmax := -τ
  visible := false
  check := false

/-- `_zQHFacetContig`, src/zeo_bv3d_convexhull.c:78-83. -/
def contig (f : QFacet) (f0 f1 f2 : ℕ) : QFacet := { f with c := ![some f0, some f1, some f2] }

/-- `_zQHFacetOn`, src/zeo_bv3d_convexhull.c:96-102, with `_zQHFacet2Tri3D` (86-93). -/
def facetOn (τ : ℝ) (pos : ℕ → Vec3 ℝ) (f : QFacet) (v : Vec3 ℝ) : Prop :=
  Tri3.pointIsInside τ (pos (f.p 0)) (pos (f.p 1)) (pos (f.p 2)) v τ

/-- The loop for the second vertex in `_zQHSimplexVert`, src/zeo_bv3d_convexhull.c:132-137: the vertex and the
rest of the list; points that coincide with the first vertex are dropped. -/
def second (τ : ℝ) (pos : ℕ → Vec3 ℝ) (v0 : ℕ) : List ℕ → Option (ℕ × List ℕ)
  | [] => none
  | v :: l => if ¬ ((pos v).sub (pos v0)).isTol τ then some (v, l) else second τ pos v0 l

/-- The loop for the third vertex, src/zeo_bv3d_convexhull.c:142-154: the vertex, the normal vector, the rest of
the list and the points put aside. -/
def third (τ : ℝ) (pos : ℕ → Vec3 ℝ) (v0 : ℕ) (d0 : Vec3 ℝ) :
    List ℕ → List ℕ → Option (ℕ × Vec3 ℝ × List ℕ × List ℕ)
  | [], _ => none
  | v :: l, rsv =>
    let e := (pos v).sub (pos v0)
    let n := d0.outer (e.normalize τ e).2
    if ¬ e.isTol τ ∧ ¬ n.isTol τ then some (v, (n.normalize τ n).2, l, rsv)
    else third τ pos v0 d0 l (v :: rsv)

/-- The loop for the fourth vertex, src/zeo_bv3d_convexhull.c:159-169: the vertex, its height over the first
three, the rest of the list and the points put aside. -/
def fourth (τ : ℝ) (pos : ℕ → Vec3 ℝ) (v0 : ℕ) (n : Vec3 ℝ) :
    List ℕ → List ℕ → Option (ℕ × ℝ × List ℕ × List ℕ)
  | [], _ => none
  | v :: l, rsv =>
    let h := ((pos v).sub (pos v0)).inner n
    if ¬ zIsTol h τ then some (v, h, l, rsv) else fourth τ pos v0 n l (v :: rsv)

/-- Outcome of `_zQHSimplexVert`: the number of vertices found when it is less than four, or the four vertices
and the remaining points. -/
inductive Simplex
  | deg (dim : ℕ)
  | full (v0 v1 v2 v3 : ℕ) (pl : List ℕ)

/-- `_zQHSimplexVert`, src/zeo_bv3d_convexhull.c:119-176. -/
def simplexVert (τ : ℝ) (pos : ℕ → Vec3 ℝ) : List ℕ → Simplex
  | [] => .deg 0
  | v0 :: l =>
    match second τ pos v0 l with
    | none => .deg 1
    | some (v1, l1) =>
      let e := (pos v1).sub (pos v0)
      match third τ pos v0 (e.normalize τ e).2 l1 [] with
      | none => .deg 2
      | some (v2, n, l2, r2) =>
        match fourth τ pos v0 n l2 r2 with
        | none => .deg 3
        | some (v3, h, l3, r3) =>
          if h > 0 then .full v1 v0 v2 v3 (l3 ++ r3) else .full v0 v1 v2 v3 (l3 ++ r3)

/-- `_zQHSimplex` from line 186, src/zeo_bv3d_convexhull.c:179-203. -/
def simplex (τ : ℝ) (pos : ℕ → Vec3 ℝ) (v0 v1 v2 v3 : ℕ) : QH where
  fac := fun i =>
    if i = 0 then contig (facetCreate τ pos v0 v1 v2) 2 3 1
    else if i = 1 then contig (facetCreate τ pos v0 v3 v1) 2 0 3
    else if i = 2 then contig (facetCreate τ pos v1 v3 v2) 3 0 1
    else contig (facetCreate τ pos v2 v3 v0) 1 0 2
  nf := 4
  fl := [0, 1, 2, 3]
  vl := [v0, v1, v2, v3]
  discard := fun _ => false

/-- `_zQHFacetTestBeneathBeyond`, src/zeo_bv3d_convexhull.c:206-216. -/
def testBB (τ : ℝ) (pos : ℕ → Vec3 ℝ) (f : QFacet) (x : ℕ) : ℤ :=
  let e := (pos x).sub (pos (f.p 0))
  if e.isTol τ then 0
  else
    let l := f.n.inner e
    if l < -τ then -1
    else if l > τ then 1
    else if facetOn τ pos f (pos x) then 0 else 1

/-- One round of the inner loop of `_zQHFacetAssign`, src/zeo_bv3d_convexhull.c:228-245: the facet and the points
that stay in the list. -/
def assignStep (τ : ℝ) (pos : ℕ → Vec3 ℝ) (st : QFacet × List ℕ) (x : ℕ) : QFacet × List ℕ :=
  let f := st.1
  let flag := testBB τ pos f x
  if flag = -1 then (f, st.2 ++ [x])
  else if flag = 0 then st
  else
    let d := f.n.inner ((pos x).sub (pos (f.p 0)))
    if d > f.dmax then ({ f with dmax := d, op := f.op ++ [x] }, st.2) else ({ f with op := x :: f.op }, st.2)

/-- `_zQHFacetAssign`, src/zeo_bv3d_convexhull.c:219-248; the points that remain at the end are freed. -/
def assign (τ : ℝ) (pos : ℕ → Vec3 ℝ) (q : QH) (fs pl : List ℕ) : QH × List ℕ :=
  fs.foldl (fun st i =>
    let r := st.2.foldl (assignStep τ pos) (st.1.fac i, [])
    (st.1.set i r.1, r.2)) (q, pl)

/-- `_zQHMerge`, src/zeo_bv3d_convexhull.c:251-258. Every call marks a facet that was not marked before, so the
depth of the recursion is at most the number of facets, the first argument. A flag `merge` is set together with
a pointer (`bind`); without one the call is left out. -/
def mergeVis : ℕ → QH → ℕ → QH
  | 0, q, _ => q
  | k + 1, q, f =>
    let q0 := q.set f { q.fac f with visible := true, check := true }
    let go := fun (q : QH) (s : Fin 3) =>
      match (q.fac f).c s with
      | none => q
      | some g => if (q.fac f).merge s ∧ ¬ (q.fac g).check then mergeVis k q g else q
    go (go (go q0 0) 1) 2

/-- The first loop of `_zQHVisibleSet`, src/zeo_bv3d_convexhull.c:280-287; `none`: the point lies on a facet. -/
def visLoop (τ : ℝ) (pos : ℕ → Vec3 ℝ) (x : ℕ) : List ℕ → QH → Option QH
  | [], q => some q
  | f :: l, q =>
    let flag := testBB τ pos (q.fac f) x
    if flag = 0 then none
    else if flag = 1 ∧ ¬ (q.fac f).check then visLoop τ pos x l (mergeVis (q.fl.length + 1) q f)
    else visLoop τ pos x l q

/-- `_zQHFacetResetFlag`, src/zeo_bv3d_convexhull.c:261-269. -/
def resetFlag (q : QH) : QH :=
  { q with fac := fun i => if i ∈ q.fl then { q.fac i with visible := false, check := false } else q.fac i }

/-- `_zQHVisibleSet`, src/zeo_bv3d_convexhull.c:272-298: the hull without the visible facets, these, and the
points to be reassigned; `none`: the point lies on a facet. The outside sets of the visible facets become
empty. -/
def visibleSet (τ : ℝ) (pos : ℕ → Vec3 ℝ) (q : QH) (x : ℕ) : Option (QH × List ℕ × List ℕ) :=
  (visLoop τ pos x q.fl q).map fun q1 =>
    let vs := q1.fl.filter fun f => (q1.fac f).visible
    ({ q1 with
        fl := q1.fl.filter fun f => ¬ (q1.fac f).visible
        fac := fun i => if i ∈ vs then { q1.fac i with op := [] } else q1.fac i
        discard := fun v => q1.discard v || decide (∃ f ∈ vs, ∃ s, (q1.fac f).p s = v) },
     vs.reverse, vs.foldl (fun l f => (q1.fac f).op ++ l) [])

/-- `_zQHFacetContigID`, src/zeo_bv3d_convexhull.c:301-308; `none`: -1 (or a NULL pointer). -/
def contigID (q : QH) (f : ℕ) (s : Fin 3) : Option (Fin 3) :=
  ((q.fac f).c s).bind fun g =>
    if (q.fac g).c 0 = some f then some 0
    else if (q.fac g).c 1 = some f then some 1
    else if (q.fac g).c 2 = some f then some 2
    else none

/-- The flag computed in `_zQHFacetBind`, src/zeo_bv3d_convexhull.c:318-330. -/
def bindFlag (τ : ℝ) (pos : ℕ → Vec3 ℝ) (f1 : QFacet) (s1 : Fin 3) (f2 : QFacet) : Bool :=
  if (f1.n.sub f2.n).isTol τ then true
  else
    let d := f1.n.outer f2.n
    if d.isTol τ then true
    else decide (((pos (f1.p (s1 + 2))).sub (pos (f1.p (s1 + 1)))).inner d < 0)

/-- `_zQHFacetBind`, src/zeo_bv3d_convexhull.c:311-331, for two different facets. -/
def bind (τ : ℝ) (pos : ℕ → Vec3 ℝ) (q : QH) (f1 : ℕ) (s1 : Fin 3) (f2 : ℕ) (s2 : Fin 3) : QH :=
  let b := bindFlag τ pos (q.fac f1) s1 (q.fac f2)
  let q1 := q.set f1 { q.fac f1 with c := Function.update (q.fac f1).c s1 (some f2)
                                     merge := Function.update (q.fac f1).merge s1 b }
  q1.set f2 { q1.fac f2 with c := Function.update (q1.fac f2).c s2 (some f1)
                             merge := Function.update (q1.fac f2).merge s2 b }

/-- `_zQHHorizonNewFacet`, src/zeo_bv3d_convexhull.c:334-351: the hull and the new cell. -/
def newFacet (τ : ℝ) (pos : ℕ → Vec3 ℝ) (q : QH) (p f : ℕ) (s : Fin 3) : Option (QH × ℕ) :=
  let a := (q.fac f).p (s + 1)
  let b := (q.fac f).p (s + 2)
  let q1 := { q.set q.nf (facetCreate τ pos p a b) with
                nf := q.nf + 1
                discard := fun v => if v = a ∨ v = b then false else q.discard v }
  (contigID q1 f s).bind fun k => ((q1.fac f).c s).map fun g => (bind τ pos q1 q.nf 0 g k, q.nf)

/-- The facet on the other side of an edge is visible (`f->c[s]->visible`); `none` for a NULL pointer. -/
def sideVisible (q : QH) (f : ℕ) (s : Fin 3) : Option Bool := ((q.fac f).c s).map fun g => (q.fac g).visible

/-- The search for the first ridge in `_zQHHorizon`, src/zeo_bv3d_convexhull.c:362-367. -/
def firstRidge (q : QH) (vs : List ℕ) : Option (ℕ × Fin 3) :=
  (vs.flatMap fun f => [(f, (0 : Fin 3)), (f, 1), (f, 2)]).find? fun r => sideVisible q r.1 r.2 = some false

/-- The `do` loop of `_zQHHorizon`, src/zeo_bv3d_convexhull.c:378-399: `h` is the head of the list `cone`. The
first argument is the number of rounds the counter `i` still allows; the counter running out, a failure of
`_zQHFacetContigID` and a NULL pointer all give `none`. -/
def horizonLoop (τ : ℝ) (pos : ℕ → Vec3 ℝ) (p p0 : ℕ) : ℕ → QH → ℕ → Fin 3 → List ℕ → ℕ → Option (QH × List ℕ × ℕ)
  | 0, _, _, _, _, _ => none
  | k + 1, q, f, s, cone, h =>
    match sideVisible q f s, (q.fac f).c s with
    | some true, some g =>
      match contigID q f s with
      | none => none
      | some t =>
        if (q.fac g).p (t + 1 + 1) = p0 then some (q, cone, h)
        else horizonLoop τ pos p p0 k q g (t + 1) cone h
    | some false, _ =>
      match newFacet τ pos q p f s with
      | none => none
      | some (q1, i) =>
        let q2 := bind τ pos q1 i 2 h 1
        if (q2.fac f).p (s + 1 + 1) = p0 then some (q2, cone ++ [i], i)
        else horizonLoop τ pos p p0 k q2 f (s + 1) (cone ++ [i]) i
    | _, _ => none

/-- `_zQHHorizon`, src/zeo_bv3d_convexhull.c:354-402. The counter `i` runs from 0 to `n`: `n + 1` rounds. -/
def horizon (τ : ℝ) (pos : ℕ → Vec3 ℝ) (q : QH) (vs : List ℕ) (p : ℕ) : Option (QH × List ℕ) :=
  (firstRidge q vs).bind fun r =>
    (newFacet τ pos q p r.1 r.2).bind fun w =>
      (horizonLoop τ pos p ((w.1.fac r.1).p (r.2 + 1)) (vs.length * 3 + 1) w.1 r.1 (r.2 + 1) [w.2] w.2).map fun u =>
        (bind τ pos u.1 u.2.2 1 w.2 2, u.2.1)

/-- `_zQHInc`, src/zeo_bv3d_convexhull.c:405-430: the return value and the hull. `f` has a nonempty outside set.
When the horizon cannot be followed, the hull keeps the new vertex and loses the visible facets; what the
abandoned loop wrote into other facets is left out. -/
def inc (τ : ℝ) (pos : ℕ → Vec3 ℝ) (q : QH) (f : ℕ) : Bool × QH :=
  match (q.fac f).op.getLast? with
  | none => (true, q)
  | some x =>
    let q0 := q.set f { q.fac f with op := (q.fac f).op.dropLast }
    match visibleSet τ pos q0 x with
    | none => (true, resetFlag q0)
    | some (q1, vs, pl) =>
      let q2 := { q1 with vl := q1.vl ++ [x] }
      match horizon τ pos q2 vs x with
      | none => (false, q2)
      | some (q3, cone) =>
        let q4 := (assign τ pos q3 cone pl).1
        (true, { q4 with fl := q4.fl ++ cone })

/-- The loop of `_zQHCreate`, src/zeo_bv3d_convexhull.c:460-464. Every round takes a point out of the outside
sets; the first argument bounds the number of rounds. -/
def grow (τ : ℝ) (pos : ℕ → Vec3 ℝ) : ℕ → QH → QH
  | 0, q => q
  | k + 1, q =>
    match q.fl.find? fun f => (q.fac f).op ≠ [] with
    | none => q
    | some f => if (inc τ pos q f).1 then grow τ pos k (inc τ pos q f).2 else (inc τ pos q f).2

/-- `_zQHDiscard`, src/zeo_bv3d_convexhull.c:433-445; `pl` is empty at this point. -/
def dropDiscarded (q : QH) : QH := { q with vl := q.vl.filter fun v => ¬ q.discard v }

/-- `_zQHCreate` after the simplex was found, src/zeo_bv3d_convexhull.c:458-466. -/
def create (τ : ℝ) (pos : ℕ → Vec3 ℝ) (v0 v1 v2 v3 : ℕ) (pl : List ℕ) : QH :=
  let q := simplex τ pos v0 v1 v2 v3
  dropDiscarded (grow τ pos (pl.length + 1) (assign τ pos q q.fl pl).1)

/-- `_zQH2PH3D`, src/zeo_bv3d_convexhull.c:477-495: the corners of the facets become the copies of the vertices.
A corner that is not in the vertex list (its cell would have been freed) would give an index out of range. -/
def toPH (pos : ℕ → Vec3 ℝ) (q : QH) : PH ℝ where
  nv := q.vl.length
  vert := fun i => pos (q.vl.getD i 0)
  face := q.fl.map fun f =>
    ⟨q.vl.idxOf ((q.fac f).p 0), q.vl.idxOf ((q.fac f).p 1), q.vl.idxOf ((q.fac f).p 2), (q.fac f).n⟩

end QH

/-- `zVec3DDataConvexHull`, src/zeo_bv3d_convexhull.c:498-530; `none`: NULL. The coordinates are numbers, so the
check for NaN never fires. -/
def convexHull3 (τ : ℝ) (sort : (Vec3 ℝ → Vec3 ℝ → ℤ) → List (Vec3 ℝ) → List (Vec3 ℝ)) (d : Data (Vec3 ℝ)) :
    Option (PH ℝ) :=
  let l := d.toAddrList
  let pos := fun i => l.getD i .zero
  match QH.simplexVert τ pos (List.range l.length) with
  | .deg 3 => Hull2D.hullPH τ sort d
  | .deg _ => none
  | .full v0 v1 v2 v3 pl => some (QH.toPH pos (QH.create τ pos v0 v1 v2 v3 pl))

end
end Zeo
