import Verif.Model.BBall
import Mathlib.Data.Fin.VecNotation

/-! # Delaunay triangulation and Voronoi diagram in the plane: src/zeo_voronoi2d.c

Vertices are pointers; here they are numbers, 0 to 2 for `sp`, 3 onwards for the data in the order in which they are
fetched. Triangles are cells on a heap, numbered in the order of their allocation; an address is not used again after
`free`. Memory allocation succeeds. The list of triangles is given from its tail to its head, which is the order of
`zListForEach`. -/

namespace Zeo.Del
noncomputable section
open Classical

/-- `zDelaunayTri2D`, include/zeo/zeo_voronoi2d.h:17-20. -/
structure Cell where
  v : Fin 3 → ℕ
  adj : Fin 3 → Option ℕ

/-- The heap. -/
abbrev Heap := ℕ → Cell

/-- `t->adj[i] = a`. -/
def setAdj (h : Heap) (t : ℕ) (i : Fin 3) (a : Option ℕ) : Heap :=
  Function.update h t ⟨(h t).v, Function.update (h t).adj i a⟩
/-- `zTri2DSetVert( &t->t, i, p )`. -/
def setVert (h : Heap) (t : ℕ) (i : Fin 3) (p : ℕ) : Heap :=
  Function.update h t ⟨Function.update (h t).v i p, (h t).adj⟩

/-- The first index with a property in `for( i=0; i<3; i++ )`. -/
def first (P : Fin 3 → Prop) : Option (Fin 3) :=
  if P 0 then some 0 else if P 1 then some 1 else if P 2 then some 2 else none

/-- `_zDelaunayTri2DBind`, src/zeo_voronoi2d.c:22-36. -/
def bind (h : Heap) (t : ℕ) (i : Fin 3) (a : Option ℕ) : Heap :=
  let h1 := setAdj h t i a
  match a with
  | none => h1
  | some b =>
    match first fun j => (h1 b).v j = (h1 t).v (i + 1) with
    | none => h1
    | some ia => setAdj h1 b ia (some t)

/-- `_zDelaunayTri2DFindAdj`, src/zeo_voronoi2d.c:39-46; `none` is -1. -/
def findAdj (h : Heap) (t a : ℕ) : Option (Fin 3) := first fun i => (h t).adj i = some a

/-- `_zDelaunayTri2DListFind`, src/zeo_voronoi2d.c:63-70, with zTri2DPointIsInside, include/zeo/zeo_elemxd.h:406-409.
`none`: the distance from a triangle without area is asked for, which is not a number; `some none`: NULL. -/
def listFind (τ : ℝ) (pos : ℕ → Vec2 ℝ) (h : Heap) (p : Vec2 ℝ) : List ℕ → Option (Option ℕ)
  | [] => some none
  | t :: l =>
    match Tri2.closest (pos ((h t).v 0)) (pos ((h t).v 1)) (pos ((h t).v 2)) p with
    | none => none
    | some r => if r.1 < τ then some (some t) else listFind τ pos h p l

/-- `_zDelaunayPair2DStackPush`, src/zeo_voronoi2d.c:106-119. -/
def push (h : Heap) (t : ℕ) (i : Fin 3) (st : List (ℕ × Fin 3)) : List (ℕ × Fin 3) :=
  match (h t).adj i with
  | none => st
  | some _ => (t, i) :: st

/-- The divisor in `zTri2DCircumcenter`, include/zeo/zeo_elemxd.h:331-337 and src/zeo_elem2d.c:109-114. -/
def divisor (v0 v1 v2 : Vec2 ℝ) : ℝ :=
  v2.sqrDist v1 * (v0.sqrDist v2 + v1.sqrDist v0 - v2.sqrDist v1) +
    v0.sqrDist v2 * (v1.sqrDist v0 + v2.sqrDist v1 - v0.sqrDist v2) +
    v1.sqrDist v0 * (v2.sqrDist v1 + v0.sqrDist v2 - v1.sqrDist v0)

/-- `zVec2DDist( pn, &c ) > r`, src/zeo_voronoi2d.c:132-135. With a zero divisor the coordinates of the center are
infinite or not numbers, and so are both distances; the comparison is false. -/
def legal (pos : ℕ → Vec2 ℝ) (c : Cell) (n : ℕ) : Prop :=
  divisor (pos (c.v 0)) (pos (c.v 1)) (pos (c.v 2)) ≠ 0 ∧
    (pos n).dist (Tri2.circumcenter (pos (c.v 0)) (pos (c.v 1)) (pos (c.v 2))) >
      (pos (c.v 0)).dist (Tri2.circumcenter (pos (c.v 0)) (pos (c.v 1)) (pos (c.v 2)))

/-- The exchange of the diagonal, src/zeo_voronoi2d.c:136-145. -/
def flip (h : Heap) (t : ℕ) (i : Fin 3) (a : ℕ) (ia : Fin 3) : Heap :=
  let n := (h a).v (ia + 2)
  let k := (h t).v (i + 2)
  let tj := (h t).adj (i + 1)
  let aj := (h a).adj (ia + 1)
  let h1 := setVert h t (i + 1) n
  let h2 := bind h1 t i aj
  let h3 := bind h2 t (i + 1) (some a)
  let h4 := setVert h3 a (ia + 1) k
  let h5 := bind h4 a ia tj
  bind h5 a (ia + 1) (some t)

/-- `_zDelaunay2DLegalizeOne`, src/zeo_voronoi2d.c:122-147. `none`: the index of the triangle in its neighbour is -1
and outside of the arrays. -/
def legalizeOne (pos : ℕ → Vec2 ℝ) (h : Heap) (t : ℕ) (i : Fin 3) (st : List (ℕ × Fin 3)) :
    Option (Heap × List (ℕ × Fin 3)) :=
  match (h t).adj i with
  | none => some (h, st)
  | some a =>
    match findAdj h a t with
    | none => none
    | some ia =>
      if legal pos (h t) ((h a).v (ia + 2)) then some (h, st)
      else
        let h' := flip h t i a ia
        some (h', push h' a (ia + 2) (push h' t i st))

/-- `_zDelaunay2DLegalize`, src/zeo_voronoi2d.c:150-159, with at most `fuel` rounds; `none`: more are needed, or a round
fails. -/
def legalize (pos : ℕ → Vec2 ℝ) : ℕ → Heap → List (ℕ × Fin 3) → Option Heap
  | _, h, [] => some h
  | 0, _, _ :: _ => none
  | fuel + 1, h, (t, i) :: st => (legalizeOne pos h t i st).bind fun r => legalize pos fuel r.1 r.2

/-- A list of triangles; `next` is the number of the next cell to be allocated. -/
structure St where
  heap : Heap
  list : List ℕ
  next : ℕ

/-- The new triangles of `_zDelaunay2DUpdate`, src/zeo_voronoi2d.c:200-205. -/
def split (h : Heap) (tc p t1 t2 t3 : ℕ) : Heap :=
  let c := h tc
  let h1 := Function.update h t1 ⟨![c.v 0, c.v 1, p], ![c.adj 0, some t2, some t3]⟩
  let h2 := bind h1 t1 0 (c.adj 0)
  let h3 := Function.update h2 t2 ⟨![p, c.v 1, c.v 2], ![some t1, c.adj 1, some t3]⟩
  let h4 := bind h3 t2 1 (c.adj 1)
  let h5 := Function.update h4 t3 ⟨![c.v 0, p, c.v 2], ![some t1, some t2, c.adj 2]⟩
  bind h5 t3 2 (c.adj 2)

/-- `_zDelaunay2DUpdate`, src/zeo_voronoi2d.c:182-216. `some none`: false; `none`: as above. -/
def update (τ : ℝ) (pos : ℕ → Vec2 ℝ) (fuel : ℕ) (s : St) (p : ℕ) : Option (Option St) :=
  match listFind τ pos s.heap (pos p) s.list with
  | none => none
  | some none => some none
  | some (some tc) =>
    let t1 := s.next
    let t2 := s.next + 1
    let t3 := s.next + 2
    let h := split s.heap tc p t1 t2 t3
    (legalize pos fuel h (push h t3 2 (push h t2 1 (push h t1 0 [])))).map fun h' =>
      some ⟨h', s.list.erase tc ++ [t1, t2, t3], s.next + 3⟩

/-- The loop over the points, src/zeo_voronoi2d.c:240-241. -/
def insertAll (τ : ℝ) (pos : ℕ → Vec2 ℝ) (fuel : ℕ) : List ℕ → St → Option (Option St)
  | [], s => some (some s)
  | p :: l, s =>
    match update τ pos fuel s p with
    | none => none
    | some none => some none
    | some (some s') => insertAll τ pos fuel l s'

/-- The corners of `_zDelaunay2DCreateOuter`, src/zeo_voronoi2d.c:175-177. -/
def outer (b : Disk2 ℝ) : List (Vec2 ℝ) :=
  [⟨b.center.x, b.center.y + 3 * b.radius⟩,
   ⟨b.center.x - 3 / 2 * Real.sqrt 3 * b.radius, b.center.y - 3 / 2 * b.radius⟩,
   ⟨b.center.x + 3 / 2 * Real.sqrt 3 * b.radius, b.center.y - 3 / 2 * b.radius⟩]

/-- The list with the outer triangle, src/zeo_voronoi2d.c:173-174, 178. -/
def start : St := ⟨fun _ => ⟨![0, 1, 2], ![none, none, none]⟩, [0], 1⟩

/-- `_zDelaunay2DPurgeOuter`, src/zeo_voronoi2d.c:219-233. The cells that are left keep their pointers. -/
def purge (s : St) : St :=
  { s with list := s.list.filter fun t => ¬ ∃ i, (s.heap t).v i < 3 }

/-- Positions of the vertices. -/
def posOf (b : Disk2 ℝ) (xs : List (Vec2 ℝ)) (i : ℕ) : Vec2 ℝ := (outer b ++ xs).getD i .zero

/-- `_zDelaunay2DCreateOuter` followed by the loop over the points: the result is the list with the outer triangle.
`none` also when the bounding ball has no point (`_zDelaunay2DCreateOuter` returns NULL): the list is not initialised. -/
def build (τ : ℝ) (fuel : ℕ) (d : Data (Vec2 ℝ)) : Option (Disk2 ℝ × Option St) :=
  match boundingBall2Recursive τ d with
  | none => none
  | some b =>
    if b.num = 0 then none
    else
      let xs := d.toAddrList
      (insertAll τ (posOf b.ball xs) fuel ((List.range xs.length).map (· + 3)) start).map fun r => (b.ball, r)

/-- `zVec2DDataDelaunayTriangulate`, src/zeo_voronoi2d.c:236-245. `some none`: false. -/
def triangulate (τ : ℝ) (fuel : ℕ) (d : Data (Vec2 ℝ)) : Option (Option St) :=
  (build τ fuel d).map fun r => r.2.map purge

end
end Zeo.Del
