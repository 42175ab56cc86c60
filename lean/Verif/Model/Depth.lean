import Verif.Model.ColPH

/-! # The penetration depth: src/zeo_col_gjk.c:215-425, 476-483, and the linear scale factors that it uses -/

namespace Zeo
noncomputable section
open Classical

/-! ## Linear scale factors -/

/-- `_zEdge3DLinScale`, include/zeo/zeo_elemxd.h:188-219, on an edge with direction `v` and length `d`: the two factors and
`*cp`. The return value is not used by the only caller. -/
def Edge3.linScale (e0 e1 v : Vec3 ℝ) (d : ℝ) (p : Vec3 ℝ) : ℝ × ℝ × Vec3 ℝ :=
  let l : ℝ × ℝ :=
    if (p.sub e0).sqrNorm ≤ (p.sub e1).sqrNorm then (1 - (p.sub e0).inner v / d, (p.sub e0).inner v / d)
    else (-(p.sub e1).inner v / d, 1 - -(p.sub e1).inner v / d)
  if l.2 < 0 then (1, 0, e0)
  else if l.1 < 0 then (0, 1, e1)
  else (l.1, l.2, p)

/-- The corners of a triangle by number: `zTri3DVert`. -/
def Tri3.vertex (t : Tri3 ℝ) : Fin 3 → Vec3 ℝ := ![t.v0, t.v1, t.v2]

/-- `_zTri3DLinScaleDeg2`, src/zeo_elem3d.c:409-418, with `zEdge3DProjPoint`, include/zeo/zeo_elemxd.h:167-173: the factors by
the number of the corner, and `*cp`. `none`: the edge is tiny; its direction is unset and the divisor is zero. -/
def Tri3.linScaleDeg2 (τ : ℝ) (t : Tri3 ℝ) (p : Vec3 ℝ) (i1 i2 : Fin 3) : Option ((Fin 3 → ℝ) × Vec3 ℝ) :=
  let e := (t.vertex i2).sub (t.vertex i1)
  if e.isTol τ then none
  else
    let u := e.normalizeNC
    let pp := (t.vertex i1).cat ((p.sub (t.vertex i1)).inner u.2) u.2
    let r := Edge3.linScale (t.vertex i1) (t.vertex i2) u.2 u.1 pp
    some (fun i => if i = i1 then r.1 else if i = i2 then r.2.1 else 0, r.2.2)
/-- `_zTri3DLinScaleDeg1`, src/zeo_elem3d.c:420-424. -/
def Tri3.linScaleDeg1 (t : Tri3 ℝ) (i : Fin 3) : (Fin 3 → ℝ) × Vec3 ℝ := (fun j => if j = i then 1 else 0, t.vertex i)

/-- The corner nearest to `p`, src/zeo_elem3d.c:434-437. -/
def Tri3.nearVert (t : Tri3 ℝ) (p : Vec3 ℝ) : Fin 3 :=
  let d := fun i => p.sqrDist (t.vertex i)
  if d 0 ≤ d 1 then if d 0 ≤ d 2 then 0 else 2 else if d 1 ≤ d 2 then 1 else 2
/-- The factors before the check of their signs, src/zeo_elem3d.c:434-455. `none`: an edge is tiny and its length is taken
to be 0, by which is divided, or the matrix is not inverted and its result is unset. -/
def Tri3.linScaleRaw (τ : ℝ) (t : Tri3 ℝ) (p : Vec3 ℝ) : Option (Fin 3 → ℝ) :=
  let i0 := t.nearVert p
  let f1 := (t.vertex (i0 + 1)).sub (t.vertex i0)
  let f2 := (t.vertex (i0 + 2)).sub (t.vertex i0)
  if f1.isTol τ ∨ f2.isTol τ then none
  else
    let e1 := f1.normalizeNC
    let e2 := f2.normalizeNC
    let dp := p.sub (t.vertex i0)
    let mc := e1.2.inner e2.2
    ((Mat2.create 1 mc mc 1).mulInvVec τ ⟨e1.2.inner dp, e2.2.inner dp⟩).map fun l =>
      fun i => if i = i0 then 1 - (l.x / e1.1 + l.y / e2.1) else if i = i0 + 1 then l.x / e1.1 else l.y / e2.1
/-- `zTri3DLinScale`, src/zeo_elem3d.c:426-467: the return value, the factors by the number of the corner, and `*cp`. `none`:
as above, or the fatal error. -/
def Tri3.linScale (τ : ℝ) (t : Tri3 ℝ) (p : Vec3 ℝ) : Option (ℝ × (Fin 3 → ℝ) × Vec3 ℝ) :=
  (t.linScaleRaw τ p).bind fun l =>
    let fin := fun r : (Fin 3 → ℝ) × Vec3 ℝ => (p.dist r.2, r.1, r.2)
    if l 0 < 0 then
      if l 1 < 0 then
        if l 2 < 0 then none else some (fin (t.linScaleDeg1 2))
      else if l 2 < 0 then some (fin (t.linScaleDeg1 1)) else (t.linScaleDeg2 τ p 1 2).map fin
    else if l 1 < 0 then
      if l 2 < 0 then some (fin (t.linScaleDeg1 0)) else (t.linScaleDeg2 τ p 2 0).map fin
    else if l 2 < 0 then (t.linScaleDeg2 τ p 0 1).map fin
    else some (0, l, p)

/-! ## Penetration depth -/

namespace GJK

/-- The part of a slot that the list of slots keeps: `_zGJKSlotListInsert`, src/zeo_col_gjk.c:244-258 (the coordinates are
numbers, so the check for NaN never fires). -/
structure PSlot where
  w : Vec3 ℝ
  p1 : Vec3 ℝ
  p2 : Vec3 ℝ
/-- The list of slots and `vert_data`. -/
structure PState where
  slots : List PSlot
  data : Data (Vec3 ℝ)
/-- A new slot: src/zeo_col_gjk.c:276-277, 401-402. -/
def PState.push (st : PState) (q : Vec3 ℝ × Vec3 ℝ) : PState :=
  ⟨st.slots ++ [⟨q.1.sub q.2, q.1, q.2⟩], (st.data.add (q.1.sub q.2)).2⟩

/-- `_zGJKPDAddPoint`, src/zeo_col_gjk.c:267-279, repeated for several directions; `near` is the test against the edge or
the triangle. The outer `none`: NULL is dereferenced; the inner `none`: false. -/
def addPoints (d1 d2 : Data (Vec3 ℝ)) (near : Vec3 ℝ → Prop) : List (Vec3 ℝ) → PState → Option (Option PState)
  | [], st => some (some st)
  | v :: vs, st =>
    (supportMap d1 d2 v).bind fun q =>
      if near (q.1.sub q.2) then some none else addPoints d1 d2 near vs (st.push q)

/-- The first slots, src/zeo_col_gjk.c:298-301, and `_zGJKPDInitSimplex3D`, lines 352-353. The slots 0 to `n`-1 are used
whatever their `sw_w`. -/
def Simplex.pinit (s : Simplex) : PState :=
  let l := ((List.finRange 4).filter fun i => decide (i.val < s.n)).map fun i => (⟨(s.slot i).w, (s.slot i).p1, (s.slot i).p2⟩ : PSlot)
  ⟨l, l.foldl (fun d x => (d.add x.w).2) Data.initList⟩

/-- `_zGJKPDInit`, src/zeo_col_gjk.c:288-341. A distance that is NaN or HUGE_VAL is not tiny. -/
def pdInit (τ : ℝ) (sort : (Vec3 ℝ → Vec3 ℝ → ℤ) → List (Vec3 ℝ) → List (Vec3 ℝ)) (d1 d2 : Data (Vec3 ℝ)) (s : Simplex) :
    Option (Option PState) :=
  match s.n with
  | 0 => some none
  | 1 => some none
  | 2 =>
    match ((s.slot 1).w.sub (s.slot 0).w).orthoSpace τ with
    | none => some none
    | some (v1, v2) =>
      (addPoints d1 d2 (fun w => ∃ d, Edge3.distFromPoint (s.slot 0).w (s.slot 1).w w = some d ∧ zIsTol d τ)
          [v1, v2, v1.rev, v2.rev] s.pinit).map fun r => r.bind fun st =>
        match convexHull3 τ sort st.data with
        | none => none
        | some ph => if ph.pointIsInside .zero (-τ) then some st else none
  | 3 =>
    let t := Tri3.create τ (s.slot 0).w (s.slot 1).w (s.slot 2).w
    if t.1 = false then some none
    else addPoints d1 d2 (fun w => ∃ r, Tri3.closest τ (s.slot 0).w (s.slot 1).w (s.slot 2).w w = some r ∧ zIsTol r.1 τ)
      [t.2.norm, t.2.norm.rev] s.pinit
  | _ => some (some s.pinit)

/-- One face in the loop of `_zGJKPH3DClosest`, src/zeo_col_gjk.c:231-239. -/
def faceStep (τ : ℝ) (ph : PH ℝ) (p : Vec3 ℝ) (best : Option (ℝ × Vec3 ℝ × Face ℝ)) (f : Face ℝ) :
    Option (ℝ × Vec3 ℝ × Face ℝ) :=
  match Tri3.closest τ (ph.vert f.i0) (ph.vert f.i1) (ph.vert f.i2) p with
  | none => best
  | some r =>
    match best with
    | none => some (r.1, r.2, f)
    | some b => if r.1 < b.1 then some (r.1, r.2, f) else best
/-- `_zGJKPH3DClosest`, src/zeo_col_gjk.c:216-241: the distance, `*cp` and the face number `*id`. `none`: there is no face, or
none with a closest point; `*id` is then not the number of a face with a point `*cp`. -/
def faceClosest (τ : ℝ) (ph : PH ℝ) (p : Vec3 ℝ) : Option (ℝ × Vec3 ℝ × Face ℝ) := ph.face.foldl (faceStep τ ph p) none

/-- How the loop of `_zGJKPD` ends: `fail` (no hull), `undef`, or `done` with the list of slots, the polyhedron, the
face and `v`. -/
inductive PDOut
  | fail
  | undef
  | done (slots : List PSlot) (ph : PH ℝ) (f : Face ℝ) (v : Vec3 ℝ)

/-- The loop of `_zGJKPD`, src/zeo_col_gjk.c:386-405. `v` has been reversed if the loop ends because the new slot is in the
list. `none` while the loop is still running after `fuel` rounds. -/
def pdLoop (τ : ℝ) (sort : (Vec3 ℝ → Vec3 ℝ → ℤ) → List (Vec3 ℝ) → List (Vec3 ℝ)) (d1 d2 : Data (Vec3 ℝ)) :
    ℕ → PState → Vec3 ℝ → Option PDOut
  | 0, _, _ => none
  | fuel + 1, st, vt =>
    match convexHull3 τ sort st.data with
    | none => some .fail
    | some ph =>
      match faceClosest τ ph .zero with
      | none => some .undef
      | some (_, v, f) =>
        if v.equal τ vt then some (.done st.slots ph f v)
        else
          match supportMap d1 d2 v.rev with
          | none => some .undef
          | some q =>
            if ∃ x ∈ st.slots, (q.1.sub q.2).equal τ x.w then some (.done st.slots ph f v.rev)
            else pdLoop τ sort d1 d2 fuel (st.push q) v

/-- One corner of the face in the inner loop, src/zeo_col_gjk.c:413-418: `*c1`, `*c2` and `j`. -/
def cornerStep (τ : ℝ) (u : Vec3 ℝ) (l : ℝ) (x : PSlot) (c : Vec3 ℝ × Vec3 ℝ × ℕ) : Vec3 ℝ × Vec3 ℝ × ℕ :=
  if u.equal τ x.w then (c.1.cat l x.p1, c.2.1.cat l x.p2, c.2.2 + 1) else c
/-- One slot in the loop over the slots, src/zeo_col_gjk.c:411-420; the loop ends after `j` is 3. -/
def slotStep (τ : ℝ) (ph : PH ℝ) (f : Face ℝ) (l : Fin 3 → ℝ) (c : Vec3 ℝ × Vec3 ℝ × ℕ) (x : PSlot) : Vec3 ℝ × Vec3 ℝ × ℕ :=
  if c.2.2 = 3 then c
  else cornerStep τ (ph.vert f.i2) (l 2) x (cornerStep τ (ph.vert f.i1) (l 1) x (cornerStep τ (ph.vert f.i0) (l 0) x c))

/-- The end of `_zGJKPD`, src/zeo_col_gjk.c:406-424. -/
def pdFinish (τ : ℝ) (slots : List PSlot) (ph : PH ℝ) (f : Face ℝ) (v : Vec3 ℝ) : Res :=
  match (ph.tri f).linScale τ v with
  | none => .crash
  | some (_, l, _) =>
    let c := slots.foldl (slotStep τ ph f l) (.zero, .zero, 0)
    .ret True c.1 c.2.1

/-- `_zGJKPD`, src/zeo_col_gjk.c:365-425, on the simplex of `_zGJK`; `c1`, `c2` are the points that `_zGJK` has stored. -/
def pd (τ : ℝ) (sort : (Vec3 ℝ → Vec3 ℝ → ℤ) → List (Vec3 ℝ) → List (Vec3 ℝ)) (fuel : ℕ) (d1 d2 : Data (Vec3 ℝ))
    (c1 c2 : Vec3 ℝ) (s : Simplex) : Option Res :=
  match pdInit τ sort d1 d2 s with
  | none => some .crash
  | some none => some (.ret False c1 c2)
  | some (some st) =>
    (pdLoop τ sort d1 d2 fuel st .zero).map fun o =>
      match o with
      | .fail => .ret False c1 c2
      | .undef => .crash
      | .done slots ph f v => pdFinish τ slots ph f v

end GJK

open GJK

/-- `zGJKDepth`, src/zeo_col_gjk.c:477-483; `fuel` bounds the rounds of each of the two loops. -/
def gjkDepth (τ : ℝ) (sort : (Vec3 ℝ → Vec3 ℝ → ℤ) → List (Vec3 ℝ) → List (Vec3 ℝ)) (junk : ℝ) (junkv : Vec3 ℝ) (fuel : ℕ)
    (d1 d2 : Data (Vec3 ℝ)) : Option Res :=
  (GJK.start τ junk fuel d1 d2).bind fun o =>
    match o with
    | .done s _ =>
      if s.check τ junkv then pd τ sort fuel d1 d2 (s.pair Slot.p1) (s.pair Slot.p2) s
      else some (.ret False (s.pair Slot.p1) (s.pair Slot.p2))
    | .crash => some .crash
    | .nan => some .nan

/-- `zGJKDepth` as `zIntersectPH3D` uses it, src/zeo_col_ph.c:84-89: the two points if it returns true. -/
def depthOf (τ : ℝ) (sort : (Vec3 ℝ → Vec3 ℝ → ℤ) → List (Vec3 ℝ) → List (Vec3 ℝ)) (junk : ℝ) (junkv : Vec3 ℝ) (fuel : ℕ)
    (xs ys : List (Vec3 ℝ)) : Option (Vec3 ℝ × Vec3 ℝ) :=
  match gjkDepth τ sort junk junkv fuel (Data.assignArray xs) (Data.assignArray ys) with
  | some (.ret b c1 c2) => if b then some (c1, c2) else none
  | _ => none

end
end Zeo
