import Verif.Model.ShapePlace
import Verif.Model.Sweep
import Verif.Model.Vec2

/-! # Loops with arcs, prisms and pyramids in ZTK files

The part of `zPH3DFromZTK` (src/zeo_ph3d.c) that `phFromZTK` in Model/ZTK.lean leaves out: the keys `loop`, `prism` and
`pyramid`.

Assumed of ZEDA, besides what is at the head of Model/ZTK.lean: `zVec2DListAdd` inserts at the head, `zListForEach` goes
from the tail to the head, so that a list here is in the order of insertion; `ZTKVal` is NULL behind the last value;
allocations succeed. -/

namespace Zeo.ZTK
noncomputable section
open Classical

/-- `zDirFromStr`, src/zeo_misc.c:49-59, and the test at src/zeo_ph3d.c:546-549: counterclockwise or not; `none` where
the latter fails. -/
def arcDir (s : String) : Option Bool := if s = "ccw" then some true else if s = "cw" then some false else none

/-- The points of an arc in `_zPH3DLoopArcFromZTK`, src/zeo_ph3d.c:563-584; `none`: the radius is too small.  The ends
have to differ: otherwise the code divides by zero. -/
def arcPoints (ccw : Bool) (v1 v2 : Vec2 ℝ) (r : ℝ) (div n : ℤ) : Option (List (Vec2 ℝ)) :=
  let d := v2.sub v1
  let cr := r * r / d.sqrNorm - 1/4
  if cr < 0 then none
  else
    let c := ((((d.rot (if ccw then Real.pi / 2 else -(Real.pi / 2))).mul (Real.sqrt cr)).cat (1/2) d).add v1)
    let d1 := v1.sub c
    let d2 := v2.sub c
    some ((List.range n.toNat).map fun i : ℕ => (d1.rot (d1.angle d2 * (i + 1) / div)).add c)

/-- `_zPH3DLoopArcFromZTK`, src/zeo_ph3d.c:539-586: the points after it, the values left, and the return value.  Without
a point before the arc, or with both ends the same (not a number): undefined. -/
def arcFromZTK (l : List (Vec2 ℝ)) (vs : List (Tok ℝ)) : Except Err (List (Vec2 ℝ) × List (Tok ℝ) × Bool) :=
  match vs with
  | .word s :: vs => match arcDir s with
    | none => .ok (l, .word s :: vs, false)
    | some ccw => match dbl vs with
      | .error e => .error e
      | .ok (r, vs) => match int vs with
        | .error e => .error e
        | .ok (div, vs) =>
          if div = 0 then .ok (l, vs, false)
          else match l with
            | [] => .error .undef
            | v0 :: _ =>
              let v1 := l.getLastD v0
              let fin := fun (v2 : Vec2 ℝ) (n : ℤ) (vs : List (Tok ℝ)) =>
                if v2 = v1 then .error .undef
                else match arcPoints ccw v1 v2 r div n with
                  | none => .ok (l, vs, false)
                  | some ps => .ok (l ++ ps, vs, true)
              match vs with
              | [] => fin v0 (div - 1) []
              | vs => match dbl vs with
                | .error e => .error e
                | .ok (x, vs) => match dbl vs with
                  | .error e => .error e
                  | .ok (y, vs) => fin ⟨x, y⟩ div vs
  | vs => .ok (l, vs, false)

/-- The loop at src/zeo_ph3d.c:609-619.  Each round takes at least one value: the fuel is the number of values. -/
def loopPoints : ℕ → List (Vec2 ℝ) → List (Tok ℝ) → Except Err (List (Vec2 ℝ))
  | _, l, [] => .ok l
  | 0, _, _ => .error .unmodelled
  | k + 1, l, .word s :: vs =>
    if s = "arc" then match arcFromZTK l vs with
      | .error e => .error e
      | .ok (l, _, false) => .ok l
      | .ok (l, vs, true) => loopPoints k l vs
    else .error .undef
  | k + 1, l, vs => match dbl vs with
    | .error e => .error e
    | .ok (x, vs) => match dbl vs with
      | .error e => .error e
      | .ok (y, vs) => loopPoints k (l ++ [⟨x, y⟩]) vs

/-- A vertex of a loop, src/zeo_ph3d.c:606-607 and 625-627. -/
def onPlane (k : Fin 3) (val : ℝ) (p : Vec2 ℝ) : Vec3 ℝ :=
  ((Vec3.zero.setE (k + 1) p.x).setE (k + 2) p.y).setE k val

/-- `_zPH3DLoopFromZTK`, src/zeo_ph3d.c:587-633: the array of vertices. -/
def loopFromZTK (vs : List (Tok ℝ)) : Except Err (List (Vec3 ℝ)) :=
  match vs with
  | .word a :: vs => match mirrorAxis a with
    | none => .error .null
    | some k => match vs with
      | [] => .error .null
      | vs => match dbl vs with
        | .error e => .error e
        | .ok (val, vs) => match loopPoints vs.length [] vs with
          | .error e => .error e
          | .ok l => .ok (l.map (onPlane k val))
  | _ => .error .null

/-- The polyhedron and the array `varray` of `zPH3DFromZTK`, src/zeo_ph3d.c:674. -/
structure SweepState where
  ph : PH ℝ
  arr : List (Vec3 ℝ)

/-- `_zPH3DVertFromZTK`, src/zeo_ph3d.c:489-510: outside of the array or of the vertices of the polyhedron, undefined. -/
def sweepVert (s : SweepState) (i : ℕ) (vs : List (Tok ℝ)) : Except Err SweepState :=
  if s.arr = [] then match phVert s.ph i vs with
    | .error e => .error e
    | .ok ph => if i < s.ph.nv then .ok { s with ph := ph } else .error .undef
  else match int vs with
    | .error e => .error e
    | .ok (_, vs) => match vec vs with
      | .error e => .error e
      | .ok v => if i < s.arr.length then .ok { s with arr := s.arr.set i v } else .error .undef

/-- `_zPH3DFaceFromZTK`, src/zeo_ph3d.c:512-537. -/
def sweepFace (τ : ℝ) (s : SweepState) (vs : List (Tok ℝ)) : Except Err SweepState :=
  match phFace τ s.ph vs with
  | .error e => .error e
  | .ok ph => .ok { s with ph := ph }

/-- The outcome of a constructor of src/zeo_ph3d.c:323-410 in a reader, src/zeo_ph3d.c:643 and 658. -/
def made : Except Sweep.Err (PH ℝ) → Except Err (PH ℝ)
  | .ok ph => .ok ph
  | .error .null => .error .null
  | .error .undef => .error .undef

/-- `_zPH3DCreatePrismFromZTK` and `_zPH3DCreatePyramidFromZTK`, src/zeo_ph3d.c:635-663, with the constructor. -/
def sweepMake (make : List (Vec3 ℝ) → Vec3 ℝ → Except Sweep.Err (PH ℝ)) (s : SweepState) (vs : List (Tok ℝ)) : Except Err SweepState :=
  if 0 < s.ph.nv ∨ s.ph.face ≠ [] then .ok s
  else match vec vs with
    | .error e => .error e
    | .ok shift => match made (make s.arr shift) with
      | .error e => .error e
      | .ok ph => .ok ⟨ph, []⟩

/-- `__ztk_prp_ph`, src/zeo_ph3d.c:665-671. -/
def sweepPrp (τ : ℝ) : List (Prp SweepState ℝ) :=
  [⟨"vert", -1, sweepVert, none⟩,
   ⟨"face", -1, fun s _ => sweepFace τ s, none⟩,
   ⟨"loop", 1, fun s _ => store loopFromZTK (fun s l => { s with arr := l }) s, none⟩,
   ⟨"prism", 1, fun s _ => sweepMake (Sweep.prism τ) s, none⟩,
   ⟨"pyramid", 1, fun s _ => sweepMake (Sweep.pyramid τ) s, none⟩]

/-- `zPH3DFromZTK`, src/zeo_ph3d.c:674-702. -/
def sweepFromZTK (τ : ℝ) (fs : List (KeyField ℝ)) : Except Err (PH ℝ) :=
  let nv := fs.countP (fun f => f.1 = "vert")
  let nf := fs.countP (fun f => f.1 = "face")
  if fs = [] then .error .null
  else
    let run := fun s => match evalKeys (sweepPrp τ) s fs with
      | .error e => .error e
      | .ok s => .ok s.ph
    if fs.any (fun f => f.1 = "prism" ∨ f.1 = "pyramid") then
      if 0 < nf then .error .null else run ⟨⟨0, fun _ => .zero, []⟩, List.replicate nv .zero⟩
    else run ⟨⟨nv, fun _ => .zero, []⟩, []⟩

end
end Zeo.ZTK
