import Verif.Model.Elem
import Verif.Model.Data

/-! # The Gilbert-Johnson-Keerthi algorithm: src/zeo_col_gjk.c

The two functions `zGJK` and `zGJKPoint` run the same loop on different support maps; the loop takes
the support map as a parameter. The penetration depth (`_zGJKPD`, which calls the convex hull) is in
`Model/Depth.lean`. -/

namespace Zeo
noncomputable section
open Classical

/-- `zEdge3DPointIsOnLine`, include/zeo/zeo_elemxd.h:157-162, 178-184, of the edge made by
`zEdge3DCreate` of the two points; `junk` is the unset direction of an edge of tiny length. -/
def Edge3.pointIsOnLine (τ : ℝ) (junk e0 e1 p : Vec3 ℝ) (margin : ℝ) : Prop :=
  if (p.sub e0).isTol τ then True
  else (p.sub e0).outerNorm ((e1.sub e0).normalize τ junk).2 < margin

namespace GJK

/-- `zGJKSlot`, src/zeo_col_gjk.c:11-18; the points are stored instead of pointers to them. -/
structure Slot where
  swW : Bool
  swY : Bool
  w : Vec3 ℝ
  p1 : Vec3 ℝ
  p2 : Vec3 ℝ
  s : ℝ
/-- `zGJKSimplex`, src/zeo_col_gjk.c:20-23. -/
structure Simplex where
  n : ℕ
  slot : Fin 4 → Slot

/-- `_zGJKSlotInit`, src/zeo_col_gjk.c:26-32. -/
def Slot.init : Slot := ⟨false, false, .zero, .zero, .zero, 0⟩
/-- `_zGJKSimplexInit`, src/zeo_col_gjk.c:53-60. -/
def Simplex.init : Simplex := ⟨0, fun _ => .init⟩

/-- `_zGJKSimplexCheckDupSlot`, src/zeo_col_gjk.c:110-119 (`zVec3DMatch` is exact). -/
def Simplex.checkDup (s : Simplex) (w : Vec3 ℝ) : Prop := ∃ i, (s.slot i).swY = true ∧ (s.slot i).w = w

/-- The first slot outside W, src/zeo_col_gjk.c:128-129. -/
def Simplex.free (s : Simplex) : Option (Fin 4) := (List.finRange 4).find? fun i => !(s.slot i).swW
/-- `_zGJKSimplexAddSlot`, src/zeo_col_gjk.c:121-139; `none`: the fatal error. `junk` is the unset
weight of the new slot. -/
def Simplex.addSlot (s : Simplex) (junk : ℝ) (w p1 p2 : Vec3 ℝ) : Option Simplex :=
  s.free.map fun k => { s with slot := fun i =>
    if i = k then { s.slot i with swY := true, w := w, p1 := p1, p2 := p2, s := junk }
    else { s.slot i with swY := (s.slot i).swW } }

/-- The index of the slots in Y, src/zeo_col_gjk.c:151-152. -/
def Simplex.ys (s : Simplex) : List (Fin 4) := (List.finRange 4).filter fun i => (s.slot i).swY
/-- The weights and the point of src/zeo_col_gjk.c:153-170, for the slots of the list; `none`: the
weights are NaN, or the list is empty (fatal error). -/
def weights (τ : ℝ) (w : Fin 4 → Vec3 ℝ) : List (Fin 4) → Option (List ℝ × Vec3 ℝ)
  | [i] => some ([1], w i)
  | [i, j] => (Edge3.closestFromOrigin (w i) (w j)).map fun r => ([r.s0, r.s1], r.cp)
  | [i, j, k] => (Tri3.closestFromOrigin τ (w i) (w j) (w k)).map fun r => ([r.s0, r.s1, r.s2], r.cp)
  | [i, j, k, l] => (Tetra.closestFromOrigin τ (w i) (w j) (w k) (w l)).map fun r =>
      ([r.s0, r.s1, r.s2, r.s3], r.cp)
  | _ => none
/-- The weight of slot `i` after the assignment to the slots of the list. -/
def weightOf (old : ℝ) (i : Fin 4) : List (Fin 4) → List ℝ → ℝ
  | j :: js, a :: as => if i = j then a else weightOf old i js as
  | _, _ => old
/-- The minimisation of the simplex, src/zeo_col_gjk.c:171-180. -/
def Simplex.prune (τ : ℝ) (s : Simplex) : Simplex :=
  ⟨((List.finRange 4).filter fun i => ¬ zIsTol (s.slot i).s τ).length,
   fun i => if zIsTol (s.slot i).s τ then { s.slot i with s := 0, swW := false }
     else { s.slot i with swW := true }⟩
/-- `_zGJKSimplexClosest`, src/zeo_col_gjk.c:144-182. -/
def Simplex.closest (τ : ℝ) (s : Simplex) : Option (Simplex × Vec3 ℝ) :=
  (weights τ (fun i => (s.slot i).w) s.ys).map fun r =>
    (({ s with slot := fun i => { s.slot i with s := weightOf (s.slot i).s i s.ys r.1 } } :
      Simplex).prune τ, r.2)

/-- How the loop ends: `done` with the simplex and the proximity vector, `crash` (the support map
dereferenced NULL, or the fatal error), `nan`. -/
inductive Out
  | done (s : Simplex) (v : Vec3 ℝ)
  | crash
  | nan

/-- The loop of `_zGJK`, src/zeo_col_gjk.c:456-465, and of `zGJKPoint`, lines 519-528: `supp` yields
`p1` and `p2` of the support map; `dv2` is `dv2norm`, `none` for HUGE_VAL. The result is `none` while
the loop is still running after `fuel` rounds. -/
def loop (τ junk : ℝ) (supp : Vec3 ℝ → Option (Vec3 ℝ × Vec3 ℝ)) :
    ℕ → Simplex → Vec3 ℝ → Option ℝ → Option Out
  | 0, _, _, _ => none
  | fuel + 1, s, v, dv2 =>
    match supp v with
    | none => some .crash
    | some (p1, p2) =>
      if s.checkDup (p1.sub p2) ∨ ∃ d, dv2 = some d ∧ d - (p1.sub p2).inner v ≤ τ then some (.done s v)
      else
        match s.addSlot junk (p1.sub p2) p1 p2 with
        | none => some .crash
        | some s1 =>
          match s1.closest τ with
          | none => some .nan
          | some (s2, v2) =>
            if s2.n < 4 then loop τ junk supp fuel s2 v2 (some v2.sqrNorm) else some (.done s2 v2)

/-- `_zGJKSupportMap`, src/zeo_col_gjk.c:190-199. -/
def supportMap (d1 d2 : Data (Vec3 ℝ)) (v : Vec3 ℝ) : Option (Vec3 ℝ × Vec3 ℝ) :=
  match d1.support3 v.rev, d2.support3 v with
  | some p1, some p2 => some (p1, p2)
  | _, _ => none
/-- `_zGJKPointSupportMap`, src/zeo_col_gjk.c:485-494, with `s->p2` = `p`. -/
def pointSupportMap (d : Data (Vec3 ℝ)) (p v : Vec3 ℝ) : Option (Vec3 ℝ × Vec3 ℝ) :=
  (d.support3 v.rev).map fun p1 => (p1, p)

/-- `_zGJKPair`, src/zeo_col_gjk.c:201-213, one of the two points; with `f` = `p1` also
`_zGJKPointClosest`, lines 496-505. -/
def Simplex.pair (s : Simplex) (f : Slot → Vec3 ℝ) : Vec3 ℝ :=
  (List.finRange 4).foldl
    (fun c i => if (s.slot i).swW = true then c.cat (s.slot i).s (f (s.slot i)) else c) .zero

/-- `_zGJKCheck`, src/zeo_col_gjk.c:427-442. The slots 0 to `n`-1 are used whatever their `sw_w`. -/
def Simplex.check (τ : ℝ) (junk : Vec3 ℝ) (s : Simplex) : Prop :=
  match s.n with
  | 4 => True
  | 3 => Tri3.pointIsOnPlane τ (Tri3.create τ (s.slot 0).w (s.slot 1).w (s.slot 2).w).2 .zero τ
  | 2 => Edge3.pointIsOnLine τ junk (s.slot 0).w (s.slot 1).w .zero τ
  | 1 => ((s.slot 0).w.sub .zero).isTol τ
  | _ => False

/-- What `zGJK` delivers: the return value, `*c1` and `*c2`; `crash`, `nan` as for the loop. -/
inductive Res
  | ret (b : Prop) (c1 c2 : Vec3 ℝ)
  | crash
  | nan

/-- The end of `_zGJK`, src/zeo_col_gjk.c:466-467. -/
def finish (τ : ℝ) (junk : Vec3 ℝ) : Out → Res
  | .done s _ => .ret (s.check τ junk) (s.pair Slot.p1) (s.pair Slot.p2)
  | .crash => .crash
  | .nan => .nan

/-- The loop of `zGJK` from its start, src/zeo_col_gjk.c:452-465 (`zVec3DDataPeek` of an empty set is
NULL). -/
def start (τ junk : ℝ) (fuel : ℕ) (d1 d2 : Data (Vec3 ℝ)) : Option Out :=
  match d1.rewind.peek, d2.rewind.peek with
  | some a, some b => loop τ junk (supportMap d1 d2) fuel .init (a.sub b) none
  | _, _ => some .crash
end GJK

open GJK

/-- `zGJK`, src/zeo_col_gjk.c:444-474. -/
def gjk (τ junk : ℝ) (junkv : Vec3 ℝ) (fuel : ℕ) (d1 d2 : Data (Vec3 ℝ)) : Option Res :=
  (GJK.start τ junk fuel d1 d2).map (finish τ junkv)

/-- `zGJKPoint`, src/zeo_col_gjk.c:507-531: the first point of the result is `*c`, the second is not
computed by the code. -/
def gjkPoint (τ junk : ℝ) (junkv : Vec3 ℝ) (fuel : ℕ) (d : Data (Vec3 ℝ)) (p : Vec3 ℝ) :
    Option Res :=
  match d.rewind.peek with
  | some a => (loop τ junk (pointSupportMap d p) fuel .init (a.sub p) none).map (finish τ junkv)
  | none => some .crash

end
end Zeo
