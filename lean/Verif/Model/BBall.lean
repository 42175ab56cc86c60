import Verif.Model.Elem
import Verif.Model.Data

/-! # Bounding balls

include/zeo/zeo_bvxd_boundingball.h, src/zeo_bv3d_boundingball.c, src/zeo_bv2d_boundingball.c.

The method macro `ZEO_BOUNDINGBALL_DEF_METHOD(XD,DIM,BALLTYPE)` is modelled once, for any point type
`P`, any result type `R` (ball, number of contact points, contact points), any `DIM`, any `Direct`
function and any inside test.  `none` as a result of `Direct` is a NULL dereference in it.

Stacks are lists whose head is the top (the head of the ZEDA list).  The stack of unused shell cells
is represented by its size. Allocation succeeds. -/

namespace Zeo
namespace BBall

/-- `zBoundingBallAction`, zeo_bvxd_boundingball.h:55-60 (`NONE` is the answer for an empty stack,
modelled by `none`). -/
inductive Act | save | check | revert
deriving DecidableEq

/-- `_zBoundingBallXDData`, zeo_bvxd_boundingball.h:64-71, with the ball being computed. -/
structure St (P R : Type*) where
  pts : List P
  ptsSave : List P
  shell : List P
  free : ℕ
  acts : List Act
  actsSave : List Act
  res : R

/-- One round of the loop goes on, leaves it (`goto OUTOFLOOP`), or does something undefined (pop of
an empty stack, NULL dereference). -/
inductive Out (P R : Type*)
  | next (s : St P R)
  | exit (s : St P R)
  | crash

variable {P R : Type*} (dim : ℕ) (direct : List P → Option R) (inside : R → P → Bool)

/-- `_zBoundingBallXDDataRevertPoint` followed by `if( ! ) goto OUTOFLOOP`,
zeo_bvxd_boundingball.h:121-126. -/
def revertPoint (s : St P R) (k : St P R → Out P R) : Out P R :=
  match s.ptsSave, s.actsSave with
  | [], _ => .exit s
  | p :: ps, a :: as =>
    k { s with pts := p :: s.pts, ptsSave := ps, acts := a :: s.acts, actsSave := as }
  | _ :: _, [] => .crash

/-- `_zBoundingBallXDDataSavePoint`, zeo_bvxd_boundingball.h:113-119; the return value is not used. -/
def savePoint (s : St P R) (a : Act) : Out P R :=
  match s.pts, s.acts with
  | [], _ => .next s
  | p :: ps, _ :: as =>
    .next { s with pts := ps, ptsSave := p :: s.ptsSave, acts := as, actsSave := a :: s.actsSave }
  | _ :: _, [] => .crash

/-- `_zBoundingBallSetAction`, zeo_bvxd_boundingball.h:143-145. -/
def setAction (s : St P R) (a : Act) (k : St P R → Out P R) : Out P R :=
  match s.acts with
  | [] => .crash
  | _ :: as => k { s with acts := a :: as }

/-- The second half of the body of `while( 1 )`, zeo_bvxd_boundingball.h:186-206. -/
def step2 (s : St P R) : Out P R :=
  if s.pts = [] ∨ s.shell.length = dim then
    match direct s.shell with
    | none => .crash
    | some r => revertPoint { s with res := r } .next
  else
    match s.acts.head? with
    | none => .next s
    | some .save => savePoint s .check
    | some .check =>
      match s.pts with
      | [] => .crash
      | p :: _ =>
        if inside s.res p = true then setAction s .save fun s => revertPoint s .next
        else if s.free = 0 then .crash
        else savePoint { s with shell := p :: s.shell, free := s.free - 1 } .revert
    | some .revert => .next s

/-- The body of `while( 1 )`, zeo_bvxd_boundingball.h:180-206. -/
def step (s : St P R) : Out P R :=
  if s.acts.head? = some .revert then
    match s.shell with
    | [] => .crash
    | _ :: sh =>
      setAction { s with shell := sh, free := s.free + 1 } .save fun s =>
        revertPoint s (step2 dim direct inside)
  else step2 dim direct inside s

/-- `while( 1 )` with at most `n` rounds; `none`: not finished. -/
def loop : ℕ → St P R → Option (Out P R)
  | 0, _ => none
  | n + 1, s =>
    match step dim direct inside s with
    | .next s' => loop n s'
    | o => some o

/-- The search in `_zBoundingBallXDDataReorder`, zeo_bvxd_boundingball.h:157-162: the list is visited
from its tail, so the first outlier is the last one of the list counted from the top. The result is
what precedes it (towards the head), the outlier, and what follows. -/
def findOutlier (r : R) : List P → Option (List P × P × List P)
  | [] => none
  | p :: ps =>
    match findOutlier r ps with
    | some (a, q, b) => some (p :: a, q, b)
    | none => if inside r p = true then none else some ([], p, ps)

/-- `_zBoundingBallXDDataReorder`, zeo_bvxd_boundingball.h:151-169; `none`: false, no outliers. -/
def reorder (s : St P R) : Option (St P R) :=
  match findOutlier inside s.res s.pts with
  | none => none
  | some (a, q, b) => some { s with pts := q :: (a ++ b), acts := s.acts.map fun _ => .save }

/-- What `zVecXDDataBoundingBall` does: it returns (`warned`: with the warning about the number of
retries), or something undefined happens, or (`stuck`) the inner loop is still running after `fuel`
rounds. -/
inductive Res (R : Type*)
  | ok (r : R) (warned : Bool)
  | crash
  | stuck

/-- The loop over `i`, zeo_bvxd_boundingball.h:178-211; `n` retries are left. -/
def retry (fuel : ℕ) : ℕ → St P R → Res R
  | 0, s => .ok s.res true
  | n + 1, s =>
    match loop dim direct inside fuel s with
    | none => .stuck
    | some (.exit s') =>
      match reorder inside s' with
      | none => .ok s'.res false
      | some s'' => retry fuel n s''
    | some _ => .crash

/-- `_zBoundingBallXDDataAlloc`, zeo_bvxd_boundingball.h:73-100. The point stack is the address list
of the data, the last point on top; `junk` is the content of the caller's ball. -/
def init (ps : List P) (junk : R) : St P R :=
  ⟨ps.reverse, [], [], dim, ps.map fun _ => .save, [], junk⟩

/-- `zVecXDDataBoundingBall`, zeo_bvxd_boundingball.h:172-216, for a point set whose address list is
`ps`; `ZEO_BOUNDINGBALL_MAX_RETRY_NUM` = 100. -/
def run (fuel : ℕ) (ps : List P) (junk : R) : Res R :=
  retry dim direct inside fuel 100 (init dim ps junk)

/-- `_zBoundingBallXDRecursive`, zeo_bvxd_boundingball.h:17-33: `ps` is `pl` from its tail, `shell`
is given from its head (`zListInsertTail` appends). -/
def recursive : List P → List P → Option R
  | [], shell => direct shell
  | p :: ps, shell =>
    if shell.length = dim then direct shell
    else
      match recursive ps shell with
      | none => none
      | some r => if inside r p = true then some r else recursive ps (shell ++ [p])

end BBall

noncomputable section
open Classical

/-- What the 3D functions deliver: the ball, the returned number and the contact points in `vp`. -/
structure Ball3 where
  ball : Sphere3 ℝ
  num : ℕ
  vp : List (Vec3 ℝ)
/-- The 2D counterpart. -/
structure Ball2 where
  ball : Disk2 ℝ
  num : ℕ
  vp : List (Vec2 ℝ)

/-- `_zBoundingBall3DTest2`, src/zeo_bv3d_boundingball.c:10-18. -/
def bb3Test2 (τ : ℝ) (v1 v2 v3 v4 : Vec3 ℝ) : Option Ball3 :=
  let b := Sphere3.from2 v1 v2
  if ¬ b.pointIsInside v3 τ ∨ ¬ b.pointIsInside v4 τ then none else some ⟨b, 2, [v1, v2]⟩
/-- `_zBoundingBall3DTest3`, src/zeo_bv3d_boundingball.c:21-29. For collinear points the C code
computes a NaN center; the division by zero is 0 here. -/
def bb3Test3 (τ : ℝ) (v1 v2 v3 v4 : Vec3 ℝ) : Option Ball3 :=
  let b := Sphere3.from3 v1 v2 v3
  if ¬ b.pointIsInside v4 τ then none else some ⟨b, 3, [v1, v2, v3]⟩
/-- `_zBoundingBall3DTest4`, src/zeo_bv3d_boundingball.c:32-38. -/
def bb3Test4 (v1 v2 v3 v4 : Vec3 ℝ) : Option Ball3 :=
  (Sphere3.from4 v1 v2 v3 v4).map fun b => ⟨b, 4, [v1, v2, v3, v4]⟩
/-- `_zBoundingBall3D4`, src/zeo_bv3d_boundingball.c:41-55. -/
def bb3Four (τ : ℝ) (v0 v1 v2 v3 : Vec3 ℝ) : Option Ball3 :=
  bb3Test2 τ v0 v1 v2 v3 <|> bb3Test2 τ v0 v2 v1 v3 <|> bb3Test2 τ v0 v3 v1 v2 <|>
  bb3Test2 τ v1 v2 v0 v3 <|> bb3Test2 τ v1 v3 v0 v2 <|> bb3Test2 τ v2 v3 v0 v1 <|>
  bb3Test3 τ v0 v1 v2 v3 <|> bb3Test3 τ v0 v1 v3 v2 <|> bb3Test3 τ v1 v2 v3 v0 <|>
  bb3Test4 v0 v1 v2 v3
/-- `_zBoundingBall3DDirect`, src/zeo_bv3d_boundingball.c:58-88, on the list from its head. More than
four points (the error branch) do not occur; see `C39_loop`. -/
def bb3Direct (τ : ℝ) : List (Vec3 ℝ) → Option Ball3
  | [] => some ⟨⟨.zero, -1⟩, 0, []⟩
  | [a] => some ⟨⟨a, 0⟩, 1, [a]⟩
  | [a, b] => some ⟨.from2 a b, 2, [a, b]⟩
  | [a, b, c] => bb3Four τ c b a a
  | [a, b, c, d] => bb3Four τ d c b a
  | _ => none

/-- `_zBoundingBall2DTest2`, src/zeo_bv2d_boundingball.c:9-17. -/
def bb2Test2 (τ : ℝ) (v1 v2 v3 : Vec2 ℝ) : Option Ball2 :=
  let b := Disk2.from2 v1 v2
  if ¬ b.pointIsInside v3 τ then none else some ⟨b, 2, [v1, v2]⟩
/-- `_zBoundingBall2DTest3`, src/zeo_bv2d_boundingball.c:20-27. -/
def bb2Test3 (v1 v2 v3 : Vec2 ℝ) : Ball2 := ⟨.from3 v1 v2 v3, 3, [v1, v2, v3]⟩
/-- `_zBoundingBall2D3`, src/zeo_bv2d_boundingball.c:30-37. -/
def bb2Three (τ : ℝ) (v0 v1 v2 : Vec2 ℝ) : Option Ball2 :=
  bb2Test2 τ v0 v1 v2 <|> bb2Test2 τ v1 v2 v0 <|> bb2Test2 τ v2 v0 v1 <|> some (bb2Test3 v0 v1 v2)
/-- `_zBoundingBall2DDirect`, src/zeo_bv2d_boundingball.c:40-68. -/
def bb2Direct (τ : ℝ) : List (Vec2 ℝ) → Option Ball2
  | [] => some ⟨⟨.zero, -1⟩, 0, []⟩
  | [a] => some ⟨⟨a, 0⟩, 1, [a]⟩
  | [a, b] => some ⟨.from2 a b, 2, [a, b]⟩
  | [a, b, c] => bb2Three τ c b a
  | _ => none

/-- `zVec3DDataBoundingBall`: the method with `DIM` = 4 and `zSphere3D`,
src/zeo_bv3d_boundingball.c:94. -/
def boundingBall3 (τ : ℝ) (fuel : ℕ) (d : Data (Vec3 ℝ)) (junk : Ball3) : BBall.Res Ball3 :=
  BBall.run 4 (bb3Direct τ) (fun b p => decide (b.ball.pointIsInside p τ)) fuel d.toAddrList junk
/-- `zVec2DDataBoundingBall`: the method with `DIM` = 3 and `zDisk2D`,
src/zeo_bv2d_boundingball.c:74. -/
def boundingBall2 (τ : ℝ) (fuel : ℕ) (d : Data (Vec2 ℝ)) (junk : Ball2) : BBall.Res Ball2 :=
  BBall.run 3 (bb2Direct τ) (fun b p => decide (b.ball.pointIsInside p τ)) fuel d.toAddrList junk
/-- `zVec3DDataBoundingBallRecursive`, zeo_bvxd_boundingball.h:35-48. -/
def boundingBall3Recursive (τ : ℝ) (d : Data (Vec3 ℝ)) : Option Ball3 :=
  BBall.recursive 4 (bb3Direct τ) (fun b p => decide (b.ball.pointIsInside p τ)) d.toAddrList []
/-- `zVec2DDataBoundingBallRecursive`, zeo_bvxd_boundingball.h:35-48. -/
def boundingBall2Recursive (τ : ℝ) (d : Data (Vec2 ℝ)) : Option Ball2 :=
  BBall.recursive 3 (bb2Direct τ) (fun b p => decide (b.ball.pointIsInside p τ)) d.toAddrList []
end
end Zeo
