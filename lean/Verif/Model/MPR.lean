import Verif.Model.Elem
import Verif.Model.PCA

/-! # The Minkowski Portal Refinement algorithm: src/zeo_col_mpr.c

Both phases run a support map on the Minkowski difference of two sets of points; the loops take it as a
parameter. `while( 1 )` is modelled with fuel: `none` means that the loop is still running. -/

namespace Zeo
noncomputable section
open Classical

namespace MPR

/-- `zMPRSlot`, src/zeo_col_mpr.c:9-13. -/
structure Slot where
  v : Vec3 ℝ
  v1 : Vec3 ℝ
  v2 : Vec3 ℝ
/-- `zMPRSimplex`, src/zeo_col_mpr.c:17-20, with four active slots. -/
structure Portal where
  s0 : Slot
  s1 : Slot
  s2 : Slot
  s3 : Slot

/-- `_zMPRSupportMap`, src/zeo_col_mpr.c:23-32; `none`: a set is empty, NULL is copied. -/
def supportMap (d1 d2 : Data (Vec3 ℝ)) (v : Vec3 ℝ) : Option Slot :=
  match d1.support3 v, d2.support3 v.rev with
  | some p1, some p2 => some ⟨p1.sub p2, p1, p2⟩
  | _, _ => none
/-- `_zMPROrigin`, src/zeo_col_mpr.c:35-41; `none`: a set is empty and its centre is not set. -/
def origin (d1 d2 : Data (Vec3 ℝ)) : Option Slot :=
  match d1.barycenter, d2.barycenter with
  | some c1, some c2 => some ⟨c1.sub c2, c1, c2⟩
  | _, _ => none

/-- `zVec3DNormalizeNCDRC`; `none`: division by the zero norm, NaN. -/
def unit (v : Vec3 ℝ) : Option (Vec3 ℝ) := if v = .zero then none else some v.normalizeNC.2
/-- `_zMPRSimplexDir`, src/zeo_col_mpr.c:44-53, before the normalisation. -/
def normal (a b c : Vec3 ℝ) : Vec3 ℝ := (b.sub a).outer (c.sub a)
/-- `_zMPRSimplexDir`, src/zeo_col_mpr.c:44-53. -/
def simplexDir (a b c : Slot) : Option (Vec3 ℝ) := unit (normal a.v b.v c.v)

/-- The results of `_zMPRFindPortal`, src/zeo_col_mpr.c:57, with the slots used afterwards; `crash`: NULL was
dereferenced; `nan`: a direction is NaN (what the code does from there on is not followed). -/
inductive Found
  | outside
  | toRefine (p : Portal)
  | atPoint (s1 : Slot)
  | onSeg (s1 : Slot)
  | crash
  | nan

/-- The loop of `_zMPRFindPortal`, src/zeo_col_mpr.c:97-112. -/
def findLoop (τ : ℝ) (supp : Vec3 ℝ → Option Slot) : ℕ → Slot → Slot → Slot → Vec3 ℝ → Option Found
  | 0, _, _, _, _ => none
  | fuel + 1, s0, s1, s2, dir =>
    match supp dir with
    | none => some .crash
    | some s3 =>
      if s3.v.inner dir < τ then some .outside
      else if Vec3.grassmann s0.v s1.v s3.v ≤ -τ then
        match simplexDir s0 s1 s3 with
        | none => some .nan
        | some d => findLoop τ supp fuel s0 s1 s3 d
      else if Vec3.grassmann s0.v s3.v s2.v ≤ -τ then
        match simplexDir s0 s3 s2 with
        | none => some .nan
        | some d => findLoop τ supp fuel s0 s3 s2 d
      else some (.toRefine ⟨s0, s1, s2, s3⟩)

/-- The centre of the portal with the bias, src/zeo_col_mpr.c:66-70. -/
def bias (τ : ℝ) (c : Slot) : Slot :=
  if c.v.isTol τ then { c with v := ⟨c.v.x + τ * 10, c.v.y, c.v.z⟩ } else c

/-- `_zMPRFindPortal` from vertex 3, src/zeo_col_mpr.c:88-114. -/
def findThird (τ : ℝ) (supp : Vec3 ℝ → Option Slot) (fuel : ℕ) (s0 s1 s2 : Slot) : Option Found :=
  match simplexDir s0 s1 s2 with
  | none => some .nan
  | some dir =>
    if dir.inner s0.v > 0 then findLoop τ supp fuel s0 s2 s1 dir.rev
    else findLoop τ supp fuel s0 s1 s2 dir

/-- `_zMPRFindPortal` from vertex 1, src/zeo_col_mpr.c:72-114. -/
def findFrom (τ : ℝ) (supp : Vec3 ℝ → Option Slot) (fuel : ℕ) (s0 : Slot) : Option Found :=
  match unit s0.v.rev with
  | none => some .nan
  | some dir =>
    match supp dir with
    | none => some .crash
    | some s1 =>
      if s1.v.inner dir < τ then some .outside
      else if (s1.v.outer s0.v).isTol τ then
        some (if s1.v.isTol τ then .atPoint s1 else .onSeg s1)
      else
        match unit (s1.v.outer s0.v) with
        | none => some .nan
        | some dir2 =>
          match supp dir2 with
          | none => some .crash
          | some s2 =>
            if s2.v.inner dir2 < τ then some .outside else findThird τ supp fuel s0 s1 s2

/-- `_zMPRFindPortal`, src/zeo_col_mpr.c:60-115. -/
def find (τ : ℝ) (fuel : ℕ) (d1 d2 : Data (Vec3 ℝ)) : Option Found :=
  match origin d1 d2 with
  | none => some .crash
  | some c => findFrom τ (supportMap d1 d2) fuel (bias τ c)

/-- `_zMPRPortalDir`, src/zeo_col_mpr.c:117-121. -/
def Portal.dir (p : Portal) : Option (Vec3 ℝ) := simplexDir p.s1 p.s2 p.s3
/-- `_zMPRPortalIsReached`, src/zeo_col_mpr.c:124-132. -/
def Portal.isReached (τ : ℝ) (p : Portal) (s : Slot) (dir : Vec3 ℝ) : Prop :=
  s.v.inner dir - p.s1.v.inner dir < τ ∧ s.v.inner dir - p.s2.v.inner dir < τ ∧
    s.v.inner dir - p.s3.v.inner dir < τ
/-- `_zMPRExpandPortal`, src/zeo_col_mpr.c:135-145. -/
def Portal.expand (p : Portal) (s : Slot) : Portal :=
  let d := s.v.outer p.s0.v
  if p.s1.v.inner d > 0 then
    if p.s2.v.inner d > 0 then { p with s1 := s } else { p with s3 := s }
  else if p.s3.v.inner d > 0 then { p with s2 := s } else { p with s1 := s }

/-- How a phase ends: with its return value and the portal, by a crash, or with NaN. -/
inductive Out
  | ret (b : Bool) (p : Portal)
  | crash
  | nan

/-- `_zMPRRefinePortal`, src/zeo_col_mpr.c:148-166. -/
def refine (τ : ℝ) (supp : Vec3 ℝ → Option Slot) : ℕ → Portal → Option Out
  | 0, _ => none
  | fuel + 1, p =>
    match p.dir with
    | none => some .nan
    | some dir =>
      if p.s1.v.inner dir > -τ then some (.ret true p)
      else
        match supp dir with
        | none => some .crash
        | some s =>
          if s.v.inner dir ≤ -τ ∨ p.isReached τ s dir then some (.ret false p)
          else refine τ supp fuel (p.expand s)

/-- The point of `_zMPRDepthPair`, src/zeo_col_mpr.c:187-196, for given weights. -/
def Portal.wsum (p : Portal) (f : Slot → Vec3 ℝ) (b0 b1 b2 b3 : ℝ) : Vec3 ℝ :=
  (((Vec3.zero.cat b0 (f p.s0)).cat b1 (f p.s1)).cat b2 (f p.s2)).cat b3 (f p.s3)
/-- The end of `_zMPRDepthPair`, src/zeo_col_mpr.c:187-197; `none`: division by zero. -/
def Portal.pairOf (p : Portal) (b0 b1 b2 b3 : ℝ) : Option (Vec3 ℝ) :=
  let sum := b0 + b1 + b2 + b3
  if sum = 0 then none
  else some (((p.wsum Slot.v1 b0 b1 b2 b3).mul (1 / sum)).mid ((p.wsum Slot.v2 b0 b1 b2 b3).mul (1 / sum)))
/-- `_zMPRDepthPair`, src/zeo_col_mpr.c:169-198; `dir` is the direction of the portal. -/
def Portal.depthPair (τ : ℝ) (p : Portal) (dir : Vec3 ℝ) : Option (Vec3 ℝ) :=
  let b0 := Vec3.grassmann p.s3.v p.s1.v p.s2.v
  let b1 := Vec3.grassmann p.s0.v p.s3.v p.s2.v
  let b2 := Vec3.grassmann p.s3.v p.s0.v p.s1.v
  let b3 := Vec3.grassmann p.s0.v p.s2.v p.s1.v
  if b0 + b1 + b2 + b3 < τ then
    p.pairOf 0 (Vec3.grassmann dir p.s2.v p.s3.v) (Vec3.grassmann dir p.s3.v p.s1.v)
      (Vec3.grassmann dir p.s1.v p.s2.v)
  else p.pairOf b0 b1 b2 b3

/-- `_zMPRCalcSegDist`, src/zeo_col_mpr.c:201-222: the value and `*dir`; `none`: both are NaN (the ends
coincide, and the comparisons with the NaN `t` fail). -/
def calcSegDist (τ : ℝ) (p0 p1 : Vec3 ℝ) : Option (ℝ × Vec3 ℝ) :=
  let d := p1.sub p0
  if d.sqrNorm = 0 then none
  else
    let t := -(p0.inner d) / d.sqrNorm
    some (if t < τ then (p0.sqrNorm, p0)
      else if t > τ + 1 then (p1.sqrNorm, p1)
      else ((p0.cat t d).sqrNorm, p0.cat t d))
/-- `if( ( d = ... ) < dist )`, src/zeo_col_mpr.c:253-260; comparisons with NaN (`none`) fail. -/
def better (dist d : Option (ℝ × Vec3 ℝ)) : Option (ℝ × Vec3 ℝ) :=
  match dist, d with
  | some a, some b => if b.1 < a.1 then some b else some a
  | a, _ => a
/-- The minimum over the three edges, src/zeo_col_mpr.c:252-261. -/
def calcEdges (τ : ℝ) (p0 p1 p2 : Vec3 ℝ) : Option (ℝ × Vec3 ℝ) :=
  better (better (calcSegDist τ p0 p1) (calcSegDist τ p0 p2)) (calcSegDist τ p1 p2)
/-- `_zMPRCalcDepth`, src/zeo_col_mpr.c:225-262, with `dir` given: the value and `*dir`. If a divisor is zero,
`s` or `t` is infinite or NaN and the first test fails. -/
def calcDepth (τ : ℝ) (p0 p1 p2 : Vec3 ℝ) : Option (ℝ × Vec3 ℝ) :=
  let d1 := p1.sub p0
  let d2 := p2.sub p0
  let u2 := d1.sqrNorm
  let u3 := d2.sqrNorm
  let v1 := p0.inner d1
  let v2 := p0.inner d2
  let v3 := d1.inner d2
  let s := (v2 * v3 - u3 * v1) / (u3 * u2 - v3 * v3)
  let t := (-s * v3 - v2) / u3
  if u3 * u2 - v3 * v3 ≠ 0 ∧ u3 ≠ 0 ∧ s > τ ∧ s < τ + 1 ∧ t > τ ∧ t < τ + 1 ∧ t + s < τ + 1 then
    some (((p0.cat s d1).cat t d2).sqrNorm, (p0.cat s d1).cat t d2)
  else calcEdges τ p0 p1 p2

/-- What `zMPRDepth` delivers: the return value, `*depth`, `*pos`, `*dir`; `nan`: one of them is NaN. -/
inductive Res
  | ret (b : Bool) (depth : ℝ) (pos dir : Vec3 ℝ)
  | crash
  | nan

/-- `_zMPRDepth`, src/zeo_col_mpr.c:265-289, all pointers given; the first argument of type ℕ is the number of
rounds left (`Z_MAX_ITER_NUM` at the start), `old…` the contents of the outputs before. -/
def depthLoop (τ : ℝ) (supp : Vec3 ℝ → Option Slot) (oldDepth : ℝ) (oldPos oldDir : Vec3 ℝ) : ℕ → Portal → Res
  | 0, _ => .ret false oldDepth oldPos oldDir
  | iter + 1, p =>
    match p.dir with
    | none => .nan
    | some d =>
      match supp d with
      | none => .crash
      | some s =>
        if p.isReached τ s d then
          match calcDepth τ p.s1.v p.s2.v p.s3.v, p.depthPair τ d with
          | some r, some pos =>
            match unit r.2 with
            | none => .nan
            | some dir => .ret true (Real.sqrt r.1) pos dir
          | _, _ => .nan
        else depthLoop τ supp oldDepth oldPos oldDir iter (p.expand s)
end MPR

open MPR

/-- `zMPR`, src/zeo_col_mpr.c:292-302. The result is `none` while a loop is still running. -/
def zMPR (τ : ℝ) (fuel : ℕ) (d1 d2 : Data (Vec3 ℝ)) : Option (Option Bool) :=
  match find τ fuel d1 d2 with
  | none => none
  | some .outside => some (some false)
  | some (.atPoint _) => some (some true)
  | some (.onSeg _) => some (some true)
  | some .crash => some none
  | some .nan => some none
  | some (.toRefine p) =>
    match refine τ (supportMap d1 d2) fuel p with
    | none => none
    | some (.ret b _) => some (some b)
    | some .crash => some none
    | some .nan => some none

/-- `zMPRDepth`, src/zeo_col_mpr.c:305-329, with the iteration limit `iter`. -/
def zMPRDepth (τ : ℝ) (fuel iter : ℕ) (oldDepth : ℝ) (oldPos oldDir : Vec3 ℝ) (d1 d2 : Data (Vec3 ℝ)) : Option Res :=
  match find τ fuel d1 d2 with
  | none => none
  | some .outside => some (.ret false oldDepth oldPos oldDir)
  | some (.atPoint s1) => some (.ret true 0 (s1.v1.mid s1.v2) .zero)
  | some (.onSeg s1) =>
    match unit s1.v with
    | none => some .nan
    | some dir => some (.ret true s1.v.norm (s1.v1.mid s1.v2) dir)
  | some .crash => some .crash
  | some .nan => some .nan
  | some (.toRefine p) =>
    match refine τ (supportMap d1 d2) fuel p with
    | none => none
    | some (.ret true q) => some (depthLoop τ (supportMap d1 d2) oldDepth oldPos oldDir iter q)
    | some (.ret false _) => some (.ret false oldDepth oldPos oldDir)
    | some .crash => some .crash
    | some .nan => some .nan

end
end Zeo
