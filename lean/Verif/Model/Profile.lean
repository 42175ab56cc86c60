import Verif.Model.PCA
import Verif.Model.Kd

/-! # Normal vectors and registration of point clouds: src/zeo_vec3d_profile.c -/

namespace Zeo
noncomputable section
open Classical

namespace Data
variable {α : Type*}

/-- `while( ( a = zVecXDDataFetch(d1) ) && ( b = zVecXDDataFetch(d2) ) ) s = f(s,a,b);` with at most `n`
iterations; `d1` and `d2` are different objects. -/
def loop2 {σ : Type*} (f : σ → α → α → σ) : ℕ → Data α → Data α → σ → σ
  | 0, _, _, s => s
  | n + 1, d1, d2, s =>
    match fetch d1 with
    | (none, _) => s
    | (some a, d1') =>
      match fetch d2 with
      | (none, _) => s
      | (some b, d2') => loop2 f n d1' d2' (f s a b)

/-- `_zVec3DDataNormalVecFromVicinity`, src/zeo_vec3d_profile.c:12-25; `old` is `*normal` before. The failure
of `zVec3DDataMeanNormal` is ignored by the code. -/
def normalFromVicinity (τ : ℝ) (vicinity : Data (Vec3 ℝ)) (point center old : Vec3 ℝ) : Vec3 ℝ :=
  let normal := (vicinity.meanNormal τ point).getD old
  if normal.inner (point.sub center) < 0 then normal.rev else normal

/-- `zVec3DDataNormalVec_Tree`, src/zeo_vec3d_profile.c:28-49: the points added to `normaldata`; `old` is the
uninitialised local `normal`, `junk` the uninitialised local `center`. The address list of the vicinity is read
in the order of addition. -/
def normalVecTree (τ : ℝ) (d : Data (Vec3 ℝ)) (radius : ℝ) (old junk : Vec3 ℝ) : List (Vec3 ℝ) :=
  let tree := Kd.build d.toAddrList
  let center := d.barycenter.getD junk
  (d.forEach (fun (s : List (Vec3 ℝ) × Vec3 ℝ) v =>
    let normal := normalFromVicinity τ (lst false (tree.vicinity v radius) none) v center s.2
    (s.1 ++ [normal], normal)) ([], old)).2.1

/-- The two sums of `zVec3DDataIdentFrame`, src/zeo_vec3d_profile.c:104-109. -/
def identStep (pgo pg : Vec3 ℝ) (s : ℝ × Mat3 ℝ) (po p : Vec3 ℝ) : ℝ × Mat3 ℝ :=
  (s.1 + (po.sub pgo).sqrNorm, s.2.addDyad (po.sub pgo) (p.sub pg))

/-- Result of `zVec3DDataIdentFrame`: NULL, a frame, or a frame whose position is not a number. -/
inductive Ident
  | null
  | frame (f : Frame3 ℝ)
  | nan (att : Mat3 ℝ)

/-- `zVec3DDataIdentFrame`, src/zeo_vec3d_profile.c:83-118; `none` if the eigensystem does not end. `junk` is an
uninitialised local vector, never read. The position is 0/0 if all points of `src` coincide. -/
def identFrame (τ : ℝ) (src dest : Data (Vec3 ℝ)) (junk : Vec3 ℝ) : Option Ident :=
  if src.size ≠ dest.size then some .null
  else if src.size < 3 then some .null
  else
    let pgo := src.barycenter.getD junk
    let pg := dest.barycenter.getD junk
    let s := loop2 (identStep pgo pg) (src.size + 1) src.rewind dest.rewind (0, Mat3.zero)
    let so := s.1 / (src.size : ℝ)
    let cov := (s.2.div (src.size : ℝ) s.2).2
    (cov.svd τ).map fun r =>
      let att := r.2.2.2.mulMatT r.2.1
      if so = 0 then .nan att
      else
        let dp := (att.mulVec pgo).mul ((r.2.2.1.x + r.2.2.1.y + r.2.2.1.z) / so)
        .frame ⟨pg.sub dp, att⟩

/-- `_zVec3DDataICPInit`, src/zeo_vec3d_profile.c:121-130. -/
def icpInit (src dest : Data (Vec3 ℝ)) (junk1 junk2 : Vec3 ℝ) : Frame3 ℝ :=
  ⟨(dest.barycenter.getD junk2).sub (src.barycenter.getD junk1), Mat3.ident⟩

/-- The samples of one iteration of `zVec3DDataICP`, src/zeo_vec3d_profile.c:151-157: maximum error, samples of
`src` and of `dest`, and the number of random numbers drawn. `none`: the null pointer is dereferenced. `rnd` are
the values of `zRandF(0,1)` in this iteration. -/
def icpSample (tree : Kd) (frame : Frame3 ℝ) (rate : ℝ) (rnd : ℕ → ℝ) (d : Data (Vec3 ℝ)) : Option (ℝ × List (Vec3 ℝ) × List (Vec3 ℝ)) × ℕ :=
  (d.forEach (fun (s : Option (ℝ × List (Vec3 ℝ) × List (Vec3 ℝ)) × ℕ) po =>
    (if rnd s.2 > rate then s.1
     else s.1.bind fun a => (tree.nn (frame.xform po)).map fun h =>
       (if h.d > a.1 then h.d else a.1, a.2.1 ++ [po], a.2.2 ++ [h.pt]), s.2 + 1)) (some (0, [], []), 0)).2

/-- The loop of `zVec3DDataICP`, src/zeo_vec3d_profile.c:146-163, with `n` iterations left: the frame and whether
the loop was left by `break`. `none`: undefined behaviour (null pointer, or a frame that is not a number). -/
def icpLoop (τ : ℝ) (tree : Kd) (rate tol : ℝ) (rnd : ℕ → ℕ → ℝ) (src : Data (Vec3 ℝ)) (junk : Vec3 ℝ) : ℕ → Frame3 ℝ → Option (Frame3 ℝ × Bool)
  | 0, frame => some (frame, false)
  | n + 1, frame =>
    (icpSample tree frame rate (rnd n) src).1.bind fun s =>
      if s.1 < tol then some (frame, true)
      else
        match identFrame τ (lst false s.2.1 none) (lst false s.2.2 none) junk with
        | none => none
        | some .null => icpLoop τ tree rate tol rnd src junk n frame
        | some (.frame f) => icpLoop τ tree rate tol rnd src junk n f
        | some (.nan _) => none

/-- `zVec3DDataICP`, src/zeo_vec3d_profile.c:133-168 (`ZEO_VEC3DDATA_ICP_MAXITERNUM` is 200). -/
def icp (τ : ℝ) (src dest : Data (Vec3 ℝ)) (rate tol : ℝ) (rnd : ℕ → ℕ → ℝ) (junk1 junk2 : Vec3 ℝ) : Option (Frame3 ℝ × Bool) :=
  icpLoop τ (Kd.build dest.toAddrList) rate tol rnd src junk1 200 (icpInit src dest junk1 junk2)

end Data
end
end Zeo
