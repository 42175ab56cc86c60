import Verif.Model.Mat3

/-! # Orthonormalization, numerical differentiation and power iteration of 3x3 matrices:
src/zeo_mat3d.c -/

namespace Zeo

/-- Outcome of `zMat3DOrthonormalize`. -/
inductive OrthoRes
  /-- a column index outside 0..2 is dereferenced -/
  | ub
  /-- NULL is returned, `dest` untouched -/
  | null
  /-- `dest` is returned with this content -/
  | ok (m : Mat3 ℝ)

namespace Mat3

/-- The column addressed by `zMat3DVec(m,a)` after `a %= 3` (C remainder: the sign of the
dividend survives); `none` = outside the array. -/
def colIdx (a : ℤ) : Option (Fin 3) :=
  if a = 0 then some 0 else if a = 1 then some 1 else if a = 2 then some 2 else none

/-- `zMat3DIsSymmetric`, include/zeo/zeo_mat3d.h:221-222, src/zeo_mat3d.c:92-95. -/
def isSymmetric (m : Mat3 ℝ) : Prop := m.y.x = m.x.y ∧ m.z.y = m.y.z ∧ m.x.z = m.z.x

/-- Lines src/zeo_mat3d.c:242-246 of `zMat3DOrthonormalize` for the columns `i`, `j`, `k`.
`al` says whether `src` and `dest` are the same object, in which case `src` is ignored and
every read of `src` sees the current content of `dest`. -/
noncomputable def orthoCols (τ : ℝ) (al : Bool) (src : Mat3 ℝ) (i j k : Fin 3) (dest : Mat3 ℝ) : Mat3 ℝ :=
  let s0 := if al then dest else src
  let d1 := dest.setV i ((s0.v i).normalize τ (dest.v i)).2
  let s1 := if al then d1 else src
  let d2 := match (s1.v j).orthogonalize τ (s1.v i) with
    | none => d1
    | some o => d1.setV j o
  let d3 := d2.setV j ((d2.v j).normalize τ (d2.v j)).2
  let d4 := d3.setV k ((d3.v i).outer (d3.v j))
  d4.setV k ((d4.v k).normalize τ (d4.v k)).2

/-- `zMat3DOrthonormalize(src,axis1,axis2,dest)`, src/zeo_mat3d.c:230-248.  `zAxis` is
`int8_t`; a remainder that stays negative addresses memory before the first column. -/
noncomputable def orthonormalize (τ : ℝ) (al : Bool) (src : Mat3 ℝ) (axis1 axis2 : ℤ) (dest : Mat3 ℝ) : OrthoRes :=
  let a1 := axis1.tmod 3
  let a2 := axis2.tmod 3
  if a1 = a2 then .null
  else match colIdx a1, colIdx a2, colIdx ((3 - a1 - a2).tmod 3) with
    | some i, some j, some k => .ok (orthoCols τ al src i j k dest)
    | _, _, _ => .ub

/-- `zMat3DDif(m,mnew,dt,omega)`, src/zeo_mat3d.c:869-873: (non-NULL, content of `omega`). -/
noncomputable def dif (τ : ℝ) (m mnew : Mat3 ℝ) (dt : ℝ) : Bool × Vec3 ℝ :=
  (error τ mnew m).div dt (error τ mnew m)

open Classical in
/-- The loop of `zMat3DEigPower`, src/zeo_mat3d.c:888-894, with `n` iterations left; `ev`,
`v`, `l` are the variables `ev`, `*eigvec`, `eigval`.  Result: (`eigval`, `*eigvec`, `ev`,
left by `break`). -/
noncomputable def eigPowerLoop (τ : ℝ) (m : Mat3 ℝ) : ℕ → Vec3 ℝ → Vec3 ℝ → ℝ → ℝ × Vec3 ℝ × Vec3 ℝ × Bool
  | 0, ev, v, l => (l, v, ev, false)
  | n + 1, ev, v, _ =>
    let ev' := (v.normalize τ ev).2
    let v' := m.mulVec ev'
    let l' := ev'.inner v'
    if (v'.cat (-l') ev').isTol τ then (l', v', ev', true) else eigPowerLoop τ m n ev' v' l'

/-- `zMat3DEigPower(m,eigvec,iter)`, src/zeo_mat3d.c:880-897: (`eigval`, `*eigvec`).  `v0` is
the random start vector (885), `ev0` the indeterminate initial content of `ev`, `iter` the
number of iterations after `ZITERINIT` (which belongs to ZM). -/
noncomputable def eigPower (τ : ℝ) (m : Mat3 ℝ) (v0 ev0 : Vec3 ℝ) (iter : ℕ) : ℝ × Vec3 ℝ :=
  let r := eigPowerLoop τ m iter ev0 v0 1
  (r.1, (r.2.1.div r.1 r.2.1).2)

/-- `zMat3DEigPowerInv(m,eigvec,iter)`, src/zeo_mat3d.c:900-910: (returned value, `*eigvec`).
`old` is the indeterminate content of `m_inv`; `none` = `m_inv` is contaminated by a division
by zero.  The branch that reports a singular matrix is never taken, since `zMat3DInv` never
returns NULL (`Mat3.inv`).  When `eigval` is 0 the code returns an infinity, the model 0. -/
noncomputable def eigPowerInv (τ : ℝ) (m old : Mat3 ℝ) (v0 ev0 : Vec3 ℝ) (iter : ℕ) : Option (ℝ × Vec3 ℝ) :=
  match (inv τ m old).2 with
  | none => none
  | some im => let r := eigPower τ im v0 ev0 iter; some (1 / r.1, r.2)

end Mat3
end Zeo
