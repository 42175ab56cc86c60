import Verif.Model.Mat3

/-! # 6D spatial vectors and 6x6 matrices: zeo_vec6d.h/.c, zeo_mat6d.h/.c -/

namespace Zeo

/-- `zVec6D`, include/zeo/zeo_vec6d.h:18-60 (linear and angular part). -/
@[ext] structure Vec6 (K : Type*) where
  lin : Vec3 K
  ang : Vec3 K
deriving DecidableEq

namespace Vec6
variable {K : Type*} [Field K]

/-- `zVec6DZero`, include/zeo/zeo_vec6d.h:123-124. -/
def zero : Vec6 K := ⟨.zero, .zero⟩
/-- `zVec6DAdd`, src/zeo_vec6d.c:72-76, macro include/zeo/zeo_vec6d.h:202-205. -/
def add (a b : Vec6 K) : Vec6 K := ⟨a.lin.add b.lin, a.ang.add b.ang⟩
/-- `zVec6DSub`, src/zeo_vec6d.c:79-83. -/
def sub (a b : Vec6 K) : Vec6 K := ⟨a.lin.sub b.lin, a.ang.sub b.ang⟩
/-- `zVec6DRev`, src/zeo_vec6d.c:86-90. -/
def rev (a : Vec6 K) : Vec6 K := ⟨a.lin.rev, a.ang.rev⟩
/-- `zVec6DMul`, src/zeo_vec6d.c:93-97. -/
def mul (a : Vec6 K) (k : K) : Vec6 K := ⟨a.lin.mul k, a.ang.mul k⟩
/-- `zVec6DCat`, src/zeo_vec6d.c:113-117. -/
def cat (a : Vec6 K) (k : K) (b : Vec6 K) : Vec6 K := ⟨a.lin.cat k b.lin, a.ang.cat k b.ang⟩
/-- `zVec6DInnerProd`, src/zeo_vec6d.c:120-123. -/
def inner (a b : Vec6 K) : K := a.lin.inner b.lin + a.ang.inner b.ang
/-- `zVec6DLinShift`, src/zeo_vec6d.c:126-134 (and the DRC version, 137-144). -/
def linShift (a : Vec6 K) (pos : Vec3 K) : Vec6 K := ⟨a.lin.add (a.ang.outer pos), a.ang⟩
/-- `zVec6DAngShift`, src/zeo_vec6d.c:147-155 (and the DRC version, 158-165). -/
def angShift (a : Vec6 K) (pos : Vec3 K) : Vec6 K := ⟨a.lin, a.ang.add (pos.outer a.lin)⟩
/-- `zVec6DDiv`, src/zeo_vec6d.c:100-110: (non-NULL, contents of `*dv`). -/
def div [DecidableEq K] (a : Vec6 K) (k : K) (old : Vec6 K) : Bool × Vec6 K :=
  if k = 0 then (false, old) else (true, mul a (1 / k))
/-- `zVec6DDif`, src/zeo_vec6d.c:172-176. -/
def dif [DecidableEq K] (v vnew : Vec6 K) (dt : K) : Bool × Vec6 K := div (sub vnew v) dt (sub vnew v)
/-- `zMulMat3DVec6D`, src/zeo_mat3d.c:582-587. -/
def mulMat3 (m : Mat3 K) (a : Vec6 K) : Vec6 K := ⟨m.mulVec a.lin, m.mulVec a.ang⟩
/-- `zMulMat3DTVec6D`, src/zeo_mat3d.c:590-595. -/
def mulMat3T (m : Mat3 K) (a : Vec6 K) : Vec6 K := ⟨m.mulTVec a.lin, m.mulTVec a.ang⟩
end Vec6

/-- `zMat6D`, include/zeo/zeo_mat6d.h:22-33: `m[0..3]` = `ll, la, al, aa`. -/
@[ext] structure Mat6 (K : Type*) where
  ll : Mat3 K
  la : Mat3 K
  al : Mat3 K
  aa : Mat3 K
deriving DecidableEq

namespace Mat6
variable {K : Type*} [Field K]

/-- `m->m[i]`, include/zeo/zeo_mat6d.h:23. -/
def m (a : Mat6 K) : Fin 4 → Mat3 K
  | 0 => a.ll
  | 1 => a.la
  | 2 => a.al
  | 3 => a.aa
/-- `zMat6DCreate(m,m1,m2,m3,m4)`, src/zeo_mat6d.c:11-15, macro include/zeo/zeo_mat6d.h:41-46. -/
def create (m1 m2 m3 m4 : Mat3 K) : Mat6 K := { ll := m1, al := m2, la := m3, aa := m4 }
/-- The C++ constructor `zMat6D(m11,m12,m21,m22)`, include/zeo/zeo_mat6d.h:30:
fills the array `m[4]` in order. -/
def ctor (m11 m12 m21 m22 : Mat3 K) : Mat6 K := { ll := m11, la := m12, al := m21, aa := m22 }
/-- `zMat6DPutMat3D(m6d,row,col,m3d)`, include/zeo/zeo_mat6d.h:52: writes `e[col][row]`. -/
def putMat3 (a : Mat6 K) (row col : Fin 2) (b : Mat3 K) : Mat6 K :=
  match col, row with
  | 0, 0 => { a with ll := b }
  | 0, 1 => { a with la := b }
  | 1, 0 => { a with al := b }
  | 1, 1 => { a with aa := b }
/-- `zMat6DZero`, include/zeo/zeo_mat6d.h:54-59. -/
def zero : Mat6 K := ⟨.zero, .zero, .zero, .zero⟩
/-- `zMat6DT(m,tm)`, include/zeo/zeo_mat6d.h:63-68 (output distinct from the input). -/
def t (a : Mat6 K) : Mat6 K := { ll := a.ll.t, al := a.la.t, la := a.al.t, aa := a.aa.t }
/-- `zMat6DRow(m,i,v)`, src/zeo_mat6d.c:39-53 (`none` = NULL). -/
def row (a : Mat6 K) (i : ℤ) : Option (Vec6 K) :=
  if i < 0 ∨ i > 5 then none
  else
    let j : Fin 3 := Fin.ofNat 3 i.toNat
    let b : Fin 4 := Fin.ofNat 4 (i.toNat / 3)
    let b2 : Fin 4 := b + 2
    some ⟨⟨(a.m b).e 0 j, (a.m b).e 1 j, (a.m b).e 2 j⟩,
          ⟨(a.m b2).e 0 j, (a.m b2).e 1 j, (a.m b2).e 2 j⟩⟩
/-- `zMat6DCol(m,i,v)`, src/zeo_mat6d.c:56-69 (`none` = NULL). -/
def col (a : Mat6 K) (i : ℤ) : Option (Vec6 K) :=
  if i < 0 ∨ i > 5 then none
  else
    let j : Fin 3 := Fin.ofNat 3 i.toNat
    let b : Fin 4 := Fin.ofNat 4 (i.toNat / 3 * 2)
    some ⟨(a.m b).v j, (a.m (b + 1)).v j⟩
/-- `zMat6DAdd`, src/zeo_mat6d.c:72-76. -/
def add (a b : Mat6 K) : Mat6 K := ⟨a.ll.add b.ll, a.la.add b.la, a.al.add b.al, a.aa.add b.aa⟩
/-- `zMat6DSub`, src/zeo_mat6d.c:79-83. -/
def sub (a b : Mat6 K) : Mat6 K := ⟨a.ll.sub b.ll, a.la.sub b.la, a.al.sub b.al, a.aa.sub b.aa⟩
/-- `zMat6DMul`, src/zeo_mat6d.c:86-90. -/
def mul (a : Mat6 K) (k : K) : Mat6 K := ⟨a.ll.mul k, a.la.mul k, a.al.mul k, a.aa.mul k⟩
/-- `zMat6DDiv`, src/zeo_mat6d.c:93-102 (and `zMat6DDivDRC`, 126-135). -/
def div [DecidableEq K] (a : Mat6 K) (k : K) (old : Mat6 K) : Bool × Mat6 K :=
  if k = 0 then (false, old) else (true, mul a (1 / k))
/-- `zMulMat6DVec6D`, src/zeo_mat6d.c:138-149. -/
def mulVec (a : Mat6 K) (v : Vec6 K) : Vec6 K :=
  ⟨(a.ll.mulVec v.lin).add (a.al.mulVec v.ang), (a.la.mulVec v.lin).add (a.aa.mulVec v.ang)⟩
/-- `zMulMat6DTVec6D`, src/zeo_mat6d.c:152-163. -/
def mulTVec (a : Mat6 K) (v : Vec6 K) : Vec6 K :=
  ⟨(a.ll.mulTVec v.lin).add (a.la.mulTVec v.ang), (a.al.mulTVec v.lin).add (a.aa.mulTVec v.ang)⟩
/-- `zMulMat6DMat6D`, src/zeo_mat6d.c:166-183. -/
def mulMat (a b : Mat6 K) : Mat6 K :=
  { ll := (a.ll.mulMat b.ll).add (a.al.mulMat b.la)
    la := (a.la.mulMat b.ll).add (a.aa.mulMat b.la)
    al := (a.ll.mulMat b.al).add (a.al.mulMat b.aa)
    aa := (a.la.mulMat b.al).add (a.aa.mulMat b.aa) }
/-- `zMulMat6DTMat6D`, src/zeo_mat6d.c:186-203. -/
def mulTMat (a b : Mat6 K) : Mat6 K :=
  { ll := (a.ll.mulTMat b.ll).add (a.la.mulTMat b.la)
    la := (a.al.mulTMat b.ll).add (a.aa.mulTMat b.la)
    al := (a.ll.mulTMat b.al).add (a.la.mulTMat b.aa)
    aa := (a.al.mulTMat b.al).add (a.aa.mulTMat b.aa) }
/-- `zMulMat6DMat6DT`, src/zeo_mat6d.c:206-223. -/
def mulMatT (a b : Mat6 K) : Mat6 K :=
  { ll := (a.ll.mulMatT b.ll).add (a.al.mulMatT b.al)
    la := (a.la.mulMatT b.ll).add (a.aa.mulMatT b.al)
    al := (a.ll.mulMatT b.la).add (a.al.mulMatT b.aa)
    aa := (a.la.mulMatT b.la).add (a.aa.mulMatT b.aa) }
/-- `zMat6DDyad(m,v1,v2)`, include/zeo/zeo_mat6d.h:163-168. -/
def dyad (v1 v2 : Vec6 K) : Mat6 K :=
  { ll := Mat3.dyad v1.lin v2.lin, la := Mat3.dyad v1.ang v2.lin
    al := Mat3.dyad v1.lin v2.ang, aa := Mat3.dyad v1.ang v2.ang }
end Mat6
end Zeo
