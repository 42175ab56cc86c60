import Verif.Model.Mat3
import Verif.Model.Elem
import Verif.Model.Data

/-! # Eigensystems, principal components and registration: src/zeo_mat3d.c:912-1003, src/zeo_vec3d_pca.c,
src/zeo_vec3d_profile.c -/

namespace Zeo
noncomputable section
open Classical

/-- The body of the loop over `k` of `_zMat3DSymEigRot`, src/zeo_mat3d.c:926-938. -/
def symEigRotCol (i j : Fin 3) (c s : ℝ) (st : Mat3 ℝ × Mat3 ℝ) (k : Fin 3) : Mat3 ℝ × Mat3 ℝ :=
  let tmp1 := st.2.e i k
  let tmp2 := st.2.e j k
  let r := (st.2.setE i k (c * tmp1 - s * tmp2)).setE j k (s * tmp1 + c * tmp2)
  if k = i ∨ k = j then (st.1, r)
  else
    let tmp1 := st.1.e k i
    let tmp2 := st.1.e k j
    let m := (st.1.setE i k (c * tmp1 - s * tmp2)).setE k i (c * tmp1 - s * tmp2)
    ((m.setE j k (s * tmp1 + c * tmp2)).setE k j (s * tmp1 + c * tmp2), r)

/-- `_zMat3DSymEigRot`, src/zeo_mat3d.c:913-940: the new `(*m, *r)`. -/
def symEigRot (τ : ℝ) (m r : Mat3 ℝ) (i j : Fin 3) : Mat3 ℝ × Mat3 ℝ :=
  if zIsTol (m.e j i) τ then (m, r)
  else
    let v := 1/2 * (m.e j j - m.e i i) / m.e j i
    let ti := Real.sqrt (v * v + 1)
    let t := -v + (if v < 0 then ti else -ti)
    let c := 1 / Real.sqrt (t * t + 1)
    let s := t * c
    let tmp1 := t * m.e j i
    let m := (m.setE i j 0).setE j i 0
    let m := m.setE i i (m.e i i - tmp1)
    let m := m.setE j j (m.e j j + tmp1)
    [0, 1, 2].foldl (symEigRotCol i j c s) (m, r)

/-- The loop of `zMat3DSymEig`, src/zeo_mat3d.c:954-966, cut off after `fuel` rounds (`none`).  The loop
condition reads `i<Z_MAX_ITER_NUM`; as `i` is 0, 1 or 2 it never stops the loop (`Z_MAX_ITER_NUM` > 2). -/
def symEigLoop (τ : ℝ) : ℕ → Mat3 ℝ → Mat3 ℝ → Fin 3 → Fin 3 → Option (Vec3 ℝ × Mat3 ℝ)
  | 0, _, _, _, _ => none
  | n + 1, l, r, i, j =>
    let st := symEigRot τ l r i j
    let i1 := i + 1
    let j1 := j + 1
    let i2 := i + 2
    let j2 := j + 2
    let p := if |st.1.e j1 i1| > |st.1.e j2 i2| then (i1, j1) else (i2, j2)
    if zIsTol (st.1.e p.2 p.1) τ then some (⟨st.1.e 0 0, st.1.e 1 1, st.1.e 2 2⟩, st.2)
    else symEigLoop τ n st.1 st.2 p.1 p.2

/-- `zMat3DSymEig`, src/zeo_mat3d.c:943-973: (`*eigval`, `*eigbase`); `none` if the loop never ends.  The
return value is always true, because the loop has no other exit. -/
def Mat3.symEig (τ : ℝ) (m : Mat3 ℝ) : Option (Vec3 ℝ × Mat3 ℝ) :=
  if h : ∃ n, (symEigLoop τ n m .ident 0 1).isSome then symEigLoop τ (Nat.find h) m .ident 0 1 else none

/-- `_zMat3DEigMinID`, include/zeo/zeo_mat3d.h:839. -/
def eigMinID (val : Vec3 ℝ) : Fin 3 :=
  if val.x < val.y then (if val.x < val.z then 0 else 2) else (if val.y < val.z then 1 else 2)

/-- `zMat3DSymEigMin`, src/zeo_mat3d.c:976-983. -/
def Mat3.symEigMin (τ : ℝ) (m : Mat3 ℝ) : Option (Vec3 ℝ) :=
  (m.symEig τ).map fun r => r.2.v (eigMinID r.1)

/-- One round of the loop of `zMat3DSVD`, src/zeo_mat3d.c:994-1001: the new (rank, `sv->e[i]`, column `i` of
`v`).  The division fails, leaving the column, if the square root is zero. -/
def svdCol (τ : ℝ) (rank : ℕ) (sv : ℝ) (v : Vec3 ℝ) : ℕ × ℝ × Vec3 ℝ :=
  if zIsTol sv τ then (rank, 0, v) else (rank + 1, Real.sqrt sv, (v.div (Real.sqrt sv) v).2)

/-- `zMat3DSVD`, src/zeo_mat3d.c:986-1003: (returned rank, `*u`, `*sv`, `*v`). -/
def Mat3.svd (τ : ℝ) (m : Mat3 ℝ) : Option (ℕ × Mat3 ℝ × Vec3 ℝ × Mat3 ℝ) :=
  ((m.mulMatT m).symEig τ).map fun e =>
    let v := m.mulTMat e.2
    let c0 := svdCol τ 0 e.1.x v.x
    let c1 := svdCol τ c0.1 e.1.y v.y
    let c2 := svdCol τ c1.1 e.1.z v.z
    (c2.1, e.2, ⟨c0.2.1, c1.2.1, c2.2.1⟩, ⟨c0.2.2, c1.2.2, c2.2.2⟩)

end
end Zeo
