import Verif.Model.Data
import Verif.Model.PH

/-! # Planar convex hull: src/zeo_bv2d_convexhull.c

Lists are written from the tail to the head of the C list (insertion order), so that
`zListCellNext` walks a list forwards and `zListCellPrev` backwards.
The sorting routine `zVec3DAddrListQuickSort` comes from the ZEDA library, outside /repo: it is the parameter
`sort`, which takes the comparison function. Allocations succeed. -/

namespace Zeo
noncomputable section
open Classical

namespace Hull2D

/-- The second loop of `_zConvexHull2DBase` with the final step, src/zeo_bv2d_convexhull.c:23-35: `t` is the
point of the tail cell, `s0` the first base. `none`: the points lie on a line. -/
def base2 (τ : ℝ) (t s0 : Vec3 ℝ) : List (Vec3 ℝ) → Option (Vec3 ℝ × Vec3 ℝ)
  | [] => none
  | p :: l =>
    let s1 := p.sub t
    let n := s0.outer s1
    if ¬ s1.isTol τ ∧ ¬ n.isTol τ then
      let s1' := n.outer s0
      some ((s0.normalize τ s0).2, (s1'.normalize τ s1').2)
    else base2 τ t s0 l
/-- The first loop of `_zConvexHull2DBase`, src/zeo_bv2d_convexhull.c:17-21. `none`: all points coincide. -/
def base1 (τ : ℝ) (t : Vec3 ℝ) : List (Vec3 ℝ) → Option (Vec3 ℝ × Vec3 ℝ)
  | [] => none
  | p :: l =>
    let s0 := p.sub t
    if ¬ s0.isTol τ then base2 τ t s0 l else base1 τ t l
/-- `_zConvexHull2DBase`, src/zeo_bv2d_convexhull.c:12-36. On an empty list the code finds the root cell and
reads nothing: both loops end at once. -/
def base (τ : ℝ) : List (Vec3 ℝ) → Option (Vec3 ℝ × Vec3 ℝ)
  | [] => none
  | t :: l => base1 τ t l

/-- `__z_ch2d_cmp`, src/zeo_bv2d_convexhull.c:39-55. -/
def cmp (τ : ℝ) (s0 s1 v1 v2 : Vec3 ℝ) : ℤ :=
  if zIsTol (v1.inner s0 - v2.inner s0) τ then
    if zIsTol (v1.inner s1 - v2.inner s1) τ then 0
    else if v1.inner s1 > v2.inner s1 then 1 else -1
  else if v1.inner s0 > v2.inner s0 then 1 else -1

/-- The inner loop, src/zeo_bv2d_convexhull.c:72-77 and 83-88: the cells ahead of `p0` are visited in turn; the
state is `t_max` and the list that begins at the cell `p1`. -/
def scan (τ : ℝ) (s0 s1 p0 : Vec3 ℝ) : List (Vec3 ℝ) → ℝ × List (Vec3 ℝ) → ℝ × List (Vec3 ℝ)
  | [], a => a
  | p :: l, a =>
    let d := p.sub p0
    let t := atan2 (d.inner s1) (d.inner s0)
    if ¬ d.isTol τ ∧ a.1 ≤ t then scan τ s0 s1 p0 l (t, p :: l) else scan τ s0 s1 p0 l a

/-- The cell found is ahead. -/
theorem scan_length (τ : ℝ) (s0 s1 p0 : Vec3 ℝ) : ∀ (l : List (Vec3 ℝ)) (a : ℝ × List (Vec3 ℝ)) (n : ℕ),
    l.length ≤ n → a.2.length ≤ n → (scan τ s0 s1 p0 l a).2.length ≤ n
  | [], _, _, _, h => h
  | p :: l, a, n, h1, h2 => by
    have h3 : l.length ≤ n := by simp at h1; omega
    simp only [scan]
    split
    · exact scan_length τ s0 s1 p0 l _ n h3 h1
    · exact scan_length τ s0 s1 p0 l _ n h3 h2

/-- The outer loop, src/zeo_bv2d_convexhull.c:71-77 (and 82-88 on the reversed list with reversed bases): the
points added to the loop on the way from the first cell to the last, without the last. -/
def chain (τ : ℝ) (s0 s1 : Vec3 ℝ) : List (Vec3 ℝ) → List (Vec3 ℝ)
  | [] => []
  | [_] => []
  | p0 :: q :: l => p0 :: chain τ s0 s1 (scan τ s0 s1 p0 (q :: l) (-(Real.pi / 2), q :: l)).2
termination_by l => l.length
decreasing_by
  have := scan_length τ s0 s1 p0 (q :: l) (-(Real.pi / 2), q :: l) (l.length + 1) (by simp) (by simp)
  simp only [List.length_cons]
  omega

/-- `_zConvexHull2D`, src/zeo_bv2d_convexhull.c:58-90: the cells of `chloop` in order of addition; `none`: NULL. -/
def loop (τ : ℝ) (sort : (Vec3 ℝ → Vec3 ℝ → ℤ) → List (Vec3 ℝ) → List (Vec3 ℝ)) (l : List (Vec3 ℝ)) :
    Option (List (Vec3 ℝ)) :=
  (base τ l).map fun s =>
    let L := sort (cmp τ s.1 s.2) l
    chain τ s.1 s.2 L ++ chain τ s.1.rev s.2.rev L.reverse

/-- `zVec3DDataConvexHull2D`, src/zeo_bv2d_convexhull.c:117-131. -/
def hull (τ : ℝ) (sort : (Vec3 ℝ → Vec3 ℝ → ℤ) → List (Vec3 ℝ) → List (Vec3 ℝ)) (d : Data (Vec3 ℝ)) :
    Option (List (Vec3 ℝ)) := loop τ sort d.toAddrList

/-- A face made by `zTri3DCreate` on three vertices of the buffer, src/zeo_elem3d.c:194-201. -/
def mkFace (τ : ℝ) (v : ℕ → Vec3 ℝ) (i j k : ℕ) : Face ℝ := ⟨i, j, k, (Tri3.create τ (v i) (v j) (v k)).2.norm⟩

/-- `_zConvexHull2DToPH3D`, src/zeo_bv2d_convexhull.c:93-114: the faces `i-2` of one side, then the faces
`i+vn-4` of the other. A loop has at least three cells (theorem `C63_order`), so `vn-2` is positive. -/
def toPH (τ : ℝ) (c : List (Vec3 ℝ)) : PH ℝ :=
  let v := fun i => c.getD i .zero
  ⟨c.length, v,
   (List.range (c.length - 2)).map (fun (k : ℕ) => mkFace τ v 0 (k + 1) (k + 2)) ++
   (List.range (c.length - 2)).map (fun (k : ℕ) => mkFace τ v 0 (k + 2) (k + 1))⟩

/-- `zVec3DDataConvexHull2DPH3D`, src/zeo_bv2d_convexhull.c:134-143. -/
def hullPH (τ : ℝ) (sort : (Vec3 ℝ → Vec3 ℝ → ℤ) → List (Vec3 ℝ) → List (Vec3 ℝ)) (d : Data (Vec3 ℝ)) :
    Option (PH ℝ) := (hull τ sort d).map (toPH τ)

/-- The loop of `zConvexHull2DClosest`, src/zeo_bv2d_convexhull.c:171-186: `vcp` is the previous cell, `v1` its
position from `p`, `d` and `cp` the best so far. The distance `none` is HUGE_VAL; the outcome `none` is a NaN
from `zEdge3DClosest`. -/
def closestLoop (norm p : Vec3 ℝ) : List (Vec3 ℝ) → Vec3 ℝ → Vec3 ℝ → Option ℝ → Vec3 ℝ → Option (Option ℝ × Vec3 ℝ)
  | [], _, _, d, cp => some (d, cp)
  | vc :: l, vcp, v1, d, cp =>
    let v2 := vc.sub p
    if norm.inner (v1.outer v2) < 0 then
      match Edge3.closest vc vcp p with
      | none => none
      | some r =>
        if ∃ d', d = some d' ∧ r.1 > d' then some (d, cp)
        else closestLoop norm p l vc v2 (some r.1) r.2
    else closestLoop norm p l vc v2 d cp

/-- `zConvexHull2DClosest`, src/zeo_bv2d_convexhull.c:146-187: (return value, `*cp`); `old` is `*cp` before.
The head of the list is the last cell; a list of three or more cells is written `A ++ [a, b, c]`, found by
reversing. -/
def closest (ch : List (Vec3 ℝ)) (p old : Vec3 ℝ) : Option (Option ℝ × Vec3 ℝ) :=
  match ch.reverse with
  | [] => some (none, old)
  | [v] => some (some (v.dist p), v)
  | [b, a] => (Edge3.closest a b p).map fun r => (some r.1, r.2)
  | c :: b :: a :: _ => closestLoop ((a.sub c).outer (b.sub c)) p ch c (c.sub p) none p

end Hull2D
end
end Zeo
