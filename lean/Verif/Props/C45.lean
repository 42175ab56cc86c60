import Verif.Props.C43
import Verif.Props.C44
import Mathlib.Tactic.FieldSimp

/-! # C45: terrain height interpolation

`zTerraZ` is a weighted mean of the four estimates in the interior of the grid (`C45_between`,
`C45_grid_point`). The full claim is false: in the last row of the grid it reads beyond the grid buffer
(`C45_last_row_bad_read`), in the last column it takes a cell of the next row (`C45_last_column_wrong_cell`),
and on cells with zero variance, as left by points of height zero on a new map, it divides zero by zero
(`C45_flat_nan`, `C45_flat_nan_reachable`). -/

namespace Zeo
namespace Terra
variable {K : Type*} [Field K] [LinearOrder K] [IsStrictOrderedRing K]

theorem gridNC_eq_grid {t : Terra K} {i j : ℤ} {c : TerraCell K} (h : t.grid i j = some c) : t.gridNC i j = some c := by
  unfold grid at h
  split_ifs at h
  exact h

variable [FloorRing K]

theorem floor_of_mem {a o d : K} {i : ℤ} (hd : 0 < d) (h1 : o + (i : K) * d ≤ a) (h2 : a < o + ((i + 1 : ℤ) : K) * d) :
    ⌊(a - o) / d⌋ = i := by
  rw [Int.floor_eq_iff]
  rw [le_div_iff₀ hd, div_lt_iff₀ hd]
  push_cast at h2
  constructor <;> linarith

/-- `zTerraZ` inside a mesh square. -/
theorem terraZ_eq {t : Terra K} (hdx : 0 < t.dx) (hdy : 0 < t.dy) (hz : t.zmin ≤ t.zmax) {x y : K} {i j : ℤ}
    (hx1 : t.gx i ≤ x) (hx2 : x < t.gx (i + 1)) (hy1 : t.gy j ≤ y) (hy2 : y < t.gy (j + 1)) (hv : t.valid i j) :
    t.terraZ x y =
      match t.zGrid x y i j, t.zGrid x y i (j + 1), t.zGrid x y (i + 1) j, t.zGrid x y (i + 1) (j + 1) with
      | some (z0, d0), some (z1, d1), some (z2, d2), some (z3, d3) =>
        if d1 * d2 * d3 + d2 * d3 * d0 + d3 * d0 * d1 + d0 * d1 * d2 = 0 then .nan
        else .val ((d1 * d2 * d3 * z0 + d2 * d3 * d0 * z1 + d3 * d0 * d1 * z2 + d0 * d1 * d2 * z3) /
          (d1 * d2 * d3 + d2 * d3 * d0 + d3 * d0 * d1 + d0 * d1 * d2))
      | _, _, _, _ => .badRead := by
  have hm : ¬ ((t.zmin + t.zmax) / 2 < t.zmin ∨ (t.zmin + t.zmax) / 2 > t.zmax) := by
    rintro (h | h) <;> linarith
  unfold terraZ
  have hb : t.baseIndex ⟨x, y, (t.zmin + t.zmax) / 2⟩ (0, 0) = (i, j) := by
    unfold baseIndex
    rw [if_neg hm]
    exact Prod.ext (floor_of_mem hdx hx1 hx2) (floor_of_mem hdy hy1 hy2)
  dsimp only
  rw [if_neg hm, hb]
  dsimp only
  rw [if_neg (not_not.2 hv)]
  rcases t.zGrid x y i j with _ | ⟨z0, d0⟩
  · rfl
  rcases t.zGrid x y i (j + 1) with _ | ⟨z1, d1⟩
  · rfl
  rcases t.zGrid x y (i + 1) j with _ | ⟨z2, d2⟩
  · rfl
  rcases t.zGrid x y (i + 1) (j + 1) with _ | ⟨z3, d3⟩ <;> rfl

end Terra

open Terra TerraCell
variable {K : Type*} [Field K] [LinearOrder K] [IsStrictOrderedRing K] [FloorRing K]

/-- Weighted mean of four numbers. -/
theorem mean_between {w0 w1 w2 w3 z0 z1 z2 z3 lo hi : K} (h0 : 0 ≤ w0) (h1 : 0 ≤ w1) (h2 : 0 ≤ w2) (h3 : 0 ≤ w3)
    (hs : w0 + w1 + w2 + w3 ≠ 0)
    (l : lo ≤ z0 ∧ lo ≤ z1 ∧ lo ≤ z2 ∧ lo ≤ z3) (u : z0 ≤ hi ∧ z1 ≤ hi ∧ z2 ≤ hi ∧ z3 ≤ hi) :
    lo ≤ (w0 * z0 + w1 * z1 + w2 * z2 + w3 * z3) / (w0 + w1 + w2 + w3) ∧
      (w0 * z0 + w1 * z1 + w2 * z2 + w3 * z3) / (w0 + w1 + w2 + w3) ≤ hi := by
  have hp : 0 < w0 + w1 + w2 + w3 := lt_of_le_of_ne (by positivity) hs.symm
  rw [le_div_iff₀ hp, div_le_iff₀ hp]
  constructor
  · nlinarith [mul_le_mul_of_nonneg_left l.1 h0, mul_le_mul_of_nonneg_left l.2.1 h1,
      mul_le_mul_of_nonneg_left l.2.2.1 h2, mul_le_mul_of_nonneg_left l.2.2.2 h3]
  · nlinarith [mul_le_mul_of_nonneg_left u.1 h0, mul_le_mul_of_nonneg_left u.2.1 h1,
      mul_le_mul_of_nonneg_left u.2.2.1 h2, mul_le_mul_of_nonneg_left u.2.2.2 h3]

/-- In a mesh square whose four corners are in the grid and have positive variance, the height is a number
between any bounds of the four plane estimates. -/
theorem C45_between_partial (t : Terra K) (hdx : 0 < t.dx) (hdy : 0 < t.dy) (hz : t.zmin ≤ t.zmax) (x y : K) (i j : ℤ)
    (hx1 : t.gx i ≤ x) (hx2 : x < t.gx (i + 1)) (hy1 : t.gy j ≤ y) (hy2 : y < t.gy (j + 1))
    (c0 c1 c2 c3 : TerraCell K) (g0 : t.grid i j = some c0) (g1 : t.grid i (j + 1) = some c1)
    (g2 : t.grid (i + 1) j = some c2) (g3 : t.grid (i + 1) (j + 1) = some c3)
    (v0 : 0 < c0.var) (v1 : 0 < c1.var) (v2 : 0 < c2.var) (v3 : 0 < c3.var) (lo hi : K)
    (l : ∀ c ∈ [c0, c1, c2, c3], lo ≤ c.prm.x * x + c.prm.y * y + c.prm.z)
    (u : ∀ c ∈ [c0, c1, c2, c3], c.prm.x * x + c.prm.y * y + c.prm.z ≤ hi) :
    ∃ z, t.terraZ x y = .val z ∧ lo ≤ z ∧ z ≤ hi := by
  have hv : t.valid i j := by
    by_contra hv
    rw [grid, if_neg hv] at g0; cases g0
  rw [terraZ_eq hdx hdy hz hx1 hx2 hy1 hy2 hv]
  simp only [zGrid, gridNC_eq_grid g0, gridNC_eq_grid g1, gridNC_eq_grid g2, gridNC_eq_grid g3, Option.map_some]
  have e1 : t.gx (i + 1) = t.gx i + t.dx := by simp [gx]; ring
  have e2 : t.gy (j + 1) = t.gy j + t.dy := by simp [gy]; ring
  rw [e1] at hx2
  rw [e2] at hy2
  rw [e1, e2]
  have b1 : 0 < ((x - t.gx i) * (x - t.gx i) + (y - (t.gy j + t.dy)) * (y - (t.gy j + t.dy))) * c1.var := by
    have : y - (t.gy j + t.dy) < 0 := by linarith
    have := mul_pos_of_neg_of_neg this this
    have := mul_self_nonneg (x - t.gx i)
    positivity
  have b2 : 0 < ((x - (t.gx i + t.dx)) * (x - (t.gx i + t.dx)) + (y - t.gy j) * (y - t.gy j)) * c2.var := by
    have : x - (t.gx i + t.dx) < 0 := by linarith
    have := mul_pos_of_neg_of_neg this this
    have := mul_self_nonneg (y - t.gy j)
    positivity
  have b3 : 0 < ((x - (t.gx i + t.dx)) * (x - (t.gx i + t.dx)) +
      (y - (t.gy j + t.dy)) * (y - (t.gy j + t.dy))) * c3.var := by
    have : x - (t.gx i + t.dx) < 0 := by linarith
    have := mul_pos_of_neg_of_neg this this
    have := mul_self_nonneg (y - (t.gy j + t.dy))
    positivity
  have b0 : 0 ≤ ((x - t.gx i) * (x - t.gx i) + (y - t.gy j) * (y - t.gy j)) * c0.var := by
    have := mul_self_nonneg (x - t.gx i)
    have := mul_self_nonneg (y - t.gy j)
    positivity
  revert b0 b1 b2 b3
  generalize ((x - t.gx i) * (x - t.gx i) + (y - t.gy j) * (y - t.gy j)) * c0.var = d0
  generalize ((x - t.gx i) * (x - t.gx i) + (y - (t.gy j + t.dy)) * (y - (t.gy j + t.dy))) * c1.var = d1
  generalize ((x - (t.gx i + t.dx)) * (x - (t.gx i + t.dx)) + (y - t.gy j) * (y - t.gy j)) * c2.var = d2
  generalize ((x - (t.gx i + t.dx)) * (x - (t.gx i + t.dx)) +
      (y - (t.gy j + t.dy)) * (y - (t.gy j + t.dy))) * c3.var = d3
  intro b1 b2 b3 b0
  have hs : d1 * d2 * d3 + d2 * d3 * d0 + d3 * d0 * d1 + d0 * d1 * d2 ≠ 0 := by positivity
  rw [if_neg hs]
  refine ⟨_, rfl, ?_⟩
  exact mean_between (by positivity) (by positivity) (by positivity) (by positivity) hs
    ⟨l c0 (by simp), l c1 (by simp), l c2 (by simp), l c3 (by simp)⟩
    ⟨u c0 (by simp), u c1 (by simp), u c2 (by simp), u c3 (by simp)⟩

/-- At a grid point (not on the last row or column) the height is the estimate of its own cell, whatever its
variance, provided the other three have non-zero variance. -/
theorem C45_grid_point (t : Terra K) (hdx : 0 < t.dx) (hdy : 0 < t.dy) (hz : t.zmin ≤ t.zmax) (i j : ℤ)
    (c0 c1 c2 c3 : TerraCell K) (g0 : t.grid i j = some c0) (g1 : t.grid i (j + 1) = some c1)
    (g2 : t.grid (i + 1) j = some c2) (g3 : t.grid (i + 1) (j + 1) = some c3)
    (v1 : c1.var ≠ 0) (v2 : c2.var ≠ 0) (v3 : c3.var ≠ 0) :
    t.terraZ (t.gx i) (t.gy j) = .val (c0.prm.x * t.gx i + c0.prm.y * t.gy j + c0.prm.z) := by
  have hv : t.valid i j := by
    by_contra hv
    rw [grid, if_neg hv] at g0; cases g0
  have e1 : t.gx (i + 1) = t.gx i + t.dx := by simp [gx]; ring
  have e2 : t.gy (j + 1) = t.gy j + t.dy := by simp [gy]; ring
  rw [terraZ_eq hdx hdy hz le_rfl (by linarith) le_rfl (by linarith) hv]
  simp only [zGrid, gridNC_eq_grid g0, gridNC_eq_grid g1, gridNC_eq_grid g2, gridNC_eq_grid g3, Option.map_some]
  rw [e1, e2]
  have hx := hdx.ne'
  have hy := hdy.ne'
  have a0 : ((t.gx i - t.gx i) * (t.gx i - t.gx i) + (t.gy j - t.gy j) * (t.gy j - t.gy j)) * c0.var = 0 := by ring
  have a1 : ((t.gx i - t.gx i) * (t.gx i - t.gx i) + (t.gy j - (t.gy j + t.dy)) * (t.gy j - (t.gy j + t.dy))) *
      c1.var ≠ 0 := by
    have : ((t.gx i - t.gx i) * (t.gx i - t.gx i) + (t.gy j - (t.gy j + t.dy)) * (t.gy j - (t.gy j + t.dy))) *
      c1.var = t.dy * t.dy * c1.var := by ring
    rw [this]; positivity
  have a2 : ((t.gx i - (t.gx i + t.dx)) * (t.gx i - (t.gx i + t.dx)) + (t.gy j - t.gy j) * (t.gy j - t.gy j)) *
      c2.var ≠ 0 := by
    have : ((t.gx i - (t.gx i + t.dx)) * (t.gx i - (t.gx i + t.dx)) + (t.gy j - t.gy j) * (t.gy j - t.gy j)) *
      c2.var = t.dx * t.dx * c2.var := by ring
    rw [this]; positivity
  have a3 : ((t.gx i - (t.gx i + t.dx)) * (t.gx i - (t.gx i + t.dx)) +
      (t.gy j - (t.gy j + t.dy)) * (t.gy j - (t.gy j + t.dy))) * c3.var ≠ 0 := by
    have : ((t.gx i - (t.gx i + t.dx)) * (t.gx i - (t.gx i + t.dx)) +
      (t.gy j - (t.gy j + t.dy)) * (t.gy j - (t.gy j + t.dy))) * c3.var = (t.dx * t.dx + t.dy * t.dy) * c3.var := by ring
    rw [this]
    have : t.dx * t.dx + t.dy * t.dy ≠ 0 := by positivity
    positivity
  rw [a0]
  revert a1 a2 a3
  generalize ((t.gx i - t.gx i) * (t.gx i - t.gx i) + (t.gy j - (t.gy j + t.dy)) * (t.gy j - (t.gy j + t.dy))) *
      c1.var = d1
  generalize ((t.gx i - (t.gx i + t.dx)) * (t.gx i - (t.gx i + t.dx)) + (t.gy j - t.gy j) * (t.gy j - t.gy j)) *
      c2.var = d2
  generalize ((t.gx i - (t.gx i + t.dx)) * (t.gx i - (t.gx i + t.dx)) +
      (t.gy j - (t.gy j + t.dy)) * (t.gy j - (t.gy j + t.dy))) * c3.var = d3
  intro a1 a2 a3
  have hs : d1 * d2 * d3 + d2 * d3 * 0 + d3 * 0 * d1 + 0 * d1 * d2 ≠ 0 := by
    have : d1 * d2 * d3 ≠ 0 := by positivity
    simpa using this
  rw [if_neg hs]
  congr 1
  rw [div_eq_iff hs]
  unfold cellZ
  ring

/-- A place outside the grid is reported; so is every place if the height range is empty. -/
theorem C45_out_of_region (t : Terra K) (hdx : 0 < t.dx) (hdy : 0 < t.dy) (x y : K)
    (h : x < t.xmin ∨ t.gx t.xsize ≤ x ∨ y < t.ymin ∨ t.gy t.ysize ≤ y ∨ t.zmax < t.zmin) :
    t.terraZ x y = .outOfRegion := by
  unfold terraZ
  dsimp only
  by_cases h1 : (t.zmin + t.zmax) / 2 < t.zmin ∨ (t.zmin + t.zmax) / 2 > t.zmax
  · rw [if_pos h1]
  · rw [if_neg h1, if_pos]
    intro h2
    have hz : t.zmin ≤ t.zmax := by
      by_contra hc
      apply h1
      left
      linarith
    have hb : t.baseIndex ⟨x, y, (t.zmin + t.zmax) / 2⟩ (0, 0) =
        (⌊(x - t.xmin) / t.dx⌋, ⌊(y - t.ymin) / t.dy⌋) := by
      unfold baseIndex; rw [if_neg h1]
    rw [hb] at h2
    obtain ⟨a1, a2, a3, a4⟩ := h2
    have a1' : 0 ≤ (x - t.xmin) / t.dx := Int.floor_nonneg.1 a1
    have a3' : 0 ≤ (y - t.ymin) / t.dy := Int.floor_nonneg.1 a3
    have a2' : (x - t.xmin) / t.dx < ((t.xsize : ℤ) : K) := Int.floor_lt.1 a2
    have a4' : (y - t.ymin) / t.dy < ((t.ysize : ℤ) : K) := Int.floor_lt.1 a4
    rw [le_div_iff₀ hdx] at a1'
    rw [le_div_iff₀ hdy] at a3'
    rw [div_lt_iff₀ hdx] at a2'
    rw [div_lt_iff₀ hdy] at a4'
    unfold gx gy at h
    rcases h with h | h | h | h | h <;> linarith

/-- Conversely, in the interior (four corners in the grid) no read is out of place. -/
theorem C45_no_bad_read (t : Terra K) (hw : t.WF) (hdx : 0 < t.dx) (hdy : 0 < t.dy) (hz : t.zmin ≤ t.zmax)
    (x y : K) (hx1 : t.xmin ≤ x) (hx2 : x < t.gx (t.xsize - 1)) (hy1 : t.ymin ≤ y) (hy2 : y < t.gy (t.ysize - 1)) :
    t.terraZ x y ≠ .badRead ∧ t.terraZ x y ≠ .outOfRegion := by
  have fl : ∀ a o d : K, 0 < d → o + (⌊(a - o) / d⌋ : ℤ) * d ≤ a ∧ a < o + ((⌊(a - o) / d⌋ + 1 : ℤ) : K) * d := by
    intro a o d hd
    have h1 := Int.floor_le ((a - o) / d)
    have h2 := Int.lt_floor_add_one ((a - o) / d)
    rw [le_div_iff₀ hd] at h1
    rw [div_lt_iff₀ hd] at h2
    push_cast
    constructor <;> linarith
  have hi0 : 0 ≤ ⌊(x - t.xmin) / t.dx⌋ := Int.floor_nonneg.2 (div_nonneg (by linarith) hdx.le)
  have hj0 : 0 ≤ ⌊(y - t.ymin) / t.dy⌋ := Int.floor_nonneg.2 (div_nonneg (by linarith) hdy.le)
  have hi1 : ⌊(x - t.xmin) / t.dx⌋ < (t.xsize : ℤ) - 1 := by
    rw [Int.floor_lt, div_lt_iff₀ hdx]
    unfold gx at hx2; linarith
  have hj1 : ⌊(y - t.ymin) / t.dy⌋ < (t.ysize : ℤ) - 1 := by
    rw [Int.floor_lt, div_lt_iff₀ hdy]
    unfold gy at hy2; linarith
  obtain ⟨x1, x2⟩ := fl x t.xmin t.dx hdx
  obtain ⟨y1, y2⟩ := fl y t.ymin t.dy hdy
  revert x1 x2 y1 y2 hi0 hj0 hi1 hj1
  generalize ⌊(x - t.xmin) / t.dx⌋ = i
  generalize ⌊(y - t.ymin) / t.dy⌋ = j
  intro hi0 hj0 hi1 hj1 x1 x2 y1 y2
  have ex : ∀ i j, t.valid i j → ∃ c, t.gridNC i j = some c := by
    intro i j h
    obtain ⟨c, hc⟩ := Option.isSome_iff_exists.1 ((grid_isSome hw i j).2 h)
    exact ⟨c, gridNC_eq_grid hc⟩
  have hv : t.valid i j := ⟨hi0, by omega, hj0, by omega⟩
  obtain ⟨c0, g0⟩ := ex i j hv
  obtain ⟨c1, g1⟩ := ex i (j + 1) ⟨hi0, by omega, by omega, by omega⟩
  obtain ⟨c2, g2⟩ := ex (i + 1) j ⟨by omega, by omega, by omega, by omega⟩
  obtain ⟨c3, g3⟩ := ex (i + 1) (j + 1) ⟨by omega, by omega, by omega, by omega⟩
  rw [terraZ_eq hdx hdy hz x1 x2 y1 y2 hv]
  simp only [zGrid, g0, g1, g2, g3, Option.map_some]
  split_ifs
  · exact ⟨(by intro h; cases h), (by intro h; cases h)⟩
  · exact ⟨(by intro h; cases h), (by intro h; cases h)⟩

/-- A place in the mesh squares beyond the last row of grid points, in particular on the last row itself, is
accepted but makes `zTerraZ` read a cell beyond the end of the grid buffer. -/
theorem C45_last_row_bad_read (t : Terra K) (hw : t.WF) (hdx : 0 < t.dx) (hdy : 0 < t.dy) (hz : t.zmin ≤ t.zmax)
    (hxs : 0 < t.xsize) (x y : K) (j : ℤ) (hj : 0 ≤ j ∧ j < t.ysize)
    (hx1 : t.gx (t.xsize - 1) ≤ x) (hx2 : x < t.gx t.xsize) (hy1 : t.gy j ≤ y) (hy2 : y < t.gy (j + 1)) :
    t.terraZ x y = .badRead := by
  have hv : t.valid (t.xsize - 1) j := ⟨by omega, by omega, hj.1, hj.2⟩
  rw [terraZ_eq hdx hdy hz hx1 (by rwa [sub_add_cancel]) hy1 hy2 hv]
  have h2 : t.zGrid x y ((t.xsize : ℤ) - 1 + 1) j = none := by
    unfold zGrid gridNC
    rw [sub_add_cancel]
    split_ifs with hneg
    · rfl
    · rw [List.getElem?_eq_none, Option.map_none]
      have hw' : t.cells.length = t.xsize * t.ysize := hw
      rw [hw']
      unfold index at hneg ⊢
      zify
      rw [Int.toNat_of_nonneg (not_lt.1 hneg)]
      linarith [hj.1]
  rw [h2]
  rcases t.zGrid x y (t.xsize - 1) j with _ | ⟨z0, d0⟩
  · rfl
  rcases t.zGrid x y (t.xsize - 1) (j + 1) with _ | ⟨z1, d1⟩ <;> rfl

/-- For a place in the last column the cell taken for the neighbour `(i, ysize)` is the cell `(i+1, 0)` on
the opposite side of the map. -/
theorem C45_last_column_wrong_cell (t : Terra K) (i : ℤ) (hi : 0 ≤ i ∧ i + 1 < t.xsize) (hy : 0 < t.ysize) :
    t.gridNC i t.ysize = t.grid (i + 1) 0 := by
  have hv : t.valid (i + 1) 0 := ⟨by omega, hi.2, le_rfl, by exact_mod_cast hy⟩
  unfold grid
  rw [if_pos hv]
  unfold gridNC
  have : t.index i t.ysize = t.index (i + 1) 0 := by unfold index; ring
  rw [this]

/-- As a result the height there can be outside the range of the four true neighbours' estimates: on this
4x1 map, with planes at 0, 0, 6 and 0, the height at (1/2,1/2) is 3/2 although both cells at hand, (0,0) and
(1,0), estimate 0. -/
theorem C45_last_column_effect : ∃ t : Terra ℚ, t.WF ∧ t.xsize = 4 ∧ t.ysize = 1 ∧ t.dx = 1 ∧ t.dy = 1 ∧
    t.xmin = 0 ∧ t.ymin = 0 ∧ (t.grid 0 0).map (fun c => c.cellZ (1/2) (1/2)) = some 0 ∧
    (t.grid 1 0).map (fun c => c.cellZ (1/2) (1/2)) = some 0 ∧
    (t.grid 2 0).map (fun c => c.cellZ (1/2) (1/2)) = some 6 ∧ t.terraZ (1/2) (1/2) = .val (3/2) := by
  let c0 : TerraCell ℚ := .init
  let c1 : TerraCell ℚ := { (.init : TerraCell ℚ) with prm := ⟨0, 0, 6⟩ }
  refine ⟨⟨0, 3, 0, 0, -1, 1, 1, 1, 0, 0, 0, 4, 1, [c0, c0, c1, c0]⟩, rfl, rfl, rfl, rfl, rfl, rfl, rfl, ?_, ?_, ?_, ?_⟩
  all_goals decide +kernel

/-- If the four cells around have zero variance, `zTerraZ` divides zero by zero. -/
theorem C45_flat_nan (t : Terra K) (hdx : 0 < t.dx) (hdy : 0 < t.dy) (hz : t.zmin ≤ t.zmax) (x y : K) (i j : ℤ)
    (hx1 : t.gx i ≤ x) (hx2 : x < t.gx (i + 1)) (hy1 : t.gy j ≤ y) (hy2 : y < t.gy (j + 1))
    (c0 c1 c2 c3 : TerraCell K) (g0 : t.grid i j = some c0) (g1 : t.grid i (j + 1) = some c1)
    (g2 : t.grid (i + 1) j = some c2) (g3 : t.grid (i + 1) (j + 1) = some c3)
    (v0 : c0.var = 0) (v1 : c1.var = 0) (v2 : c2.var = 0) (v3 : c3.var = 0) :
    t.terraZ x y = .nan := by
  have hv : t.valid i j := by
    by_contra hv
    rw [grid, if_neg hv] at g0; cases g0
  rw [terraZ_eq hdx hdy hz hx1 hx2 hy1 hy2 hv]
  simp [zGrid, gridNC_eq_grid g0, gridNC_eq_grid g1, gridNC_eq_grid g2, gridNC_eq_grid g3, v0, v1, v2, v3]

/-- This is reached by identifying a flat ground at height zero: a new map, points of height zero in a mesh
square, and every query in that square. -/
theorem C45_flat_nan_reachable (junk : Vec3 K) (ps : List (Vec3 K)) (hp : ∀ p ∈ ps, p.z = 0) (hne : ps ≠ []) :
    (feed junk ps).var = 0 ∧ (feed junk ps).prm = ⟨0, 0, 0⟩ := by
  have hprm : ∀ ps : List (Vec3 K), (∀ p ∈ ps, p.z = 0) → (feed junk ps).prm = ⟨0, 0, 0⟩ := by
    intro ps hp
    by_contra hc
    have := C43_minimiser junk ps 0 0 0 (by
      intro h; exact hc (Vec3.ext h.1.symm h.2.1.symm h.2.2.symm))
    have h0 : Spec.planeCost ps 0 0 0 = 0 := by
      unfold Spec.planeCost
      rw [List.sum_eq_zero]
      · ring
      · intro x hx
        obtain ⟨p, hpm, rfl⟩ := List.mem_map.1 hx
        rw [hp p hpm]; ring
    rw [h0] at this
    unfold Spec.planeCost at this
    have hs : 0 ≤ (ps.map (fun p => ((feed junk ps).prm.x * p.x + (feed junk ps).prm.y * p.y +
        (feed junk ps).prm.z - p.z)^2)).sum := by
      apply List.sum_nonneg
      intro x hx
      obtain ⟨p, _, rfl⟩ := List.mem_map.1 hx
      positivity
    nlinarith [sq_nonneg (feed junk ps).prm.x, sq_nonneg (feed junk ps).prm.y, sq_nonneg (feed junk ps).prm.z]
  refine ⟨?_, hprm ps hp⟩
  rw [(C43_variance junk ps).2.2 hne, Finset.sum_eq_zero, zero_div]
  intro k _
  rw [hprm _ (fun p h => hp p (List.mem_of_mem_take h)), show ps[k].z = 0 from hp _ (List.getElem_mem _)]
  ring

/-- A concrete run: a new 2x2 map, one point (1/4,1/2,0), a query in the square: not a number. -/
theorem C45_flat_nan_example : ∃ t : Terra ℚ, allocGrid 0 0 1 1 2 2 (-1) 1 0 0 0 = some t ∧
    (t.update ⟨0, 0, 0⟩ ⟨1/4, 1/2, 0⟩).terraZ (1/2) (1/2) = .nan := by
  refine ⟨_, rfl, ?_⟩
  decide +kernel

/-- The hypotheses of `C45_between_partial` and `C45_grid_point` hold of a new map and of a map that has been
given a point at non-zero height. -/
example : ∃ t : Terra ℚ, allocGrid 0 0 1 1 2 2 (-1) 1 0 0 0 = some t ∧
    (∀ i ∈ [(0 : ℤ), 1], ∀ j ∈ [(0 : ℤ), 1],
      ((t.update ⟨0, 0, 0⟩ ⟨1/4, 1/2, 1⟩).grid i j).any (fun c => decide (0 < c.var)) = true) ∧
    (t.update ⟨0, 0, 0⟩ ⟨1/4, 1/2, 1⟩).terraZ (1/2) (1/2) = .val (22/37) := by
  refine ⟨_, rfl, ?_, ?_⟩ <;> decide +kernel

end Zeo
