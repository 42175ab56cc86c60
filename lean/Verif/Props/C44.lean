import Verif.Model.Terra
import Mathlib.Tactic.Linarith
import Mathlib.Tactic.NormNum
import Mathlib.Data.Rat.Floor

/-! # C44: which cells a point alters

A point whose height is outside the range is not simply skipped: `zTerraUpdate` still updates the three cells
(1,0), (0,1), (1,1), and `zTerraIdent` the three cells around the base cell of the point before. The claim is
therefore false (`C44_out_of_range_updates`, `C44_ident_stale`); what holds is proved in the others. -/

namespace Zeo
namespace Terra
variable {K : Type*} [Field K] [LinearOrder K] [IsStrictOrderedRing K]

/-- The buffer has the size recorded for the grid. -/
def WF (t : Terra K) : Prop := t.cells.length = t.xsize * t.ysize

theorem index_inj {t : Terra K} {i j i' j' : ℤ} (h : t.valid i j) (h' : t.valid i' j')
    (e : (t.index i j).toNat = (t.index i' j').toNat) : i = i' ∧ j = j' := by
  obtain ⟨h1, h2, h3, h4⟩ := h
  obtain ⟨g1, g2, g3, g4⟩ := h'
  have hy : 0 ≤ (t.ysize : ℤ) := by positivity
  have a1 : 0 ≤ t.index i j := by unfold index; positivity
  have a2 : 0 ≤ t.index i' j' := by unfold index; positivity
  have e' : t.index i j = t.index i' j' := by omega
  unfold index at e'
  have hi : i = i' := by
    rcases lt_trichotomy i i' with hl | hl | hl
    · nlinarith
    · exact hl
    · nlinarith
  subst hi
  exact ⟨rfl, by linarith⟩

theorem index_lt {t : Terra K} (hw : t.WF) {i j : ℤ} (h : t.valid i j) :
    0 ≤ t.index i j ∧ (t.index i j).toNat < t.cells.length := by
  obtain ⟨h1, h2, h3, h4⟩ := h
  have a1 : 0 ≤ t.index i j := by unfold index; positivity
  refine ⟨a1, ?_⟩
  rw [hw]
  zify
  rw [Int.toNat_of_nonneg a1]
  unfold index
  nlinarith

theorem grid_isSome {t : Terra K} (hw : t.WF) (i j : ℤ) : (t.grid i j).isSome ↔ t.valid i j := by
  unfold grid gridNC
  by_cases h : t.valid i j
  · obtain ⟨a, b⟩ := index_lt hw h
    simp [h, not_lt.2 a, b]
  · simp [h]

theorem WF.modify {t : Terra K} (hw : t.WF) (i j : ℤ) (f : TerraCell K → TerraCell K) : (t.modify i j f).WF := by
  unfold Terra.modify
  split_ifs
  · simpa [WF] using hw
  · exact hw

theorem modify_frame (t : Terra K) (i j : ℤ) (f : TerraCell K → TerraCell K) :
    (t.modify i j f) = { t with cells := (t.modify i j f).cells } := by
  unfold Terra.modify
  split_ifs <;> rfl

theorem modify_valid (t : Terra K) (i j i' j' : ℤ) (f : TerraCell K → TerraCell K) :
    (t.modify i j f).valid i' j' ↔ t.valid i' j' := by rw [modify_frame]; rfl
theorem modify_index (t : Terra K) (i j i' j' : ℤ) (f : TerraCell K → TerraCell K) :
    (t.modify i j f).index i' j' = t.index i' j' := by rw [modify_frame]; rfl

theorem grid_modify {t : Terra K} (hw : t.WF) (i j i' j' : ℤ) (f : TerraCell K → TerraCell K) :
    (t.modify i j f).grid i' j' = if i' = i ∧ j' = j then (t.grid i' j').map f else t.grid i' j' := by
  by_cases hv' : t.valid i' j'
  · obtain ⟨a, b⟩ := index_lt hw hv'
    have e1 : (t.modify i j f).grid i' j' = (t.modify i j f).cells[(t.index i' j').toNat]? := by
      unfold grid gridNC
      rw [if_pos ((modify_valid t i j i' j' f).2 hv'), modify_index, if_neg (not_lt.2 a)]
    have e2 : t.grid i' j' = t.cells[(t.index i' j').toNat]? := by
      unfold grid gridNC
      rw [if_pos hv', if_neg (not_lt.2 a)]
    rw [e1, e2]
    unfold Terra.modify
    by_cases hv : t.valid i j
    · rw [if_pos hv]
      dsimp only
      rw [List.getElem?_modify]
      by_cases he : i' = i ∧ j' = j
      · obtain ⟨rfl, rfl⟩ := he
        simp
      · rw [if_neg he]
        have hne : ¬ (t.index i j).toNat = (t.index i' j').toNat :=
          fun hc => he (index_inj hv' hv hc.symm)
        simp [hne]
    · rw [if_neg hv, if_neg]
      rintro ⟨rfl, rfl⟩
      exact hv hv'
  · have e1 : (t.modify i j f).grid i' j' = none := by
      unfold grid; rw [if_neg]; rwa [modify_valid]
    have e2 : t.grid i' j' = none := by unfold grid; rw [if_neg hv']
    rw [e1, e2]; simp

variable [FloorRing K]

theorem updateFrom_frame (junk : Vec3 K) (t : Terra K) (ij : ℤ × ℤ) (p : Vec3 K) :
    ∃ cs, (t.updateFrom junk ij p).1 = { t with cells := cs } := by
  unfold updateFrom
  dsimp only
  split_ifs
  · rw [modify_frame, modify_frame (t.modify _ _ _), modify_frame t]; exact ⟨_, rfl⟩
  · rw [modify_frame, modify_frame ((t.modify _ _ _).modify _ _ _), modify_frame (t.modify _ _ _),
      modify_frame t]; exact ⟨_, rfl⟩

theorem WF.updateFrom {junk : Vec3 K} {t : Terra K} (hw : t.WF) (ij : ℤ × ℤ) (p : Vec3 K) :
    (t.updateFrom junk ij p).1.WF := by
  unfold Terra.updateFrom
  dsimp only
  split_ifs
  · exact ((hw.modify ..).modify ..).modify ..
  · exact (((hw.modify ..).modify ..).modify ..).modify ..

theorem grid_updateFrom (junk : Vec3 K) {t : Terra K} (hw : t.WF) (ij : ℤ × ℤ) (p : Vec3 K) (i' j' : ℤ) :
    (t.updateFrom junk ij p).1.grid i' j' =
      if (i' = (t.baseIndex p ij).1 ∨ i' = (t.baseIndex p ij).1 + 1) ∧
         (j' = (t.baseIndex p ij).2 ∨ j' = (t.baseIndex p ij).2 + 1) ∧
         ¬ ((p.z < t.zmin ∨ p.z > t.zmax) ∧ i' = (t.baseIndex p ij).1 ∧ j' = (t.baseIndex p ij).2) then
        (t.grid i' j').map (fun c => c.update junk p)
      else t.grid i' j' := by
  unfold Terra.updateFrom
  dsimp only
  generalize (t.baseIndex p ij).1 = i
  generalize (t.baseIndex p ij).2 = j
  by_cases hz : p.z < t.zmin ∨ p.z > t.zmax
  · rw [if_pos hz, grid_modify ((hw.modify ..).modify ..), grid_modify (hw.modify ..), grid_modify hw]
    simp only [hz, true_and]
    by_cases a : i' = i
    · by_cases b : j' = j
      · simp [a, b]
      · by_cases c : j' = j + 1 <;> simp [a, b, c]
    · by_cases a' : i' = i + 1
      · by_cases b : j' = j
        · simp [a', b]
        · by_cases c : j' = j + 1 <;> simp [a', b, c]
      · simp [a, a']
  · rw [if_neg hz, grid_modify (((hw.modify ..).modify ..).modify ..), grid_modify ((hw.modify ..).modify ..),
      grid_modify (hw.modify ..), grid_modify hw]
    simp only [hz, false_and, not_false_eq_true, and_true]
    by_cases a : i' = i
    · by_cases b : j' = j
      · simp [a, b]
      · by_cases c : j' = j + 1 <;> simp [a, b, c]
    · by_cases a' : i' = i + 1
      · by_cases b : j' = j
        · simp [a', b]
        · by_cases c : j' = j + 1 <;> simp [a', b, c]
      · simp [a, a']

end Terra

open Terra
variable {K : Type*} [Field K] [LinearOrder K] [IsStrictOrderedRing K] [FloorRing K]

/-- A point within the height range is given to exactly those cells of the grid that are corners of the
mesh square `[x_i,x_{i+1}) × [y_j,y_{j+1})` containing it; all others are unchanged. -/
theorem C44_in_range (junk : Vec3 K) (t : Terra K) (hw : t.WF) (hdx : 0 < t.dx) (hdy : 0 < t.dy) (p : Vec3 K)
    (hz : t.zmin ≤ p.z ∧ p.z ≤ t.zmax) :
    ∃ i j : ℤ, t.gx i ≤ p.x ∧ p.x < t.gx (i + 1) ∧ t.gy j ≤ p.y ∧ p.y < t.gy (j + 1) ∧
      ∀ i' j', (t.update junk p).grid i' j' =
        if (i' = i ∨ i' = i + 1) ∧ (j' = j ∨ j' = j + 1) then (t.grid i' j').map (fun c => c.update junk p)
        else t.grid i' j' := by
  have hz' : ¬ (p.z < t.zmin ∨ p.z > t.zmax) := by
    rintro (h | h)
    · exact not_lt.2 hz.1 h
    · exact not_lt.2 hz.2 h
  have fl : ∀ a o d : K, 0 < d → o + (⌊(a - o) / d⌋ : ℤ) * d ≤ a ∧ a < o + ((⌊(a - o) / d⌋ + 1 : ℤ) : K) * d := by
    intro a o d hd
    have h1 := Int.floor_le ((a - o) / d)
    have h2 := Int.lt_floor_add_one ((a - o) / d)
    rw [le_div_iff₀ hd] at h1
    rw [div_lt_iff₀ hd] at h2
    push_cast
    constructor <;> linarith
  refine ⟨⌊(p.x - t.xmin) / t.dx⌋, ⌊(p.y - t.ymin) / t.dy⌋, (fl _ _ _ hdx).1, (fl _ _ _ hdx).2,
    (fl _ _ _ hdy).1, (fl _ _ _ hdy).2, ?_⟩
  intro i' j'
  unfold Terra.update
  rw [grid_updateFrom junk hw]
  have hb : t.baseIndex p (0, 0) = (⌊(p.x - t.xmin) / t.dx⌋, ⌊(p.y - t.ymin) / t.dy⌋) := by
    unfold baseIndex; rw [if_neg hz']
  rw [hb]
  simp only [hz', false_and, not_false_eq_true, and_true]

/-- A point outside the height range leaves every cell unchanged except (1,0), (0,1) and (1,1).
Missing: the claim for these three cells, which is false (`C44_out_of_range_updates`). -/
theorem C44_out_of_range_partial (junk : Vec3 K) (t : Terra K) (hw : t.WF) (p : Vec3 K)
    (hz : p.z < t.zmin ∨ t.zmax < p.z) (i j : ℤ)
    (h : ¬ (i = 1 ∧ j = 0) ∧ ¬ (i = 0 ∧ j = 1) ∧ ¬ (i = 1 ∧ j = 1)) :
    (t.update junk p).grid i j = t.grid i j := by
  unfold Terra.update
  rw [grid_updateFrom junk hw]
  have hb : t.baseIndex p (0, 0) = (0, 0) := by unfold baseIndex; rw [if_pos hz]
  rw [hb, if_neg]
  rintro ⟨a | a, b | b, c⟩
  · exact c ⟨hz, a, b⟩
  · exact h.2.1 ⟨a, by simpa using b⟩
  · exact h.1 ⟨by simpa using a, b⟩
  · exact h.2.2 ⟨by simpa using a, by simpa using b⟩

/-- On every map with at least two rows, a point outside the height range alters the cell (1,0): the point is
counted and identified there as if it were in range. -/
theorem C44_out_of_range_updates (junk : Vec3 K) (t : Terra K) (hw : t.WF) (p : Vec3 K)
    (hz : p.z < t.zmin ∨ t.zmax < p.z) (hx : 2 ≤ t.xsize) (hy : 1 ≤ t.ysize) :
    ∃ c, t.grid 1 0 = some c ∧ (t.update junk p).grid 1 0 = some (c.update junk p) ∧ c.update junk p ≠ c := by
  have hv : t.valid 1 0 := ⟨by norm_num, by exact_mod_cast hx, le_rfl, by exact_mod_cast hy⟩
  obtain ⟨c, hc⟩ := Option.isSome_iff_exists.1 ((grid_isSome hw 1 0).2 hv)
  refine ⟨c, hc, ?_, ?_⟩
  · unfold Terra.update
    rw [grid_updateFrom junk hw]
    have hb : t.baseIndex p (0, 0) = (0, 0) := by unfold baseIndex; rw [if_pos hz]
    rw [hb, if_pos (by simp), hc]; rfl
  · intro h
    have : (c.update junk p).np = c.np + 1 := rfl
    rw [h] at this; omega

/-- The hypotheses hold of a new 2x2 map and a point above its range. -/
example : ∃ t : Terra ℚ, allocGrid 0 0 1 1 2 2 (-1) 1 0 0 0 = some t ∧ t.WF ∧ 2 ≤ t.xsize ∧ 1 ≤ t.ysize ∧
    t.zmax < (⟨0, 0, 5⟩ : Vec3 ℚ).z := by
  refine ⟨_, rfl, rfl, by decide, by decide, ?_⟩
  show (1 : ℚ) < 5
  norm_num

/-- In `zTerraIdent`, a point outside the height range is given to the three cells other than the base cell
around the previous point: on a 4x4 map with unit mesh, range [-1,1] and the points (2.5,2.5,0), (0,0,9),
the cell (3,3) counts two points, and cell (2,2) one. -/
theorem C44_ident_stale : ∃ t : Terra ℚ, allocGrid 0 0 1 1 4 4 (-1) 1 0 0 0 = some t ∧
    ((t.identLoop ⟨0, 0, 0⟩ [⟨5/2, 5/2, 0⟩, ⟨0, 0, 9⟩]).grid 3 3).map (·.np) = some 2 ∧
    ((t.identLoop ⟨0, 0, 0⟩ [⟨5/2, 5/2, 0⟩, ⟨0, 0, 9⟩]).grid 2 2).map (·.np) = some 1 := by
  refine ⟨_, rfl, ?_, ?_⟩ <;> decide +kernel

/-- Updating keeps the geometry of the map and the buffer size, for every point. -/
theorem C44_geometry (junk : Vec3 K) (t : Terra K) (p : Vec3 K) :
    (∃ cs, t.update junk p = { t with cells := cs }) ∧ (t.WF → (t.update junk p).WF) :=
  ⟨updateFrom_frame junk t (0, 0) p, fun hw => hw.updateFrom (0, 0) p⟩

/-- `zTerraAllocRegion` covers the requested region up to less than one mesh: the last grid line is within the
requested boundary and one mesh width more is beyond. -/
theorem C44_allocRegion (τ xmin xmax ymin ymax zmin zmax dx dy a b c : K) (hτ : 0 < τ)
    (hdx : τ ≤ dx) (hdy : τ ≤ dy) (hx : xmin ≤ xmax) (hy : ymin ≤ ymax) :
    ∃ t, allocRegion τ xmin xmax ymin ymax zmin zmax dx dy a b c = some t ∧ t.WF ∧ 0 < t.xsize ∧ 0 < t.ysize ∧
      t.xmax = t.gx (t.xsize - 1) ∧ t.xmax ≤ xmax ∧ xmax < t.xmax + dx ∧
      t.ymax = t.gy (t.ysize - 1) ∧ t.ymax ≤ ymax ∧ ymax < t.ymax + dy ∧
      (∀ i j, t.valid i j → t.grid i j = some .init) := by
  have hdx0 : 0 < dx := hτ.trans_le hdx
  have hdy0 : 0 < dy := hτ.trans_le hdy
  have fx : 0 ≤ ⌊(xmax - xmin) / dx⌋ := Int.floor_nonneg.2 (div_nonneg (by linarith) hdx0.le)
  have fy : 0 ≤ ⌊(ymax - ymin) / dy⌋ := Int.floor_nonneg.2 (div_nonneg (by linarith) hdy0.le)
  unfold allocRegion
  rw [if_neg (by rintro (h | h) <;> linarith)]
  have fl : ∀ u o d : K, 0 < d → o + (⌊(u - o) / d⌋ : ℤ) * d ≤ u ∧ u < o + (⌊(u - o) / d⌋ : ℤ) * d + d := by
    intro u o d hd
    have h1 := Int.floor_le ((u - o) / d)
    have h2 := Int.lt_floor_add_one ((u - o) / d)
    rw [le_div_iff₀ hd] at h1
    rw [div_lt_iff₀ hd] at h2
    constructor <;> linarith
  obtain ⟨x1, x2⟩ := fl xmax xmin dx hdx0
  obtain ⟨y1, y2⟩ := fl ymax ymin dy hdy0
  revert fx fy x1 x2 y1 y2
  generalize ⌊(xmax - xmin) / dx⌋ = m
  generalize ⌊(ymax - ymin) / dy⌋ = n
  intro fx fy x1 x2 y1 y2
  obtain ⟨m, rfl⟩ := Int.eq_ofNat_of_zero_le fx
  obtain ⟨n, rfl⟩ := Int.eq_ofNat_of_zero_le fy
  dsimp only
  rw [if_neg (by omega)]
  have em : ((m : ℤ) + 1).toNat = m + 1 := by omega
  have en : ((n : ℤ) + 1).toNat = n + 1 := by omega
  rw [em, en]
  unfold allocGrid
  rw [if_neg (by omega)]
  refine ⟨_, rfl, by simp [WF, adjustMax], by simp [adjustMax], by simp [adjustMax], ?_, ?_, ?_, ?_, ?_, ?_, ?_⟩
  · simp [adjustMax, gx]
  · simpa [adjustMax] using x1
  · simpa [adjustMax] using x2
  · simp [adjustMax, gy]
  · simpa [adjustMax] using y1
  · simpa [adjustMax] using y2
  · intro i j hv
    generalize ht : adjustMax (⟨xmin, 0, ymin, 0, zmin, zmax, dx, dy, a, b, c, m + 1, n + 1,
      List.replicate ((m + 1) * (n + 1)) .init⟩ : Terra K) = t at hv ⊢
    have hw : t.WF := by subst ht; simp [WF, adjustMax]
    obtain ⟨h1, h2⟩ := index_lt hw hv
    unfold grid gridNC
    rw [if_pos hv, if_neg (not_lt.2 h1), List.getElem?_eq_getElem h2]
    subst ht
    simp [adjustMax]

/-- The hypotheses are met by an ordinary region. -/
example : (0 : ℚ) < 1/1000 ∧ (1/1000 : ℚ) ≤ 1/2 ∧ (-1 : ℚ) ≤ 1 := by norm_num

end Zeo
