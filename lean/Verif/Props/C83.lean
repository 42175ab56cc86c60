import Verif.Model.MapZTK
import Verif.Props.C53Shape

/-! # C83: terrain maps and nets of maps in ZTK files -/

namespace Zeo

open ZTK

universe u

private theorem ok_bind' {ε : Type} {α β : Type u} (a : α) (f : α → Except ε β) : (Except.ok a >>= f) = f a := rfl

private theorem tol_iff (x τ : ℝ) : zIsTol x τ ↔ |x| ≤ τ := Iff.rfl

/-- A cell as it comes back from a file: what is estimated is written, the state of the estimator is reset. -/
noncomputable def cellBack (fmt : ℝ → ℝ) (c : TerraCell ℝ) : TerraCell ℝ :=
  ⟨fmt c.z, ⟨fmt c.norm.x, fmt c.norm.y, fmt c.norm.z⟩, fmt c.var, c.travs, ⟨0, 0, 0⟩, .ident, 0⟩

/-- Put the written part of `c` into `x`. -/
private noncomputable def over (fmt : ℝ → ℝ) (c x : TerraCell ℝ) : TerraCell ℝ :=
  { x with z := fmt c.z, norm := ⟨fmt c.norm.x, fmt c.norm.y, fmt c.norm.z⟩, var := fmt c.var, travs := c.travs }

private noncomputable def gridField (fmt : ℝ → ℝ) (c : TerraCell ℝ) (i j : ℕ) : KeyField ℝ :=
  ("grid", [.int i, .int j, .num (fmt c.z), .num (fmt c.norm.x), .num (fmt c.norm.y),
      .num (fmt c.norm.z), .num (fmt c.var), .int (if c.travs then 1 else 0)])

private theorem cellVals (fmt : ℝ → ℝ) (c x : TerraCell ℝ) :
    terraCellVals x [.num (fmt c.z), .num (fmt c.norm.x), .num (fmt c.norm.y), .num (fmt c.norm.z), .num (fmt c.var),
      .int (if c.travs then 1 else 0)] = .ok (over fmt c x) := by
  simp only [terraCellVals, dbl, int, over]
  cases c.travs <;> simp

private theorem idx_lt {xs ys i j : ℕ} (hi : i < xs) (hj : j < ys) : i * ys + j < xs * ys := by
  calc i * ys + j < i * ys + ys := by omega
    _ = (i + 1) * ys := by ring
    _ ≤ xs * ys := Nat.mul_le_mul_right _ hi

private theorem grid_step (fmt : ℝ → ℝ) (τ : ℝ) (t : Terra ℝ) (cnt : String → ℕ) (c : TerraCell ℝ) {i j : ℕ}
    (hl : t.cells.length = t.xsize * t.ysize) (hi : i < t.xsize) (hj : j < t.ysize) :
    evalField (terraPrp id τ) (t, cnt) (gridField fmt c i j) =
      .ok ({ t with cells := t.cells.modify (i * t.ysize + j) (over fmt c) }, Function.update cnt "grid" (cnt "grid" + 1)) := by
  have hv : t.valid i j := ⟨by omega, by exact_mod_cast hi, by omega, by exact_mod_cast hj⟩
  have hidx : t.index i j = ((i * t.ysize + j : ℕ) : ℤ) := by simp [Terra.index]
  have hlt : i * t.ysize + j < t.cells.length := by rw [hl]; exact idx_lt hi hj
  have hg : t.grid i j = some t.cells[i * t.ysize + j] := by
    rw [Terra.grid, if_pos hv, Terra.gridNC, hidx, if_neg (by omega), Int.toNat_natCast, List.getElem?_eq_getElem hlt]
  have e : terraGrid t (gridField fmt c i j).2 =
      .ok { t with cells := t.cells.modify (i * t.ysize + j) (over fmt c) } := by
    simp only [terraGrid, gridField, int, hg, cellVals, Terra.modify, if_pos hv, hidx, Int.toNat_natCast]
    congr 2
    apply List.ext_getElem?
    intro n
    rw [List.getElem?_modify, List.getElem?_modify]
    split_ifs with hn
    · subst hn; rw [List.getElem?_eq_getElem hlt]; rfl
    · rfl
  have e' := e
  simp only [gridField] at e'
  simp [evalField, terraPrp, List.find?, gridField, e']

private theorem grid_fold (fmt : ℝ → ℝ) (τ : ℝ) (src : Terra ℝ) (L : List (ℕ × ℕ)) :
    ∀ (t : Terra ℝ) (cnt : String → ℕ), t.cells.length = t.xsize * t.ysize → src.cells.length = t.xsize * t.ysize →
    t.ysize = src.ysize → (∀ p ∈ L, p.1 < t.xsize ∧ p.2 < t.ysize) →
    ∃ cells' cnt', (L.filterMap fun p => (src.gridNC p.1 p.2).map fun c => gridField fmt c p.1 p.2).foldlM
        (evalField (terraPrp id τ)) (t, cnt) = .ok ({ t with cells := cells' }, cnt') ∧
      ∀ n, cells'[n]? = if n ∈ L.map (fun p => p.1 * t.ysize + p.2) then
        (t.cells[n]?).bind fun x => (src.cells[n]?).map fun c => over fmt c x else t.cells[n]? := by
  induction L with
  | nil => intro t cnt _ _ _ _; exact ⟨t.cells, cnt, rfl, fun n => by simp⟩
  | cons p L ih =>
    intro t cnt h1 h2 h3 h4
    obtain ⟨hi, hj⟩ := h4 p (by simp)
    have hlt : p.1 * t.ysize + p.2 < src.cells.length := by rw [h2]; exact idx_lt hi hj
    have hidx : src.index p.1 p.2 = ((p.1 * t.ysize + p.2 : ℕ) : ℤ) := by simp [Terra.index, h3]
    have hg : src.gridNC p.1 p.2 = some src.cells[p.1 * t.ysize + p.2] := by
      rw [Terra.gridNC, hidx, if_neg (by omega), Int.toNat_natCast, List.getElem?_eq_getElem hlt]
    obtain ⟨cells', cnt', e, hc⟩ := ih { t with cells := t.cells.modify (p.1 * t.ysize + p.2) (over fmt src.cells[p.1 * t.ysize + p.2]) }
      (Function.update cnt "grid" (cnt "grid" + 1)) (by simpa using h1) h2 h3 (fun q hq => h4 q (by simp [hq]))
    refine ⟨cells', cnt', ?_, fun n => ?_⟩
    · rw [List.filterMap_cons, hg, Option.map_some]
      dsimp only
      rw [List.foldlM_cons, grid_step fmt τ t cnt _ h1 hi hj]
      exact e
    · rw [hc n]
      dsimp only
      rw [List.getElem?_modify]
      by_cases hn : p.1 * t.ysize + p.2 = n
      · subst hn
        have hlt' : p.1 * t.ysize + p.2 < t.cells.length := by rw [h1]; exact idx_lt hi hj
        simp only [if_true, List.map_cons, List.mem_cons, true_or, List.getElem?_eq_getElem hlt, List.getElem?_eq_getElem hlt',
          Option.map_some, Option.bind_some]
        split_ifs <;> simp [over]
      · simp only [if_neg hn, List.map_cons, List.mem_cons, Ne.symm hn, false_or]
        simp

private theorem range_pairs (fmt : ℝ → ℝ) (src : Terra ℝ) (n : ℕ) :
    ((List.range n).flatMap fun i : ℕ => (List.range src.ysize).filterMap fun j : ℕ =>
      (src.gridNC i j).map fun c => gridField fmt c i j) =
    ((List.range n).flatMap fun i => (List.range src.ysize).map fun j => (i, j)).filterMap fun p : ℕ × ℕ =>
      (src.gridNC p.1 p.2).map fun c => gridField fmt c p.1 p.2 := by
  rw [List.filterMap_flatMap]
  congr 1
  funext i
  rw [List.filterMap_map]
  rfl

private theorem evalKeys_ok {σ : Type*} {prps : List (Prp σ ℝ)} {o o' : σ} {fs : List (KeyField ℝ)}
    (h : evalKeys prps o fs = .ok o') : ∃ cnt, fs.foldlM (evalField prps) (o, fun _ => 0) = .ok (o', cnt) := by
  rw [evalKeys] at h
  split at h
  · rename_i s hs
    rw [Except.ok.injEq] at h
    exact ⟨s.2, by rw [hs, ← h]⟩
  · cases h

/-- The map that is read from what is written of `t`. -/
noncomputable def terraBack (fmt : ℝ → ℝ) (t : Terra ℝ) : Terra ℝ :=
  ⟨fmt t.xmin, fmt t.xmin + ((t.xsize : ℝ) - 1) * fmt t.dx, fmt t.ymin, fmt t.ymin + ((t.ysize : ℝ) - 1) * fmt t.dy,
   min (fmt t.zmin) (fmt t.zmax), max (fmt t.zmin) (fmt t.zmax), fmt t.dx, fmt t.dy, fmt t.thVar,
   Real.cos (fmt (Real.arccos t.thGrd * 180 / Real.pi) * Real.pi / 180), fmt t.thRes, t.xsize, t.ysize,
   t.cells.map (cellBack fmt)⟩

/-- A map whose grids are in place, with resolutions that survive decimal notation. -/
structure TerraWF (fmt : ℝ → ℝ) (τ : ℝ) (t : Terra ℝ) : Prop where
  hx : 0 < t.xsize
  hy : 0 < t.ysize
  len : t.cells.length = t.xsize * t.ysize
  dx : τ < |fmt t.dx|
  dy : τ < |fmt t.dy|

/-- **Terrain maps** (`zTerraFPrintZTK`, then `zTerraFromZTK`): a map with its grids in place, resolutions that
are not tiny and at least one grid comes back with the same size, every number up to decimal notation, every
grid in its place; the bounds `xmax`, `ymax` are those of the origin, resolution and size read, and the state of
the estimator of each cell is reset. -/
theorem C83_terra (fmt : ℝ → ℝ) (τ : ℝ) (t : Terra ℝ) (h : TerraWF fmt τ t) :
    terraFromZTK τ (terraPrint fmt τ t) = .ok (terraBack fmt t) := by
  obtain ⟨hx, hy, hl, hdx, hdy⟩ := h
  replace hdx : ¬ zIsTol (fmt t.dx) τ := by rw [tol_iff]; exact not_le.2 hdx
  replace hdy : ¬ zIsTol (fmt t.dy) τ := by rw [tol_iff]; exact not_le.2 hdy
  have hx' : ¬ ((t.xsize : ℤ) = 0 ∨ (t.ysize : ℤ) = 0) := by omega
  have hx'' : ¬ ((t.xsize : ℤ) < 0 ∨ (t.ysize : ℤ) < 0) := by omega
  have hd : ¬ (zIsTol (fmt t.dx) τ ∨ zIsTol (fmt t.dy) τ) := by tauto
  set t0 : Terra ℝ := ⟨fmt t.xmin, fmt t.xmin + ((t.xsize : ℝ) - 1) * fmt t.dx, fmt t.ymin,
       fmt t.ymin + ((t.ysize : ℝ) - 1) * fmt t.dy,
       min (fmt t.zmin) (fmt t.zmax), max (fmt t.zmin) (fmt t.zmax), fmt t.dx, fmt t.dy, fmt t.thVar,
       Real.cos (fmt (Real.arccos t.thGrd * 180 / Real.pi) * Real.pi / 180), fmt t.thRes, t.xsize, t.ysize,
       List.replicate (t.xsize * t.ysize) .init⟩ with ht0
  have head : evalKeys (terraPrp id τ) terraInit (printKeys (terraPrp fmt τ) t) = .ok t0 := by
    simp [evalKeys, printKeys, terraPrp, evalField, List.find?, store, two, dbl, num, int, terraResol, terraSize,
        terraAlloc, terraInit, hdx, hdy, hx'', hx.ne', hy.ne', ok_bind', Function.update, Terra.adjustMax, rad2Deg, deg2Rad, ht0]
  obtain ⟨cnt, hh⟩ := evalKeys_ok head
  have hgf : terraGridFields fmt t = ((List.range t.xsize).flatMap fun i => (List.range t.ysize).map fun j => (i, j)).filterMap
      fun p : ℕ × ℕ => (t.gridNC p.1 p.2).map fun c => gridField fmt c p.1 p.2 := by
    rw [← range_pairs]; rfl
  obtain ⟨cells', cnt', e, hc⟩ := grid_fold fmt τ t ((List.range t.xsize).flatMap fun i => (List.range t.ysize).map fun j => (i, j))
    t0 cnt (by simp [ht0]) hl rfl (by
      rintro ⟨i, j⟩ hp
      simp only [List.mem_flatMap, List.mem_map, List.mem_range, Prod.mk.injEq] at hp
      obtain ⟨a, ha, b, hb, rfl, rfl⟩ := hp
      exact ⟨ha, hb⟩)
  have hcells : cells' = t.cells.map (cellBack fmt) := by
    apply List.ext_getElem?
    intro n
    rw [hc n, List.getElem?_map]
    by_cases hn : n < t.xsize * t.ysize
    · rw [if_pos]
      · rw [ht0]
        dsimp only
        rw [List.getElem?_replicate, if_pos hn, Option.bind_some, List.getElem?_eq_getElem (by rw [hl]; exact hn)]
        rfl
      · simp only [List.mem_map, List.mem_flatMap, List.mem_range, Prod.exists, Prod.mk.injEq]
        refine ⟨n / t.ysize, n % t.ysize, ⟨n / t.ysize, ?_, n % t.ysize, Nat.mod_lt _ hy, rfl, rfl⟩, ?_⟩
        · exact Nat.div_lt_of_lt_mul (by rw [mul_comm]; exact hn)
        · rw [mul_comm]; exact Nat.div_add_mod n t.ysize
    · have h1 : t0.cells[n]? = none := by rw [List.getElem?_eq_none]; simp [ht0]; omega
      have h2 : t.cells[n]? = none := by rw [List.getElem?_eq_none]; omega
      rw [h1, h2]; simp
  rw [terraFromZTK, evalKeys, terraPrint, List.foldlM_append, hh]
  rw [ok_bind', hgf, e, hcells]
  rfl

private noncomputable def flat : Terra ℝ :=
  ⟨1, 2, 1, 3, -1, 1, 1, 2, 0, 1, 0, 2, 2, List.replicate 3 .init ++ [⟨5, ⟨0, 0, 1⟩, 1, true, ⟨1, 2, 3⟩, .ident, 4⟩]⟩

/-- A map of two by two grids meets the hypotheses. -/
example : TerraWF id (1 / 2) flat := ⟨by norm_num [flat], by norm_num [flat], by simp [flat], by norm_num [flat], by norm_num [flat]⟩

/-- **Exact notation**: if numbers are written exactly, a consistent map (upper bounds those of the origin,
resolution and size; `zmin ≤ zmax`; a cosine as gradient threshold) comes back unchanged in everything but the
estimators of its cells. -/
theorem C83_terra_exact (τ : ℝ) (t : Terra ℝ) (h : TerraWF id τ t) (hx : t.xmax = t.xmin + ((t.xsize : ℝ) - 1) * t.dx)
    (hy : t.ymax = t.ymin + ((t.ysize : ℝ) - 1) * t.dy) (hz : t.zmin ≤ t.zmax) (h1 : -1 ≤ t.thGrd) (h2 : t.thGrd ≤ 1) :
    terraFromZTK τ (terraPrint id τ t) =
      .ok { t with cells := t.cells.map fun c => { c with prm := ⟨0, 0, 0⟩, s := .ident, np := 0 } } := by
  rw [C83_terra id τ t h]
  have e : Real.arccos t.thGrd * 180 / Real.pi * Real.pi / 180 = Real.arccos t.thGrd := by
    have := Real.pi_ne_zero; field_simp
  simp only [terraBack, id, min_eq_left hz, max_eq_right hz, ← hx, ← hy, e, Real.cos_arccos h1 h2]
  rfl

example : flat.xmax = flat.xmin + ((flat.xsize : ℝ) - 1) * flat.dx ∧ flat.ymax = flat.ymin + ((flat.ysize : ℝ) - 1) * flat.dy ∧
    flat.zmin ≤ flat.zmax ∧ -1 ≤ flat.thGrd ∧ flat.thGrd ≤ 1 := by norm_num [flat]

/-- **The estimators are lost**: two maps that differ only in the number of points identified and the estimated
plane of a cell are written in the same way; so identification cannot be continued from a file. -/
theorem C83_estimator_lost (fmt : ℝ → ℝ) (τ : ℝ) :
    ∃ t t' : Terra ℝ, t.cells.map (·.np) ≠ t'.cells.map (·.np) ∧ t.cells.map (·.prm) ≠ t'.cells.map (·.prm) ∧
      terraPrint fmt τ t = terraPrint fmt τ t' := by
  refine ⟨{ flat with xsize := 1, ysize := 1, cells := [⟨0, ⟨0, 0, 1⟩, 0, true, ⟨0, 0, 0⟩, .ident, 0⟩] },
    { flat with xsize := 1, ysize := 1, cells := [⟨0, ⟨0, 0, 1⟩, 0, true, ⟨1, 2, 3⟩, .ident, 7⟩] }, by simp, by simp, ?_⟩
  simp [terraPrint, terraGridFields, printKeys, terraPrp, Terra.gridNC, Terra.index, List.range_succ]

/-! ## Everything that is read -/

private def Inv (τ : ℝ) (t : Terra ℝ) : Prop :=
  t.cells.length = t.xsize * t.ysize ∧ t.zmin ≤ t.zmax ∧ |t.thGrd| ≤ 1 ∧
    ((t.dx = 0 ∧ t.dy = 0) ∨ (τ < |t.dx| ∧ τ < |t.dy|)) ∧ (t.cells ≠ [] → 0 < t.xsize ∧ 0 < t.ysize)

private theorem inv_field (τ : ℝ) (s s' : Terra ℝ × (String → ℕ)) (f : KeyField ℝ) (hs : Inv τ s.1)
    (e : evalField (terraPrp id τ) s f = .ok s') : Inv τ s'.1 := by
  obtain ⟨h1, h2, h3, h4, h5⟩ := hs
  rw [evalField] at e
  split at e
  · cases e; exact ⟨h1, h2, h3, h4, h5⟩
  · rename_i p hp
    have hm := List.mem_of_find?_eq_some hp
    split_ifs at e with hc
    · cases e; exact ⟨h1, h2, h3, h4, h5⟩
    · split at e
      · rename_i o ho
        cases e
        dsimp only
        simp only [terraPrp, List.mem_cons, List.not_mem_nil, or_false] at hm
        rcases hm with rfl | rfl | rfl | rfl | rfl | rfl | rfl | rfl <;> dsimp only at ho
        · rw [store] at ho; split at ho <;> cases ho; exact ⟨h1, h2, h3, h4, h5⟩
        · rw [terraResol] at ho
          split at ho
          · cases ho
          · split_ifs at ho with ht
            cases ho
            simp only [tol_iff, not_or, not_le] at ht
            exact ⟨h1, h2, h3, Or.inr ht, h5⟩
        · rw [terraSize] at ho
          split at ho
          · cases ho
          · split at ho
            · cases ho
            · rename_i xs vs _ ys _ _
              rw [terraAlloc] at ho
              split_ifs at ho with a b
              dsimp only at ho
              cases ho
              refine ⟨by simp [Terra.adjustMax], h2, h3, h4, fun _ => ?_⟩
              simp only [Terra.adjustMax]
              omega
        · rw [store] at ho; split at ho <;> cases ho
          exact ⟨h1, min_le_max, h3, h4, h5⟩
        · rw [store] at ho; split at ho <;> cases ho; exact ⟨h1, h2, h3, h4, h5⟩
        · rw [store] at ho; split at ho <;> cases ho
          exact ⟨h1, h2, Real.abs_cos_le_one _, h4, h5⟩
        · rw [store] at ho; split at ho <;> cases ho; exact ⟨h1, h2, h3, h4, h5⟩
        · rw [terraGrid] at ho
          split at ho
          · cases ho
          · split at ho
            · cases ho
            · split at ho
              · cases ho
              · split at ho
                · cases ho
                · cases ho
                  rw [Terra.modify]
                  split_ifs
                  · refine ⟨by simpa using h1, h2, h3, h4, fun hne => h5 fun he => hne ?_⟩
                    dsimp only
                    rw [he]; simp
                  · exact ⟨h1, h2, h3, h4, h5⟩
      · cases e

private theorem inv_fold (τ : ℝ) (fs : List (KeyField ℝ)) : ∀ s s' : Terra ℝ × (String → ℕ), Inv τ s.1 →
    fs.foldlM (evalField (terraPrp id τ)) s = .ok s' → Inv τ s'.1 := by
  induction fs with
  | nil => intro s s' h e; cases e; exact h
  | cons f fs ih =>
    intro s s' h e
    rw [List.foldlM_cons] at e
    cases hf : evalField (terraPrp id τ) s f with
    | error x => rw [hf] at e; cases e
    | ok s1 => rw [hf, ok_bind'] at e; exact ih s1 s' (inv_field τ s s1 f h hf) e

/-- **Whatever is read is sound**: for every file, a map that is returned has exactly `xsize * ysize` cells (so no
access to a valid grid leaves the buffer), `zmin ≤ zmax`, a gradient threshold that is a cosine, and resolutions
that are both absent or both not tiny. -/
theorem C83_read (τ : ℝ) (fs : List (KeyField ℝ)) (t : Terra ℝ) (h : terraFromZTK τ fs = .ok t) :
    t.cells.length = t.xsize * t.ysize ∧ t.zmin ≤ t.zmax ∧ |t.thGrd| ≤ 1 ∧
      ((t.dx = 0 ∧ t.dy = 0) ∨ (τ < |t.dx| ∧ τ < |t.dy|)) ∧ ∀ i j : ℤ, t.valid i j → ∃ c, t.gridNC i j = some c := by
  obtain ⟨cnt, e⟩ := evalKeys_ok h
  have hi : Inv τ (terraInit : Terra ℝ) := by simp [Inv, terraInit]
  obtain ⟨h1, h2, h3, h4, -⟩ := inv_fold τ fs _ _ hi e
  refine ⟨h1, h2, h3, h4, fun i j hv => ?_⟩
  obtain ⟨a, b, c, d⟩ := hv
  lift i to ℕ using a
  lift j to ℕ using c
  have hlt : i * t.ysize + j < t.cells.length := by
    rw [h1]; exact idx_lt (by exact_mod_cast b) (by exact_mod_cast d)
  have hidx : t.index i j = ((i * t.ysize + j : ℕ) : ℤ) := by simp [Terra.index]
  exact ⟨_, by rw [Terra.gridNC, hidx, if_neg (by omega), Int.toNat_natCast, List.getElem?_eq_getElem hlt]⟩

example : ∃ t, terraFromZTK (1 / 2) (terraPrint id (1 / 2) flat) = .ok t :=
  ⟨_, C83_terra id (1 / 2) flat ⟨by norm_num [flat], by norm_num [flat], by simp [flat], by norm_num [flat], by norm_num [flat]⟩⟩

/-- **The order of the keys matters**: with the size before the origin and the resolution, the upper bounds are
those of a map at the origin with no extent: here `xmax < xmin`. -/
theorem C83_order_false : ∃ t : Terra ℝ, terraFromZTK (1 / 2)
      [("size", [.int 2, .int 2]), ("origin", [.num 1, .num 1]), ("resolution", [.num 1, .num 1])] = .ok t ∧
    t.xmin = 1 ∧ t.dx = 1 ∧ t.xsize = 2 ∧ t.xmax = 0 ∧ t.xmax < t.xmin := by
  have hd : ¬ zIsTol (1 : ℝ) (1 / 2) := by rw [tol_iff]; norm_num
  refine ⟨⟨1, 0, 1, 0, 0, 0, 1, 1, 0, 1, 0, 2, 2, List.replicate 4 .init⟩, ?_, rfl, rfl, rfl, rfl, by norm_num⟩
  simp only [one_div] at hd
  simp [terraFromZTK, evalKeys, terraPrp, evalField, List.find?, store, two, dbl, num, int, terraResol, terraSize,
        terraAlloc, terraInit, hd, ok_bind', Function.update, Terra.adjustMax]

/-- **Grids need the size first**: a file that begins with a grid is not read, whatever follows. -/
theorem C83_grid_first (τ : ℝ) (i j : ℤ) (vs : List (Tok ℝ)) (fs : List (KeyField ℝ)) :
    terraFromZTK τ (("grid", .int i :: .int j :: vs) :: fs) = .error .null := by
  have hv : ¬ (terraInit : Terra ℝ).valid i j := by
    simp only [Terra.valid, terraInit]; push_cast; omega
  have e : evalField (terraPrp id τ) (terraInit, fun _ => 0) ("grid", .int i :: .int j :: vs) = .error .null := by
    simp [evalField, terraPrp, List.find?, terraGrid, int, Terra.grid, hv]
  rw [terraFromZTK, evalKeys, List.foldlM_cons, e]
  rfl

/-! ## Maps and nets -/

private theorem terra_keys (fmt : ℝ → ℝ) (τ : ℝ) (t : Terra ℝ) :
    ∀ f ∈ terraPrint fmt τ t, f.1 ∈ (terraPrp id τ).map (·.key) := by
  intro f hf
  rw [terraPrint, List.mem_append] at hf
  rcases hf with hf | hf
  · simp only [printKeys, terraPrp, List.flatMap_cons, List.flatMap_nil] at hf
    simp [List.range_succ] at hf
    simp only [terraPrp, List.map_cons, List.map_nil, List.mem_cons]
    rcases hf with rfl | rfl | rfl | rfl | rfl | rfl | rfl <;> simp
  · simp only [terraGridFields, List.mem_flatMap, List.mem_filterMap, Option.map_eq_some_iff] at hf
    obtain ⟨i, -, j, -, c, -, rfl⟩ := hf
    simp [terraPrp]

private theorem map_head (name : Option String) :
    printKeys mapPrp ⟨name, true⟩ = [("name", [.word (name.getD "")]), ("type", [.word "terra"])] := by
  simp [printKeys, mapPrp, List.range_succ]

/-- **Maps** (`zMapFPrintZTK`, then `zMapFromZTK`): a map with a name comes back with its name and its terrain. -/
theorem C83_map (fmt : ℝ → ℝ) (τ : ℝ) (n : String) (t : Terra ℝ) (h : TerraWF fmt τ t) :
    mapFromZTK τ (mapPrint fmt τ ⟨some n, t⟩) = .ok ⟨some n, terraBack fmt t⟩ := by
  have e1 : evalKeys mapPrp ⟨none, false⟩ (mapPrint fmt τ ⟨some n, t⟩) =
      evalKeys mapPrp ⟨none, false⟩ [("name", [.word n]), ("type", [.word "terra"])] := by
    apply C53_foreign_keys
    rw [mapPrint, map_head, List.filter_append, List.filter_eq_nil_iff (l := terraPrint fmt τ t) |>.2, List.append_nil]
    · rfl
    · intro f hf
      have := terra_keys fmt τ t f hf
      simp only [terraPrp, List.map_cons, List.map_nil, List.mem_cons, List.not_mem_nil, or_false] at this
      rcases this with h | h | h | h | h | h | h | h <;> simp [mapPrp, h]
  have e2 : terraFromZTK τ (mapPrint fmt τ ⟨some n, t⟩) = terraFromZTK τ (terraPrint fmt τ t) := by
    apply C53_foreign_keys
    rw [mapPrint, map_head, List.filter_append, List.filter_eq_nil_iff.2, List.nil_append]
    intro f hf
    simp only [List.mem_cons, List.not_mem_nil, or_false] at hf
    rcases hf with rfl | rfl <;> simp [terraPrp]
  have e3 : evalKeys mapPrp ⟨none, false⟩ [("name", [.word n]), ("type", [.word "terra"])] = .ok ⟨some n, true⟩ := by
    simp [evalKeys, mapPrp, evalField, List.find?, store, word, ok_bind', Function.update]
  rw [mapFromZTK, e1, e3, e2, C83_terra fmt τ t h]
  rfl

/-- **Nets of maps** (`zMapNetFPrintZTK`, then `zMapNetFromZTK`): all the maps come back, in order, wherever
other sections stand in the file. -/
theorem C83_net (fmt : ℝ → ℝ) (τ : ℝ) (ms : List (String × Terra ℝ)) (hne : ms ≠ []) (h : ∀ m ∈ ms, TerraWF fmt τ m.2)
    (file : List (String × List (KeyField ℝ)))
    (hf : file.filter (fun s => s.1 = "zeo::map") = netPrint fmt τ (ms.map fun m => ⟨some m.1, m.2⟩)) :
    netFromZTK τ file = .ok (ms.map fun m => some ⟨some m.1, terraBack fmt m.2⟩) := by
  rw [netFromZTK, hf, if_neg (by simpa [netPrint] using hne)]
  clear hf hne
  induction ms with
  | nil => rfl
  | cons m ms ih =>
    have := ih fun x hx => h x (by simp [hx])
    simp only [netPrint, List.map_cons, netMaps, C83_map fmt τ m.1 m.2 (h m (by simp))] at this ⊢
    rw [this]

example : ([("zeo::other", []), ("zeo::map", mapPrint id (1 / 2) ⟨some "a", flat⟩)] : List (String × List (KeyField ℝ))).filter
    (fun s => s.1 = "zeo::map") = netPrint id (1 / 2) ([("a", flat)].map fun m => ⟨some m.1, m.2⟩) := by
  simp [netPrint]

/-- **No map**: a file without a section `zeo::map` gives no net. -/
theorem C83_net_none (τ : ℝ) (file : List (String × List (KeyField ℝ))) (h : ∀ s ∈ file, s.1 ≠ "zeo::map") :
    netFromZTK τ file = .error .null := by
  rw [netFromZTK, if_pos]
  rw [List.filter_eq_nil_iff.2 (by simpa using h)]; rfl

example : ∀ s ∈ ([("zeo::shape", [])] : List (String × List (KeyField ℝ))), s.1 ≠ "zeo::map" := by simp

/-- **A failure is not reported**: if a map cannot be read, `zMapNetFromZTK` still returns the net; the maps
before it are there, that map and all the maps behind it, however well formed, are not. -/
theorem C83_net_failure (fmt : ℝ → ℝ) (τ : ℝ) (ms : List (String × Terra ℝ)) (h : ∀ m ∈ ms, TerraWF fmt τ m.2)
    (bad : List (KeyField ℝ)) (hb : mapFromZTK τ bad = .error .null) (rest : List Map) :
    netFromZTK τ (netPrint fmt τ (ms.map fun m => ⟨some m.1, m.2⟩) ++ ("zeo::map", bad) :: netPrint fmt τ rest) =
      .ok ((ms.map fun m => some ⟨some m.1, terraBack fmt m.2⟩) ++ none :: rest.map fun _ => none) := by
  have hfil : ∀ l : List Map, (netPrint fmt τ l).filter (fun s => s.1 = "zeo::map") = netPrint fmt τ l := by
    intro l
    rw [List.filter_eq_self]
    intro s hs
    simp only [netPrint, List.mem_map] at hs
    obtain ⟨m, -, rfl⟩ := hs
    simp
  rw [netFromZTK, List.filter_append, List.filter_cons_of_pos (by simp), hfil, hfil, if_neg (by simp)]
  induction ms with
  | nil => simp [netMaps, hb, netPrint, List.map_const', Function.comp_def]
  | cons m ms ih =>
    have := ih fun x hx => h x (by simp [hx])
    simp only [netPrint, List.map_cons, List.map_append, List.cons_append, netMaps, C83_map fmt τ m.1 m.2 (h m (by simp))] at this ⊢
    rw [this]

/-- A section without a type is such a map. -/
example (τ : ℝ) : mapFromZTK τ [("name", [.word "a"])] = .error .null := by
  simp [mapFromZTK, evalKeys, mapPrp, evalField, List.find?, store, word, ok_bind']

end Zeo
