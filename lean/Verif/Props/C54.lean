import Verif.Props.C45
import Verif.Lemmas.Norm
import Mathlib.Tactic.Positivity

/-! # C54: identification of a whole terrain map -/

namespace Zeo
namespace Terra
section
variable {K : Type*} [Field K] [LinearOrder K] [IsStrictOrderedRing K]

/-- The point is in one of the (up to four) mesh squares that have the grid point (i,j) as a corner. -/
def Near (t : Terra K) (i j : ℤ) (p : Vec3 K) : Prop :=
  t.gx (i - 1) ≤ p.x ∧ p.x < t.gx (i + 1) ∧ t.gy (j - 1) ≤ p.y ∧ p.y < t.gy (j + 1)
instance (t : Terra K) (i j : ℤ) (p : Vec3 K) : Decidable (t.Near i j p) := by unfold Near; infer_instance

theorem mesh_iff {o d a : K} (hd : 0 < d) {i i' : ℤ} (h1 : o + (i : K) * d ≤ a) (h2 : a < o + ((i + 1 : ℤ) : K) * d) :
    (i' = i ∨ i' = i + 1) ↔ (o + ((i' - 1 : ℤ) : K) * d ≤ a ∧ a < o + ((i' + 1 : ℤ) : K) * d) := by
  have mono : ∀ m n : ℤ, o + (m : K) * d < o + (n : K) * d ↔ m < n := by
    intro m n
    rw [add_lt_add_iff_left, mul_lt_mul_iff_of_pos_right hd, Int.cast_lt]
  constructor
  · rintro (rfl | rfl)
    · exact ⟨(((mono _ _).2 (by omega)).le).trans h1, h2⟩
    · refine ⟨by simpa using h1, h2.trans ((mono _ _).2 (by omega))⟩
  · rintro ⟨a1, a2⟩
    have c1 := (mono _ _).1 (a1.trans_lt h2)
    have c2 := (mono _ _).1 (h1.trans_lt a2)
    omega

theorem mapCells_frame (t : Terra K) (f : ℤ → ℤ → TerraCell K → TerraCell K) :
    t.mapCells f = { t with cells := (t.mapCells f).cells } := rfl

theorem WF.mapCells {t : Terra K} (hw : t.WF) (f : ℤ → ℤ → TerraCell K → TerraCell K) : (t.mapCells f).WF := by
  simpa [WF, Terra.mapCells] using hw

theorem grid_mapCells (t : Terra K) (f : ℤ → ℤ → TerraCell K → TerraCell K) (i j : ℤ) :
    (t.mapCells f).grid i j = (t.grid i j).map (f i j) := by
  by_cases hv : t.valid i j
  · have hv' : (t.mapCells f).valid i j := hv
    obtain ⟨h1, h2, h3, h4⟩ := hv
    unfold grid
    rw [if_pos hv', if_pos (show t.valid i j from ⟨h1, h2, h3, h4⟩)]
    unfold gridNC
    have ei : (t.mapCells f).index i j = t.index i j := rfl
    have hn : ¬ t.index i j < 0 := by
      rw [not_lt]; unfold index; positivity
    rw [ei, if_neg hn, if_neg hn]
    simp only [Terra.mapCells, List.getElem?_mapIdx]
    obtain ⟨m, rfl⟩ := Int.eq_ofNat_of_zero_le h1
    obtain ⟨n, rfl⟩ := Int.eq_ofNat_of_zero_le h3
    have hny : n < t.ysize := by exact_mod_cast h4
    have e : (t.index m n).toNat = m * t.ysize + n := by
      unfold index; rw [← Nat.cast_mul, ← Nat.cast_add, Int.toNat_natCast]
    rw [e]
    have d1 : (m * t.ysize + n) / t.ysize = m := by
      rw [Nat.add_comm, Nat.add_mul_div_right _ _ (by omega), Nat.div_eq_of_lt hny, Nat.zero_add]
    have d2 : (m * t.ysize + n) % t.ysize = n := by
      rw [Nat.add_comm, Nat.add_mul_mod_self_right, Nat.mod_eq_of_lt hny]
    rw [d1, d2]
  · have hv' : ¬ (t.mapCells f).valid i j := hv
    unfold grid
    rw [if_neg hv, if_neg hv']; rfl

theorem foldl_frame [FloorRing K] (junk : Vec3 K) (ps : List (Vec3 K)) (t : Terra K) (hw : t.WF) :
    (ps.foldl (update junk) t).WF ∧ ∃ cs, ps.foldl (update junk) t = { t with cells := cs } := by
  induction ps generalizing t with
  | nil => exact ⟨hw, t.cells, rfl⟩
  | cons p ps ih =>
    obtain ⟨cs, h⟩ := (C44_geometry junk t p).1
    obtain ⟨a, cs', b⟩ := ih (t.update junk p) ((C44_geometry junk t p).2 hw)
    refine ⟨a, cs', ?_⟩
    rw [List.foldl_cons, b, h]

/-- Every cell of a map that has been given points within the height range holds the recursive estimate from
exactly the points near it, in order. -/
theorem cells_of_points [FloorRing K] (junk : Vec3 K) (t : Terra K) (hw : t.WF) (hdx : 0 < t.dx) (hdy : 0 < t.dy)
    (ps : List (Vec3 K)) (hz : ∀ p ∈ ps, t.zmin ≤ p.z ∧ p.z ≤ t.zmax) (i j : ℤ) :
    (ps.foldl (update junk) t).grid i j =
      (t.grid i j).map (fun c => (ps.filter (fun p => t.Near i j p)).foldl (TerraCell.update junk) c) := by
  induction ps generalizing t with
  | nil => simp
  | cons p ps ih =>
    rw [List.foldl_cons]
    obtain ⟨cs, h⟩ := (C44_geometry junk t p).1
    have hw' := (C44_geometry junk t p).2 hw
    have hN : ∀ q, (t.update junk p).Near i j q ↔ t.Near i j q := by intro q; rw [h]; rfl
    rw [ih (t.update junk p) hw' (by rw [h]; exact hdx) (by rw [h]; exact hdy)
      (by intro q hq; rw [h]; exact hz q (List.mem_cons_of_mem _ hq))]
    simp only [hN]
    obtain ⟨a, b, x1, x2, y1, y2, hg⟩ := C44_in_range junk t hw hdx hdy p (hz p (by simp))
    rw [hg i j]
    have hnear : ((i = a ∨ i = a + 1) ∧ (j = b ∨ j = b + 1)) ↔ t.Near i j p := by
      rw [mesh_iff hdx x1 x2, mesh_iff hdy y1 y2]
      unfold Near gx gy
      tauto
    by_cases hn : t.Near i j p
    · rw [if_pos (hnear.2 hn), List.filter_cons_of_pos (by simpa using hn), Option.map_map]
      rfl
    · rw [if_neg (mt hnear.1 hn), List.filter_cons_of_neg (by simpa using hn)]

end
end Terra

open Terra TerraCell
variable {K : Type*} [Field K] [LinearOrder K] [IsStrictOrderedRing K] [FloorRing K]

/-- On a new map, after any sequence of points within the height range, the plane parameters of every cell
are the unique minimiser of the regularised squared residuals of exactly the points in the mesh squares
adjacent to its grid point, and the cell counts these points. -/
theorem C54_map_identification (junk : Vec3 K) (t : Terra K) (hw : t.WF) (hdx : 0 < t.dx) (hdy : 0 < t.dy)
    (hnew : ∀ i j, t.valid i j → t.grid i j = some .init)
    (ps : List (Vec3 K)) (hz : ∀ p ∈ ps, t.zmin ≤ p.z ∧ p.z ≤ t.zmax) (i j : ℤ) (hv : t.valid i j) :
    ∃ c, (ps.foldl (Terra.update junk) t).grid i j = some c ∧
      c.np = (ps.filter (fun p => t.Near i j p)).length ∧ 0 ≤ c.var ∧
      ∀ a b d, ¬ (a = c.prm.x ∧ b = c.prm.y ∧ d = c.prm.z) →
        Spec.planeCost (ps.filter (fun p => t.Near i j p)) c.prm.x c.prm.y c.prm.z <
          Spec.planeCost (ps.filter (fun p => t.Near i j p)) a b d := by
  refine ⟨feed junk (ps.filter (fun p => t.Near i j p)), ?_, (C43_variance junk _).1, ?_, ?_⟩
  · rw [cells_of_points junk t hw hdx hdy ps hz, hnew i j hv]; rfl
  · generalize ps.filter (fun p => t.Near i j p) = qs
    by_cases hq : qs = []
    · rw [(C43_variance junk qs).2.1 hq]; exact zero_le_one
    · rw [(C43_variance junk qs).2.2 hq]
      apply div_nonneg
      · exact Finset.sum_nonneg (fun k _ => sq_nonneg _)
      · positivity
  · exact fun a b d h => C43_minimiser junk _ a b d h

/-- The hypotheses hold of every map made by `zTerraAllocRegion` (see `C44_allocRegion`); e.g. this one. -/
example : ∃ t, allocRegion (1/1000 : ℚ) 0 3 0 2 (-1) 1 1 (1/2) 0 0 0 = some t ∧ t.WF ∧
    ∀ i j, t.valid i j → t.grid i j = some .init := by
  obtain ⟨t, h1, h2, _, _, _, _, _, _, _, _, h⟩ := C44_allocRegion (1/1000 : ℚ) 0 3 0 2 (-1) 1 1 (1/2) 0 0 0
    (by norm_num) (by norm_num) (by norm_num) (by norm_num) (by norm_num)
  exact ⟨t, h1, h2, h⟩

/-- `zTerraIdent` feeds the points like `zTerraUpdate` as long as all of them are within the height range. -/
theorem C54_ident_loop (junk : Vec3 K) (t : Terra K) (ps : List (Vec3 K))
    (hz : ∀ p ∈ ps, t.zmin ≤ p.z ∧ p.z ≤ t.zmax) : t.identLoop junk ps = ps.foldl (Terra.update junk) t := by
  unfold identLoop
  suffices h : ∀ ij : ℤ × ℤ, (ps.foldl (fun s p => s.1.updateFrom junk s.2 p) (t, ij)).1 =
      ps.foldl (Terra.update junk) t from h _
  induction ps generalizing t with
  | nil => intro ij; rfl
  | cons p ps ih =>
    intro ij
    have hp := hz p (by simp)
    have hz' : ¬ (p.z < t.zmin ∨ p.z > t.zmax) := by
      rintro (h | h)
      · exact not_lt.2 hp.1 h
      · exact not_lt.2 hp.2 h
    have hb : ∀ ij, t.updateFrom junk ij p = t.updateFrom junk (0, 0) p := by
      intro ij; unfold updateFrom baseIndex; simp only [if_neg hz']
    rw [List.foldl_cons, List.foldl_cons]
    dsimp only
    rw [hb ij]
    obtain ⟨cs, h⟩ := (C44_geometry junk t p).1
    exact ih (t.update junk p) (by intro q hq; rw [h]; exact hz q (List.mem_cons_of_mem _ hq)) _

/-- `zTerraForm`: every cell's elevation is its estimate at its own grid point; its normal is a unit vector,
orthogonal to the estimated plane, pointing upwards. The rest is unchanged. -/
theorem C54_form (τ : ℝ) (hτ : 0 ≤ τ) (hτ1 : τ < 1) (t : Terra ℝ) (i j : ℤ) (c : TerraCell ℝ) (h : t.grid i j = some c) :
    ∃ c', (t.form τ).grid i j = some c' ∧ c'.z = c.prm.x * t.gx i + c.prm.y * t.gy j + c.prm.z ∧
      c'.norm.x^2 + c'.norm.y^2 + c'.norm.z^2 = 1 ∧ 0 < c'.norm.z ∧
      c'.norm.x + c.prm.x * c'.norm.z = 0 ∧ c'.norm.y + c.prm.y * c'.norm.z = 0 ∧
      c'.prm = c.prm ∧ c'.s = c.s ∧ c'.np = c.np ∧ c'.var = c.var ∧ c'.travs = c.travs := by
  refine ⟨c.form τ (t.gx i) (t.gy j), ?_, rfl, ?_⟩
  · unfold Terra.form
    rw [grid_mapCells, h]; rfl
  · have hn : ¬ Vec3.isTol (⟨-c.prm.x, -c.prm.y, 1⟩ : Vec3 ℝ) τ := by
      rintro ⟨_, _, h3⟩
      have : |(1 : ℝ)| ≤ τ := h3
      rw [abs_one] at this
      linarith
    have hp := Vec3.norm_pos_of_not_isTol hτ hn
    have hsq := Vec3.norm_sq (⟨-c.prm.x, -c.prm.y, 1⟩ : Vec3 ℝ)
    have e : (c.form τ (t.gx i) (t.gy j)).norm = Vec3.mul ⟨-c.prm.x, -c.prm.y, 1⟩ (1 / Vec3.norm ⟨-c.prm.x, -c.prm.y, 1⟩) := by
      unfold TerraCell.form Vec3.normalize
      dsimp only
      rw [if_neg hn]; rfl
    rw [e]
    revert hp hsq
    generalize Vec3.norm (⟨-c.prm.x, -c.prm.y, 1⟩ : Vec3 ℝ) = r
    intro hp hsq
    simp only [Vec3.sqrNorm, Vec3.inner] at hsq
    simp only [Vec3.mul]
    refine ⟨?_, by positivity, by ring, by ring, rfl, rfl, rfl, rfl, rfl⟩
    have := hp.ne'
    field_simp
    linarith

/-- `zTerraCheckTravs` marks a cell traversable exactly if its variance and its slope are within the
thresholds and the planes of all neighbours (up to eight, those in the grid) predict the elevation at its grid
point within the residual threshold. The rest is unchanged. -/
theorem C54_travs (t : Terra K) (i j : ℤ) (c : TerraCell K) (h : t.grid i j = some c) :
    ∃ c', t.checkTravs.grid i j = some c' ∧
      (c'.travs = true ↔ c.var ≤ t.thVar ∧ t.thGrd ≤ c.norm.z ∧
        ∀ a b : ℤ, |a| ≤ 1 → |b| ≤ 1 → ¬ (a = 0 ∧ b = 0) → ∀ n, t.grid (i + a) (j + b) = some n →
          |n.prm.x * t.gx i + n.prm.y * t.gy j + n.prm.z - c.z| ≤ t.thRes) ∧
      c' = { c with travs := c'.travs } := by
  refine ⟨{ c with travs := t.checkGridTravs i j c }, ?_, ?_, rfl⟩
  · unfold Terra.checkTravs
    rw [grid_mapCells, h]; rfl
  · have hr : ∀ i' j' p, t.travsRes i' j' p = true ↔ ∀ n, t.grid i' j' = some n → |n.residual p| ≤ t.thRes := by
      intro i' j' p
      unfold travsRes
      rcases t.grid i' j' with _ | n
      · simp
      · simp
    have hin : c.norm.inner .ez = c.norm.z := by simp [Vec3.inner, Vec3.ez]
    have hres : ∀ n : TerraCell K, n.residual ⟨t.gx i, t.gy j, c.z⟩ =
        n.prm.x * t.gx i + n.prm.y * t.gy j + n.prm.z - c.z := fun n => rfl
    have key : (∀ a b : ℤ, |a| ≤ 1 → |b| ≤ 1 → ¬ (a = 0 ∧ b = 0) → ∀ n, t.grid (i + a) (j + b) = some n →
          |n.prm.x * t.gx i + n.prm.y * t.gy j + n.prm.z - c.z| ≤ t.thRes) ↔
        ∀ ab ∈ [((-1 : ℤ), (-1 : ℤ)), (-1, 0), (-1, 1), (0, -1), (0, 1), (1, -1), (1, 0), (1, 1)],
          ∀ n, t.grid (i + ab.1) (j + ab.2) = some n →
          |n.prm.x * t.gx i + n.prm.y * t.gy j + n.prm.z - c.z| ≤ t.thRes := by
      constructor
      · intro hh ab hab
        apply hh ab.1 ab.2
        · revert ab; decide
        · revert ab; decide
        · revert ab; decide
      · intro hh a b ha hb hab
        refine hh (a, b) ?_
        have ha' := abs_le.1 ha
        have hb' := abs_le.1 hb
        have ca : a = -1 ∨ a = 0 ∨ a = 1 := by omega
        have cb : b = -1 ∨ b = 0 ∨ b = 1 := by omega
        rcases ca with rfl | rfl | rfl <;> rcases cb with rfl | rfl | rfl <;> simp at hab ⊢
    rw [key]
    simp only [checkGridTravs, hin]
    simp only [List.forall_mem_cons, List.not_mem_nil, false_implies, implies_true, and_true, ← sub_eq_add_neg,
      add_zero]
    by_cases h1 : c.var > t.thVar
    · simp [h1, not_le.2 h1]
    · by_cases h2 : c.norm.z < t.thGrd
      · simp [h1, h2, not_le.2 h2]
      · simp only [h1, h2, if_false, not_lt.1 h1, not_lt.1 h2, true_and, Bool.and_eq_true, hr, hres]
        tauto

/-- `zTerraZRange`: on a non-empty map the range is attained and encloses all elevations. -/
theorem C54_zRange (t : Terra K) :
    (t.cells = [] → t.zRange = none) ∧
    (t.cells ≠ [] → ∃ lo hi, t.zRange = some (lo, hi) ∧ (∃ c ∈ t.cells, c.z = lo) ∧ (∃ c ∈ t.cells, c.z = hi) ∧
      ∀ c ∈ t.cells, lo ≤ c.z ∧ c.z ≤ hi) := by
  unfold zRange
  generalize t.cells = cs
  refine ⟨by rintro rfl; rfl, ?_⟩
  induction cs using List.reverseRecOn with
  | nil => intro h; exact absurd rfl h
  | append_singleton cs c ih =>
    intro _
    rw [List.foldl_append]
    rcases eq_or_ne cs [] with rfl | hne
    · exact ⟨c.z, c.z, rfl, ⟨c, by simp, rfl⟩, ⟨c, by simp, rfl⟩, by simp⟩
    · obtain ⟨lo, hi, h1, ⟨a, ha, ha'⟩, ⟨b, hb, hb'⟩, h4⟩ := ih hne
      rw [h1]
      refine ⟨_, _, rfl, ?_, ?_, ?_⟩
      · split_ifs
        · exact ⟨c, by simp, rfl⟩
        · exact ⟨a, by simp [ha], ha'⟩
      · split_ifs
        · exact ⟨c, by simp, rfl⟩
        · exact ⟨b, by simp [hb], hb'⟩
      · intro d hd
        rcases List.mem_append.1 hd with hd | hd
        · obtain ⟨u, v⟩ := h4 d hd
          constructor
          · split_ifs with hh
            · exact hh.le.trans u
            · exact u
          · split_ifs with hh
            · exact v.trans (le_of_lt hh)
            · exact v
        · rw [List.mem_singleton] at hd
          subst hd
          constructor
          · split_ifs with hh
            · exact le_rfl
            · exact not_lt.1 hh
          · split_ifs with hh
            · exact le_rfl
            · exact not_lt.1 hh

/-- A new map is flat at height zero: every cell has elevation 0, the upward normal and no points, is not
traversable, and the elevation range is [0, 0]. -/
theorem C54_new_map (xmin ymin dx dy zmin zmax a b c : K) (xs ys : ℕ) (t : Terra K)
    (h : allocGrid xmin ymin dx dy xs ys zmin zmax a b c = some t) :
    (∀ i j e, t.grid i j = some e →
      e.z = 0 ∧ e.norm = ⟨0, 0, 1⟩ ∧ e.np = 0 ∧ e.travs = false ∧ ∀ x y, e.cellZ x y = 0) ∧
    t.zRange = some (0, 0) := by
  unfold allocGrid at h
  split_ifs at h with h0
  obtain rfl := Option.some.inj h
  have hc : ∀ e : TerraCell K, e ∈ List.replicate (xs * ys) (.init : TerraCell K) → e = .init :=
    fun e he => (List.mem_replicate.mp he).2
  have hpos : 0 < xs * ys := Nat.mul_pos (by omega) (by omega)
  refine ⟨fun i j e he => ?_, ?_⟩
  · have hm : e ∈ List.replicate (xs * ys) (.init : TerraCell K) := by
      unfold grid gridNC at he
      split_ifs at he
      exact List.mem_of_getElem? he
    obtain rfl := hc e hm
    exact ⟨rfl, rfl, rfl, rfl, fun x y => by simp [cellZ, TerraCell.init]⟩
  · obtain ⟨lo, hi, h1, ⟨c1, m1, e1⟩, ⟨c2, m2, e2⟩, -⟩ := (C54_zRange (adjustMax
      ⟨xmin, 0, ymin, 0, zmin, zmax, dx, dy, a, b, c, xs, ys, List.replicate (xs * ys) .init⟩)).2
      (by intro e; have := congrArg List.length e
          simp only [adjustMax, List.length_replicate, List.length_nil] at this; omega)
    rw [hc c1 m1] at e1
    rw [hc c2 m2] at e2
    rw [h1, ← e1, ← e2]
    rfl

/-- `zTerraIdent` with one point, at any height, does what `zTerraUpdate` does with it. -/
theorem C54_ident_one (junk : Vec3 K) (t : Terra K) (p : Vec3 K) :
    t.identLoop junk [p] = t.update junk p := rfl

end Zeo
