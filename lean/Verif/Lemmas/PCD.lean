import Verif.Spec.PCD
import Verif.Lemmas.Data

/-! # Lemmas on PCD files -/

namespace Zeo.PCD
open Spec

/-- The field of a column. -/
def Col.field (c : Col) : Field := ⟨axisOf (.word c.name), c.size, some c.type⟩

theorem axisOf_name (a : Fin 3) : axisOf (.word (axisName a)) = some a := by
  fin_cases a <;> rfl

theorem axisOf_eq {s : String} {a : Fin 3} (h : axisOf (.word s) = some a) : s = axisName a := by
  unfold axisOf at h
  split at h <;> simp_all <;> subst h <;> rfl

theorem entry_valid {c : Col} (h : c.Valid) : entry (Col.field c) = .ok (some (c.type, c.size)) := by
  obtain ⟨h1, h2⟩ := h
  have h0 : c.size ≠ 0 := by omega
  unfold entry Col.field
  cases ht : c.type <;> simp_all

theorem readSize_cols : ∀ cs : List Col, (∀ c ∈ cs, c.Valid) →
    readSize (cs.map fun c => ⟨axisOf (.word c.name), 0, none⟩) (cs.map fun c => .int c.size) =
      some (cs.map fun c => ⟨axisOf (.word c.name), c.size, none⟩)
  | [], _ => rfl
  | c :: cs, h => by
    have h1 := (h c (by simp)).1
    have h2 : atoi (.int c.size) = 1 ∨ atoi (.int c.size) = 2 ∨ atoi (.int c.size) = 4 ∨ atoi (.int c.size) = 8 := by
      simp only [atoi]; omega
    simp only [List.map_cons, readSize, if_pos h2, readSize_cols cs (fun d hd => h d (by simp [hd]))]
    simp [atoi]

theorem typeOf_letter (v : VType) : typeOf (.word (letter v)) = some v := by
  cases v <;> rfl

theorem readType_cols : ∀ cs : List Col,
    readType (cs.map fun c => ⟨axisOf (.word c.name), c.size, none⟩) (cs.map fun c => .word (letter c.type)) =
      some (cs.map Col.field)
  | [] => rfl
  | c :: cs => by
    simp only [List.map_cons, readType, typeOf_letter, readType_cols cs]
    simp [Col.field]

theorem readCount_cols : ∀ cs : List Col, readCount (cs.map Col.field) (cs.map fun _ => .int 1) = true
  | [] => rfl
  | c :: cs => by
    simp only [List.map_cons, readCount, atoi, readCount_cols cs]
    simp

theorem assign_cols (b : Bool) : ∀ cs : List Col, (∀ c ∈ cs, c.Valid) → assign b (cs.map Col.field) = .ok ()
  | [], _ => rfl
  | c :: cs, h => by
    rw [List.map_cons, assign, entry_valid (h c (by simp)), assign_cols b cs (fun d hd => h d (by simp [hd]))]
    simp

/-- What a row of values leaves in the point. -/
noncomputable def setAll : List Col → List (Option ℝ) → Raw → Raw
  | c :: cs, x :: xs, r =>
    match axisOf (.word c.name) with
    | some a => setAll cs xs (Function.update r a x)
    | none => setAll cs xs r
  | _, _, r => r

theorem setAll_notMem (a : Fin 3) : ∀ (cs : List Col) (xs : List (Option ℝ)) (r : Raw),
    axisName a ∉ cs.map Col.name → setAll cs xs r a = r a
  | [], _, _, _ => by simp [setAll]
  | _ :: _, [], _, _ => by simp [setAll]
  | c :: cs, x :: xs, r, h => by
    simp only [List.map_cons, List.mem_cons, not_or] at h
    rw [setAll]
    cases he : axisOf (.word c.name) with
    | none => exact setAll_notMem a cs xs r h.2
    | some b =>
      have : b ≠ a := by
        rintro rfl
        exact h.1 (axisOf_eq he).symm
      simp only
      rw [setAll_notMem a cs xs _ h.2, Function.update_of_ne this.symm]

theorem setAll_coord (a : Fin 3) (x : Option ℝ) : ∀ (cs : List Col) (xs : List (Option ℝ)) (r : Raw),
    (cs.map Col.name).Nodup → HasCoord cs xs a x → setAll cs xs r a = x
  | [], _, _, _, ⟨k, c, h, _⟩ => by simp at h
  | _ :: _, [], _, _, ⟨k, c, _, _, h⟩ => by simp at h
  | c :: cs, y :: xs, r, hn, ⟨k, d, h1, h2, h3⟩ => by
    simp only [List.map_cons, List.nodup_cons] at hn
    rw [setAll]
    cases k with
    | zero =>
      simp only [List.getElem?_cons_zero, Option.some.injEq] at h1 h3
      subst h1 h3
      rw [h2, axisOf_name]
      simp only
      rw [setAll_notMem a cs xs _ (by rw [← h2]; exact hn.1), Function.update_self]
    | succ k =>
      simp only [List.getElem?_cons_succ] at h1 h3
      cases axisOf (.word c.name) with
      | none => exact setAll_coord a x cs xs _ hn.2 ⟨k, d, h1, h2, h3⟩
      | some b => exact setAll_coord a x cs xs _ hn.2 ⟨k, d, h1, h2, h3⟩

theorem point_of (cs : List Col) (hn : (cs.map Col.name).Nodup) (xs : List (Option ℝ)) (vp : Frame3 ℝ)
    (p : Option (Vec3 ℝ)) (h : PointOf cs xs p) :
    (setAll cs xs .zero).point vp = (p.map vp.xform).toList := by
  cases h with
  | point x y z hx hy hz =>
    simp [Raw.point, setAll_coord _ _ cs xs _ hn hx, setAll_coord _ _ cs xs _ hn hy, setAll_coord _ _ cs xs _ hn hz]
  | nan x y z hx hy hz h =>
    unfold Raw.point
    rw [setAll_coord _ _ cs xs _ hn hx, setAll_coord _ _ cs xs _ hn hy, setAll_coord _ _ cs xs _ hn hz]
    rcases h with rfl | rfl | rfl
    · simp
    · cases x <;> simp
    · cases x <;> cases y <;> simp

theorem asciiVal_word {f32 : ℝ → ℝ} {c : Col} {t : Tok} {x : Option ℝ} (h : WordOf f32 c t x) :
    asciiVal f32 c.type c.size t = .ok x := by
  cases h with
  | double x h1 h2 => simp [h1, h2, asciiVal, atof]
  | float x h1 h2 => simp [h1, h2, asciiVal, atof]
  | nan h1 => simp [h1, asciiVal, atof]
  | signed n h1 h2 h3 h4 h5 =>
    rw [h1, asciiVal]
    · exact if_pos ⟨⟨h2, h3⟩, h4, h5⟩
    · simp
  | unsigned n h1 h2 h3 h5 =>
    rw [h1, asciiVal]
    · exact if_pos ⟨⟨h2, h3⟩, by simp only [atoi]; omega, h5⟩
    · simp

/-- A row of words: the words and their values. -/
abbrev WRow := List (Tok × Option ℝ)

theorem readRow_cols (f32 : ℝ → ℝ) : ∀ (cs : List Col) (row : WRow) (r : Raw), (∀ c ∈ cs, c.Valid) →
    List.Forall₂ (fun c (w : Tok × Option ℝ) => WordOf f32 c w.1 w.2) cs row →
    readRow f32 (cs.map Col.field) (row.map Prod.fst) r = .ok (setAll cs (row.map Prod.snd) r) := by
  intro cs row r hv h
  induction h generalizing r with
  | nil => rfl
  | @cons c w cs row hc _ ih =>
    have ih' := fun r => ih r (fun d hd => hv d (by simp [hd]))
    rw [List.map_cons, List.map_cons, List.map_cons, readRow, setAll, entry_valid (hv c (by simp))]
    have ha : (Col.field c).axis = axisOf (.word c.name) := rfl
    rw [ha]
    cases axisOf (.word c.name) with
    | none => exact ih' r
    | some a =>
      simp only [asciiVal_word hc]
      exact ih' _

theorem readRows_cols (f32 : ℝ → ℝ) (p : Pcd) (cs : List Col) (hf : p.field = cs.map Col.field)
    (hv : ∀ c ∈ cs, c.Valid) (hn : (cs.map Col.name).Nodup) : ∀ (rows : List WRow) (ps : List (Option (Vec3 ℝ))),
    (∀ r ∈ rows, List.Forall₂ (fun c (w : Tok × Option ℝ) => WordOf f32 c w.1 w.2) cs r) →
    List.Forall₂ (fun (r : WRow) q => PointOf cs (r.map Prod.snd) q) rows ps →
    readRows f32 p (rows.map fun r => r.map Prod.fst) = .ok ((ps.filterMap id).map p.viewpoint.xform) := by
  intro rows ps hw h
  induction h with
  | nil => rfl
  | @cons r q rows ps hq _ ih =>
    rw [List.map_cons, readRows, hf, readRow_cols f32 cs r _ hv (hw r (by simp)),
      ih (fun s hs => hw s (by simp [hs]))]
    simp only [point_of cs hn _ _ q hq]
    cases q <;> simp

theorem readCells_cols : ∀ (cs : List Col) (row : List (Option ℝ)) (r : Raw) (rest : List Cell) (e : Bool),
    (∀ c ∈ cs, c.Valid) → row.length = cs.length →
    readCells (cs.map Col.field) (List.zipWith (fun (c : Col) x => Cell.mk c.type c.size x) cs row ++ rest) r e =
      .ok (setAll cs row r, rest, e)
  | [], [], r, rest, e, _, _ => by simp [readCells, setAll]
  | c :: cs, x :: row, r, rest, e, hv, hl => by
    have ih := fun r => readCells_cols cs row r rest e (fun d hd => hv d (by simp [hd])) (by simpa using hl)
    rw [List.map_cons, List.zipWith_cons_cons, List.cons_append, readCells, entry_valid (hv c (by simp)), setAll]
    have ha : (Col.field c).axis = axisOf (.word c.name) := rfl
    rw [ha]
    simp only [and_self, if_true]
    cases axisOf (.word c.name) with
    | none => exact ih r
    | some a => exact ih _

theorem readCells_end : ∀ (cs : List Col) (r : Raw) (e : Bool), (∀ c ∈ cs, c.Valid) →
    readCells (cs.map Col.field) [] r e = .ok (r, [], e || !cs.isEmpty)
  | [], r, e, _ => by simp [readCells]
  | c :: cs, r, e, hv => by
    rw [List.map_cons, readCells, entry_valid (hv c (by simp)), readCells_end cs r true (fun d hd => hv d (by simp [hd]))]
    simp

theorem readBin_cols (p : Pcd) (cs : List Col) (hf : p.field = cs.map Col.field) (hc : cs ≠ [])
    (hv : ∀ c ∈ cs, c.Valid) (hn : (cs.map Col.name).Nodup) : ∀ (rows : List (List (Option ℝ)))
    (ps : List (Option (Vec3 ℝ))) (k : ℕ), rows.length < k → (∀ r ∈ rows, r.length = cs.length) →
    List.Forall₂ (fun r q => PointOf cs r q) rows ps →
    readBin p k (rows.flatMap fun r => List.zipWith (fun (c : Col) x => Cell.mk c.type c.size x) cs r) =
      .ok ((ps.filterMap id).map p.viewpoint.xform ++ [p.viewpoint.xform ⟨0, 0, 0⟩]) := by
  intro rows ps k hk hl h
  induction h generalizing k with
  | nil =>
    obtain ⟨k, rfl⟩ : ∃ m, k = m + 1 := ⟨k - 1, by simp only [List.length_nil] at hk; omega⟩
    rw [List.flatMap_nil, readBin, hf, readCells_end cs _ _ hv]
    have : cs.isEmpty = false := by simpa using hc
    simp [this, Raw.point, Raw.zero]
  | @cons r q rows ps hq _ ih =>
    obtain ⟨k, rfl⟩ : ∃ m, k = m + 1 := ⟨k - 1, by simp only [List.length_cons] at hk; omega⟩
    rw [List.flatMap_cons, readBin, hf, readCells_cols cs r _ _ _ hv (hl r (by simp))]
    simp only [Bool.false_eq_true, if_false]
    rw [ih k (by simp only [List.length_cons] at hk; omega) (fun s hs => hl s (by simp [hs]))]
    simp only [point_of cs hn _ _ q hq]
    cases q <;> simp

end Zeo.PCD
