import Verif.Spec.PLY

/-! # Lemmas on PLY files -/

namespace Zeo.PLY
open Spec

/-- The format of an encoding on a machine. -/
noncomputable def fmtOf (big : Bool) : Enc → Format
  | none => .ascii
  | some b => if b = big then .bin else .binRev

theorem Stores.notList {o : Enc} {t : DType} {v : Val} {x : ℝ} (h : Stores o t v x) : t ≠ .list := by
  cases h with
  | text _ _ h => rcases h with h | h <;> simp [h]
  | textInt _ _ h => exact h
  | byte _ _ _ _ h => rcases h with h | h <;> simp [h]
  | word _ _ _ h => rcases h with h | h <;> simp [h]
  | dword _ _ _ h => rcases h with h | h <;> simp [h]
  | float => simp
  | double => simp

private theorem order_ok (big b : Bool) (c : Cell) :
    fmtOf big (some b) ≠ .ascii ∧ orderOK big (fmtOf big (some b)) b c := by
  unfold fmtOf
  cases c <;> by_cases h : b = big <;> simp [orderOK, h]

theorem readDouble_stores {o : Enc} {t : DType} {v : Val} {x : ℝ} (big : Bool) (h : Stores o t v x) (r : List Val) :
    readDouble big (fmtOf big o) t (v :: r) = .ok (x, r) := by
  have hl := Stores.notList h
  cases h with
  | text _ _ h => rcases h with rfl | rfl <;> simp [readDouble, fmtOf, DType.isReal]
  | textInt _ _ h => simp [readDouble, fmtOf, h]
  | byte b b' _ n h =>
    have ho : fmtOf big (some b) ≠ .ascii ∧ orderOK big (fmtOf big (some b)) b' (.byte n) :=
      ⟨(order_ok big b (.byte n)).1, trivial⟩
    rcases h with rfl | rfl <;> simp only [readDouble, hl, if_false, if_pos ho, cellDouble]
  | word b _ n h =>
    rcases h with rfl | rfl <;> simp only [readDouble, hl, if_false, if_pos (order_ok big b _), cellDouble]
  | dword b _ n h =>
    rcases h with rfl | rfl <;> simp only [readDouble, hl, if_false, if_pos (order_ok big b _), cellDouble]
  | float b _ => simp only [readDouble, hl, if_false, if_pos (order_ok big b _), cellDouble]
  | double b _ => simp only [readDouble, hl, if_false, if_pos (order_ok big b _), cellDouble]

theorem readInt_stores {o : Enc} {t : DType} {v : Val} {n : ℕ} (big : Bool) (h : StoresNat o t v n) (r : List Val) :
    readInt big (fmtOf big o) t (v :: r) = .ok ((n : ℤ), r) := by
  cases h with
  | text _ _ h => simp [readInt, fmtOf, h]
  | byte b b' _ _ h =>
    have ho : fmtOf big (some b) ≠ .ascii ∧ orderOK big (fmtOf big (some b)) b' (.byte n) :=
      ⟨(order_ok big b (.byte n)).1, trivial⟩
    rcases h with rfl | rfl <;> simp [readInt, if_pos ho, cellInt]
  | word b _ _ h =>
    rcases h with rfl | rfl <;> simp [readInt, if_pos (order_ok big b _), cellInt]
  | dword b _ _ h h' =>
    rcases h with rfl | rfl <;> simp only [readInt, if_pos (order_ok big b _), cellInt, if_pos h'] <;> simp

theorem find_name (t : DType) : DType.find t.name = some t := by
  cases t <;> simp [DType.find, DType.name]

/-- The last position of a name, `old` if there is none. -/
def colIdx (name : String) : ℕ → ℕ → List Column → ℕ
  | _, old, [] => old
  | k, old, c :: r => colIdx name (k + 1) (if c.2 = name then k else old) r

theorem colIdx_notMem (name : String) : ∀ (cs : List Column) (k old : ℕ), name ∉ cs.map Prod.snd →
    colIdx name k old cs = old
  | [], _, _, _ => rfl
  | c :: cs, k, old, h => by
    simp only [List.map_cons, List.mem_cons, not_or] at h
    rw [colIdx, if_neg (fun e => h.1 e.symm), colIdx_notMem name cs _ _ h.2]

theorem colIdx_eq (name : String) : ∀ (cs : List Column) (k old a : ℕ) (t : DType), (cs.map Prod.snd).Nodup →
    cs[a]? = some (t, name) → colIdx name k old cs = k + a
  | [], _, _, a, _, _, h => by simp at h
  | c :: cs, k, old, a, t, hn, h => by
    simp only [List.map_cons, List.nodup_cons] at hn
    rw [colIdx]
    cases a with
    | zero =>
      simp only [List.getElem?_cons_zero, Option.some.injEq] at h
      subst h
      rw [if_pos rfl, colIdx_notMem name cs _ _ hn.1]
      rfl
    | succ a =>
      simp only [List.getElem?_cons_succ] at h
      rw [colIdx_eq name cs (k + 1) _ a t hn.2 h]
      omega

/-- The columns of an element are declared. -/
theorem readHeader_columns (big : Bool) : ∀ (cs : List Column) (p : Ply) (es : List Elem) (e : Elem)
    (rest : List (List Tok)), p.elem = es ++ [e] → p.format ≠ none → e.prp.length + cs.length ≤ 11 →
    (∀ c ∈ cs, c.1 ≠ .list) →
    readHeader big p (cs.map columnLine ++ rest) = readHeader big
      { p with
        elem := es ++ [{ e with prp := e.prp ++ cs.map Prod.fst }]
        ix := if e.type = .vertex then colIdx "x" e.prp.length p.ix cs else p.ix
        iy := if e.type = .vertex then colIdx "y" e.prp.length p.iy cs else p.iy
        iz := if e.type = .vertex then colIdx "z" e.prp.length p.iz cs else p.iz } rest
  | [], p, es, e, rest, h, _, _, _ => by
    simp only [List.map_nil, List.nil_append, List.append_nil, colIdx, ite_self]
    rw [← h]
  | c :: cs, p, es, e, rest, h, hf, hl, hn => by
    have hc : c.1 ≠ .list := hn c (by simp)
    simp only [List.length_cons] at hl
    have h12 : ¬ 12 ≤ e.prp.length + 1 := by omega
    have key : readProperty p [.word c.1.name, .word c.2] = .ok
        { p with
          elem := es ++ [{ e with prp := e.prp ++ [c.1] }]
          ix := if e.type = .vertex then (if c.2 = "x" then e.prp.length else p.ix) else p.ix
          iy := if e.type = .vertex then (if c.2 = "y" then e.prp.length else p.iy) else p.iy
          iz := if e.type = .vertex then (if c.2 = "z" then e.prp.length else p.iz) else p.iz } := by
      unfold readProperty
      rw [h]
      simp only [List.getLast?_append, List.getLast?_singleton, Option.some_or, List.dropLast_concat, if_neg hf, next,
        find_name]
      have : ∀ t : DType, t = c.1 → addPrp (if e.type = .vertex then
            if c.2 = "x" then { p with ix := e.prp.length }
            else if c.2 = "y" then { p with iy := e.prp.length }
            else if c.2 = "z" then { p with iz := e.prp.length }
            else p
          else p) es e t = .ok { p with
          elem := es ++ [{ e with prp := e.prp ++ [c.1] }]
          ix := if e.type = .vertex then (if c.2 = "x" then e.prp.length else p.ix) else p.ix
          iy := if e.type = .vertex then (if c.2 = "y" then e.prp.length else p.iy) else p.iy
          iz := if e.type = .vertex then (if c.2 = "z" then e.prp.length else p.iz) else p.iz } := by
        intro t ht
        subst ht
        unfold addPrp
        rw [if_neg h12]
        by_cases hv : e.type = .vertex
        · by_cases hx : c.2 = "x"
          · simp [hv, hx]
          · by_cases hy : c.2 = "y"
            · simp [hv, hy]
            · by_cases hz : c.2 = "z"
              · simp [hv, hz]
              · simp [hv, hx, hy, hz]
        · simp [hv]
      cases ht : c.1 with
      | list => exact absurd ht hc
      | _ => rw [← ht, ← h]; exact this _ rfl
    rw [List.map_cons, List.cons_append, readHeader]
    simp only [columnLine, next, String.reduceEq, if_false, if_true, key]
    rw [readHeader_columns big cs _ es { e with prp := e.prp ++ [c.1] } rest rfl (by simpa using hf)
      (by simp only [List.length_append, List.length_cons, List.length_nil]; omega)
      (fun d hd => hn d (by simp [hd]))]
    by_cases hv : e.type = .vertex <;> simp [hv, colIdx, List.append_assoc]

/-- Lines that are not understood are skipped. -/
theorem readHeader_notes (big : Bool) : ∀ (ns : List (List Tok)) (p : Ply) (rest : List (List Tok)),
    (∀ l ∈ ns, (next l).1 ≠ "end_header" ∧ (next l).1 ≠ "format" ∧ (next l).1 ≠ "element" ∧
      (next l).1 ≠ "property") → readHeader big p (ns ++ rest) = readHeader big p rest
  | [], _, _, _ => rfl
  | l :: ns, p, rest, h => by
    have hl := h l (by simp)
    rw [List.cons_append, readHeader]
    simp only [hl.1, hl.2.1, hl.2.2.1, hl.2.2.2, if_false]
    exact readHeader_notes big ns p rest (fun m hm => h m (by simp [hm]))

private theorem getC {r : Row} {a : ℕ} {y z : Val × ℝ} {rs : Row} (h : r = y :: rs) (ha : r[a]? = some z) :
    (a = 0 ∧ z = y) ∨ ∃ b, a = b + 1 ∧ rs[b]? = some z := by
  subst h
  cases a with
  | zero => left; simpa [eq_comm] using ha
  | succ b => right; exact ⟨b, rfl, by simpa using ha⟩

/-- One row of the vertices. -/
theorem readVertPrp_row (big : Bool) (o : Enc) (p : Ply) (s : List Val) : ∀ (cs : List Column) (r : Row) (j : ℕ)
    (v : Vec3 ℝ), RowOf o cs r → ∃ w : Vec3 ℝ,
    readVertPrp big p (fmtOf big o) j (cs.map Prod.fst) v (r.map Prod.fst ++ s) = .ok (w, s) ∧
    (∀ a y, r[a]? = some y → p.ix = j + a → w.x = y.2) ∧ (p.ix < j → w.x = v.x) ∧
    (∀ a y, r[a]? = some y → p.iy = j + a → w.y = y.2) ∧ (p.iy < j → w.y = v.y) ∧
    (∀ a y, r[a]? = some y → p.iz = j + a → w.z = y.2) ∧ (p.iz < j → w.z = v.z) := by
  intro cs r j v h
  induction h generalizing j v with
  | nil => exact ⟨v, rfl, by simp, fun _ => rfl, by simp, fun _ => rfl, by simp, fun _ => rfl⟩
  | @cons c y cs r hc _ ih =>
    obtain ⟨w, hw, hx, hx', hy, hy', hz, hz'⟩ := ih (j + 1) (setVert p v j y.2)
    refine ⟨w, ?_, ?_, ?_, ?_, ?_, ?_, ?_⟩
    · rw [List.map_cons, List.map_cons, List.cons_append, readVertPrp, if_neg (Stores.notList hc),
        readDouble_stores big hc]
      exact hw
    · intro a z hz1 he
      rcases getC rfl hz1 with ⟨rfl, rfl⟩ | ⟨b, rfl, hb⟩
      · rw [hx' (by omega)]; simp [setVert, he]
      · exact hx b z hb (by omega)
    · intro hlt; rw [hx' (by omega)]; simp only [setVert]; rw [if_neg (by omega)]
    · intro a z hz1 he
      rcases getC rfl hz1 with ⟨rfl, rfl⟩ | ⟨b, rfl, hb⟩
      · rw [hy' (by omega)]; simp [setVert, he]
      · exact hy b z hb (by omega)
    · intro hlt; rw [hy' (by omega)]; simp only [setVert]; rw [if_neg (by omega)]
    · intro a z hz1 he
      rcases getC rfl hz1 with ⟨rfl, rfl⟩ | ⟨b, rfl, hb⟩
      · rw [hz' (by omega)]; simp [setVert, he]
      · exact hz b z hb (by omega)
    · intro hlt; rw [hz' (by omega)]; simp only [setVert]; rw [if_neg (by omega)]

/-- All rows of the vertices. -/
theorem readVerts_rows (big : Bool) (o : Enc) (p : Ply) (s : List Val) (cs : List Column) : ∀ (rows : List Row),
    (∀ r ∈ rows, RowOf o cs r) → ∃ vs : List (Vec3 ℝ),
    readVerts big p (fmtOf big o) (cs.map Prod.fst) rows.length ((rows.flatMap fun r => r.map Prod.fst) ++ s) =
      .ok (vs, s) ∧ vs.length = rows.length ∧ ∀ (i : ℕ) (r : Row) (w : Vec3 ℝ), rows[i]? = some r → vs[i]? = some w →
    (∀ y, r[p.ix]? = some y → w.x = y.2) ∧ (∀ y, r[p.iy]? = some y → w.y = y.2) ∧
    (∀ y, r[p.iz]? = some y → w.z = y.2)
  | [], _ => ⟨[], rfl, rfl, by simp⟩
  | r :: rows, h => by
    obtain ⟨vs, hvs, hlen, hi⟩ := readVerts_rows big o p s cs rows (fun q hq => h q (by simp [hq]))
    obtain ⟨w, hw, hx, _, hy, _, hz, _⟩ := readVertPrp_row big o p ((rows.flatMap fun r => r.map Prod.fst) ++ s) cs r 0
      .zero (h r (by simp))
    refine ⟨w :: vs, ?_, by simp [hlen], ?_⟩
    · rw [List.length_cons, readVerts, List.flatMap_cons, List.append_assoc, hw]
      simp only [hvs]
    · intro i q u hq hu
      cases i with
      | zero =>
        simp only [List.getElem?_cons_zero, Option.some.injEq] at hq hu
        subst hq hu
        exact ⟨fun y hyy => hx _ y hyy (by omega), fun y hyy => hy _ y hyy (by omega),
          fun y hyy => hz _ y hyy (by omega)⟩
      | succ i =>
        simp only [List.getElem?_cons_succ] at hq hu
        exact hi i q u hq hu

/-- Columns of a face that are not the list are skipped. -/
theorem readFacePrp_skip (big : Bool) (o : Enc) (p : Ply) (ts : List DType) (s : List Val) : ∀ (cs : List Column)
    (r : Row), RowOf o cs r → readFacePrp big p (fmtOf big o) (cs.map Prod.fst ++ ts) (r.map Prod.fst ++ s) =
    readFacePrp big p (fmtOf big o) ts s := by
  intro cs r h
  induction h with
  | nil => rfl
  | cons hc _ ih =>
    rw [List.map_cons, List.map_cons, List.cons_append, List.cons_append, readFacePrp, if_neg (Stores.notList hc),
      readDouble_stores big hc]
    exact ih

/-- One triangle. -/
theorem readFacePrp_tri (big : Bool) (o : Enc) (p : Ply) (s : List Val) (tn te : DType) (pre post : List Column)
    (n : ℕ) (r : TriRow) (hn : p.listNum = some tn) (he : p.listElem = some te) (h : r.Good o tn te pre post n) :
    readFacePrp big p (fmtOf big o) (pre.map Prod.fst ++ (DType.list :: post.map Prod.fst)) (r.vals ++ s) =
      .ok ([((r.i0 : ℤ), (r.i1 : ℤ), (r.i2 : ℤ))], s) := by
  have h2 := readFacePrp_skip big o p [] s post r.post h.post
  rw [List.append_nil] at h2
  unfold TriRow.vals
  simp only [List.append_assoc]
  rw [readFacePrp_skip big o p _ _ pre r.pre h.pre, readFacePrp, if_pos rfl, hn, he]
  have h3 : readInts big (fmtOf big o) te 3 (r.v0 :: r.v1 :: r.v2 :: (r.post.map Prod.fst ++ s)) =
      .ok ([(r.i0 : ℤ), (r.i1 : ℤ), (r.i2 : ℤ)], r.post.map Prod.fst ++ s) := by
    simp only [readInts, readInt_stores big h.s0, readInt_stores big h.s1, readInt_stores big h.s2]
  have h4 : ((3 : ℕ) : ℤ).toNat = 3 := rfl
  simp only [readList, List.cons_append, List.nil_append, readInt_stores big h.cnt, h4, h3, h2]
  simp [fan, readFacePrp]

/-- All triangles. -/
theorem readFaces_tris (big : Bool) (o : Enc) (p : Ply) (tn te : DType) (pre post : List Column)
    (n : ℕ) (hn : p.listNum = some tn) (he : p.listElem = some te) : ∀ (rs : List TriRow) (s : List Val),
    (∀ r ∈ rs, r.Good o tn te pre post n) →
    readFaces big p (fmtOf big o) (pre.map Prod.fst ++ (DType.list :: post.map Prod.fst)) rs.length
      (rs.flatMap TriRow.vals ++ s) =
      .ok (rs.map fun r => ((r.i0 : ℤ), (r.i1 : ℤ), (r.i2 : ℤ)), s)
  | [], s, _ => rfl
  | r :: rs, s, h => by
    rw [List.length_cons, readFaces, List.flatMap_cons, List.append_assoc,
      readFacePrp_tri big o p _ tn te pre post n r hn he (h r (by simp))]
    simp only [readFaces_tris big o p tn te pre post n hn he rs s (fun q hq => h q (by simp [hq]))]
    simp

/-- The faces made of valid triangles. -/
theorem mkFaces_tris (τ : ℝ) (ph : PH ℝ) : ∀ (rs : List TriRow),
    (∀ r ∈ rs, r.i0 < ph.nv ∧ r.i1 < ph.nv ∧ r.i2 < ph.nv) →
    mkFaces τ ph (rs.map fun r => ((r.i0 : ℤ), (r.i1 : ℤ), (r.i2 : ℤ))) =
      .ok (rs.map fun r => ⟨r.i0, r.i1, r.i2, (Tri3.create τ (ph.vert r.i0) (ph.vert r.i1) (ph.vert r.i2)).2.norm⟩)
  | [], _ => rfl
  | r :: rs, h => by
    obtain ⟨h0, h1, h2⟩ := h r (by simp)
    rw [List.map_cons, mkFaces, mkFace, if_pos (by simp; omega)]
    simp only [mkFaces_tris τ ph rs (fun q hq => h q (by simp [hq]))]
    simp

end Zeo.PLY
