import Verif.Model.Texture
import Mathlib.Tactic

/-! # C85: textures -/

namespace Zeo
open ZTK

universe u

private theorem ok_bind'' {ε : Type} {α β : Type u} (a : α) (f : α → Except ε β) : (Except.ok a >>= f) = f a := rfl

/-! ## Buffers -/

/-- **C85** (`zTextureAlloc`): room for the requested numbers of coordinates and faces; NULL, and an empty
texture, when one of them is zero. -/
theorem C85_alloc (junk : Vec2 ℝ) (t : Texture ℝ) (nc nt : ℕ) :
    ((t.alloc junk nc nt).2 = true ↔ 0 < nc ∧ 0 < nt) ∧
    ((t.alloc junk nc nt).2 = true → (t.alloc junk nc nt).1.coord.length = nc ∧ (t.alloc junk nc nt).1.face.length = nt) ∧
    ((t.alloc junk nc nt).2 = false → (t.alloc junk nc nt).1.coord = [] ∧ (t.alloc junk nc nt).1.face = [] ∧
      (t.alloc junk nc nt).1.name = none ∧ (t.alloc junk nc nt).1.filename = none) := by
  unfold Texture.alloc
  split_ifs with h
  · simp [Texture.init]; omega
  · simp; omega

/-- **C85** (`zTextureSetCoord`): changes the addressed coordinates only, and refuses any other index. -/
theorem C85_setCoord (t : Texture ℝ) (i : ℤ) (u v : ℝ) :
    (t.setCoord i u v = none ↔ i < 0 ∨ (t.coord.length : ℤ) ≤ i) ∧
    ∀ t', t.setCoord i u v = some t' → t'.face = t.face ∧ t'.coord.length = t.coord.length ∧
      ∀ k : ℕ, t'.coord[k]? = if (k : ℤ) = i then some ⟨u, v⟩ else t.coord[k]? := by
  unfold Texture.setCoord
  split_ifs with h
  · refine ⟨by simp; omega, ?_⟩
    rintro t' ⟨⟩
    refine ⟨rfl, by simp, fun k => ?_⟩
    simp only [List.getElem?_set]
    by_cases hk : (k : ℤ) = i
    · rw [if_pos (by omega), if_pos hk, if_pos (by omega)]
    · rw [if_neg (by omega), if_neg hk]
  · exact ⟨by simp; omega, fun t' h => by cases h⟩

/-- **C85** (`zTextureSetFace`): as for the coordinates. -/
theorem C85_setFace (t : Texture ℝ) (i : ℤ) (f : ℕ × ℕ × ℕ) :
    (t.setFace i f = none ↔ i < 0 ∨ (t.face.length : ℤ) ≤ i) ∧
    ∀ t', t.setFace i f = some t' → t'.coord = t.coord ∧ t'.face.length = t.face.length ∧
      ∀ k : ℕ, t'.face[k]? = if (k : ℤ) = i then some (some f) else t.face[k]? := by
  unfold Texture.setFace
  split_ifs with h
  · refine ⟨by simp; omega, ?_⟩
    rintro t' ⟨⟩
    refine ⟨rfl, by simp, fun k => ?_⟩
    simp only [List.getElem?_set]
    by_cases hk : (k : ℤ) = i
    · rw [if_pos (by omega), if_pos hk, if_pos (by omega)]
    · rw [if_neg (by omega), if_neg hk]
  · exact ⟨by simp; omega, fun t' h => by cases h⟩

example : ∃ t', (⟨none, 0, 0, false, none, [⟨0, 0⟩, ⟨1, 0⟩], [none], 0, 0, 1⟩ : Texture ℝ).setCoord 1 3 4 = some t' :=
  ⟨_, if_pos (by simp)⟩

/-! ## Clones -/

/-- **C85** (`zTextureClone`), what is true of it: name, identifier, type, file name and the numbers of coordinates
and faces are copied.  Missing: everything else, see `C85_clone_false`. -/
theorem C85_clone_partial (junk : Vec2 ℝ) (org c : Texture ℝ) (h : org.clone junk = some c) :
    c.name = org.name ∧ c.id = org.id ∧ c.bump = org.bump ∧ c.filename = org.filename ∧
    c.coord.length = org.coord.length ∧ c.face.length = org.face.length := by
  unfold Texture.clone at h
  split at h
  · cases h
  · rename_i f hf
    split_ifs at h
    cases h
    simp [hf]

/-- **A clone is not a copy**: whatever fresh memory contains, there is a texture whose clone has other coordinates,
no face, and another depth, bump identifier and image size. -/
theorem C85_clone_false (junk : Vec2 ℝ) : ∃ org c : Texture ℝ, org.clone junk = some c ∧
    org.face = [some (0, 0, 0)] ∧ c.face = [none] ∧ c.coord ≠ org.coord ∧ c.depth ≠ org.depth ∧ c.idBump ≠ org.idBump ∧
    c.width ≠ org.width ∧ c.height ≠ org.height := by
  refine ⟨⟨none, 0, 5, true, some "a", [⟨junk.x + 1, 0⟩], [some (0, 0, 0)], 8, 8, 2⟩, _, rfl, rfl, rfl, ?_, ?_, ?_, ?_, ?_⟩
  · intro e
    have : junk.x = junk.x + 1 := by
      have := (List.cons.inj e).1
      exact congrArg Vec2.x this
    linarith
  all_goals norm_num [Texture.init]

/-- **Textures that cannot be cloned**: without a file name, without coordinates or without faces the clone fails. -/
theorem C85_clone_null (junk : Vec2 ℝ) (org : Texture ℝ) :
    org.clone junk = none ↔ org.filename = none ∨ org.coord = [] ∨ org.face = [] := by
  unfold Texture.clone
  split
  · rename_i h; simp [h]
  · rename_i f h
    split_ifs with h'
    · simp only [List.length_eq_zero_iff] at h'; simp [h, h']
    · simp only [List.length_eq_zero_iff, not_or] at h'; simp [h, h'.1, h'.2]

/-! ## Reading -/

/-- The values of the fields with a key, in the order of the file. -/
def fieldsOf (fs : List (KeyField ℝ)) (key : String) : List (List (Tok ℝ)) := (fs.filter fun f => f.1 = key).map Prod.snd

/-- What reading has reached after the fields `pre`. -/
private structure Inv (nc nf : ℕ) (pre : List (KeyField ℝ)) (s : Texture ℝ × (String → ℕ)) : Prop where
  lc : s.1.coord.length = nc
  lf : s.1.face.length = nf
  cc : s.2 "coord" = (fieldsOf pre "coord").length
  cf : s.2 "face" = (fieldsOf pre "face").length
  co : ∀ (i : ℕ) vs, (fieldsOf pre "coord")[i]? = some vs → ∃ (n : ℤ) (r : List (Tok ℝ)) (u v : ℝ),
    vs = .int n :: r ∧ two r = .ok (u, v) ∧ s.1.coord[i]? = some ⟨u, v⟩
  fa : ∀ (i : ℕ) vs, (fieldsOf pre "face")[i]? = some vs → ∃ (a b c : ℕ) (r : List (Tok ℝ)),
    vs = .int (a : ℤ) :: .int (b : ℤ) :: .int (c : ℤ) :: r ∧ a < nc ∧ b < nc ∧ c < nc ∧ s.1.face[i]? = some (some (a, b, c))

private theorem fo_append (pre : List (KeyField ℝ)) (f : KeyField ℝ) (key : String) :
    fieldsOf (pre ++ [f]) key = if f.1 = key then fieldsOf pre key ++ [f.2] else fieldsOf pre key := by
  unfold fieldsOf
  rw [List.filter_append, List.map_append]
  by_cases h : f.1 = key <;> simp [h]

private theorem int_ok {vs : List (Tok ℝ)} {a : ℤ × List (Tok ℝ)} (h : int vs = .ok a) : vs = .int a.1 :: a.2 := by
  unfold int at h
  split at h <;> cases h
  rfl

private theorem idx_ok {n : ℕ} {vs : List (Tok ℝ)} {a : ℤ × List (Tok ℝ)} (h : texIndex n vs = .ok a) :
    vs = .int a.1 :: a.2 ∧ a.1 < n := by
  unfold texIndex at h
  split at h
  · cases h
  · rename_i i r e
    split_ifs at h with hl
    cases h
    exact ⟨int_ok e, by omega⟩

/-- Fields that touch neither coordinates nor faces. -/
private theorem inv_other {nc nf : ℕ} {pre : List (KeyField ℝ)} {s : Texture ℝ × (String → ℕ)} (h : Inv nc nf pre s)
    {f : KeyField ℝ} (h1 : f.1 ≠ "coord") (h2 : f.1 ≠ "face") {t : Texture ℝ} (hc : t.coord = s.1.coord) (hf : t.face = s.1.face)
    {cnt : String → ℕ} (k1 : cnt "coord" = s.2 "coord") (k2 : cnt "face" = s.2 "face") : Inv nc nf (pre ++ [f]) (t, cnt) := by
  have e1 := fo_append pre f "coord"
  have e2 := fo_append pre f "face"
  rw [if_neg h1] at e1
  rw [if_neg h2] at e2
  exact ⟨by rw [hc]; exact h.lc, by rw [hf]; exact h.lf, by rw [e1]; exact k1.trans h.cc, by rw [e2]; exact k2.trans h.cf,
    by rw [e1, hc]; exact h.co, by rw [e2, hf]; exact h.fa⟩

private theorem inv_step {nc nf : ℕ} {pre : List (KeyField ℝ)} {s s' : Texture ℝ × (String → ℕ)} (h : Inv nc nf pre s)
    {f : KeyField ℝ} (e : evalField (texPrp id) s f = .ok s') : Inv nc nf (pre ++ [f]) s' := by
  obtain ⟨key, vs⟩ := f
  by_cases hc : key = "coord"
  · subst hc
    simp only [evalField, texPrp, List.find?, String.reduceEq, decide_false, decide_true] at e
    rw [if_neg (by omega)] at e
    simp only [texCoord] at e
    cases ei : int vs with
    | error x => simp [ei] at e
    | ok a =>
      cases et : two a.2 with
      | error x => simp [ei, et] at e
      | ok b =>
        simp only [ei, et] at e
        split_ifs at e with hl
        · simp only [Except.ok.injEq] at e
          subst e
          have e1 := fo_append pre ("coord", vs) "coord"
          have e2 := fo_append pre ("coord", vs) "face"
          rw [if_pos rfl] at e1
          rw [if_neg (by simp)] at e2
          refine ⟨by simpa using h.lc, h.lf, by simp [e1, h.cc], by simp [e2, h.cf], ?_, by rw [e2]; exact h.fa⟩
          intro i ws hi
          rw [e1, List.getElem?_append] at hi
          split_ifs at hi with hlt
          · obtain ⟨n, r, u, v, q1, q2, q3⟩ := h.co i ws hi
            refine ⟨n, r, u, v, q1, q2, ?_⟩
            simp only [List.getElem?_set]
            rw [if_neg (by rw [h.cc]; omega)]
            exact q3
          · have hi0 : i - (fieldsOf pre "coord").length = 0 := by
              by_contra hne
              obtain ⟨m, hm⟩ := Nat.exists_eq_succ_of_ne_zero hne
              rw [hm] at hi; simp at hi
            rw [hi0] at hi
            simp only [List.getElem?_cons_zero, Option.some.injEq] at hi
            subst hi
            refine ⟨a.1, a.2, b.1, b.2, int_ok ei, et, ?_⟩
            simp only [List.getElem?_set]
            rw [if_pos (by rw [h.cc]; omega), if_pos hl]
  by_cases hf : key = "face"
  · subst hf
    simp only [evalField, texPrp, List.find?, String.reduceEq, decide_false, decide_true] at e
    rw [if_neg (by omega)] at e
    simp only [texFace] at e
    cases e0 : texIndex s.1.coord.length vs with
    | error x => simp [e0] at e
    | ok a =>
      cases e1 : texIndex s.1.coord.length a.2 with
      | error x => simp [e0, e1] at e
      | ok b =>
        cases e2 : texIndex s.1.coord.length b.2 with
        | error x => simp [e0, e1, e2] at e
        | ok c =>
          simp only [e0, e1, e2] at e
          split_ifs at e with hl
          · simp only [Except.ok.injEq] at e
            subst e
            obtain ⟨p0, p1, p2, hl⟩ := hl
            obtain ⟨v0, b0⟩ := idx_ok e0
            obtain ⟨v1, b1⟩ := idx_ok e1
            obtain ⟨v2, b2⟩ := idx_ok e2
            have f1 := fo_append pre ("face", vs) "coord"
            have f2 := fo_append pre ("face", vs) "face"
            rw [if_neg (by simp)] at f1
            rw [if_pos rfl] at f2
            refine ⟨h.lc, by simpa using h.lf, by simp [f1, h.cc], by simp [f2, h.cf], by rw [f1]; exact h.co, ?_⟩
            intro i ws hi
            rw [f2, List.getElem?_append] at hi
            split_ifs at hi with hlt
            · obtain ⟨a', b', c', r, q1, q2, q3, q4, q5⟩ := h.fa i ws hi
              refine ⟨a', b', c', r, q1, q2, q3, q4, ?_⟩
              simp only [List.getElem?_set]
              rw [if_neg (by rw [h.cf]; omega)]
              exact q5
            · have hi0 : i - (fieldsOf pre "face").length = 0 := by
                by_contra hne
                obtain ⟨m, hm⟩ := Nat.exists_eq_succ_of_ne_zero hne
                rw [hm] at hi; simp at hi
              rw [hi0] at hi
              simp only [List.getElem?_cons_zero, Option.some.injEq] at hi
              subst hi
              rw [h.lc] at b0 b1 b2
              refine ⟨a.1.toNat, b.1.toNat, c.1.toNat, c.2, ?_, by omega, by omega, by omega, ?_⟩
              · rw [Int.toNat_of_nonneg p0, Int.toNat_of_nonneg p1, Int.toNat_of_nonneg p2, ← v2, ← v1, ← v0]
              · simp only [List.getElem?_set]
                rw [if_pos (by rw [h.cf]; omega), if_pos hl]
  by_cases h1 : key = "name"
  · subst h1
    simp only [evalField, texPrp, List.find?, String.reduceEq, decide_true] at e
    split_ifs at e
    · cases e; exact inv_other h (by simp) (by simp) rfl rfl rfl rfl
    · simp only [store] at e
      cases ew : word vs <;> simp only [ew] at e
      · cases e
      · cases e; refine inv_other (f := ("name", vs)) h (by simp) (by simp) ?_ ?_ ?_ ?_ <;> simp
  by_cases h2 : key = "file"
  · subst h2
    simp only [evalField, texPrp, List.find?, String.reduceEq, decide_false, decide_true] at e
    split_ifs at e
    · cases e; exact inv_other h (by simp) (by simp) rfl rfl rfl rfl
    · simp only [store] at e
      cases ew : word vs <;> simp only [ew] at e
      · cases e
      · cases e; refine inv_other (f := ("file", vs)) h (by simp) (by simp) ?_ ?_ ?_ ?_ <;> simp
  by_cases h3 : key = "type"
  · subst h3
    simp only [evalField, texPrp, List.find?, String.reduceEq, decide_false, decide_true] at e
    split_ifs at e
    · cases e; exact inv_other h (by simp) (by simp) rfl rfl rfl rfl
    · simp only [texType] at e
      cases ew : word vs <;> simp only [ew] at e
      · cases e
      · cases e; refine inv_other (f := ("type", vs)) h (by simp) (by simp) ?_ ?_ ?_ ?_ <;> simp
  by_cases h4 : key = "depth"
  · subst h4
    simp only [evalField, texPrp, List.find?, String.reduceEq, decide_false, decide_true] at e
    split_ifs at e
    · cases e; exact inv_other h (by simp) (by simp) rfl rfl rfl rfl
    · simp only [texDepth] at e
      cases ew : num vs <;> simp only [ew] at e
      · cases e
      · split_ifs at e
        cases e; refine inv_other (f := ("depth", vs)) h (by simp) (by simp) ?_ ?_ ?_ ?_ <;> simp
  · have : (texPrp id).find? (fun p => p.key = key) = none := by
      simp [texPrp, List.find?, Ne.symm hc, Ne.symm hf, Ne.symm h1, Ne.symm h2, Ne.symm h3, Ne.symm h4]
    simp only [evalField, this, Except.ok.injEq] at e
    subst e
    exact inv_other h hc hf rfl rfl rfl rfl

private theorem inv_fold {nc nf : ℕ} : ∀ (fs pre : List (KeyField ℝ)) (s s' : Texture ℝ × (String → ℕ)), Inv nc nf pre s →
    fs.foldlM (evalField (texPrp id)) s = .ok s' → Inv nc nf (pre ++ fs) s' := by
  intro fs
  induction fs with
  | nil => intro pre s s' h e; cases e; simpa using h
  | cons f fs ih =>
    intro pre s s' h e
    rw [List.foldlM_cons] at e
    cases e1 : evalField (texPrp id) s f with
    | error x => rw [e1] at e; cases e
    | ok s1 =>
      rw [e1, ok_bind''] at e
      have := ih (pre ++ [f]) s1 s' (inv_step h e1) e
      simpa using this

/-- **C85** (`zTextureFromZTK`): of every file that is read, the texture has as many coordinates and faces as there
are fields of them, in the order of the file, and the vertices of all faces are among its coordinates. -/
theorem C85_read (junk : Vec2 ℝ) (fs : List (KeyField ℝ)) (t : Texture ℝ) (h : texFromZTK junk fs = .ok t) :
    0 < t.coord.length ∧ t.coord.length = (fieldsOf fs "coord").length ∧ t.face.length = (fieldsOf fs "face").length ∧
    (∀ (i : ℕ) vs, (fieldsOf fs "coord")[i]? = some vs → ∃ (n : ℤ) (r : List (Tok ℝ)) (u v : ℝ),
      vs = .int n :: r ∧ two r = .ok (u, v) ∧ t.coord[i]? = some ⟨u, v⟩) ∧
    (∀ (i : ℕ) vs, (fieldsOf fs "face")[i]? = some vs → ∃ (a b c : ℕ) (r : List (Tok ℝ)),
      vs = .int (a : ℤ) :: .int (b : ℤ) :: .int (c : ℤ) :: r ∧ a < t.coord.length ∧ b < t.coord.length ∧ c < t.coord.length ∧
        t.face[i]? = some (some (a, b, c))) := by
  unfold texFromZTK at h
  split_ifs at h with h0 h1
  unfold evalKeys at h
  split at h
  · rename_i s hs
    cases h
    have := inv_fold (nc := countKey fs "coord") (nf := countKey fs "face") fs [] _ s
      ⟨by simp, by simp, by simp [fieldsOf], by simp [fieldsOf], by simp [fieldsOf], by simp [fieldsOf]⟩ hs
    rw [List.nil_append] at this
    have l1 : countKey fs "coord" = (fieldsOf fs "coord").length := by simp [countKey, fieldsOf]
    have l2 : countKey fs "face" = (fieldsOf fs "face").length := by simp [countKey, fieldsOf]
    exact ⟨by rw [this.lc]; omega, this.lc.trans l1, this.lf.trans l2, this.co, by rw [this.lc]; exact this.fa⟩
  · cases h

/-- A file without coordinates is refused. -/
theorem C85_read_empty (junk : Vec2 ℝ) (fs : List (KeyField ℝ)) (h : fieldsOf fs "coord" = []) :
    texFromZTK junk fs = .error .null := by
  have : countKey fs "coord" = 0 := by
    rw [show countKey fs "coord" = (fieldsOf fs "coord").length by simp [countKey, fieldsOf], h]; rfl
  unfold texFromZTK
  split_ifs <;> rfl

/-- **The index of a coordinate in the file is not used**: of a file that lists the coordinates 1 and 0, in this
order, the coordinates are exchanged, and so are the vertices of the face. -/
theorem C85_index_ignored (junk : Vec2 ℝ) : ∃ t, texFromZTK junk
    [("coord", [.int 1, .num 5, .num 6]), ("coord", [.int 0, .num 7, .num 8]), ("face", [.int 0, .int 1, .int 1])] = .ok t ∧
      t.coord = [⟨5, 6⟩, ⟨7, 8⟩] ∧ t.face = [some (0, 1, 1)] := by
  refine ⟨{ (Texture.init : Texture ℝ) with coord := [⟨5, 6⟩, ⟨7, 8⟩], face := [some (0, 1, 1)] }, ?_, rfl, rfl⟩
  simp [texFromZTK, countKey, evalKeys, evalField, texPrp, List.find?, texCoord, texFace, texIndex, int, two, dbl, ok_bind'',
    List.replicate]

/-- **Negative indices are not refused**: a face with the vertex -1 makes the reader use memory before the
coordinates. -/
theorem C85_negative (junk : Vec2 ℝ) : texFromZTK junk
    [("coord", [.int 0, .num 5, .num 6]), ("face", [.int (-1), .int 0, .int 0])] = .error .undef := by
  simp [texFromZTK, countKey, evalKeys, evalField, texPrp, List.find?, texCoord, texFace, texIndex, int, two, dbl, ok_bind'',
    List.replicate]

/-- An index beyond the coordinates is refused. -/
theorem C85_beyond (junk : Vec2 ℝ) (n : ℤ) (hn : 1 ≤ n) : texFromZTK junk
    [("coord", [.int 0, .num 5, .num 6]), ("face", [.int 0, .int n, .int 0])] = .error .null := by
  simp [texFromZTK, countKey, evalKeys, evalField, texPrp, List.find?, texCoord, texFace, texIndex, int, two, dbl, ok_bind'',
    List.replicate, hn]

/-- **A depth of zero is refused**: a file for which nothing else is wrong is not read. -/
theorem C85_depth_zero (junk : Vec2 ℝ) : texFromZTK junk
    [("type", [.word "bump"]), ("depth", [.num 0]), ("coord", [.int 0, .num 5, .num 6])] = .error .null := by
  simp [texFromZTK, countKey, evalKeys, evalField, texPrp, List.find?, texType, texDepth, word, num, dbl, ok_bind'']
  rfl

/-! ## Writing -/

/-- What comes back of a texture that was written: the numbers in their notation, a depth for bump maps only. -/
def texBack (fmt : ℝ → ℝ) (t : Texture ℝ) : Texture ℝ :=
  { name := some (t.name.getD ""), id := 0, idBump := 0, bump := t.bump, filename := some (t.filename.getD ""),
    coord := t.coord.map fun c => ⟨fmt c.x, fmt c.y⟩, face := t.face, width := 0, height := 0,
    depth := if t.bump then fmt t.depth else 1 }

private def cField (fmt : ℝ → ℝ) (pair : ℝ → ℝ → List (Tok ℝ)) (c : Vec2 ℝ × ℕ) : KeyField ℝ :=
  ("coord", .int (c.2 : ℤ) :: pair (fmt c.1.x) (fmt c.1.y))

private def fField (f : ℕ × ℕ × ℕ) : KeyField ℝ := ("face", [.int (f.1 : ℤ), .int (f.2.1 : ℤ), .int (f.2.2 : ℤ)])

private theorem coord_fold {fmt : ℝ → ℝ} {pair : ℝ → ℝ → List (Tok ℝ)} (hp : ∀ u v, two (pair u v) = .ok (u, v)) :
    ∀ (cs done rest : List (Vec2 ℝ)) (t : Texture ℝ) (cnt : String → ℕ), rest.length = cs.length → t.coord = done ++ rest →
    cnt "coord" = done.length → ∃ cnt', ((cs.zipIdx done.length).map (cField fmt pair)).foldlM (evalField (texPrp id)) (t, cnt) =
      .ok ({ t with coord := done ++ cs.map fun c => ⟨fmt c.x, fmt c.y⟩ }, cnt') ∧ cnt' "face" = cnt "face" := by
  intro cs
  induction cs with
  | nil =>
    intro done rest t cnt h1 h2 h3
    rw [List.length_nil, List.length_eq_zero_iff] at h1
    subst h1
    exact ⟨cnt, by rw [List.map_nil, ← h2]; rfl, rfl⟩
  | cons c cs ih =>
    intro done rest t cnt h1 h2 h3
    obtain ⟨r, rest, rfl⟩ : ∃ r rs, rest = r :: rs := by
      cases rest with
      | nil => simp at h1
      | cons r rs => exact ⟨r, rs, rfl⟩
    have hlt : cnt "coord" < t.coord.length := by rw [h2, h3]; simp
    have e : evalField (texPrp id) (t, cnt) (cField fmt pair (c, done.length)) =
        .ok ({ t with coord := (done ++ [⟨fmt c.x, fmt c.y⟩]) ++ rest }, Function.update cnt "coord" (cnt "coord" + 1)) := by
      have hs : t.coord.set (cnt "coord") ⟨fmt c.x, fmt c.y⟩ = (done ++ [⟨fmt c.x, fmt c.y⟩]) ++ rest := by
        rw [h2, h3]; simp
      simp [evalField, texPrp, List.find?, cField, texCoord, int, hp, hlt, hs]
    obtain ⟨cnt', e', hf⟩ := ih (done ++ [⟨fmt c.x, fmt c.y⟩]) rest { t with coord := (done ++ [⟨fmt c.x, fmt c.y⟩]) ++ rest }
      (Function.update cnt "coord" (cnt "coord" + 1)) (by simpa using h1) rfl (by simp [h3])
    refine ⟨cnt', ?_, by rw [hf]; simp⟩
    rw [List.zipIdx_cons, List.map_cons, List.foldlM_cons, e, ok_bind'']
    have hl : (done ++ [(⟨fmt c.x, fmt c.y⟩ : Vec2 ℝ)]).length = done.length + 1 := by simp
    rw [hl] at e'
    rw [e']
    simp

private theorem face_fold : ∀ (gs : List (ℕ × ℕ × ℕ)) (done rest : List (Option (ℕ × ℕ × ℕ))) (t : Texture ℝ) (cnt : String → ℕ),
    rest.length = gs.length → t.face = done ++ rest → cnt "face" = done.length →
    (∀ g ∈ gs, g.1 < t.coord.length ∧ g.2.1 < t.coord.length ∧ g.2.2 < t.coord.length) →
    ∃ cnt', (gs.map fField).foldlM (evalField (texPrp id)) (t, cnt) = .ok ({ t with face := done ++ gs.map some }, cnt') := by
  intro gs
  induction gs with
  | nil =>
    intro done rest t cnt h1 h2 _ _
    rw [List.length_nil, List.length_eq_zero_iff] at h1
    subst h1
    exact ⟨cnt, by rw [List.map_nil, List.map_nil, ← h2]; rfl⟩
  | cons g gs ih =>
    intro done rest t cnt h1 h2 h3 h4
    obtain ⟨r, rest, rfl⟩ : ∃ r rs, rest = r :: rs := by
      cases rest with
      | nil => simp at h1
      | cons r rs => exact ⟨r, rs, rfl⟩
    have hlt : cnt "face" < t.face.length := by rw [h2, h3]; simp
    obtain ⟨g1, g2, g3⟩ := h4 g (by simp)
    have e : evalField (texPrp id) (t, cnt) (fField g) =
        .ok ({ t with face := (done ++ [some g]) ++ rest }, Function.update cnt "face" (cnt "face" + 1)) := by
      have hs : t.face.set (cnt "face") (some (g.1, g.2.1, g.2.2)) = (done ++ [some g]) ++ rest := by
        rw [h2, h3]; simp
      simp [evalField, texPrp, List.find?, fField, texFace, texIndex, int, hlt, hs, not_le.2 g1, not_le.2 g2, not_le.2 g3]
    obtain ⟨cnt', e'⟩ := ih (done ++ [some g]) rest { t with face := (done ++ [some g]) ++ rest }
      (Function.update cnt "face" (cnt "face" + 1)) (by simpa using h1) rfl (by simp [h3]) (fun x hx => h4 x (by simp [hx]))
    refine ⟨cnt', ?_⟩
    rw [List.map_cons, List.foldlM_cons, e, ok_bind'', e']
    simp

private theorem count_map {α : Type*} (l : List α) (f : α → KeyField ℝ) (k key : String) (h : ∀ a, (f a).1 = k) :
    countKey (l.map f) key = if k = key then l.length else 0 := by
  unfold countKey
  induction l with
  | nil => simp
  | cons a l ih =>
    rw [List.map_cons, List.filter_cons]
    by_cases e : k = key
    · simp only [h a, e, decide_true, if_true, List.length_cons] at ih ⊢
      omega
    · simp only [h a, e, decide_false, if_false] at ih ⊢
      simpa using ih

private theorem count_append (a b : List (KeyField ℝ)) (key : String) : countKey (a ++ b) key = countKey a key + countKey b key := by
  simp [countKey]

/-- **C85** (`zTextureFPrintZTK`, `zTextureFromZTK`): what is written of a texture with coordinates and complete
faces is read back, provided that ZEDA reads the parenthesised pairs of `zVec2DFPrint` as the two numbers. -/
theorem C85_roundtrip (junk : Vec2 ℝ) (fmt : ℝ → ℝ) (pair : ℝ → ℝ → List (Tok ℝ)) (hp : ∀ u v, two (pair u v) = .ok (u, v))
    (t : Texture ℝ) (hc : t.coord ≠ []) (hd : t.bump = true → fmt t.depth ≠ 0)
    (hf : ∀ f ∈ t.face, ∃ a b c, f = some (a, b, c) ∧ a < t.coord.length ∧ b < t.coord.length ∧ c < t.coord.length) :
    texFromZTK junk (texPrint fmt pair t) = .ok (texBack fmt t) := by
  obtain ⟨gs, hg⟩ : ∃ gs : List (ℕ × ℕ × ℕ), t.face = gs.map some := by
    refine ⟨t.face.filterMap id, ?_⟩
    have : ∀ l : List (Option (ℕ × ℕ × ℕ)), (∀ f ∈ l, ∃ g, f = some g) → l = (l.filterMap id).map some := by
      intro l
      induction l with
      | nil => intro _; rfl
      | cons f l ih =>
        intro h
        obtain ⟨g, rfl⟩ := h f (by simp)
        have e : (some g :: l).filterMap id = g :: l.filterMap id := by simp
        rw [e, List.map_cons, ← ih fun x hx => h x (by simp [hx])]
    refine this _ fun f h => ?_
    obtain ⟨a, b, c, e, -⟩ := hf f h
    exact ⟨_, e⟩
  have hgs : ∀ g ∈ gs, g.1 < t.coord.length ∧ g.2.1 < t.coord.length ∧ g.2.2 < t.coord.length := by
    intro g h
    obtain ⟨a, b, c, e, h1, h2, h3⟩ := hf (some g) (by rw [hg]; exact List.mem_map_of_mem h)
    cases e
    exact ⟨h1, h2, h3⟩
  -- the fields
  have hprint : texPrint fmt pair t = (printKeys (texPrp fmt) t ++ (t.coord.zipIdx 0).map (cField fmt pair)) ++ gs.map fField := by
    unfold texPrint
    congr 1
    rw [hg, List.filterMap_map]
    exact congrFun (List.filterMap_eq_map' (f := fField)) gs
  have hhead : printKeys (texPrp fmt) t = [("name", [.word (t.name.getD "")]), ("file", [.word (t.filename.getD "")]),
      ("type", [.word (if t.bump then "bump" else "color")])] ++ (if t.bump then [("depth", [.num (fmt t.depth)])] else []) := by
    cases hb : t.bump <;> simp [printKeys, texPrp, hb, List.range_succ]
  have hcc : countKey (texPrint fmt pair t) "coord" = t.coord.length := by
    rw [hprint, count_append, count_append, count_map _ _ "coord" _ (fun _ => rfl), count_map _ _ "face" _ (fun _ => rfl), hhead]
    cases t.bump <;> simp [countKey]
  have hcf : countKey (texPrint fmt pair t) "face" = gs.length := by
    rw [hprint, count_append, count_append, count_map _ _ "coord" _ (fun _ => rfl), count_map _ _ "face" _ (fun _ => rfl), hhead]
    cases t.bump <;> simp [countKey]
  have hlen : t.coord.length ≠ 0 := fun h => hc (List.length_eq_zero_iff.1 h)
  unfold texFromZTK
  rw [if_neg (by rw [hprint, hhead]; simp), if_neg (by rw [hcc]; exact hlen), hcc, hcf]
  set t0 : Texture ℝ := { (Texture.init : Texture ℝ) with coord := List.replicate t.coord.length junk, face := List.replicate gs.length none } with ht0
  -- the head
  obtain ⟨cnt, eh, k1, k2⟩ : ∃ cnt : String → ℕ, (printKeys (texPrp fmt) t).foldlM (evalField (texPrp id)) (t0, fun _ => 0) =
      .ok ({ t0 with name := some (t.name.getD ""), filename := some (t.filename.getD ""), bump := t.bump,
                     depth := if t.bump then fmt t.depth else 1 }, cnt) ∧ cnt "coord" = 0 ∧ cnt "face" = 0 := by
    rw [hhead]
    cases hb : t.bump
    · refine ⟨Function.update (Function.update (Function.update (fun _ => 0) "name" 1) "file" 1) "type" 1, ?_, by simp, by simp⟩
      simp [evalField, texPrp, List.find?, store, word, texType, ok_bind'', ht0, Texture.init]
    · refine ⟨Function.update (Function.update (Function.update (Function.update (fun _ => 0) "name" 1) "file" 1) "type" 1) "depth" 1,
        ?_, by simp, by simp⟩
      simp [evalField, texPrp, List.find?, store, word, texType, texDepth, num, dbl, ok_bind'', ht0, Texture.init, hd hb]
  obtain ⟨cnt1, e1, k3⟩ := coord_fold (fmt := fmt) hp t.coord [] (List.replicate t.coord.length junk)
    { t0 with name := some (t.name.getD ""), filename := some (t.filename.getD ""), bump := t.bump,
              depth := if t.bump then fmt t.depth else 1 } cnt (by simp) rfl k1
  obtain ⟨cnt2, e2⟩ := face_fold gs [] (List.replicate gs.length none)
    { t0 with name := some (t.name.getD ""), filename := some (t.filename.getD ""), bump := t.bump,
              depth := if t.bump then fmt t.depth else 1, coord := t.coord.map fun c => ⟨fmt c.x, fmt c.y⟩ } cnt1
    (by simp) rfl (k3.trans k2) (by simpa using hgs)
  rw [List.length_nil, List.nil_append] at e1
  unfold evalKeys
  rw [hprint, List.foldlM_append, List.foldlM_append, eh, ok_bind'', e1, ok_bind'', e2]
  simp [texBack, hg, ht0, Texture.init]

/-- A bump map with two coordinates and a face meets the hypotheses, for a `pair` of plain numbers. -/
example : (∀ u v : ℝ, two [.num u, .num v] = (.ok (u, v) : Except Err (ℝ × ℝ))) ∧ ∃ t : Texture ℝ, t.coord ≠ [] ∧ t.bump = true ∧ t.depth ≠ 0 ∧
    t.face ≠ [] ∧ ∀ f ∈ t.face, ∃ a b c, f = some (a, b, c) ∧ a < t.coord.length ∧ b < t.coord.length ∧ c < t.coord.length :=
  ⟨fun _ _ => rfl, ⟨some "a", 0, 0, true, some "f", [⟨0, 0⟩, ⟨1, 2⟩], [some (0, 1, 1)], 0, 0, 2⟩, by simp, rfl, by simp, by simp, by simp⟩

end Zeo
