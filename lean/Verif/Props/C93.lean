import Verif.Model.Import
import Verif.Props.C86
import Mathlib.Tactic

/-! # C93: shapes from files -/

namespace Zeo
open ZTK

/-! ## The specification -/

/-- The formats of polyhedra; DAE only if the library was built with it. -/
def Spec.meshFormat (E : Files) (fmt : String) : Prop :=
  fmt = "stl" ∨ fmt = "obj" ∨ fmt = "ply" ∨ fmt = "dae" ∧ E.dae = true

/-- The file is in the format `fmt` by its name, in upper or lower case. -/
def Spec.named (E : Files) (file fmt : String) : Prop := ∃ x, E.suffix file = some x ∧ E.lower x = fmt

/-- A file with a polyhedron `q`. -/
def Spec.holds (E : Files) (file fmt : String) (q : PH ℝ) : Prop :=
  Spec.meshFormat E fmt ∧ Spec.named E file fmt ∧ E.mesh fmt file = some q

/-- A file that cannot be imported: no suffix, an unknown one, DAE without support, or a polyhedron its reader
rejects. -/
def Spec.foreign (E : Files) (file : String) : Prop :=
  E.suffix file = none ∨ ∃ fmt, Spec.named E file fmt ∧ fmt ≠ "ztk" ∧ (¬ Spec.meshFormat E fmt ∨ E.mesh fmt file = none)

/-- The values after the name of the file: none, or a scale. -/
def Spec.scaleToks : Option ℝ → List (Tok ℝ)
  | none => []
  | some k => [.num k]

/-- The fields of name and optical information, if given. -/
def Spec.headFields (name optic : Option String) : List (KeyField ℝ) :=
  (name.map fun a => ("name", [Tok.word a])).toList ++ (optic.map fun a => ("optic", [Tok.word a])).toList

/-- Two polyhedra with the same faces, `b` with the vertices of `a` moved by `g`. -/
def Spec.Moved (g : Vec3 ℝ → Vec3 ℝ) (a b : PH ℝ) : Prop :=
  b.nv = a.nv ∧ (∀ i < a.nv, b.vert i = g (a.vert i)) ∧
    b.face.map (fun f => (f.i0, f.i1, f.i2)) = a.face.map (fun f => (f.i0, f.i1, f.i2))

/-! ## Steps -/

private theorem ok_b {ε α β : Type} (a : α) (f : α → Except ε β) : (Except.ok a >>= f) = f a := rfl
private theorem err_b {ε α β : Type} (e : ε) (f : α → Except ε β) : (Except.error e >>= f) = .error e := rfl

private theorem turn93 {τ : ℝ} (hτ : 0 ≤ τ) (u : Vec3 ℝ) (a : ℝ) :
    aaFromZTK τ [.num u.x, .num u.y, .num u.z, .num a] = .ok (Spec.turn τ u a) := by
  simp only [aaFromZTK, vecAdv, dbl]
  have e : (⟨u.x, u.y, u.z⟩ : Vec3 ℝ) = u := rfl
  rw [e]
  by_cases h : u.isTol τ
  · have h' : |u.x| ≤ τ ∧ |u.y| ≤ τ ∧ |u.z| ≤ τ := h
    rw [Vec3.normalize, if_pos h, Spec.turn, if_pos h', if_neg (lt_irrefl _)]
  · have h' : ¬ (|u.x| ≤ τ ∧ |u.y| ≤ τ ∧ |u.z| ≤ τ) := h
    have hp := Vec3.norm_pos_of_not_isTol hτ h
    rw [Vec3.normalize, if_neg h, Spec.turn, if_neg h']
    rw [if_pos (show 0 < u.normalizeNC.1 from hp)]
    simp only [Vec3.normalizeNC]
    have hn : Real.sqrt (u.x ^ 2 + u.y ^ 2 + u.z ^ 2) = u.norm := by
      simp only [Vec3.norm, zeo]; ring_nf
    rw [hn]
    congr 1
    ext <;> simp only [zeo, deg2Rad] <;> ring

variable {E : Files} {rd : String → Except Err Placed} {τ : ℝ} {junk : Mat3 ℝ} {self : Bool} {sarr : List Placed}
  {on tn : List String}

private theorem step_move93 (hτ : 0 ≤ τ) (s : Place) {c : String → ℕ} (m : Spec.Move)
    (hc : m.field.1 ≠ "rot" → c m.field.1 = 0) :
    evalField (importPrp E rd τ junk self sarr on tn) (s, c) m.field =
      .ok ({ s with f := m.apply τ s.f, xformed := true }, Function.update c m.field.1 (c m.field.1 + 1)) := by
  cases m with
  | pos b v =>
    cases b <;>
    · have := hc (by simp [Spec.Move.field])
      simp only [Spec.Move.field] at this ⊢
      simp [evalField, importPrp, placePrp, List.find?_cons, this, store, vec, dbl, Spec.Move.apply]
  | att m =>
    have := hc (by simp [Spec.Move.field])
    simp only [Spec.Move.field] at this ⊢
    simp [evalField, importPrp, placePrp, List.find?_cons, this, store, matFromZTK, three, dbl, Spec.Move.apply]
  | rot u a =>
    simp only [Spec.Move.field]
    simp [evalField, importPrp, placePrp, List.find?_cons, store, turn93 hτ, Spec.Move.apply, Mat3.rot]
  | frame g =>
    have := hc (by simp [Spec.Move.field])
    simp only [Spec.Move.field] at this ⊢
    simp [evalField, importPrp, placePrp, List.find?_cons, this, store, frameFromZTK, three, dbl, Spec.Move.apply]

private theorem moves93 (hτ : 0 ≤ τ) : ∀ (ms : List Spec.Move) (s : Place) (c : String → ℕ),
    (∀ k, k ≠ "rot" → 0 < (ms.map Spec.Move.field).countP (fun g => g.1 = k) →
      c k + (ms.map Spec.Move.field).countP (fun g => g.1 = k) ≤ 1) →
    ∃ d, (ms.map Spec.Move.field).foldlM (evalField (importPrp E rd τ junk self sarr on tn)) (s, c) =
      .ok ({ s with f := ms.foldl (Spec.Move.apply τ) s.f, xformed := s.xformed || !ms.isEmpty }, d) := by
  intro ms
  induction ms with
  | nil => intro s c _; exact ⟨c, by simp [pure, Except.pure]⟩
  | cons m ms ih =>
    intro s c hc
    have h0 : m.field.1 ≠ "rot" → c m.field.1 = 0 := by
      intro hr
      have := hc _ hr (by simp)
      simp only [List.map_cons, List.countP_cons, decide_true, if_true] at this
      omega
    rw [List.map_cons, List.foldlM_cons, step_move93 hτ s m h0, ok_b]
    obtain ⟨d, hd⟩ := ih { s with f := m.apply τ s.f, xformed := true } (Function.update c m.field.1 (c m.field.1 + 1)) (by
      intro k hr hp
      have := hc k hr (by rw [List.map_cons, List.countP_cons]; omega)
      rw [List.map_cons, List.countP_cons] at this
      by_cases e : k = m.field.1
      · subst e
        simp only [Function.update_self]
        simp only [decide_true, if_true] at this
        omega
      · rw [Function.update_of_ne e]
        omega)
    exact ⟨d, by rw [hd]; simp⟩

private theorem readEXT_mesh {file fmt : String} {q : PH ℝ} (h : Spec.holds E file fmt q) (s : Place) :
    readEXT E rd s file = .ok { s with
      body := some (.inr (.ph q)), name := if fmt = "stl" ∧ s.name = none then some (E.solid file) else s.name } := by
  obtain ⟨h1, ⟨x, h2, h3⟩, h4⟩ := h
  rcases h1 with rfl | rfl | rfl | ⟨rfl, hd⟩
  · simp [readEXT, h2, h3, readMesh, h4]
  · simp [readEXT, h2, h3, readMesh, h4]
  · simp [readEXT, h2, h3, readMesh, h4]
  · simp [readEXT, h2, h3, readMesh, h4, hd]

private theorem readEXT_foreign {file : String} (h : Spec.foreign E file) (s : Place) :
    readEXT E rd s file = .error .null := by
  rcases h with h | ⟨fmt, ⟨x, h2, rfl⟩, h3, h4⟩
  · simp [readEXT, h]
  · simp only [readEXT, h2, if_neg h3]
    rcases h4 with h4 | h4
    · simp only [Spec.meshFormat, not_or, not_and] at h4
      obtain ⟨a, b, c, d⟩ := h4
      rw [if_neg a, if_neg b, if_neg c]
      split_ifs with e f
      · exact absurd f (d e)
      · rfl
      · rfl
    · split_ifs with a b c d e
      · rw [a] at h4; simp [readMesh, h4]
      · rw [b] at h4; simp [readMesh, h4]
      · rw [c] at h4; simp [readMesh, h4]
      · rw [d] at h4; simp [readMesh, h4]
      · rfl
      · rfl

private theorem import_mesh {file fmt : String} {q : PH ℝ} (h : Spec.holds E file fmt q) (k : Option ℝ) (s : Place) :
    importFromZTK E rd s (.word file :: Spec.scaleToks k) = .ok { s with
      imported := true
      body := some (.inr (.ph (match k with | none => q | some k => q.scaleDRC k)))
      name := if fmt = "stl" ∧ s.name = none then some (E.solid file) else s.name } := by
  cases k <;> simp [importFromZTK, readEXT_mesh h, Spec.scaleToks, tokNum]

private theorem close_moved {fresh : String → Body} {fs : List (KeyField ℝ)} (s : Place) (q : PH ℝ)
    (hi : s.imported = true) (hb : s.body = some (.inr (.ph q))) (hf : s.xformed = false → s.f = ⟨.zero, .ident⟩) :
    ∃ b, s.close τ fresh fs = .ok ⟨s.name, s.optic, s.texture, .ph b⟩ ∧ Spec.Moved (fun v => s.f.pos.add (s.f.att.mulVec v)) q b := by
  simp only [Place.close, hi, if_true, hb, Place.finish]
  by_cases hx : s.xformed = true
  · rw [if_pos hx]
    refine ⟨q.xform τ s.f q, rfl, rfl, fun i hi => ?_, ?_⟩
    · simp only [PH.xform, if_pos hi, Frame3.xform]
      ext <;> simp only [zeo] <;> ring
    · simp [PH.xform, PH.mkFace, Function.comp_def]
  · rw [if_neg hx]
    refine ⟨q, rfl, rfl, fun i _ => ?_, rfl⟩
    rw [hf (by simpa using hx)]
    ext <;> simp [zeo, Mat3.ident, Vec3.zero]

/-! ## The theorems -/

/-- **A polyhedron imported from a file** in any of the formats is scaled by the number behind the name of the file and
then placed by the fields of placement; the shape has the name and the optical information given in the fields (without
a name, the one in an STL file). -/
theorem C93_import {fresh : String → Body} (hτ : 0 ≤ τ) {file fmt : String} {q : PH ℝ} (h : Spec.holds E file fmt q)
    (name optic : Option String) (k : Option ℝ) (ms : List Spec.Move) (n : ℕ)
    (hn : ∀ a, name = some a → ∀ p ∈ sarr, p.name ≠ some a)
    (hms : ∀ key, key ≠ "rot" → (ms.map Spec.Move.field).countP (fun g => g.1 = key) ≤ 1) :
    ∃ b, shapeFromZTK E τ junk fresh (n + 1) self sarr on tn
        (Spec.headFields name optic ++ ("import", .word file :: Spec.scaleToks k) :: ms.map Spec.Move.field) =
        .ok ⟨if fmt = "stl" ∧ name = none then some (E.solid file) else name, optic.bind (findName on), none, .ph b⟩ ∧
      Spec.Moved (fun v => (Spec.placement τ ms).pos.add ((Spec.placement τ ms).att.mulVec (v.mul (k.getD 1)))) q b := by
  set R := fun file => shapeFromZTK E τ junk fresh n false [] [] [] (E.ztk file) with hR
  set Q : PH ℝ := (match k with | none => q | some k => q.scaleDRC k) with hQ
  set s1 : Place := ⟨if fmt = "stl" ∧ name = none then some (E.solid file) else name, optic.bind (findName on), none,
    some (.inr (.ph Q)), true, ⟨.zero, .ident⟩, false⟩ with hs1
  have key : ∃ c, (Spec.headFields name optic ++ [("import", .word file :: Spec.scaleToks k)]).foldlM (evalField (importPrp E R τ junk self sarr on tn))
      (Place.init, fun _ => 0) = .ok (s1, c) ∧ ∀ key ∈ Spec.placeKeys, c key = 0 := by
    have hname : ∀ a, name = some a → (findName (sarr.filterMap Placed.name) a).isSome = false := by
      intro a ha
      simp only [findName, List.findIdx?_isSome, List.any_eq_false, List.mem_filterMap, decide_eq_true_eq]
      rintro x ⟨p, hp, hx⟩ rfl
      exact hn _ ha p hp hx
    have himp : ∀ (s : Place) (c : String → ℕ), c "import" = 0 →
        evalField (importPrp E R τ junk self sarr on tn) (s, c) ("import", .word file :: Spec.scaleToks k) =
        .ok ({ s with
          imported := true
          body := some (.inr (.ph Q))
          name := if fmt = "stl" ∧ s.name = none then some (E.solid file) else s.name },
          Function.update c "import" (c "import" + 1)) := by
      intro s c hc
      simp [evalField, importPrp, placePrp, List.find?_cons, hc, import_mesh h, hQ]
    have hnm : ∀ (a : String) (s : Place) (c : String → ℕ), c "name" = 0 → name = some a →
        evalField (importPrp E R τ junk self sarr on tn) (s, c) ("name", [.word a]) =
        .ok ({ s with name := some a }, Function.update c "name" (c "name" + 1)) := by
      intro a s c hc ha
      simp [evalField, importPrp, placePrp, List.find?_cons, hc, word, hname a ha]
    have hop : ∀ (a : String) (s : Place) (c : String → ℕ), c "optic" = 0 →
        evalField (importPrp E R τ junk self sarr on tn) (s, c) ("optic", [.word a]) =
        .ok ({ s with optic := findName on a }, Function.update c "optic" (c "optic" + 1)) := by
      intro a s c hc
      simp [evalField, importPrp, placePrp, List.find?_cons, hc, word, store]
    cases name with
    | none =>
      cases optic with
      | none =>
        simp only [Spec.headFields, Option.map_none, Option.toList_none, List.nil_append, List.foldlM_cons, List.foldlM_nil]
        rw [himp _ _ (by rfl), ok_b]
        exact ⟨_, rfl, by simp [Spec.placeKeys]⟩
      | some o =>
        simp only [Spec.headFields, Option.map_none, Option.map_some, Option.toList_none, Option.toList_some, List.nil_append,
          List.cons_append, List.foldlM_cons, List.foldlM_nil]
        rw [hop _ _ _ (by rfl), ok_b, himp _ _ (by simp), ok_b]
        exact ⟨_, rfl, by simp [Spec.placeKeys]⟩
    | some a =>
      cases optic with
      | none =>
        simp only [Spec.headFields, Option.map_none, Option.map_some, Option.toList_none, Option.toList_some, List.nil_append,
          List.append_nil, List.cons_append, List.foldlM_cons, List.foldlM_nil]
        rw [hnm _ _ _ (by rfl) rfl, ok_b, himp _ _ (by simp), ok_b]
        exact ⟨_, by simp [hs1, Place.init]; rfl, by simp [Spec.placeKeys]⟩
      | some o =>
        simp only [Spec.headFields, Option.map_some, Option.toList_some, List.nil_append,
          List.cons_append, List.foldlM_cons, List.foldlM_nil]
        rw [hnm _ _ _ (by rfl) rfl, ok_b, hop _ _ _ (by simp), ok_b, himp _ _ (by simp), ok_b]
        exact ⟨_, by simp [hs1, Place.init]; rfl, by simp [Spec.placeKeys]⟩
  obtain ⟨c, k1, k2⟩ := key
  obtain ⟨d, k3⟩ := moves93 (E := E) (rd := R) (junk := junk) (self := self) (sarr := sarr) (on := on) (tn := tn) hτ ms s1 c (by
    intro key hr hp
    have hk : key ∈ Spec.placeKeys := by
      rw [List.countP_pos_iff] at hp
      obtain ⟨g, hg, e⟩ := hp
      obtain ⟨m, _, rfl⟩ := List.mem_map.1 hg
      rw [← of_decide_eq_true e]
      cases m with
      | pos b v => cases b <;> simp [Spec.Move.field, Spec.placeKeys]
      | _ => simp [Spec.Move.field, Spec.placeKeys]
    rw [k2 key hk, zero_add]
    exact hms key hr)
  set s2 : Place := { s1 with f := ms.foldl (Spec.Move.apply τ) s1.f, xformed := s1.xformed || !ms.isEmpty } with hs2
  have hrun : evalKeys (importPrp E R τ junk self sarr on tn) .init
      (Spec.headFields name optic ++ ("import", .word file :: Spec.scaleToks k) :: ms.map Spec.Move.field) = .ok s2 := by
    rw [evalKeys, List.append_cons, List.foldlM_append, k1, ok_b, k3]
  obtain ⟨b, b1, b2⟩ := close_moved (τ := τ) (fresh := fresh)
    (fs := Spec.headFields name optic ++ ("import", .word file :: Spec.scaleToks k) :: ms.map Spec.Move.field) s2 Q rfl rfl (by
      intro hx
      have : ms = [] := by simpa [hs2, hs1] using hx
      subst this; rfl)
  refine ⟨b, ?_, ?_⟩
  · rw [shapeFromZTK, hrun]
    exact b1
  · obtain ⟨c1, c2, c3⟩ := b2
    have hQn : Q.nv = q.nv := by rw [hQ]; cases k <;> rfl
    have hQf : Q.face = q.face := by rw [hQ]; cases k <;> rfl
    refine ⟨c1.trans hQn, fun i hi => ?_, c3.trans (by rw [hQf])⟩
    rw [c2 i (by rw [hQn]; exact hi)]
    have hv : Q.vert i = (q.vert i).mul (k.getD 1) := by
      rw [hQ]
      cases k with
      | none => ext <;> simp [zeo]
      | some k => simp [PH.scaleDRC, hi]
    rw [hv]
    rfl

/-- A file that cannot be imported makes the shape NULL, whatever was read before and whatever comes behind. -/
theorem C93_refused {fresh : String → Body} {file : String} (h : Spec.foreign E file) (n : ℕ)
    (pre post : List (KeyField ℝ)) (r : List (Tok ℝ)) (hpre : ∀ g ∈ pre, g.1 ∈ ["name", "type", "optic", "texture"]) :
    ∃ e, shapeFromZTK E τ junk fresh (n + 1) self sarr on tn (pre ++ ("import", .word file :: r) :: post) = .error e ∧
      ((∀ g ∈ pre, ∃ a, g.2 = [.word a]) → e = .null) := by
  set R := fun file => shapeFromZTK E τ junk fresh n false [] [] [] (E.ztk file) with hR
  have step : ∀ (g : KeyField ℝ) (s : Place) (c : String → ℕ), g.1 ∈ ["name", "type", "optic", "texture"] → c "import" = 0 →
      (∃ e, evalField (importPrp E R τ junk self sarr on tn) (s, c) g = .error e ∧ ((∃ a, g.2 = [.word a]) → e = .null)) ∨
      ∃ s' c', evalField (importPrp E R τ junk self sarr on tn) (s, c) g = .ok (s', c') ∧ c' "import" = 0 := by
    rintro ⟨key, vs⟩ s c hg hc
    simp only [List.mem_cons, List.not_mem_nil, or_false] at hg
    have hw : (∃ e, word vs = .error e ∧ ¬ ∃ a, vs = [.word a]) ∨ ∃ a, word vs = .ok a := by
      rcases vs with _ | ⟨v, vs⟩
      · exact .inl ⟨_, rfl, by simp⟩
      · cases v with
        | word a => exact .inr ⟨a, rfl⟩
        | _ => exact .inl ⟨_, rfl, by simp⟩
    rcases hg with rfl | rfl | rfl | rfl
    · by_cases hz : 1 ≤ c "name"
      · exact .inr ⟨s, c, by simp [evalField, importPrp, placePrp, List.find?_cons, hz], hc⟩
      · rcases hw with ⟨e, hw, hv⟩ | ⟨a, hw⟩
        · exact .inl ⟨e, by simp [evalField, importPrp, placePrp, List.find?_cons, hz, hw], fun x => absurd x hv⟩
        · by_cases hf : (findName (sarr.filterMap Placed.name) a).isSome
          · exact .inl ⟨.null, by simp [evalField, importPrp, placePrp, List.find?_cons, hz, hw, hf], fun _ => rfl⟩
          · exact .inr ⟨_, _, by simp [evalField, importPrp, placePrp, List.find?_cons, hz, hw, hf]; exact ⟨rfl, rfl⟩, by simp [hc]⟩
    · by_cases hz : 1 ≤ c "type"
      · exact .inr ⟨s, c, by simp [evalField, importPrp, placePrp, List.find?_cons, hz], hc⟩
      · rcases hw with ⟨e, hw, hv⟩ | ⟨a, hw⟩
        · exact .inl ⟨e, by simp [evalField, importPrp, placePrp, List.find?_cons, hz, hw], fun x => absurd x hv⟩
        · by_cases hf : a ∈ types
          · exact .inr ⟨_, _, by simp [evalField, importPrp, placePrp, List.find?_cons, hz, hw, hf]; exact ⟨rfl, rfl⟩, by simp [hc]⟩
          · exact .inl ⟨.null, by simp [evalField, importPrp, placePrp, List.find?_cons, hz, hw, hf], fun _ => rfl⟩
    · by_cases hz : 1 ≤ c "optic"
      · exact .inr ⟨s, c, by simp [evalField, importPrp, placePrp, List.find?_cons, hz], hc⟩
      · rcases hw with ⟨e, hw, hv⟩ | ⟨a, hw⟩
        · exact .inl ⟨e, by simp [evalField, importPrp, placePrp, List.find?_cons, hz, hw, store], fun x => absurd x hv⟩
        · exact .inr ⟨_, _, by simp [evalField, importPrp, placePrp, List.find?_cons, hz, hw, store]; exact ⟨rfl, rfl⟩, by simp [hc]⟩
    · by_cases hz : 1 ≤ c "texture"
      · exact .inr ⟨s, c, by simp [evalField, importPrp, placePrp, List.find?_cons, hz], hc⟩
      · rcases hw with ⟨e, hw, hv⟩ | ⟨a, hw⟩
        · exact .inl ⟨e, by simp [evalField, importPrp, placePrp, List.find?_cons, hz, hw, store], fun x => absurd x hv⟩
        · exact .inr ⟨_, _, by simp [evalField, importPrp, placePrp, List.find?_cons, hz, hw, store]; exact ⟨rfl, rfl⟩, by simp [hc]⟩
  have run : ∀ (pre : List (KeyField ℝ)) (s : Place) (c : String → ℕ), (∀ g ∈ pre, g.1 ∈ ["name", "type", "optic", "texture"]) →
      c "import" = 0 → ∃ e, (pre ++ ("import", .word file :: r) :: post).foldlM
        (evalField (importPrp E R τ junk self sarr on tn)) (s, c) = .error e ∧ ((∀ g ∈ pre, ∃ a, g.2 = [.word a]) → e = .null) := by
    intro pre
    induction pre with
    | nil =>
      intro s c _ hc
      refine ⟨.null, ?_, fun _ => rfl⟩
      rw [List.nil_append, List.foldlM_cons]
      have : evalField (importPrp E R τ junk self sarr on tn) (s, c) ("import", .word file :: r) = .error .null := by
        simp [evalField, importPrp, placePrp, List.find?_cons, hc, importFromZTK, readEXT_foreign h]
      rw [this, err_b]
    | cons g pre ih =>
      intro s c hg hc
      rw [List.cons_append, List.foldlM_cons]
      rcases step g s c (hg g (by simp)) hc with ⟨e, h1, h2⟩ | ⟨s', c', h1, h2⟩
      · exact ⟨e, by rw [h1, err_b], fun hh => h2 (hh g (by simp))⟩
      · obtain ⟨e, h3, h4⟩ := ih s' c' (fun g' hg' => hg g' (by simp [hg'])) h2
        exact ⟨e, by rw [h1, ok_b, h3], fun hh => h4 fun g' hg' => hh g' (by simp [hg'])⟩
  obtain ⟨e, h1, h2⟩ := run pre .init (fun _ => 0) hpre rfl
  exact ⟨e, by simp only [shapeFromZTK]; rw [evalKeys, h1], h2⟩

/-- `zShape3DReadFile` on a file with a polyhedron gives the polyhedron, nameless unless the format is STL; on a file that
cannot be imported, NULL. -/
theorem C93_readFile {fresh : String → Body} (n : ℕ) (file : String) (hl : ∀ x, x = "ztk" → E.lower x = "ztk") :
    (∀ fmt q, Spec.holds E file fmt q →
      readFile E τ junk fresh n file = .ok ⟨if fmt = "stl" then some (E.solid file) else none, none, none, .ph q⟩) ∧
    (Spec.foreign E file → E.suffix file ≠ none → readFile E τ junk fresh n file = .error .null) := by
  refine ⟨fun fmt q h => ?_, fun h hs => ?_⟩
  · obtain ⟨h1, ⟨x, h2, h3⟩, h4⟩ := h
    have hx : x ≠ "ztk" := by
      intro e
      have := hl x e
      rw [h3] at this
      rcases h1 with rfl | rfl | rfl | ⟨rfl, _⟩ <;> simp at this
    simp only [readFile, h2, if_neg hx]
    rw [readEXT_mesh ⟨h1, ⟨x, h2, h3⟩, h4⟩]
    simp [Place.init]
  · have h' := readEXT_foreign (rd := readZTK E τ junk fresh n) h .init
    rcases h with h | ⟨fmt, ⟨x, h2, h3⟩, h4, _⟩
    · exact absurd h hs
    · have hx : x ≠ "ztk" := by
        intro e
        exact h4 (h3 ▸ hl x e)
      simp only [readFile, h2, if_neg hx, h']

/-! ## Where the code falls short -/

/-- A directory with two files: a ball, and a file that imports itself. -/
noncomputable def Spec.twoFiles : Files :=
  ⟨fun f => if f = "noname" then none else some "ztk", id, false, fun _ _ => none, fun _ => "",
   fun f => if f = "ball.ztk" then [("name", [.word "ball"]), ("type", [.word "sphere"]), ("center", [.group 0 0 0]), ("radius", [.num 1])]
     else [("import", [.word "self.ztk"])]⟩

private theorem suffix_ball : Spec.twoFiles.suffix "ball.ztk" = some "ztk" := by simp [Spec.twoFiles]
private theorem lower_ztk : Spec.twoFiles.lower "ztk" = "ztk" := rfl

private theorem ball_read (fresh : String → Body) (n : ℕ) :
    shapeFromZTK Spec.twoFiles τ junk fresh (n + 1) false [] [] [] (Spec.twoFiles.ztk "ball.ztk") =
      .ok ⟨some "ball", none, none, .sphere ⟨⟨⟨0, 0, 0⟩, 1⟩, 32⟩⟩ := by
  simp [shapeFromZTK, Spec.twoFiles, evalKeys, evalField, importPrp, placePrp, List.find?_cons, List.foldlM_cons, ok_b, word,
    types, findName, Place.close, Place.init, Body.fromZTK, sphereFromZTK, spherePrp, store, vec, num, dbl, wrap, Place.finish,
    pure, Except.pure]

/-- **Importing a ZTK file forgets what was read before**: the name and the optical information of the importing shape
are replaced by the name in the file and by nothing. -/
theorem C93_ztk_false (fresh : String → Body) (n : ℕ) :
    shapeFromZTK Spec.twoFiles τ junk fresh (n + 2) self [] ["red"] []
      [("name", [.word "sun"]), ("optic", [.word "red"]), ("import", [.word "ball.ztk"])] =
      .ok ⟨some "ball", none, none, .sphere ⟨⟨⟨0, 0, 0⟩, 1⟩, 32⟩⟩ := by
  rw [shapeFromZTK]
  simp [evalKeys, evalField, importPrp, placePrp, List.find?_cons, List.foldlM_cons, ok_b, word, importFromZTK, readEXT, suffix_ball, lower_ztk, ball_read,
    types, findName, Place.close, Place.init, store, Place.finish, pure, Except.pure]

/-- Written behind the import, both are kept. -/
theorem C93_ztk_behind (fresh : String → Body) (n : ℕ) :
    shapeFromZTK Spec.twoFiles τ junk fresh (n + 2) self [] ["red"] []
      [("import", [.word "ball.ztk"]), ("name", [.word "sun"]), ("optic", [.word "red"])] =
      .ok ⟨some "sun", some 0, none, .sphere ⟨⟨⟨0, 0, 0⟩, 1⟩, 32⟩⟩ := by
  rw [shapeFromZTK]
  simp [evalKeys, evalField, importPrp, placePrp, List.find?_cons, List.foldlM_cons, ok_b, word, importFromZTK, readEXT, suffix_ball, lower_ztk, ball_read,
    types, findName, Place.close, Place.init, store, Place.finish, pure, Except.pure]

/-- A scale behind the name of a ZTK file treats a sphere as a polyhedron. -/
theorem C93_scale_false (fresh : String → Body) (n : ℕ) :
    shapeFromZTK Spec.twoFiles τ junk fresh (n + 2) self [] [] [] [("import", [.word "ball.ztk", .num 2])] = .error .undef := by
  rw [shapeFromZTK]
  simp [evalKeys, evalField, importPrp, placePrp, List.find?_cons, List.foldlM_cons, err_b, word, importFromZTK, readEXT, suffix_ball, lower_ztk, ball_read,
    tokNum]

/-- A file that imports itself is read for ever: no depth suffices. -/
theorem C93_self_false (fresh : String → Body) (n : ℕ) : readFile Spec.twoFiles τ junk fresh n "self.ztk" = .error .undef := by
  have h : ∀ n, shapeFromZTK Spec.twoFiles τ junk fresh n false [] [] [] (Spec.twoFiles.ztk "self.ztk") = .error .undef := by
    intro n
    induction n with
    | zero => rfl
    | succ n ih =>
      rw [shapeFromZTK]
      have e : Spec.twoFiles.ztk "self.ztk" = [("import", [.word "self.ztk"])] := by simp [Spec.twoFiles]
      have e2 : Spec.twoFiles.suffix "self.ztk" = some "ztk" := by simp [Spec.twoFiles]
      have e3 : Spec.twoFiles.lower "ztk" = "ztk" := rfl
      rw [e] at ih ⊢
      simp [evalKeys, evalField, importPrp, placePrp, List.find?_cons, List.foldlM_cons, err_b, importFromZTK, readEXT, e, e2, e3, ih]
  have e2 : Spec.twoFiles.suffix "self.ztk" = some "ztk" := by simp [Spec.twoFiles]
  simp [readFile, e2, readZTK, h]

/-- A name without a suffix: NULL when it is imported, but undefined behaviour in `zShape3DReadFile`. -/
theorem C93_suffix_false (fresh : String → Body) (n : ℕ) :
    shapeFromZTK Spec.twoFiles τ junk fresh (n + 1) self [] [] [] [("import", [.word "noname"])] = .error .null ∧
    readFile Spec.twoFiles τ junk fresh n "noname" = .error .undef := by
  refine ⟨?_, by simp [readFile, Spec.twoFiles]⟩
  obtain ⟨e, h1, h2⟩ := C93_refused (E := Spec.twoFiles) (τ := τ) (junk := junk) (self := self) (sarr := []) (on := []) (tn := [])
    (fresh := fresh) (file := "noname") (.inl (by simp [Spec.twoFiles])) n [] [] [] (by simp)
  rw [h2 (by simp)] at h1
  exact h1

/-- A directory where every file is a triangle in STL or OBJ. -/
def Spec.triangleFiles : Files :=
  ⟨fun f => if f = "a.STL" then some "STL" else none, fun x => if x = "STL" then "stl" else x, false,
   fun _ _ => some ⟨3, fun i => if i = 0 then ⟨0, 0, 0⟩ else if i = 1 then ⟨1, 0, 0⟩ else ⟨0, 1, 0⟩, [⟨0, 1, 2, ⟨0, 0, 1⟩⟩]⟩,
   fun _ => "tri", fun _ => []⟩

/-- A triangle imported twice as large and raised by 3: its second corner is at (2, 0, 3). -/
example (fresh : String → Body) : ∃ b, shapeFromZTK Spec.triangleFiles 0 junk fresh 1 self [] ["red"] []
    (Spec.headFields none (some "red") ++ ("import", .word "a.STL" :: Spec.scaleToks (some 2)) ::
      [Spec.Move.pos true ⟨0, 0, 3⟩].map Spec.Move.field) = .ok ⟨some "tri", some 0, none, .ph b⟩ ∧ b.vert 1 = ⟨2, 0, 3⟩ := by
  obtain ⟨b, h1, h2, h3, -⟩ := C93_import (E := Spec.triangleFiles) (junk := junk) (self := self) (sarr := []) (on := ["red"]) (tn := [])
    (fresh := fresh) (τ := 0) le_rfl (file := "a.STL") (fmt := "stl")
    ⟨.inl rfl, ⟨"STL", by simp [Spec.triangleFiles], by simp [Spec.triangleFiles]⟩, rfl⟩ none (some "red") (some 2)
    [.pos true ⟨0, 0, 3⟩] 0 (by simp) (by simp [Spec.Move.field, List.countP_cons]; intro k _; split_ifs <;> simp)
  refine ⟨b, by simpa [findName, Spec.triangleFiles] using h1, ?_⟩
  rw [h3 1 (by norm_num)]
  ext <;> simp [Spec.placement, Spec.Move.apply, zeo, Mat3.ident]

end Zeo
