import Verif.Model.MultiShape
import Verif.Props.C53
import Verif.Props.C53Shape
import Verif.Props.C85
import Verif.Props.C86
import Mathlib.Tactic

/-! # C87: compounds of shapes in ZTK files, and their clones -/

namespace Zeo
open ZTK

/-! ## The specification -/

/-- What is left of optical information after writing and reading: the name, the colours up to decimal notation,
and the other values up to decimal notation, or within the tolerance of the default. -/
def Spec.SameOptic (fmt fmtF : ℝ → ℝ) (τ : ℝ) (o o' : Optic ℝ) : Prop :=
  o'.name = o.name ∧
  o'.ambient = Spec.roundC fmtF o.ambient ∧ o'.diffuse = Spec.roundC fmtF o.diffuse ∧
  o'.specular = Spec.roundC fmtF o.specular ∧
  (o'.esr = fmt o.esr ∨ o'.esr = 0 ∧ |o'.esr - o.esr| ≤ τ) ∧
  (o'.shininess = fmt o.shininess ∨ o'.shininess = 0 ∧ |o'.shininess - o.shininess| ≤ τ) ∧
  (o'.alpha = fmt o.alpha ∨ o'.alpha = 1 ∧ |o'.alpha - o.alpha| ≤ τ)

/-- A compound that can be written: everything has a name, and names of a kind are distinct; shapes refer to what is
there; textures have coordinates and complete faces; the body of each shape can be read back. -/
structure Spec.Writable (fmt : ℝ → ℝ) (τ : ℝ) (m : Multi) : Prop where
  onamed : ∀ o ∈ m.optics, ∃ n, o.name = some n
  onodup : (m.optics.map fun o => o.name.getD "").Nodup
  tnamed : ∀ t ∈ m.textures, ∃ n, t.name = some n
  tnodup : (m.textures.map fun t => t.name.getD "").Nodup
  tcoord : ∀ t ∈ m.textures, t.coord ≠ []
  tdepth : ∀ t ∈ m.textures, t.bump = true → fmt t.depth ≠ 0
  tface : ∀ t ∈ m.textures, ∀ f ∈ t.face, ∃ a b c, f = some (a, b, c) ∧ a < t.coord.length ∧ b < t.coord.length ∧ c < t.coord.length
  some_shape : m.shapes ≠ []
  snamed : ∀ s ∈ m.shapes, ∃ n, s.name = some n ∧ n ≠ ""
  snodup : (m.shapes.map Placed.name).Nodup
  soptic : ∀ s ∈ m.shapes, ∀ i, s.optic = some i → i < m.optics.length
  stexture : ∀ s ∈ m.shapes, ∀ i, s.texture = some i → i < m.textures.length
  sbody : ∀ s ∈ m.shapes, ∃ b, Body.fromZTK τ s.body.type (s.body.print fmt τ) = .ok b

/-- A shape that comes back: everything but the body is the same, the body is what its type makes of its fields. -/
def Spec.SameShape (fmt : ℝ → ℝ) (τ : ℝ) (s s' : Placed) : Prop :=
  s'.name = s.name ∧ s'.optic = s.optic ∧ s'.texture = s.texture ∧
    Body.fromZTK τ s.body.type (s.body.print fmt τ) = .ok s'.body

/-! ## Writing and reading -/

private theorem print_keys87 {σ K : Type*} (prps : List (Prp σ K)) (o : σ) :
    ∀ f ∈ printKeys prps o, f.1 ∈ (prps.filter fun p => p.print.isSome).map (·.key) := by
  intro f hf
  rw [printKeys, List.mem_flatMap] at hf
  obtain ⟨p, hp, hf⟩ := hf
  split at hf
  · simp at hf
  · rename_i pr hpr
    rw [List.mem_filterMap] at hf
    obtain ⟨i, -, hi⟩ := hf
    rw [Option.map_eq_some_iff] at hi
    obtain ⟨vs, -, rfl⟩ := hi
    exact List.mem_map.2 ⟨p, List.mem_filter.2 ⟨hp, by simp [hpr]⟩, rfl⟩

private theorem shape_keys (fmt : ℝ → ℝ) (τ : ℝ) (on tn : List String) (s : Shape) :
    ∀ f ∈ s.print fmt τ on tn, f.1 ∉ ["pos", "att", "rot", "frame", "mirror", "import"] := by
  intro f hf
  rw [Shape.print, List.mem_append] at hf
  have d : ∀ {l : List String}, f.1 ∈ l → (∀ k ∈ l, k ∉ ["pos", "att", "rot", "frame", "mirror", "import"]) →
    f.1 ∉ ["pos", "att", "rot", "frame", "mirror", "import"] := fun h h' => h' _ h
  rcases hf with hf | hf
  · exact d (print_keys87 _ _ f hf) (by simp [headPrp])
  cases h : s.body with
  | box b => rw [h] at hf; exact d (print_keys87 _ _ f hf) (by simp [boxPrp])
  | sphere b => rw [h] at hf; exact d (print_keys87 _ _ f hf) (by simp [spherePrp])
  | ellips b => rw [h] at hf; exact d (print_keys87 _ _ f hf) (by simp [ellipsPrp])
  | cyl b => rw [h] at hf; exact d (print_keys87 _ _ f hf) (by simp [cylPrp])
  | ecyl b => rw [h] at hf; exact d (print_keys87 _ _ f hf) (by simp [ecylPrp])
  | capsule b => rw [h] at hf; exact d (print_keys87 _ _ f hf) (by simp [cylPrp])
  | cone b => rw [h] at hf; exact d (print_keys87 _ _ f hf) (by simp [conePrp])
  | ph p =>
    rw [h] at hf
    refine d (l := ["vert", "face"]) ?_ (by decide)
    simp only [Body.print, phPrint] at hf
    split at hf
    · simp at hf
    · simp only [List.mem_append, List.mem_map] at hf
      rcases hf with ⟨i, -, rfl⟩ | ⟨g, -, rfl⟩ <;> simp

private theorem eval_optics (fmt fmtF : ℝ → ℝ) (τ : ℝ) (junk : Mat3 ℝ) (junk2 : Vec2 ℝ) (fresh : String → Body) (rest : List Section) :
    ∀ (os : List (Optic ℝ)) (m : Multi), (∀ o ∈ os, ∃ n, o.name = some n) →
    ∃ os', List.Forall₂ (Spec.SameOptic fmt fmtF τ) os os' ∧
      multiEval τ junk junk2 fresh m ((os.map fun o => ("zeo::optic", o.print fmt fmtF τ)) ++ rest) =
        multiEval τ junk junk2 fresh { m with optics := m.optics ++ os' } rest := by
  intro os
  induction os with
  | nil => intro m _; exact ⟨[], .nil, by simp⟩
  | cons o os ih =>
    intro m h
    obtain ⟨n, hn⟩ := h o (by simp)
    obtain ⟨o', ho', h1, h2⟩ := C53_optic fmt fmtF τ o n hn
    obtain ⟨os', hf, he⟩ := ih { m with optics := m.optics ++ [o'] } fun x hx => h x (by simp [hx])
    refine ⟨o' :: os', .cons ⟨h1.trans hn.symm, h2⟩ hf, ?_⟩
    simp only [List.map_cons, List.cons_append, multiEval, if_true, ho', he, List.append_assoc, List.nil_append]

private theorem eval_textures (fmt : ℝ → ℝ) (pair : ℝ → ℝ → List (Tok ℝ)) (hp : ∀ u v, two (pair u v) = .ok (u, v)) (τ : ℝ) (junk : Mat3 ℝ)
    (junk2 : Vec2 ℝ) (fresh : String → Body) (rest : List Section) :
    ∀ (ts : List (Texture ℝ)) (m : Multi), (∀ t ∈ ts, t.coord ≠ [] ∧ (t.bump = true → fmt t.depth ≠ 0) ∧
      ∀ f ∈ t.face, ∃ a b c, f = some (a, b, c) ∧ a < t.coord.length ∧ b < t.coord.length ∧ c < t.coord.length) →
    multiEval τ junk junk2 fresh m ((ts.map fun t => ("zeo::texture", texPrint fmt pair t)) ++ rest) =
        multiEval τ junk junk2 fresh { m with textures := m.textures ++ ts.map (texBack fmt) } rest := by
  intro ts
  induction ts with
  | nil => intro m _; simp
  | cons t ts ih =>
    intro m h
    obtain ⟨h1, h2, h3⟩ := h t (by simp)
    have := ih { m with textures := m.textures ++ [texBack fmt t] } fun x hx => h x (by simp [hx])
    simp only [List.map_cons, List.cons_append, multiEval, if_true, C85_roundtrip junk2 fmt pair hp t h1 h2 h3, this, List.append_assoc,
      List.nil_append, show ("zeo::texture" = "zeo::optic") = False by simp, if_false]

private theorem eval_shapes (fmt : ℝ → ℝ) {τ : ℝ} (hτ : 0 ≤ τ) (junk : Mat3 ℝ) (junk2 : Vec2 ℝ) (fresh : String → Body)
    (on tn : List String) (hon : on.Nodup) (htn : tn.Nodup) :
    ∀ (ss : List Placed) (m : Multi), m.onames = on → m.tnames = tn →
    (∀ s ∈ ss, ∃ n, s.name = some n ∧ n ≠ "") → (∀ s ∈ ss, ∀ x ∈ m.shapes, x.name ≠ s.name) → (ss.map Placed.name).Nodup →
    (∀ s ∈ ss, ∀ i, s.optic = some i → i < on.length) → (∀ s ∈ ss, ∀ i, s.texture = some i → i < tn.length) →
    (∀ s ∈ ss, ∃ b, Body.fromZTK τ s.body.type (s.body.print fmt τ) = .ok b) →
    ∃ ss', List.Forall₂ (Spec.SameShape fmt τ) ss ss' ∧
      multiEval τ junk junk2 fresh m (ss.map fun s => ("zeo::shape", (⟨s.name.getD "", s.optic, s.texture, s.body⟩ : Shape).print fmt τ on tn)) =
        .ok ({ m with shapes := m.shapes ++ ss' }, true) := by
  intro ss
  induction ss with
  | nil => intro m _ _ _ _ _ _ _ _; exact ⟨[], .nil, by simp [multiEval]⟩
  | cons s ss ih =>
    intro m e1 e2 hn hx hd ho ht hb
    obtain ⟨n, hsn, hne⟩ := hn s (by simp)
    obtain ⟨b, hb1⟩ := hb s (by simp)
    have hnew : n ∉ m.shapes.filterMap Placed.name := by
      intro hmem
      obtain ⟨x, hxm, hxn⟩ := List.mem_filterMap.1 hmem
      exact hx s (by simp) x hxm (hxn.trans hsn.symm)
    have h1 := C53_shape fmt τ (m.shapes.filterMap Placed.name) on tn ⟨n, s.optic, s.texture, s.body⟩ b hb1 hnew hon htn
      (ho s (by simp)) (ht s (by simp))
    obtain ⟨n', h2, h3⟩ := (C86_agrees hτ junk fresh true m.shapes on tn _ (shape_keys fmt τ on tn ⟨n, s.optic, s.texture, s.body⟩)).1 _ h1
    have h4 : n' = some n := by
      cases n' with
      | none => exact absurd h3.symm hne
      | some k => simp only [Option.getD_some] at h3; rw [h3]
    subst h4
    rw [List.map_cons, List.nodup_cons] at hd
    obtain ⟨ss', hf, he⟩ := ih { m with shapes := m.shapes ++ [⟨some n, s.optic, s.texture, b⟩] } e1 e2 (fun x hx => hn x (by simp [hx]))
      (by
        intro y hy x hxm
        simp only [List.mem_append, List.mem_singleton] at hxm
        rcases hxm with hxm | rfl
        · exact hx y (by simp [hy]) x hxm
        · intro h
          exact hd.1 (List.mem_map.2 ⟨y, hy, by rw [hsn]; exact h.symm⟩))
      hd.2 (fun x hx => ho x (by simp [hx])) (fun x hx => ht x (by simp [hx])) (fun x hx => hb x (by simp [hx]))
    refine ⟨⟨some n, s.optic, s.texture, b⟩ :: ss', .cons ⟨hsn.symm, rfl, rfl, hb1⟩ hf, ?_⟩
    simp only [List.map_cons, multiEval, show ("zeo::shape" = "zeo::optic") = False by simp,
      show ("zeo::shape" = "zeo::texture") = False by simp, if_false, if_true, e1, e2, hsn, Option.getD_some, h2]
    rw [he]
    simp

private theorem fill_all {α : Type*} (l : List α) (n : ℕ) (h : n = l.length) : fillArray n l = l.map some := by
  simp [fillArray, h]

private theorem count_print (fmt fmtF : ℝ → ℝ) (pair : ℝ → ℝ → List (Tok ℝ)) (τ : ℝ) (m : Multi) :
    countTag (m.print fmt fmtF pair τ) "zeo::optic" = m.optics.length ∧
    countTag (m.print fmt fmtF pair τ) "zeo::texture" = m.textures.length ∧
    countTag (m.print fmt fmtF pair τ) "zeo::shape" = m.shapes.length := by
  have h : ∀ {α : Type} (l : List α) (t k : String) (f : α → List (KeyField ℝ)),
      ((l.map fun a => (t, f a)).filter fun s : Section => s.1 = k).length = if t = k then l.length else 0 := by
    intro α l t k f
    rw [List.filter_map, List.length_map]
    by_cases e : t = k
    · rw [if_pos e, List.filter_eq_self.2 (by simp [e])]
    · rw [if_neg e, List.filter_eq_nil_iff.2 (by simp [e])]; rfl
  simp only [countTag, Multi.print, List.filter_append, List.length_append]
  rw [h, h, h, h, h, h, h, h, h]
  simp

/-- **C87** (`zMultiShape3DFPrintZTK`, then `zMultiShape3DFromZTK`): a compound comes back with all of its optical
information, textures and shapes, in the same order, and with the same references among them. -/
theorem C87_roundtrip (fmt fmtF : ℝ → ℝ) (pair : ℝ → ℝ → List (Tok ℝ)) (hp : ∀ u v, two (pair u v) = .ok (u, v)) {τ : ℝ} (hτ : 0 ≤ τ)
    (junk : Mat3 ℝ) (junk2 : Vec2 ℝ) (fresh : String → Body) (m : Multi) (hm : Spec.Writable fmt τ m) :
    ∃ os ss, List.Forall₂ (Spec.SameOptic fmt fmtF τ) m.optics os ∧ List.Forall₂ (Spec.SameShape fmt τ) m.shapes ss ∧
      multiFromZTK τ junk junk2 fresh (m.print fmt fmtF pair τ) =
        .ok ⟨os.map some, m.textures.map fun t => some (texBack fmt t), ss.map some⟩ := by
  obtain ⟨c1, c2, c3⟩ := count_print fmt fmtF pair τ m
  obtain ⟨os, ho, h1⟩ := eval_optics fmt fmtF τ junk junk2 fresh
    ((m.textures.map fun t => ("zeo::texture", texPrint fmt pair t)) ++
      (m.shapes.map fun s => ("zeo::shape", (⟨s.name.getD "", s.optic, s.texture, s.body⟩ : Shape).print fmt τ m.onames m.tnames)))
    m.optics ⟨[], [], []⟩ hm.onamed
  have h2 := eval_textures fmt pair hp τ junk junk2 fresh
    (m.shapes.map fun s => ("zeo::shape", (⟨s.name.getD "", s.optic, s.texture, s.body⟩ : Shape).print fmt τ m.onames m.tnames))
    m.textures ⟨[] ++ os, [], []⟩ (fun t ht => ⟨hm.tcoord t ht, hm.tdepth t ht, hm.tface t ht⟩)
  have eo : os.map (fun o => o.name.getD "") = m.onames := by
    have : ∀ l l', List.Forall₂ (Spec.SameOptic fmt fmtF τ) l l' → l'.map (fun o => o.name.getD "") = l.map (fun o => o.name.getD "") := by
      intro l l' h
      induction h with
      | nil => rfl
      | cons h _ ih => simp only [List.map_cons, ih, h.1]
    exact this _ _ ho
  have et : (m.textures.map (texBack fmt)).map (fun t => t.name.getD "") = m.tnames := by
    simp [Multi.tnames, texBack]
  obtain ⟨ss, hs, h3⟩ := eval_shapes fmt hτ junk junk2 fresh m.onames m.tnames hm.onodup hm.tnodup m.shapes
    ⟨[] ++ os, [] ++ m.textures.map (texBack fmt), []⟩ (by simpa [Multi.onames] using eo) (by simpa [Multi.tnames] using et) hm.snamed (by simp) hm.snodup
    (by simpa [Multi.onames] using hm.soptic) (by simpa [Multi.tnames] using hm.stexture) hm.sbody
  refine ⟨os, ss, ho, hs, ?_⟩
  rw [multiFromZTK, if_neg (by rw [c3]; simpa using hm.some_shape), c1, c2, c3]
  have : multiEval τ junk junk2 fresh ⟨[], [], []⟩ (m.print fmt fmtF pair τ) = .ok (⟨os, m.textures.map (texBack fmt), ss⟩, true) := by
    rw [Multi.print, List.append_assoc, h1, h2, h3]; simp
  rw [this]
  simp only
  rw [fill_all _ _ ho.length_eq, fill_all _ _ (by simp), fill_all _ _ hs.length_eq]
  simp

/-! ## What is read -/

private theorem fold_inv {σ K : Type*} (prps : List (Prp σ K)) (P : σ → Prop)
    (h : ∀ p ∈ prps, ∀ s i vs s', P s → p.eval s i vs = .ok s' → P s') :
    ∀ (fs : List (KeyField K)) (s : σ) (c : String → ℕ) (r : σ × (String → ℕ)), P s →
      fs.foldlM (evalField prps) (s, c) = .ok r → P r.1 := by
  intro fs
  induction fs with
  | nil => intro s c r hs e; simp only [List.foldlM_nil] at e; cases e; exact hs
  | cons f fs ih =>
    intro s c r hs e
    rw [List.foldlM_cons] at e
    cases g : evalField prps (s, c) f with
    | error _ => rw [g] at e; cases e
    | ok y =>
      rw [g] at e
      obtain ⟨s', c'⟩ := y
      refine ih s' c' r ?_ e
      simp only [evalField] at g
      split at g
      · cases g; exact hs
      · rename_i p hp
        split at g
        · cases g; exact hs
        · cases g' : p.eval s (c f.1) f.2 with
          | error _ => rw [g'] at g; cases g
          | ok o =>
            rw [g'] at g
            cases g
            exact h p (List.mem_of_find?_eq_some hp) _ _ _ _ hs g'

private theorem findName_lt {l : List String} {n : String} {k : ℕ} (h : findName l n = some k) : k < l.length := by
  rw [findName] at h
  exact (List.findIdx?_eq_some_iff_getElem.1 h).1

/-- A shape beside the shapes read before it. -/
private def Fits (sarr : List Placed) (no nt : ℕ) (nm : Option String) (o t : Option ℕ) : Prop :=
  (∀ n, nm = some n → ∀ q ∈ sarr, q.name ≠ some n) ∧ (∀ k, o = some k → k < no ∨ ∃ q ∈ sarr, q.optic = some k) ∧
  (∀ k, t = some k → k < nt ∨ ∃ q ∈ sarr, q.texture = some k)

private theorem mirror_fits {τ : ℝ} {junk : Mat3 ℝ} {self : Bool} {sarr : List Placed} {no nt : ℕ} {s s' : Place} {vs : List (Tok ℝ)}
    (h : Fits sarr no nt s.name s.optic s.texture) (e : mirrorFromZTK τ junk self sarr s vs = .ok s') :
    Fits sarr no nt s'.name s'.optic s'.texture := by
  unfold mirrorFromZTK at e
  split at e
  · split at e
    · split at e
      · split at e
        · split at e <;> cases e
        · cases e
        · cases e
      · cases e; exact h
    · rename_i ref href
      have hm := List.mem_of_find?_eq_some href
      split at e
      · split at e
        · cases e
        · cases e
          refine ⟨?_, fun k hk => .inr ⟨ref, hm, hk⟩, fun k hk => .inr ⟨ref, hm, hk⟩⟩
          intro n hn
          split_ifs at hn
          exact h.1 n hn
      · cases e
      · cases e
  · cases e

private theorem placed_fits {τ : ℝ} {junk : Mat3 ℝ} {fresh : String → Body} {self : Bool} {sarr : List Placed} {on tn : List String}
    {fs : List (KeyField ℝ)} {p : Placed} (e : placedFromZTK τ junk fresh self sarr on tn fs = .ok p) :
    Fits sarr on.length tn.length p.name p.optic p.texture := by
  have key : ∀ s, evalKeys (placePrp τ junk self sarr on tn) .init fs = .ok s → Fits sarr on.length tn.length s.name s.optic s.texture := by
    intro s hs
    rw [evalKeys] at hs
    split at hs
    swap
    · cases hs
    rename_i r hr
    cases hs
    refine fold_inv _ (fun s : Place => Fits sarr on.length tn.length s.name s.optic s.texture) ?_ fs _ _ r ?_ hr
    · intro p hp s i vs s' h e
      simp only [placePrp, List.mem_cons, List.not_mem_nil, or_false] at hp
      rcases hp with rfl | rfl | rfl | rfl | rfl | rfl | rfl | rfl | rfl | rfl
      · simp only at e
        split at e
        · cases e
        · rename_i n _
          split_ifs at e with hf
          cases e
          refine ⟨?_, h.2⟩
          intro k hk q hq hqn
          simp only [Option.some.injEq] at hk
          subst hk
          apply hf
          rw [findName, List.findIdx?_isSome, List.any_eq_true]
          exact ⟨n, List.mem_filterMap.2 ⟨q, hq, hqn⟩, by simp⟩
      · simp only at e
        split at e
        · cases e
        · split_ifs at e
          cases e; exact h
      · simp only [store] at e
        split at e
        swap
        · cases e
        cases e
        exact ⟨h.1, fun k hk => .inl (findName_lt hk), h.2.2⟩
      · simp only [store] at e
        split at e
        swap
        · cases e
        cases e
        exact ⟨h.1, h.2.1, fun k hk => .inl (findName_lt hk)⟩
      · exact mirror_fits h e
      · cases e
      all_goals
        simp only [store] at e
        split at e
        swap
        · cases e
        cases e; exact h
    · exact ⟨by simp [Place.init], by simp [Place.init], by simp [Place.init]⟩
  have fin : ∀ s b, evalKeys (placePrp τ junk self sarr on tn) .init fs = .ok s → s.finish τ b = .ok p →
      Fits sarr on.length tn.length p.name p.optic p.texture := by
    intro s b hs hf
    have := key s hs
    unfold Place.finish at hf
    split_ifs at hf
    · split at hf
      · cases hf; exact this
      · cases hf
    · cases hf; exact this
  unfold placedFromZTK at e
  split at e
  · cases e
  rename_i s hs
  split_ifs at e
  · split at e
    · exact fin _ _ hs e
    · exact fin _ _ hs e
    · cases e
  · split at e
    · split at e
      · cases e
      · exact fin _ _ hs e
    · cases e

private structure Good (m : Multi) : Prop where
  names : m.shapes.Pairwise fun a b => ∀ n, a.name = some n → b.name ≠ some n
  optics : ∀ s ∈ m.shapes, ∀ k, s.optic = some k → k < m.optics.length
  textures : ∀ s ∈ m.shapes, ∀ k, s.texture = some k → k < m.textures.length

private theorem eval_good {τ : ℝ} {junk : Mat3 ℝ} {junk2 : Vec2 ℝ} {fresh : String → Body} :
    ∀ (secs : List Section) (m m' : Multi) (b : Bool), Good m → multiEval τ junk junk2 fresh m secs = .ok (m', b) →
      Good m' ∧ m'.optics.length ≤ m.optics.length + countTag secs "zeo::optic" ∧
      m'.textures.length ≤ m.textures.length + countTag secs "zeo::texture" ∧
      m'.shapes.length ≤ m.shapes.length + countTag secs "zeo::shape" := by
  intro secs
  induction secs with
  | nil => intro m m' b h e; simp only [multiEval] at e; cases e; exact ⟨h, by simp⟩
  | cons sec secs ih =>
    intro m m' b h e
    obtain ⟨tag, fs⟩ := sec
    have ct : ∀ k, countTag ((tag, fs) :: secs) k = (if tag = k then 1 else 0) + countTag secs k := by
      intro k
      simp only [countTag, List.filter_cons]
      split_ifs <;> simp_all <;> omega
    simp only [ct]
    rw [multiEval] at e
    split_ifs at e with h1 h2 h3
    · subst h1
      cases g : Optic.fromZTK τ fs with
      | ok o =>
        rw [g] at e
        have g' : Good { m with optics := m.optics ++ [o] } := ⟨h.names, fun s hs k hk => by
          have := h.optics s hs k hk; simp only [List.length_append, List.length_singleton]; omega, h.textures⟩
        obtain ⟨r1, r2, r3, r4⟩ := ih _ _ _ g' e
        simp only [List.length_append, List.length_singleton] at r2
        refine ⟨r1, ?_, ?_, ?_⟩ <;> simp <;> omega
      | error er =>
        rw [g] at e
        cases er <;> cases e
        exact ⟨h, by omega, by omega, by omega⟩
    · subst h2
      cases g : texFromZTK junk2 fs with
      | ok o =>
        rw [g] at e
        have g' : Good { m with textures := m.textures ++ [o] } := ⟨h.names, h.optics, fun s hs k hk => by
          have := h.textures s hs k hk; simp only [List.length_append, List.length_singleton]; omega⟩
        obtain ⟨r1, r2, r3, r4⟩ := ih _ _ _ g' e
        simp only [List.length_append, List.length_singleton] at r3
        refine ⟨r1, ?_, ?_, ?_⟩ <;> simp <;> omega
      | error er =>
        rw [g] at e
        cases er <;> cases e
        exact ⟨h, by omega, by omega, by omega⟩
    · subst h3
      cases g : placedFromZTK τ junk fresh true m.shapes m.onames m.tnames fs with
      | ok o =>
        rw [g] at e
        obtain ⟨f1, f2, f3⟩ := placed_fits g
        have g' : Good { m with shapes := m.shapes ++ [o] } := by
          refine ⟨?_, ?_, ?_⟩
          · rw [List.pairwise_append]
            refine ⟨h.names, by simp, ?_⟩
            intro a ha b hb n hn hbn
            rw [List.mem_singleton] at hb
            subst hb
            exact f1 n hbn a ha hn
          · intro s hs k hk
            rw [List.mem_append, List.mem_singleton] at hs
            rcases hs with hs | rfl
            · exact h.optics s hs k hk
            · rcases f2 k hk with h5 | ⟨q, hq, hqk⟩
              · simpa [Multi.onames] using h5
              · exact h.optics q hq k hqk
          · intro s hs k hk
            rw [List.mem_append, List.mem_singleton] at hs
            rcases hs with hs | rfl
            · exact h.textures s hs k hk
            · rcases f3 k hk with h5 | ⟨q, hq, hqk⟩
              · simpa [Multi.tnames] using h5
              · exact h.textures q hq k hqk
        obtain ⟨r1, r2, r3, r4⟩ := ih _ _ _ g' e
        simp only [List.length_append, List.length_singleton] at r4
        refine ⟨r1, ?_, ?_, ?_⟩ <;> simp <;> omega
      | error er =>
        rw [g] at e
        cases er <;> cases e
        exact ⟨h, by omega, by omega, by omega⟩
    · obtain ⟨r1, r2, r3, r4⟩ := ih _ _ _ h e
      refine ⟨r1, ?_, ?_, ?_⟩ <;> omega

private theorem fill_get {α : Type*} {n i : ℕ} {l : List α} {a : α} (h : (fillArray n l)[i]? = some (some a)) : l[i]? = some a := by
  rw [fillArray, List.getElem?_append] at h
  split_ifs at h with hi
  · simpa using h
  · rw [List.getElem?_replicate] at h
    split_ifs at h
    simp at h

/-- **C87** (`zMultiShape3DFromZTK`), any file: the arrays have as many elements as the file has sections of the kind;
no two shapes that were read have the same name, and what a shape refers to was read. -/
theorem C87_read (τ : ℝ) (junk : Mat3 ℝ) (junk2 : Vec2 ℝ) (fresh : String → Body) (secs : List Section) (r : MultiArrays)
    (h : multiFromZTK τ junk junk2 fresh secs = .ok r) :
    (r.optics.length = (secs.filter fun s => s.1 = "zeo::optic").length ∧
      r.textures.length = (secs.filter fun s => s.1 = "zeo::texture").length ∧
      r.shapes.length = (secs.filter fun s => s.1 = "zeo::shape").length) ∧
    (∀ (i j : ℕ) (a b : Placed) (n : String), r.shapes[i]? = some (some a) → r.shapes[j]? = some (some b) → a.name = some n → b.name = some n → i = j) ∧
    (∀ s, some s ∈ r.shapes → ∀ k, s.optic = some k → ∃ o, r.optics[k]? = some (some o)) ∧
    (∀ s, some s ∈ r.shapes → ∀ k, s.texture = some k → ∃ t, r.textures[k]? = some (some t)) := by
  rw [multiFromZTK] at h
  split_ifs at h
  cases g : multiEval τ junk junk2 fresh ⟨[], [], []⟩ secs with
  | error e => rw [g] at h; cases h
  | ok y =>
    obtain ⟨m, b⟩ := y
    rw [g] at h
    cases h
    obtain ⟨G, l1, l2, l3⟩ := eval_good secs _ _ _ ⟨by simp, by simp, by simp⟩ g
    simp only [List.length_nil, zero_add] at l1 l2 l3
    have len : ∀ {α : Type} (n : ℕ) (l : List α), l.length ≤ n → (fillArray n l).length = n := by
      intro α n l hl; simp [fillArray]; omega
    have get : ∀ {α : Type} (n k : ℕ) (l : List α), k < l.length → ∃ a, (fillArray n l)[k]? = some (some a) := by
      intro α n k l hk
      refine ⟨l[k], ?_⟩
      rw [fillArray, List.getElem?_append_left (by simpa using hk)]
      simp [hk]
    have mem : ∀ {s}, some s ∈ fillArray (countTag secs "zeo::shape") m.shapes → s ∈ m.shapes := by
      intro s hs
      simpa [fillArray, List.mem_replicate] using hs
    refine ⟨⟨len _ _ l1, len _ _ l2, len _ _ l3⟩, ?_, fun s hs k hk => get _ _ _ (G.optics s (mem hs) k hk),
      fun s hs k hk => get _ _ _ (G.textures s (mem hs) k hk)⟩
    intro i j a b n hi hj ha hb
    obtain ⟨hi, rfl⟩ := List.getElem?_eq_some_iff.1 (fill_get hi)
    obtain ⟨hj, rfl⟩ := List.getElem?_eq_some_iff.1 (fill_get hj)
    rcases lt_trichotomy i j with hij | hij | hij
    · exact absurd hb (List.pairwise_iff_getElem.1 G.names i j ‹_› ‹_› hij n ha)
    · exact hij
    · exact absurd ha (List.pairwise_iff_getElem.1 G.names j i ‹_› ‹_› hij n hb)

/-- **C87** (`zMultiShape3DFromZTK`): a file without shapes is refused. -/
theorem C87_empty (τ : ℝ) (junk : Mat3 ℝ) (junk2 : Vec2 ℝ) (fresh : String → Body) (secs : List Section)
    (h : ∀ s ∈ secs, s.1 ≠ "zeo::shape") : multiFromZTK τ junk junk2 fresh secs = .error .null := by
  rw [multiFromZTK, if_pos]
  rw [countTag, List.filter_eq_nil_iff.2]
  · rfl
  · intro s hs; simpa using h s hs

/-- **C87, what goes wrong** (`zMultiShape3DFromZTK` does not look at the result of `_ZTKEvalTag`): where the first
section is a shape without type, nothing of the file is read, and yet the compound is returned, with as many shapes
without class and body as the file has. -/
theorem C87_failed_false (τ : ℝ) (junk : Mat3 ℝ) (junk2 : Vec2 ℝ) (fresh : String → Body) (n : String) (secs : List Section) :
    ∃ r, multiFromZTK τ junk junk2 fresh (("zeo::shape", [("name", [.word n])]) :: secs) = .ok r ∧
      r.shapes = List.replicate (1 + (secs.filter fun s => s.1 = "zeo::shape").length) none ∧ ∀ o ∈ r.optics, o = none := by
  have c : countTag (("zeo::shape", [("name", [Tok.word n])]) :: secs) "zeo::shape" = 1 + countTag secs "zeo::shape" := by
    simp only [countTag, List.filter_cons]; simp; omega
  have e : placedFromZTK τ junk fresh true [] [] [] [("name", [Tok.word n])] = .error .null := by
    simp [placedFromZTK, evalKeys, evalField, placePrp, findName, ZTK.word, List.foldlM_cons, List.foldlM_nil, Place.init, List.find?,
      bind, Except.bind, pure, Except.pure]
  refine ⟨⟨fillArray (countTag (("zeo::shape", [("name", [Tok.word n])]) :: secs) "zeo::optic") [],
    fillArray (countTag (("zeo::shape", [("name", [Tok.word n])]) :: secs) "zeo::texture") [],
    fillArray (countTag (("zeo::shape", [("name", [Tok.word n])]) :: secs) "zeo::shape") []⟩, ?_, ?_⟩
  · rw [multiFromZTK, if_neg (by rw [c]; omega), multiEval]
    simp only [show ("zeo::shape" = "zeo::optic") = False by simp,
      show ("zeo::shape" = "zeo::texture") = False by simp, if_false, if_true, Multi.onames, Multi.tnames, List.map_nil, e]
  · rw [c]
    simp only [fillArray, List.map_nil, List.length_nil, Nat.sub_zero, List.nil_append]
    exact ⟨rfl, fun o ho => List.eq_of_mem_replicate ho⟩

/-- **C87, what goes wrong** (the sections are read in the order of the file): a shape whose optical information comes
later in the file has none, where it has it in the other order. -/
theorem C87_optic_after (τ : ℝ) (junk : Mat3 ℝ) (junk2 : Vec2 ℝ) (fresh : String → Body) (a o : String) (x y z r : ℝ) :
    let shape : Section := ("zeo::shape", [("name", [.word a]), ("type", [.word "sphere"]), ("optic", [.word o]),
      ("center", [.num x, .num y, .num z]), ("radius", [.num r])])
    let optic : Section := ("zeo::optic", [("name", [.word o])])
    (∃ m s, multiFromZTK τ junk junk2 fresh [shape, optic] = .ok m ∧ m.shapes = [some s] ∧ s.optic = none) ∧
    ∃ m s, multiFromZTK τ junk junk2 fresh [optic, shape] = .ok m ∧ m.shapes = [some s] ∧ s.optic = some 0 := by
  intro shape optic
  have ho : ∃ q, Optic.fromZTK τ [("name", [Tok.word o])] = .ok q ∧ q.name = some o := by
    refine ⟨_, rfl, rfl⟩
  obtain ⟨q, hq, hqn⟩ := ho
  have hs : ∀ on : List String, ∃ b, placedFromZTK τ junk fresh true [] on [] [("name", [.word a]), ("type", [.word "sphere"]), ("optic", [.word o]),
      ("center", [.num x, .num y, .num z]), ("radius", [.num r])] = .ok ⟨some a, findName on o, none, b⟩ := by
    intro on
    obtain ⟨b, hb⟩ : ∃ b, Body.fromZTK τ "sphere" [("name", [.word a]), ("type", [.word "sphere"]), ("optic", [.word o]),
      ("center", [.num x, .num y, .num z]), ("radius", [.num r])] = .ok b := ⟨_, rfl⟩
    refine ⟨b, ?_⟩
    simp [placedFromZTK, evalKeys, evalField, placePrp, findName, ZTK.word, List.foldlM_cons, List.foldlM_nil, Place.init, List.find?,
      bind, Except.bind, pure, Except.pure, types, store, hb, Place.finish]
  obtain ⟨b1, h1⟩ := hs []
  obtain ⟨b2, h2⟩ := hs [o]
  constructor
  · refine ⟨⟨[some q], [], [some ⟨some a, findName [] o, none, b1⟩]⟩, _, ?_, rfl, rfl⟩
    simp [multiFromZTK, countTag, shape, optic, multiEval, Multi.onames, Multi.tnames, h1, hq, fillArray]
  · refine ⟨⟨[some q], [], [some ⟨some a, findName [o] o, none, b2⟩]⟩, _, ?_, rfl, by simp [findName, List.findIdx?_cons]⟩
    simp [multiFromZTK, countTag, shape, optic, multiEval, Multi.onames, Multi.tnames, h2, hq, hqn, fillArray]

/-! ## Clones -/

/-- The number of divisions, where there is one. -/
def Spec.divOf : Body → Option ℤ
  | .box _ | .ph _ => none
  | .sphere s => some s.div
  | .ellips s => some s.div
  | .cyl s => some s.div
  | .ecyl s => some s.div
  | .capsule s => some s.div
  | .cone s => some s.div

private theorem unit_of {τ : ℝ} (hτ : 0 ≤ τ) (hτ' : τ ≤ 1/4) (v old : Vec3 ℝ) (hv : v.sqrNorm = 1) : (v.normalize τ old).2 = v := by
  have hn : v.norm = 1 := by rw [Vec3.norm, hv, Real.sqrt_one]
  have ht : ¬ v.isTol τ := by
    intro h
    obtain ⟨h1, h2, h3⟩ : |v.x| ≤ τ ∧ |v.y| ≤ τ ∧ |v.z| ≤ τ := h
    have a1 := sq_le_sq' (by linarith [abs_nonneg v.x, neg_abs_le v.x]) (le_trans (le_abs_self _) h1)
    have a2 := sq_le_sq' (by linarith [abs_nonneg v.y, neg_abs_le v.y]) (le_trans (le_abs_self _) h2)
    have a3 := sq_le_sq' (by linarith [abs_nonneg v.z, neg_abs_le v.z]) (le_trans (le_abs_self _) h3)
    simp only [zeo] at hv
    nlinarith
  rw [Vec3.normalize, if_neg ht]
  simp only [Vec3.normalizeNC, hn]
  ext <;> simp [zeo]

/-- **C87** (the class methods `_clone`): the clone of a proper shape is the same shape; the number of divisions is
the same unless it is zero. -/
theorem C87_body {τ : ℝ} (hτ : 0 ≤ τ) (hτ' : τ ≤ 1/4) (old : Mat3 ℝ) (b : Body) (hb : Spec.ProperBody τ b) :
    Spec.solid (b.clone τ old) = Spec.solid b ∧ (Spec.divOf b ≠ some 0 → b.clone τ old = b) := by
  have e : Spec.divOf b ≠ some 0 → b.clone τ old = b := by
    intro hd
    cases b with
    | box b =>
      obtain ⟨hr, h1, h2, h3⟩ := hb
      obtain ⟨c1, c2, c3, c4, c5, c6⟩ := hr.cols
      have u1 : b.frame.att.x.sqrNorm = 1 := by simp only [zeo] at *; linarith
      have u2 : b.frame.att.y.sqrNorm = 1 := by simp only [zeo] at *; linarith
      have u3 : b.frame.att.z.sqrNorm = 1 := by simp only [zeo] at *; linarith
      simp only [Body.clone, Box3.create, unit_of hτ hτ' _ _ u1, unit_of hτ hτ' _ _ u2, unit_of hτ hτ' _ _ u3, abs_of_pos h1, abs_of_pos h2,
        abs_of_pos h3]
    | ellips s =>
      obtain ⟨hr, h1, h2, h3⟩ := hb
      have : s.div ≠ 0 := fun h => hd (by simp [Spec.divOf, h])
      simp only [Body.clone, storeDiv, if_neg this, Ellips.copy, Ellips.create, abs_of_pos h1, abs_of_pos h2, abs_of_pos h3]
    | ecyl s => rfl
    | ph p =>
      simp only [Body.clone, PH.clone]
      have : (p.face.map fun f => PH.mkFace τ p.vert f.i0 f.i1 f.i2) = p.face := by
        conv_rhs => rw [← List.map_id p.face]
        exact List.map_congr_left fun f hf => ((hb.1 f hf).1).symm
      rw [this]
    | sphere s =>
      have : s.div ≠ 0 := fun h => hd (by simp [Spec.divOf, h])
      simp only [Body.clone, storeDiv, if_neg this]
    | cyl s =>
      have : s.div ≠ 0 := fun h => hd (by simp [Spec.divOf, h])
      simp only [Body.clone, storeDiv, if_neg this]
    | capsule s =>
      have : s.div ≠ 0 := fun h => hd (by simp [Spec.divOf, h])
      simp only [Body.clone, storeDiv, if_neg this]
    | cone s =>
      have : s.div ≠ 0 := fun h => hd (by simp [Spec.divOf, h])
      simp only [Body.clone, storeDiv, if_neg this]
  refine ⟨?_, e⟩
  by_cases hd : Spec.divOf b = some 0
  · cases b with
    | box b => cases hd
    | ph b => cases hd
    | ellips s =>
      obtain ⟨hr, h1, h2, h3⟩ := hb
      simp only [Body.clone, Spec.solid, Ellips.copy, Ellips.create, abs_of_pos h1, abs_of_pos h2, abs_of_pos h3]
    | sphere s => rfl
    | cyl s => rfl
    | ecyl s => rfl
    | capsule s => rfl
    | cone s => rfl
  · rw [e hd]

private theorem collect_map {α β : Type*} (f : α → Except Err β) (g : α → β) :
    ∀ l : List α, (∀ a ∈ l, f a = .ok (g a)) → collect f l = .ok (l.map g) := by
  intro l
  induction l with
  | nil => intro _; rfl
  | cons a l ih =>
    intro h
    simp only [collect, h a (by simp), ih fun x hx => h x (by simp [hx]), List.map_cons]

private theorem collect_ok {α β : Type*} (f : α → Except Err β) :
    ∀ (l : List α) (r : List β), collect f l = .ok r → List.Forall₂ (fun a b => f a = .ok b) l r := by
  intro l
  induction l with
  | nil => intro r h; cases h; exact .nil
  | cons a l ih =>
    intro r h
    simp only [collect] at h
    cases e : f a with
    | error _ => rw [e] at h; cases h
    | ok b =>
      rw [e] at h
      cases e' : collect f l with
      | error _ => rw [e'] at h; cases h
      | ok l' => rw [e'] at h; cases h; exact .cons e (ih _ e')

/-- **C87** (`zMultiShape3DClone`), partial: the clone has the same optical information and shapes with the same names
and solids, which refer to the clone's own optical information.  Every shape has to have optical information, unless
there is none at all, and every texture a file name, coordinates and faces.  Textures: see `C87_clone_texture`. -/
theorem C87_clone_partial {τ : ℝ} (hτ : 0 ≤ τ) (hτ' : τ ≤ 1/4) (old : Mat3 ℝ) (junk2 : Vec2 ℝ) (m : Multi)
    (ho : ∀ o ∈ m.optics, o.name ≠ none) (ht : ∀ t ∈ m.textures, t.filename ≠ none ∧ t.coord ≠ [] ∧ t.face ≠ [])
    (hn : ∀ s ∈ m.shapes, s.name ≠ none) (hs : ∀ s ∈ m.shapes, m.optics = [] ∧ s.optic = none ∨ ∃ i < m.optics.length, s.optic = some i)
    (hb : ∀ s ∈ m.shapes, Spec.ProperBody τ s.body) :
    ∃ c, m.clone τ old junk2 = .ok c ∧ c.optics = m.optics ∧ c.textures.length = m.textures.length ∧
      List.Forall₂ (fun s t => t.name = s.name ∧ t.optic = s.optic.map .cln ∧ Spec.solid t.body = Spec.solid s.body) m.shapes c.shapes := by
  have e1 : collect (fun o : Optic ℝ => if o.name = none then .error .unmodelled else .ok (o.clone o)) m.optics = .ok m.optics := by
    rw [collect_map _ id m.optics, List.map_id]
    intro o h
    rw [if_neg (ho o h)]; rfl
  obtain ⟨ts, e2, l2⟩ : ∃ ts, collect (texClone junk2) m.textures = .ok ts ∧
      ts.length = m.textures.length := by
    refine ⟨_, collect_map _ (fun t => (t.clone junk2).getD t) m.textures ?_, by simp⟩
    intro t h
    obtain ⟨h1, h2, h3⟩ := ht t h
    obtain ⟨f, hf⟩ := Option.ne_none_iff_exists'.1 h1
    have : ¬ (t.coord.length = 0 ∨ t.face.length = 0) := by simp [h2, h3]
    simp only [texClone, Texture.clone, hf, if_neg this, Option.getD_some]
  have e3 := collect_map (Placed.clone τ old m.optics.length)
    (fun s => ⟨s.name, s.optic.map .cln, s.texture.map .org, s.body.clone τ old⟩) m.shapes (by
      intro s h
      obtain ⟨n, hn'⟩ := Option.ne_none_iff_exists'.1 (hn s h)
      rcases hs s h with ⟨h1, h2⟩ | ⟨i, h1, h2⟩
      · simp [Placed.clone, hn', h2, h1]
      · simp [Placed.clone, hn', h2, h1])
  refine ⟨⟨m.optics, ts, m.shapes.map fun s => ⟨s.name, s.optic.map .cln, s.texture.map .org, s.body.clone τ old⟩⟩, ?_, rfl, l2, ?_⟩
  · rw [Multi.clone, e1]
    simp only [e2, e3]
  · rw [List.forall₂_map_right_iff]
    exact List.forall₂_same.2 fun s h => ⟨rfl, rfl, (C87_body hτ hτ' old s.body (hb s h)).1⟩

/-- **C87, what goes wrong** (`zShape3DClone` copies the pointer to the texture): wherever a compound is cloned, its
shapes refer to the textures of the original, which has to outlive it, and the faces of its own textures are NULL. -/
theorem C87_clone_texture (τ : ℝ) (old : Mat3 ℝ) (junk2 : Vec2 ℝ) (m : Multi) (c : MultiClone) (h : m.clone τ old junk2 = .ok c) :
    List.Forall₂ (fun s t => t.texture = s.texture.map .org) m.shapes c.shapes ∧ ∀ t ∈ c.textures, ∀ f ∈ t.face, f = none := by
  rw [Multi.clone] at h
  split at h
  · cases h
  split at h
  · cases h
  rename_i ts h2
  split at h
  · cases h
  rename_i ss h3
  cases h
  constructor
  · refine (collect_ok _ _ _ h3).imp ?_
    intro s t e
    unfold Placed.clone at e
    split at e
    · cases e
    · split at e <;> split_ifs at e <;> cases e <;> rfl
  · have := collect_ok _ _ _ h2
    intro t ht f hf
    obtain ⟨i, hi, rfl⟩ := List.mem_iff_getElem.1 ht
    have h5 := this.get (i := i) (by rw [this.length_eq]; exact hi) hi
    simp only [List.get_eq_getElem] at h5
    generalize ts[i] = t' at *
    rw [texClone] at h5
    split at h5
    · cases h5
    · rename_i t'' e
      cases h5
      rw [Texture.clone] at e
      split at e
      · cases e
      · split_ifs at e
        cases e
        exact List.eq_of_mem_replicate hf

/-- **C87, what goes wrong** (`zMultiShape3DClone`): a shape without optical information, in a compound that has some,
is cloned with the element at the difference of NULL and the buffer. -/
theorem C87_clone_no_optic (τ : ℝ) (old : Mat3 ℝ) (junk2 : Vec2 ℝ) (os : List (Optic ℝ)) (ho : ∀ o ∈ os, o.name ≠ none) (hne : os ≠ [])
    (n : String) (t : Option ℕ) (b : Body) (ss : List Placed) :
    (⟨os, [], ⟨some n, none, t, b⟩ :: ss⟩ : Multi).clone τ old junk2 = .error .undef := by
  have e1 : collect (fun o : Optic ℝ => if o.name = none then .error .unmodelled else .ok (o.clone o)) os = .ok os := by
    rw [collect_map _ id os, List.map_id]
    intro o h
    rw [if_neg (ho o h)]; rfl
  simp only [Multi.clone, e1, collect, Placed.clone, List.length_eq_zero_iff, if_neg hne]

/-- **C87, what goes wrong** (`zTextureClone`): a compound with a texture that has no file, coordinates or faces cannot
be cloned. -/
theorem C87_clone_no_file (τ : ℝ) (old : Mat3 ℝ) (junk2 : Vec2 ℝ) (t : Texture ℝ) (ht : t.filename = none ∨ t.coord = [] ∨ t.face = [])
    (ts : List (Texture ℝ)) (ss : List Placed) : (⟨[], t :: ts, ss⟩ : Multi).clone τ old junk2 = .error .null := by
  have : t.clone junk2 = none := by
    rw [Texture.clone]
    rcases ht with h | h | h
    · rw [h]
    · cases t.filename <;> simp [h]
    · cases t.filename <;> simp [h]
  simp [Multi.clone, collect, texClone, this]

/-! ## Concrete cases -/

private noncomputable def exMulti : Multi where
  optics := [⟨some "red", ⟨1, 0, 0⟩, ⟨1, 0, 0⟩, ⟨0, 0, 0⟩, 0, 0, 1⟩, ⟨some "blue", ⟨0, 0, 1⟩, ⟨0, 0, 1⟩, ⟨0, 0, 0⟩, 0, 0, 1⟩]
  textures := [⟨some "wood", 0, 0, false, some "wood.png", [⟨0, 0⟩, ⟨1, 0⟩, ⟨0, 1⟩], [some (0, 1, 2)], 0, 0, 1⟩]
  shapes := [⟨some "a", some 1, some 0, .sphere ⟨⟨⟨1, 2, 3⟩, 2⟩, 8⟩⟩, ⟨some "b", some 0, none, .sphere ⟨⟨⟨0, 0, 0⟩, 1⟩, 32⟩⟩]

/-- A compound of two shapes with optical information and a texture meets the hypotheses of the round trip. -/
private theorem exMulti_writable (τ : ℝ) : Spec.Writable id τ exMulti := by
  constructor
  any_goals simp [exMulti]
  all_goals exact ⟨⟨_, rfl⟩, ⟨_, rfl⟩⟩

example (pair : ℝ → ℝ → List (Tok ℝ)) (hp : ∀ u v, two (pair u v) = .ok (u, v)) (junk : Mat3 ℝ) (junk2 : Vec2 ℝ) (fresh : String → Body) :
    ∃ os ss, List.Forall₂ (Spec.SameOptic id id (1/100)) exMulti.optics os ∧ List.Forall₂ (Spec.SameShape id (1/100)) exMulti.shapes ss ∧
      multiFromZTK (1/100) junk junk2 fresh (exMulti.print id id pair (1/100)) =
        .ok ⟨os.map some, exMulti.textures.map fun t => some (texBack id t), ss.map some⟩ :=
  C87_roundtrip id id pair hp (by norm_num) junk junk2 fresh exMulti (exMulti_writable _)

/-- The same compound can be cloned. -/
example (old : Mat3 ℝ) (junk2 : Vec2 ℝ) : ∃ c, exMulti.clone (1/100) old junk2 = .ok c ∧ c.optics = exMulti.optics := by
  obtain ⟨c, h1, h2, -⟩ := C87_clone_partial (τ := 1/100) (by norm_num) (by norm_num) old junk2 exMulti (by simp [exMulti]) (by simp [exMulti])
    (by simp [exMulti]) (by simp [exMulti]) (by simp [exMulti, Spec.ProperBody])
  exact ⟨c, h1, h2⟩

end Zeo
