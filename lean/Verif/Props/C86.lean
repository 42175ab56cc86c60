import Verif.Model.ShapePlace
import Verif.Props.C08
import Verif.Props.C62
import Mathlib.Tactic

/-! # C86: placed and mirrored shapes in ZTK files -/

namespace Zeo
open ZTK

/-! ## The specification -/

/-- A field that places a shape. -/
inductive Spec.Move
  /-- `pos: x y z`, or `pos: ( x, y, z )`. -/
  | pos (paren : Bool) (v : Vec3 ℝ)
  /-- `att:` and the nine components row by row. -/
  | att (m : Mat3 ℝ)
  /-- `rot:` axis and angle in degrees. -/
  | rot (u : Vec3 ℝ) (deg : ℝ)
  /-- `frame:` and the twelve components row by row. -/
  | frame (f : Frame3 ℝ)

/-- How it is written. -/
def Spec.Move.field : Spec.Move → KeyField ℝ
  | .pos true v => ("pos", [.group v.x v.y v.z])
  | .pos false v => ("pos", [.num v.x, .num v.y, .num v.z])
  | .att m => ("att", [.num m.x.x, .num m.y.x, .num m.z.x, .num m.x.y, .num m.y.y, .num m.z.y,
      .num m.x.z, .num m.y.z, .num m.z.z])
  | .rot u a => ("rot", [.num u.x, .num u.y, .num u.z, .num a])
  | .frame f => ("frame", [.num f.att.x.x, .num f.att.y.x, .num f.att.z.x, .num f.pos.x,
      .num f.att.x.y, .num f.att.y.y, .num f.att.z.y, .num f.pos.y,
      .num f.att.x.z, .num f.att.y.z, .num f.att.z.z, .num f.pos.z])

/-- The vector of the direction of `u` whose length is the angle in radian; zero when `u` is within the tolerance. -/
noncomputable def Spec.turn (τ : ℝ) (u : Vec3 ℝ) (deg : ℝ) : Vec3 ℝ :=
  open Classical in if |u.x| ≤ τ ∧ |u.y| ≤ τ ∧ |u.z| ≤ τ then .zero
  else u.mul (deg * Real.pi / 180 / Real.sqrt (u.x ^ 2 + u.y ^ 2 + u.z ^ 2))

/-- What it does to the frame: a position, an attitude and a frame replace what was there, a rotation is applied to
the attitude from the left, and leaves the position. -/
noncomputable def Spec.Move.apply (τ : ℝ) (f : Frame3 ℝ) : Spec.Move → Frame3 ℝ
  | .pos _ v => ⟨v, f.att⟩
  | .att m => ⟨f.pos, m⟩
  | .rot u a => ⟨f.pos, (Mat3.fromAA τ (Spec.turn τ u a)).mulMat f.att⟩
  | .frame g => g

/-- The frame of a list of fields. -/
noncomputable def Spec.placement (τ : ℝ) (ms : List Spec.Move) : Frame3 ℝ := ms.foldl (Spec.Move.apply τ) ⟨.zero, .ident⟩

/-- The keys of placement. -/
def Spec.placeKeys : List String := ["pos", "att", "rot", "frame"]

/-- The fields that do not place the shape, and those that do. -/
def Spec.plain (fs : List (KeyField ℝ)) : List (KeyField ℝ) := fs.filter fun f => f.1 ∉ Spec.placeKeys
/-- See `plain`. -/
def Spec.placing (fs : List (KeyField ℝ)) : List (KeyField ℝ) := fs.filter fun f => f.1 ∈ Spec.placeKeys

/-! ## Reading -/

private theorem turn_ok {τ : ℝ} (hτ : 0 ≤ τ) (u : Vec3 ℝ) (a : ℝ) :
    aaFromZTK τ [.num u.x, .num u.y, .num u.z, .num a] = .ok (Spec.turn τ u a) := by
  simp only [aaFromZTK, vecAdv, dbl]
  have e : (⟨u.x, u.y, u.z⟩ : Vec3 ℝ) = u := rfl
  rw [e]
  by_cases h : u.isTol τ
  · have h' : |u.x| ≤ τ ∧ |u.y| ≤ τ ∧ |u.z| ≤ τ := h
    rw [Vec3.normalize, if_pos h, Spec.turn, if_pos h', if_neg (lt_irrefl _)]
  · have h' : ¬ (|u.x| ≤ τ ∧ |u.y| ≤ τ ∧ |u.z| ≤ τ) := h
    have hp := Vec3.norm_pos_of_not_isTol hτ h
    rw [Vec3.normalize, if_neg h, Spec.turn, if_neg h']
    rw [if_pos (show 0 < u.normalizeNC.1 from hp)]
    simp only [Vec3.normalizeNC]
    have hn : Real.sqrt (u.x ^ 2 + u.y ^ 2 + u.z ^ 2) = u.norm := by
      simp only [Vec3.norm, zeo]; ring_nf
    rw [hn]
    congr 1
    ext <;> simp only [zeo, deg2Rad] <;> ring

private def mk (h : Head) (f : Frame3 ℝ) (x : Bool) : Place :=
  ⟨h.name, h.optic, h.texture, h.type.map .inl, false, f, x⟩

private theorem step_plain {τ : ℝ} (junk : Mat3 ℝ) (self : Bool) (sarr : List Placed) (on tn : List String) (h : Head) (f : Frame3 ℝ) (x : Bool)
    {c c' : String → ℕ} {fld : KeyField ℝ} (hc : c fld.1 = c' fld.1) (h1 : fld.1 ∉ Spec.placeKeys)
    (h2 : fld.1 ≠ "mirror") (h3 : fld.1 ≠ "import") :
    (∃ e, evalField (headPrp (sarr.filterMap Placed.name) on tn) (h, c') fld = .error e ∧
      evalField (placePrp τ junk self sarr on tn) (mk h f x, c) fld = .error e) ∨
    (∃ g, evalField (headPrp (sarr.filterMap Placed.name) on tn) (h, c') fld = .ok (g, c') ∧
      evalField (placePrp τ junk self sarr on tn) (mk h f x, c) fld = .ok (mk g f x, c)) ∨
    (∃ g, evalField (headPrp (sarr.filterMap Placed.name) on tn) (h, c') fld = .ok (g, Function.update c' fld.1 (c' fld.1 + 1)) ∧
      evalField (placePrp τ junk self sarr on tn) (mk h f x, c) fld = .ok (mk g f x, Function.update c fld.1 (c fld.1 + 1))) := by
  obtain ⟨k, vs⟩ := fld
  simp only [Spec.placeKeys, List.mem_cons, List.not_mem_nil, or_false, not_or] at h1
  obtain ⟨p1, p2, p3, p4⟩ := h1
  simp only at hc h2 h3 p1 p2 p3 p4
  simp only [evalField, headPrp, placePrp]
  by_cases k1 : k = "name"
  · subst k1
    simp only [List.find?_cons, decide_true, hc]
    split_ifs
    · exact .inr (.inl ⟨h, rfl, rfl⟩)
    cases word vs with
    | error e => exact .inl ⟨e, rfl, rfl⟩
    | ok n =>
      simp only
      split_ifs
      · exact .inl ⟨_, rfl, rfl⟩
      · exact .inr (.inr ⟨_, rfl, rfl⟩)
  by_cases k2 : k = "type"
  · subst k2
    simp only [List.find?_cons, decide_true, hc, show ("name" = "type") = False by simp, decide_false]
    split_ifs
    · exact .inr (.inl ⟨h, rfl, rfl⟩)
    cases word vs with
    | error e => exact .inl ⟨e, rfl, rfl⟩
    | ok n =>
      simp only
      split_ifs
      · exact .inr (.inr ⟨_, rfl, rfl⟩)
      · exact .inl ⟨_, rfl, rfl⟩
  by_cases k3 : k = "optic"
  · subst k3
    simp only [List.find?_cons, decide_true, hc, show ("name" = "optic") = False by simp, show ("type" = "optic") = False by simp,
      decide_false, store]
    split_ifs
    · exact .inr (.inl ⟨h, rfl, rfl⟩)
    cases word vs with
    | error e => exact .inl ⟨e, rfl, rfl⟩
    | ok n => exact .inr (.inr ⟨_, rfl, rfl⟩)
  by_cases k4 : k = "texture"
  · subst k4
    simp only [List.find?_cons, decide_true, hc, show ("name" = "texture") = False by simp, show ("type" = "texture") = False by simp,
      show ("optic" = "texture") = False by simp, decide_false, store]
    split_ifs
    · exact .inr (.inl ⟨h, rfl, rfl⟩)
    cases word vs with
    | error e => exact .inl ⟨e, rfl, rfl⟩
    | ok n => exact .inr (.inr ⟨_, rfl, rfl⟩)
  refine .inr (.inl ⟨h, ?_, ?_⟩) <;>
  simp [List.find?_cons, Ne.symm k1, Ne.symm k2, Ne.symm k3, Ne.symm k4, Ne.symm p1, Ne.symm p2, Ne.symm p3, Ne.symm p4,
    Ne.symm h2, Ne.symm h3]

private theorem step_move {τ : ℝ} (hτ : 0 ≤ τ) (junk : Mat3 ℝ) (self : Bool) (sarr : List Placed) (on tn : List String) (s : Place)
    {c : String → ℕ} (m : Spec.Move) (hc : m.field.1 ≠ "rot" → c m.field.1 = 0) :
    evalField (placePrp τ junk self sarr on tn) (s, c) m.field =
      .ok ({ s with f := m.apply τ s.f, xformed := true }, Function.update c m.field.1 (c m.field.1 + 1)) := by
  cases m with
  | pos b v =>
    cases b <;>
    · have := hc (by simp [Spec.Move.field])
      simp only [Spec.Move.field] at this ⊢
      simp [evalField, placePrp, List.find?_cons, this, store, vec, dbl, Spec.Move.apply]
  | att m =>
    have := hc (by simp [Spec.Move.field])
    simp only [Spec.Move.field] at this ⊢
    simp [evalField, placePrp, List.find?_cons, this, store, matFromZTK, three, dbl, Spec.Move.apply]
  | rot u a =>
    simp only [Spec.Move.field]
    simp [evalField, placePrp, List.find?_cons, store, turn_ok hτ, Spec.Move.apply, Mat3.rot]
  | frame g =>
    have := hc (by simp [Spec.Move.field])
    simp only [Spec.Move.field] at this ⊢
    simp [evalField, placePrp, List.find?_cons, this, store, frameFromZTK, three, dbl, Spec.Move.apply]

private theorem ok_bind86 {ε : Type} {α β : Type} (a : α) (f : α → Except ε β) : (Except.ok a >>= f) = f a := rfl
private theorem err_bind86 {ε : Type} {α β : Type} (e : ε) (f : α → Except ε β) : (Except.error e >>= f) = .error e := rfl

private theorem field_key (m : Spec.Move) : m.field.1 ∈ Spec.placeKeys := by
  cases m with
  | pos b v => cases b <;> simp [Spec.Move.field, Spec.placeKeys]
  | _ => simp [Spec.Move.field, Spec.placeKeys]

private theorem run {τ : ℝ} (hτ : 0 ≤ τ) (junk : Mat3 ℝ) (self : Bool) (sarr : List Placed) (on tn : List String) :
    ∀ (fs : List (KeyField ℝ)) (ms : List Spec.Move) (h : Head) (f : Frame3 ℝ) (x : Bool) (c c' : String → ℕ),
    (∀ g ∈ fs, g.1 ≠ "mirror" ∧ g.1 ≠ "import") → Spec.placing fs = ms.map Spec.Move.field →
    (∀ k, k ∉ Spec.placeKeys → c k = c' k) →
    (∀ k ∈ Spec.placeKeys, k ≠ "rot" → c k + fs.countP (fun g => g.1 = k) ≤ 1) →
    (∃ e, (Spec.plain fs).foldlM (evalField (headPrp (sarr.filterMap Placed.name) on tn)) (h, c') = .error e ∧
      fs.foldlM (evalField (placePrp τ junk self sarr on tn)) (mk h f x, c) = .error e) ∨
    (∃ g d d', (Spec.plain fs).foldlM (evalField (headPrp (sarr.filterMap Placed.name) on tn)) (h, c') = .ok (g, d') ∧
      fs.foldlM (evalField (placePrp τ junk self sarr on tn)) (mk h f x, c) = .ok (mk g (ms.foldl (Spec.Move.apply τ) f) (x || !ms.isEmpty), d)) := by
  intro fs
  induction fs with
  | nil =>
    intro ms h f x c c' _ hm _ _
    have : ms = [] := by
      cases ms with
      | nil => rfl
      | cons a l => simp [Spec.placing] at hm
    subst this
    exact .inr ⟨h, c, c', rfl, by simp [pure, Except.pure]⟩
  | cons a fs ih =>
    intro ms h f x c c' hk hm hc hn
    have hk' : ∀ g ∈ fs, g.1 ≠ "mirror" ∧ g.1 ≠ "import" := fun g hg => hk g (by simp [hg])
    by_cases hp : a.1 ∈ Spec.placeKeys
    · have e1 : Spec.plain (a :: fs) = Spec.plain fs := by simp [Spec.plain, hp]
      have e2 : Spec.placing (a :: fs) = a :: Spec.placing fs := by simp [Spec.placing, hp]
      rw [e2] at hm
      cases ms with
      | nil => simp at hm
      | cons m ms =>
        simp only [List.map_cons, List.cons.injEq] at hm
        obtain ⟨rfl, hm⟩ := hm
        have hc0 : m.field.1 ≠ "rot" → c m.field.1 = 0 := by
          intro hr
          have := hn _ hp hr
          simp only [List.countP_cons, decide_true, if_true] at this
          omega
        rw [e1]
        have hst := step_move hτ junk self sarr on tn (mk h f x) m hc0
        rw [List.foldlM_cons, hst, ok_bind86]
        have g1 : ∀ k, k ∉ Spec.placeKeys → Function.update c m.field.1 (c m.field.1 + 1) k = c' k := by
          intro k hk
          rw [Function.update_of_ne (by rintro rfl; exact hk hp)]
          exact hc k hk
        have g2 : ∀ k ∈ Spec.placeKeys, k ≠ "rot" →
            Function.update c m.field.1 (c m.field.1 + 1) k + fs.countP (fun g => g.1 = k) ≤ 1 := by
          intro k hk hr
          have := hn k hk hr
          rw [List.countP_cons] at this
          by_cases e : k = m.field.1
          · subst e
            simp only [Function.update_self]
            simp only [decide_true, if_true] at this
            omega
          · rw [Function.update_of_ne e]
            omega
        change (∃ e, _ ∧ fs.foldlM _ (mk h (m.apply τ f) true, _) = _) ∨ (∃ g d d', _ ∧ fs.foldlM _ (mk h (m.apply τ f) true, _) = _)
        rcases ih ms h (m.apply τ f) true _ c' hk' hm g1 g2 with ⟨e, q1, q2⟩ | ⟨g, d, d', q1, q2⟩
        · exact .inl ⟨e, q1, q2⟩
        · exact .inr ⟨g, d, d', q1, by rw [q2]; simp⟩
    · have e1 : Spec.plain (a :: fs) = a :: Spec.plain fs := by simp [Spec.plain, hp]
      have e2 : Spec.placing (a :: fs) = Spec.placing fs := by simp [Spec.placing, hp]
      rw [e2] at hm
      rw [e1]
      have hcnt : ∀ k ∈ Spec.placeKeys, k ≠ "rot" → c k + fs.countP (fun g => g.1 = k) ≤ 1 := by
        intro k hk hr
        have := hn k hk hr
        rw [List.countP_cons] at this
        omega
      simp only [List.foldlM_cons]
      rcases step_plain (τ := τ) junk self sarr on tn h f x (hc _ hp) hp (hk a (by simp)).1 (hk a (by simp)).2 with
        ⟨e, q1, q2⟩ | ⟨g, q1, q2⟩ | ⟨g, q1, q2⟩
      · exact .inl ⟨e, by rw [q1, err_bind86], by rw [q2, err_bind86]⟩
      · rw [q1, q2, ok_bind86, ok_bind86]
        exact ih ms g f x c c' hk' hm hc hcnt
      · rw [q1, q2, ok_bind86, ok_bind86]
        refine ih ms g f x _ _ hk' hm ?_ ?_
        · intro k hk
          by_cases e : k = a.1
          · subst e; simp [hc _ hp]
          · rw [Function.update_of_ne e, Function.update_of_ne e]; exact hc k hk
        · intro k hk hr
          rw [Function.update_of_ne (by rintro rfl; exact hp hk)]
          exact hcnt k hk hr

/-! ## The body does not see the placement -/

private theorem keys_plain {σ : Type} (prps : List (Prp σ ℝ)) (o : σ) (hp : ∀ p ∈ prps, p.key ∉ Spec.placeKeys) (fs : List (KeyField ℝ)) :
    evalKeys prps o fs = evalKeys prps o (Spec.plain fs) := by
  have : ∀ s : σ × (String → ℕ), fs.foldlM (evalField prps) s = (Spec.plain fs).foldlM (evalField prps) s := by
    induction fs with
    | nil => intro s; rfl
    | cons a fs ih =>
      intro s
      by_cases ha : a.1 ∈ Spec.placeKeys
      · have e1 : Spec.plain (a :: fs) = Spec.plain fs := by simp [Spec.plain, ha]
        have e2 : evalField prps s a = .ok s := by
          have : prps.find? (fun p => p.key = a.1) = none := by
            rw [List.find?_eq_none]
            intro p hq e
            simp only [decide_eq_true_eq] at e
            exact hp p hq (e ▸ ha)
          simp [evalField, this]
        rw [e1, List.foldlM_cons, e2, ok_bind86, ih]
      · have e1 : Spec.plain (a :: fs) = a :: Spec.plain fs := by simp [Spec.plain, ha]
        rw [e1, List.foldlM_cons, List.foldlM_cons]
        cases evalField prps s a with
        | error e => rfl
        | ok s => rw [ok_bind86, ok_bind86, ih]
  simp only [evalKeys, this]

private theorem body_plain (τ : ℝ) (t : String) (fs : List (KeyField ℝ)) (hne : Spec.plain fs ≠ []) :
    Body.fromZTK τ t fs = Body.fromZTK τ t (Spec.plain fs) := by
  have hb := keys_plain (boxPrp id τ) ⟨.zero, ⟨.zero, .ident⟩⟩ (by simp [boxPrp, Spec.placeKeys]) fs
  have hs := keys_plain (spherePrp (K := ℝ) id) ⟨⟨.zero, 0⟩, 32⟩ (by simp [spherePrp, Spec.placeKeys]) fs
  have he := keys_plain (ellipsPrp id τ) ⟨Ellips.createAlign .zero 0 0 0, 32⟩ (by simp [ellipsPrp, Spec.placeKeys]) fs
  have hc := keys_plain (cylPrp (K := ℝ) id) ⟨⟨.zero, .zero, 0⟩, 32⟩ (by simp [cylPrp, Spec.placeKeys]) fs
  have hec := keys_plain (ecylPrp id τ) ⟨⟨.zero, .zero, 0, 0, .zero, .zero⟩, 32⟩ (by simp [ecylPrp, Spec.placeKeys]) fs
  have hk := keys_plain (conePrp (K := ℝ) id) ⟨⟨.zero, .zero, 0⟩, 32⟩ (by simp [conePrp, Spec.placeKeys]) fs
  have hp : phFromZTK τ fs = phFromZTK τ (Spec.plain fs) := by
    have hne' : fs ≠ [] := by rintro rfl; exact hne rfl
    have ha : fs.any (fun f => f.1 = "prism" ∨ f.1 = "pyramid") = (Spec.plain fs).any (fun f => f.1 = "prism" ∨ f.1 = "pyramid") := by
      rw [Bool.eq_iff_iff]
      simp only [List.any_eq_true, Spec.plain, List.mem_filter, decide_eq_true_eq]
      constructor
      · rintro ⟨g, hg, hk⟩
        exact ⟨g, ⟨hg, by rcases hk with e | e <;> rw [e] <;> simp [Spec.placeKeys]⟩, hk⟩
      · rintro ⟨g, ⟨hg, -⟩, hk⟩
        exact ⟨g, hg, hk⟩
    have hv : fs.countP (fun f => f.1 = "vert") = (Spec.plain fs).countP (fun f => f.1 = "vert") := by
      rw [Spec.plain, List.countP_filter]
      refine List.countP_congr fun g _ => ?_
      simp only [decide_eq_true_eq, Bool.and_eq_true]
      constructor
      · intro e; exact ⟨e, by rw [e]; simp [Spec.placeKeys]⟩
      · exact fun e => e.1
    rw [phFromZTK, phFromZTK, if_neg hne', if_neg hne, ← ha, ← hv,
      keys_plain (phPrp τ) _ (by simp [phPrp, Spec.placeKeys]) fs]
  simp only [Body.fromZTK, boxFromZTK, sphereFromZTK, ellipsFromZTK, cylFromZTK, ecylFromZTK, coneFromZTK, hb, hs, he, hc, hec, hk, hp]

private theorem xform_self (τ : ℝ) (f : Frame3 ℝ) (b : Body) : ∃ b', b.xform τ f b = some b' := by
  cases b <;> exact ⟨_, rfl⟩

private theorem plain_plain (fs : List (KeyField ℝ)) : Spec.plain (Spec.plain fs) = Spec.plain fs := by
  simp [Spec.plain]

private theorem placing_plain (fs : List (KeyField ℝ)) : Spec.placing (Spec.plain fs) = [] := by
  simp [Spec.plain, Spec.placing]

private theorem count_plain {k : String} (hk : k ∈ Spec.placeKeys) (fs : List (KeyField ℝ)) : (Spec.plain fs).countP (fun g => g.1 = k) = 0 := by
  rw [List.countP_eq_zero]
  intro g hg e
  simp only [decide_eq_true_eq] at e
  simp only [Spec.plain, List.mem_filter, decide_eq_true_eq] at hg
  exact hg.2 (e ▸ hk)

/-- The whole reader in terms of the fields that do not place. -/
private theorem placed_eq {τ : ℝ} (hτ : 0 ≤ τ) (junk : Mat3 ℝ) (fresh : String → Body) (self : Bool) (sarr : List Placed) (on tn : List String)
    (fs : List (KeyField ℝ)) (ms : List Spec.Move) (hk : ∀ g ∈ fs, g.1 ≠ "mirror" ∧ g.1 ≠ "import")
    (hm : Spec.placing fs = ms.map Spec.Move.field)
    (hn : ∀ k ∈ Spec.placeKeys, k ≠ "rot" → fs.countP (fun g => g.1 = k) ≤ 1) :
    placedFromZTK τ junk fresh self sarr on tn fs =
      match evalKeys (headPrp (sarr.filterMap Placed.name) on tn) ⟨none, none, none, none⟩ (Spec.plain fs) with
      | .error e => .error e
      | .ok h => match h.type with
        | none => .error .null
        | some t => match Body.fromZTK τ t (Spec.plain fs) with
          | .error e => .error e
          | .ok b => (mk h (Spec.placement τ ms) (!ms.isEmpty)).finish τ b := by
  have hr := run hτ junk self sarr on tn fs ms ⟨none, none, none, none⟩ ⟨.zero, .ident⟩ false (fun _ => 0) (fun _ => 0) hk hm
    (fun _ _ => rfl) (by simpa using hn)
  have hi : Place.init = mk ⟨none, none, none, none⟩ ⟨.zero, .ident⟩ false := rfl
  rw [placedFromZTK, hi]
  rcases hr with ⟨e, q1, q2⟩ | ⟨g, d, d', q1, q2⟩
  · simp only [evalKeys, q1, q2]
  · simp only [evalKeys, q1, q2]
    have himp : (mk g (ms.foldl (Spec.Move.apply τ) ⟨.zero, .ident⟩) (false || !ms.isEmpty)).imported = false := rfl
    rw [himp]
    simp only [Bool.false_eq_true, if_false]
    have hbody : (mk g (ms.foldl (Spec.Move.apply τ) ⟨.zero, .ident⟩) (false || !ms.isEmpty)).body = g.type.map .inl := rfl
    rw [hbody]
    cases ht : g.type with
    | none => rfl
    | some t =>
      have hne : Spec.plain fs ≠ [] := by
        intro e
        rw [e] at q1
        cases q1
        cases ht
      simp only [Option.map_some, body_plain τ t fs hne, Bool.false_or]
      rfl

/-- **C86** (`zShape3DFromZTK`), sections that neither place nor mirror the shape: what is read is what
`Shape.fromZTK` reads (C52, C53). -/
theorem C86_agrees {τ : ℝ} (hτ : 0 ≤ τ) (junk : Mat3 ℝ) (fresh : String → Body) (self : Bool) (sarr : List Placed) (on tn : List String)
    (fs : List (KeyField ℝ)) (hk : ∀ g ∈ fs, g.1 ∉ ["pos", "att", "rot", "frame", "mirror", "import"]) :
    (∀ s, Shape.fromZTK τ (sarr.filterMap Placed.name) on tn fs = .ok s →
      ∃ n, placedFromZTK τ junk fresh self sarr on tn fs = .ok ⟨n, s.optic, s.texture, s.body⟩ ∧ n.getD "" = s.name) ∧
    (∀ e, Shape.fromZTK τ (sarr.filterMap Placed.name) on tn fs = .error e → placedFromZTK τ junk fresh self sarr on tn fs = .error e) := by
  have hp : Spec.plain fs = fs := by
    rw [Spec.plain, List.filter_eq_self]
    intro g hg
    have := hk g hg
    simp only [List.mem_cons, not_or] at this
    simp [Spec.placeKeys, this]
  have hq : Spec.placing fs = ([] : List Spec.Move).map Spec.Move.field := by
    rw [← hp, placing_plain]; rfl
  have h := placed_eq hτ junk fresh self sarr on tn fs [] (fun g hg => by
      have := hk g hg
      simp only [List.mem_cons, not_or] at this
      exact ⟨this.2.2.2.2.1, this.2.2.2.2.2.1⟩) hq (fun k hk _ => by rw [← hp, count_plain hk]; omega)
  rw [h, hp, Shape.fromZTK]
  cases evalKeys (headPrp (sarr.filterMap Placed.name) on tn) ⟨none, none, none, none⟩ fs with
  | error e => simp
  | ok h =>
    dsimp only
    cases h.type with
    | none => simp
    | some t =>
      dsimp only
      cases Body.fromZTK τ t fs with
      | error e => simp
      | ok b =>
        refine ⟨?_, by simp⟩
        rintro s ⟨⟩
        exact ⟨h.name, rfl, rfl⟩

/-- **C86** (`zShape3DFromZTK`): fields that place the shape, mixed in any way with the others, at most one position,
one attitude and one frame among them.  The shape is the one read without them, transformed by the frame the fields
describe; what fails without them fails with them. -/
theorem C86_place {τ : ℝ} (hτ : 0 ≤ τ) (junk : Mat3 ℝ) (fresh : String → Body) (self : Bool) (sarr : List Placed) (on tn : List String)
    (fs : List (KeyField ℝ)) (ms : List Spec.Move) (hk : ∀ g ∈ fs, g.1 ≠ "mirror" ∧ g.1 ≠ "import")
    (hm : Spec.placing fs = ms.map Spec.Move.field) (h0 : ms ≠ [])
    (hn : ∀ k ∈ Spec.placeKeys, k ≠ "rot" → fs.countP (fun g => g.1 = k) ≤ 1) :
    (∀ p, placedFromZTK τ junk fresh self sarr on tn (Spec.plain fs) = .ok p →
      ∃ b, p.body.xform τ (Spec.placement τ ms) p.body = some b ∧
        placedFromZTK τ junk fresh self sarr on tn fs = .ok ⟨p.name, p.optic, p.texture, b⟩) ∧
    (∀ e, placedFromZTK τ junk fresh self sarr on tn (Spec.plain fs) = .error e → placedFromZTK τ junk fresh self sarr on tn fs = .error e) := by
  rw [placed_eq hτ junk fresh self sarr on tn fs ms hk hm hn,
    placed_eq hτ junk fresh self sarr on tn (Spec.plain fs) [] (fun g hg => hk g (List.mem_of_mem_filter hg)) (placing_plain fs)
      (fun k hk _ => by rw [count_plain hk]; omega), plain_plain]
  have hx : (!ms.isEmpty) = true := by cases ms with | nil => exact absurd rfl h0 | cons a l => rfl
  cases evalKeys (headPrp (sarr.filterMap Placed.name) on tn) ⟨none, none, none, none⟩ (Spec.plain fs) with
  | error e => simp
  | ok h =>
    dsimp only
    cases h.type with
    | none => simp
    | some t =>
      dsimp only
      cases Body.fromZTK τ t (Spec.plain fs) with
      | error e => simp
      | ok b =>
        refine ⟨?_, ?_⟩
        · rintro p ⟨⟩
          obtain ⟨b', e⟩ := xform_self τ (Spec.placement τ ms) b
          refine ⟨b', e, ?_⟩
          rw [hx]
          simp only [Place.finish, mk, if_true, e]
        · rintro e ⟨⟩

/-- The fields describe a rigid motion. -/
def Spec.Move.Rigid : Spec.Move → Prop
  | .att m => m.IsRot
  | .frame f => f.att.IsRot
  | _ => True

private theorem rigid {τ : ℝ} (hτ : 0 ≤ τ) (ms : List Spec.Move) (hr : ∀ m ∈ ms, m.Rigid) :
    ∀ f : Frame3 ℝ, f.att.IsRot → (ms.foldl (Spec.Move.apply τ) f).att.IsRot := by
  induction ms with
  | nil => exact fun f hf => hf
  | cons m ms ih =>
    intro f hf
    refine ih (fun m hm => hr m (by simp [hm])) _ ?_
    have := hr m (by simp)
    cases m with
    | pos b v => exact hf
    | att m => exact this
    | rot u a => exact Mat3.IsRot.mulMat (C08_fromAA τ hτ _) hf
    | frame g => exact this

/-- **C86** (`zShape3DFromZTK`), rigid placements: the shape occupies exactly the points the frame moves the unplaced
shape to, whatever its type. -/
theorem C86_solid {τ : ℝ} (hτ : 0 ≤ τ) (junk : Mat3 ℝ) (fresh : String → Body) (self : Bool) (sarr : List Placed) (on tn : List String)
    (fs : List (KeyField ℝ)) (ms : List Spec.Move) (hk : ∀ g ∈ fs, g.1 ≠ "mirror" ∧ g.1 ≠ "import")
    (hm : Spec.placing fs = ms.map Spec.Move.field) (h0 : ms ≠ [])
    (hn : ∀ k ∈ Spec.placeKeys, k ≠ "rot" → fs.countP (fun g => g.1 = k) ≤ 1) (hr : ∀ m ∈ ms, m.Rigid)
    (p : Placed) (hp : placedFromZTK τ junk fresh self sarr on tn (Spec.plain fs) = .ok p) (hv : ∀ q, p.body = .ph q → Spec.Valid q) :
    ∃ q, placedFromZTK τ junk fresh self sarr on tn fs = .ok q ∧ q.name = p.name ∧ q.optic = p.optic ∧ q.texture = p.texture ∧
      Spec.solid q.body = (Spec.placement τ ms).xform '' Spec.solid p.body := by
  obtain ⟨b, e, h⟩ := (C86_place hτ junk fresh self sarr on tn fs ms hk hm h0 hn).1 p hp
  refine ⟨_, h, rfl, rfl, rfl, ?_⟩
  have hs : Spec.SameMold p.body p.body := by
    cases hb : p.body with
    | ph q => exact ⟨hv q hb, rfl, rfl⟩
    | _ => trivial
  obtain ⟨⟨b', e', h'⟩, -⟩ := C62_xform τ (Spec.placement τ ms) (rigid hτ ms hr _ Mat3.IsRot.ident) p.body p.body hs
  rw [e] at e'
  cases e'
  exact h'

/-- **C86** (`rot`): above the tolerance the matrix of a rotation is the rotation about the axis by the angle in
degrees, whatever the length of the axis and the sign of the angle; a rotation whose axis is within the tolerance is
none. -/
theorem C86_rot {τ : ℝ} (hτ : 0 ≤ τ) (u w : Vec3 ℝ) (deg : ℝ) :
    ((|u.x| ≤ τ ∧ |u.y| ≤ τ ∧ |u.z| ≤ τ) → (Mat3.fromAA τ (Spec.turn τ u deg)).mulVec w = w) ∧
    (¬ (|u.x| ≤ τ ∧ |u.y| ≤ τ ∧ |u.z| ≤ τ) →
      ¬ (|(Spec.turn τ u deg).x| ≤ τ ∧ |(Spec.turn τ u deg).y| ≤ τ ∧ |(Spec.turn τ u deg).z| ≤ τ) →
      ((Mat3.fromAA τ (Spec.turn τ u deg)).mulVec w).toFin =
        Spec.rodrigues ((Real.sqrt (u.x ^ 2 + u.y ^ 2 + u.z ^ 2))⁻¹ • u.toFin) (deg * Real.pi / 180) w.toFin) := by
  constructor
  · intro h
    rw [Spec.turn, if_pos h, Mat3.fromAA, if_pos (by simp [Vec3.isTol, zIsTol, Vec3.zero, hτ])]
    vring
  · intro h h'
    have ht : Spec.turn τ u deg = u.mul (deg * Real.pi / 180 / Real.sqrt (u.x ^ 2 + u.y ^ 2 + u.z ^ 2)) := by rw [Spec.turn, if_neg h]
    rw [ht] at h' ⊢
    have hp := Vec3.norm_pos_of_not_isTol hτ h
    have hn : Real.sqrt (u.x ^ 2 + u.y ^ 2 + u.z ^ 2) = u.norm := by simp only [Vec3.norm, zeo]; ring_nf
    have hs : u.x * u.x + u.y * u.y + u.z * u.z = u.norm ^ 2 := by rw [Vec3.norm_sq]; simp only [zeo]
    rw [hn] at h' ⊢
    have hr := (C08_fromAA_rodrigues τ hτ (u.mul (deg * Real.pi / 180 / u.norm)) w).1 h'
    have hmv : ∀ M : Mat3 ℝ, (M.mulVec w).toFin = Matrix.mulVec M.toMatrix w.toFin := by
      intro M
      ext i; fin_cases i <;> simp [Mat3.toMatrix, Vec3.toFin, zeo, Matrix.mulVec, dotProduct, Fin.sum_univ_three]
    rw [hmv, hr]
    generalize deg * Real.pi / 180 = θ
    have hl : Real.sqrt ((u.mul (θ / u.norm)).toFin ⬝ᵥ (u.mul (θ / u.norm)).toFin) = |θ| := by
      rw [← Real.sqrt_sq_eq_abs]
      congr 1
      simp only [Vec3.toFin, dotProduct, Fin.sum_univ_three, zeo]
      simp
      field_simp
      linear_combination θ ^ 2 * hs
    rw [hl]
    have ev : (u.mul (θ / u.norm)).toFin = θ • ((u.norm)⁻¹ • u.toFin) := by
      ext i; fin_cases i <;> simp [Vec3.toFin, zeo] <;> ring
    rw [ev]
    generalize (u.norm)⁻¹ • u.toFin = n
    rcases lt_trichotomy θ 0 with hθ | hθ | hθ
    · rw [abs_of_neg hθ, smul_smul, show (-θ)⁻¹ * θ = -1 by rw [inv_neg, neg_mul, inv_mul_cancel₀ hθ.ne]]
      simp [Spec.rodrigues]
      rw [← smul_neg, cross_anticomm]
    · simp [Spec.rodrigues, hθ]
    · rw [abs_of_pos hθ, smul_smul, inv_mul_cancel₀ hθ.ne', one_smul]

/-! ## Mirror images -/

private theorem run_moves {τ : ℝ} (hτ : 0 ≤ τ) (junk : Mat3 ℝ) (self : Bool) (sarr : List Placed) (on tn : List String) :
    ∀ (ms : List Spec.Move) (s : Place) (c : String → ℕ),
    (∀ k ∈ Spec.placeKeys, k ≠ "rot" → c k + (ms.map Spec.Move.field).countP (fun g => g.1 = k) ≤ 1) →
    ∃ d, (ms.map Spec.Move.field).foldlM (evalField (placePrp τ junk self sarr on tn)) (s, c) =
      .ok ({ s with f := ms.foldl (Spec.Move.apply τ) s.f, xformed := s.xformed || !ms.isEmpty }, d) := by
  intro ms
  induction ms with
  | nil => intro s c _; exact ⟨c, by simp [pure, Except.pure]⟩
  | cons m ms ih =>
    intro s c hn
    have hc0 : m.field.1 ≠ "rot" → c m.field.1 = 0 := by
      intro hr
      have := hn _ (field_key m) hr
      simp only [List.map_cons, List.countP_cons, decide_true, if_true] at this
      omega
    have hst := step_move hτ junk self sarr on tn s m hc0
    rw [List.map_cons, List.foldlM_cons, hst, ok_bind86]
    obtain ⟨d, e⟩ := ih { s with f := m.apply τ s.f, xformed := true } (Function.update c m.field.1 (c m.field.1 + 1)) (by
      intro k hk hr
      have := hn k hk hr
      rw [List.map_cons, List.countP_cons] at this
      by_cases e : k = m.field.1
      · subst e
        simp only [Function.update_self]
        simp only [decide_true, if_true] at this
        omega
      · rw [Function.update_of_ne e]
        omega)
    exact ⟨d, by rw [e]; simp⟩

/-- The names of the axes. -/
def Spec.mirrorName : Fin 3 → String
  | 0 => "x"
  | 1 => "y"
  | 2 => "z"

private theorem axis_name (ax : Fin 3) : mirrorAxis (Spec.mirrorName ax) = some ax := by
  fin_cases ax <;> simp [mirrorAxis, Spec.mirrorName]

private theorem mirror_valid {τ : ℝ} {junk : Mat3 ℝ} {ax : Fin 3} {b : Body} (hv : ∀ q, b = .ph q → Spec.Valid q) :
    ∀ q, b.mirror τ junk ax = .ph q → Spec.Valid q := by
  intro q hq
  cases b with
  | ph p =>
    simp only [Body.mirror, Body.ph.injEq] at hq
    subst hq
    intro f hf
    simp only [PH.mirror, List.mem_map] at hf
    obtain ⟨g, hg, rfl⟩ := hf
    obtain ⟨a, b, c⟩ := hv p rfl g hg
    exact ⟨a, c, b⟩
  | _ => cases hq

/-- **C86** (`mirror`): a name and a mirror image of an earlier proper shape, placed or not.  It has the name given, the
optical information and texture of the reference, and occupies exactly the reflected points, moved by the frame. -/
theorem C86_mirror {τ : ℝ} (hτ : 0 ≤ τ) (hτ' : τ ≤ 1/4) (junk : Mat3 ℝ) (fresh : String → Body) (self : Bool) (sarr : List Placed) (on tn : List String)
    (n r : String) (ax : Fin 3) (ms : List Spec.Move) (hr : ∀ m ∈ ms, m.Rigid)
    (hn : ∀ k ∈ Spec.placeKeys, k ≠ "rot" → (ms.map Spec.Move.field).countP (fun g => g.1 = k) ≤ 1)
    (hnew : ∀ s ∈ sarr, s.name ≠ some n) (ref : Placed) (href : sarr.find? (fun s => s.name = some r) = some ref)
    (hb : Spec.ProperBody τ ref.body) (hv : ∀ q, ref.body = .ph q → Spec.Valid q) :
    ∃ p, placedFromZTK τ junk fresh self sarr on tn
        ([("name", [.word n]), ("mirror", [.word r, .word (Spec.mirrorName ax)])] ++ ms.map Spec.Move.field) = .ok p ∧
      p.name = some n ∧ p.optic = ref.optic ∧ p.texture = ref.texture ∧
      Spec.solid p.body = (Spec.placement τ ms).xform '' (Spec.reflect ax '' Spec.solid ref.body) := by
  have hfn : findName (sarr.filterMap Placed.name) n = none := by
    simp only [findName, List.findIdx?_eq_none_iff, List.mem_filterMap, forall_exists_index, and_imp, decide_eq_false_iff_not]
    rintro x s hs hx rfl
    exact hnew s hs hx
  have hm := C62_mirror hτ hτ' junk ax ref.body hb hv
  obtain ⟨d, hd⟩ := run_moves hτ junk self sarr on tn ms
    ⟨some n, ref.optic, ref.texture, some (.inr (ref.body.mirror τ junk ax)), true, ⟨.zero, .ident⟩, false⟩
    (Function.update (Function.update (fun _ => 0) "name" 1) "mirror" 1) (by
      intro k hk hr
      have h1 : k ≠ "mirror" := by rintro rfl; simp [Spec.placeKeys] at hk
      have h2 : k ≠ "name" := by rintro rfl; simp [Spec.placeKeys] at hk
      rw [Function.update_of_ne h1, Function.update_of_ne h2, zero_add]
      exact hn k hk hr)
  have hev : evalKeys (placePrp τ junk self sarr on tn) .init
      ([("name", [.word n]), ("mirror", [.word r, .word (Spec.mirrorName ax)])] ++ ms.map Spec.Move.field) =
      .ok ⟨some n, ref.optic, ref.texture, some (.inr (ref.body.mirror τ junk ax)), true, Spec.placement τ ms, !ms.isEmpty⟩ := by
    have e1 : evalField (placePrp τ junk self sarr on tn) (.init, fun _ => 0) ("name", [.word n]) =
        .ok ({ Place.init with name := some n }, Function.update (fun _ => 0) "name" 1) := by
      simp [evalField, placePrp, List.find?_cons, word, hfn]
    have e2 : evalField (placePrp τ junk self sarr on tn) ({ Place.init with name := some n }, Function.update (fun _ => 0) "name" 1)
        ("mirror", [.word r, .word (Spec.mirrorName ax)]) =
        .ok (⟨some n, ref.optic, ref.texture, some (.inr (ref.body.mirror τ junk ax)), true, ⟨.zero, .ident⟩, false⟩,
          Function.update (Function.update (fun _ => 0) "name" 1) "mirror" 1) := by
      simp [evalField, placePrp, List.find?_cons, mirrorFromZTK, href, axis_name, Place.init]
    rw [evalKeys, List.cons_append, List.cons_append, List.nil_append, List.foldlM_cons, e1, ok_bind86, List.foldlM_cons, e2, ok_bind86, hd]
    simp [Spec.placement]
  obtain ⟨b', eb⟩ := xform_self τ (Spec.placement τ ms) (ref.body.mirror τ junk ax)
  have hs : Spec.SameMold (ref.body.mirror τ junk ax) (ref.body.mirror τ junk ax) := by
    cases hb : ref.body.mirror τ junk ax with
    | ph q => exact ⟨mirror_valid hv q hb, rfl, rfl⟩
    | _ => trivial
  obtain ⟨⟨b'', e', h'⟩, -⟩ := C62_xform τ (Spec.placement τ ms) (rigid hτ ms hr _ Mat3.IsRot.ident) _ _ hs
  rw [eb] at e'
  cases e'
  rw [placedFromZTK, hev]
  cases ms with
  | nil =>
    refine ⟨⟨some n, ref.optic, ref.texture, ref.body.mirror τ junk ax⟩, rfl, rfl, rfl, rfl, ?_⟩
    rw [hm]
    have : (Spec.placement τ []).xform = id := by
      funext v; simp only [Spec.placement, List.foldl_nil, id]; vring
    rw [this, Set.image_id]
  | cons m ms =>
    refine ⟨⟨some n, ref.optic, ref.texture, b'⟩, ?_, rfl, rfl, rfl, by rw [h', hm]⟩
    simp [Place.finish, eb]

/-! ## Errors and surprises -/

/-- **C86** (`mirror`), axes other than x, y and z, and a missing axis: nothing is read. -/
theorem C86_mirror_axis (τ : ℝ) (junk : Mat3 ℝ) (fresh : String → Body) (self : Bool) (sarr : List Placed) (on tn : List String) (r a : String)
    (ref : Placed) (href : sarr.find? (fun s => s.name = some r) = some ref) (ha : ∀ ax, a ≠ Spec.mirrorName ax) (fs : List (KeyField ℝ)) :
    placedFromZTK τ junk fresh self sarr on tn (("mirror", [.word r, .word a]) :: fs) = .error .null ∧
    placedFromZTK τ junk fresh self sarr on tn (("mirror", [.word r]) :: fs) = .error .null := by
  have h0 : a ≠ "x" := ha 0
  have h1 : a ≠ "y" := ha 1
  have h2 : a ≠ "z" := ha 2
  have e1 : evalField (placePrp τ junk self sarr on tn) (.init, fun _ => 0) ("mirror", [.word r, .word a]) = .error .null := by
    simp [evalField, placePrp, List.find?_cons, mirrorFromZTK, href, mirrorAxis, h0, h1, h2]
  have e2 : evalField (placePrp τ junk self sarr on tn) (.init, fun _ => 0) ("mirror", [.word r]) = .error .null := by
    simp [evalField, placePrp, List.find?_cons, mirrorFromZTK, href]
  constructor
  · rw [placedFromZTK, evalKeys, List.foldlM_cons, e1, err_bind86]
  · rw [placedFromZTK, evalKeys, List.foldlM_cons, e2, err_bind86]

/-- **C86** (`mirror`), a reference that does not exist: only a warning; with a type, the shape is read as if there
were no such field. -/
theorem C86_mirror_unknown (τ : ℝ) (junk : Mat3 ℝ) (fresh : String → Body) (self : Bool) (sarr : List Placed) (on tn : List String) (r a t : String)
    (ht : t ∈ types) (href : ∀ s ∈ sarr, s.name ≠ some r) :
    placedFromZTK τ junk fresh self sarr on tn [("mirror", [.word r, .word a])] = .error .null ∧
    placedFromZTK τ junk fresh self sarr on tn [("type", [.word t]), ("mirror", [.word r, .word a])] =
      (match Body.fromZTK τ t [("type", [.word t]), ("mirror", [.word r, .word a])] with
        | .error e => .error e
        | .ok b => .ok ⟨none, none, none, b⟩) := by
  have hf : sarr.find? (fun s => s.name = some r) = none := by
    rw [List.find?_eq_none]; simpa using href
  constructor
  · simp [placedFromZTK, evalKeys, evalField, placePrp, List.find?_cons, mirrorFromZTK, hf, Place.init, pure, Except.pure, bind, Except.bind]
  · simp [placedFromZTK, evalKeys, evalField, placePrp, List.find?_cons, mirrorFromZTK, hf, Place.init, pure, Except.pure, bind,
      Except.bind, word, ht, Place.finish]
    cases Body.fromZTK τ t [("type", [.word t]), ("mirror", [.word r, .word a])] <;> rfl

/-- **A shape must not be the mirror image of itself**: in an array that contains the shape being read, as
`zMultiShape3DFromZTK` passes it, the name finds the shape itself, and its methods are called through NULL. -/
theorem C86_mirror_self (τ : ℝ) (junk : Mat3 ℝ) (fresh : String → Body) (sarr : List Placed) (on tn : List String) (n : String)
    (hnew : ∀ s ∈ sarr, s.name ≠ some n) (ax : Fin 3) :
    placedFromZTK τ junk fresh true sarr on tn [("name", [.word n]), ("mirror", [.word n, .word (Spec.mirrorName ax)])] = .error .undef := by
  have hfn : findName (sarr.filterMap Placed.name) n = none := by
    simp only [findName, List.findIdx?_eq_none_iff, List.mem_filterMap, forall_exists_index, and_imp, decide_eq_false_iff_not]
    rintro x s hs hx rfl
    exact hnew s hs hx
  have hf : sarr.find? (fun s => s.name = some n) = none := by
    rw [List.find?_eq_none]; simpa using hnew
  simp [placedFromZTK, evalKeys, evalField, placePrp, List.find?_cons, mirrorFromZTK, hf, hfn, Place.init, bind, Except.bind, word, axis_name]

/-- **A type before the mirror image loses the name, the optical information and the texture given before it**: the
shape has no name, and those of the reference. -/
theorem C86_mirror_name_lost (τ : ℝ) (junk : Mat3 ℝ) (fresh : String → Body) (self : Bool) (sarr : List Placed) (on tn : List String)
    (n r t o : String) (ht : t ∈ types) (ax : Fin 3) (hnew : ∀ s ∈ sarr, s.name ≠ some n) (ref : Placed)
    (href : sarr.find? (fun s => s.name = some r) = some ref) :
    placedFromZTK τ junk fresh self sarr on tn [("name", [.word n]), ("type", [.word t]), ("optic", [.word o]),
        ("mirror", [.word r, .word (Spec.mirrorName ax)])] =
      .ok ⟨none, ref.optic, ref.texture, ref.body.mirror τ junk ax⟩ := by
  have hfn : findName (sarr.filterMap Placed.name) n = none := by
    simp only [findName, List.findIdx?_eq_none_iff, List.mem_filterMap, forall_exists_index, and_imp, decide_eq_false_iff_not]
    rintro x s hs hx rfl
    exact hnew s hs hx
  simp [placedFromZTK, evalKeys, evalField, placePrp, List.find?_cons, mirrorFromZTK, href, Place.init, pure, Except.pure, bind,
      Except.bind, word, ht, hfn, axis_name, Place.finish, store]

/-- **A type after the mirror image replaces it by an unread body**: what the allocator of that type made, whatever
the other fields say. -/
theorem C86_mirror_then_type (τ : ℝ) (junk : Mat3 ℝ) (fresh : String → Body) (self : Bool) (sarr : List Placed) (on tn : List String)
    (r t : String) (ht : t ∈ types) (ax : Fin 3) (ref : Placed) (href : sarr.find? (fun s => s.name = some r) = some ref) (c : Vec3 ℝ) :
    placedFromZTK τ junk fresh self sarr on tn [("mirror", [.word r, .word (Spec.mirrorName ax)]), ("type", [.word t]),
        ("center", [.group c.x c.y c.z])] =
      .ok ⟨none, ref.optic, ref.texture, fresh t⟩ := by
  simp [placedFromZTK, evalKeys, evalField, placePrp, List.find?_cons, mirrorFromZTK, href, Place.init, pure, Except.pure, bind,
      Except.bind, word, ht, axis_name, Place.finish]

/-- **The optical information counts only after the mirror image.** -/
theorem C86_mirror_optic (τ : ℝ) (junk : Mat3 ℝ) (fresh : String → Body) (self : Bool) (sarr : List Placed) (on tn : List String)
    (r o : String) (ax : Fin 3) (ref : Placed) (href : sarr.find? (fun s => s.name = some r) = some ref) :
    placedFromZTK τ junk fresh self sarr on tn [("optic", [.word o]), ("mirror", [.word r, .word (Spec.mirrorName ax)])] =
      .ok ⟨none, ref.optic, ref.texture, ref.body.mirror τ junk ax⟩ ∧
    placedFromZTK τ junk fresh self sarr on tn [("mirror", [.word r, .word (Spec.mirrorName ax)]), ("optic", [.word o])] =
      .ok ⟨none, findName on o, ref.texture, ref.body.mirror τ junk ax⟩ := by
  constructor <;>
  simp [placedFromZTK, evalKeys, evalField, placePrp, List.find?_cons, mirrorFromZTK, href, Place.init, pure, Except.pure, bind,
      Except.bind, word, axis_name, Place.finish, store]

/-- A half turn about the z axis and the identity attitude, in both orders. -/
private noncomputable def halfTurn : Spec.Move := .rot ⟨0, 0, 1⟩ 180

/-- **The order of the fields matters**: with tolerance below one, a half turn about z after the identity attitude turns
the points, before it it is lost. -/
theorem C86_order {τ : ℝ} (hτ : 0 ≤ τ) (hτ' : τ < 1) : ∃ m a : Spec.Move,
    (Spec.placement τ [a, m]).xform ⟨1, 0, 0⟩ = ⟨-1, 0, 0⟩ ∧ (Spec.placement τ [m, a]).xform ⟨1, 0, 0⟩ = ⟨1, 0, 0⟩ := by
  refine ⟨halfTurn, .att .ident, ?_, ?_⟩
  · have h1 : ¬ (|(0:ℝ)| ≤ τ ∧ |(0:ℝ)| ≤ τ ∧ |(1:ℝ)| ≤ τ) := by
      rintro ⟨-, -, h⟩; rw [abs_one] at h; linarith
    have ht : Spec.turn τ ⟨0, 0, 1⟩ 180 = ⟨0, 0, Real.pi⟩ := by
      rw [Spec.turn, if_neg h1]
      ext <;> simp [zeo]
    have hpi := Real.two_le_pi
    have h := (C86_rot hτ ⟨0, 0, 1⟩ ⟨1, 0, 0⟩ 180).2 h1 (by
      rw [ht]; rintro ⟨-, -, h⟩; rw [abs_of_pos Real.pi_pos] at h; linarith)
    have e : (Mat3.fromAA τ (Spec.turn τ ⟨0, 0, 1⟩ 180)).mulVec ⟨1, 0, 0⟩ = ⟨-1, 0, 0⟩ := by
      rw [mul_comm, mul_div_assoc, div_self (by norm_num), mul_one] at h
      have hx := congrFun h 0
      have hy := congrFun h 1
      have hz := congrFun h 2
      simp [Spec.rodrigues, Vec3.toFin, cross_apply] at hx hy hz
      ext
      · exact hx
      · exact hy
      · exact hz
    have : (Spec.placement τ [.att .ident, halfTurn]).xform ⟨1, 0, 0⟩ = (Mat3.fromAA τ (Spec.turn τ ⟨0, 0, 1⟩ 180)).mulVec ⟨1, 0, 0⟩ := by
      simp only [Spec.placement, List.foldl, Spec.Move.apply, halfTurn]
      vring
    rw [this, e]
  · simp only [Spec.placement, List.foldl, Spec.Move.apply, halfTurn]
    vring

/-- **A second position is ignored** without a word. -/
theorem C86_pos_twice (τ : ℝ) (junk : Mat3 ℝ) (fresh : String → Body) (self : Bool) (sarr : List Placed) (on tn : List String) (v w : Vec3 ℝ) (t : String)
    (ht : t ∈ types) (hp : t ≠ "polyhedron") (hn : t ≠ "nurbs") :
    placedFromZTK τ junk fresh self sarr on tn [("type", [.word t]), ("pos", [.group v.x v.y v.z]), ("pos", [.group w.x w.y w.z])] =
    placedFromZTK τ junk fresh self sarr on tn [("type", [.word t]), ("pos", [.group v.x v.y v.z])] := by
  have hb : Body.fromZTK τ t [("type", [.word t]), ("pos", [.group v.x v.y v.z]), ("pos", [.group w.x w.y w.z])] =
      Body.fromZTK τ t [("type", [.word t]), ("pos", [.group v.x v.y v.z])] := by
    rw [body_plain, body_plain τ t [("type", [.word t]), ("pos", [.group v.x v.y v.z])]] <;> simp [Spec.plain, Spec.placeKeys]
  simp [placedFromZTK, evalKeys, evalField, placePrp, List.find?_cons, Place.init, pure, Except.pure, bind,
      Except.bind, word, ht, Place.finish, store, vec, hb]

/-! ## Instances -/

/-- A sphere of radius two about (1,0,0), moved by (0,0,5) and turned by a half turn about z between its own fields. -/
private noncomputable def exFields : List (KeyField ℝ) :=
  [("pos", [.group 0 0 5]), ("type", [.word "sphere"]), ("center", [.group 1 0 0]), ("rot", [.num 0, .num 0, .num 1, .num 180]),
   ("radius", [.num 2])]

private theorem ex_read (junk : Mat3 ℝ) (fresh : String → Body) :
    placedFromZTK (1/1000) junk fresh true [] [] [] (Spec.plain exFields) = .ok ⟨none, none, none, .sphere ⟨⟨⟨1, 0, 0⟩, 2⟩, 32⟩⟩ := by
  simp [exFields, Spec.plain, Spec.placeKeys, placedFromZTK, evalKeys, evalField, placePrp, List.find?_cons, Place.init, pure, Except.pure,
    bind, Except.bind, word, types, findName, Place.finish, Body.fromZTK, sphereFromZTK, spherePrp, store, vec, num, dbl, wrap]

example (junk : Mat3 ℝ) (fresh : String → Body) : ∃ q, placedFromZTK (1/1000) junk fresh true [] [] [] exFields = .ok q ∧
    Spec.solid q.body = (Spec.placement (1/1000) [.pos true ⟨0, 0, 5⟩, halfTurn]).xform '' Spec.ball ⟨1, 0, 0⟩ 2 := by
  obtain ⟨q, h1, -, -, -, h2⟩ := C86_solid (by norm_num) junk fresh true [] [] [] exFields [.pos true ⟨0, 0, 5⟩, halfTurn]
    (by simp [exFields]) (by simp [exFields, Spec.placing, Spec.placeKeys, Spec.Move.field, halfTurn]) (by simp)
    (by simp [exFields, Spec.placeKeys]) (by simp [Spec.Move.Rigid, halfTurn]) _ (ex_read junk fresh) (fun q h => nomatch h)
  exact ⟨q, h1, h2⟩

private noncomputable def exRef : Placed := ⟨some "left", some 1, none, .sphere ⟨⟨⟨1, 2, 3⟩, 2⟩, 16⟩⟩

example (junk : Mat3 ℝ) (fresh : String → Body) : ∃ p, placedFromZTK (1/1000) junk fresh true [exRef] [] []
      [("name", [.word "right"]), ("mirror", [.word "left", .word "y"]), ("pos", [.num 0, .num 0, .num 1])] = .ok p ∧
      p.name = some "right" ∧ p.optic = some 1 ∧
      Spec.solid p.body = (Spec.placement (1/1000) [.pos false ⟨0, 0, 1⟩]).xform '' (Spec.reflect 1 '' Spec.ball ⟨1, 2, 3⟩ 2) := by
  obtain ⟨p, h1, h2, h3, -, h4⟩ := C86_mirror (τ := 1/1000) (by norm_num) (by norm_num) junk fresh true [exRef] [] [] "right" "left" 1
    [.pos false ⟨0, 0, 1⟩] (by simp [Spec.Move.Rigid]) (by simp [Spec.placeKeys, Spec.Move.field]) (by simp [exRef]) exRef
    (by simp [exRef]) (show (0 : ℝ) < 2 by norm_num) (fun q h => nomatch h)
  exact ⟨p, h1, h2, h3, h4⟩

end Zeo
