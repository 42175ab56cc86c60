import Verif.Props.C53

/-! # C53, continued: polyhedra, and shapes with name, type, material and texture -/

namespace Zeo
open ZTK

universe u
private theorem ok_bind {ε : Type} {α β : Type u} (a : α) (f : α → Except ε β) : (Except.ok a >>= f) = f a := rfl

section
variable {σ K : Type*}

private theorem eval_skip (prps : List (Prp σ K)) (s : σ × (String → ℕ)) (f : KeyField K)
    (h : ∀ p ∈ prps, p.key ≠ f.1) : evalField prps s f = .ok s := by
  have : prps.find? (fun p => p.key = f.1) = none := by
    rw [List.find?_eq_none]; intro p hp; simpa using h p hp
  rw [evalField, this]

private theorem fold_filter (prps : List (Prp σ K)) (fs : List (KeyField K)) (s : σ × (String → ℕ)) :
    fs.foldlM (evalField prps) s = (fs.filter fun f => prps.any fun p => p.key = f.1).foldlM (evalField prps) s := by
  induction fs generalizing s with
  | nil => rfl
  | cons f fs ih =>
    rw [List.foldlM_cons]
    by_cases h : (prps.any fun p => p.key = f.1)
    · rw [List.filter_cons, if_pos h, List.foldlM_cons]
      congr 1
      funext t
      exact ih t
    · rw [List.filter_cons, if_neg h, eval_skip prps s f (by simpa using h)]
      exact ih s

/-- **C53** (fields with keys that an object does not know): they have no influence on what is read. -/
theorem C53_foreign_keys (prps : List (Prp σ K)) (o : σ) (fs gs : List (KeyField K))
    (h : fs.filter (fun f => f.1 ∈ prps.map (·.key)) = gs.filter (fun f => f.1 ∈ prps.map (·.key))) :
    evalKeys prps o fs = evalKeys prps o gs := by
  have e : ∀ l : List (KeyField K), (l.filter fun f => prps.any fun p => p.key = f.1) = l.filter (fun f => f.1 ∈ prps.map (·.key)) := by
    intro l
    refine List.filter_congr fun f _ => ?_
    rw [Bool.eq_iff_iff]; simp
  rw [evalKeys, fold_filter, e, h, ← e, ← fold_filter, evalKeys]

private theorem print_keys (prps : List (Prp σ K)) (o : σ) : ∀ f ∈ printKeys prps o, f.1 ∈ prps.map (·.key) := by
  intro f hf
  rw [printKeys, List.mem_flatMap] at hf
  obtain ⟨p, hp, hf⟩ := hf
  split at hf
  · simp at hf
  · rw [List.mem_filterMap] at hf
    obtain ⟨i, -, hi⟩ := hf
    rw [Option.map_eq_some_iff] at hi
    obtain ⟨vs, -, rfl⟩ := hi
    exact List.mem_map.2 ⟨p, hp, rfl⟩

private theorem eval_append (prps : List (Prp σ K)) (o : σ) (fs gs : List (KeyField K))
    (h : ∀ f ∈ fs, f.1 ∉ prps.map (·.key)) : evalKeys prps o (fs ++ gs) = evalKeys prps o gs := by
  apply C53_foreign_keys
  rw [List.filter_append, List.filter_eq_nil_iff.2 (fun f hf => by simpa using h f hf), List.nil_append]

private theorem eval_append' (prps : List (Prp σ K)) (o : σ) (fs gs : List (KeyField K))
    (h : ∀ f ∈ gs, f.1 ∉ prps.map (·.key)) : evalKeys prps o (fs ++ gs) = evalKeys prps o fs := by
  apply C53_foreign_keys
  rw [List.filter_append, List.filter_eq_nil_iff (l := gs) |>.2 (fun f hf => by simpa using h f hf), List.append_nil]
end

/-! ## Polyhedra -/

private theorem ph_verts (fmt : ℝ → ℝ) (τ : ℝ) (v : ℕ → Vec3 ℝ) (n : ℕ) :
    ∀ (k : ℕ) (s : PH ℝ) (c : String → ℕ), c "vert" = k → c "face" = 0 →
    ∃ (s' : PH ℝ) (c' : String → ℕ),
      ((List.range' k n).map (fun i : ℕ => (("vert", .int i :: vecTok fmt (v i)) : KeyField ℝ))).foldlM
        (evalField (phPrp τ)) (s, c) = .ok (s', c') ∧ s'.nv = s.nv ∧ s'.face = s.face ∧ c' "face" = 0 ∧
        (∀ i, k ≤ i → i < k + n → s'.vert i = Spec.roundV fmt (v i)) ∧ (∀ i, i < k → s'.vert i = s.vert i) := by
  induction n with
  | zero => intro k s c h0 h1; exact ⟨s, c, rfl, rfl, rfl, h1, fun i a b => by omega, fun i a => rfl⟩
  | succ n ih =>
    intro k s c h0 h1
    obtain ⟨s', c', e, a1, a2, a3, a4, a5⟩ := ih (k + 1)
      { s with vert := Function.update s.vert k (Spec.roundV fmt (v k)) } (Function.update c "vert" (k + 1)) (by simp) (by simp [h1])
    refine ⟨s', c', ?_, a1, a2, a3, fun i hi hi' => ?_, fun i hi => ?_⟩
    · rw [List.range'_succ, List.map_cons, List.foldlM_cons]
      have : evalField (phPrp τ) (s, c) ("vert", .int k :: vecTok fmt (v k)) =
          .ok ({ s with vert := Function.update s.vert k (Spec.roundV fmt (v k)) }, Function.update c "vert" (k + 1)) := by
        simp [evalField, phPrp, List.find?, phVert, ZTK.int, vec, vecTok, h0, Spec.roundV]
      rw [this]
      exact e
    · rcases eq_or_lt_of_le hi with rfl | hi
      · rw [a5 _ (by omega)]; simp
      · exact a4 i hi (by omega)
    · rw [a5 i (by omega)]; simp [Function.update, show i ≠ k by omega]

private theorem ph_face1 (τ : ℝ) (f : Face ℝ) (s : PH ℝ) (c : String → ℕ) (h : f.i0 < s.nv ∧ f.i1 < s.nv ∧ f.i2 < s.nv) :
    evalField (phPrp τ) (s, c) ("face", [.int f.i0, .int f.i1, .int f.i2]) =
      .ok ({ s with face := s.face ++ [⟨f.i0, f.i1, f.i2, (Tri3.create τ (s.vert f.i0) (s.vert f.i1) (s.vert f.i2)).2.norm⟩] },
        Function.update c "face" (c "face" + 1)) := by
  have hneg : ¬ ((f.i0 : ℤ) < 0 ∨ (f.i1 : ℤ) < 0 ∨ (f.i2 : ℤ) < 0) := by omega
  have k0 : ¬ (s.nv : ℤ) ≤ f.i0 := by omega
  have k1 : ¬ (s.nv : ℤ) ≤ f.i1 := by omega
  have k2 : ¬ (s.nv : ℤ) ≤ f.i2 := by omega
  have : phFace τ s [.int f.i0, .int f.i1, .int f.i2] = .ok { s with face := s.face ++ [⟨f.i0, f.i1, f.i2, (Tri3.create τ (s.vert f.i0) (s.vert f.i1) (s.vert f.i2)).2.norm⟩] } := by
    simp only [phFace, phIndex, ZTK.int, if_neg k0, if_neg k1, if_neg k2, if_neg hneg, Int.toNat_natCast]
  simp [evalField, phPrp, List.find?, this]

private theorem ph_faces (τ : ℝ) (l : List (Face ℝ)) :
    ∀ (s : PH ℝ) (c : String → ℕ), (∀ f ∈ l, f.i0 < s.nv ∧ f.i1 < s.nv ∧ f.i2 < s.nv) →
    ∃ c', (l.map (fun f => (("face", [.int f.i0, .int f.i1, .int f.i2]) : KeyField ℝ))).foldlM
        (evalField (phPrp τ)) (s, c) = .ok ({ s with face := s.face ++ l.map (fun f =>
          ⟨f.i0, f.i1, f.i2, (Tri3.create τ (s.vert f.i0) (s.vert f.i1) (s.vert f.i2)).2.norm⟩) }, c') := by
  induction l with
  | nil => intro s c _; exact ⟨c, by simp; rfl⟩
  | cons f l ih =>
    intro s c h
    obtain ⟨h0, h1, h2⟩ := h f (by simp)
    obtain ⟨c', e⟩ := ih { s with face := s.face ++ [⟨f.i0, f.i1, f.i2, (Tri3.create τ (s.vert f.i0) (s.vert f.i1) (s.vert f.i2)).2.norm⟩] }
      (Function.update c "face" (c "face" + 1)) (fun g hg => h g (by simp [hg]))
    refine ⟨c', ?_⟩
    rw [List.map_cons, List.foldlM_cons]
    have := ph_face1 τ f s c ⟨h0, h1, h2⟩
    rw [this]
    simp only [List.append_assoc, List.singleton_append] at e
    exact e

/-- **C53** (`zPH3DFPrintZTK`, then `zPH3DFromZTK`): a polyhedron with at least one vertex whose faces refer to
its vertices comes back with the same number of vertices, every vertex up to decimal notation, the same faces
in the same order, and as face normals those that `zTri3DCreate` computes from the vertices read. -/
theorem C53_ph (fmt : ℝ → ℝ) (τ : ℝ) (p : PH ℝ) (h0 : 0 < p.nv)
    (hf : ∀ f ∈ p.face, f.i0 < p.nv ∧ f.i1 < p.nv ∧ f.i2 < p.nv) :
    ∃ q, phFromZTK τ (phPrint fmt p) = .ok q ∧ q.nv = p.nv ∧ (∀ i < p.nv, q.vert i = Spec.roundV fmt (p.vert i)) ∧
      q.face.map (fun f => (f.i0, f.i1, f.i2)) = p.face.map (fun f => (f.i0, f.i1, f.i2)) ∧
      ∀ f ∈ q.face, f.norm = (Tri3.create τ (Spec.roundV fmt (p.vert f.i0)) (Spec.roundV fmt (p.vert f.i1))
        (Spec.roundV fmt (p.vert f.i2))).2.norm := by
  have hne : phPrint fmt p ≠ [] := by
    rw [phPrint, if_neg h0.ne']
    cases hn : p.nv with
    | zero => omega
    | succ n => simp [List.range_succ]
  have hpr : ((phPrint fmt p).any fun f => f.1 = "prism" ∨ f.1 = "pyramid") = false := by
    rw [phPrint, if_neg h0.ne']; simp
  have hct : (phPrint fmt p).countP (fun f => f.1 = "vert") = p.nv := by
    rw [phPrint, if_neg h0.ne', List.countP_append, List.countP_map, List.countP_map]
    have e1 : List.countP ((fun f : KeyField ℝ => decide (f.1 = "vert")) ∘ fun i : ℕ => (("vert", Tok.int i :: vecTok fmt (p.vert i)) : KeyField ℝ)) (List.range p.nv) = p.nv := by
      rw [List.countP_eq_length.2 (by simp), List.length_range]
    have e2 : List.countP ((fun f : KeyField ℝ => decide (f.1 = "vert")) ∘ fun f : Face ℝ => (("face", [.int f.i0, .int f.i1, .int f.i2]) : KeyField ℝ)) p.face = 0 := by
      rw [List.countP_eq_zero]; simp
    rw [e1, e2, Nat.add_zero]
  obtain ⟨s', c', e, a1, a2, a3, a4, -⟩ := ph_verts fmt τ p.vert p.nv 0 ⟨p.nv, fun _ => .zero, []⟩ (fun _ => 0) rfl rfl
  obtain ⟨c'', e'⟩ := ph_faces τ p.face s' c' (by rw [a1]; exact hf)
  refine ⟨{ s' with face := s'.face ++ p.face.map (fun f =>
    ⟨f.i0, f.i1, f.i2, (Tri3.create τ (s'.vert f.i0) (s'.vert f.i1) (s'.vert f.i2)).2.norm⟩) },
    ?_, a1, fun i hi => a4 i (by omega) (by omega), ?_, ?_⟩
  · rw [phFromZTK, if_neg hne, hpr, hct, if_neg (by simp), evalKeys, phPrint, if_neg h0.ne', List.foldlM_append]
    rw [← List.range_eq_range'] at e
    rw [e, ok_bind, e']
  · rw [a2]; simp
  · rw [a2]
    intro f hfm
    simp only [List.nil_append, List.mem_map] at hfm
    obtain ⟨g, hg, rfl⟩ := hfm
    obtain ⟨g0, g1, g2⟩ := hf g hg
    simp only
    rw [a4 g.i0 (by omega) (by omega), a4 g.i1 (by omega) (by omega), a4 g.i2 (by omega) (by omega)]

/-- A tetrahedron meets the hypotheses. -/
example : ∃ p : PH ℝ, 0 < p.nv ∧ p.face.length = 4 ∧ ∀ f ∈ p.face, f.i0 < p.nv ∧ f.i1 < p.nv ∧ f.i2 < p.nv :=
  ⟨⟨4, fun i => if i = 1 then ⟨1, 0, 0⟩ else if i = 2 then ⟨0, 1, 0⟩ else if i = 3 then ⟨0, 0, 1⟩ else .zero,
    [⟨0, 2, 1, ⟨0, 0, -1⟩⟩, ⟨0, 1, 3, ⟨0, -1, 0⟩⟩, ⟨0, 3, 2, ⟨-1, 0, 0⟩⟩, ⟨1, 2, 3, ⟨0, 0, 0⟩⟩]⟩, by simp⟩

/-- A face field names the vertices of a face of a polyhedron with `nv` vertices. -/
def Spec.faceField (nv : ℕ) (f : Face ℝ) (kf : KeyField ℝ) : Prop :=
  f.i0 < nv ∧ f.i1 < nv ∧ f.i2 < nv ∧ ∃ rest, kf.2 = .int f.i0 :: .int f.i1 :: .int f.i2 :: rest

private theorem phIndex_ok {nv : ℕ} {vs : List (Tok ℝ)} {r : ℤ × List (Tok ℝ)} (h : phIndex nv vs = .ok r) :
    vs = .int r.1 :: r.2 ∧ r.1 < nv := by
  rw [phIndex] at h
  match vs with
  | .int n :: l =>
    simp only [ZTK.int] at h
    split at h
    · cases h
    · rename_i h'
      cases h
      exact ⟨rfl, not_le.1 h'⟩
  | .num _ :: _ => simp [ZTK.int] at h
  | .word _ :: _ => simp [ZTK.int] at h
  | .group _ _ _ :: _ => simp [ZTK.int] at h
  | [] => simp [ZTK.int] at h

private theorem phFace_ok {τ : ℝ} {s s' : PH ℝ} {vs : List (Tok ℝ)} (h : phFace τ s vs = .ok s') :
    ∃ f : Face ℝ, s' = { s with face := s.face ++ [f] } ∧ ∀ k, Spec.faceField s.nv f (k, vs) := by
  rw [phFace] at h
  split at h; · cases h
  rename_i i0 v0 e0
  split at h; · cases h
  rename_i i1 v1 e1
  split at h; · cases h
  rename_i i2 v2 e2
  split at h; · cases h
  rename_i hn
  cases h
  obtain ⟨a0, b0⟩ := phIndex_ok e0
  obtain ⟨a1, b1⟩ := phIndex_ok e1
  obtain ⟨a2, b2⟩ := phIndex_ok e2
  simp only at a0 a1 a2 b0 b1 b2
  push Not at hn
  refine ⟨_, rfl, fun k => ⟨by simp only; omega, by simp only; omega, by simp only; omega, v2, ?_⟩⟩
  simp only [Int.toNat_of_nonneg hn.1, Int.toNat_of_nonneg hn.2.1, Int.toNat_of_nonneg hn.2.2]
  rw [a0, a1, a2]

private theorem phVert_ok {s s' : PH ℝ} {i : ℕ} {vs : List (Tok ℝ)} (h : phVert s i vs = .ok s') :
    ∃ (m : ℤ) (rest : List (Tok ℝ)) (v : Vec3 ℝ), vs = .int m :: rest ∧ vec rest = .ok v ∧
      s' = { s with vert := Function.update s.vert i v } := by
  rw [phVert] at h
  match vs with
  | .int n :: l =>
    simp only [ZTK.int] at h
    split at h
    · cases h
    · rename_i v e
      cases h
      exact ⟨n, l, v, rfl, e, rfl⟩
  | .num _ :: _ => simp [ZTK.int] at h
  | .word _ :: _ => simp [ZTK.int] at h
  | .group _ _ _ :: _ => simp [ZTK.int] at h
  | [] => simp [ZTK.int] at h

private theorem phField_ok {τ : ℝ} {s s' : PH ℝ} {c c' : String → ℕ} {f : KeyField ℝ}
    (h : evalField (phPrp τ) (s, c) f = .ok (s', c')) :
    (f.1 = "vert" ∧ phVert s (c "vert") f.2 = .ok s' ∧ c' = Function.update c "vert" (c "vert" + 1)) ∨
    (f.1 = "face" ∧ phFace τ s f.2 = .ok s' ∧ c' "vert" = c "vert") ∨
    (f.1 ≠ "vert" ∧ f.1 ≠ "face" ∧ s' = s ∧ c' "vert" = c "vert") := by
  obtain ⟨k, vs⟩ := f
  by_cases h1 : k = "vert"
  · subst h1
    refine Or.inl ⟨rfl, ?_⟩
    simp [evalField, phPrp, List.find?] at h
    split at h
    · rename_i o e; cases h; exact ⟨e, rfl⟩
    · cases h
  by_cases h2 : k = "face"
  · subst h2
    refine Or.inr (Or.inl ⟨rfl, ?_⟩)
    simp [evalField, phPrp, List.find?] at h
    split at h
    · rename_i o e; cases h; exact ⟨e, by simp⟩
    · cases h
  refine Or.inr (Or.inr ⟨h1, h2, ?_⟩)
  rw [evalField] at h
  have h1' : ("vert" = k) = False := by simp [Ne.symm h1]
  have h2' : ("face" = k) = False := by simp [Ne.symm h2]
  simp only [phPrp, List.find?, h1', h2', decide_false] at h
  by_cases h3 : "loop" = k
  · simp only [h3, decide_true] at h
    split at h <;> cases h; exact ⟨rfl, rfl⟩
  by_cases h4 : "prism" = k
  · simp only [h3, h4, decide_true, decide_false] at h
    split at h <;> cases h; exact ⟨rfl, rfl⟩
  by_cases h5 : "pyramid" = k
  · simp only [h3, h4, h5, decide_true, decide_false] at h
    split at h <;> cases h; exact ⟨rfl, rfl⟩
  simp only [h3, h4, h5, decide_false] at h
  cases h; exact ⟨rfl, rfl⟩

private theorem ph_read {τ : ℝ} (fs : List (KeyField ℝ)) : ∀ {s s' : PH ℝ} {c c' : String → ℕ},
    fs.foldlM (evalField (phPrp τ)) (s, c) = .ok (s', c') →
    s'.nv = s.nv ∧ (∀ i < c "vert", s'.vert i = s.vert i) ∧
    (∃ l, s'.face = s.face ++ l ∧ List.Forall₂ (Spec.faceField s.nv) l (fs.filter fun f => f.1 = "face")) ∧
    ∀ j f, (fs.filter fun f => f.1 = "vert")[j]? = some f →
      ∃ (m : ℤ) (rest : List (Tok ℝ)), f.2 = .int m :: rest ∧ vec rest = .ok (s'.vert (c "vert" + j)) := by
  induction fs with
  | nil =>
    intro s s' c c' h
    cases h
    exact ⟨rfl, fun _ _ => rfl, ⟨[], by simp, by simp⟩, by simp⟩
  | cons f fs ih =>
    intro s s' c c' h
    rw [List.foldlM_cons] at h
    cases e : evalField (phPrp τ) (s, c) f with
    | error x => rw [e] at h; cases h
    | ok t =>
      obtain ⟨t, d⟩ := t
      rw [e, ok_bind] at h
      obtain ⟨b1, b2, ⟨l, b3, b4⟩, b5⟩ := ih h
      rcases phField_ok e with ⟨k, e1, e2⟩ | ⟨k, e1, e2⟩ | ⟨k1, k2, rfl, e2⟩
      · obtain ⟨m, rest, v, g1, g2, rfl⟩ := phVert_ok e1
        have hd : d "vert" = c "vert" + 1 := by rw [e2]; simp
        refine ⟨b1, fun i hi => ?_, ⟨l, b3, ?_⟩, fun j f' hj => ?_⟩
        · rw [b2 i (by omega)]; simp [Function.update, show i ≠ c "vert" by omega]
        · rw [List.filter_cons, if_neg (by simp [k])]; exact b4
        · rw [List.filter_cons, if_pos (by simp [k])] at hj
          cases j with
          | zero =>
            simp only [List.getElem?_cons_zero, Option.some.injEq] at hj
            subst hj
            refine ⟨m, rest, g1, ?_⟩
            rw [g2, Nat.add_zero, b2 _ (by omega)]; simp
          | succ j =>
            simp only [List.getElem?_cons_succ] at hj
            obtain ⟨m', rest', q1, q2⟩ := b5 j f' hj
            exact ⟨m', rest', q1, by rw [q2, hd]; congr 2; omega⟩
      · obtain ⟨g, rfl, hg⟩ := phFace_ok e1
        refine ⟨b1, fun i hi => b2 i (by omega), ⟨g :: l, by rw [b3]; simp, ?_⟩, fun j f' hj => ?_⟩
        · rw [List.filter_cons, if_pos (by simp [k])]
          exact List.Forall₂.cons (hg f.1) b4
        · rw [List.filter_cons, if_neg (by simp [k])] at hj
          obtain ⟨m', rest', q1, q2⟩ := b5 j f' hj
          exact ⟨m', rest', q1, by rw [q2, e2]⟩
      · refine ⟨b1, fun i hi => b2 i (by omega), ⟨l, b3, ?_⟩, fun j f' hj => ?_⟩
        · rw [List.filter_cons, if_neg (by simp [k2])]; exact b4
        · rw [List.filter_cons, if_neg (by simp [k1])] at hj
          obtain ⟨m', rest', q1, q2⟩ := b5 j f' hj
          exact ⟨m', rest', q1, by rw [q2, e2]⟩

/-- **C53** (`zPH3DFromZTK`, whatever the file): when a polyhedron is read, it has as many vertices as there are
`vert` fields, the `i`-th vertex is the vector in the `i`-th of them (whatever index is written in front of
it), and its faces are, in order, those named in the `face` fields; all their indices are below the number of
vertices.  So a section with a face field that has too few indices or an index beyond the vertices, or a `vert`
field without a vector, is not read. -/
theorem C53_ph_read {τ : ℝ} {fs : List (KeyField ℝ)} {p : PH ℝ} (h : phFromZTK τ fs = .ok p) :
    p.nv = (fs.filter fun f => f.1 = "vert").length ∧
    List.Forall₂ (Spec.faceField p.nv) p.face (fs.filter fun f => f.1 = "face") ∧
    ∀ j f, (fs.filter fun f => f.1 = "vert")[j]? = some f →
      ∃ (m : ℤ) (rest : List (Tok ℝ)), f.2 = .int m :: rest ∧ vec rest = .ok (p.vert j) := by
  rw [phFromZTK] at h
  split at h; · cases h
  split at h; · cases h
  rw [evalKeys] at h
  split at h
  · rename_i s e
    cases h
    obtain ⟨a1, -, ⟨l, a3, a4⟩, a5⟩ := ph_read fs e
    simp only at a1 a3 a4 a5
    refine ⟨by rw [a1, List.countP_eq_length_filter], ?_, fun j f hj => ?_⟩
    · rw [a3, List.nil_append, a1]; exact a4
    · obtain ⟨m, rest, q1, q2⟩ := a5 j f hj
      exact ⟨m, rest, q1, by rw [q2, Nat.zero_add]⟩
  · cases h

/-- **C53, what goes wrong** (`_zPH3DFaceFromZTK` checks indices from above only): a negative index is not
rejected; pointers in front of the vertex buffer are made and read. -/
theorem C53_ph_negative (τ : ℝ) (v : Vec3 ℝ) (a : ℤ) (ha : a < 0) :
    phFromZTK τ [("vert", .int 0 :: vecTok id v), ("face", [.int a, .int 0, .int 0])] = .error .undef := by
  simp only [phFromZTK, evalKeys, List.foldlM_cons]
  have e1 : evalField (phPrp τ) (⟨1, fun _ => .zero, []⟩, fun _ => 0) ("vert", .int 0 :: vecTok id v) =
      .ok (⟨1, Function.update (fun _ => .zero) 0 v, []⟩, Function.update (fun _ => 0) "vert" 1) := by
    simp [evalField, phPrp, List.find?, phVert, ZTK.int, vec, vecTok]
  have k0 : ¬ ((1:ℕ) : ℤ) ≤ a := by omega
  have k1 : ¬ ((1:ℕ) : ℤ) ≤ 0 := by omega
  have e2 : phFace τ ⟨1, Function.update (fun _ => .zero) 0 v, []⟩ [.int a, .int 0, .int 0] = .error .undef := by
    simp only [phFace, phIndex, ZTK.int, if_neg k0, if_neg k1, if_pos (Or.inl ha : a < 0 ∨ (0:ℤ) < 0 ∨ (0:ℤ) < 0)]
  have e3 : evalField (phPrp τ) (⟨1, Function.update (fun _ => .zero) 0 v, []⟩, Function.update (fun _ => 0) "vert" 1)
      ("face", [.int a, .int 0, .int 0]) = .error .undef := by
    simp [evalField, phPrp, List.find?, e2]
  have hc : List.countP (fun f : KeyField ℝ => decide (f.1 = "vert"))
      [("vert", .int 0 :: vecTok id v), ("face", [.int a, .int 0, .int 0])] = 1 := by simp
  rw [if_neg (by simp), if_neg (by simp), hc, e1, ok_bind, e3]
  rfl

/-- **C53, what goes wrong** (the normal of a face is computed when the face is read): with the face fields in
front of the vertex fields the polyhedron is read, with the right vertices and faces, but every face normal is
zero, although no degenerate face is in the file. -/
theorem C53_ph_face_first {τ : ℝ} (hτ : 0 ≤ τ) (a b c : Vec3 ℝ) :
    ∃ p, phFromZTK τ [("face", [.int 0, .int 1, .int 2]), ("vert", .int 0 :: vecTok id a), ("vert", .int 1 :: vecTok id b),
      ("vert", .int 2 :: vecTok id c)] = .ok p ∧ p.vert 0 = a ∧ p.vert 1 = b ∧ p.vert 2 = c ∧
      p.face = [⟨0, 1, 2, .zero⟩] := by
  have hz : (Tri3.create τ .zero .zero .zero).2.norm = .zero := by
    have : Tri3.outerProd (Vec3.zero : Vec3 ℝ) .zero .zero = .zero := by
      ext <;> simp [Tri3.outerProd, Vec3.outer, Vec3.sub, Vec3.zero]
    have h0 : (Vec3.zero : Vec3 ℝ).isTol τ := by simp [Vec3.isTol, Vec3.zero, zIsTol, hτ]
    simp only [Tri3.create, this, if_pos h0]
  refine ⟨⟨3, Function.update (Function.update (Function.update (fun _ => .zero) 0 a) 1 b) 2 c, [⟨0, 1, 2, .zero⟩]⟩, ?_,
    by simp [Function.update], by simp [Function.update], by simp [Function.update], rfl⟩
  have e := ph_face1 τ ⟨0, 1, 2, .zero⟩ ⟨3, fun _ => .zero, []⟩ (fun _ => 0) (by simp)
  simp only [hz, List.nil_append, Nat.cast_zero, Nat.cast_one, Nat.cast_ofNat] at e
  have hc : List.countP (fun f : KeyField ℝ => decide (f.1 = "vert"))
      [("face", [.int 0, .int 1, .int 2]), ("vert", .int 0 :: vecTok id a), ("vert", .int 1 :: vecTok id b),
      ("vert", .int 2 :: vecTok id c)] = 3 := by simp
  rw [phFromZTK, if_neg (by simp), if_neg (by simp), hc, evalKeys, List.foldlM_cons, e, ok_bind]
  simp [evalField, phPrp, List.find?, phVert, ZTK.int, vec, vecTok, ok_bind]

/-! ## Shapes -/

private theorem findName_get {l : List String} (h : l.Nodup) {i : ℕ} {n : String} (hi : l[i]? = some n) : findName l n = some i := by
  obtain ⟨hlt, rfl⟩ := List.getElem?_eq_some_iff.1 hi
  rw [findName, List.findIdx?_eq_some_iff_getElem]
  refine ⟨hlt, by simp, fun j hj => ?_⟩
  simp only [decide_eq_true_eq]
  intro e
  exact absurd ((List.Nodup.getElem_inj_iff h).1 e) (by omega)

private theorem head_keys (sn on tn : List String) : (headPrp sn on tn).map (·.key) =
    ["name", "type", "optic", "texture", "mirror", "import", "pos", "att", "rot", "frame"] := rfl

private theorem body_keys (fmt : ℝ → ℝ) (τ : ℝ) (sn on tn : List String) (b : Body) :
    ∀ f ∈ b.print fmt τ, f.1 ∉ (headPrp sn on tn).map (·.key) := by
  intro f hf
  rw [head_keys]
  have d : ∀ {l : List String}, f.1 ∈ l → (∀ k ∈ l, k ∉ ["name", "type", "optic", "texture", "mirror", "import", "pos", "att", "rot", "frame"]) →
    f.1 ∉ ["name", "type", "optic", "texture", "mirror", "import", "pos", "att", "rot", "frame"] := fun h h' => h' _ h
  cases b with
  | box b => exact d (print_keys _ _ f hf) (by simp [boxPrp])
  | sphere b => exact d (print_keys _ _ f hf) (by simp [spherePrp])
  | ellips b => exact d (print_keys _ _ f hf) (by simp [ellipsPrp])
  | cyl b => exact d (print_keys _ _ f hf) (by simp [cylPrp])
  | ecyl b => exact d (print_keys _ _ f hf) (by simp [ecylPrp])
  | capsule b => exact d (print_keys _ _ f hf) (by simp [cylPrp])
  | cone b => exact d (print_keys _ _ f hf) (by simp [conePrp])
  | ph p =>
    refine d (l := ["vert", "face"]) ?_ (by decide)
    simp only [Body.print, phPrint] at hf
    split at hf
    · simp at hf
    · simp only [List.mem_append, List.mem_map] at hf
      rcases hf with ⟨i, -, rfl⟩ | ⟨g, -, rfl⟩ <;> simp

private theorem body_head (fmt : ℝ → ℝ) (τ : ℝ) (hd : List (KeyField ℝ)) (b c : Body)
    (hk : ∀ f ∈ hd, f.1 ∈ ["name", "type", "optic", "texture"])
    (hb : Body.fromZTK τ b.type (b.print fmt τ) = .ok c) : Body.fromZTK τ b.type (hd ++ b.print fmt τ) = .ok c := by
  have hk' : ∀ (l : List String), (∀ k ∈ ["name", "type", "optic", "texture"], k ∉ l) → ∀ f ∈ hd, f.1 ∉ l :=
    fun l h f hf => h _ (hk f hf)
  rw [← hb]
  cases b with
  | box b =>
    have e := fun o => eval_append (boxPrp id τ) o hd (Body.print fmt τ (.box b)) (hk' _ (by simp [boxPrp]))
    simp only [Body.print] at e
    simp [Body.type, Body.fromZTK, Body.print, boxFromZTK, e]
  | sphere b =>
    have e := fun o => eval_append (spherePrp id) o hd (Body.print fmt τ (.sphere b)) (hk' _ (by simp [spherePrp]))
    simp only [Body.print] at e
    simp [Body.type, Body.fromZTK, Body.print, sphereFromZTK, e]
  | ellips b =>
    have e := fun o => eval_append (ellipsPrp id τ) o hd (Body.print fmt τ (.ellips b)) (hk' _ (by simp [ellipsPrp]))
    simp only [Body.print] at e
    simp [Body.type, Body.fromZTK, Body.print, ellipsFromZTK, e]
  | cyl b =>
    have e := fun o => eval_append (cylPrp id) o hd (Body.print fmt τ (.cyl b)) (hk' _ (by simp [cylPrp]))
    simp only [Body.print] at e
    simp [Body.type, Body.fromZTK, Body.print, cylFromZTK, e]
  | ecyl b =>
    have e := fun o => eval_append (ecylPrp id τ) o hd (Body.print fmt τ (.ecyl b)) (hk' _ (by simp [ecylPrp]))
    simp only [Body.print] at e
    simp [Body.type, Body.fromZTK, Body.print, ecylFromZTK, e]
  | capsule b =>
    have e := fun o => eval_append (cylPrp id) o hd (Body.print fmt τ (.capsule b)) (hk' _ (by simp [cylPrp]))
    simp only [Body.print] at e
    simp [Body.type, Body.fromZTK, Body.print, cylFromZTK, e]
  | cone b =>
    have e := fun o => eval_append (conePrp id) o hd (Body.print fmt τ (.cone b)) (hk' _ (by simp [conePrp]))
    simp only [Body.print] at e
    simp [Body.type, Body.fromZTK, Body.print, coneFromZTK, e]
  | ph p =>
    have hne : phPrint fmt p ≠ [] := by
      intro h0
      simp [Body.type, Body.fromZTK, Body.print, h0, phFromZTK, ZTK.wrap] at hb
    have e : phFromZTK τ (hd ++ phPrint fmt p) = phFromZTK τ (phPrint fmt p) := by
      have hv : List.countP (fun f : KeyField ℝ => decide (f.1 = "vert")) hd = 0 := by
        rw [List.countP_eq_zero]
        intro f hf
        have := hk' ["vert"] (by decide) f hf
        simpa using this
      have hp : (hd.any fun f => decide (f.1 = "prism" ∨ f.1 = "pyramid")) = false := by
        rw [List.any_eq_false]
        intro f hf
        have := hk' ["prism", "pyramid"] (by decide) f hf
        simpa using this
      rw [phFromZTK, phFromZTK, if_neg (by simp [hne]), if_neg hne, List.any_append, hp, Bool.false_or, List.countP_append, hv,
        Nat.zero_add, eval_append _ _ hd _ (hk' _ (by simp [phPrp] : ∀ k ∈ ["name", "type", "optic", "texture"], k ∉ ((phPrp τ).map (·.key))))]
    simp [Body.type, Body.fromZTK, Body.print, e]

private theorem type_mem (b : Body) : b.type ∈ types := by cases b <;> simp [Body.type, types]

private theorem head_print (sn on tn : List String) (H : Head) :
    ∃ fo ft, printKeys (headPrp sn on tn) H = [("name", [.word (H.name.getD "")]), ("type", [.word (H.type.getD "")])] ++ fo ++ ft ∧
      fo = ((H.optic.bind (on[·]?)).map fun n => ("optic", [Tok.word n])).toList ∧
      ft = ((H.texture.bind (tn[·]?)).map fun n => ("texture", [Tok.word n])).toList := by
  refine ⟨_, _, ?_, rfl, rfl⟩
  simp only [printKeys, headPrp, List.flatMap_cons, List.flatMap_nil]
  cases H.optic.bind (on[·]?) <;> cases H.texture.bind (tn[·]?) <;> simp [List.range_succ]

/-- **C53** (`zShape3DFPrintZTK`, then `zShape3DFromZTK`): a shape comes back with its name, its optical
information, its texture and its type, and with the body that the reader of the type makes of the body's own
fields (see `C53_round`, `C53_axes`, `C53_ecyl_same` and `C53_ph` for what that is), if no shape with that name
was read before and names in the arrays of optical information and textures are unique. -/
theorem C53_shape (fmt : ℝ → ℝ) (τ : ℝ) (snames onames tnames : List String) (s : Shape) (b : Body)
    (hb : Body.fromZTK τ s.body.type (s.body.print fmt τ) = .ok b) (hs : s.name ∉ snames)
    (ho : onames.Nodup) (ht : tnames.Nodup)
    (hoi : ∀ i, s.optic = some i → i < onames.length) (hti : ∀ i, s.texture = some i → i < tnames.length) :
    Shape.fromZTK τ snames onames tnames (s.print fmt τ onames tnames) = .ok ⟨s.name, s.optic, s.texture, b⟩ := by
  obtain ⟨fo, ft, e, rfl, rfl⟩ := head_print [] onames tnames ⟨some s.name, some s.body.type, s.optic, s.texture⟩
  have hn : findName snames s.name = none := by
    rw [findName, List.findIdx?_eq_none_iff]
    intro x hx; simp only [decide_eq_false_iff_not]; rintro rfl; exact hs hx
  have H : evalKeys (headPrp snames onames tnames) ⟨none, none, none, none⟩ (s.print fmt τ onames tnames) =
      .ok ⟨some s.name, some s.body.type, s.optic, s.texture⟩ := by
    rw [Shape.print, eval_append' _ _ _ _ (body_keys fmt τ snames onames tnames s.body), e]
    have hm := type_mem s.body
    rcases hso : s.optic with _ | i <;> rcases hst : s.texture with _ | j
    · simp [evalKeys, evalField, headPrp, List.find?, ZTK.word, store, hn, hm, ok_bind]
    · obtain ⟨n, hj⟩ : ∃ n, tnames[j]? = some n := ⟨_, List.getElem?_eq_getElem (hti j hst)⟩
      have := findName_get ht hj
      simp [evalKeys, evalField, headPrp, List.find?, ZTK.word, store, hn, hm, ok_bind, hj, this]
    · obtain ⟨n, hj⟩ : ∃ n, onames[i]? = some n := ⟨_, List.getElem?_eq_getElem (hoi i hso)⟩
      have := findName_get ho hj
      simp [evalKeys, evalField, headPrp, List.find?, ZTK.word, store, hn, hm, ok_bind, hj, this]
    · obtain ⟨n, hi⟩ : ∃ n, onames[i]? = some n := ⟨_, List.getElem?_eq_getElem (hoi i hso)⟩
      obtain ⟨m, hj⟩ : ∃ n, tnames[j]? = some n := ⟨_, List.getElem?_eq_getElem (hti j hst)⟩
      have h1 := findName_get ho hi
      have h2 := findName_get ht hj
      simp [evalKeys, evalField, headPrp, List.find?, ZTK.word, store, hn, hm, ok_bind, hi, hj, h1, h2]
  have B := body_head fmt τ (printKeys (headPrp [] onames tnames) ⟨some s.name, some s.body.type, s.optic, s.texture⟩) s.body b
    (by
      rw [e]
      intro f hf
      simp only [List.mem_append, List.mem_cons, List.not_mem_nil, or_false, Option.mem_toList, Option.map_eq_some_iff] at hf
      rcases hf with ((rfl | rfl) | ⟨n, -, rfl⟩) | ⟨n, -, rfl⟩ <;> simp) hb
  rw [Shape.fromZTK, H]
  simp only
  rw [Shape.print, B]
  rfl

/-- A sphere with the second of two materials and no texture meets the hypotheses. -/
example : ∃ (s : Shape) (b : Body), Body.fromZTK (1/1000000) s.body.type (s.body.print id (1/1000000)) = .ok b ∧
    s.name ∉ ["floor"] ∧ ["red", "blue"].Nodup ∧ (∀ i, s.optic = some i → i < ["red", "blue"].length) ∧
    (∀ i, s.texture = some i → i < ([] : List String).length) ∧ s.optic = some 1 :=
  ⟨⟨"ball", some 1, none, .sphere ⟨⟨⟨1, 2, 3⟩, 4⟩, 16⟩⟩, .sphere ⟨⟨⟨1, 2, 3⟩, 4⟩, 16⟩, by
    simp only [Body.type, Body.print, Body.fromZTK]
    rw [(C53_round id).1 _ (by norm_num)]
    simp [ZTK.wrap, Spec.roundV], by simp, by simp, by simp, by simp, rfl⟩

private theorem eval_inv {σ K : Type*} (prps : List (Prp σ K)) (P : σ → Prop) (fs : List (KeyField K))
    (hP : ∀ p ∈ prps, ∀ f ∈ fs, p.key = f.1 → ∀ s i s', P s → p.eval s i f.2 = .ok s' → P s') {o o' : σ}
    (h0 : P o) (h : evalKeys prps o fs = .ok o') : P o' := by
  have key : ∀ (gs : List (KeyField K)) (s t : σ × (String → ℕ)), (∀ f ∈ gs, f ∈ fs) → P s.1 → gs.foldlM (evalField prps) s = .ok t → P t.1 := by
    intro gs
    induction gs with
    | nil => intro s t _ hs h; cases h; exact hs
    | cons f gs ih =>
      intro s t hg hs h
      rw [List.foldlM_cons] at h
      cases e : evalField prps s f with
      | error x => rw [e] at h; cases h
      | ok r =>
        rw [e, ok_bind] at h
        refine ih r t (fun g hg' => hg g (by simp [hg'])) ?_ h
        rw [evalField] at e
        split at e
        · cases e; exact hs
        · rename_i p hp
          split at e
          · cases e; exact hs
          · split at e
            · rename_i o' eo
              cases e
              exact hP p (List.mem_of_find?_eq_some hp) f (hg f (by simp)) (by simpa using List.find?_some hp) _ _ _ hs eo
            · cases e
  rw [evalKeys] at h
  split at h
  · rename_i s e; cases h; exact key fs _ _ (fun _ h => h) h0 e
  · cases h

private theorem word_ok {vs : List (Tok ℝ)} {n : String} (h : (ZTK.word vs : Except Err String) = .ok n) : ∃ r, vs = .word n :: r := by
  match vs with
  | .word m :: r => cases h; exact ⟨r, rfl⟩
  | .num _ :: _ => cases h
  | .int _ :: _ => cases h
  | .group _ _ _ :: _ => cases h
  | [] => cases h

private theorem findName_lt {l : List String} {n : String} {i : ℕ} (h : findName l n = some i) : i < l.length := by
  rw [findName, List.findIdx?_eq_some_iff_getElem] at h
  exact h.1

private theorem fromZTK_type {τ : ℝ} {t : String} {fs : List (KeyField ℝ)} {b : Body} (h : Body.fromZTK τ t fs = .ok b) : b.type = t := by
  have w : ∀ {α : Type} (f : α → Body) (r : Except Err α), ZTK.wrap f r = .ok b → ∃ a, b = f a := by
    intro α f r hr
    cases r with
    | ok a => cases hr; exact ⟨a, rfl⟩
    | error e => cases hr
  rw [Body.fromZTK] at h
  split at h; · rename_i e; obtain ⟨a, rfl⟩ := w _ _ h; exact e.symm
  split at h; · rename_i e; obtain ⟨a, rfl⟩ := w _ _ h; exact e.symm
  split at h; · rename_i e; obtain ⟨a, rfl⟩ := w _ _ h; exact e.symm
  split at h; · rename_i e; obtain ⟨a, rfl⟩ := w _ _ h; exact e.symm
  split at h; · rename_i e; obtain ⟨a, rfl⟩ := w _ _ h; exact e.symm
  split at h; · rename_i e; obtain ⟨a, rfl⟩ := w _ _ h; exact e.symm
  split at h; · rename_i e; obtain ⟨a, rfl⟩ := w _ _ h; exact e.symm
  split at h; · rename_i e; obtain ⟨a, rfl⟩ := w _ _ h; exact e.symm
  split at h <;> cases h

/-- **C53** (`zShape3DFromZTK`, whatever the file): a shape that is read has a name no shape read before has (or
no name was given), refers to existing optical information and textures, and its type is one written in the
file.  So a section without a type, with an unknown type or with a name already used is rejected. -/
theorem C53_shape_read {τ : ℝ} {snames onames tnames : List String} {fs : List (KeyField ℝ)} {s : Shape}
    (h : Shape.fromZTK τ snames onames tnames fs = .ok s) :
    (s.name ∈ snames → s.name = "") ∧ (∀ i, s.optic = some i → i < onames.length) ∧
    (∀ i, s.texture = some i → i < tnames.length) ∧
    ∃ f ∈ fs, f.1 = "type" ∧ ∃ rest, f.2 = .word s.body.type :: rest := by
  rw [Shape.fromZTK] at h
  split at h; · cases h
  rename_i H hH
  split at h; · cases h
  rename_i t ht
  split at h; · cases h
  rename_i b hb
  cases h
  have inv := eval_inv (headPrp snames onames tnames) (fun H => (∀ n, H.name = some n → n ∉ snames) ∧
    (∀ i, H.optic = some i → i < onames.length) ∧ (∀ i, H.texture = some i → i < tnames.length) ∧
    ∀ t, H.type = some t → ∃ f ∈ fs, f.1 = "type" ∧ ∃ rest, f.2 = .word t :: rest) fs ?_ (by simp) hH
  · obtain ⟨i1, i2, i3, i4⟩ := inv
    refine ⟨fun hn => ?_, i2, i3, ?_⟩
    · simp only at hn ⊢
      cases hnm : H.name with
      | none => rfl
      | some n => rw [hnm] at hn; exact absurd hn (i1 n hnm)
    · simp only [fromZTK_type hb]
      exact i4 t ht
  · intro p hp f hf hk s i s' ⟨i1, i2, i3, i4⟩ he
    simp only [headPrp, List.mem_cons, List.not_mem_nil, or_false] at hp
    rcases hp with rfl | rfl | rfl | rfl | rfl | rfl | rfl | rfl | rfl | rfl
    · simp only at he
      split at he; · cases he
      rename_i n hn
      split at he; · cases he
      rename_i hnot
      cases he
      refine ⟨?_, i2, i3, i4⟩
      rintro m hm hmem
      cases hm
      apply hnot
      rw [findName, List.findIdx?_isSome, List.any_eq_true]
      exact ⟨n, hmem, by simp⟩
    · simp only at he
      split at he; · cases he
      rename_i n hn
      split at he
      · cases he
        refine ⟨i1, i2, i3, ?_⟩
        rintro t' ht'
        cases ht'
        exact ⟨f, hf, hk.symm, word_ok hn⟩
      · cases he
    · simp only [store] at he
      split at he
      · cases he
        exact ⟨i1, fun i hi => findName_lt hi, i3, i4⟩
      · cases he
    · simp only [store] at he
      split at he
      · cases he
        exact ⟨i1, i2, fun i hi => findName_lt hi, i4⟩
      · cases he
    all_goals cases he

end Zeo
