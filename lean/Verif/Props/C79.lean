import Verif.Spec.OBJ

/-! # C79: polyhedra in the OBJ format -/

namespace Zeo
open OBJ Spec

private theorem count_eq {pre ls vs ts} (h : Describes pre ls vs ts) : count ls = vs.length := by
  induction h with
  | nil => rfl
  | vert _ _ _ _ _ _ _ _ _ ih => simp only [count, List.countP_cons, Line.isV, if_true, List.length_cons] at ih ⊢; omega
  | tri _ _ _ _ _ _ _ _ _ _ _ _ _ _ _ _ _ ih => simpa [count, List.countP_cons, Line.isV] using ih
  | other _ _ _ _ _ ih => simpa [count, List.countP_cons, Line.isV] using ih

private theorem idx {r : List (Option ℤ)} {i : ℕ} (h : Refers r (i + 1)) : faceIndex (some r) = i := by
  obtain ⟨rest, rfl⟩ := h
  simp [faceIndex]

private theorem lines (τ : ℝ) (nv : ℕ) {pre ls vs ts} (h : Describes pre ls vs ts) : ∀ (s : St),
    s.vi = pre.length → (∀ i (hi : i < pre.length), s.vert i = pre[i]) → nv = pre.length + vs.length →
    ∃ s' : St, readLines τ nv s ls = .ok s' ∧
      (∀ i (hi : i < (pre ++ vs).length), s'.vert i = (pre ++ vs)[i]) ∧
      s'.face = s.face ++ ts.map fun t => ⟨t.1, t.2.1, t.2.2,
        (Tri3.create τ (s'.vert t.1) (s'.vert t.2.1) (s'.vert t.2.2)).2.norm⟩ := by
  induction h with
  | nil pre => exact fun s _ hv _ => ⟨s, rfl, by simpa using hv, by simp⟩
  | vert pre x y z more ls vs ts hd ih =>
    intro s h1 h2 h3
    obtain ⟨s', e, hv, hf⟩ := ih (readVert s (x :: y :: z :: more)) (by simp [readVert, h1]) (by
      intro i hi
      simp only [List.length_append, List.length_cons, List.length_nil] at hi
      rcases Nat.lt_or_ge i pre.length with hlt | hge
      · rw [List.getElem_append_left hlt, ← h2 i hlt]
        simp only [readVert]
        rw [Function.update_of_ne (by omega)]
      · have : i = pre.length := by omega
        subst this
        simp [readVert, ← h1]) (by simp only [List.length_cons, List.length_append, List.length_nil] at h3 ⊢; omega)
    exact ⟨s', by rw [readLines]; exact e, by simpa [List.append_assoc] using hv, by simpa [readVert] using hf⟩
  | tri pre r0 r1 r2 i j k ls vs ts g0 g1 g2 hi hj hk hd ih =>
    intro s h1 h2 h3
    have hr : readFace τ nv s [r0, r1, r2] = .ok { s with face := s.face ++ [⟨i, j, k,
        (Tri3.create τ (s.vert i) (s.vert j) (s.vert k)).2.norm⟩] } := by
      unfold readFace
      simp only [List.getElem?_cons_zero, List.getElem?_cons_succ, idx g0, idx g1, idx g2, Int.toNat_natCast]
      rw [if_pos (by omega)]
    obtain ⟨s', e, hv, hf⟩ := ih { s with face := s.face ++ [⟨i, j, k,
        (Tri3.create τ (s.vert i) (s.vert j) (s.vert k)).2.norm⟩] } h1 h2 h3
    refine ⟨s', by rw [readLines, hr]; exact e, hv, ?_⟩
    have hk' : ∀ l, l < pre.length → s'.vert l = s.vert l := by
      intro l hl
      rw [h2 l hl, hv l (by simp only [List.length_append]; omega), List.getElem_append_left hl]
    rw [hf, List.map_cons]
    simp only [hk' i hi, hk' j hj, hk' k hk, List.append_assoc, List.singleton_append]
  | other pre ls vs ts hd ih => exact fun s h1 h2 h3 => by rw [readLines]; exact ih s h1 h2 h3

/-- Reading a file of vertices and triangles, with any other lines, with or without textures and normals in the
references: the polyhedron has the vertices and the triangles of the file, with normals computed anew, whatever the
memory held before.  Partial: faces have three corners, given by positive numbers, and follow their vertices; see
`C79_polygon_false`, `C79_relative_undefined` and `C79_faces_first_false`. -/
theorem C79_read_partial (τ : ℝ) (junk : ℕ → Vec3 ℝ) (ls : List Line) (vs : List (Vec3 ℝ)) (ts : List (ℕ × ℕ × ℕ))
    (h : Describes [] ls vs ts) :
    ∃ q : PH ℝ, read τ junk ls = .ok q ∧ q.nv = vs.length ∧ (∀ i (hi : i < vs.length), q.vert i = vs[i]) ∧
      q.face = ts.map fun t => ⟨t.1, t.2.1, t.2.2,
        (Tri3.create τ (q.vert t.1) (q.vert t.2.1) (q.vert t.2.2)).2.norm⟩ := by
  obtain ⟨s, e, hv, hf⟩ := lines τ (count ls) h ⟨junk, 0, []⟩ rfl (by simp) (by simpa using count_eq h)
  refine ⟨⟨count ls, s.vert, s.face⟩, by simp [OBJ.read, e], count_eq h, ?_, by simpa using hf⟩
  intro i hi
  simpa using hv i (by simpa using hi)

/-- Three vertices and a triangle with texture and normal indices, in a file with another line. -/
example (τ : ℝ) (junk : ℕ → Vec3 ℝ) : ∃ q : PH ℝ, read τ junk
    [.other, .v [0, 0, 0], .v [1, 0, 0], .v [0, 1, 0, 1],
      .f [[some 1, some 1, some 1], [some 2, none, some 1], [some 3]]] = .ok q ∧ q.nv = 3 ∧ q.vert 2 = ⟨0, 1, 0⟩ ∧
    q.face.length = 1 := by
  obtain ⟨q, h1, h2, h3, h4⟩ := C79_read_partial τ junk _ [⟨0, 0, 0⟩, ⟨1, 0, 0⟩, ⟨0, 1, 0⟩] [(0, 1, 2)]
    (.other _ _ _ _ (.vert _ _ _ _ [] _ _ _ (.vert _ _ _ _ [] _ _ _ (.vert _ _ _ _ [1] _ _ _
      (.tri _ _ _ _ 0 1 2 _ _ _ ⟨[some 1, some 1], rfl⟩ ⟨[none, some 1], rfl⟩ ⟨[], rfl⟩ (by simp) (by simp) (by simp)
        (.nil _))))))
  exact ⟨q, h1, h2, h3 2 (by simp), by rw [h4]; rfl⟩

/-- The corners of a face after the third are ignored. -/
theorem C79_polygon_cut (τ : ℝ) (junk : ℕ → Vec3 ℝ) (r0 r1 r2 : List (Option ℤ)) (rs : List (List (Option ℤ)))
    (pre post : List Line) :
    read τ junk (pre ++ .f (r0 :: r1 :: r2 :: rs) :: post) = read τ junk (pre ++ .f [r0, r1, r2] :: post) := by
  have hc : count (pre ++ .f (r0 :: r1 :: r2 :: rs) :: post) = count (pre ++ .f [r0, r1, r2] :: post) := by
    simp [count, List.countP_append, List.countP_cons, Line.isV]
  have hl : ∀ nv s, readLines τ nv s (pre ++ .f (r0 :: r1 :: r2 :: rs) :: post) =
      readLines τ nv s (pre ++ .f [r0, r1, r2] :: post) := by
    intro nv
    induction pre with
    | nil =>
      intro s
      simp only [List.nil_append, readLines]
      have : readFace τ nv s (r0 :: r1 :: r2 :: rs) = readFace τ nv s [r0, r1, r2] := by
        simp [readFace]
      rw [this]
    | cons l pre ih =>
      intro s
      have ih' := ih (by
        simp [count, List.countP_append, List.countP_cons, Line.isV])
      cases l with
      | v xs => simp only [List.cons_append, readLines, ih']
      | f r => simp only [List.cons_append, readLines, ih']
      | other => simp only [List.cons_append, readLines, ih']
  unfold OBJ.read
  rw [hc, hl]

/-- A face with four corners is not covered: the unit square is read as one triangle, and the point (1/4, 3/4) of
the square is outside. -/
theorem C79_polygon_false (τ : ℝ) (junk : ℕ → Vec3 ℝ) : ∃ q : PH ℝ, read τ junk
    [.v [0, 0, 0], .v [1, 0, 0], .v [1, 1, 0], .v [0, 1, 0], .f [[some 1], [some 2], [some 3], [some 4]]] = .ok q ∧
    q.nv = 4 ∧ q.face.length = 1 ∧
    (⟨1/4, 3/4, 0⟩ : Vec3 ℝ) = ((((q.vert 0).mul (3/16)).add ((q.vert 1).mul (1/16))).add
      ((q.vert 2).mul (3/16))).add ((q.vert 3).mul (9/16)) ∧
    ∀ f ∈ q.face, ∀ a b c : ℝ, 0 ≤ a → 0 ≤ b → 0 ≤ c → a + b + c = 1 →
      (((q.vert f.i0).mul a).add ((q.vert f.i1).mul b)).add ((q.vert f.i2).mul c) ≠ ⟨1/4, 3/4, 0⟩ := by
  obtain ⟨q, h1, h2, h3, h4⟩ := C79_read_partial τ junk [.v [0, 0, 0], .v [1, 0, 0], .v [1, 1, 0], .v [0, 1, 0],
    .f [[some 1], [some 2], [some 3]]] [⟨0, 0, 0⟩, ⟨1, 0, 0⟩, ⟨1, 1, 0⟩, ⟨0, 1, 0⟩] [(0, 1, 2)]
    (.vert _ _ _ _ [] _ _ _ (.vert _ _ _ _ [] _ _ _ (.vert _ _ _ _ [] _ _ _ (.vert _ _ _ _ [] _ _ _
      (.tri _ _ _ _ 0 1 2 _ _ _ ⟨[], rfl⟩ ⟨[], rfl⟩ ⟨[], rfl⟩ (by simp) (by simp) (by simp)
        (.nil _))))))
  have e0 := h3 0 (by simp)
  have e1 := h3 1 (by simp)
  have e2 := h3 2 (by simp)
  have e3 := h3 3 (by simp)
  simp only [List.getElem_cons_zero, List.getElem_cons_succ] at e0 e1 e2 e3
  refine ⟨q, ?_, h2, by rw [h4]; rfl, ?_, ?_⟩
  · rw [← h1]
    exact C79_polygon_cut τ junk [some 1] [some 2] [some 3] [[some 4]]
      [.v [0, 0, 0], .v [1, 0, 0], .v [1, 1, 0], .v [0, 1, 0]] []
  · rw [e0, e1, e2, e3]
    ext <;> simp [Vec3.mul, Vec3.add] <;> norm_num
  · intro f hm a b c ha hb hc hs he
    rw [h4] at hm
    simp only [List.map_cons, List.map_nil, List.mem_cons, List.not_mem_nil, or_false] at hm
    subst hm
    simp only [e0, e1, e2, Vec3.mul, Vec3.add, Vec3.mk.injEq] at he
    linarith [he.1, he.2.1]

private theorem bad (τ : ℝ) (nv : ℕ) (s : St) (n : ℤ) (rest : List (Option ℤ)) (rs : List (List (Option ℤ)))
    (h : n ≤ 0 ∨ nv < n) : readFace τ nv s ((some n :: rest) :: rs) = .error .undef := by
  have h0 : faceIndex ((some n :: rest) :: rs)[0]? = n - 1 := rfl
  unfold readFace
  dsimp only
  rw [h0]
  exact if_neg (by omega)

/-- A relative reference, such as -1 for the last vertex, reads before the vertices. -/
theorem C79_relative_undefined (τ : ℝ) (junk : ℕ → Vec3 ℝ) (n : ℤ) (hn : n ≤ 0) (pre post : List Line)
    (hpre : ∀ l ∈ pre, ∀ rs, l ≠ .f rs) (rest : List (Option ℤ)) (r1 r2 : List (Option ℤ)) :
    read τ junk (pre ++ .f [some n :: rest, r1, r2] :: post) = .error .undef := by
  have : ∀ nv s, readLines τ nv s (pre ++ .f [some n :: rest, r1, r2] :: post) = .error .undef := by
    intro nv
    induction pre with
    | nil =>
      intro s
      simp only [List.nil_append, readLines, bad τ nv s n rest [r1, r2] (by omega)]
    | cons l pre ih =>
      intro s
      have ih' := ih (fun m hm => hpre m (by simp [hm]))
      cases l with
      | v xs => simp only [List.cons_append, readLines, ih']
      | f r => exact absurd rfl (hpre (.f r) (by simp) r)
      | other => simp only [List.cons_append, readLines, ih']
  simp [OBJ.read, this]

example (τ : ℝ) (junk : ℕ → Vec3 ℝ) : read τ junk ([.v [0, 0, 0], .v [1, 0, 0], .v [0, 1, 0]] ++
    .f [[some (-3)], [some (-2)], [some (-1)]] :: []) = .error .undef :=
  C79_relative_undefined τ junk (-3) (by norm_num) _ _ (by simp) [] _ _

/-- An index above the number of vertices is not rejected either. -/
theorem C79_index_undefined (τ : ℝ) (junk : ℕ → Vec3 ℝ) (vs : List (List ℝ)) (n : ℤ) (hn : vs.length < n)
    (rest : List (Option ℤ)) (r1 r2 : List (Option ℤ)) (post : List Line) (hpost : count post = 0) :
    read τ junk (vs.map .v ++ .f [some n :: rest, r1, r2] :: post) = .error .undef := by
  have hc : count (vs.map .v ++ .f [some n :: rest, r1, r2] :: post) = vs.length := by
    have h1 : count (vs.map Line.v) = vs.length := by
      induction vs with
      | nil => rfl
      | cons a vs ih =>
        have := ih (by simp only [List.length_cons] at hn; omega)
        simp only [count, List.map_cons, List.countP_cons, Line.isV, if_true, List.length_cons] at this ⊢
        omega
    simp only [count, List.countP_append, List.countP_cons, Line.isV] at h1 hpost ⊢
    rw [h1, hpost]
    simp
  have : ∀ nv : ℕ, nv < n → ∀ s, readLines τ nv s (vs.map .v ++ .f [some n :: rest, r1, r2] :: post) =
      .error .undef := by
    intro nv hnv
    clear hc hn
    induction vs with
    | nil =>
      intro s
      simp only [List.map_nil, List.nil_append, readLines, bad τ nv s n rest [r1, r2] (by omega)]
    | cons l vs ih =>
      intro s
      simp only [List.map_cons, List.cons_append, readLines, ih]
  simp only [OBJ.read, hc, this _ hn]

example (τ : ℝ) (junk : ℕ → Vec3 ℝ) : read τ junk ([[0, 0, 0], [1, 0, 0], [0, 1, 0]].map .v ++
    .f [[some 4], [some 2], [some 1]] :: []) = .error .undef :=
  C79_index_undefined τ junk _ 4 (by norm_num) [] _ _ [] rfl

/-- A face above its vertices keeps them, but its normal is that of whatever the memory held: it does not depend on
the vertices of the file. -/
theorem C79_faces_first_false (τ : ℝ) (junk : ℕ → Vec3 ℝ) (a b c : Vec3 ℝ) : ∃ q : PH ℝ, read τ junk
    [.f [[some 1], [some 2], [some 3]], .v [a.x, a.y, a.z], .v [b.x, b.y, b.z], .v [c.x, c.y, c.z]] = .ok q ∧
    q.vert 0 = a ∧ q.vert 1 = b ∧ q.vert 2 = c ∧
    q.face = [⟨0, 1, 2, (Tri3.create τ (junk 0) (junk 1) (junk 2)).2.norm⟩] := by
  refine ⟨⟨3, _, _⟩, rfl, rfl, rfl, rfl, rfl⟩

/-- A face with two corners gets the first vertex of the file as its third. -/
theorem C79_two_corners_false (τ : ℝ) (junk : ℕ → Vec3 ℝ) : ∃ q : PH ℝ, read τ junk
    [.v [0, 0, 0], .v [1, 0, 0], .v [0, 1, 0], .f [[some 2], [some 3]]] = .ok q ∧
    ∃ n, q.face = [⟨1, 2, 0, n⟩] :=
  ⟨⟨3, _, _⟩, rfl, _, rfl⟩

/-- **C79** (`valid`): whatever the lines are, a polyhedron that is read has faces with valid indices only. -/
theorem C79_valid (τ : ℝ) (junk : ℕ → Vec3 ℝ) (ls : List Line) (q : PH ℝ) (h : read τ junk ls = .ok q) :
    ∀ f ∈ q.face, f.i0 < q.nv ∧ f.i1 < q.nv ∧ f.i2 < q.nv := by
  have key : ∀ (nv : ℕ) (ls : List Line) (s s' : St), (∀ f ∈ s.face, f.i0 < nv ∧ f.i1 < nv ∧ f.i2 < nv) → readLines τ nv s ls = .ok s' →
      ∀ f ∈ s'.face, f.i0 < nv ∧ f.i1 < nv ∧ f.i2 < nv := by
    intro nv ls
    induction ls with
    | nil => intro s s' hs h; rw [readLines] at h; cases h; exact hs
    | cons l ls ih =>
      intro s s' hs h
      cases l with
      | v xs => exact ih (readVert s xs) s' hs (by rwa [readLines] at h)
      | other => exact ih _ s' hs (by rwa [readLines] at h)
      | f rs =>
        rw [readLines, readFace] at h
        split_ifs at h with hi
        · refine ih _ s' ?_ h
          intro f hf
          rcases List.mem_append.1 hf with hf | hf
          · exact hs f hf
          · rw [List.mem_singleton.1 hf]
            dsimp only
            omega
  unfold OBJ.read at h
  split at h
  · cases h
  · rename_i s e
    cases h
    exact key _ _ _ _ (by simp) e

example (τ : ℝ) (junk : ℕ → Vec3 ℝ) : ∃ q, read τ junk [.v [0, 0, 0], .v [1, 0, 0], .v [0, 1, 0], .f [[some 1], [some 2], [some 3]]] = .ok q ∧
    q.face ≠ [] := ⟨⟨3, _, _⟩, rfl, by simp⟩

end Zeo
