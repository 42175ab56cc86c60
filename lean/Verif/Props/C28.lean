import Verif.Lemmas.Kd

/-! # C28: the kd-tree stores exactly the inserted points, with consecutive identifiers -/

namespace Zeo
noncomputable section
open Classical Kd

/-- The size is the number of insertions, and the nodes are the inserted points, each with its
insertion rank as identifier. -/
theorem C28_size_and_ids (ps : List (Vec3 ℝ)) :
    (build ps).size = ps.length ∧ (build ps).contents.Perm (ps.zipIdx.map Prod.swap) := by
  refine ⟨?_, contents_build ps⟩
  rw [(wf_build ps).size_eq, (contents_build ps).length_eq]; simp

/-- A node with identifier `i` holds the `i`-th inserted point, and there is one for every `i`. -/
theorem C28_node_iff (ps : List (Vec3 ℝ)) (i : ℕ) (q : Vec3 ℝ) :
    (i, q) ∈ (build ps).contents ↔ ps[i]? = some q := by
  rw [(contents_build ps).mem_iff]
  simp only [List.mem_map, Prod.exists, Prod.swap_prod_mk, Prod.mk.injEq]
  constructor
  · rintro ⟨a, b, h, rfl, rfl⟩
    exact List.mem_zipIdx_iff_getElem?.1 h
  · intro h
    exact ⟨q, i, List.mem_zipIdx_iff_getElem?.2 h, rfl, rfl⟩

/-- No identifier is used twice. -/
theorem C28_ids_nodup (ps : List (Vec3 ℝ)) : ((build ps).contents.map Prod.fst).Nodup := by
  refine (((contents_build ps).map Prod.fst).nodup_iff).2 ?_
  rw [List.map_map]
  have : (Prod.fst ∘ Prod.swap : Vec3 ℝ × ℕ → ℕ) = Prod.snd := rfl
  rw [this, List.zipIdx_map_snd]
  exact List.nodup_range' ..

/-- After every sequence of insertions every node lies in its recorded region, on the correct side of
each ancestor's splitting plane, with axes cycling from x and exact subtree sizes. -/
theorem C28_wellFormed (ps : List (Vec3 ℝ)) : (build ps).WellFormed .full 0 := wf_build ps

/-- Inserting into any well-formed tree (not only a freshly built one) keeps it well-formed and adds
exactly one node, identified by the old size. -/
theorem C28_add (t : Kd) (h : t.WellFormed .full 0) (p : Vec3 ℝ) :
    (t.add p).WellFormed .full 0 ∧ (t.add p).contents.Perm ((t.size, p) :: t.contents) ∧
    (t.add p).size = t.size + 1 := by
  refine ⟨wf_add h p, contents_add t p, ?_⟩
  rw [(wf_add h p).size_eq, (contents_add t p).length_eq, h.size_eq]; rfl

theorem toArrayRec_eq (t : Kd) : ∀ (a : Array (Vec3 ℝ)), (∀ x ∈ t.contents, x.1 < a.size) →
    toArrayRec t a = some (t.contents.foldl (fun a x => a.setIfInBounds x.1 x.2) a) := by
  have hsz : ∀ (l : List (ℕ × Vec3 ℝ)) (a : Array (Vec3 ℝ)),
      (l.foldl (fun a x => a.setIfInBounds x.1 x.2) a).size = a.size := by
    intro l
    induction l with
    | nil => intro a; rfl
    | cons x l ih => intro a; rw [List.foldl_cons, ih]; simp
  induction t with
  | nil => intro a _; rfl
  | node n i s q reg c0 c1 ih0 ih1 =>
    intro a ha
    have hi : i < a.size := ha (i, q) (by simp [contents])
    have e : a.set i q hi = a.setIfInBounds i q := by simp [Array.setIfInBounds, hi]
    unfold toArrayRec
    rw [dif_pos hi, e, ih0 _ (by intro x hx; simpa using ha x (by simp [contents, hx]))]
    dsimp only
    rw [ih1 _ (by intro x hx; rw [hsz]; simpa using ha x (by simp [contents, hx]))]
    simp [contents, List.foldl_append]

theorem foldl_set_getElem? (l : List (ℕ × Vec3 ℝ)) : ∀ (a : Array (Vec3 ℝ)) (i : ℕ) (q : Vec3 ℝ),
    (l.map Prod.fst).Nodup → (i, q) ∈ l → i < a.size →
    (l.foldl (fun a x => a.setIfInBounds x.1 x.2) a)[i]? = some q := by
  have hne : ∀ (l : List (ℕ × Vec3 ℝ)) (a : Array (Vec3 ℝ)) (i : ℕ), i ∉ l.map Prod.fst →
      (l.foldl (fun a x => a.setIfInBounds x.1 x.2) a)[i]? = a[i]? := by
    intro l
    induction l with
    | nil => intro a i _; rfl
    | cons x l ih =>
      intro a i hi
      rw [List.map_cons, List.mem_cons, not_or] at hi
      rw [List.foldl_cons, ih _ _ hi.2]
      exact Array.getElem?_setIfInBounds_ne (Ne.symm hi.1)
  induction l with
  | nil => intro a i q _ h; simp at h
  | cons x l ih =>
    intro a i q hnd hm hi
    rw [List.map_cons, List.nodup_cons] at hnd
    rw [List.foldl_cons]
    rcases List.mem_cons.1 hm with rfl | hm
    · rw [hne _ _ _ hnd.1]; simp [hi]
    · exact ih _ i q hnd.2 hm (by simpa using hi)

/-- Converting to an array gives back the insertion sequence. -/
theorem C28_toArray (ps : List (Vec3 ℝ)) : (build ps).toArray = some ps.toArray := by
  unfold toArray
  have hs := (C28_size_and_ids ps).1
  have hb : ∀ x ∈ (build ps).contents, x.1 < ps.length := by
    rintro ⟨i, q⟩ hx
    exact (List.getElem?_eq_some_iff.1 ((C28_node_iff ps i q).1 hx)).1
  rw [hs, toArrayRec_eq _ _ (by simpa using hb)]
  congr 1
  have hsz : ∀ (l : List (ℕ × Vec3 ℝ)) (a : Array (Vec3 ℝ)),
      (l.foldl (fun a x => a.setIfInBounds x.1 x.2) a).size = a.size := by
    intro l
    induction l with
    | nil => intro a; rfl
    | cons x l ih => intro a; rw [List.foldl_cons, ih]; simp
  apply Array.ext_getElem?
  intro i
  by_cases hi : i < ps.length
  · rw [foldl_set_getElem? _ _ i ps[i] (C28_ids_nodup ps)
      ((C28_node_iff ps i _).2 (by simp [hi])) (by simpa using hi)]
    simp [hi]
  · rw [Array.getElem?_eq_none (by rw [hsz]; simpa using hi), Array.getElem?_eq_none (by simpa using hi)]

/-- Converting to a list (or to a point set) gives the same points, in some order. -/
theorem C28_toList (ps : List (Vec3 ℝ)) : (build ps).preorder.Perm ps := by
  have h : ∀ t : Kd, t.preorder = t.contents.map Prod.snd := by
    intro t
    induction t with
    | nil => rfl
    | node _ _ _ _ _ _ _ ih0 ih1 => simp [preorder, contents, ih0, ih1]
  rw [h]; exact points_build ps

/-- The partition found for a query is a node of the tree whose region contains the query, and which
has no child on the side of the query. -/
theorem C28_part (ps : List (Vec3 ℝ)) (hps : ps ≠ []) (p : Vec3 ℝ) :
    ∃ n i s q reg c0 c1, (build ps).part p = node n i s q reg c0 c1 ∧ reg.Has p ∧ ps[i]? = some q ∧
      (q.e s ≤ p.e s → c0 = nil) ∧ (p.e s < q.e s → c1 = nil) := by
  have key : ∀ (t : Kd) (reg : Region) (s : Fin 3), t ≠ nil → t.WellFormed reg s → reg.Has p →
      ∃ n i s q reg c0 c1, t.part p = node n i s q reg c0 c1 ∧ reg.Has p ∧ (i, q) ∈ t.contents ∧
      (q.e s ≤ p.e s → c0 = nil) ∧ (p.e s < q.e s → c1 = nil) := by
    intro t
    induction t with
    | nil => intro _ _ h; exact absurd rfl h
    | node n i s q reg c0 c1 ih0 ih1 =>
      intro reg' s' _ hw hp
      obtain ⟨rfl, rfl, -, -, -, -, hw0, hw1⟩ := hw
      unfold part
      split_ifs with hb
      · cases c0 with
        | nil => exact ⟨n, i, s, q, reg, nil, c1, rfl, hp, by simp [contents], fun _ => rfl,
            fun h => absurd h (not_lt.2 hb)⟩
        | node =>
          obtain ⟨n', i', s', q', reg', d0, d1, h, h1, h2, h3⟩ :=
            ih0 _ _ (by simp) hw0 (Region.has_setLo hp hb)
          exact ⟨n', i', s', q', reg', d0, d1, h, h1, by
            rw [contents, List.mem_cons, List.mem_append]; exact Or.inr (Or.inl h2), h3⟩
      · have hb' := lt_of_not_ge hb
        cases c1 with
        | nil => exact ⟨n, i, s, q, reg, c0, nil, rfl, hp, by simp [contents],
            fun h => absurd h hb, fun _ => rfl⟩
        | node =>
          obtain ⟨n', i', s', q', reg', d0, d1, h, h1, h2, h3⟩ :=
            ih1 _ _ (by simp) hw1 (Region.has_setHi hp hb'.le)
          exact ⟨n', i', s', q', reg', d0, d1, h, h1, by
            rw [contents, List.mem_cons, List.mem_append]; exact Or.inr (Or.inr h2), h3⟩
  have hne : build ps ≠ nil := by
    intro h
    have := (C28_size_and_ids ps).1
    rw [h] at this
    exact hps (List.length_eq_zero_iff.1 this.symm)
  obtain ⟨n, i, s, q, reg, c0, c1, h, h1, h2, h3⟩ := key _ _ _ hne (wf_build ps) (Region.has_full p)
  exact ⟨n, i, s, q, reg, c0, c1, h, h1, (C28_node_iff ps i q).1 h2, h3⟩

/-- Three insertions give a three-node tree with both branches used; the second point goes below the
first child edge because its x coordinate is not smaller. -/
example : build [⟨0,0,0⟩, ⟨1,0,0⟩, ⟨-1,2,0⟩] =
    node 3 0 0 ⟨0,0,0⟩ .full (node 1 1 1 ⟨1,0,0⟩ (Region.full.setLo 0 0) nil nil)
      (node 1 2 1 ⟨-1,2,0⟩ (Region.full.setHi 0 0) nil nil) := by
  simp [build, add, addTo, Vec3.e, size]

end
end Zeo
