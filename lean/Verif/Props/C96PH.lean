import Verif.Model.ShapePH
import Verif.Props.C99

/-! # C96: life of shapes that are polyhedra -/

namespace Zeo
open Life (Ptr)
open MemPH (Mem)
open ShapePH

namespace Spec

/-- The block of a pointer. -/
def blkOf : Ptr → List ℕ
  | .blk n => [n]
  | _ => []
/-- The blocks that a shape owns: its name, its body, and the vertices and faces of the latter. -/
def shapeBlocks (s : Shape) (M : SMem) : List ℕ :=
  blkOf s.name ++ blkOf s.body ++ match s.body with
    | .blk b => blkOf (M.body b).vert ++ blkOf (M.body b).face
    | _ => []
/-- A polyhedron as a shape: a name or none, and a body that is a sound polyhedron; nothing is owned twice. -/
structure SoundS (s : Shape) (M : SMem) : Prop where
  typed : s.typed = true
  name : s.name ≠ .wild
  body : ∃ b, s.body = .blk b ∧ SoundM (M.body b) M.mem
  nodup : (shapeBlocks s M).Nodup
  live : ∀ b ∈ shapeBlocks s M, b ∈ M.mem.live
/-- The vertices and the triangles found through a shape. -/
def SeesS (s : Shape) (M : SMem) (vs : List (Vec3 ℝ)) (ts : List (Fin 3 → Vec3 ℝ)) : Prop :=
  ∃ b, s.body = .blk b ∧ b ∈ M.mem.live ∧ Sees (M.body b) M.mem vs ts

end Spec
open Spec

private theorem own_eq (p : MemPH.Obj) : MemPH.own p = blkOf p.vert ++ blkOf p.face := by
  have : ∀ q : Ptr, MemPH.pb q = blkOf q := fun q => by cases q <;> rfl
  simp [MemPH.own, this]

private theorem blocks_eq {s : Shape} {M : SMem} {b : ℕ} (h : s.body = .blk b) :
    shapeBlocks s M = blkOf s.name ++ b :: MemPH.own (M.body b) := by
  rw [own_eq, shapeBlocks, h]; simp [blkOf]

/-- A shape does not notice what happens to other blocks. -/
private theorem frameS {s : Shape} {M M' : SMem} (h : SoundS s M) (k : ∀ b ∈ shapeBlocks s M, b ∈ M'.mem.live ∧ M'.mem.vbuf b = M.mem.vbuf b ∧
    M'.mem.fbuf b = M.mem.fbuf b ∧ M'.body b = M.body b) :
    SoundS s M' ∧ shapeBlocks s M' = shapeBlocks s M ∧ ∀ vs ts, SeesS s M vs ts → SeesS s M' vs ts := by
  obtain ⟨h1, h2, ⟨b, e, sd⟩, h4, h5⟩ := h
  have B := blocks_eq (M := M) e
  have hb : M'.body b = M.body b := (k b (by rw [B]; simp)).2.2.2
  have B' : shapeBlocks s M' = shapeBlocks s M := by rw [B, blocks_eq e, hb]
  obtain ⟨f1, f2⟩ := MemPH.frame sd (m' := M'.mem) fun x hx => by
    obtain ⟨a, b, c, -⟩ := k x (by rw [B]; simp [hx]); exact ⟨a, b, c⟩
  refine ⟨⟨h1, h2, ⟨b, e, by rw [hb]; exact f1⟩, by rw [B']; exact h4, fun x hx => (k x (B' ▸ hx)).1⟩, B', ?_⟩
  rintro vs ts ⟨c, ec, -, hs⟩
  rw [e] at ec; cases ec
  exact ⟨b, e, (k b (by rw [B]; simp)).1, by rw [hb]; exact f2 _ _ hs⟩

private theorem destroyS {s : Shape} {M : SMem} (h : SoundS s M) : ∃ M', ShapePH.destroy s M = some (⟨.null, .null, true⟩, M') ∧
    M'.mem.live = M.mem.live \ (shapeBlocks s M).toFinset ∧ M'.mem.next = M.mem.next ∧ M'.mem.vbuf = M.mem.vbuf ∧ M'.mem.fbuf = M.mem.fbuf ∧
    ∀ b ∉ shapeBlocks s M, M'.body b = M.body b := by
  obtain ⟨h1, h2, ⟨b, e, sd⟩, h4, h5⟩ := h
  have B := blocks_eq (M := M) e
  rw [B] at h4 h5 ⊢
  obtain ⟨nm, bd, ty⟩ := s
  simp only at h1 h2 e h4 h5
  subst h1 e
  obtain ⟨m, hm, hl, hn, hv, hf⟩ : ∃ m, M.mem.free nm = some m ∧ m.live = M.mem.live \ (blkOf nm).toFinset ∧ m.next = M.mem.next ∧
      m.vbuf = M.mem.vbuf ∧ m.fbuf = M.mem.fbuf := by
    cases nm with
    | wild => exact absurd rfl h2
    | null => exact ⟨_, rfl, by simp [blkOf], rfl, rfl, rfl⟩
    | blk n =>
      have : n ∈ M.mem.live := h5 n (by simp [blkOf])
      exact ⟨{ M.mem with live := M.mem.live.erase n }, by simp only [Mem.free, if_pos this], by simp [blkOf, Finset.sdiff_singleton_eq_erase], rfl, rfl, rfl⟩
  have hd := List.nodup_append.1 h4
  have off : ∀ x ∈ b :: MemPH.own (M.body b), x ∉ blkOf nm := fun x hx hx' => hd.2.2 x hx' x hx rfl
  have hin : ∀ x ∈ b :: MemPH.own (M.body b), x ∈ m.live := fun x hx => by
    rw [hl]; simp only [Finset.mem_sdiff, List.mem_toFinset]; exact ⟨h5 x (by simp at hx ⊢; tauto), off x hx⟩
  have bl : b ∈ m.live := hin b (by simp)
  have sd' : SoundM (M.body b) m := (MemPH.frame sd (m' := m) fun x hx => ⟨hin x (by simp [hx]), by rw [hv], by rw [hf]⟩).1
  have bo : b ∉ MemPH.own (M.body b) := (List.nodup_cons.1 hd.2.1).1
  refine ⟨⟨{ m with live := (m.live \ (MemPH.own (M.body b)).toFinset).erase b }, Function.update M.body b MemPH.init⟩, ?_, ?_, hn, hv, hf, ?_⟩
  · have : b ∈ m.live \ (MemPH.own (M.body b)).toFinset := by simp only [Finset.mem_sdiff, List.mem_toFinset]; exact ⟨bl, bo⟩
    simp only [ShapePH.destroy, hm, Option.bind_some, if_true, if_pos bl, MemPH.destroy_eq sd']
    simp only [Mem.free, if_pos this, Option.map_some]
  · ext x
    simp only [hl, Finset.mem_erase, Finset.mem_sdiff, List.mem_toFinset, List.mem_append, List.mem_cons]
    tauto
  · intro x hx
    have : x ≠ b := by rintro rfl; exact hx (by simp)
    simp [this]

/-- **C96** (`zShape3DDestroy` of a polyhedron): name, body, vertices and faces are given back, each once; nothing else is. -/
theorem C96_ph_destroy {s : Shape} {M : SMem} (h : SoundS s M) : ∃ s' M', ShapePH.destroy s M = some (s', M') ∧
    (∀ b, b ∈ M'.mem.live ↔ b ∈ M.mem.live ∧ b ∉ shapeBlocks s M) ∧ ShapePH.destroy s' M' = some (s', M') := by
  obtain ⟨M', e, hl, -⟩ := destroyS h
  exact ⟨_, M', e, fun b => by rw [hl]; simp, rfl⟩

/-! ## Copies -/

/-- What is used of `zPH3DClone` and `zPH3DMirror`. -/
private def Copies (op : MemPH.Obj → Mem → Option (MemPH.Obj × Mem)) (g : Vec3 ℝ → Vec3 ℝ) (σ : Fin 3 → Fin 3) : Prop :=
  ∀ p m, MemOk m → SoundM p m → ∃ d m', op p m = some (d, m') ∧ SoundM d m' ∧ MemOk m' ∧ (∀ b ∈ MemPH.own d, m.next ≤ b) ∧
    m'.live = m.live ∪ (MemPH.own d).toFinset ∧ (∀ b < m.next, m'.vbuf b = m.vbuf b ∧ m'.fbuf b = m.fbuf b) ∧
    ∀ vs ts, Sees p m vs ts → Sees d m' (vs.map g) (ts.map fun t j => g (t (σ j)))

private theorem copies_clone : Copies MemPH.clone id id := by
  intro p m ok s
  obtain ⟨d, m', e, sd, ok', hd, hl, hc, hs⟩ := MemPH.clone_core ok s
  exact ⟨d, m', e, sd, ok', hd, hl, hc, fun vs ts h => by simpa using hs vs ts h⟩

private theorem copies_mirror (axis : Fin 3) : Copies (fun p => MemPH.mirror p axis) (fun v => v.setE axis (-v.e axis)) (Equiv.swap 1 2) := by
  intro p m ok s
  obtain ⟨d, m', e, sd, ok', hd, hl, hc, hs⟩ := MemPH.clone_core ok s
  have hg : (fun v : Vec3 ℝ => PH.flipE v axis) = fun v => v.setE axis (-v.e axis) := by funext v; simp [PH.flipE]
  obtain ⟨a1, a2, a3, a4⟩ := MemPH.mapVert_off (g := fun v => v.setE axis (-v.e axis)) (p := d) (m := m')
  obtain ⟨b1, b2, b3, b4⟩ := MemPH.swapFace_off (p := d) (m := MemPH.mapVert (fun v => v.setE axis (-v.e axis)) d m')
  obtain ⟨s1, v1⟩ := MemPH.mapVert_on (g := fun v => v.setE axis (-v.e axis)) sd
  obtain ⟨s2, v2⟩ := MemPH.swapFace_on s1
  refine ⟨d, _, by simp only [MemPH.mirror, e, Option.map_some, hg], s2, (fun x hx => ?_), hd, by rw [b1, a1, hl], (fun b hb => ?_), fun vs ts h => ?_⟩
  · rw [b1, a1] at hx; rw [b2, a2]; exact ok' x hx
  · have : b ∉ MemPH.own d := fun h => by have := hd b h; omega
    rw [b3, b4 b this, a4 b this, a3]
    exact hc b hb
  · simpa [Function.comp_def] using v2 _ _ (v1 _ _ (hs vs ts h))

private theorem alloc_ok {m : Mem} (ok : MemOk m) : MemOk (ShapePH.alloc m) := by
  intro x hx
  simp only [ShapePH.alloc, Finset.mem_insert] at hx ⊢
  rcases hx with rfl | hx
  · omega
  · have := ok x hx; omega

private theorem newBody_spec {op g σ} (hop : Copies op g σ) {M : SMem} (ok : MemOk M.mem) {b : ℕ} (bl : b ∈ M.mem.live) (sd : SoundM (M.body b) M.mem) :
    ∃ M', newBody op (.blk b) M = some (.blk M.mem.next, M') ∧ SoundM (M'.body M.mem.next) M'.mem ∧ MemOk M'.mem ∧
      (∀ x ∈ MemPH.own (M'.body M.mem.next), M.mem.next < x) ∧
      M'.mem.live = insert M.mem.next M.mem.live ∪ (MemPH.own (M'.body M.mem.next)).toFinset ∧
      (∀ x < M.mem.next, M'.mem.vbuf x = M.mem.vbuf x ∧ M'.mem.fbuf x = M.mem.fbuf x ∧ M'.body x = M.body x) ∧
      ∀ vs ts, Sees (M.body b) M.mem vs ts → Sees (M'.body M.mem.next) M'.mem (vs.map g) (ts.map fun t j => g (t (σ j))) := by
  obtain ⟨f1, f2⟩ := MemPH.frame sd (m' := ShapePH.alloc M.mem) fun x hx => ⟨Finset.mem_insert_of_mem ((MemPH.own_live sd).2 x hx), rfl, rfl⟩
  obtain ⟨d, m', e, s', ok', hd, hl, hc, hs⟩ := hop _ _ (alloc_ok ok) f1
  refine ⟨⟨m', Function.update M.body M.mem.next d⟩, by simp only [newBody, if_pos bl, e, Option.map_some], ?_, ok', ?_, ?_, ?_, ?_⟩
  · simpa using s'
  · intro x hx
    simp only [Function.update_self] at hx
    have := hd x hx
    simp only [ShapePH.alloc] at this
    omega
  · simp only [Function.update_self]; exact hl
  · intro x hx
    obtain ⟨a, b⟩ := hc x (by simp only [ShapePH.alloc]; omega)
    exact ⟨a, b, by simp [hx.ne]⟩
  · intro vs ts h
    simpa using hs vs ts (f2 vs ts h)

private theorem seesS_ex {s : Shape} {M : SMem} (h : SoundS s M) : ∃ vs ts, SeesS s M vs ts := by
  obtain ⟨b, e, sd⟩ := h.body
  obtain ⟨vs, ts, k⟩ := MemPH.sees_ex sd
  exact ⟨vs, ts, b, e, h.live b (by rw [blocks_eq e]; simp), k⟩

/-- **C96** (`zShape3DClone` of a polyhedron): the clone has a name and the same vertices and triangles; it owns nothing that the original
owns, destroying either leaves the other, and destroying the clone gives back all that was taken for it. -/
theorem C96_ph_clone {org : Shape} {M : SMem} (ok : MemOk M.mem) (h : SoundS org M) : ∃ vs ts c M', SeesS org M vs ts ∧
    ShapePH.clone org M = some (c, M') ∧ MemOk M'.mem ∧ SoundS org M' ∧ SoundS c M' ∧ c.name ≠ .null ∧ SeesS org M' vs ts ∧ SeesS c M' vs ts ∧
    (∀ b ∈ shapeBlocks c M', b ∉ shapeBlocks org M') ∧ (∃ s M'', ShapePH.destroy org M' = some (s, M'') ∧ SeesS c M'' vs ts) ∧
    ∃ s M'', ShapePH.destroy c M' = some (s, M'') ∧ SeesS org M'' vs ts ∧ M''.mem.live = M.mem.live := by
  obtain ⟨vs, ts, hv⟩ := seesS_ex h
  obtain ⟨b, e, sd⟩ := h.body
  have lt : ∀ x ∈ shapeBlocks org M, x < M.mem.next := fun x hx => ok x (h.live x hx)
  have bl : b ∈ M.mem.live := h.live b (by rw [blocks_eq e]; simp)
  have fA := frameS h (M' := (ShapePH.setName ShapePH.init M).2) fun x hx => ⟨Finset.mem_insert_of_mem (h.live x hx), rfl, rfl, rfl⟩
  obtain ⟨b', e', sdA⟩ := fA.1.body
  rw [e] at e'; cases e'
  obtain ⟨M', n1, n2, n3, n4, n5, n6, n7⟩ := newBody_spec copies_clone (M := (ShapePH.setName ShapePH.init M).2) (alloc_ok ok) (Finset.mem_insert_of_mem bl) sdA
  have nx : (ShapePH.setName ShapePH.init M).2.mem.next = M.mem.next + 1 := rfl
  have lv : (ShapePH.setName ShapePH.init M).2.mem.live = insert M.mem.next M.mem.live := rfl
  have by' : (ShapePH.setName ShapePH.init M).2.body = M.body := rfl
  have vb : (ShapePH.setName ShapePH.init M).2.mem.vbuf = M.mem.vbuf := rfl
  have fb : (ShapePH.setName ShapePH.init M).2.mem.fbuf = M.mem.fbuf := rfl
  rw [nx] at n1 n2 n4 n5 n6 n7
  rw [lv] at n5
  rw [vb, fb, by'] at n6
  set c : Shape := ⟨.blk M.mem.next, .blk (M.mem.next + 1), true⟩ with hc
  have ec : ShapePH.clone org M = some (c, M') := by
    simp only [ShapePH.clone, h.typed, if_true, e, n1, Option.map_some]
    rfl
  have Bc : shapeBlocks c M' = M.mem.next :: (M.mem.next + 1) :: MemPH.own (M'.body (M.mem.next + 1)) := by
    rw [blocks_eq (s := c) rfl]; rfl
  have ge : ∀ x ∈ shapeBlocks c M', M.mem.next ≤ x := by
    intro x hx
    rw [Bc] at hx
    simp only [List.mem_cons] at hx
    rcases hx with rfl | rfl | hx
    · exact le_rfl
    · omega
    · have := n4 x hx; omega
  have lv' : M'.mem.live = M.mem.live ∪ (shapeBlocks c M').toFinset := by
    rw [n5, Bc]; ext x; simp only [Finset.mem_union, Finset.mem_insert, List.mem_toFinset, List.mem_cons]; tauto
  have fO := frameS h (M' := M') fun x hx => by
    obtain ⟨p, q, r⟩ := n6 x (by have := lt x hx; omega)
    exact ⟨by rw [lv']; exact Finset.mem_union_left _ (h.live x hx), p, q, r⟩
  have sc : SoundS c M' := by
    refine ⟨rfl, by simp [hc], ⟨_, rfl, n2⟩, ?_, fun x hx => by rw [lv']; exact Finset.mem_union_right _ (List.mem_toFinset.2 hx)⟩
    rw [Bc]
    refine List.nodup_cons.2 ⟨fun hm => ?_, List.nodup_cons.2 ⟨fun hm => ?_, (MemPH.own_live n2).1⟩⟩
    · simp only [List.mem_cons] at hm
      rcases hm with hm | hm
      · omega
      · have := n4 _ hm; omega
    · have := n4 _ hm; omega
  have hsc : SeesS c M' vs ts := by
    obtain ⟨b2, e2, -, k⟩ := fA.2.2 vs ts hv
    rw [e] at e2; cases e2
    refine ⟨_, rfl, ?_, by simpa using n7 vs ts k⟩
    rw [n5]; simp
  have disj : ∀ x ∈ shapeBlocks c M', x ∉ shapeBlocks org M' := by
    intro x hx hx'
    rw [fO.2.1] at hx'
    have := ge x hx; have := lt x hx'; omega
  refine ⟨vs, ts, c, M', hv, ec, n3, fO.1, sc, by simp [hc], fO.2.2 _ _ hv, hsc, disj, ?_, ?_⟩
  · obtain ⟨M2, d1, d2, -, d3, d4, d5⟩ := destroyS fO.1
    refine ⟨_, M2, d1, (frameS sc (M' := M2) fun x hx => ⟨?_, by rw [d3], by rw [d4], d5 x (disj x hx)⟩).2.2 _ _ hsc⟩
    rw [d2]; simp only [Finset.mem_sdiff, List.mem_toFinset]; exact ⟨sc.live x hx, disj x hx⟩
  · obtain ⟨M2, d1, d2, -, d3, d4, d5⟩ := destroyS sc
    have dj : ∀ x ∈ shapeBlocks org M', x ∉ shapeBlocks c M' := fun x hx hx' => disj x hx' hx
    refine ⟨_, M2, d1, (frameS fO.1 (M' := M2) fun x hx => ⟨?_, by rw [d3], by rw [d4], d5 x (dj x hx)⟩).2.2 _ _ (fO.2.2 _ _ hv), ?_⟩
    · rw [d2]; simp only [Finset.mem_sdiff, List.mem_toFinset]; exact ⟨fO.1.live x hx, dj x hx⟩
    · rw [d2, lv']
      ext x
      simp only [Finset.mem_sdiff, Finset.mem_union, List.mem_toFinset]
      constructor
      · rintro ⟨a | a, b⟩
        · exact a
        · exact absurd a b
      · exact fun hx => ⟨.inl hx, fun hm => by have := ok x hx; have := ge x hm; omega⟩

/-- **C96** (`zShape3DMirror` of a polyhedron into another shape `dst` in use): the image is mirrored and its faces are turned over; what
`dst` had is given back; the source is as before and shares nothing with the image. -/
theorem C96_ph_mirror {src dst : Shape} {M : SMem} (ok : MemOk M.mem) (h : SoundS src M) (axis : Fin 3) (hd : SoundS dst M)
    (dj : ∀ b ∈ shapeBlocks dst M, b ∉ shapeBlocks src M) : ∃ vs ts c M', SeesS src M vs ts ∧
    ShapePH.mirror src axis dst M = some (c, M') ∧ SoundS src M' ∧ SoundS c M' ∧ SeesS src M' vs ts ∧
    SeesS c M' (vs.map fun v => v.setE axis (-v.e axis)) (ts.map fun t j => (t (Equiv.swap 1 2 j)).setE axis (-(t (Equiv.swap 1 2 j)).e axis)) ∧
    (∀ b ∈ shapeBlocks c M', b ∉ shapeBlocks src M') ∧
    ∀ b, b ∈ M'.mem.live ↔ b ∈ shapeBlocks c M' ∨ b ∈ M.mem.live ∧ b ∉ shapeBlocks dst M := by
  obtain ⟨vs, ts, hv⟩ := seesS_ex h
  obtain ⟨M1, d1, d2, dn, d3, d4, d5⟩ := destroyS hd
  have ok1 : MemOk M1.mem := fun x hx => by rw [d2] at hx; rw [dn]; exact ok x (Finset.mem_sdiff.1 hx).1
  have f1 := frameS h (M' := M1) fun x hx => ⟨by rw [d2]; simp only [Finset.mem_sdiff, List.mem_toFinset]; exact ⟨h.live x hx, fun k => dj x k hx⟩,
    by rw [d3], by rw [d4], d5 x fun k => dj x k hx⟩
  obtain ⟨b, e, sd⟩ := f1.1.body
  have bl : b ∈ M1.mem.live := f1.1.live b (by rw [blocks_eq e]; simp)
  have lt : ∀ x ∈ shapeBlocks src M1, x < M1.mem.next := fun x hx => ok1 x (f1.1.live x hx)
  obtain ⟨M', n1, n2, n3, n4, n5, n6, n7⟩ := newBody_spec (copies_mirror axis) ok1 bl sd
  set c : Shape := ⟨.null, .blk M1.mem.next, true⟩ with hc
  have ec : ShapePH.mirror src axis dst M = some (c, M') := by
    simp only [ShapePH.mirror, hd.typed, if_true, d1, Option.bind_some, h.typed, e, n1, Option.map_some]
    rfl
  have Bc : shapeBlocks c M' = M1.mem.next :: MemPH.own (M'.body M1.mem.next) := by
    rw [blocks_eq (s := c) rfl]; rfl
  have ge : ∀ x ∈ shapeBlocks c M', M1.mem.next ≤ x := by
    intro x hx
    rw [Bc] at hx
    simp only [List.mem_cons] at hx
    rcases hx with rfl | hx
    · exact le_rfl
    · exact (n4 x hx).le
  have lv' : M'.mem.live = M1.mem.live ∪ (shapeBlocks c M').toFinset := by
    rw [n5, Bc]; ext x; simp only [Finset.mem_union, Finset.mem_insert, List.mem_toFinset, List.mem_cons]; tauto
  have fO := frameS f1.1 (M' := M') fun x hx => by
    obtain ⟨p, q, r⟩ := n6 x (lt x hx)
    exact ⟨by rw [lv']; exact Finset.mem_union_left _ (f1.1.live x hx), p, q, r⟩
  refine ⟨vs, ts, c, M', hv, ec, fO.1, ?_, fO.2.2 _ _ (f1.2.2 _ _ hv), ?_, ?_, ?_⟩
  · refine ⟨rfl, by simp [hc], ⟨_, rfl, n2⟩, ?_, fun x hx => by rw [lv']; exact Finset.mem_union_right _ (List.mem_toFinset.2 hx)⟩
    rw [Bc]
    exact List.nodup_cons.2 ⟨fun hm => by have := n4 _ hm; omega, (MemPH.own_live n2).1⟩
  · obtain ⟨b2, e2, -, k⟩ := f1.2.2 vs ts hv
    rw [e] at e2; cases e2
    refine ⟨_, rfl, by rw [n5]; simp, n7 vs ts k⟩
  · intro x hx hx'
    rw [fO.2.1] at hx'
    have := ge x hx; have := lt x hx'; omega
  · intro x
    rw [lv', d2]
    simp only [Finset.mem_union, Finset.mem_sdiff, List.mem_toFinset]
    tauto

/-- A polyhedron just assigned to a shape is sound and empty: the hypotheses above are met from the start. -/
theorem C96_ph_new (M : SMem) (ok : MemOk M.mem) : ∃ s M', ShapePH.queryAssign ShapePH.init M = (s, M') ∧ SoundS s M' ∧ MemOk M'.mem ∧ SeesS s M' [] [] ∧
    (∀ b, b ∈ M'.mem.live ↔ b = M.mem.next ∨ b ∈ M.mem.live) := by
  refine ⟨_, _, rfl, ⟨rfl, by simp [ShapePH.queryAssign, ShapePH.init], ⟨_, rfl, by simp only [Function.update_self]; exact ⟨.inl ⟨rfl, rfl⟩, .inl ⟨rfl, rfl⟩⟩⟩, ?_, ?_⟩, alloc_ok ok, ?_, ?_⟩
  · simp [shapeBlocks, ShapePH.queryAssign, ShapePH.init, blkOf, MemPH.init]
  · simp [shapeBlocks, ShapePH.queryAssign, ShapePH.init, blkOf, MemPH.init, ShapePH.alloc]
  · refine ⟨_, rfl, by simp [ShapePH.alloc], ?_⟩
    simp only [Function.update_self]
    exact ⟨rfl, rfl, rfl, rfl⟩
  · intro b; simp [ShapePH.queryAssign, ShapePH.alloc]

/-- A triangle as a shape with a name meets the hypotheses. -/
example : ∃ (s : Shape) (M : SMem), MemOk M.mem ∧ SoundS s M ∧ SeesS s M [⟨0, 0, 0⟩, ⟨1, 0, 0⟩, ⟨0, 1, 0⟩] [![⟨0, 0, 0⟩, ⟨1, 0, 0⟩, ⟨0, 1, 0⟩]] := by
  obtain ⟨a, b, -, d⟩ := MemPH.witness_ok
  refine ⟨⟨.null, .blk 0, true⟩, ⟨C99_witness.2, fun _ => C99_witness.1⟩, a, ⟨rfl, by simp, ⟨0, rfl, b⟩, ?_, ?_⟩, 0, rfl, by simp [C99_witness], d⟩
  · simp [shapeBlocks, blkOf, C99_witness]
  · simp [shapeBlocks, blkOf, C99_witness]

end Zeo
