import Verif.Model.MemPH

/-! # C99: copies of polyhedra in memory -/

namespace Zeo
open Life (Ptr)
open MemPH

namespace Spec

/-- No block beyond the bound is in use. -/
def MemOk (m : Mem) : Prop := ∀ b ∈ m.live, b < m.next

/-- The vertices found through a polyhedron. -/
noncomputable def vertsOf (p : Obj) (m : Mem) : Option (List (Vec3 ℝ)) :=
  match p.vert with
  | .wild => none
  | .null => some []
  | .blk b => if b ∈ m.live then some (m.vbuf b) else none
/-- What a pointer points to. -/
noncomputable def deref (m : Mem) : VPtr → Option (Vec3 ℝ)
  | none => none
  | some (b, i) => if b ∈ m.live then (m.vbuf b)[i]? else none
/-- The corners of the faces found through a polyhedron. -/
noncomputable def trisOf (p : Obj) (m : Mem) : Option (List (Fin 3 → Option (Vec3 ℝ))) :=
  match p.face with
  | .wild => none
  | .null => some []
  | .blk b => if b ∈ m.live then some ((m.fbuf b).map fun f j => deref m (f j)) else none
/-- In memory `m`, the polyhedron has the vertices `vs` and the triangles `ts`. -/
def Sees (p : Obj) (m : Mem) (vs : List (Vec3 ℝ)) (ts : List (Fin 3 → Vec3 ℝ)) : Prop :=
  vertsOf p m = some vs ∧ trisOf p m = some (ts.map fun t j => some (t j)) ∧ p.nv = vs.length ∧ p.nf = ts.length

/-- A polyhedron whose arrays have the sizes they say and whose faces have their vertices among its own. -/
structure SoundM (p : Obj) (m : Mem) : Prop where
  v : (p.nv = 0 ∧ p.vert = .null) ∨ ∃ b, p.vert = .blk b ∧ b ∈ m.live ∧ 0 < p.nv ∧ (m.vbuf b).length = p.nv
  f : (p.nf = 0 ∧ p.face = .null) ∨ ∃ b u, p.vert = .blk b ∧ p.face = .blk u ∧ u ∈ m.live ∧ u ≠ b ∧ 0 < p.nf ∧ (m.fbuf u).length = p.nf ∧
    ∀ f ∈ m.fbuf u, ∀ j, ∃ i < p.nv, f j = some (b, i)

/-- What is expected of a copy of `src`, with every vertex replaced by its image under `g` and the corners of every face permuted by `σ`: it
is sound, the source is as it was, writing to the vertices of one or destroying one does not affect the other, and destroying the copy gives
the memory back. -/
def DeepCopy (src : Obj) (m : Mem) (g : Vec3 ℝ → Vec3 ℝ) (σ : Fin 3 → Fin 3) (r : Option (Obj × Mem)) : Prop :=
  ∃ vs ts d m', Sees src m vs ts ∧ r = some (d, m') ∧ SoundM src m' ∧ SoundM d m' ∧ MemOk m' ∧
    Sees src m' vs ts ∧ Sees d m' (vs.map g) (ts.map fun t j => g (t (σ j))) ∧
    (∀ k, Sees src (mapVert k d m') vs ts ∧ Sees d (mapVert k src m') (vs.map g) (ts.map fun t j => g (t (σ j)))) ∧
    (∃ m'', destroy src m' = some (init, m'') ∧ Sees d m'' (vs.map g) (ts.map fun t j => g (t (σ j)))) ∧
    ∃ m'', destroy d m' = some (init, m'') ∧ Sees src m'' vs ts ∧ m''.live = m.live

end Spec
open Spec

def MemPH.pb : Ptr → List ℕ
  | .blk n => [n]
  | _ => []
def MemPH.own (p : Obj) : List ℕ := pb p.vert ++ pb p.face

theorem MemPH.own_live {p : Obj} {m : Mem} (s : SoundM p m) : (own p).Nodup ∧ ∀ b ∈ own p, b ∈ m.live := by
  obtain ⟨nv, v, nf, f⟩ := p
  obtain ⟨hv, hf⟩ := s
  simp only at hv hf
  rcases hf with ⟨rfl, rfl⟩ | ⟨b, u, rfl, rfl, ul, ub, -⟩
  · rcases hv with ⟨rfl, rfl⟩ | ⟨b, rfl, bl, -⟩ <;> simp [own, pb, *]
  · rcases hv with ⟨-, h⟩ | ⟨c, h, bl, -⟩
    · cases h
    · cases h
      simp [own, pb, bl, ul, ub.symm]

theorem MemPH.destroy_eq {p : Obj} {m : Mem} (s : SoundM p m) :
    destroy p m = some (init, { m with live := m.live \ (own p).toFinset }) := by
  obtain ⟨hn, hl⟩ := own_live s
  obtain ⟨nv, v, nf, f⟩ := p
  obtain ⟨hv, hf⟩ := s
  simp only at hv hf
  have hv' : v ≠ .wild := by rcases hv with ⟨-, rfl⟩ | ⟨b, rfl, -⟩ <;> simp
  have hf' : f ≠ .wild := by rcases hf with ⟨-, rfl⟩ | ⟨b, u, -, rfl, -⟩ <;> simp
  cases v <;> cases f <;> simp_all [own, pb, destroy, Mem.free, Finset.sdiff_singleton_eq_erase]
  · rename_i a b
    ext x
    simp
    tauto

/-- A sound polyhedron does not notice what happens to other blocks. -/
theorem MemPH.frame {p : Obj} {m m' : Mem} (s : SoundM p m) (h : ∀ b ∈ own p, b ∈ m'.live ∧ m'.vbuf b = m.vbuf b ∧ m'.fbuf b = m.fbuf b) :
    SoundM p m' ∧ ∀ vs ts, Sees p m vs ts → Sees p m' vs ts := by
  obtain ⟨-, hl⟩ := own_live s
  obtain ⟨nv, v, nf, f⟩ := p
  obtain ⟨hv, hf⟩ := s
  simp only at hv hf
  have V : vertsOf ⟨nv, v, nf, f⟩ m' = vertsOf ⟨nv, v, nf, f⟩ m := by
    cases v with
    | blk b => simp [vertsOf, hl b (by simp [own, pb]), h b (by simp [own, pb])]
    | _ => rfl
  have T : trisOf ⟨nv, v, nf, f⟩ m' = trisOf ⟨nv, v, nf, f⟩ m := by
    rcases hf with ⟨rfl, rfl⟩ | ⟨b, u, rfl, rfl, ul, -, -, -, hp⟩
    · rfl
    · obtain ⟨hb1, hb2, -⟩ := h b (by simp [own, pb])
      obtain ⟨hu1, -, hu2⟩ := h u (by simp [own, pb])
      have bl := hl b (by simp [own, pb])
      simp only [trisOf, hu1, ul, if_true, hu2]
      congr 1
      refine List.map_congr_left fun f hf => ?_
      funext j
      obtain ⟨i, -, e⟩ := hp f hf j
      simp [e, deref, hb1, bl, hb2]
  refine ⟨⟨?_, ?_⟩, fun vs ts => by unfold Sees; rw [V, T]; exact id⟩
  · refine hv.imp id ?_
    rintro ⟨b, e, bl, h1, h2⟩
    obtain ⟨hb1, hb2, -⟩ := h b (by subst e; simp [own, pb])
    exact ⟨b, e, hb1, h1, by rw [hb2]; exact h2⟩
  · refine hf.imp id ?_
    rintro ⟨b, u, e, e', ul, ub, h1, h2, h3⟩
    obtain ⟨hu1, -, hu2⟩ := h u (by subst e'; simp [own, pb])
    exact ⟨b, u, e, e', hu1, ub, h1, by rw [hu2]; exact h2, by rw [hu2]; exact h3⟩

theorem MemPH.sees_ex {p : Obj} {m : Mem} (s : SoundM p m) : ∃ vs ts, Sees p m vs ts := by
  obtain ⟨-, hl⟩ := own_live s
  obtain ⟨nv, v, nf, f⟩ := p
  obtain ⟨hv, hf⟩ := s
  simp only at hv hf
  obtain ⟨vs, hvs, hvn⟩ : ∃ vs, vertsOf ⟨nv, v, nf, f⟩ m = some vs ∧ nv = vs.length := by
    rcases hv with ⟨rfl, rfl⟩ | ⟨b, rfl, bl, -, e⟩
    · exact ⟨[], rfl, rfl⟩
    · exact ⟨m.vbuf b, by simp [vertsOf, bl], e.symm⟩
  rcases hf with ⟨rfl, rfl⟩ | ⟨b, u, rfl, rfl, ul, -, -, e, hp⟩
  · exact ⟨vs, [], hvs, rfl, hvn, rfl⟩
  · have bl := hl b (by simp [own, pb])
    have hb : (m.vbuf b).length = nv := by
      rcases hv with ⟨-, h⟩ | ⟨c, h, -, -, e⟩
      · cases h
      · cases h; exact e
    refine ⟨vs, (m.fbuf u).map fun f j => (deref m (f j)).getD .zero, hvs, ?_, hvn, by simp [e]⟩
    simp only [trisOf, ul, if_true, List.map_map]
    congr 1
    refine List.map_congr_left fun f hf => ?_
    funext j
    obtain ⟨i, hi, e⟩ := hp f hf j
    simp [e, deref, bl, hb, hi]

/-- What `clone` does. -/
theorem MemPH.clone_core {src : Obj} {m : Mem} (ok : MemOk m) (s : SoundM src m) : ∃ d m', clone src m = some (d, m') ∧ SoundM d m' ∧ MemOk m' ∧
    (∀ b ∈ own d, m.next ≤ b) ∧ m'.live = m.live ∪ (own d).toFinset ∧ (∀ b < m.next, m'.vbuf b = m.vbuf b ∧ m'.fbuf b = m.fbuf b) ∧
    ∀ vs ts, Sees src m vs ts → Sees d m' vs ts := by
  obtain ⟨-, hl⟩ := own_live s
  obtain ⟨nv, v, nf, f⟩ := src
  obtain ⟨hv, hf⟩ := s
  simp only at hv hf
  have nn : m.next ∉ m.live := fun h => lt_irrefl _ (ok _ h)
  rcases hv with ⟨rfl, rfl⟩ | ⟨b, rfl, bl, hn, el⟩
  · rcases hf with ⟨rfl, rfl⟩ | ⟨b, u, h, -⟩
    · refine ⟨init, m, by simp [clone, alloc, copyVert, copyFace, init], ⟨.inl ⟨rfl, rfl⟩, .inl ⟨rfl, rfl⟩⟩, ok, by simp [own, pb, init], by simp [own, pb, init],
        fun b _ => ⟨rfl, rfl⟩, fun vs ts h => h⟩
    · cases h
  · have bn : b ≠ m.next := (ok b bl).ne
    have tk : (m.vbuf b).take nv = m.vbuf b := by rw [← el, List.take_length]
    rcases hf with ⟨rfl, rfl⟩ | ⟨b', u, h, rfl, ul, ub, hfn, ef, hp⟩
    · refine ⟨⟨nv, .blk m.next, 0, .null⟩, ⟨insert m.next m.live, m.next + 1, Function.update m.vbuf m.next (m.vbuf b), m.fbuf⟩, ?_, ⟨?_, .inl ⟨rfl, rfl⟩⟩, ?_, ?_, ?_, ?_, ?_⟩
      · simp [clone, alloc, allocVert, hn, hn.ne', init, copyVert, copyFace, bl, bn, el, tk]
      · exact .inr ⟨_, rfl, by simp, hn, by simp [el]⟩
      · intro x hx
        simp only [Finset.mem_insert] at hx ⊢
        rcases hx with rfl | hx
        · omega
        · have := ok x hx; omega
      · simp [own, pb]
      · ext x; simp [own, pb]
      · intro x hx; simp [hx.ne]
      · rintro vs ts ⟨h1, h2, h3, h4⟩
        refine ⟨?_, ?_, h3, h4⟩
        · simpa [vertsOf, bl] using h1
        · simpa [trisOf] using h2
    · cases h
      have un : u ≠ m.next := (ok u ul).ne
      have un' : u ≠ m.next + 1 := by have := ok u ul; omega
      have tk' : (m.fbuf u).take nf = m.fbuf u := by rw [← ef, List.take_length]
      refine ⟨⟨nv, .blk m.next, nf, .blk (m.next + 1)⟩, ⟨insert (m.next + 1) (insert m.next m.live), m.next + 1 + 1, Function.update m.vbuf m.next (m.vbuf b),
        Function.update m.fbuf (m.next + 1) ((m.fbuf u).map fun f j => (f j).map fun q => (m.next, q.2))⟩, ?_, ⟨?_, ?_⟩, ?_, ?_, ?_, ?_, ?_⟩
      · have hp' : ∀ f ∈ m.fbuf u, ∀ j, ∃ i < nv, f j = some (b, i) := hp
        simp [clone, alloc, allocVert, allocFace, hn, hn.ne', hfn, hfn.ne', init, copyVert, copyFace, bl, bn, el, tk, tk', ul, un', ef]
        refine ⟨hp', ?_⟩
        rw [List.take_of_length_le (by simp [ef])]
      · exact .inr ⟨_, rfl, by simp, hn, by simp [el]⟩
      · refine .inr ⟨_, _, rfl, rfl, by simp, by simp, hfn, by simp [ef], ?_⟩
        simp only [Function.update_self, List.mem_map]
        rintro _ ⟨f, hf, rfl⟩ j
        obtain ⟨i, hi, e⟩ := hp f hf j
        exact ⟨i, hi, by simp [e]⟩
      · intro x hx
        simp only [Finset.mem_insert] at hx ⊢
        rcases hx with rfl | rfl | hx
        · omega
        · omega
        · have := ok x hx; omega
      · simp [own, pb]
      · ext x; simp [own, pb]; tauto
      · intro x hx
        have : x ≠ m.next + 1 := by omega
        simp [hx.ne, this]
      · rintro vs ts ⟨h1, h2, h3, h4⟩
        refine ⟨?_, ?_, h3, h4⟩
        · simpa [vertsOf, bl] using h1
        · rw [← h2]
          simp only [trisOf, Finset.mem_insert, true_or, if_true, ul, Function.update_self, List.map_map]
          congr 1
          refine List.map_congr_left fun f hf => ?_
          funext j
          obtain ⟨i, hi, e⟩ := hp f hf j
          simp [e, deref, bl]

theorem MemPH.mapVert_off {g : Vec3 ℝ → Vec3 ℝ} {p : Obj} {m : Mem} :
    (mapVert g p m).live = m.live ∧ (mapVert g p m).next = m.next ∧ (mapVert g p m).fbuf = m.fbuf ∧ ∀ b ∉ own p, (mapVert g p m).vbuf b = m.vbuf b := by
  unfold mapVert
  split
  · rename_i b e
    refine ⟨rfl, rfl, rfl, fun x hx => ?_⟩
    have : x ≠ b := fun h => hx (by simp [own, pb, e, h])
    simp [this]
  · exact ⟨rfl, rfl, rfl, fun _ _ => rfl⟩

theorem MemPH.swapFace_off {p : Obj} {m : Mem} :
    (swapFace p m).live = m.live ∧ (swapFace p m).next = m.next ∧ (swapFace p m).vbuf = m.vbuf ∧ ∀ b ∉ own p, (swapFace p m).fbuf b = m.fbuf b := by
  unfold swapFace
  split
  · rename_i b e
    refine ⟨rfl, rfl, rfl, fun x hx => ?_⟩
    have : x ≠ b := fun h => hx (by simp [own, pb, e, h])
    simp [this]
  · exact ⟨rfl, rfl, rfl, fun _ _ => rfl⟩

theorem MemPH.mapVert_on {g : Vec3 ℝ → Vec3 ℝ} {p : Obj} {m : Mem} (s : SoundM p m) :
    SoundM p (mapVert g p m) ∧ ∀ vs ts, Sees p m vs ts → Sees p (mapVert g p m) (vs.map g) (ts.map fun t j => g (t j)) := by
  obtain ⟨nv, v, nf, f⟩ := p
  obtain ⟨hv, hf⟩ := s
  simp only at hv hf
  rcases hv with ⟨rfl, rfl⟩ | ⟨b, rfl, bl, hn, el⟩
  · rcases hf with ⟨rfl, rfl⟩ | ⟨b, u, h, -⟩
    · refine ⟨⟨.inl ⟨rfl, rfl⟩, .inl ⟨rfl, rfl⟩⟩, ?_⟩
      rintro vs ts ⟨h1, h2, h3, h4⟩
      simp only at h3 h4
      obtain rfl := List.length_eq_zero_iff.1 h3.symm
      obtain rfl := List.length_eq_zero_iff.1 h4.symm
      exact ⟨rfl, rfl, rfl, rfl⟩
    · cases h
  · refine ⟨⟨.inr ⟨b, rfl, bl, hn, by simp [mapVert, el]⟩, hf⟩, ?_⟩
    rintro vs ts ⟨h1, h2, h3, h4⟩
    refine ⟨?_, ?_, by simpa using h3, by simpa using h4⟩
    · simp only [vertsOf, bl, if_true, Option.some.injEq] at h1
      simp [vertsOf, mapVert, bl, h1]
    · rcases hf with ⟨rfl, rfl⟩ | ⟨b', u, h, rfl, ul, ub, hfn, ef, hp⟩
      · simp only at h4
        obtain rfl := List.length_eq_zero_iff.1 h4.symm
        rfl
      · cases h
        simp only [trisOf, ul, if_true, Option.some.injEq] at h2
        have h2' := congrArg (List.map fun (t : Fin 3 → Option (Vec3 ℝ)) j => (t j).map g) h2
        simp only [List.map_map] at h2'
        simp only [trisOf, mapVert, ul, if_true, List.map_map]
        refine congrArg some (Eq.trans (List.map_congr_left fun f hf => ?_) h2')
        funext j
        obtain ⟨i, hi, e⟩ := hp f hf j
        simp [e, deref, bl]

theorem MemPH.swapFace_on {p : Obj} {m : Mem} (s : SoundM p m) :
    SoundM p (swapFace p m) ∧ ∀ vs ts, Sees p m vs ts → Sees p (swapFace p m) vs (ts.map fun t j => t (Equiv.swap 1 2 j)) := by
  obtain ⟨nv, v, nf, f⟩ := p
  obtain ⟨hv, hf⟩ := s
  simp only at hv hf
  rcases hf with ⟨rfl, rfl⟩ | ⟨b, u, rfl, rfl, ul, ub, hfn, ef, hp⟩
  · refine ⟨⟨hv, .inl ⟨rfl, rfl⟩⟩, ?_⟩
    rintro vs ts ⟨h1, h2, h3, h4⟩
    simp only at h4
    obtain rfl := List.length_eq_zero_iff.1 h4.symm
    exact ⟨h1, rfl, h3, rfl⟩
  · refine ⟨⟨hv, .inr ⟨b, u, rfl, rfl, ul, ub, hfn, by simp [swapFace, ef], ?_⟩⟩, ?_⟩
    · simp only [swapFace, Function.update_self, List.mem_map]
      rintro _ ⟨f, hf, rfl⟩ j
      exact hp f hf _
    · rintro vs ts ⟨h1, h2, h3, h4⟩
      refine ⟨h1, ?_, h3, by simpa using h4⟩
      simp only [trisOf, ul, if_true, Option.some.injEq] at h2
      have h2' := congrArg (List.map fun (t : Fin 3 → Option (Vec3 ℝ)) j => t (Equiv.swap 1 2 j)) h2
      simp only [List.map_map] at h2'
      simp only [trisOf, swapFace, ul, if_true, List.map_map, Function.update_self]
      exact congrArg some h2'

/-- The pieces together: a copy made by `clone` and then written to by itself only. -/
theorem MemPH.deep {src d : Obj} {m m' : Mem} {g σ} (ok : MemOk m) (s : SoundM src m) (sd : SoundM d m') (ok' : MemOk m')
    (hd : ∀ b ∈ own d, m.next ≤ b) (hl : m'.live = m.live ∪ (own d).toFinset) (hc : ∀ b < m.next, m'.vbuf b = m.vbuf b ∧ m'.fbuf b = m.fbuf b)
    (hs : ∀ vs ts, Sees src m vs ts → Sees d m' (vs.map g) (ts.map fun t j => g (t (σ j)))) : DeepCopy src m g σ (some (d, m')) := by
  obtain ⟨vs, ts, h⟩ := sees_ex s
  have lt : ∀ b ∈ own src, b < m.next := fun b hb => ok b ((own_live s).2 b hb)
  have disj : ∀ b ∈ own src, b ∉ own d := fun b hb hb' => by have := lt b hb; have := hd b hb'; omega
  have f1 := frame s (m' := m') fun b hb => ⟨by rw [hl]; exact Finset.mem_union_left _ ((own_live s).2 b hb), hc b (lt b hb)⟩
  have hd' := hs vs ts h
  refine ⟨vs, ts, d, m', h, rfl, f1.1, sd, ok', f1.2 _ _ h, hd', fun k => ⟨?_, ?_⟩, ⟨_, destroy_eq f1.1, ?_⟩, _, destroy_eq sd, ?_, ?_⟩
  · obtain ⟨a, -, b, c⟩ := mapVert_off (g := k) (p := d) (m := m')
    exact (frame f1.1 fun x hx => ⟨by rw [a]; exact (own_live f1.1).2 x hx, c x (disj x hx), by rw [b]⟩).2 _ _ (f1.2 _ _ h)
  · obtain ⟨a, -, b, c⟩ := mapVert_off (g := k) (p := src) (m := m')
    exact (frame sd fun x hx => ⟨by rw [a]; exact (own_live sd).2 x hx, c x (fun hx' => disj x hx' hx), by rw [b]⟩).2 _ _ hd'
  · refine (frame sd (m' := { m' with live := m'.live \ (own src).toFinset }) fun x hx => ⟨?_, rfl, rfl⟩).2 _ _ hd'
    simp only [Finset.mem_sdiff, List.mem_toFinset]
    exact ⟨(own_live sd).2 x hx, fun hx' => disj x hx' hx⟩
  · refine (frame f1.1 (m' := { m' with live := m'.live \ (own d).toFinset }) fun x hx => ⟨?_, rfl, rfl⟩).2 _ _ (f1.2 _ _ h)
    simp only [Finset.mem_sdiff, List.mem_toFinset]
    exact ⟨(own_live f1.1).2 x hx, disj x hx⟩
  · rw [hl]
    ext x
    simp only [Finset.mem_sdiff, Finset.mem_union, List.mem_toFinset]
    constructor
    · rintro ⟨a | a, b⟩
      · exact a
      · exact absurd a b
    · exact fun hx => ⟨.inl hx, fun hm => by have := ok x hx; have := hd x hm; omega⟩

/-- `zPH3DClone` makes a copy that shares nothing with the source. -/
theorem C99_clone (src : Obj) (m : Mem) (ok : MemOk m) (s : SoundM src m) : DeepCopy src m id id (clone src m) := by
  obtain ⟨d, m', e, sd, ok', hd, hl, hc, hs⟩ := clone_core ok s
  rw [e]
  exact deep ok s sd ok' hd hl hc fun vs ts h => by simpa using hs vs ts h

/-- `zPH3DMirror`: the copy is mirrored and its faces are turned over. -/
theorem C99_mirror (src : Obj) (m : Mem) (ok : MemOk m) (s : SoundM src m) (axis : Fin 3) :
    DeepCopy src m (fun v => v.setE axis (-v.e axis)) (Equiv.swap 1 2) (mirror src axis m) := by
  obtain ⟨d, m', e, sd, ok', hd, hl, hc, hs⟩ := clone_core ok s
  have hg : (fun v : Vec3 ℝ => PH.flipE v axis) = fun v => v.setE axis (-v.e axis) := by funext v; simp [PH.flipE]
  simp only [mirror, e, Option.map_some, hg]
  obtain ⟨a1, a2, a3, a4⟩ := mapVert_off (g := fun v => v.setE axis (-v.e axis)) (p := d) (m := m')
  obtain ⟨b1, b2, b3, b4⟩ := swapFace_off (p := d) (m := mapVert (fun v => v.setE axis (-v.e axis)) d m')
  obtain ⟨s1, v1⟩ := mapVert_on (g := fun v => v.setE axis (-v.e axis)) sd
  obtain ⟨s2, v2⟩ := swapFace_on s1
  refine deep ok s s2 (fun x hx => ?_) hd (by rw [b1, a1, hl]) (fun b hb => ?_) fun vs ts h => ?_
  · rw [b1, a1] at hx; rw [b2, a2]; exact ok' x hx
  · have : b ∉ own d := fun h => by have := hd b h; omega
    rw [b3, b4 b this, a4 b this, a3]
    exact hc b hb
  · simpa [Function.comp_def] using v2 _ _ (v1 _ _ (hs vs ts h))

/-- `zPH3DScale`: every vertex of the copy is multiplied. -/
theorem C99_scale (src : Obj) (m : Mem) (ok : MemOk m) (s : SoundM src m) (k : ℝ) :
    DeepCopy src m (fun v => ⟨k * v.x, k * v.y, k * v.z⟩) id (scale src k m) := by
  obtain ⟨d, m', e, sd, ok', hd, hl, hc, hs⟩ := clone_core ok s
  have hg : (fun v : Vec3 ℝ => v.mul k) = fun v => ⟨k * v.x, k * v.y, k * v.z⟩ := by funext v; ext <;> simp [Vec3.mul, mul_comm]
  simp only [scale, e, Option.map_some, hg]
  obtain ⟨a1, a2, a3, a4⟩ := mapVert_off (g := fun v => (⟨k * v.x, k * v.y, k * v.z⟩ : Vec3 ℝ)) (p := d) (m := m')
  obtain ⟨s1, v1⟩ := mapVert_on (g := fun v => (⟨k * v.x, k * v.y, k * v.z⟩ : Vec3 ℝ)) sd
  refine deep ok s s1 (fun x hx => ?_) hd (by rw [a1, hl]) (fun b hb => ?_) fun vs ts h => ?_
  · rw [a1] at hx; rw [a2]; exact ok' x hx
  · have : b ∉ own d := fun h => by have := hd b h; omega
    rw [a4 b this, a3]
    exact hc b hb
  · simpa using v1 _ _ (hs vs ts h)

/-- `zPH3DFlip`: the faces of the copy are turned over. -/
theorem C99_flip (src : Obj) (m : Mem) (ok : MemOk m) (s : SoundM src m) : DeepCopy src m id (Equiv.swap 1 2) (MemPH.flip src m) := by
  obtain ⟨d, m', e, sd, ok', hd, hl, hc, hs⟩ := clone_core ok s
  simp only [MemPH.flip, e, Option.map_some]
  obtain ⟨b1, b2, b3, b4⟩ := swapFace_off (p := d) (m := m')
  obtain ⟨s2, v2⟩ := swapFace_on sd
  refine deep ok s s2 (fun x hx => ?_) hd (by rw [b1, hl]) (fun b hb => ?_) fun vs ts h => ?_
  · rw [b1] at hx; rw [b2]; exact ok' x hx
  · have : b ∉ own d := fun h => by have := hd b h; omega
    rw [b3, b4 b this]
    exact hc b hb
  · simpa using v2 _ _ (hs vs ts h)

/-- A polyhedron cannot be cloned into itself: with faces this is undefined, without faces all its vertices become zero and their memory is
lost. -/
theorem C99_self_false (p : Obj) (m : Mem) (ok : MemOk m) (s : SoundM p m) :
    (0 < p.nf → cloneSelf p m = none) ∧
    (0 < p.nv → p.nf = 0 → ∃ d m', cloneSelf p m = some (d, m') ∧ Sees d m' (List.replicate p.nv .zero) [] ∧
      ∃ m'', destroy d m' = some (init, m'') ∧ m''.live = m.live ∧ ∃ b ∈ m''.live, p.vert = .blk b) := by
  have nn : m.next ∉ m.live := fun h => lt_irrefl _ (ok _ h)
  constructor
  · intro hn
    have hv : 0 < p.nv := by
      rcases s.f with ⟨h, -⟩ | ⟨b, u, -, -, -, -, -, h, hp⟩
      · omega
      · obtain ⟨f, hf⟩ := List.exists_mem_of_length_pos (l := m.fbuf u) (by omega)
        obtain ⟨i, hi, -⟩ := hp f hf 0
        omega
    have : ¬ ∀ f ∈ List.replicate p.nf (fun _ : Fin 3 => (none : VPtr)), ∀ j, ∃ i < p.nv, f j = some (m.next, i) := by
      intro h
      obtain ⟨i, -, e⟩ := h _ (List.mem_replicate.2 ⟨hn.ne', rfl⟩) 0
      cases e
    simp [cloneSelf, alloc, hn, hv, allocVert, allocFace, init, copyVert, copyFace, hn.ne', hv.ne']
  · intro hv hn
    obtain ⟨b, e, bl⟩ : ∃ b, p.vert = .blk b ∧ b ∈ m.live := by
      rcases s.v with ⟨h, -⟩ | ⟨b, e, bl, -⟩
      · omega
      · exact ⟨b, e, bl⟩
    refine ⟨⟨p.nv, .blk m.next, 0, .null⟩, ⟨insert m.next m.live, m.next + 1, Function.update m.vbuf m.next (List.replicate p.nv .zero), m.fbuf⟩, ?_, ?_,
      ⟨m.live, m.next + 1, Function.update m.vbuf m.next (List.replicate p.nv .zero), m.fbuf⟩, ?_, rfl, b, bl, e⟩
    · simp [cloneSelf, alloc, hn, hv, allocVert, init, copyVert, copyFace, hv.ne']
    · exact ⟨by simp [vertsOf], rfl, by simp, rfl⟩
    · simp [destroy, Mem.free, nn]

/-- `zPH3DXform`: in place: the vertices and the triangles of the polyhedron are moved. -/
theorem C99_xform_self (p : Obj) (m : Mem) (s : SoundM p m) (f : Frame3 ℝ) : ∃ vs ts m', Sees p m vs ts ∧ xform p f p m = some m' ∧
    SoundM p m' ∧ Sees p m' (vs.map f.xform) (ts.map fun t j => f.xform (t j)) ∧ m'.live = m.live := by
  obtain ⟨vs, ts, h⟩ := sees_ex s
  obtain ⟨s1, v1⟩ := mapVert_on (g := f.xform) s
  refine ⟨vs, ts, _, h, ?_, s1, v1 _ _ h, mapVert_off.1⟩
  rcases s.v with ⟨h1, h2⟩ | ⟨b, e, bl, hn, el⟩
  · simp [xform, h1, mapVert, h2]
  · have t1 : (m.vbuf b).take p.nv = m.vbuf b := by rw [← el, List.take_length]
    have t2 : (m.vbuf b).drop p.nv = [] := by rw [← el, List.drop_length]
    simp [xform, hn.ne', e, bl, el, mapVert, t1, t2]

/-- `zPH3DXform` into a clone: it becomes the moved polyhedron, and the source stays. -/
theorem C99_xform (src : Obj) (m : Mem) (ok : MemOk m) (s : SoundM src m) (f : Frame3 ℝ) :
    DeepCopy src m f.xform id ((clone src m).bind fun r => (xform src f r.1 r.2).map fun m => (r.1, m)) := by
  obtain ⟨d, m', e, sd, ok', hd, hl, hc, hs⟩ := clone_core ok s
  obtain ⟨a1, a2, a3, a4⟩ := mapVert_off (g := f.xform) (p := d) (m := m')
  obtain ⟨s1, v1⟩ := mapVert_on (g := f.xform) sd
  have key : xform src f d m' = some (mapVert f.xform d m') := by
    obtain ⟨vs, ts, h⟩ := sees_ex s
    obtain ⟨k1, -, k3, -⟩ := hs vs ts h
    obtain ⟨h1, -, h3, -⟩ := h
    rcases sd.v with ⟨n0, dn⟩ | ⟨t, et, tl, hn, el⟩
    · simp [xform, n0, mapVert, dn]
    · rcases s.v with ⟨n0, -⟩ | ⟨b, eb, bl, -, el'⟩
      · omega
      · simp only [vertsOf, et, tl, if_true, Option.some.injEq] at k1
        simp only [vertsOf, eb, bl, if_true, Option.some.injEq] at h1
        have bl' : b ∈ m'.live := by rw [hl]; exact Finset.mem_union_left _ bl
        have vb : m'.vbuf b = vs := by rw [(hc b (ok b bl)).1, h1]
        have vn : vs.length ≠ 0 := by omega
        simp only [xform, vn, if_false, eb, et, bl', tl, vb, k1, true_and, k3, le_refl, if_true, mapVert, List.take_length, List.drop_length, List.append_nil]
  simp only [e, Option.bind_some, key, Option.map_some]
  refine deep ok s s1 (fun x hx => ?_) hd (by rw [a1, hl]) (fun b hb => ?_) fun vs ts h => ?_
  · rw [a1] at hx; rw [a2]; exact ok' x hx
  · have : b ∉ own d := fun h => by have := hd b h; omega
    rw [a4 b this, a3]
    exact hc b hb
  · simpa using v1 _ _ (hs vs ts h)

/-- A destination of more vertices than the source has makes `zPH3DXform` read behind them. -/
theorem C99_xform_false (src dest : Obj) (m : Mem) (f : Frame3 ℝ) (s : SoundM src m) (h : src.nv < dest.nv) : xform src f dest m = none := by
  have h0 : dest.nv ≠ 0 := by omega
  unfold xform
  rw [if_neg h0]
  rcases s.v with ⟨h1, h2⟩ | ⟨b, e, bl, hn, el⟩
  · simp [h2]
  · simp only [e]
    split
    · rename_i s t h1 h2
      cases h1
      rw [if_neg]
      omega
    · rfl

/-- A triangle with one face, and a block of another object in memory. -/
noncomputable def C99_witness : Obj × Mem :=
  (⟨3, .blk 1, 1, .blk 2⟩, ⟨{0, 1, 2}, 3, fun _ => [⟨0, 0, 0⟩, ⟨1, 0, 0⟩, ⟨0, 1, 0⟩], fun _ => [fun j => some (1, j)]⟩)

theorem MemPH.witness_ok : MemOk C99_witness.2 ∧ SoundM C99_witness.1 C99_witness.2 ∧ 0 < C99_witness.1.nf ∧
    Sees C99_witness.1 C99_witness.2 [⟨0, 0, 0⟩, ⟨1, 0, 0⟩, ⟨0, 1, 0⟩] [![⟨0, 0, 0⟩, ⟨1, 0, 0⟩, ⟨0, 1, 0⟩]] := by
  refine ⟨?_, ⟨.inr ⟨1, rfl, ?_, ?_, rfl⟩, .inr ⟨1, 2, rfl, rfl, ?_, ?_, ?_, rfl, ?_⟩⟩, ?_, ?_, ?_, rfl, rfl⟩
  · simp [MemOk, C99_witness]
  · simp [C99_witness]
  · simp [C99_witness]
  · simp [C99_witness]
  · simp
  · simp [C99_witness]
  · intro f hf j
    simp only [C99_witness, List.mem_singleton] at hf
    subst hf
    exact ⟨j, j.2, rfl⟩
  · simp [C99_witness]
  · simp [vertsOf, C99_witness]
  · simp only [trisOf, C99_witness, List.map_cons, List.map_nil]
    rw [if_pos (by simp)]
    congr 2
    funext j
    fin_cases j <;> simp [deref]

end Zeo
