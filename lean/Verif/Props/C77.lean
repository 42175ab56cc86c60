import Verif.Lemmas.STL

/-! # C77: polyhedra in the STL format -/

namespace Zeo
open Spec Classical STL

/-- The text of a facet in a file: a normal vector and three vertices. -/
def STL.facetText (n : Vec3 ℝ) (t : Corners) : List Tok :=
  [.word "facet", .word "normal", .num n.x, .num n.y, .num n.z, .word "outer", .word "loop",
    .word "vertex", .num t.1.x, .num t.1.y, .num t.1.z, .word "vertex", .num t.2.1.x, .num t.2.1.y, .num t.2.1.z,
    .word "vertex", .num t.2.2.x, .num t.2.2.y, .num t.2.2.z, .word "endloop", .word "endfacet"]

/-- The text of a solid: its name, the facets and what follows. -/
def STL.solidText (name : String) (ts : List (Vec3 ℝ × Corners)) (rest : List Tok) : List Tok :=
  .word "solid" :: .word name :: (ts.flatMap fun t => facetText t.1 t.2) ++ .word "endsolid" :: rest

private theorem facet_step (τ : ℝ) (junk : Vec3 ℝ) (s : St) (n : Vec3 ℝ) (t : Corners) (r : List Tok) (k : ℕ) :
    readSolid τ junk (k + 1) s (facetText n t ++ r) =
      readSolid τ junk k (facetReg τ junk s t.1 t.2.1 t.2.2) r := by
  have h : ∀ m, readFacet τ junk (m + 3) (fun _ => none) s ((facetText n t).tail ++ r) =
      .ok (some (facetReg τ junk s t.1 t.2.1 t.2.2), r) := by
    intro m
    simp [facetText, readFacet, readLoop, loopBody, Function.update]
  have h' := h (((facetText n t).tail ++ r).length - 2)
  have e : ((facetText n t).tail ++ r).length - 2 + 3 = ((facetText n t).tail ++ r).length + 1 := by
    simp [facetText]
  rw [e] at h'
  have e2 : facetText n t ++ r = .word "facet" :: ((facetText n t).tail ++ r) := rfl
  rw [e2, readSolid]
  simp only [h']
  simp

private theorem facets_step (τ : ℝ) (junk : Vec3 ℝ) (ts : List (Vec3 ℝ × Corners)) (rest : List Tok) :
    ∀ (s : St) (k : ℕ), ts.length < k →
    readSolid τ junk k s ((ts.flatMap fun t => facetText t.1 t.2) ++ .word "endsolid" :: rest) =
      .ok (toPH (regAll τ junk s (ts.map Prod.snd))) := by
  induction ts with
  | nil =>
    intro s k hk
    obtain ⟨k, rfl⟩ : ∃ j, k = j + 1 := ⟨k - 1, by simp at hk; omega⟩
    simp [readSolid, regAll]
  | cons t ts ih =>
    intro s k hk
    obtain ⟨k, rfl⟩ : ∃ j, k = j + 1 := ⟨k - 1, by simp at hk; omega⟩
    rw [List.flatMap_cons, List.append_assoc, facet_step, ih _ _ (by simp at hk; omega)]
    simp [regAll]

private theorem solid_read (τ : ℝ) (junk : Vec3 ℝ) (name : String) (ts : List (Vec3 ℝ × Corners)) (rest : List Tok) :
    readASCII τ junk (solidText name ts rest) =
      .ok ((toPH (regAll τ junk .init (ts.map Prod.snd))).map fun q => (q, .word name)) := by
  have hl : ∀ ts : List (Vec3 ℝ × Corners), ts.length ≤ (ts.flatMap fun t => facetText t.1 t.2).length := by
    intro ts
    induction ts with
    | nil => simp
    | cons t ts ih => simp only [List.flatMap_cons, List.length_append, List.length_cons, facetText] at ih ⊢; omega
  have := facets_step τ junk ts rest .init
    (((ts.flatMap fun t => facetText t.1 t.2) ++ .word "endsolid" :: rest).length + 1) (by
      have := hl ts
      simp only [List.length_append, List.length_cons]; omega)
  rw [solidText, List.cons_append, List.cons_append, readASCII]
  simp only [this]
  cases toPH (regAll τ junk .init (ts.map Prod.snd)) <;> simp

/-- **Reading a text file.** A file with a named solid of at least one facet gives a polyhedron with the facets of
the file in their order.  Its corners are those of the file up to the tolerance, its vertices are distinct corners
of the file, and its normals are computed from the corners, not taken from the file.  This needs that the memory
where the tree of vertices starts does not happen to hold the first vertex. -/
theorem C77_read_partial {τ : ℝ} (hτ : 0 ≤ τ) {junk : Vec3 ℝ} (name : String) (t : Vec3 ℝ × Corners)
    (ts : List (Vec3 ℝ × Corners)) (rest : List Tok) (hj : ¬ Within τ t.2.1 junk) :
    ∃ q, readASCII τ junk (solidText name (t :: ts) rest) = .ok (some (q, .word name)) ∧
      Holds τ ((t :: ts).map Prod.snd) q ∧
      (∀ f ∈ q.face, f.norm = (Tri3.create τ (q.vert f.i0) (q.vert f.i1) (q.vert f.i2)).2.norm) ∧
      (∀ j k, j < k → k < q.nv → q.vert j ≠ q.vert k) := by
  obtain ⟨q, h, r⟩ := toPH_regAll (junk := junk) hτ (t := t.2) (ts := ts.map Prod.snd) hj
  refine ⟨q, ?_, r⟩
  rw [solid_read, List.map_cons, h]; rfl

/-- The hypotheses are met. -/
example : ∃ (τ : ℝ) (junk : Vec3 ℝ) (t : Vec3 ℝ × Corners), 0 ≤ τ ∧ ¬ Within τ t.2.1 junk :=
  ⟨1/2, ⟨0, 0, 0⟩, (⟨0, 0, 1⟩, ⟨1, 0, 0⟩, ⟨0, 1, 0⟩, ⟨0, 0, 0⟩), by norm_num, by
    rintro ⟨h, -⟩; norm_num [abs_of_pos] at h⟩

/-- The corners of the faces of a polyhedron, as written with the format `fmt`. -/
def STL.written (fmt : ℝ → ℝ) (ph : PH ℝ) : List Corners :=
  let r := fun v : Vec3 ℝ => (⟨fmt v.x, fmt v.y, fmt v.z⟩ : Vec3 ℝ)
  ph.face.map fun f => (r (ph.vert f.i0), r (ph.vert f.i1), r (ph.vert f.i2))

private theorem write_eq (fmt : ℝ → ℝ) (ph : PH ℝ) (name : String) :
    ∃ ts, writeASCII fmt ph [name] = solidText name ts [] ∧ ts.map Prod.snd = written fmt ph := by
  refine ⟨ph.face.map fun f => (⟨fmt f.norm.x, fmt f.norm.y, fmt f.norm.z⟩,
    ⟨fmt (ph.vert f.i0).x, fmt (ph.vert f.i0).y, fmt (ph.vert f.i0).z⟩,
    ⟨fmt (ph.vert f.i1).x, fmt (ph.vert f.i1).y, fmt (ph.vert f.i1).z⟩,
    ⟨fmt (ph.vert f.i2).x, fmt (ph.vert f.i2).y, fmt (ph.vert f.i2).z⟩), ?_, ?_⟩
  · simp [writeASCII, solidText, facetText, printFacet, printVec, PH.tri, List.flatMap_map]
  · simp [written, List.map_map, Function.comp_def]

/-- **Writing a text file and reading it back.** A polyhedron with a face, written with a name of one word, is read
back face by face in the same order: the corners of each face are the written ones, exactly if the written
corners that differ do so by more than the tolerance, and within the tolerance otherwise. -/
theorem C77_write_read_partial {τ : ℝ} (hτ : 0 ≤ τ) {junk : Vec3 ℝ} (fmt : ℝ → ℝ) (ph : PH ℝ) (name : String)
    {t : Corners} {ts : List Corners} (hw : written fmt ph = t :: ts) (hj : ¬ Within τ t.1 junk) :
    ∃ q, readASCII τ junk (writeASCII fmt ph [name]) = .ok (some (q, .word name)) ∧
      Holds τ (written fmt ph) q ∧ (Spread τ (written fmt ph) → Holds 0 (written fmt ph) q) ∧
      (∀ f ∈ q.face, f.norm = (Tri3.create τ (q.vert f.i0) (q.vert f.i1) (q.vert f.i2)).2.norm) ∧
      (∀ j k, j < k → k < q.nv → q.vert j ≠ q.vert k) := by
  obtain ⟨us, e, hs⟩ := write_eq fmt ph name
  obtain ⟨q, h, hq, r⟩ := toPH_regAll (junk := junk) hτ (t := t) (ts := ts) hj
  refine ⟨q, ?_, hw ▸ hq, fun ha => Holds.exact (hw ▸ hq) ha, r⟩
  rw [e, solid_read, hs, hw, h]; rfl

/-- A tetrahedron, used in the examples below. -/
noncomputable def STL.sample : PH ℝ :=
  ⟨4, fun i => [⟨1, 0, 0⟩, ⟨0, 1, 0⟩, ⟨0, 0, 1⟩, ⟨0, 0, 0⟩].getD i .zero,
    [⟨0, 1, 2, .zero⟩, ⟨0, 2, 3, .zero⟩, ⟨0, 3, 1, .zero⟩, ⟨1, 3, 2, .zero⟩]⟩

/-- The hypotheses are met by a tetrahedron whose corners are apart. -/
example : ∃ t ts, written id sample = t :: ts ∧ ¬ Within (1/2) t.1 ⟨0, 0, 0⟩ ∧ Spread (1/2) (written id sample) := by
  refine ⟨_, _, rfl, ?_, ?_⟩
  · rintro ⟨h, -⟩; norm_num [abs_of_pos, sample] at h
  · have hc : ∀ s ∈ written id sample, ∀ p, Corner p s →
        p = ⟨1, 0, 0⟩ ∨ p = ⟨0, 1, 0⟩ ∨ p = ⟨0, 0, 1⟩ ∨ p = ⟨0, 0, 0⟩ := by
      intro s hs p hp
      simp only [written, sample, List.map_cons, List.map_nil, List.mem_cons, List.not_mem_nil, or_false] at hs
      rcases hs with rfl | rfl | rfl | rfl <;> rcases hp with rfl | rfl | rfl <;> simp
    intro s hs t ht p q hp hq hw
    obtain ⟨hx, hy, hz⟩ := hw
    rcases hc s hs p hp with rfl | rfl | rfl | rfl <;> rcases hc t ht q hq with rfl | rfl | rfl | rfl <;>
      first | rfl | (exfalso; revert hx hy hz; norm_num [abs_of_pos, abs_of_neg])

/-- **The memory of the tree decides whether a vertex is kept.** Whatever the first vertex of a file, if the memory
where the tree of vertices starts holds it already (the origin, in memory that was cleared), the vertex is not
registered and the first face gets the next vertex in its place. -/
theorem C77_first_vertex_false (τ : ℝ) (hτ : 0 ≤ τ) (name : String) (n : Vec3 ℝ) (t : Corners)
    (h1 : ¬ Within τ t.2.1 t.1) (rest : List Tok) :
    ∃ q f, readASCII τ t.1 (solidText name [(n, t)] rest) = .ok (some (q, .word name)) ∧ q.face = [f] ∧
      f.i0 = f.i1 ∧ q.vert f.i0 = t.2.1 ∧ ¬ Holds τ [t] q := by
  have e0 : vertReg τ t.1 .nil t.1 = (.nil, 0) := if_pos (within_self hτ t.1)
  have e1 : vertReg τ t.1 .nil t.2.1 = (Kd.build [t.2.1], 0) := if_neg h1
  obtain ⟨ps, i, w, e2, g2, w2, h2⟩ := vertReg_spec (junk := t.1) hτ [t.2.1] t.2.2 (by simp)
  have hg : ps[0]? = some t.2.1 := by rcases h2 with rfl | ⟨rfl, -, -⟩ <;> rfl
  have hne : ps ≠ [] := by rintro rfl; simp at hg
  obtain ⟨f, hf, hf0, hf1⟩ : ∃ f : Face ℝ, regAll τ t.1 .init [t] = ⟨Kd.build ps, [f]⟩ ∧ f.i0 = 0 ∧ f.i1 = 0 := by
    refine ⟨⟨0, 0, i, (Tri3.create τ (pointOf t.1 (Kd.build ps) 0) (pointOf t.1 (Kd.build ps) 0)
      (pointOf t.1 (Kd.build ps) i)).2.norm⟩, ?_, rfl, rfl⟩
    simp only [regAll, List.foldl_cons, List.foldl_nil, facetReg, St.init, e0, e1, e2]
    rfl
  refine ⟨⟨ps.length, fun i => ps.getD i .zero, [f]⟩, f, ?_, ?_⟩
  · rw [solid_read]
    simp only [List.map_cons, List.map_nil, hf, toPH_build hne]
    rfl
  · have hv : ps.getD f.i0 Vec3.zero = t.2.1 := by rw [hf0]; simp [List.getD, hg]
    refine ⟨rfl, hf0.trans hf1.symm, hv, ?_⟩
    intro h
    obtain ⟨⟨-, hw⟩, -⟩ := h.corners 0 t f rfl rfl
    dsimp only at hw
    rw [hv] at hw
    refine h1 ⟨?_, ?_, ?_⟩
    · rw [abs_sub_comm]; exact hw.1
    · rw [abs_sub_comm]; exact hw.2.1
    · rw [abs_sub_comm]; exact hw.2.2

/-- Cleared memory and a triangle at the origin. -/
example : ¬ Within (1/2) (⟨1, 0, 0⟩ : Vec3 ℝ) ⟨0, 0, 0⟩ := by rintro ⟨h, -⟩; norm_num [abs_of_pos] at h

/-- **A solid without a name loses its first facet.** The word `facet` is taken for the name and the rest of the
facet is skipped.  In particular what is written with an empty name is read back without the first face. -/
theorem C77_no_name_false (τ : ℝ) (junk : Vec3 ℝ) (n : Vec3 ℝ) (t : Corners) (ts : List (Vec3 ℝ × Corners)) (rest : List Tok) :
    readASCII τ junk (.word "solid" :: ((n, t) :: ts).flatMap (fun t => facetText t.1 t.2) ++ .word "endsolid" :: rest) =
      readASCII τ junk (solidText "facet" ts rest) := by
  have hskip : ∀ (r : List Tok) (k : ℕ) (s : St), readSolid τ junk (k + 20) s ((facetText n t).tail ++ r) = readSolid τ junk k s r := by
    intro r k s
    simp [facetText, readSolid]
  have hl : ∀ ts : List (Vec3 ℝ × Corners), ts.length ≤ (ts.flatMap fun t => facetText t.1 t.2).length := by
    intro ts
    induction ts with
    | nil => simp
    | cons t ts ih => simp only [List.flatMap_cons, List.length_append, List.length_cons, facetText] at ih ⊢; omega
  rw [solid_read]
  have e : (.word "solid" :: ((n, t) :: ts).flatMap (fun t => facetText t.1 t.2) ++ .word "endsolid" :: rest : List Tok) =
      .word "solid" :: .word "facet" :: ((facetText n t).tail ++
        ((ts.flatMap fun t => facetText t.1 t.2) ++ .word "endsolid" :: rest)) := by
    simp [facetText]
  rw [e, readASCII]
  have hk : ((facetText n t).tail ++ ((ts.flatMap fun t => facetText t.1 t.2) ++ .word "endsolid" :: rest)).length + 1 =
      ((ts.flatMap fun t => facetText t.1 t.2) ++ .word "endsolid" :: rest).length + 1 + 20 := by
    simp [facetText]
  have := facets_step τ junk ts rest .init
    (((ts.flatMap fun t => facetText t.1 t.2) ++ .word "endsolid" :: rest).length + 1) (by
      have := hl ts
      simp only [List.length_append, List.length_cons]; omega)
  simp only [hk, hskip, this]
  cases toPH (regAll τ junk .init (ts.map Prod.snd)) <;> simp

/-- Writing the tetrahedron without a name gives three faces back. -/
theorem C77_empty_name_false (τ : ℝ) (hτ : 0 ≤ τ) (junk : Vec3 ℝ) (hj : ¬ Within τ ⟨1, 0, 0⟩ junk) :
    ∃ q w, readASCII τ junk (writeASCII id sample []) = .ok (some (q, w)) ∧ q.face.length = 3 ∧ sample.face.length = 4 := by
  let ts : List (Vec3 ℝ × Corners) := sample.face.map fun f => (f.norm, sample.vert f.i0, sample.vert f.i1, sample.vert f.i2)
  have e : writeASCII id sample [] = .word "solid" :: ts.flatMap (fun t => facetText t.1 t.2) ++ .word "endsolid" :: [] := by
    simp [writeASCII, facetText, printFacet, printVec, PH.tri, List.flatMap_map, ts]
  have e2 : ts = (.zero, sample.vert 0, sample.vert 1, sample.vert 2) :: (sample.face.tail.map fun f => (f.norm, sample.vert f.i0, sample.vert f.i1, sample.vert f.i2)) := rfl
  obtain ⟨q, h, hq, -⟩ := C77_read_partial hτ (junk := junk) "facet" (.zero, sample.vert 0, sample.vert 2, sample.vert 3)
    ((sample.face.tail.tail).map fun f => (f.norm, sample.vert f.i0, sample.vert f.i1, sample.vert f.i2)) [] hj
  refine ⟨q, .word "facet", ?_, ?_, rfl⟩
  · rw [e, e2, C77_no_name_false]
    exact h
  · rw [hq.count]; rfl

/-- **A facet with fewer than three vertices is not rejected**: the reader goes on with coordinates that were never
set. -/
theorem C77_few_vertices_undefined (τ : ℝ) (junk n a b : Vec3 ℝ) (name : String) (rest : List Tok) :
    readASCII τ junk ([.word "solid", .word name, .word "facet", .word "normal", .num n.x, .num n.y, .num n.z,
      .word "outer", .word "loop", .word "vertex", .num a.x, .num a.y, .num a.z, .word "vertex", .num b.x, .num b.y, .num b.z,
      .word "endloop", .word "endfacet"] ++ rest) = .error .undef := by
  simp [readASCII, readSolid, readFacet, readLoop, loopBody, Function.update]

/-- Further vertices of a facet are ignored. -/
theorem C77_many_vertices (τ : ℝ) (junk n a b c d : Vec3 ℝ) (name : String) (rest : List Tok) :
    readASCII τ junk ([.word "solid", .word name, .word "facet", .word "normal", .num n.x, .num n.y, .num n.z,
      .word "outer", .word "loop", .word "vertex", .num a.x, .num a.y, .num a.z, .word "vertex", .num b.x, .num b.y, .num b.z,
      .word "vertex", .num c.x, .num c.y, .num c.z, .word "vertex", .num d.x, .num d.y, .num d.z,
      .word "endloop", .word "endfacet", .word "endsolid"] ++ rest) =
    readASCII τ junk (solidText name [(n, a, b, c)] rest) := by
  simp [solidText, facetText, readASCII, readSolid, readFacet, readLoop, loopBody, Function.update]

/-- A polyhedron without a face is not read back. -/
theorem C77_empty_null (τ : ℝ) (junk : Vec3 ℝ) (fmt : ℝ → ℝ) (ph : PH ℝ) (name : String) (h : ph.face = []) :
    readASCII τ junk (writeASCII fmt ph [name]) = .ok none := by
  obtain ⟨ts, e, hs⟩ := write_eq fmt ph name
  have : ts = [] := by
    have : written fmt ph = [] := by simp [written, h]
    rw [this] at hs; exact List.map_eq_nil_iff.1 hs
  rw [e, solid_read, this]; rfl

/-- A file that ends before `endsolid` gives NULL. -/
theorem C77_no_end_null (τ : ℝ) (junk : Vec3 ℝ) (name : String) (ts : List (Vec3 ℝ × Corners)) :
    readASCII τ junk (.word "solid" :: .word name :: ts.flatMap (fun t => facetText t.1 t.2)) = .ok none := by
  have key : ∀ (ts : List (Vec3 ℝ × Corners)) (s : St) (k : ℕ),
      readSolid τ junk k s (ts.flatMap (fun t => facetText t.1 t.2)) = .ok none := by
    intro ts
    induction ts with
    | nil => intro s k; cases k <;> rfl
    | cons t ts ih =>
      intro s k
      cases k with
      | zero => rfl
      | succ k => rw [List.flatMap_cons, facet_step, ih]
  rw [readASCII]
  simp only [key]
  simp

/-- **Vertices within the tolerance of each other may both be kept**: the nearest vertex is not within the tolerance
in every coordinate, while another one is. -/
theorem C77_merge_false (τ : ℝ) (hτ : 0 < τ) (junk : Vec3 ℝ) (hj : ¬ Within τ ⟨τ, τ, τ⟩ junk) (name : String) (n : Vec3 ℝ) :
    ∃ q f, readASCII τ junk (solidText name [(n, ⟨τ, τ, τ⟩, ⟨6 / 5 * τ, -(1 / 2) * τ, 0⟩, ⟨0, 0, 0⟩)] []) =
        .ok (some (q, .word name)) ∧ q.face = [f] ∧ f.i0 ≠ f.i2 ∧ Within τ (q.vert f.i0) (q.vert f.i2) := by
  set A : Vec3 ℝ := ⟨τ, τ, τ⟩ with hA
  set B : Vec3 ℝ := ⟨6 / 5 * τ, -(1 / 2) * τ, 0⟩ with hB
  set C : Vec3 ℝ := ⟨0, 0, 0⟩ with hC
  have hBA : ¬ Within τ B A := by
    rintro ⟨-, h, -⟩
    rw [hA, hB] at h
    dsimp only at h
    rw [abs_le] at h
    linarith [h.1]
  have hCB : ¬ Within τ C B := by
    rintro ⟨h, -, -⟩
    rw [hC, hB] at h
    dsimp only at h
    rw [abs_le] at h
    linarith [h.1]
  have e0 : vertReg τ junk .nil A = (Kd.build [A], 0) := if_neg hj
  obtain ⟨ps, i, w, e1, g1, w1, h1⟩ := vertReg_spec (junk := junk) hτ.le [A] B (by simp)
  have : ps = [A, B] ∧ i = 1 := by
    rcases h1 with rfl | ⟨rfl, -, rfl⟩
    · have : w ∈ [A] := List.mem_of_getElem? g1
      rw [List.mem_singleton] at this
      exact absurd (this ▸ w1) hBA
    · refine ⟨rfl, ?_⟩
      match i, g1 with
      | 0, g1 =>
        simp only [List.cons_append, List.nil_append, List.getElem?_cons_zero, Option.some_inj] at g1
        exact absurd (g1 ▸ within_self hτ.le A) hBA
      | 1, _ => rfl
  obtain ⟨rfl, rfl⟩ := this
  obtain ⟨j, x, hn, hj', hmin⟩ := C29_nn [A, B] (by simp) C
  have hx : x = B := by
    have hm : x ∈ [A, B] := List.mem_of_getElem? hj'
    simp only [List.mem_cons, List.not_mem_nil, or_false] at hm
    rcases hm with rfl | rfl
    · have := hmin B (by simp)
      have h2 := mul_self_le_mul_self (ed_nonneg' C A) this
      rw [ed_sq, ed_sq] at h2
      simp only [Spec.sqd, hA, hB, hC] at h2
      nlinarith [mul_pos hτ hτ]
    · rfl
  obtain ⟨m, jj, s, qq, reg, c0, c1, eb⟩ := build_ne [A, B] (by simp)
  have e2 : vertReg τ junk (Kd.build [A, B]) C = (Kd.build [A, B, C], 2) := by
    have hr : vertReg τ junk (Kd.build [A, B]) C =
        if Vec3.equal τ C x then (Kd.build [A, B], j) else ((Kd.build [A, B]).add C, (Kd.build [A, B]).size) := by
      rw [eb] at hn ⊢
      simp only [vertReg, hn]
    rw [hr, hx, if_neg (show ¬ Vec3.equal τ C B from hCB), build_snoc, (C28_size_and_ids _).1]; rfl
  obtain ⟨f, hf, hf0, hf2⟩ : ∃ f : Face ℝ, regAll τ junk .init [(A, B, C)] = ⟨Kd.build [A, B, C], [f]⟩ ∧ f.i0 = 0 ∧ f.i2 = 2 := by
    refine ⟨⟨0, 1, 2, (Tri3.create τ (pointOf junk (Kd.build [A, B, C]) 0) (pointOf junk (Kd.build [A, B, C]) 1)
      (pointOf junk (Kd.build [A, B, C]) 2)).2.norm⟩, ?_, rfl, rfl⟩
    simp only [regAll, List.foldl_cons, List.foldl_nil, facetReg, St.init, e0, e1, e2]
    rfl
  refine ⟨⟨3, fun i => [A, B, C].getD i .zero, [f]⟩, f, ?_, ?_⟩
  · rw [solid_read]
    simp only [List.map_cons, List.map_nil, hf, toPH_build (show [A, B, C] ≠ [] by simp)]
    rfl
  · refine ⟨rfl, by rw [hf0, hf2]; norm_num, ?_⟩
    rw [hf0, hf2]
    change Within τ A C
    simp [hA, hC, Within, abs_of_pos hτ]

/-- The hypothesis is met. -/
example : ¬ Within 1 (⟨1, 1, 1⟩ : Vec3 ℝ) ⟨5, 0, 0⟩ := by
  rintro ⟨h, -⟩; norm_num [abs_of_neg] at h

/-! ### Binary files -/

private theorem body_step (τ : ℝ) (junk : Vec3 ℝ) (f32 : ℝ → ℝ) (ph : PH ℝ) (fs : List (Face ℝ)) :
    ∀ (k : ℕ) (n v0 v1 v2 : Option (Vec3 ℝ)) (s : St) (rest : List Cell),
    ∃ n' v0' v1' v2', readBody τ junk (fs.length + k) n v0 v1 v2 s (fs.flatMap (fun f => writeFacet f32 (ph.tri f)) ++ rest) =
      readBody τ junk k n' v0' v1' v2' (regAll τ junk s (written f32 ⟨ph.nv, ph.vert, fs⟩)) rest := by
  induction fs with
  | nil => intro k n v0 v1 v2 s rest; exact ⟨n, v0, v1, v2, by simp [written, regAll]⟩
  | cons f fs ih =>
    intro k n v0 v1 v2 s rest
    obtain ⟨n', a, b, c, h⟩ := ih k (some ⟨f32 f.norm.x, f32 f.norm.y, f32 f.norm.z⟩)
      (some ⟨f32 (ph.vert f.i0).x, f32 (ph.vert f.i0).y, f32 (ph.vert f.i0).z⟩)
      (some ⟨f32 (ph.vert f.i1).x, f32 (ph.vert f.i1).y, f32 (ph.vert f.i1).z⟩)
      (some ⟨f32 (ph.vert f.i2).x, f32 (ph.vert f.i2).y, f32 (ph.vert f.i2).z⟩)
      (facetReg τ junk s ⟨f32 (ph.vert f.i0).x, f32 (ph.vert f.i0).y, f32 (ph.vert f.i0).z⟩
        ⟨f32 (ph.vert f.i1).x, f32 (ph.vert f.i1).y, f32 (ph.vert f.i1).z⟩
        ⟨f32 (ph.vert f.i2).x, f32 (ph.vert f.i2).y, f32 (ph.vert f.i2).z⟩) rest
    refine ⟨n', a, b, c, ?_⟩
    have e : (f :: fs).length + k = fs.length + k + 1 := by simp; omega
    rw [e, List.flatMap_cons, List.append_assoc, readBody]
    generalize List.flatMap (fun f => writeFacet f32 (ph.tri f)) fs ++ rest = tl at h ⊢
    simp only [writeFacet, writeVec, PH.tri, List.cons_append, List.nil_append, readVec, readDummy, bind, Except.bind]
    rw [h]
    rfl

private theorem bin_read {τ : ℝ} {junk : Vec3 ℝ} (f32 : ℝ → ℝ) (ph : PH ℝ) (head : List UInt8)
    (h0 : ph.face ≠ []) (hs : ph.face.length < 2 ^ 31) :
    readBin τ junk ⟨head, ph.face.length, ph.face.flatMap fun f => writeFacet f32 (ph.tri f)⟩ =
      .ok ((toPH (regAll τ junk .init (written f32 ph))).map fun q => (q, head)) := by
  obtain ⟨n, a, b, c, h⟩ := body_step τ junk f32 ph ph.face 0 none none none none .init []
  rw [List.append_nil, Nat.add_zero] at h
  have hl : ph.face.length ≠ 0 := fun h => h0 (List.length_eq_zero_iff.1 h)
  simp only [readBin, hl, if_false, hs, if_true, h, readBody]
  have : (⟨ph.nv, ph.vert, ph.face⟩ : PH ℝ) = ph := rfl
  rw [this]
  cases toPH (regAll τ junk .init (written f32 ph)) <;> rfl

/-- **Writing a binary file and reading it back.** If 80 bytes can be read from the name, the file is recognised as
binary whatever the words in it look like, and the polyhedron is read back face by face, with the corners rounded
to `float`, exactly if those that differ do so by more than the tolerance. -/
theorem C77_binary_partial {τ : ℝ} (hτ : 0 ≤ τ) {junk : Vec3 ℝ} (f32 : ℝ → ℝ) (ph : PH ℝ) (mem : List UInt8)
    (hm : 80 ≤ mem.length) (hs : ph.face.length < 2 ^ 31) {t : Corners} {ts : List Corners}
    (hw : written f32 ph = t :: ts) (hj : ¬ Within τ t.1 junk) :
    ∃ b q, writeBin f32 ph mem = some b ∧ isBin b = true ∧ readBin τ junk b = .ok (some (q, mem.take 80)) ∧
      (∀ words, readFile τ junk b words = .ok (some q)) ∧
      Holds τ (written f32 ph) q ∧ (Spread τ (written f32 ph) → Holds 0 (written f32 ph) q) ∧
      (∀ f ∈ q.face, f.norm = (Tri3.create τ (q.vert f.i0) (q.vert f.i1) (q.vert f.i2)).2.norm) ∧
      (∀ j k, j < k → k < q.nv → q.vert j ≠ q.vert k) := by
  obtain ⟨q, h, hq, r⟩ := toPH_regAll (junk := junk) hτ (t := t) (ts := ts) hj
  have h0 : ph.face ≠ [] := by intro h; simp [written, h] at hw
  have hb := bin_read (τ := τ) (junk := junk) f32 ph (mem.take 80) h0 hs
  rw [hw, h] at hb
  have hsz : ∀ fs : List (Face ℝ), ((fs.flatMap fun f => writeFacet f32 (ph.tri f)).map Cell.size).sum = fs.length * 50 := by
    intro fs
    induction fs with
    | nil => rfl
    | cons f fs ih =>
      rw [List.flatMap_cons, List.map_append, List.sum_append, ih]
      simp only [writeFacet, writeVec, Cell.size, List.map_cons, List.map_append, List.map_nil, List.cons_append,
        List.nil_append, List.sum_cons, List.sum_nil, List.length_cons]
      ring
  have hB : isBin ⟨mem.take 80, ph.face.length, ph.face.flatMap fun f => writeFacet f32 (ph.tri f)⟩ = true := by
    simp only [isBin, Bin.size, hsz, List.length_take, min_eq_left hm, decide_eq_true_eq]
  refine ⟨_, q, if_pos hm, hB, hb, ?_, hw ▸ hq, fun ha => Holds.exact (hw ▸ hq) ha, r⟩
  intro words
  rw [readFile, if_pos hB, hb]; rfl

/-- The hypotheses are met by the tetrahedron. -/
example : ∃ (mem : List UInt8) (t : Corners) (ts : List Corners), 80 ≤ mem.length ∧ sample.face.length < 2 ^ 31 ∧
    written id sample = t :: ts ∧ ¬ Within (1/2) t.1 ⟨0, 0, 0⟩ :=
  ⟨List.replicate 80 0, _, _, by simp, by simp [sample], rfl, by rintro ⟨h, -⟩; norm_num [abs_of_pos, sample] at h⟩

/-- **Writing a binary file reads 80 bytes from the name**: with a shorter string the behaviour is undefined. -/
theorem C77_short_name_undefined (f32 : ℝ → ℝ) (ph : PH ℝ) (mem : List UInt8) :
    writeBin f32 ph mem = none ↔ mem.length < 80 := by
  unfold writeBin; split_ifs with h <;> simp <;> omega

/-- A polyhedron without a face is not read back from a binary file either. -/
theorem C77_binary_empty_null (τ : ℝ) (junk : Vec3 ℝ) (head : List UInt8) (body : List Cell) :
    readBin τ junk ⟨head, 0, body⟩ = .ok none := rfl

/-- **A truncated binary file is not rejected by the reader**: the facets that are missing are filled with the last
one read. (`zPH3DReadFileSTL` does not take such a file for a binary one.) -/
theorem C77_truncated_false {τ : ℝ} (hτ : 0 ≤ τ) {junk : Vec3 ℝ} (head : List UInt8) (m : ℕ) (hm : m + 1 < 2 ^ 31)
    (n a b c : Vec3 ℝ) (hj : ¬ Within τ a junk) :
    ∃ q, readBin τ junk ⟨head, m + 1, writeFacet id ⟨a, b, c, n⟩⟩ = .ok (some (q, head)) ∧
      Holds τ (List.replicate (m + 1) (a, b, c)) q ∧
      (0 < m → head.length = 80 → isBin ⟨head, m + 1, writeFacet id ⟨a, b, c, n⟩⟩ = false) := by
  have key : ∀ (m : ℕ) (s : St), readBody τ junk m (some n) (some a) (some b) (some c) s [] =
      .ok (regAll τ junk s (List.replicate m (a, b, c))) := by
    intro m
    induction m with
    | zero => intro s; rfl
    | succ m ih =>
      intro s
      rw [readBody]
      simp only [readVec, readDummy, bind, Except.bind]
      rw [ih]; simp [regAll, List.replicate_succ]
  obtain ⟨q, h, hq, -⟩ := toPH_regAll (junk := junk) hτ (t := (a, b, c)) (ts := List.replicate m (a, b, c)) hj
  rw [← List.replicate_succ] at h hq
  refine ⟨q, ?_, hq, ?_⟩
  · have e : readBody τ junk (m + 1) none none none none .init (writeFacet id ⟨a, b, c, n⟩) =
        .ok (regAll τ junk .init (List.replicate (m + 1) (a, b, c))) := by
      rw [readBody]
      simp only [writeFacet, writeVec, id, List.cons_append, List.nil_append, readVec, readDummy, bind, Except.bind]
      have := key m (facetReg τ junk St.init a b c)
      rw [show (⟨a.x, a.y, a.z⟩ : Vec3 ℝ) = a from rfl, show (⟨b.x, b.y, b.z⟩ : Vec3 ℝ) = b from rfl,
        show (⟨c.x, c.y, c.z⟩ : Vec3 ℝ) = c from rfl, show (⟨n.x, n.y, n.z⟩ : Vec3 ℝ) = n from rfl, this]
      simp [regAll, List.replicate_succ]
    simp only [readBin, Nat.succ_ne_zero, if_false, hm, if_true, e, h]
  · intro h0 h80
    simp only [isBin, Bin.size, writeFacet, writeVec, Cell.size, h80, List.map_cons, List.map_append, List.map_nil,
      List.cons_append, List.nil_append, List.sum_cons, List.sum_nil, decide_eq_false_iff_not]
    omega

end Zeo
