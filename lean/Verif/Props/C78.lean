import Verif.Lemmas.PLY

/-! # C78: polyhedra in the PLY format -/

namespace Zeo
open PLY Spec

/-- The lines of a header that declares vertices with columns `cs` and triangles with a list. -/
def PLY.headerOf (o : Enc) (ver : String) (notes : List (List Tok)) (n : ℕ) (cs : List Column) (m : ℕ)
    (pre : List Column) (tn te : DType) (post : List Column) : List (List Tok) :=
  [.word "format", .word (encName o), .word ver] :: (notes ++
  ([.word "element", .word "vertex", .int n] :: (cs.map columnLine ++
  ([.word "element", .word "face", .int m] :: (pre.map columnLine ++
  ([.word "property", .word "list", .word tn.name, .word te.name, .word "vertex_indices"] ::
  (post.map columnLine ++ [[.word "end_header"]])))))))

private theorem header_ok (big : Bool) (o : Enc) (ver : String) (hver : ver ≠ "") (notes : List (List Tok))
    (hnotes : ∀ l ∈ notes, (next l).1 ≠ "end_header" ∧ (next l).1 ≠ "format" ∧ (next l).1 ≠ "element" ∧
      (next l).1 ≠ "property")
    (n : ℕ) (cs : List Column) (hcs : ∀ c ∈ cs, c.1 ≠ .list) (hl : cs.length ≤ 11) (m : ℕ)
    (pre : List Column) (hpre : ∀ c ∈ pre, c.1 ≠ .list) (tn te : DType) (post : List Column)
    (hpost : ∀ c ∈ post, c.1 ≠ .list) (hl' : pre.length + post.length ≤ 10) :
    readHeader big .init (headerOf o ver notes n cs m pre tn te post) = .ok
      ⟨some (fmtOf big o), [⟨.vertex, n, cs.map Prod.fst⟩,
        ⟨.face, m, pre.map Prod.fst ++ (.list :: post.map Prod.fst)⟩],
        colIdx "x" 0 0 cs, colIdx "y" 0 0 cs, colIdx "z" 0 0 cs, some tn, some te⟩ := by
  have hf : readFormat big .init [.word (encName o), .word ver] = .ok { Ply.init with format := some (fmtOf big o) } := by
    unfold readFormat
    cases o with
    | none => simp [encName, next, fmtOf, hver]
    | some b => cases b <;> cases big <;> simp [encName, next, fmtOf, hver]
  unfold headerOf
  rw [readHeader]
  simp only [next, String.reduceEq, if_false, if_true, hf]
  rw [readHeader_notes big notes _ _ hnotes, readHeader]
  have he : readElement { Ply.init with format := some (fmtOf big o) } [.word "vertex", .int n] =
      .ok { Ply.init with format := some (fmtOf big o), elem := [⟨.vertex, n, []⟩] } := by
    simp [readElement, Ply.init, next, EType.find, EType.name]
  simp only [next, String.reduceEq, if_false, if_true, he]
  rw [readHeader_columns big cs _ [] ⟨.vertex, n, []⟩ _ rfl (by simp) (by simpa using hl) hcs,
    readHeader]
  have he2 : ∀ p : Ply, p.elem.length = 1 → readElement p [.word "face", .int m] =
      .ok { p with elem := p.elem ++ [⟨.face, m, []⟩] } := by
    intro p hp
    simp [readElement, hp, next, EType.find, EType.name]
  simp only [next, String.reduceEq, if_false, if_true]
  rw [he2 _ (by simp)]
  dsimp only
  rw [readHeader_columns big pre _ [⟨.vertex, n, cs.map Prod.fst⟩] ⟨.face, m, []⟩ _ (by simp) (by simp)
    (by simp only [List.length_nil]; omega) hpre, readHeader]
  have hn : ¬ 12 ≤ pre.length + 1 := by omega
  have hp : ∀ p : Ply, p.format = some (fmtOf big o) →
      p.elem = [⟨.vertex, n, cs.map Prod.fst⟩] ++ [⟨.face, m, pre.map Prod.fst⟩] →
      readProperty p [.word "list", .word tn.name, .word te.name, .word "vertex_indices"] = .ok { p with
        listNum := some tn, listElem := some te,
        elem := [⟨.vertex, n, cs.map Prod.fst⟩] ++ [⟨.face, m, pre.map Prod.fst ++ [.list]⟩] } := by
    intro p h1 h2
    have h3 : DType.find "list" = some .list := find_name .list
    unfold readProperty
    rw [h2]
    simp only [List.getLast?_append, List.getLast?_singleton, Option.some_or, List.dropLast_concat, h1, next, h3,
      find_name]
    simp only [reduceCtorEq, if_false, if_true, addPrp, List.length_map, if_neg hn]
  simp only [next, String.reduceEq, if_false, if_true]
  rw [hp _ rfl (by simp)]
  dsimp only
  rw [readHeader_columns big post _ [⟨.vertex, n, cs.map Prod.fst⟩] ⟨.face, m, pre.map Prod.fst ++ [.list]⟩ _ rfl
    (by simp) (by simp only [List.length_append, List.length_map, List.length_cons, List.length_nil]; omega) hpost,
    readHeader]
  simp [next, Ply.init, List.append_assoc]

/-- Reading a file of vertices and triangles: in the text and in both binary encodings, on machines of either byte
order, with any columns beside the coordinates, in any order, of any scalar types, and with comments in the header,
the polyhedron has the vertices of the columns `x`, `y` and `z` and the triangles of the lists.  Partial: every
list has three members; see `C78_polygon_false` for more. -/
theorem C78_read_partial (τ : ℝ) (big : Bool) (o : Enc) (ver : String) (hver : ver ≠ "") (notes : List (List Tok))
    (hnotes : ∀ l ∈ notes, (next l).1 ≠ "end_header" ∧ (next l).1 ≠ "format" ∧ (next l).1 ≠ "element" ∧
      (next l).1 ≠ "property")
    (cs : List Column) (hcs : ∀ c ∈ cs, c.1 ≠ .list) (hl : cs.length ≤ 11) (hnames : (cs.map Prod.snd).Nodup)
    (pre post : List Column) (hpre : ∀ c ∈ pre, c.1 ≠ .list) (hpost : ∀ c ∈ post, c.1 ≠ .list)
    (hl' : pre.length + post.length ≤ 10) (tn te : DType)
    (rows : List Row) (hrows : ∀ r ∈ rows, RowOf o cs r)
    (tris : List TriRow) (htris : ∀ t ∈ tris, t.Good o tn te pre post rows.length) (rest : List Val) :
    ∃ q : PH ℝ, read τ big ⟨true, headerOf o ver notes rows.length cs tris.length pre tn te post,
        (rows.flatMap fun r => r.map Prod.fst) ++ (tris.flatMap TriRow.vals ++ rest)⟩ = .ok q ∧
      q.nv = rows.length ∧
      (∀ (i : ℕ) (r : Row), rows[i]? = some r → ∀ x : ℝ,
        (InColumn cs "x" r x → (q.vert i).x = x) ∧ (InColumn cs "y" r x → (q.vert i).y = x) ∧
        (InColumn cs "z" r x → (q.vert i).z = x)) ∧
      q.face = tris.map fun t =>
        ⟨t.i0, t.i1, t.i2, (Tri3.create τ (q.vert t.i0) (q.vert t.i1) (q.vert t.i2)).2.norm⟩ := by
  have hh := header_ok big o ver hver notes hnotes rows.length cs hcs hl tris.length pre hpre tn te post hpost hl'
  obtain ⟨vs, hvs, hlen, hi⟩ := readVerts_rows big o ⟨some (fmtOf big o), [⟨.vertex, rows.length, cs.map Prod.fst⟩,
        ⟨.face, tris.length, pre.map Prod.fst ++ (.list :: post.map Prod.fst)⟩],
        colIdx "x" 0 0 cs, colIdx "y" 0 0 cs, colIdx "z" 0 0 cs, some tn, some te⟩
        (tris.flatMap TriRow.vals ++ rest) cs rows hrows
  have hfs := readFaces_tris big o ⟨some (fmtOf big o), [⟨.vertex, rows.length, cs.map Prod.fst⟩,
        ⟨.face, tris.length, pre.map Prod.fst ++ (.list :: post.map Prod.fst)⟩],
        colIdx "x" 0 0 cs, colIdx "y" 0 0 cs, colIdx "z" 0 0 cs, some tn, some te⟩ tn te pre post rows.length rfl rfl
        tris rest htris
  have hfaces : ∀ ph : PH ℝ, ph.nv = rows.length → mkFaces τ ph (tris.map fun r =>
      ((r.i0 : ℤ), (r.i1 : ℤ), (r.i2 : ℤ))) = .ok (tris.map fun r => ⟨r.i0, r.i1, r.i2,
        (Tri3.create τ (ph.vert r.i0) (ph.vert r.i1) (ph.vert r.i2)).2.norm⟩) := by
    intro ph hnv
    apply mkFaces_tris
    intro t ht
    rw [hnv]
    exact ⟨(htris t ht).l0, (htris t ht).l1, (htris t ht).l2⟩
  refine ⟨⟨vs.length, fun i => vs.getD i .zero, tris.map fun t => ⟨t.i0, t.i1, t.i2,
    (Tri3.create τ (vs.getD t.i0 .zero) (vs.getD t.i1 .zero) (vs.getD t.i2 .zero)).2.norm⟩⟩, ?_, hlen, ?_, rfl⟩
  · unfold PLY.read
    simp only [if_true, hh, Option.getD_some, readData, readElem, Int.toNat_natCast, hvs, hfs]
    by_cases hz : vs = []
    · have h0 : rows.length = 0 := by rw [← hlen, hz]; rfl
      have ht : tris = [] := by
        rcases tris with _ | ⟨t, ts⟩
        · rfl
        · have := (htris t (by simp)).l0
          omega
      subst ht
      simp only [if_pos hz, List.map_nil, mkFaces, if_true]
      rw [hz]
      rfl
    · simp only [if_neg hz, hfs]
      rw [hfaces _ (by simpa using hlen)]
      dsimp only
      rcases tris with _ | ⟨t, ts⟩
      · simp
      · simp
  · intro i r hr x
    have hlt : i < vs.length := by
      rw [hlen]
      exact (List.getElem?_eq_some_iff.1 hr).1
    have hw : vs[i]? = some (vs.getD i .zero) := by simp [List.getD, hlt]
    obtain ⟨h1, h2, h3⟩ := hi i r _ hr hw
    refine ⟨?_, ?_, ?_⟩ <;> rintro ⟨a, t, v, ha, hv⟩
    · exact h1 (v, x) (by simp only; rw [colIdx_eq "x" cs 0 0 a t hnames ha, Nat.zero_add]; exact hv)
    · exact h2 (v, x) (by simp only; rw [colIdx_eq "y" cs 0 0 a t hnames ha, Nat.zero_add]; exact hv)
    · exact h3 (v, x) (by simp only; rw [colIdx_eq "z" cs 0 0 a t hnames ha, Nat.zero_add]; exact hv)

private theorem header_eq (ph : PH ℝ) (o : Enc) : PLY.header ph (encName o) =
    headerOf o "1.0" [] ph.nv [(.float, "x"), (.float, "y"), (.float, "z")] ph.face.length [] .uchar .int [] := by
  simp [PLY.header, headerOf, columnLine, DType.name]

private theorem round (τ : ℝ) (big : Bool) (o : Enc) (ph : PH ℝ) (g : ℝ → ℝ) (V : ℝ → Val) (N : Val) (I : ℕ → Val)
    (hV : ∀ x, Stores o .float (V x) (g x)) (hN : StoresNat o .uchar N 3)
    (hI : ∀ i < ph.nv, StoresNat o .int (I i) i)
    (hph : ∀ f ∈ ph.face, f.i0 < ph.nv ∧ f.i1 < ph.nv ∧ f.i2 < ph.nv) :
    ∃ q : PH ℝ, read τ big ⟨true, PLY.header ph (encName o),
        (List.range ph.nv).flatMap (fun i => [V (ph.vert i).x, V (ph.vert i).y, V (ph.vert i).z]) ++
        ph.face.flatMap fun f => [N, I f.i0, I f.i1, I f.i2]⟩ = .ok q ∧
      q.nv = ph.nv ∧ (∀ i < ph.nv, q.vert i = ⟨g (ph.vert i).x, g (ph.vert i).y, g (ph.vert i).z⟩) ∧
      q.face = ph.face.map fun f =>
        ⟨f.i0, f.i1, f.i2, (Tri3.create τ (q.vert f.i0) (q.vert f.i1) (q.vert f.i2)).2.norm⟩ := by
  let row : ℕ → Row := fun i => [(V (ph.vert i).x, g (ph.vert i).x), (V (ph.vert i).y, g (ph.vert i).y),
    (V (ph.vert i).z, g (ph.vert i).z)]
  let tri : Face ℝ → TriRow := fun f => ⟨[], N, I f.i0, I f.i1, I f.i2, [], f.i0, f.i1, f.i2⟩
  obtain ⟨q, hq, hn, hv, hf⟩ := C78_read_partial τ big o "1.0" (by simp) [] (by simp)
    [(.float, "x"), (.float, "y"), (.float, "z")] (by simp) (by simp) (by simp) [] [] (by simp) (by simp) (by simp)
    .uchar .int ((List.range ph.nv).map row)
    (by
      intro r hr
      obtain ⟨i, _, rfl⟩ := List.mem_map.1 hr
      exact .cons (hV _) (.cons (hV _) (.cons (hV _) .nil)))
    (ph.face.map tri)
    (by
      intro t ht
      obtain ⟨f, hf, rfl⟩ := List.mem_map.1 ht
      obtain ⟨h0, h1, h2⟩ := hph f hf
      simp only [List.length_map, List.length_range]
      exact ⟨.nil, .nil, hN, hI _ h0, hI _ h1, hI _ h2, h0, h1, h2⟩) []
  simp only [List.length_map, List.length_range] at hq hn
  refine ⟨q, ?_, hn, ?_, ?_⟩
  · rw [header_eq, ← hq]
    congr 1
    simp only [List.flatMap_map, List.append_nil, row, tri, TriRow.vals, List.map_cons, List.map_nil, List.nil_append,
      File.mk.injEq, true_and]
  · intro i hi
    have hr : ((List.range ph.nv).map row)[i]? = some (row i) := by simp [hi]
    ext
    · exact (hv i _ hr _).1 ⟨0, .float, _, rfl, rfl⟩
    · exact (hv i _ hr _).2.1 ⟨1, .float, _, rfl, rfl⟩
    · exact (hv i _ hr _).2.2 ⟨2, .float, _, rfl, rfl⟩
  · rw [hf, List.map_map]
    rfl

/-- A polyhedron written as text and read again has the same vertices, up to the printing of numbers, and the same
faces, with normals computed anew. -/
theorem C78_write_read (τ : ℝ) (fmt : ℝ → ℝ) (big : Bool) (ph : PH ℝ)
    (hph : ∀ f ∈ ph.face, f.i0 < ph.nv ∧ f.i1 < ph.nv ∧ f.i2 < ph.nv) :
    ∃ q : PH ℝ, read τ big (writeASCII fmt ph) = .ok q ∧
      q.nv = ph.nv ∧ (∀ i < ph.nv, q.vert i = ⟨fmt (ph.vert i).x, fmt (ph.vert i).y, fmt (ph.vert i).z⟩) ∧
      q.face = ph.face.map fun f =>
        ⟨f.i0, f.i1, f.i2, (Tri3.create τ (q.vert f.i0) (q.vert f.i1) (q.vert f.i2)).2.norm⟩ :=
  round τ big none ph fmt (fun x => .num (fmt x)) (.int 3) (fun i => .int i) (fun x => .text _ _ (.inl rfl))
    (.text _ 3 (by simp)) (fun i _ => .text _ i (by simp)) hph

/-- A polyhedron written in binary on a machine of one byte order and read on a machine of the same or of the other
byte order has the same vertices, up to the precision of `float`, and the same faces.  The indices fit in `int`. -/
theorem C78_write_read_binary (τ : ℝ) (f32 : ℝ → ℝ) (b big : Bool) (ph : PH ℝ) (hn : ph.nv ≤ 2 ^ 31)
    (hph : ∀ f ∈ ph.face, f.i0 < ph.nv ∧ f.i1 < ph.nv ∧ f.i2 < ph.nv) :
    ∃ q : PH ℝ, read τ big (writeBin f32 b ph) = .ok q ∧
      q.nv = ph.nv ∧ (∀ i < ph.nv, q.vert i = ⟨f32 (ph.vert i).x, f32 (ph.vert i).y, f32 (ph.vert i).z⟩) ∧
      q.face = ph.face.map fun f =>
        ⟨f.i0, f.i1, f.i2, (Tri3.create τ (q.vert f.i0) (q.vert f.i1) (q.vert f.i2)).2.norm⟩ := by
  have h := round τ big (some b) ph f32 (fun x => .cell b (.float (f32 x))) (.cell b (.byte 3))
    (fun i => .cell b (.dword i)) (fun x => .float b _) (.byte b b _ 3 (.inr rfl))
    (fun i hi => .dword b _ i (.inl rfl) (by omega)) hph
  cases b <;> exact h

/-- A tetrahedron with its four faces. -/
def PLY.sample : PH ℝ :=
  ⟨4, fun i => if i = 1 then ⟨1, 0, 0⟩ else if i = 2 then ⟨0, 1, 0⟩ else if i = 3 then ⟨0, 0, 1⟩ else ⟨0, 0, 0⟩,
    [⟨0, 2, 1, ⟨0, 0, -1⟩⟩, ⟨0, 1, 3, ⟨0, -1, 0⟩⟩, ⟨0, 3, 2, ⟨-1, 0, 0⟩⟩, ⟨1, 2, 3, ⟨1, 1, 1⟩⟩]⟩

/-- The hypotheses of the round trips hold for a tetrahedron, written on a big-endian machine and read on a
little-endian one. -/
example (τ : ℝ) : ∃ q : PH ℝ, read τ false (writeBin id true PLY.sample) = .ok q ∧ q.nv = 4 ∧ q.face.length = 4 ∧
    q.vert 3 = ⟨0, 0, 1⟩ := by
  obtain ⟨q, h1, h2, h3, h4⟩ := C78_write_read_binary τ id true false PLY.sample (by norm_num [PLY.sample])
    (by simp [PLY.sample])
  exact ⟨q, h1, h2, by rw [h4]; simp [PLY.sample], by rw [h3 3 (by norm_num [PLY.sample])]; simp [PLY.sample]⟩

/-- The hypotheses of reading hold for a file with a colour before the coordinates, which come in another order, and
with a mark after the list. -/
example (τ : ℝ) : ∃ q : PH ℝ, read τ true
    ⟨true, headerOf none "1.0" [[.word "comment", .word "made", .word "by", .word "hand"]] 3
      [(.uchar, "red"), (.float, "z"), (.double, "x"), (.float, "y")] 1 [] .uchar .int [(.int, "mark")],
      [.int 255, .num 0.5, .num 1, .num 2, .int 0, .num 0, .num 0, .num 3, .int 7, .num 0, .num 4, .num 0,
       .int 3, .int 0, .int 1, .int 2, .int 9]⟩ = .ok q ∧ q.nv = 3 ∧ q.vert 0 = ⟨1, 2, 0.5⟩ ∧ q.face.length = 1 := by
  obtain ⟨q, hq, hn, hv, hf⟩ := C78_read_partial τ true none "1.0" (by simp)
    [[.word "comment", .word "made", .word "by", .word "hand"]] (by simp [next])
    [(.uchar, "red"), (.float, "z"), (.double, "x"), (.float, "y")] (by simp) (by simp) (by simp) [] [(.int, "mark")]
    (by simp) (by simp) (by simp) .uchar .int
    [[(.int 255, ((255 : ℤ) : ℝ)), (.num 0.5, 0.5), (.num 1, 1), (.num 2, 2)],
     [(.int 0, ((0 : ℤ) : ℝ)), (.num 0, 0), (.num 0, 0), (.num 3, 3)],
     [(.int 7, ((7 : ℤ) : ℝ)), (.num 0, 0), (.num 4, 4), (.num 0, 0)]]
    (by
      intro r hr
      simp only [List.mem_cons, List.not_mem_nil, or_false] at hr
      rcases hr with rfl | rfl | rfl <;>
      exact .cons (.textInt _ _ (by simp)) (.cons (.text _ _ (by simp)) (.cons (.text _ _ (by simp))
        (.cons (.text _ _ (by simp)) .nil))))
    [⟨[], .int 3, .int 0, .int 1, .int 2, [(.int 9, ((9 : ℤ) : ℝ))], 0, 1, 2⟩]
    (by
      intro t ht
      simp only [List.mem_cons, List.not_mem_nil, or_false] at ht
      subst ht
      exact ⟨.nil, .cons (.textInt _ _ (by simp)) .nil, .text _ 3 (by simp), .text _ 0 (by simp), .text _ 1 (by simp),
        .text _ 2 (by simp), by simp, by simp, by simp⟩) []
  refine ⟨q, hq, hn, ?_, by rw [hf]; rfl⟩
  have h0 := hv 0 _ rfl
  ext
  · exact (h0 1).1 ⟨2, .double, _, rfl, rfl⟩
  · exact (h0 2).2.1 ⟨3, .float, _, rfl, rfl⟩
  · exact (h0 0.5).2.2 ⟨1, .float, _, rfl, rfl⟩

/-- A unit square, given as one list of four vertices. -/
def PLY.square : File :=
  ⟨true, headerOf none "1.0" [] 4 [(.float, "x"), (.float, "y"), (.float, "z")] 1 [] .uchar .int [],
    [.num 0, .num 0, .num 0, .num 1, .num 0, .num 0, .num 1, .num 1, .num 0, .num 0, .num 1, .num 0,
     .int 4, .int 0, .int 1, .int 2, .int 3]⟩

private theorem square_read (τ : ℝ) (big : Bool) : ∃ (n1 n2 : Vec3 ℝ) (q : PH ℝ), read τ big PLY.square = .ok q ∧
    q.nv = 4 ∧ q.vert 0 = ⟨0, 0, 0⟩ ∧ q.vert 1 = ⟨1, 0, 0⟩ ∧ q.vert 2 = ⟨1, 1, 0⟩ ∧ q.vert 3 = ⟨0, 1, 0⟩ ∧
    q.face = [⟨0, 1, 2, n1⟩, ⟨0, 1, 3, n2⟩] := by
  have hh := header_ok big none "1.0" (by simp) [] (by simp) 4 [(.float, "x"), (.float, "y"), (.float, "z")] (by simp)
    (by simp) 1 [] (by simp) .uchar .int [] (by simp) (by simp)
  refine ⟨(Tri3.create τ ⟨0, 0, 0⟩ ⟨1, 0, 0⟩ ⟨1, 1, 0⟩).2.norm, (Tri3.create τ ⟨0, 0, 0⟩ ⟨1, 0, 0⟩ ⟨0, 1, 0⟩).2.norm,
    ⟨4, fun i => [(⟨0, 0, 0⟩ : Vec3 ℝ), ⟨1, 0, 0⟩, ⟨1, 1, 0⟩, ⟨0, 1, 0⟩].getD i .zero, _⟩, ?_, rfl, rfl, rfl, rfl, rfl,
    rfl⟩
  unfold PLY.read PLY.square
  simp only [if_true, hh]
  simp [readData, readElem, readVerts, readVertPrp, readDouble, fmtOf, DType.isReal, setVert, colIdx, readFaces,
    readFacePrp, readList, readInt, readInts, fan, mkFaces, mkFace, Vec3.zero]

/-- A face with four vertices is not covered by the triangles made of it: the unit square is read as the triangles
`0 1 2` and `0 1 3`, which overlap, and the point (1/2, 3/4) of the square is in neither. -/
theorem C78_polygon_false (τ : ℝ) (big : Bool) : ∃ q : PH ℝ, read τ big PLY.square = .ok q ∧ q.nv = 4 ∧
    (⟨1/2, 3/4, 0⟩ : Vec3 ℝ) = ((((q.vert 0).mul (1/8)).add ((q.vert 1).mul (1/8))).add
      ((q.vert 2).mul (3/8))).add ((q.vert 3).mul (3/8)) ∧
    ∀ f ∈ q.face, ∀ a b c : ℝ, 0 ≤ a → 0 ≤ b → 0 ≤ c → a + b + c = 1 →
      (((q.vert f.i0).mul a).add ((q.vert f.i1).mul b)).add ((q.vert f.i2).mul c) ≠ ⟨1/2, 3/4, 0⟩ := by
  obtain ⟨n1, n2, q, hq, hn, h0, h1, h2, h3, hf⟩ := square_read τ big
  refine ⟨q, hq, hn, ?_, ?_⟩
  · rw [h0, h1, h2, h3]
    ext <;> simp [Vec3.mul, Vec3.add] <;> norm_num
  · intro f hm a b c ha hb hc hs he
    rw [hf] at hm
    simp only [List.mem_cons, List.not_mem_nil, or_false] at hm
    rcases hm with rfl | rfl
    · simp only [h0, h1, h2, Vec3.mul, Vec3.add, Vec3.mk.injEq] at he
      linarith [he.1, he.2.1]
    · simp only [h0, h1, h3, Vec3.mul, Vec3.add, Vec3.mk.injEq] at he
      linarith [he.1, he.2.1]

/-- Every triangle made of a list of vertices has the first and the second of them as corners, so that a polygon with
more than three vertices is never triangulated. -/
theorem C78_fan (v0 v1 : ℤ) (r : List ℤ) (t : ℤ × ℤ × ℤ) :
    t ∈ fan (v0 :: v1 :: r) ↔ t.1 = v0 ∧ t.2.1 = v1 ∧ t.2.2 ∈ r := by
  obtain ⟨a, b, c⟩ := t
  simp only [fan, List.mem_map, Prod.mk.injEq]
  constructor
  · rintro ⟨x, hx, rfl, rfl, rfl⟩
    exact ⟨rfl, rfl, hx⟩
  · rintro ⟨rfl, rfl, h⟩
    exact ⟨c, h, rfl, rfl, rfl⟩

example : (5, 6, 8) ∈ fan [5, 6, 7, 8] := by simp [fan]

/-- A file whose vertices have no column `z` is not rejected, nor is `z` zero: it is the first column. -/
theorem C78_no_z_false (τ : ℝ) (big : Bool) (x y : ℝ) : ∃ q : PH ℝ, read τ big
    ⟨true, headerOf none "1.0" [] 1 [(.float, "x"), (.float, "y")] 0 [] .uchar .int [], [.num x, .num y]⟩ = .ok q ∧
    q.vert 0 = ⟨x, y, x⟩ := by
  have hh := header_ok big none "1.0" (by simp) [] (by simp) 1 [(.float, "x"), (.float, "y")] (by simp)
    (by simp) 0 [] (by simp) .uchar .int [] (by simp) (by simp)
  refine ⟨⟨1, fun i => [(⟨x, y, x⟩ : Vec3 ℝ)].getD i .zero, []⟩, ?_, rfl⟩
  unfold PLY.read
  simp only [if_true, hh]
  simp [readData, readElem, readVerts, readVertPrp, readDouble, fmtOf, DType.isReal, setVert, colIdx, readFaces,
    mkFaces]

/-- The element of a range grid is skipped in a text, but in a binary file its indices are read with the type of
their count, and what follows is misread. -/
theorem C78_range_grid_false (τ : ℝ) (b : Bool) :
    read τ b ⟨true, [[.word "format", .word (encName (some b)), .word "1.0"],
      [.word "element", .word "range_grid", .int 1],
      [.word "property", .word "list", .word "uchar", .word "int", .word "vertex_indices"], [.word "end_header"]],
      [.cell b (.byte 1), .cell b (.dword 0)]⟩ = .error .misread ∧
    (∃ q, read τ b ⟨true, [[.word "format", .word (encName none), .word "1.0"],
      [.word "element", .word "range_grid", .int 1],
      [.word "property", .word "list", .word "uchar", .word "int", .word "vertex_indices"], [.word "end_header"]],
      [.int 1, .int 0]⟩ = .ok q) := by
  constructor
  · cases b <;>
    simp [PLY.read, encName, readHeader, next, readFormat, readElement, readProperty, Ply.init, EType.find, EType.name,
      DType.find, DType.name, addPrp, readData, readElem, readGrid, readGridPrp, readList, readInt, readInts,
      orderOK, cellInt]
  · refine ⟨⟨0, fun _ => .zero, []⟩, ?_⟩
    simp [PLY.read, encName, readHeader, next, readFormat, readElement, readProperty, Ply.init, EType.find, EType.name,
      DType.find, DType.name, addPrp, readData, readElem, readGrid, readGridPrp, readList, readInt, readInts]

/-- An index of a triangle outside the vertices is not rejected. -/
theorem C78_index_undefined (τ : ℝ) (big : Bool) (n : ℤ) (h : n < 0 ∨ 3 ≤ n) : read τ big
    ⟨true, headerOf none "1.0" [] 3 [(.float, "x"), (.float, "y"), (.float, "z")] 1 [] .uchar .int [],
      [.num 0, .num 0, .num 0, .num 1, .num 0, .num 0, .num 1, .num 1, .num 0, .int 3, .int 0, .int 1, .int n]⟩ =
      .error .undef := by
  have hh := header_ok big none "1.0" (by simp) [] (by simp) 3 [(.float, "x"), (.float, "y"), (.float, "z")] (by simp)
    (by simp) 1 [] (by simp) .uchar .int [] (by simp) (by simp)
  have hx : 0 ≤ n → ¬ n < 3 := by omega
  unfold PLY.read
  simp only [if_true, hh]
  simp [readData, readElem, readVerts, readVertPrp, readDouble, fmtOf, DType.isReal, setVert, colIdx, readFaces,
    readFacePrp, readList, readInt, readInts, fan, mkFaces, mkFace, Vec3.zero]
  rw [if_neg (by omega)]

example (τ : ℝ) : read τ false
    ⟨true, headerOf none "1.0" [] 3 [(.float, "x"), (.float, "y"), (.float, "z")] 1 [] .uchar .int [],
      [.num 0, .num 0, .num 0, .num 1, .num 0, .num 0, .num 1, .num 1, .num 0, .int 3, .int 0, .int 1, .int (-1)]⟩ =
      .error .undef := C78_index_undefined τ false (-1) (by norm_num)

/-- The faces must follow the vertices: with the element of the faces first, the vertices do not exist yet. -/
theorem C78_faces_first_undefined (τ : ℝ) (big : Bool) : read τ big
    ⟨true, [[.word "format", .word "ascii", .word "1.0"], [.word "element", .word "face", .int 1],
      [.word "property", .word "list", .word "uchar", .word "int", .word "vertex_indices"],
      [.word "element", .word "vertex", .int 3], [.word "property", .word "float", .word "x"],
      [.word "property", .word "float", .word "y"], [.word "property", .word "float", .word "z"],
      [.word "end_header"]],
      [.int 3, .int 0, .int 1, .int 2, .num 0, .num 0, .num 0, .num 1, .num 0, .num 0, .num 1, .num 1, .num 0]⟩ =
      .error .undef := by
  simp [PLY.read, readHeader, next, readFormat, readElement, readProperty, Ply.init, EType.find, EType.name,
    DType.find, DType.name, addPrp, readData, readElem, readFaces, readFacePrp, readList, readInt, readInts, fan,
    mkFaces, mkFace]

/-- A property before any element writes before the array of elements; a property before the format compares with
strings that were never set. -/
theorem C78_property_first_undefined (τ : ℝ) (big : Bool) (l : List Tok) (ls : List (List Tok)) (d : List Val) (n : ℤ) :
    read τ big ⟨true, (.word "property" :: l) :: ls, d⟩ = .error .undef ∧
    read τ big ⟨true, [.word "element", .word "vertex", .int n] :: (.word "property" :: l) :: ls, d⟩ =
      .error .undef := by
  constructor <;>
  simp [PLY.read, readHeader, next, readElement, readProperty, Ply.init, EType.find, EType.name]

private theorem next_word (w : String) (r : List Tok) : next (.word w :: r) = (w, r) := rfl

/-- NULL is returned for a file that does not begin with `ply`, for a header without end, without a known encoding,
with an unknown element or with an unknown type. -/
theorem C78_null (τ : ℝ) (big : Bool) (x : File) :
    (x.magic = false → read τ big x = .error .null) ∧
    (x.header = [] → read τ big x = .error .null) ∧
    (∀ l ls, x.header = (.word "format" :: l) :: ls → (∀ o, (next l).1 ≠ encName o) → read τ big x = .error .null) ∧
    (∀ l ls, x.header = (.word "element" :: l) :: ls → (∀ t : EType, (next l).1 ≠ t.name) →
      read τ big x = .error .null) ∧
    (∀ o n l ls, x.header = [.word "format", .word (encName o), .word "1.0"] ::
      [.word "element", .word "vertex", .int n] :: (.word "property" :: l) :: ls → (∀ t : DType, (next l).1 ≠ t.name) →
      read τ big x = .error .null) := by
  refine ⟨?_, ?_, ?_, ?_, ?_⟩
  · intro h
    simp [PLY.read, h]
  · intro h
    cases hm : x.magic <;> simp [PLY.read, hm, h, readHeader]
  · intro l ls h ho
    have h1 := ho none
    have h2 := ho (some true)
    have h3 := ho (some false)
    simp only [encName] at h1 h2 h3
    cases hm : x.magic <;> simp [PLY.read, hm, h, readHeader, next_word, readFormat, h1, h2, h3]
  · intro l ls h ht
    have hf : EType.find (next l).1 = none := by
      rw [EType.find, List.find?_eq_none]
      intro t _
      simpa [eq_comm] using ht t
    cases hm : x.magic <;> simp [PLY.read, hm, h, readHeader, next_word, readElement, Ply.init, hf]
  · intro o n l ls h ht
    have hf : DType.find (next l).1 = none := by
      rw [DType.find, List.find?_eq_none]
      intro t _
      simpa [eq_comm] using ht t
    cases hm : x.magic
    · simp [PLY.read, hm]
    · rcases o with _ | b
      · simp [PLY.read, hm, h, readHeader, next_word, readFormat, encName, readElement, readProperty, Ply.init, EType.find,
          EType.name, hf]
      · cases b <;> simp [PLY.read, hm, h, readHeader, next_word, readFormat, encName, readElement, readProperty, Ply.init,
          EType.find, EType.name, hf]

example (τ : ℝ) : read τ false ⟨true, [[.word "format", .word (encName none), .word "1.0"],
    [.word "element", .word "vertex", .int 8], [.word "property", .word "float32", .word "x"]], []⟩ = .error .null :=
  (C78_null τ false _).2.2.2.2 none 8 [.word "float32", .word "x"] [] rfl (by intro t; cases t <;> simp [next, DType.name])

/-- A list with the other usual name of the indices is refused. -/
theorem C78_vertex_index_null (τ : ℝ) (big : Bool) (o : Enc) (n : ℤ) (tn te : DType) (name : String)
    (h : name ≠ "vertex_indices") (ls : List (List Tok)) (d : List Val) :
    read τ big ⟨true, [.word "format", .word (encName o), .word "1.0"] ::
      [.word "element", .word "face", .int n] ::
      [.word "property", .word "list", .word tn.name, .word te.name, .word name] :: ls, d⟩ = .error .null := by
  have h3 : DType.find "list" = some .list := find_name .list
  rcases o with _ | b
  · simp [PLY.read, readHeader, next, readFormat, encName, readElement, readProperty, Ply.init, EType.find,
      EType.name, h3, h]
  · cases b <;> simp [PLY.read, readHeader, next, readFormat, encName, readElement, readProperty, Ply.init,
      EType.find, EType.name, h3, h]

example : "vertex_index" ≠ "vertex_indices" := by simp

/-- **C78** (`corners`): each of the three corners counts: a triangle with one corner outside of the vertices is not read. -/
theorem C78_corners_undefined (τ : ℝ) (big : Bool) (i j k : ℤ) (h : ¬ ((0 ≤ i ∧ i < 3) ∧ (0 ≤ j ∧ j < 3) ∧ 0 ≤ k ∧ k < 3)) : read τ big
    ⟨true, headerOf none "1.0" [] 3 [(.float, "x"), (.float, "y"), (.float, "z")] 1 [] .uchar .int [],
      [.num 0, .num 0, .num 0, .num 1, .num 0, .num 0, .num 1, .num 1, .num 0, .int 3, .int i, .int j, .int k]⟩ =
      .error .undef := by
  have hh := header_ok big none "1.0" (by simp) [] (by simp) 3 [(.float, "x"), (.float, "y"), (.float, "z")] (by simp)
    (by simp) 1 [] (by simp) .uchar .int [] (by simp) (by simp)
  unfold PLY.read
  simp only [if_true, hh]
  simp [readData, readElem, readVerts, readVertPrp, readDouble, fmtOf, DType.isReal, setVert, colIdx, readFaces,
    readFacePrp, readList, readInt, readInts, fan, mkFaces, mkFace, Vec3.zero]
  rw [if_neg (by omega)]

example : ¬ ((0 ≤ (3 : ℤ) ∧ (3 : ℤ) < 3) ∧ (0 ≤ (1 : ℤ) ∧ (1 : ℤ) < 3) ∧ 0 ≤ (2 : ℤ) ∧ (2 : ℤ) < 3) := by norm_num

/-- **C78** (`elements`): up to five elements of any kinds are accepted, more are refused. -/
theorem C78_elements (τ : ℝ) (big : Bool) (ts : List EType) (d : List Val) :
    (ts.length ≤ 5 → ∃ q, read τ big ⟨true, ts.map (fun t => [.word "element", .word t.name, .int 0]) ++ [[.word "end_header"]], d⟩ = .ok q) ∧
    (5 < ts.length → read τ big ⟨true, ts.map (fun t => [.word "element", .word t.name, .int 0]) ++ [[.word "end_header"]], d⟩ = .error .null) := by
  have step : ∀ (p : Ply) (t : EType) (ls : List (List Tok)), readHeader big p ([.word "element", .word t.name, .int 0] :: ls) =
      if 5 ≤ p.elem.length then .error .null else readHeader big { p with elem := p.elem ++ [⟨t, 0, []⟩] } ls := by
    intro p t ls
    have hf : EType.find t.name = some t := by cases t <;> simp [EType.find, EType.name]
    rw [readHeader, if_neg (by simp [next]), if_neg (by simp [next]), if_pos (by simp [next])]
    simp only [next, readElement, hf]
    split_ifs <;> rfl
  have head : ∀ (ts : List EType) (p : Ply), readHeader big p (ts.map (fun t => [.word "element", .word t.name, .int 0]) ++ [[.word "end_header"]]) =
      if p.elem.length + ts.length ≤ 5 ∨ ts = [] then .ok { p with elem := p.elem ++ ts.map fun t => ⟨t, 0, []⟩ } else .error .null := by
    intro ts
    induction ts with
    | nil => intro p; simp [readHeader, next]
    | cons t ts ih =>
      intro p
      rw [List.map_cons, List.cons_append, step]
      by_cases h : 5 ≤ p.elem.length
      · rw [if_pos h, if_neg (by simp; omega)]
      · rw [if_neg h, ih]
        by_cases h2 : p.elem.length + (t :: ts).length ≤ 5
        · rw [if_pos (.inl (by simp at h2 ⊢; omega)), if_pos (.inl h2)]
          simp
        · by_cases h3 : ts = []
          · subst h3; simp at h2; omega
          · rw [if_neg (by simp [h3] at h2 ⊢; omega), if_neg (by simp at h2 ⊢; omega)]
  have data : ∀ (es : List EType) (p : Ply) (f : Format) (ph : PH ℝ), ∃ q, readData τ big p f (es.map fun t => ⟨t, 0, []⟩) ph d = .ok q := by
    intro es
    induction es with
    | nil => intro p f ph; exact ⟨ph, rfl⟩
    | cons t es ih =>
      intro p f ph
      have : readElem τ big p f ph d ⟨t, 0, []⟩ = .ok (ph, d) := by
        cases t <;> simp [readElem, readVerts, readFaces, mkFaces, readGrid, readOther]
      obtain ⟨q, hq⟩ := ih p f ph
      exact ⟨q, by rw [List.map_cons, readData, this]; exact hq⟩
  unfold PLY.read
  simp only [if_true, head, Ply.init, List.length_nil, List.nil_append, Nat.zero_add]
  constructor
  · intro h
    rw [if_pos (.inl h)]
    exact data ts _ _ _
  · intro h
    rw [if_neg (by rintro (h' | rfl) <;> [omega; simp at h])]

end Zeo
