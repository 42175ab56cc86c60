import Verif.Lemmas.PCD
import Verif.Props.C35

/-! # C80: sets of points in the PCD format -/

namespace Zeo
open PCD Spec

/-- The header of a file with the given fields, size and viewpoint, after `k` lines of comment. -/
def PCD.headerOf (k : ℕ) (cs : List Col) (w h : ℕ) (a b c d e f g : ℝ) (data : String) : List Line :=
  List.replicate k .comment ++
  [.key "VERSION" [.word ".7"], .key "FIELDS" (cs.map fun c => .word c.name),
   .key "SIZE" (cs.map fun c => .int c.size), .key "TYPE" (cs.map fun c => .word (letter c.type)),
   .key "COUNT" (cs.map fun _ => .int 1), .key "WIDTH" [.int w], .key "HEIGHT" [.int h],
   .key "VIEWPOINT" [.num a, .num b, .num c, .num d, .num e, .num f, .num g], .key "POINTS" [.int ((w * h : ℕ) : ℤ)],
   .key "DATA" [.word data]]

/-- The frame of a viewpoint: the position and the rotation of the normalised quaternion. -/
noncomputable def PCD.viewOf (τ a b c d e f g : ℝ) : Frame3 ℝ :=
  ⟨⟨a, b, c⟩, (EP.normalize τ ⟨d, ⟨e, f, g⟩⟩).2.toMat⟩

private theorem comments (τ : ℝ) (p : Pcd) (ls : List Line) (K : String) (ks : List String) :
    ∀ k, readHeader τ (K :: ks) p (List.replicate k .comment ++ ls) = readHeader τ (K :: ks) p ls
  | 0 => rfl
  | k + 1 => by rw [List.replicate_succ, List.cons_append, readHeader, comments τ p ls K ks k]; simp

private theorem headerOk (τ : ℝ) (k : ℕ) (cs : List Col) (hc : cs ≠ []) (hv : ∀ c ∈ cs, c.Valid) (w h : ℕ)
    (a b c d e f g : ℝ) (dt : DataType) (data : String)
    (hd : (data = "ascii" ∧ dt = .ascii) ∨ (data = "binary" ∧ dt = .binary)) :
    readHeader τ keys .init (headerOf k cs w h a b c d e f g data) =
      .ok ⟨cs.map Col.field, w, h, viewOf τ a b c d e f g, some dt⟩ := by
  have hv1 : '.' ∈ ".7".toList := by decide
  have hcount : readCount (cs.map Col.field) (List.replicate cs.length (.int 1)) = true := by
    have := readCount_cols cs
    simpa using this
  unfold headerOf keys
  rw [comments]
  rcases hd with ⟨rfl, rfl⟩ | ⟨rfl, rfl⟩ <;>
  simp [readHeader, List.dropWhile, readKey, hv1, hc, Pcd.init, readViewpoint, atof, viewOf, atoi, List.map_map,
    Function.comp_def, readSize_cols cs hv, readType_cols cs, hcount]

private theorem addAll_shows (n : ℕ) (ps : List (Vec3 ℝ)) :
    (addAll (.initArray .zero n) ps).Shows (ps.take n) := by
  have : addAll (.initArray .zero n) ps = Data.run (.initArray .zero n) (ps.map .add) := by
    unfold addAll Data.run
    rw [List.foldl_map]
    rfl
  rw [this]
  exact C35_array_fill _ n ps

/-- Reading a text: with any fields beside the coordinates, in any order, of any type, and with any viewpoint, the
points of the lines are read in order and moved to the frame of the viewpoint; points that are not finite are left
out; lines beyond the announced number are ignored. -/
theorem C80_read_text (τ : ℝ) (f32 : ℝ → ℝ) (k : ℕ) (cs : List Col) (hc : cs ≠ []) (hv : ∀ c ∈ cs, c.Valid)
    (hn : (cs.map Col.name).Nodup) (w h : ℕ) (a b c d e f g : ℝ)
    (rows : List (List (Tok × Option ℝ))) (ps : List (Option (Vec3 ℝ)))
    (hw : ∀ r ∈ rows, List.Forall₂ (fun c (w : Tok × Option ℝ) => WordOf f32 c w.1 w.2) cs r)
    (hp : List.Forall₂ (fun (r : List (Tok × Option ℝ)) q => PointOf cs (r.map Prod.snd) q) rows ps)
    (cells : List Cell) :
    ∃ D, read τ f32 ⟨headerOf k cs w h a b c d e f g "ascii", rows.map fun r => r.map Prod.fst, cells⟩ = .ok D ∧
      D.Shows (((ps.filterMap id).map (viewOf τ a b c d e f g).xform).take (w * h)) := by
  refine ⟨_, ?_, addAll_shows _ _⟩
  have h0 : ¬ ((w : ℤ) * h < 0) := not_lt.2 (by positivity)
  unfold PCD.read
  simp only [headerOk τ k cs hc hv w h a b c d e f g .ascii "ascii" (.inl ⟨rfl, rfl⟩), if_neg h0, assign_cols true cs hv,
    readRows_cols f32 ⟨cs.map Col.field, w, h, viewOf τ a b c d e f g, some .ascii⟩ cs rfl hv hn rows ps hw hp]
  norm_cast

private theorem xform_zero (F : Frame3 ℝ) : F.xform ⟨0, 0, 0⟩ = F.pos := by
  simp [Frame3.xform, Mat3.mulVec, Vec3.add, Vec3.mul, Vec3.cat, Vec3.inner]

/-- Reading a binary file: as in a text, but after the last point of the file one more point is added, the position
of the viewpoint, unless the announced number is reached. -/
theorem C80_read_binary (τ : ℝ) (f32 : ℝ → ℝ) (k : ℕ) (cs : List Col) (hc : cs ≠ []) (hv : ∀ c ∈ cs, c.Valid)
    (hn : (cs.map Col.name).Nodup) (w h : ℕ) (a b c d e f g : ℝ)
    (rows : List (List (Option ℝ))) (ps : List (Option (Vec3 ℝ))) (hl : ∀ r ∈ rows, r.length = cs.length)
    (hp : List.Forall₂ (fun r q => PointOf cs r q) rows ps) (lines : List (List Tok)) :
    ∃ D, read τ f32 ⟨headerOf k cs w h a b c d e f g "binary", lines,
        rows.flatMap fun r => List.zipWith (fun (c : Col) x => Cell.mk c.type c.size x) cs r⟩ = .ok D ∧
      D.Shows (((ps.filterMap id).map (viewOf τ a b c d e f g).xform ++ [(⟨a, b, c⟩ : Vec3 ℝ)]).take (w * h)) := by
  have hlen : rows.length < (rows.flatMap fun r =>
      List.zipWith (fun (c : Col) x => Cell.mk c.type c.size x) cs r).length + 1 := by
    have hcl : 1 ≤ cs.length := List.length_pos_iff.2 hc
    clear hp
    induction rows with
    | nil => simp
    | cons r rows ih =>
      have := ih (fun s hs => hl s (by simp [hs]))
      have h1 := hl r (by simp)
      simp only [List.flatMap_cons, List.length_append, List.length_zipWith, List.length_cons, h1] at this ⊢
      omega
  refine ⟨_, ?_, addAll_shows _ _⟩
  have h0 : ¬ ((w : ℤ) * h < 0) := not_lt.2 (by positivity)
  unfold PCD.read
  simp only [headerOk τ k cs hc hv w h a b c d e f g .binary "binary" (.inr ⟨rfl, rfl⟩), if_neg h0,
    assign_cols false cs hv,
    readBin_cols ⟨cs.map Col.field, w, h, viewOf τ a b c d e f g, some .binary⟩ cs rfl hc hv hn rows ps _ hlen hl hp,
    xform_zero]
  norm_cast

/-- A binary file with as many points as announced, all of them finite, is read faithfully.  Partial: see
`C80_extra_point_false`. -/
theorem C80_read_binary_partial (τ : ℝ) (f32 : ℝ → ℝ) (k : ℕ) (cs : List Col) (hc : cs ≠ []) (hv : ∀ c ∈ cs, c.Valid)
    (hn : (cs.map Col.name).Nodup) (w h : ℕ) (a b c d e f g : ℝ)
    (rows : List (List (Option ℝ))) (ps : List (Vec3 ℝ)) (hl : ∀ r ∈ rows, r.length = cs.length)
    (hp : List.Forall₂ (fun r q => PointOf cs r (some q)) rows ps) (hnum : rows.length = w * h)
    (lines : List (List Tok)) :
    ∃ D, read τ f32 ⟨headerOf k cs w h a b c d e f g "binary", lines,
        rows.flatMap fun r => List.zipWith (fun (c : Col) x => Cell.mk c.type c.size x) cs r⟩ = .ok D ∧
      D.Shows (ps.map (viewOf τ a b c d e f g).xform) := by
  obtain ⟨D, h1, h2⟩ := C80_read_binary τ f32 k cs hc hv hn w h a b c d e f g rows (ps.map some) hl
    (by rw [List.forall₂_map_right_iff]; exact hp) lines
  refine ⟨D, h1, ?_⟩
  have hlen := hp.length_eq
  have h3 : (ps.map some).filterMap id = ps := by simp [List.filterMap_map]
  rwa [h3, List.take_append_of_le_length (by simp; omega), List.take_of_length_le (by simp; omega)] at h2

/-- A binary file in which a point is not finite, or with fewer points than announced, is read with a point that is
not in the file: the position of the viewpoint. -/
theorem C80_extra_point_false (τ : ℝ) (f32 : ℝ → ℝ) (k : ℕ) (cs : List Col) (hc : cs ≠ []) (hv : ∀ c ∈ cs, c.Valid)
    (hn : (cs.map Col.name).Nodup) (w h : ℕ) (a b c d e f g : ℝ)
    (rows : List (List (Option ℝ))) (ps : List (Option (Vec3 ℝ))) (hl : ∀ r ∈ rows, r.length = cs.length)
    (hp : List.Forall₂ (fun r q => PointOf cs r q) rows ps) (hnum : (ps.filterMap id).length < w * h)
    (lines : List (List Tok)) :
    ∃ D, read τ f32 ⟨headerOf k cs w h a b c d e f g "binary", lines,
        rows.flatMap fun r => List.zipWith (fun (c : Col) x => Cell.mk c.type c.size x) cs r⟩ = .ok D ∧
      D.Shows ((ps.filterMap id).map (viewOf τ a b c d e f g).xform ++ [(⟨a, b, c⟩ : Vec3 ℝ)]) := by
  obtain ⟨D, h1, h2⟩ := C80_read_binary τ f32 k cs hc hv hn w h a b c d e f g rows ps hl hp lines
  exact ⟨D, h1, by rwa [List.take_of_length_le (by simp only [List.length_append, List.length_map, List.length_singleton]; omega)] at h2⟩

/-- The three coordinates in double precision. -/
def PCD.xyz : List Col := [⟨"x", .F, 8⟩, ⟨"y", .F, 8⟩, ⟨"z", .F, 8⟩]

private theorem xyz_ok : xyz ≠ [] ∧ (∀ c ∈ xyz, c.Valid) ∧ (xyz.map Col.name).Nodup := by
  simp [xyz, Col.Valid]

private theorem xyz_point (x y z : ℝ) : PointOf xyz [some x, some y, some z] (some ⟨x, y, z⟩) :=
  .point x y z ⟨0, _, rfl, rfl, rfl⟩ ⟨1, _, rfl, rfl, rfl⟩ ⟨2, _, rfl, rfl, rfl⟩

/-- Two points, of which the first is not finite, seen from (1, 2, 3): the second and a new one are read. -/
example (τ : ℝ) (f32 : ℝ → ℝ) : ∃ D, read τ f32 ⟨headerOf 1 xyz 2 1 1 2 3 1 0 0 0 "binary", [],
    [⟨.F, 8, none⟩, ⟨.F, 8, some 0⟩, ⟨.F, 8, some 0⟩, ⟨.F, 8, some 4⟩, ⟨.F, 8, some 5⟩, ⟨.F, 8, some 6⟩]⟩ = .ok D ∧
    D.Shows [(viewOf τ 1 2 3 1 0 0 0).xform ⟨4, 5, 6⟩, ⟨1, 2, 3⟩] :=
  C80_extra_point_false τ f32 1 xyz xyz_ok.1 xyz_ok.2.1 xyz_ok.2.2 2 1 1 2 3 1 0 0 0
    [[none, some 0, some 0], [some 4, some 5, some 6]] [none, some ⟨4, 5, 6⟩] (by simp [xyz])
    (.cons (.nan none (some 0) (some 0) ⟨0, _, rfl, rfl, rfl⟩ ⟨1, _, rfl, rfl, rfl⟩ ⟨2, _, rfl, rfl, rfl⟩ (.inl rfl))
      (.cons (xyz_point 4 5 6) .nil)) (by simp) []

/-- A text with a colour before the coordinates and the height before the width of the point, one line of it not
finite. -/
example (τ : ℝ) (f32 : ℝ → ℝ) : ∃ D, read τ f32 ⟨headerOf 0
    [⟨"rgb", .U, 4⟩, ⟨"z", .F, 4⟩, ⟨"x", .I, 2⟩, ⟨"y", .F, 8⟩] 2 1 1 2 3 1 0 0 0 "ascii",
    [[.int 255, .num 0.5, .int (-7), .num 2], [.int 0, .nan, .int 0, .num 1]], []⟩ = .ok D ∧
    D.Shows [(viewOf τ 1 2 3 1 0 0 0).xform ⟨((-7 : ℤ) : ℝ), 2, f32 0.5⟩] :=
  C80_read_text τ f32 0 [⟨"rgb", .U, 4⟩, ⟨"z", .F, 4⟩, ⟨"x", .I, 2⟩, ⟨"y", .F, 8⟩] (by simp) (by simp [Col.Valid])
    (by simp) 2 1 1 2 3 1 0 0 0
    [[(.int 255, some ((255 : ℤ) : ℝ)), (.num 0.5, some (f32 0.5)), (.int (-7), some ((-7 : ℤ) : ℝ)), (.num 2, some 2)],
     [(.int 0, some ((0 : ℤ) : ℝ)), (.nan, none), (.int 0, some ((0 : ℤ) : ℝ)), (.num 1, some 1)]]
    [some ⟨((-7 : ℤ) : ℝ), 2, f32 0.5⟩, none]
    (by
      intro r hr
      simp only [List.mem_cons, List.not_mem_nil, or_false] at hr
      rcases hr with rfl | rfl
      · exact .cons (.unsigned _ 255 rfl (by norm_num) (by norm_num) (by norm_num)) (.cons (.float _ _ rfl rfl)
          (.cons (.signed _ (-7) rfl (by norm_num) (by norm_num) (by norm_num) (by norm_num))
            (.cons (.double _ _ rfl rfl) .nil)))
      · exact .cons (.unsigned _ 0 rfl (by norm_num) (by norm_num) (by norm_num)) (.cons (.nan _ rfl)
          (.cons (.signed _ 0 rfl (by norm_num) (by norm_num) (by norm_num) (by norm_num))
            (.cons (.double _ _ rfl rfl) .nil))))
    (.cons (.point _ _ _ ⟨2, _, rfl, rfl, rfl⟩ ⟨3, _, rfl, rfl, rfl⟩ ⟨1, _, rfl, rfl, rfl⟩)
      (.cons (.nan _ _ none ⟨2, _, rfl, rfl, rfl⟩ ⟨3, _, rfl, rfl, rfl⟩ ⟨1, _, rfl, rfl, rfl⟩ (.inr (.inr rfl))) .nil)) []

/-- With the viewpoint at the origin and the unit quaternion, points are not moved. -/
theorem C80_viewpoint_ident (τ : ℝ) (hτ : τ < 1) (p : Vec3 ℝ) : (viewOf τ 0 0 0 1 0 0 0).xform p = p := by
  have hn : EP.norm (⟨1, ⟨0, 0, 0⟩⟩ : EP ℝ) = 1 := by simp [EP.norm, EP.inner, Vec3.inner]
  have h : (EP.normalize τ ⟨1, ⟨0, 0, 0⟩⟩).2 = (⟨1, ⟨0, 0, 0⟩⟩ : EP ℝ) := by
    unfold EP.normalize
    rw [hn, if_neg (by simp [zIsTol]; linarith)]
    simp [Vec3.div, Vec3.mul]
  unfold viewOf
  rw [h]
  ext <;> simp [Frame3.xform, EP.toMat, Mat3.mulVec, Mat3.create, Vec3.add, Vec3.mul, Vec3.cat, Vec3.inner]

private theorem headerW (τ : ℝ) (n : ℕ) (dt : DataType) (data : String)
    (hd : (data = "ascii" ∧ dt = .ascii) ∨ (data = "binary" ∧ dt = .binary)) :
    readHeader τ keys .init (PCD.header n data) =
      .ok ⟨xyz.map Col.field, n, 1, viewOf τ 0 0 0 1 0 0 0, some dt⟩ := by
  have hv1 : '.' ∈ ".7".toList := by decide
  unfold PCD.header keys
  rcases hd with ⟨rfl, rfl⟩ | ⟨rfl, rfl⟩ <;>
  simp [readHeader, List.dropWhile, readKey, hv1, Pcd.init, readViewpoint, atof, viewOf, atoi, xyz, Col.field,
    readSize, readType, readCount, typeOf]

private theorem foldl_snoc {α β : Type*} (f : α → List β) (xs : List α) (acc : List β) :
    xs.foldl (fun l v => l ++ f v) acc = acc ++ xs.flatMap f := by
  induction xs generalizing acc with
  | nil => simp
  | cons x xs ih => simp [ih]

/-- A set written as a text is read back, every coordinate as its text reads. -/
theorem C80_write_read_text (τ : ℝ) (hτ : τ < 1) (f32 fmt : ℝ → ℝ) (d : Data (Vec3 ℝ)) (hd : d.WF) (xs : List (Vec3 ℝ))
    (hx : d.Shows xs) : ∃ x, write fmt d "ascii" = some x ∧
    ∃ D, read τ f32 x = .ok D ∧ D.Shows (xs.map fun v => ⟨fmt v.x, fmt v.y, fmt v.z⟩) := by
  obtain rfl := C35_shows_unique d _ _ hx hd.shows
  refine ⟨_, by unfold write; rw [if_pos rfl], ?_⟩
  have h1 := (hd.forEach (fun (l : List (List Tok)) v => l ++ [[Tok.num (fmt v.x), .num (fmt v.y), .num (fmt v.z)]]) []).1
  set ys := d.contents.map fun v : Vec3 ℝ => (⟨fmt v.x, fmt v.y, fmt v.z⟩ : Vec3 ℝ) with hys
  have hrows : d.contents.flatMap (fun v => [[Tok.num (fmt v.x), .num (fmt v.y), .num (fmt v.z)]]) =
      (ys.map fun v => [(Tok.num v.x, some v.x), (.num v.y, some v.y), (.num v.z, some v.z)]).map
        fun r => r.map Prod.fst := by
    rw [hys]
    generalize d.contents = l
    induction l with
    | nil => rfl
    | cons v l ih => rw [List.flatMap_cons, ih]; rfl
  have h3 := readRows_cols f32 ⟨xyz.map Col.field, d.size, 1, viewOf τ 0 0 0 1 0 0 0, some .ascii⟩ xyz rfl xyz_ok.2.1
    xyz_ok.2.2 (ys.map fun v => [(Tok.num v.x, some v.x), (.num v.y, some v.y), (.num v.z, some v.z)]) (ys.map some)
    (by
      intro r hr
      obtain ⟨v, _, rfl⟩ := List.mem_map.1 hr
      exact .cons (.double _ _ rfl rfl) (.cons (.double _ _ rfl rfl) (.cons (.double _ _ rfl rfl) .nil)))
    (by
      rw [List.forall₂_map_left_iff, List.forall₂_map_right_iff, List.forall₂_same]
      intro v _
      exact xyz_point _ _ _)
  have h4 : (ys.map some).filterMap id = ys := by simp [List.filterMap_map]
  have h5 : ys.map (viewOf τ 0 0 0 1 0 0 0).xform = ys := by
    conv_rhs => rw [← List.map_id ys]
    exact List.map_congr_left fun v _ => C80_viewpoint_ident τ hτ v
  have hsize : d.size = ys.length := by rw [Data.size_eq hd, hys, List.length_map]
  refine ⟨addAll (.initArray .zero d.size) ys, ?_, ?_⟩
  · unfold PCD.read
    have h0 : ¬ ((d.size : ℤ) * 1 < 0) := not_lt.2 (by positivity)
    rw [h1, foldl_snoc, List.nil_append, hrows]
    simp only [headerW τ d.size .ascii "ascii" (.inl ⟨rfl, rfl⟩), if_neg h0, assign_cols true xyz xyz_ok.2.1, h3, h4, h5]
    simp
  · have := addAll_shows d.size ys
    rwa [List.take_of_length_le hsize.ge] at this

/-- A set written as a binary file is read back exactly. -/
theorem C80_write_read_binary (τ : ℝ) (hτ : τ < 1) (f32 fmt : ℝ → ℝ) (d : Data (Vec3 ℝ)) (hd : d.WF)
    (xs : List (Vec3 ℝ)) (hx : d.Shows xs) : ∃ x, write fmt d "binary" = some x ∧
    ∃ D, read τ f32 x = .ok D ∧ D.Shows xs := by
  obtain rfl := C35_shows_unique d _ _ hx hd.shows
  refine ⟨_, by unfold write; rw [if_neg (by simp), if_pos rfl], ?_⟩
  have h1 := (hd.forEach (fun (l : List Cell) v =>
    l ++ [Cell.mk .F 8 (some v.x), ⟨.F, 8, some v.y⟩, ⟨.F, 8, some v.z⟩]) []).1
  set ys := d.contents with hys
  have hrows : ys.flatMap (fun v => [Cell.mk .F 8 (some v.x), ⟨.F, 8, some v.y⟩, ⟨.F, 8, some v.z⟩]) =
      (ys.map fun v => [some v.x, some v.y, some v.z]).flatMap
        fun r => List.zipWith (fun (c : Col) x => Cell.mk c.type c.size x) xyz r := by
    simp [List.flatMap_map, xyz]
  have hl : ∀ l : List (Vec3 ℝ), l.length < (l.flatMap
      (fun v => [Cell.mk .F 8 (some v.x), ⟨.F, 8, some v.y⟩, ⟨.F, 8, some v.z⟩])).length + 1 := by
    intro l
    induction l with
    | nil => simp
    | cons v l ih => simp only [List.flatMap_cons, List.length_append, List.length_cons, List.length_nil] at ih ⊢; omega
  have h3 := readBin_cols ⟨xyz.map Col.field, d.size, 1, viewOf τ 0 0 0 1 0 0 0, some .binary⟩ xyz rfl xyz_ok.1 xyz_ok.2.1
    xyz_ok.2.2 (ys.map fun v => [some v.x, some v.y, some v.z]) (ys.map some) _
    (by rw [List.length_map]; exact hl ys)
    (by
      intro r hr
      obtain ⟨v, _, rfl⟩ := List.mem_map.1 hr
      rfl)
    (by
      rw [List.forall₂_map_left_iff, List.forall₂_map_right_iff, List.forall₂_same]
      intro v _
      exact xyz_point _ _ _)
  have h4 : (ys.map some).filterMap id = ys := by simp [List.filterMap_map]
  have h5 : ys.map (viewOf τ 0 0 0 1 0 0 0).xform = ys := by
    conv_rhs => rw [← List.map_id ys]
    exact List.map_congr_left fun v _ => C80_viewpoint_ident τ hτ v
  have hsize : d.size = ys.length := by rw [Data.size_eq hd]
  refine ⟨addAll (.initArray .zero d.size) (ys ++ [(viewOf τ 0 0 0 1 0 0 0).xform ⟨0, 0, 0⟩]), ?_, ?_⟩
  · unfold PCD.read
    have h0 : ¬ ((d.size : ℤ) * 1 < 0) := not_lt.2 (by positivity)
    rw [← hrows] at h3
    rw [h1, foldl_snoc, List.nil_append]
    simp only [headerW τ d.size .binary "binary" (.inr ⟨rfl, rfl⟩), if_neg h0, assign_cols false xyz xyz_ok.2.1, h3, h4, h5]
    simp
  · have := addAll_shows d.size (ys ++ [(viewOf τ 0 0 0 1 0 0 0).xform ⟨0, 0, 0⟩])
    rwa [List.take_append_of_le_length hsize.le, List.take_of_length_le hsize.ge] at this

/-- Other formats are not written, also the compressed one. -/
theorem C80_write_none (fmt : ℝ → ℝ) (d : Data (Vec3 ℝ)) (format : String) (h1 : format ≠ "ascii")
    (h2 : format ≠ "binary") : write fmt d format = none := by
  simp [write, h1, h2]

example (fmt : ℝ → ℝ) (d : Data (Vec3 ℝ)) : write fmt d "binary_compressed" = none :=
  C80_write_none fmt d _ (by simp) (by simp)

/-- The hypotheses of the two theorems on writing hold for every set built from an empty list. -/
example (τ : ℝ) (hτ : τ < 1) (f32 fmt : ℝ → ℝ) (p q : Vec3 ℝ) : ∃ x,
    write fmt (.run .initList [.add p, .add q]) "binary" = some x ∧ ∃ D, read τ f32 x = .ok D ∧ D.Shows [p, q] :=
  C80_write_read_binary τ hτ f32 fmt _ (Data.initList_wf.run _) _ (C35_list [.add p, .add q]).1

/-- An empty line in a text is read as a point at the position of the viewpoint, and the last point of the file is
lost. -/
theorem C80_blank_line_false (τ : ℝ) (f32 : ℝ → ℝ) (a b c d e f g x y z : ℝ) :
    ∃ D, read τ f32 ⟨headerOf 0 xyz 1 1 a b c d e f g "ascii", [[], [.num x, .num y, .num z]], []⟩ = .ok D ∧
      D.Shows [(⟨a, b, c⟩ : Vec3 ℝ)] := by
  refine ⟨addAll (.initArray .zero 1) [⟨a, b, c⟩, (viewOf τ a b c d e f g).xform ⟨x, y, z⟩], ?_, ?_⟩
  · have h3 := readRows_cols f32 ⟨xyz.map Col.field, (1 : ℕ), (1 : ℕ), viewOf τ a b c d e f g, some .ascii⟩ xyz rfl
      xyz_ok.2.1 xyz_ok.2.2 [[(Tok.num x, some x), (.num y, some y), (.num z, some z)]] [some ⟨x, y, z⟩]
      (by
        intro r hr
        obtain rfl := List.mem_singleton.1 hr
        exact .cons (.double _ _ rfl rfl) (.cons (.double _ _ rfl rfl) (.cons (.double _ _ rfl rfl) .nil)))
      (.cons (xyz_point _ _ _) .nil)
    simp only [List.map_cons, List.map_nil] at h3
    unfold PCD.read
    simp only [headerOk τ 0 xyz xyz_ok.1 xyz_ok.2.1 1 1 a b c d e f g .ascii "ascii" (.inl ⟨rfl, rfl⟩),
      assign_cols true xyz xyz_ok.2.1]
    rw [if_neg (by simp)]
    have h6 : ∀ fs, readRow f32 fs [] Raw.zero = .ok .zero := by intro fs; cases fs <;> rfl
    rw [readRows]
    simp only [h6]
    rw [h3]
    have h7 := xform_zero (viewOf τ a b c d e f g)
    have h8 : (viewOf τ a b c d e f g).pos = ⟨a, b, c⟩ := rfl
    simp [Raw.point, Raw.zero, h7, h8]
  · exact addAll_shows 1 _

/-- A file that is not in the order of the table, or with a key that is not in the table, is compared with a NULL
name. -/
theorem C80_key_undefined (τ : ℝ) (f32 : ℝ → ℝ) (k : String) (hk : k ∉ keys) (as : List Tok) (n : ℕ)
    (ls : List Line) (rows : List (List Tok)) (cells : List Cell) :
    read τ f32 ⟨List.replicate n .comment ++ .key k as :: ls, rows, cells⟩ = .error .undef := by
  have h : keys.dropWhile (fun s => s ≠ k) = [] := by
    simp only [keys, List.mem_cons, List.not_mem_nil, or_false, not_or] at hk
    obtain ⟨h1, h2, h3, h4, h5, h6, h7, h8, h9, h10⟩ := hk
    simp [keys, List.dropWhile, eq_comm (b := k), h1, h2, h3, h4, h5, h6, h7, h8, h9, h10]
  unfold PCD.read
  have h1 : readHeader τ keys .init (List.replicate n .comment ++ .key k as :: ls) = .error .undef := by
    have hk' : keys = "VERSION" :: keys.tail := rfl
    rw [hk', comments, ← hk']
    rw [hk'] at h
    rw [hk', readHeader]
    · rw [h]
    · simp
  rw [h1]

example : "COLOR" ∉ keys := by simp [keys]

/-- The height before the width. -/
theorem C80_order_undefined (τ : ℝ) (f32 : ℝ → ℝ) (w h : Tok) (ls : List Line) (rows : List (List Tok))
    (cells : List Cell) :
    read τ f32 ⟨.key "HEIGHT" [h] :: .key "WIDTH" [w] :: ls, rows, cells⟩ = .error .undef := by
  simp [PCD.read, keys, readHeader, List.dropWhile, readKey]

/-- Without the line `TYPE` the table of readers is read before its beginning. -/
theorem C80_no_type_undefined (τ : ℝ) (f32 : ℝ → ℝ) (rows : List (List Tok)) (cells : List Cell) :
    read τ f32 ⟨[.key "FIELDS" [.word "x", .word "y", .word "z"], .key "SIZE" [.int 8, .int 8, .int 8],
      .key "WIDTH" [.int 1], .key "HEIGHT" [.int 1], .key "DATA" [.word "ascii"]], rows, cells⟩ = .error .undef := by
  simp [PCD.read, keys, readHeader, List.dropWhile, readKey, readSize, atoi, axisOf, assign, entry, Pcd.init]

/-- A number of points other than the width times the height, a field with more than one value, and compressed data
are refused. -/
theorem C80_refused (τ : ℝ) (f32 : ℝ → ℝ) (w h n : ℤ) (hn : n ≠ w * h) (m : ℤ) (hm : m ≠ 1) (rows : List (List Tok))
    (cells : List Cell) (ls : List Line) :
    read τ f32 ⟨.key "WIDTH" [.int w] :: .key "HEIGHT" [.int h] :: .key "POINTS" [.int n] :: ls, rows, cells⟩ =
      .error .no ∧
    read τ f32 ⟨.key "FIELDS" [.word "x"] :: .key "COUNT" [.int m] :: ls, rows, cells⟩ = .error .no ∧
    read τ f32 ⟨[.key "WIDTH" [.int 1], .key "HEIGHT" [.int 1], .key "DATA" [.word "binary_compressed"]], rows, cells⟩ =
      .error .no ∧
    read τ f32 ⟨[.key "VERSION" [.word ".7"]], rows, cells⟩ = .error .no := by
  have hv1 : '.' ∈ ".7".toList := by decide
  refine ⟨?_, ?_, ?_, ?_⟩ <;>
  simp [PCD.read, keys, readHeader, List.dropWhile, readKey, readCount, atoi, axisOf, Pcd.init, hn, hm, hv1]

example : (3 : ℤ) ≠ 2 * 2 ∧ (2 : ℤ) ≠ 1 := by norm_num

end Zeo
