import Verif.Spec.DAE
import Verif.Props.C86

/-! # C89: DAE files -/

namespace Zeo
open DAE DAE.Spec

private theorem ok_bind89 {α β ε : Type} (a : α) (f : α → Except ε β) : (Except.ok a >>= f) = f a := rfl

private theorem fold_skip {α β : Type} (f : β → α → Except DAE.Err β) (l : List α) (s : β) (h : ∀ a ∈ l, ∀ s, f s a = .ok s) :
    l.foldlM f s = .ok s := by
  induction l generalizing s with
  | nil => rfl
  | cons a l ih => rw [List.foldlM_cons, h a List.mem_cons_self, ok_bind89]; exact ih s fun b hb => h b (List.mem_cons_of_mem _ hb)

/-! ## Arrays -/

/-- The source read. -/
private noncomputable def src (a : Spec.Array) : Src :=
  ⟨some a.id, 3 * a.pts.length, a.pts.length, 3, some a.nums, fun j => a.perm j, some true⟩

private theorem set_name (s : Src) (i : ℕ) (h : i < 3) (k : Fin 3) :
    setAccessor s i (.mk "param" [("name", .str (coordName k))] none []) =
      .ok { s with acc := Function.update s.acc ⟨i, h⟩ k, type := some true } := by
  unfold setAccessor
  simp only [Node.attrs, List.foldlM_cons, List.foldlM_nil]
  unfold setAccessorAttr
  fin_cases k <;> simp [coordName, coordOf, h]

private theorem src_eval (a : Spec.Array) : evalSrc a.node = .ok (src a) := by
  unfold evalSrc Array.node
  simp only [Node.children, List.foldlM_cons, List.foldlM_nil]
  have e1 : ∀ s, srcChild s (.mk "float_array" [("count", .int (3 * a.pts.length))] (some a.nums) []) =
      .ok { s with count := 3 * a.pts.length, content := some a.nums } := by
    intro s
    simp [srcChild, Node.name, evalFloatArray, Node.attrs, Node.content, countAttr, Attr.nat]
  rw [e1, ok_bind89]
  simp only [srcChild, Node.name, Node.children, evalAccessor, Node.attrs, List.foldlM_cons, List.foldlM_nil]
  simp only [show ("technique_common" : String) ≠ "float_array" by decide, if_false, if_true, List.find?, decide_true]
  simp only [Node.children, Node.attrs, List.foldlM_cons, List.foldlM_nil, accessorAttr, Attr.nat, if_true, ok_bind89,
    show ("stride" : String) ≠ "count" by decide, if_false]
  have hp : ∀ s : Src, s.stride = 3 → params s 0 [.mk "param" [("name", .str (coordName (a.perm 0)))] none [],
         .mk "param" [("name", .str (coordName (a.perm 1)))] none [],
         .mk "param" [("name", .str (coordName (a.perm 2)))] none []] = .ok { s with acc := fun j => a.perm j, type := some true } := by
    intro s hs
    simp only [params, Node.name, if_true, set_name _ 0 (by norm_num), set_name _ 1 (by norm_num), set_name _ 2 (by norm_num), hs]
    norm_num
    funext j
    fin_cases j <;> simp [Function.update]
  simp only [pure, Except.pure]
  rw [if_neg (by simp [mul_comm]), hp _ rfl]
  simp [src, Src.init, Node.attrStr, Node.attr, Node.attrs, bind, Except.bind]

private theorem toFin_setE (v : Vec3 ℝ) (k : Fin 3) (x : ℝ) : (v.setE k x).toFin = Function.update v.toFin k x := by
  ext i; fin_cases k <;> fin_cases i <;> simp [Vec3.setE, Vec3.toFin]

private theorem toFin_inj89 {v w : Vec3 ℝ} (h : v.toFin = w.toFin) : v = w := by
  have h0 := congrFun h 0; have h1 := congrFun h 1; have h2 := congrFun h 2
  simp [Vec3.toFin] at h0 h1 h2
  cases v; cases w; simp_all

private theorem coords_perm (σ : Equiv.Perm (Fin 3)) (p : Vec3 ℝ) (c : List Num) :
    coords (fun j => σ j) 3 0 .zero (.real (p.toFin (σ 0)) :: .real (p.toFin (σ 1)) :: .real (p.toFin (σ 2)) :: c) = .ok (p, c) := by
  simp only [coords]
  norm_num
  apply toFin_inj89
  rw [toFin_setE, toFin_setE, toFin_setE]
  ext i
  obtain ⟨j, rfl⟩ := σ.surjective i
  have h01 : σ 0 ≠ σ 1 := fun h => by have := σ.injective h; simp at this
  have h02 : σ 0 ≠ σ 2 := fun h => by have := σ.injective h; simp at this
  have h12 : σ 1 ≠ σ 2 := fun h => by have := σ.injective h; simp at this
  fin_cases j <;> simp [Function.update, Num.val, h01, h02, h12]

private theorem readVerts_src (a : Spec.Array) (f : Frame3 ℝ) : readVerts (src a) f a.pts.length a.nums = .ok (a.pts.map f.xform) := by
  have : ∀ l : List (Vec3 ℝ), readVerts (src a) f l.length
      (l.flatMap fun p => [.real (p.toFin (a.perm 0)), .real (p.toFin (a.perm 1)), .real (p.toFin (a.perm 2))]) = .ok (l.map f.xform) := by
    intro l
    induction l with
    | nil => rfl
    | cons p l ih =>
      rw [List.length_cons, List.flatMap_cons]
      have hc := coords_perm a.perm p (l.flatMap fun p => [.real (p.toFin (a.perm 0)), .real (p.toFin (a.perm 1)), .real (p.toFin (a.perm 2))])
      unfold readVerts
      rw [show (src a).acc = fun j => a.perm j from rfl, show (src a).stride = 3 from rfl]
      simp only [List.cons_append, List.nil_append]
      rw [hc]
      dsimp only
      rw [ih]
      rfl
  exact this a.pts

/-! ## Triangles -/

/-- The primitive read. -/
private noncomputable def prim (t : Tris) : Prim :=
  ⟨if t.poly then some (t.tris.map fun _ => .int 3) else none, t.tris.length, t.inputs, t.voffset, some t.nums⟩

private theorem uri_hash (nd : Node) (name id : String) (h : nd.attrStr name = some ("#" ++ id)) : uri nd name = some id := by
  unfold uri
  rw [h]
  simp

private theorem input_other (vid : Option String) (p : Prim) (i : String × ℕ × String) (h : i.1 ≠ "VERTEX") :
    evalInput vid p (inputNode i) = .ok ({ p with ni := max p.ni i.2.1 }, true) := by
  unfold evalInput
  have e : (inputNode i).attr "offset" = some (.int i.2.1) := by simp [inputNode, Node.attr, Node.attrs]
  have e2 : (inputNode i).has "semantic" "VERTEX" = false := by simp [inputNode, Node.has, Node.attrs, h]
  simp only [e, Attr.nat, e2, Bool.false_eq_true, if_false]
  split_ifs with hl
  · rw [max_eq_right hl.le]
  · rw [max_eq_left (not_lt.1 hl)]

private theorem input_vert (vid : String) (p : Prim) (o : ℕ) :
    evalInput (some vid) p (inputNode ("VERTEX", o, vid)) = .ok ({ p with ni := max p.ni o, voffset := o }, true) := by
  unfold evalInput
  have e : (inputNode ("VERTEX", o, vid)).attr "offset" = some (.int o) := by simp [inputNode, Node.attr, Node.attrs]
  have e2 : (inputNode ("VERTEX", o, vid)).has "semantic" "VERTEX" = true := by simp [inputNode, Node.has, Node.attrs]
  have e3 : uri (inputNode ("VERTEX", o, vid)) "source" = some vid :=
    uri_hash _ _ _ (by simp [inputNode, Node.attrStr, Node.attr, Node.attrs])
  simp only [e, Attr.nat, e2, if_true, e3, decide_true]
  split_ifs with hl
  · rw [max_eq_right hl.le]
  · rw [max_eq_left (not_lt.1 hl)]

private theorem foldr_max (l : List ℕ) (a b : ℕ) : l.foldr max (max a b) = max b (l.foldr max a) := by
  induction l with
  | nil => exact max_comm _ _
  | cons c l ih => rw [List.foldr_cons, List.foldr_cons, ih, max_left_comm]

private theorem loop_inputs (vid : Option String) (l : List (String × ℕ × String)) (h : ∀ i ∈ l, i.1 ≠ "VERTEX") (p : Prim) (r : List Node) :
    faceLoop vid p (l.map inputNode ++ r) = faceLoop vid { p with ni := (l.map fun i => i.2.1).foldr max p.ni } r := by
  induction l generalizing p with
  | nil => rfl
  | cons i l ih =>
    rw [List.map_cons, List.cons_append, faceLoop, if_pos (by rfl), input_other vid p i (h i List.mem_cons_self)]
    dsimp only
    rw [ih (fun j hj => h j (List.mem_cons_of_mem _ hj))]
    congr 2
    dsimp only
    rw [List.map_cons, List.foldr_cons]
    exact foldr_max _ _ _

private theorem face_eval (m : Mesh) (vid : String) (t : Tris) (n : ℕ) (hv : m.vid = some vid) (ht : t.Ok n) :
    evalFace m (t.node vid) = .ok { m with plist := m.plist ++ [prim t] } := by
  have hb : ∀ i ∈ t.before, i.1 ≠ "VERTEX" := fun i hi => ht.1 i (List.mem_append_left _ hi)
  have ha : ∀ i ∈ t.after, i.1 ≠ "VERTEX" := fun i hi => ht.1 i (List.mem_append_right _ hi)
  unfold evalFace Tris.node
  have e : (Node.mk (if t.poly then "polylist" else "triangles") [("count", .int t.tris.length)] none
    (t.before.map inputNode ++ inputNode ("VERTEX", t.voffset, vid) :: t.after.map inputNode ++
      (if t.poly then [.mk "vcount" [] (some (t.tris.map fun _ => .int 3)) []] else []) ++
      [.mk "p" [] (some t.nums) []])).attr "count" = some (.int t.tris.length) := by simp [Node.attr, Node.attrs]
  rw [e]
  simp only [Attr.nat, Node.children]
  rw [hv, List.append_assoc, List.append_assoc, loop_inputs _ _ hb, List.cons_append, faceLoop, if_pos (by rfl), input_vert]
  dsimp only
  rw [loop_inputs _ _ ha]
  have hi : (t.after.map fun i => i.2.1).foldr max (max ((t.before.map fun i => i.2.1).foldr max 0) t.voffset) + 1 = t.inputs := by
    unfold Tris.inputs
    rw [List.map_append, List.foldr_append]
    have hf : ∀ (l : List ℕ) (a : ℕ), l.foldr max a = max a (l.foldr max 0) := fun l a => by rw [← foldr_max, Nat.zero_max]
    rw [hf _ (max _ _), hf _ ((t.after.map fun i => i.2.1).foldr max t.voffset), hf _ t.voffset]
    omega
  cases hp : t.poly
  · simp only [Bool.false_eq_true, if_false, List.nil_append]
    rw [faceLoop, if_neg (by simp [Node.name]), if_neg (by simp [Node.name]), if_pos (by rfl), faceLoop]
    simp only [Prim.init, Node.content]
    rw [hi]
    simp [prim, hp]
  · simp only [if_true, List.cons_append, List.nil_append]
    rw [faceLoop, if_neg (by simp [Node.name]), if_pos (by rfl), faceLoop, if_neg (by simp [Node.name]), if_neg (by simp [Node.name]), if_pos (by rfl), faceLoop]
    simp only [Prim.init, Node.content]
    rw [hi]
    simp [prim, hp]

/-! ## Meshes -/

/-- The mesh read. -/
private noncomputable def mesh (g : Geometry) : Mesh :=
  ⟨(g.before ++ g.pos :: g.after).map src, some (src g.pos), some g.id, some g.vid, g.prims.map prim, .ident⟩

private theorem srcs_eval (l : List Spec.Array) (m : Mesh) :
    (l.map Array.node).foldlM passSrc m = .ok { m with slist := m.slist ++ l.map src } := by
  induction l generalizing m with
  | nil => simp [pure, Except.pure]
  | cons a l ih =>
    rw [List.map_cons, List.foldlM_cons]
    have : passSrc m a.node = .ok { m with slist := m.slist ++ [src a] } := by
      unfold passSrc
      rw [if_pos (by rfl), src_eval]
    rw [this, ok_bind89, ih]
    simp

private theorem prims_eval (vid : String) (n : ℕ) (l : List Tris) (h : ∀ t ∈ l, t.Ok n) (m : Mesh) (hv : m.vid = some vid) :
    (l.map (Tris.node vid)).foldlM passFace m = .ok { m with plist := m.plist ++ l.map prim } := by
  induction l generalizing m with
  | nil => simp [pure, Except.pure]
  | cons t l ih =>
    rw [List.map_cons, List.foldlM_cons]
    have : passFace m (t.node vid) = .ok { m with plist := m.plist ++ [prim t] } := by
      unfold passFace
      rw [if_pos (by cases hp : t.poly <;> simp [Tris.node, Node.name, hp]), face_eval m vid t n hv (h t List.mem_cons_self)]
    rw [this, ok_bind89, ih (fun u hu => h u (List.mem_cons_of_mem _ hu))]
    · simp
    · exact hv

private theorem find_src (l r : List Spec.Array) (a : Spec.Array) (h : ∀ b ∈ l, b.id ≠ a.id) :
    srcFind ((l ++ a :: r).map src) a.id = .ok (some (src a)) := by
  induction l with
  | nil => simp [srcFind, src]
  | cons b l ih =>
    rw [List.cons_append, List.map_cons, srcFind, show (src b).id = some b.id from rfl]
    dsimp only
    rw [if_neg (h b List.mem_cons_self), ih fun c hc => h c (List.mem_cons_of_mem _ hc)]

private theorem mesh_eval (g : Geometry) (hg : g.Ok) :
    evalMesh (some g.id) (g.before.map Array.node ++ g.pos.node :: g.after.map Array.node ++
        (.mk "vertices" [("id", .str g.vid)] none
          [.mk "input" [("semantic", .str "POSITION"), ("source", .str ("#" ++ g.pos.id))] none []]) ::
        g.prims.map (Tris.node g.vid)) = .ok (mesh g) := by
  have hl : g.before.map Array.node ++ g.pos.node :: g.after.map Array.node = (g.before ++ g.pos :: g.after).map Array.node := by simp
  have hn : ∀ nd ∈ g.prims.map (Tris.node g.vid), nd.name = "polylist" ∨ nd.name = "triangles" := by
    intro nd hnd
    obtain ⟨t, -, rfl⟩ := List.mem_map.1 hnd
    cases hp : t.poly <;> simp [Tris.node, Node.name, hp]
  have hs : ∀ nd ∈ (g.before ++ g.pos :: g.after).map Array.node, nd.name = "source" := by
    intro nd hnd
    obtain ⟨t, -, rfl⟩ := List.mem_map.1 hnd
    rfl
  rw [hl]
  unfold evalMesh
  have e1 : ∀ m, ((g.prims.map (Tris.node g.vid)).foldlM passSrc m) = .ok m := fun m => fold_skip _ _ m (fun nd hnd m => by
    unfold passSrc; rw [if_neg (by rcases hn nd hnd with h | h <;> rw [h] <;> decide)])
  have e2 : ∀ m, ((g.prims.map (Tris.node g.vid)).foldlM passVert m) = .ok m := fun m => fold_skip _ _ m (fun nd hnd m => by
    unfold passVert; rw [if_neg (by rcases hn nd hnd with h | h <;> rw [h] <;> decide)])
  have e3 : ∀ m, (((g.before ++ g.pos :: g.after).map Array.node).foldlM passVert m) = .ok m := fun m => fold_skip _ _ m (fun nd hnd m => by
    unfold passVert; rw [if_neg (by rw [hs nd hnd]; decide)])
  have e4 : ∀ m, (((g.before ++ g.pos :: g.after).map Array.node).foldlM passFace m) = .ok m := fun m => fold_skip _ _ m (fun nd hnd m => by
    unfold passFace; rw [if_neg (by rw [hs nd hnd]; decide)])
  rw [List.foldlM_append, srcs_eval, ok_bind89, List.foldlM_cons]
  rw [show ∀ m, passSrc m (.mk "vertices" [("id", .str g.vid)] none
          [.mk "input" [("semantic", .str "POSITION"), ("source", .str ("#" ++ g.pos.id))] none []]) = .ok m from fun m => by
    unfold passSrc; rw [if_neg (by simp [Node.name])], ok_bind89, e1]
  dsimp only
  rw [List.foldlM_append, e3, ok_bind89, List.foldlM_cons]
  have hu : vertSource [.mk "input" [("semantic", .str "POSITION"), ("source", .str ("#" ++ g.pos.id))] none []] = some g.pos.id := by
    unfold vertSource
    rw [if_pos (by simp [Node.name, Node.has, Node.attrs]), uri_hash _ _ g.pos.id (by simp [Node.attrStr, Node.attr, Node.attrs])]
  have hv : ∀ m : Mesh, m.slist = (g.before ++ g.pos :: g.after).map src → passVert m (.mk "vertices" [("id", .str g.vid)] none
          [.mk "input" [("semantic", .str "POSITION"), ("source", .str ("#" ++ g.pos.id))] none []]) =
        .ok { m with vid := some g.vid, vert := some (src g.pos) } := by
    intro m hm
    unfold passVert
    rw [if_pos (by rfl)]
    unfold evalVert
    simp only [Node.children, hu, hm, find_src _ _ _ hg.1]
    simp [Node.attrStr, Node.attr, Node.attrs]
  rw [hv _ (by simp [Mesh.init]), ok_bind89, e2]
  dsimp only
  rw [List.foldlM_append, e4, ok_bind89, List.foldlM_cons, show ∀ m, passFace m (.mk "vertices" [("id", .str g.vid)] none
          [.mk "input" [("semantic", .str "POSITION"), ("source", .str ("#" ++ g.pos.id))] none []]) = .ok m from fun m => by
    unfold passFace; rw [if_neg (by simp [Node.name])], ok_bind89, prims_eval g.vid g.pos.pts.length g.prims hg.2 _ rfl]
  simp [mesh, Mesh.init]

private theorem library_eval (gs : List Geometry) (h : ∀ g ∈ gs, g.Ok) : evalLibrary (gs.map Geometry.node) = .ok (gs.map mesh) := by
  unfold evalLibrary
  have : ∀ (gs : List Geometry) (_ : ∀ g ∈ gs, g.Ok) (l : List Mesh),
      (gs.map Geometry.node).foldlM (fun l np => if np.name = "geometry" then evalGeometry l np else .ok l) l = .ok (l ++ gs.map mesh) := by
    intro gs h
    induction gs with
    | nil => intro l; simp [pure, Except.pure]
    | cons g gs ih =>
      intro l
      rw [List.map_cons, List.foldlM_cons, if_pos (by rfl)]
      have e : evalGeometry l g.node = .ok (l ++ [mesh g]) := by
        unfold evalGeometry Geometry.node
        rw [show (Node.mk "geometry" [("id", Attr.str g.id)] none
    [.mk "mesh" [] none
      (g.before.map Array.node ++ g.pos.node :: g.after.map Array.node ++
        (.mk "vertices" [("id", .str g.vid)] none
          [.mk "input" [("semantic", .str "POSITION"), ("source", .str ("#" ++ g.pos.id))] none []]) ::
        g.prims.map (Tris.node g.vid))]).attrStr "id" = some g.id by simp [Node.attrStr, Node.attr, Node.attrs]]
        rw [Node.children, List.foldlM_cons, geometryChild, if_pos (by rfl), Node.children, mesh_eval g (h g List.mem_cons_self)]
        rfl
      rw [e, ok_bind89, ih (fun k hk => h k (List.mem_cons_of_mem _ hk))]
      simp
  simpa using this gs h []

/-! ## The scene -/

/-- The frame after a transformation. -/
private noncomputable def frameStep (τ : ℝ) (f : Frame3 ℝ) : Xf → Frame3 ℝ
  | .translate p => { f with pos := f.pos.add p }
  | .rotate a q => { f with att := f.att.rot τ (a.mul (deg2rad q)) }
  | .scale r => { f with att := ⟨f.att.x.mul r.x, f.att.y.mul r.y, f.att.z.mul r.z⟩ }
  | .matrix m s => ⟨(m.pos.div s m.pos).2, (m.att.div s m.att).2⟩

private noncomputable def frame (τ : ℝ) (xs : List Xf) : Frame3 ℝ := xs.foldl (frameStep τ) .ident

private theorem xf_loop (τ : ℝ) (ms : Option (List Mesh)) (k : Option ℕ) (xs : List Xf) (r : List Node) (f : Frame3 ℝ) :
    xfLoop τ ms f k (xs.map Xf.node ++ r) = xfLoop τ ms (xs.foldl (frameStep τ) f) k r := by
  induction xs generalizing f with
  | nil => rfl
  | cons x xs ih =>
    rw [List.map_cons, List.cons_append, List.foldl_cons, ← ih, xfLoop]
    cases x with
    | translate p =>
      rw [if_neg (by simp [Xf.node, Node.name]), if_pos (by rfl)]
      simp [xfNode, Xf.node, Node.content, scan, getTrans, Num.val, frameStep]
    | rotate a q =>
      rw [if_neg (by simp [Xf.node, Node.name]), if_neg (by simp [Xf.node, Node.name]), if_pos (by rfl)]
      simp [xfNode, Xf.node, Node.content, scan, getRot, Num.val, frameStep]
    | scale r =>
      rw [if_neg (by simp [Xf.node, Node.name]), if_neg (by simp [Xf.node, Node.name]), if_neg (by simp [Xf.node, Node.name]), if_pos (by rfl)]
      simp [xfNode, Xf.node, Node.content, scan, getScale, Num.val, frameStep]
    | matrix m s =>
      rw [if_pos (by rfl)]
      simp [xfNode, Xf.node, Node.content, scan, getXform, Num.val, frameStep]

/-- The meshes with frames by their identifiers. -/
private noncomputable def meshes (gs : List Geometry) (F : String → Frame3 ℝ) : List Mesh := gs.map fun g => { mesh g with f := F g.id }

private theorem inst_eval (τ : ℝ) (gs : List Geometry) (hd : (gs.map Geometry.id).Nodup) (F : String → Frame3 ℝ) (i : List Xf × String) :
    evalXform τ (some (meshes gs F)) (instNode i).children = .ok (some (meshes gs (Function.update F i.2 (frame τ i.1)))) := by
  have hf : ∀ gs : List Geometry, (gs.map Geometry.id).Nodup → ∃ r, meshFind (meshes gs F) i.2 = .ok r ∧
      (r = none → meshes gs F = meshes gs (Function.update F i.2 (frame τ i.1))) ∧
      ∀ k, r = some k → (meshes gs F).modify k (fun m => { m with f := frame τ i.1 }) = meshes gs (Function.update F i.2 (frame τ i.1)) := by
    intro gs hd
    induction gs with
    | nil => exact ⟨none, rfl, fun _ => rfl, fun k h => by simp at h⟩
    | cons g gs ih =>
      rw [List.map_cons, List.nodup_cons] at hd
      obtain ⟨r, h1, h2, h3⟩ := ih hd.2
      by_cases h : g.id = i.2
      · refine ⟨some 0, ?_, by simp, ?_⟩
        · simp [meshes, meshFind, mesh, h]
        · intro k hk
          obtain rfl : 0 = k := by simpa using hk
          have : ∀ k ∈ gs, k.id ≠ i.2 := fun k hk hki => hd.1 (h ▸ hki ▸ List.mem_map_of_mem hk)
          simp only [meshes, List.map_cons, List.modify_zero_cons, h, Function.update_self]
          congr 1
          apply List.map_congr_left
          intro k hk
          rw [Function.update_of_ne (this k hk)]
      · refine ⟨r.map (· + 1), ?_, ?_, ?_⟩
        · rw [meshes, List.map_cons, meshFind]
          simp only [mesh, if_neg h]
          have h1' := h1
          simp only [meshes, mesh] at h1'
          rw [h1']
        · intro hr
          have := h2 (by simpa using hr)
          simp only [meshes, List.map_cons, Function.update_of_ne h] at this ⊢
          rw [this]
        · intro k hk
          obtain ⟨j, hj, rfl⟩ := Option.map_eq_some_iff.1 hk
          have := h3 j hj
          simp only [meshes, List.map_cons, Function.update_of_ne h, List.modify_succ_cons] at this ⊢
          rw [this]
  obtain ⟨r, h1, h2, h3⟩ := hf gs hd
  unfold evalXform instNode
  rw [Node.children, xf_loop]
  have hu : uri (.mk "instance_geometry" [("url", .str ("#" ++ i.2))] none []) "url" = some i.2 :=
    uri_hash _ _ _ (by simp [Node.attrStr, Node.attr, Node.attrs])
  rw [xfLoop, if_neg (by simp [Node.name]), if_neg (by simp [Node.name]), if_neg (by simp [Node.name]), if_neg (by simp [Node.name]), if_pos (by rfl), hu]
  dsimp only
  rw [h1]
  dsimp only
  rw [xfLoop]
  cases r with
  | none => dsimp only; rw [← h2 rfl]
  | some k => dsimp only; rw [Option.map_some]; exact congrArg (fun l => Except.ok (some l)) (h3 k rfl)

private theorem scene_eval (τ : ℝ) (gs : List Geometry) (hd : (gs.map Geometry.id).Nodup) (scene : List (List Xf × String)) (F : String → Frame3 ℝ) :
    (scene.map instNode).foldlM (fun ms np => if np.name = "node" then evalXform τ ms np.children else .ok ms) (some (meshes gs F)) =
      .ok (some (meshes gs (scene.foldl (fun F i => Function.update F i.2 (frame τ i.1)) F))) := by
  induction scene generalizing F with
  | nil => rfl
  | cons i scene ih => rw [List.map_cons, List.foldlM_cons, if_pos (by rfl), inst_eval τ gs hd, ok_bind89, ih, List.foldl_cons]

/-- The frames of the geometries. -/
private noncomputable def frames (τ : ℝ) (scene : List (List Xf × String)) : String → Frame3 ℝ :=
  scene.foldl (fun F i => Function.update F i.2 (frame τ i.1)) fun _ => .ident

private theorem doc_eval (τ : ℝ) (gs : List Geometry) (h0 : gs ≠ []) (h : ∀ g ∈ gs, g.Ok) (hd : (gs.map Geometry.id).Nodup)
    (scene : List (List Xf × String)) : eval τ (doc gs scene) = .ok (meshes gs (frames τ scene)) := by
  unfold eval doc
  rw [if_neg (by simp [Node.name]), Node.children]
  simp only [List.foldlM_cons]
  rw [show rootChild τ none (.mk "asset" [] none []) = .ok none from by unfold rootChild; simp [Node.name], ok_bind89]
  rw [show rootChild τ none (.mk "library_geometries" [] none (gs.map Geometry.node)) = .ok (some (gs.map mesh)) from by
    unfold rootChild; rw [if_pos (by rfl), Node.children, library_eval gs h], ok_bind89]
  rw [show rootChild τ (some (gs.map mesh)) (.mk "library_visual_scenes" [] none [.mk "visual_scene" [] none (scene.map instNode)]) =
      .ok (some (meshes gs (frames τ scene))) from by
    unfold rootChild
    rw [if_neg (by simp [Node.name]), if_pos (by rfl), Node.children, evalScenes, List.find?_cons_of_pos (by simp [Node.name])]
    exact scene_eval τ gs hd scene fun _ => .ident, ok_bind89]
  rw [show rootChild τ (some (meshes gs (frames τ scene))) (.mk "scene" [] none []) = .ok (some (meshes gs (frames τ scene))) from by
    unfold rootChild; simp [Node.name], ok_bind89]
  cases gs with
  | nil => exact absurd rfl h0
  | cons g gs => rfl

private theorem frames_out (τ : ℝ) (scene : List (List Xf × String)) (id : String) (h : id ∉ scene.map Prod.snd) (F : String → Frame3 ℝ) :
    scene.foldl (fun F i => Function.update F i.2 (frame τ i.1)) F id = F id := by
  induction scene generalizing F with
  | nil => rfl
  | cons i scene ih =>
    simp only [List.map_cons, List.mem_cons, not_or] at h
    rw [List.foldl_cons, ih h.2, Function.update_of_ne h.1]

private theorem frames_in (τ : ℝ) (scene : List (List Xf × String)) (hd : (scene.map Prod.snd).Nodup) (i : List Xf × String) (h : i ∈ scene) :
    frames τ scene i.2 = frame τ i.1 := by
  unfold frames
  have : ∀ F : String → Frame3 ℝ, scene.foldl (fun F i => Function.update F i.2 (frame τ i.1)) F i.2 = frame τ i.1 := by
    induction scene with
    | nil => simp at h
    | cons j scene ih =>
      intro F
      rw [List.map_cons, List.nodup_cons] at hd
      rw [List.foldl_cons]
      rcases List.mem_cons.1 h with rfl | h
      · rw [frames_out τ scene _ hd.1, Function.update_self]
      · exact ih hd.2 h _
  exact this _

/-! ## Vertices and faces -/

private theorem verts_eval (gs : List Geometry) (F : String → Frame3 ℝ) :
    allVerts (meshes gs F) = .ok (gs.flatMap fun g => g.pos.pts.map (F g.id).xform) := by
  induction gs with
  | nil => rfl
  | cons g gs ih =>
    rw [meshes, List.map_cons, allVerts]
    have : meshVerts { mesh g with f := F g.id } = .ok (g.pos.pts.map (F g.id).xform) := by
      unfold meshVerts
      exact readVerts_src g.pos (F g.id)
    rw [this]
    dsimp only
    rw [meshes] at ih
    rw [ih]
    rfl

private theorem corner_eval (t : Tris) (n : ℕ) (c : Corner) (h : c.Ok t n) (r : List Num) :
    corner t.inputs t.voffset (c.nums ++ r) = .ok (c.v, r) := by
  obtain ⟨h1, h2, -⟩ := h
  have hl : c.nums.length = t.inputs := by simp [Corner.nums]; omega
  unfold corner
  rw [if_neg (by omega), if_neg (by rw [List.length_append, hl]; omega)]
  have hg : (c.nums ++ r)[t.voffset]? = some (.int c.v) := by
    rw [Corner.nums, List.append_assoc, List.getElem?_append_right (by simp [h1])]
    simp [h1]
  rw [hg]
  dsimp only
  rw [if_pos (by omega), ← hl, List.drop_left]
  simp

/-- The face of three corners. -/
private noncomputable def face3 (τ : ℝ) (vs : List (Vec3 ℝ)) (vo : ℕ) (c : Corner × Corner × Corner) : Face ℝ :=
  PH.mkFace τ (fun i => vs.getD i .zero) (vo + c.1.v) (vo + c.2.1.v) (vo + c.2.2.v)

private theorem faces_eval (τ : ℝ) (vs : List (Vec3 ℝ)) (vo n : ℕ) (hn : vo + n ≤ vs.length) (t : Tris) (ht : t.Ok n) :
    readFaces τ vs vo t.inputs t.voffset t.tris.length (if t.poly then some (t.tris.map fun _ => .int 3) else none) (some t.nums) =
      .ok (t.tris.map fun c => some (face3 τ vs vo c)) := by
  have : ∀ l : List (Corner × Corner × Corner), (∀ c ∈ l, c.1.Ok t n ∧ c.2.1.Ok t n ∧ c.2.2.Ok t n) →
      readFaces τ vs vo t.inputs t.voffset l.length (if t.poly then some (l.map fun _ => .int 3) else none)
        (some (l.flatMap fun c => c.1.nums ++ c.2.1.nums ++ c.2.2.nums)) = .ok (l.map fun c => some (face3 τ vs vo c)) := by
    intro l hl
    induction l with
    | nil => rfl
    | cons c l ih =>
      obtain ⟨h1, h2, h3⟩ := hl c List.mem_cons_self
      have ih := ih fun d hd => hl d (List.mem_cons_of_mem _ hd)
      have hr : readFace τ vs vo t.inputs t.voffset ((c :: l).flatMap fun c => c.1.nums ++ c.2.1.nums ++ c.2.2.nums) =
          .ok (face3 τ vs vo c, l.flatMap fun c => c.1.nums ++ c.2.1.nums ++ c.2.2.nums) := by
        rw [List.flatMap_cons, List.append_assoc, List.append_assoc]
        unfold readFace
        rw [corner_eval t n _ h1]
        dsimp only
        rw [corner_eval t n _ h2]
        dsimp only
        rw [corner_eval t n _ h3]
        dsimp only
        have a := h1.2.2; have b := h2.2.2; have d := h3.2.2
        rw [if_pos ⟨by omega, by omega, by omega⟩]
        rfl
      rw [List.length_cons]
      unfold readFaces
      cases hp : t.poly
      · simp only [hp, Bool.false_eq_true, if_false] at ih ⊢
        rw [hr]
        dsimp only
        rw [ih]
        rfl
      · simp only [hp, if_true, List.map_cons] at ih ⊢
        rw [hr]
        dsimp only
        rw [ih]
  exact this t.tris ht.2

private theorem prims_faces (τ : ℝ) (vs : List (Vec3 ℝ)) (vo n : ℕ) (hn : vo + n ≤ vs.length) (ts : List Tris) (ht : ∀ t ∈ ts, t.Ok n) :
    meshFaces τ vs vo (ts.map prim) = .ok (ts.flatMap fun t => t.tris.map fun c => some (face3 τ vs vo c)) := by
  induction ts with
  | nil => rfl
  | cons t ts ih =>
    rw [List.map_cons, meshFaces]
    simp only [prim]
    rw [faces_eval τ vs vo n hn t (ht t List.mem_cons_self)]
    dsimp only
    rw [ih fun u hu => ht u (List.mem_cons_of_mem _ hu)]
    rfl

/-- The faces of geometries. -/
private noncomputable def facesOf (τ : ℝ) (vs : List (Vec3 ℝ)) : ℕ → List Geometry → List (Face ℝ)
  | _, [] => []
  | vo, g :: gs => (g.prims.flatMap fun t => t.tris.map (face3 τ vs vo)) ++ facesOf τ vs (vo + g.pos.pts.length) gs

private theorem allFaces_eval (τ : ℝ) (F : String → Frame3 ℝ) (vs : List (Vec3 ℝ)) (gs : List Geometry) (hg : ∀ g ∈ gs, g.Ok) (vo : ℕ)
    (hn : vo + (gs.map fun g => g.pos.pts.length).sum ≤ vs.length) :
    allFaces τ vs vo (meshes gs F) = .ok ((facesOf τ vs vo gs).map some) := by
  induction gs generalizing vo with
  | nil => rfl
  | cons g gs ih =>
    rw [List.map_cons, List.sum_cons] at hn
    have ih := ih (fun k hk => hg k (List.mem_cons_of_mem _ hk)) (vo + g.pos.pts.length) (by omega)
    rw [meshes] at ih ⊢
    rw [List.map_cons, allFaces]
    have e : meshFaces τ vs vo (mesh g).plist = _ := prims_faces τ vs vo g.pos.pts.length (by omega) g.prims (hg g List.mem_cons_self).2
    rw [e]
    dsimp only
    rw [show vo + ((mesh g).vert.elim 0 Src.vcount) = vo + g.pos.pts.length from rfl, ih]
    simp only [facesOf, List.map_append, List.map_flatMap, List.map_map]
    rfl

private theorem read_eval (τ : ℝ) (gs : List Geometry) (h0 : gs ≠ []) (h : ∀ g ∈ gs, g.Ok) (hd : (gs.map Geometry.id).Nodup)
    (scene : List (List Xf × String)) :
    DAE.read τ (doc gs scene) = .ok ⟨gs.flatMap fun g => g.pos.pts.map (frames τ scene g.id).xform,
      (facesOf τ (gs.flatMap fun g => g.pos.pts.map (frames τ scene g.id).xform) 0 gs).map some⟩ := by
  unfold DAE.read
  rw [doc_eval τ gs h0 h hd]
  dsimp only
  rw [verts_eval]
  dsimp only
  rw [allFaces_eval τ _ _ gs h 0 (by simp [List.length_flatMap])]

/-! ## Transformations -/

private theorem scale_step (τ : ℝ) (f : Frame3 ℝ) (r p : Vec3 ℝ) : (frameStep τ f (.scale r)).xform p = f.xform ((Xf.scale r).apply p) := by
  simp only [frameStep, Xf.apply]; vring

private theorem scales (τ : ℝ) (ss : List (Vec3 ℝ)) (f : Frame3 ℝ) (p : Vec3 ℝ) :
    ((ss.map Xf.scale).foldl (frameStep τ) f).xform p = f.xform (place (ss.map .scale) p) := by
  induction ss generalizing f with
  | nil => rfl
  | cons r ss ih => rw [List.map_cons, List.foldl_cons, ih, scale_step]; rfl

private theorem trans_step (τ : ℝ) (f : Frame3 ℝ) (hf : f.att = .ident) (t p : Vec3 ℝ) :
    (frameStep τ f (.translate t)).xform p = f.xform ((Xf.translate t).apply p) := by
  simp only [frameStep, Xf.apply, Frame3.xform, hf]; vring

private theorem rot_eq {τ : ℝ} (hτ : 0 ≤ τ) (h1 : τ < 1 / 2) (a : Vec3 ℝ) (q : ℝ) (ha : a.x ^ 2 + a.y ^ 2 + a.z ^ 2 = 1)
    (hq : q = 0 ∨ ¬ (|a.x * (q * Real.pi / 180)| ≤ τ ∧ |a.y * (q * Real.pi / 180)| ≤ τ ∧ |a.z * (q * Real.pi / 180)| ≤ τ)) (p : Vec3 ℝ) :
    (Mat3.fromAA τ (a.mul (deg2rad q))).mulVec p = (Xf.rotate a q).apply p := by
  rcases hq with rfl | hq
  · rw [Mat3.fromAA, if_pos (by simp [Vec3.isTol, zIsTol, Vec3.mul, deg2rad, hτ])]
    simp only [Xf.apply, Zeo.Spec.rodrigues, zero_mul, zero_div, Real.cos_zero, Real.sin_zero, sub_self, zero_smul, one_smul, add_zero]
    simp only [Vec3.toFin, Matrix.cons_val_zero, Matrix.cons_val_one, Matrix.cons_val]
    vring
  · have hn : ¬ (|a.x| ≤ τ ∧ |a.y| ≤ τ ∧ |a.z| ≤ τ) := by
      rintro ⟨hx, hy, hz⟩
      have sq : ∀ x : ℝ, |x| ≤ τ → x ^ 2 ≤ τ ^ 2 := fun x h => by rw [← sq_abs]; exact pow_le_pow_left₀ (abs_nonneg _) h 2
      nlinarith [sq _ hx, sq _ hy, sq _ hz]
    have ht : Zeo.Spec.turn τ a q = a.mul (deg2rad q) := by
      rw [Zeo.Spec.turn, if_neg hn, ha, Real.sqrt_one, div_one]; rfl
    have := (C86_rot hτ a p q).2 hn (by rw [ht]; simpa [Vec3.mul, deg2rad, mul_comm] using hq)
    rw [ht, ha, Real.sqrt_one, inv_one, one_smul] at this
    apply toFin_inj89
    rw [this]
    simp only [Xf.apply]
    ext i
    fin_cases i <;> simp [Vec3.toFin]

private theorem rot_step {τ : ℝ} (hτ : 0 ≤ τ) (h1 : τ < 1 / 2) (a : Vec3 ℝ) (q : ℝ) (ha : a.x ^ 2 + a.y ^ 2 + a.z ^ 2 = 1)
    (hq : q = 0 ∨ ¬ (|a.x * (q * Real.pi / 180)| ≤ τ ∧ |a.y * (q * Real.pi / 180)| ≤ τ ∧ |a.z * (q * Real.pi / 180)| ≤ τ))
    (f : Frame3 ℝ) (hf : f.att = .ident) (p : Vec3 ℝ) : (frameStep τ f (.rotate a q)).xform p = f.xform ((Xf.rotate a q).apply p) := by
  rw [← rot_eq hτ h1 a q ha hq]
  simp only [frameStep, Frame3.xform, hf, Mat3.rot]
  generalize Mat3.fromAA τ (a.mul (deg2rad q)) = M
  vring

private theorem translates (τ : ℝ) (ts : List (Vec3 ℝ)) (f : Frame3 ℝ) (hf : f.att = .ident) :
    ((ts.map Xf.translate).foldl (frameStep τ) f).att = .ident ∧
    ∀ p, ((ts.map Xf.translate).foldl (frameStep τ) f).xform p = f.xform (place (ts.map .translate) p) := by
  induction ts generalizing f with
  | nil => exact ⟨hf, fun _ => rfl⟩
  | cons t ts ih =>
    rw [List.map_cons, List.foldl_cons]
    have hf' : (frameStep τ f (.translate t)).att = .ident := hf
    refine ⟨(ih _ hf').1, fun p => ?_⟩
    rw [(ih _ hf').2, trans_step τ f hf]
    rfl

private theorem ident_xform (p : Vec3 ℝ) : (Frame3.ident : Frame3 ℝ).xform p = p := by
  simp only [Frame3.ident]; vring

private theorem frame_tame {τ : ℝ} (hτ : 0 ≤ τ) (h1 : τ < 1 / 2) {xs : List Xf} (h : Tame τ xs) (p : Vec3 ℝ) : (frame τ xs).xform p = place xs p := by
  unfold frame
  rcases h with ⟨ss, ⟨m, s, hs, rfl⟩ | ⟨ts, rfl | ⟨a, q, ha, hq, rfl⟩⟩⟩
  · rw [List.foldl_cons, scales]
    simp only [place, List.foldr_cons]
    generalize List.foldr Xf.apply p _ = w
    simp only [frameStep, Vec3.div, Mat3.div, if_neg hs, Xf.apply, Frame3.xform]
    simp only [zeo, Mat3.mul]
    rw [Vec3.mk.injEq]
    refine ⟨?_, ?_, ?_⟩ <;> field_simp
  · rw [List.foldl_append, scales, (translates τ ts _ rfl).2, ident_xform]
    simp [place, List.foldr_append]
  · rw [List.foldl_append, List.foldl_cons, scales, rot_step hτ h1 a q ha hq _ (translates τ ts _ rfl).1, (translates τ ts _ rfl).2, ident_xform]
    simp [place, List.foldr_append]

private theorem faces_soup (τ : ℝ) (vs : List (Vec3 ℝ)) (l : List (Geometry × List Xf)) (hl : ∀ i ∈ l, i.1.Ok) (pre : List (Vec3 ℝ))
    (hv : vs = pre ++ l.flatMap fun i => i.1.pos.pts.map (place i.2)) :
    (facesOf τ vs pre.length (l.map Prod.fst)).map (fun f => (vs.getD f.i0 .zero, vs.getD f.i1 .zero, vs.getD f.i2 .zero)) = triangles l ∧
    ∀ f ∈ facesOf τ vs pre.length (l.map Prod.fst), f.i0 < vs.length ∧ f.i1 < vs.length ∧ f.i2 < vs.length ∧
      f.norm = (Tri3.create τ (vs.getD f.i0 .zero) (vs.getD f.i1 .zero) (vs.getD f.i2 .zero)).2.norm := by
  induction l generalizing pre with
  | nil => exact ⟨rfl, fun f hf => by simp [facesOf] at hf⟩
  | cons i l ih =>
    rw [List.map_cons, facesOf]
    have hv' : vs = (pre ++ i.1.pos.pts.map (place i.2)) ++ l.flatMap fun i => i.1.pos.pts.map (place i.2) := by
      rw [hv, List.flatMap_cons, List.append_assoc]
    obtain ⟨h1, h2⟩ := ih (fun j hj => hl j (List.mem_cons_of_mem _ hj)) _ hv'
    rw [List.length_append, List.length_map] at h1 h2
    have hi := hl i List.mem_cons_self
    have hlen : pre.length + i.1.pos.pts.length ≤ vs.length := by rw [hv']; simp
    have hg : ∀ k, k < i.1.pos.pts.length → vs.getD (pre.length + k) .zero = place i.2 (i.1.pos.pts.getD k .zero) := by
      intro k hk
      rw [hv', List.append_assoc, List.getD_eq_getElem?_getD, List.getElem?_append_right (by omega), Nat.add_sub_cancel_left,
        List.getElem?_append_left (by simpa using hk), List.getElem?_map, List.getD_eq_getElem?_getD, List.getElem?_eq_getElem hk]
      rfl
    constructor
    · rw [List.map_append, h1, List.map_flatMap, show triangles (i :: l) = (i.1.prims.flatMap fun t => t.tris.map fun c =>
        (place i.2 (i.1.pos.pts.getD c.1.v .zero), place i.2 (i.1.pos.pts.getD c.2.1.v .zero), place i.2 (i.1.pos.pts.getD c.2.2.v .zero))) ++
          triangles l from by simp only [triangles, List.flatMap_cons]]
      congr 1
      apply List.flatMap_congr
      intro t ht
      rw [List.map_map]
      apply List.map_congr_left
      intro c hc
      obtain ⟨a, b, d⟩ := (hi.2 t ht).2 c hc
      simp only [Function.comp_apply, face3, PH.mkFace, hg _ a.2.2, hg _ b.2.2, hg _ d.2.2]
    · intro f hf
      rcases List.mem_append.1 hf with hf | hf
      · obtain ⟨t, ht, hf⟩ := List.mem_flatMap.1 hf
        obtain ⟨c, hc, rfl⟩ := List.mem_map.1 hf
        obtain ⟨a, b, d⟩ := (hi.2 t ht).2 c hc
        have a := a.2.2; have b := b.2.2; have d := d.2.2
        exact ⟨by simp only [face3, PH.mkFace]; omega, by simp only [face3, PH.mkFace]; omega, by simp only [face3, PH.mkFace]; omega, rfl⟩
      · exact h2 f hf

/-! ## The theorems -/

/-- **C89** (`read`): a file of geometries of triangles, each shown once in the scene by a node of the usual form, is read as
what it says: the points of the geometries at their places, and the triangles at their places, as faces with valid
indices and the normal vectors of their corners.  The columns of the arrays, the other inputs, the other arrays, the order of
the nodes in the scene, `triangles` or `polylist` make no difference. -/
theorem C89_read {τ : ℝ} (hτ : 0 ≤ τ) (h1 : τ < 1 / 2) (l : List (Geometry × List Xf)) (h0 : l ≠ [])
    (hl : ∀ i ∈ l, i.1.Ok ∧ Tame τ i.2) (hd : (l.map fun i => i.1.id).Nodup) (scene : List (List Xf × String))
    (hs : scene.Perm (l.map fun i => (i.2, i.1.id))) :
    ∃ (vs : List (Vec3 ℝ)) (fs : List (Face ℝ)), DAE.read τ (doc (l.map Prod.fst) scene) = .ok ⟨vs, fs.map some⟩ ∧
      vs = (l.flatMap fun i => i.1.pos.pts.map (place i.2)) ∧
      fs.map (fun f => (vs.getD f.i0 .zero, vs.getD f.i1 .zero, vs.getD f.i2 .zero)) = triangles l ∧
      ∀ f ∈ fs, f.i0 < vs.length ∧ f.i1 < vs.length ∧ f.i2 < vs.length ∧
        f.norm = (Tri3.create τ (vs.getD f.i0 .zero) (vs.getD f.i1 .zero) (vs.getD f.i2 .zero)).2.norm := by
  have hok : ∀ g ∈ l.map Prod.fst, g.Ok := by
    intro g hg
    obtain ⟨i, hi, rfl⟩ := List.mem_map.1 hg
    exact (hl i hi).1
  have hd' : ((l.map Prod.fst).map Geometry.id).Nodup := by rw [List.map_map]; exact hd
  have hv : (l.map Prod.fst).flatMap (fun g => g.pos.pts.map (frames τ scene g.id).xform) = l.flatMap fun i => i.1.pos.pts.map (place i.2) := by
    rw [List.flatMap_map]
    apply List.flatMap_congr
    intro i hi
    apply List.map_congr_left
    intro p _
    have hn : (scene.map Prod.snd).Nodup := by
      rw [(hs.map Prod.snd).nodup_iff, List.map_map]
      exact hd
    rw [frames_in τ scene hn (i.2, i.1.id) (hs.mem_iff.2 (List.mem_map_of_mem hi)), frame_tame hτ h1 (hl i hi).2]
  have hr := read_eval τ (l.map Prod.fst) (by simpa using h0) hok hd' scene
  rw [hv] at hr
  have hf := faces_soup τ _ l (fun i hi => (hl i hi).1) [] rfl
  exact ⟨_, _, hr, rfl, hf.1, hf.2⟩

private theorem dots_ok (id : String) (pts : List (Vec3 ℝ)) : (dots id pts).Ok := ⟨by simp [dots], by simp [dots]⟩

/-- A triangle with normals in a polylist, its points stored as z, x, y. -/
private noncomputable def triangle89 : Geometry :=
  ⟨"g", [⟨"n", 1, [⟨0, 0, 1⟩]⟩], ⟨"p", finRotate 3, [⟨0, 0, 0⟩, ⟨1, 0, 0⟩, ⟨0, 1, 0⟩]⟩, [], "v",
    [⟨true, 1, [("NORMAL", 0, "n")], [], [(⟨[0], 0, []⟩, ⟨[0], 1, []⟩, ⟨[0], 2, []⟩)]⟩]⟩

/-- The hypotheses of `C89_read` are met by two geometries, one of them turned and moved, shown in the other order. -/
example : let l : List (Geometry × List Xf) := [(triangle89, [.translate ⟨1, 2, 3⟩, .rotate ⟨0, 0, 1⟩ 90, .scale ⟨2, 2, 2⟩]), (dots "h" [⟨1, 2, 3⟩], [])]
    l ≠ [] ∧ (∀ i ∈ l, i.1.Ok ∧ Tame (1 / 10) i.2) ∧ (l.map fun i => i.1.id).Nodup ∧
      [([], "h"), ([Xf.translate ⟨1, 2, 3⟩, .rotate ⟨0, 0, 1⟩ 90, .scale ⟨2, 2, 2⟩], "g")].Perm (l.map fun i => (i.2, i.1.id)) := by
  refine ⟨by simp, ?_, by simp [triangle89, dots], List.Perm.swap _ _ _⟩
  intro i hi
  rcases List.mem_cons.1 hi with rfl | hi
  · refine ⟨⟨by simp [triangle89], ?_⟩, [⟨2, 2, 2⟩], .inr ⟨[⟨1, 2, 3⟩], .inr ⟨⟨0, 0, 1⟩, 90, by norm_num, .inr ?_, rfl⟩⟩⟩
    · intro t ht
      simp only [triangle89, List.mem_singleton] at ht
      subst ht
      refine ⟨by simp, ?_⟩
      intro c hc
      simp only [List.mem_singleton] at hc
      subst hc
      simp [Corner.Ok, Tris.inputs, triangle89]
    · rintro ⟨-, -, h⟩
      have := Real.two_le_pi
      rw [abs_of_nonneg (by positivity)] at h
      dsimp only at h
      linarith
  · rw [List.mem_singleton.1 hi]
    exact ⟨dots_ok _ _, [], .inr ⟨[], .inl rfl⟩⟩

/-- **C89** (`count`): whatever the scene, every geometry is read once: the number of points is that of the geometries. -/
theorem C89_count (τ : ℝ) (gs : List Geometry) (h0 : gs ≠ []) (h : ∀ g ∈ gs, g.Ok) (hd : (gs.map Geometry.id).Nodup)
    (scene : List (List Xf × String)) :
    ∃ ph, DAE.read τ (doc gs scene) = .ok ph ∧ ph.vert.length = (gs.map fun g => g.pos.pts.length).sum ∧
      ph.face.length = (gs.map fun g => (g.prims.map fun t => t.tris.length).sum).sum ∧ none ∉ ph.face := by
  refine ⟨_, read_eval τ gs h0 h hd scene, by simp [List.length_flatMap], ?_, by simp⟩
  rw [List.length_map]
  generalize List.flatMap _ gs = vs
  generalize 0 = vo
  clear h0 h hd
  induction gs generalizing vo with
  | nil => rfl
  | cons g gs ih => rw [facesOf, List.length_append, ih]; simp [List.length_flatMap]

private theorem read_dot (τ : ℝ) (p : Vec3 ℝ) (xs : List Xf) :
    ∃ fs, DAE.read τ (doc [dots "g" [p]] [(xs, "g")]) = .ok ⟨[(frame τ xs).xform p], fs⟩ := by
  refine ⟨[], (read_eval τ [dots "g" [p]] (by simp) (by simpa using dots_ok "g" [p]) (by simp) [(xs, "g")]).trans ?_⟩
  rw [show ∀ vs, facesOf τ vs 0 [dots "g" [p]] = [] from fun _ => rfl]
  simp [dots, frames]

private theorem places_false {τ : ℝ} {ok : List Xf → Prop} (xs : List Xf) (hx : ok xs) (p : Vec3 ℝ) (h : (frame τ xs).xform p ≠ place xs p) :
    ¬ Places τ ok := by
  intro hp
  obtain ⟨fs, e⟩ := hp xs hx p
  obtain ⟨fs', e'⟩ := read_dot τ p xs
  rw [e] at e'
  simp only [Except.ok.injEq, Poly.mk.injEq, List.cons.injEq, and_true] at e'
  exact h e'.1.symm

private theorem cos90 : Real.cos (90 * Real.pi / 180) = 0 := by rw [show 90 * Real.pi / 180 = Real.pi / 2 by ring, Real.cos_pi_div_two]
private theorem sin90 : Real.sin (90 * Real.pi / 180) = 1 := by rw [show 90 * Real.pi / 180 = Real.pi / 2 by ring, Real.sin_pi_div_two]

private theorem rotz (p : Vec3 ℝ) : (Xf.rotate ⟨0, 0, 1⟩ 90).apply p = ⟨-p.y, p.x, p.z⟩ := by
  simp only [Xf.apply, Zeo.Spec.rodrigues, cos90, sin90]
  simp [Vec3.toFin, cross_apply, dotProduct, Fin.sum_univ_three]
private theorem rotx (p : Vec3 ℝ) : (Xf.rotate ⟨1, 0, 0⟩ 90).apply p = ⟨p.x, -p.z, p.y⟩ := by
  simp only [Xf.apply, Zeo.Spec.rodrigues, cos90, sin90]
  simp [Vec3.toFin, cross_apply, dotProduct, Fin.sum_univ_three]

/-- **C89** (refuted, `move`): a translation after a rotation is not turned by it. -/
theorem C89_move_false (τ : ℝ) : ¬ Places τ fun xs => ∃ a q t, a.x ^ 2 + a.y ^ 2 + a.z ^ 2 = 1 ∧ xs = [.rotate a q, .translate t] := by
  refine places_false [.rotate ⟨0, 0, 1⟩ 90, .translate ⟨1, 0, 0⟩] ⟨_, _, _, by norm_num, rfl⟩ .zero fun h => ?_
  have hp : place [.rotate ⟨0, 0, 1⟩ 90, .translate ⟨1, 0, 0⟩] .zero = ⟨0, 1, 0⟩ := by
    simp only [place, List.foldr_cons, List.foldr_nil, rotz]
    simp [Xf.apply, Vec3.zero]
  rw [hp] at h
  have := congrArg Vec3.x h
  simp [frame, frameStep, Frame3.xform, Frame3.ident, zeo] at this

/-- **C89** (refuted, `grow`): a translation after a scale is not scaled by it. -/
theorem C89_grow_false (τ : ℝ) : ¬ Places τ fun xs => ∃ r t, xs = [.scale r, .translate t] := by
  refine places_false [.scale ⟨2, 2, 2⟩, .translate ⟨1, 0, 0⟩] ⟨_, _, rfl⟩ .zero fun h => ?_
  have := congrArg Vec3.x h
  simp [frame, frameStep, Frame3.xform, Frame3.ident, zeo, place, Xf.apply] at this

/-- **C89** (refuted, `turns`): two rotations are applied in the wrong order. -/
theorem C89_turns_false {τ : ℝ} (hτ : 0 ≤ τ) (h1 : τ < 1 / 2) :
    ¬ Places τ fun xs => ∃ a q b r, a.x ^ 2 + a.y ^ 2 + a.z ^ 2 = 1 ∧ b.x ^ 2 + b.y ^ 2 + b.z ^ 2 = 1 ∧ xs = [.rotate a q, .rotate b r] := by
  refine places_false [.rotate ⟨0, 0, 1⟩ 90, .rotate ⟨1, 0, 0⟩ 90] ⟨_, _, _, _, by norm_num, by norm_num, rfl⟩ ⟨0, 1, 0⟩ fun h => ?_
  have hpi : ¬ |1 * (90 * Real.pi / 180)| ≤ τ := by
    have := Real.two_le_pi
    rw [abs_of_nonneg (by positivity)]
    linarith
  have hf : (frame τ [.rotate ⟨0, 0, 1⟩ 90, .rotate ⟨1, 0, 0⟩ 90]).xform ⟨0, 1, 0⟩ =
      (Xf.rotate ⟨1, 0, 0⟩ 90).apply ((Xf.rotate ⟨0, 0, 1⟩ 90).apply ⟨0, 1, 0⟩) := by
    rw [← rot_eq hτ h1 ⟨1, 0, 0⟩ 90 (by norm_num) (.inr fun h => hpi h.1), ← rot_eq hτ h1 ⟨0, 0, 1⟩ 90 (by norm_num) (.inr fun h => hpi h.2.2)]
    simp only [frame, List.foldl_cons, List.foldl_nil, frameStep, Frame3.ident, Mat3.rot, Frame3.xform]
    generalize Mat3.fromAA τ _ = M
    generalize Mat3.fromAA τ _ = N
    vring
  rw [hf, rotz, rotx] at h
  simp only [place, List.foldr_cons, List.foldr_nil, rotz, rotx] at h
  have := congrArg Vec3.x h
  norm_num at this

/-- **C89** (refuted, `matrix`): a matrix is not multiplied by what is in front of it. -/
theorem C89_matrix_false (τ : ℝ) : ¬ Places τ fun xs => ∃ t m s, s ≠ 0 ∧ xs = [.translate t, .matrix m s] := by
  refine places_false [.translate ⟨1, 0, 0⟩, .matrix .ident 1] ⟨_, _, _, one_ne_zero, rfl⟩ .zero fun h => ?_
  have := congrArg Vec3.x h
  simp [frame, frameStep, Frame3.xform, Frame3.ident, zeo, place, Xf.apply, Mat3.ident, Mat3.div, Vec3.div] at this

/-- **C89** (refuted, `twice`): a geometry that is shown twice does not appear at both places. -/
theorem C89_twice_false (τ : ℝ) : ¬ ∀ (g : Geometry) (scene : List (List Xf × String)), g.Ok →
    ∃ ph, DAE.read τ (doc [g] scene) = .ok ph ∧ ∀ i ∈ scene, i.2 = g.id → ∀ p ∈ g.pos.pts, place i.1 p ∈ ph.vert := by
  intro h
  obtain ⟨ph, e, hp⟩ := h (dots "g" [.zero]) [([.translate ⟨1, 0, 0⟩], "g"), ([], "g")] (dots_ok _ _)
  rw [read_eval τ [dots "g" [.zero]] (by simp) (by simpa using dots_ok "g" [.zero]) (by simp)] at e
  obtain rfl := (Except.ok.inj e).symm
  have := hp ([.translate ⟨1, 0, 0⟩], "g") List.mem_cons_self rfl .zero (by simp [dots])
  simp [dots, frames, frame, place, Xf.apply, Frame3.ident, Frame3.xform, zeo] at this

/-- **C89** (refuted, `hidden`): a geometry that the scene does not show is read all the same. -/
theorem C89_hidden_false (τ : ℝ) : ¬ ∀ (g : Geometry) (scene : List (List Xf × String)) (ph : Poly), g.Ok →
    DAE.read τ (doc [g] scene) = .ok ph → (∀ i ∈ scene, i.2 ≠ g.id) → ph.vert = [] := by
  intro h
  have := h (dots "g" [.zero]) [] _ (dots_ok _ _) (read_eval τ [dots "g" [.zero]] (by simp) (by simpa using dots_ok "g" [.zero]) (by simp) []) (by simp)
  simp [dots] at this

/-- **C89** (refuted, `library`): a file without geometries, and a file that is no COLLADA file, are not refused: a list
that was never initialized is used. -/
theorem C89_library_false (τ : ℝ) :
    DAE.read τ (.mk "COLLADA" [("version", .str "1.4.1")] none [.mk "asset" [] none []]) = .error .undef ∧
    ∀ nd : Node, nd.name ≠ "COLLADA" → DAE.read τ nd = .error .undef := by
  constructor
  · simp [DAE.read, eval, Node.name, Node.children, rootChild, pure, Except.pure, bind, Except.bind]
  · intro nd h
    unfold DAE.read eval
    rw [if_pos h]

private theorem read_one (τ : ℝ) (l : List Node) (m : Mesh) (h : evalMesh (some "g") l = .ok m) : eval τ (oneMesh l) = .ok [m] := by
  unfold eval oneMesh
  rw [if_neg (by simp [Node.name]), Node.children, List.foldlM_cons, rootChild, if_pos (by rfl), Node.children, evalLibrary,
    List.foldlM_cons, if_pos (by rfl), evalGeometry, Node.children, List.foldlM_cons, geometryChild, if_pos (by rfl), Node.children]
  rw [show (Node.mk "geometry" [("id", .str "g")] none [.mk "mesh" [] none l]).attrStr "id" = some "g" from by simp [Node.attrStr, Node.attr, Node.attrs], h]
  rfl

/-- The vertices of the square. -/
private def vertNode : Node :=
  .mk "vertices" [("id", .str "v")] none [.mk "input" [("semantic", .str "POSITION"), ("source", .str ("#" ++ "a"))] none []]

private theorem vert_of : vertSource vertNode.children = some "a" := by
  unfold vertNode
  rw [Node.children]
  unfold vertSource
  rw [if_pos (by simp [Node.name, Node.has, Node.attrs]), uri_hash _ _ "a" (by simp [Node.attrStr, Node.attr, Node.attrs])]

/-- **C89** (refuted, `polygon`): a polygon with more than three corners is not drawn, and the file is read without an error:
the polyhedron has a face whose vertices are NULL. -/
theorem C89_polygon_false (τ : ℝ) : ¬ ∀ (nd : Node) (ph : Poly), DAE.read τ nd = .ok ph → none ∉ ph.face := by
  intro h
  let a : Spec.Array := ⟨"a", 1, [⟨0, 0, 0⟩, ⟨1, 0, 0⟩, ⟨1, 1, 0⟩, ⟨0, 1, 0⟩]⟩
  let quad : Node := .mk "polylist" [("count", .int 1)] none
    [inputNode ("VERTEX", 0, "v"), .mk "vcount" [] (some [.int 4]) [], .mk "p" [] (some [.int 0, .int 1, .int 2, .int 3]) []]
  have hm : evalMesh (some "g") [a.node, vertNode, quad] =
      .ok ⟨[src a], some (src a), some "g", some "v", [⟨some [.int 4], 1, 1, 0, some [.int 0, .int 1, .int 2, .int 3]⟩], .ident⟩ := by
    unfold evalMesh
    simp only [List.foldlM_cons]
    have p1 : ∀ m, passSrc m a.node = .ok { m with slist := m.slist ++ [src a] } := fun m => by
      unfold passSrc; rw [if_pos (by rfl), src_eval]
    have p2 : ∀ m, passSrc m vertNode = .ok m := fun m => by unfold passSrc; rw [if_neg (by simp [vertNode, Node.name])]
    have p3 : ∀ m, passSrc m quad = .ok m := fun m => by unfold passSrc; rw [if_neg (by simp [quad, Node.name])]
    have q1 : ∀ m, passVert m a.node = .ok m := fun m => by unfold passVert; rw [if_neg (by simp [Array.node, Node.name])]
    have q2 : ∀ m : Mesh, m.slist = [src a] → passVert m vertNode = .ok { m with vid := some "v", vert := some (src a) } := fun m hm => by
      unfold passVert
      rw [if_pos (by rfl)]
      unfold evalVert
      rw [vert_of]
      simp [hm, srcFind, src, a, vertNode, Node.attrStr, Node.attr, Node.attrs]
    have q3 : ∀ m, passVert m quad = .ok m := fun m => by unfold passVert; rw [if_neg (by simp [quad, Node.name])]
    have r1 : ∀ m, passFace m a.node = .ok m := fun m => by unfold passFace; rw [if_neg (by simp [Array.node, Node.name])]
    have r2 : ∀ m, passFace m vertNode = .ok m := fun m => by unfold passFace; rw [if_neg (by simp [vertNode, Node.name])]
    have r3 : ∀ m : Mesh, m.vid = some "v" → passFace m quad =
        .ok { m with plist := m.plist ++ [⟨some [.int 4], 1, 1, 0, some [.int 0, .int 1, .int 2, .int 3]⟩] } := fun m hm => by
      unfold passFace
      rw [if_pos (by simp [quad, Node.name])]
      unfold evalFace
      rw [show quad.attr "count" = some (.int 1) from by simp [quad, Node.attr, Node.attrs]]
      simp only [Attr.nat, quad, Node.children, hm]
      rw [faceLoop, if_pos (by rfl), input_vert]
      simp [faceLoop, Node.name, Node.content, Prim.init]
    rw [p1, ok_bind89, p2, ok_bind89, p3, ok_bind89]
    dsimp only [List.foldlM_nil, pure, Except.pure]
    rw [q1, ok_bind89, q2 _ (by simp [Mesh.init]), ok_bind89, q3, ok_bind89]
    dsimp only [List.foldlM_nil, pure, Except.pure]
    rw [r1, ok_bind89, r2, ok_bind89, r3 _ rfl]
    rfl
  have hv : allVerts [⟨[src a], some (src a), some "g", some "v", [⟨some [.int 4], 1, 1, 0, some [.int 0, .int 1, .int 2, .int 3]⟩], .ident⟩] =
      .ok (a.pts.map (Frame3.ident : Frame3 ℝ).xform ++ []) := by
    unfold allVerts meshVerts
    simp only [src]
    have := readVerts_src a .ident
    simp only [src] at this
    rw [this]
    rfl
  have hr : DAE.read τ (oneMesh [a.node, vertNode, quad]) = .ok ⟨a.pts.map (Frame3.ident : Frame3 ℝ).xform ++ [], [none]⟩ := by
    unfold DAE.read
    rw [read_one τ _ _ hm]
    dsimp only
    rw [hv]
    simp [allFaces, meshFaces, readFaces]
  exact h _ _ hr (by simp)

/-- **C89** (refuted, `source`): vertices that refer to an array that is not there are used all the same, by a pointer that
is NULL. -/
theorem C89_source_false (τ : ℝ) : ¬ ∀ nd : Node, (∃ c ∈ nd.children, c.name = "library_geometries" ∧ c.children ≠ []) →
    DAE.read τ nd ≠ .error .undef := by
  intro h
  have hm : evalMesh (some "g") [vertNode] = .ok ⟨[], none, some "g", some "v", [], .ident⟩ := by
    unfold evalMesh
    simp only [List.foldlM_cons]
    rw [show ∀ m, passSrc m vertNode = .ok m from fun m => by unfold passSrc; rw [if_neg (by simp [vertNode, Node.name])], ok_bind89]
    dsimp only [List.foldlM_nil, pure, Except.pure]
    rw [show passVert { Mesh.init with id := some "g" } vertNode = .ok { Mesh.init with id := some "g", vid := some "v", vert := none } from by
      unfold passVert
      rw [if_pos (by rfl)]
      unfold evalVert
      rw [vert_of]
      simp [srcFind, vertNode, Node.attrStr, Node.attr, Node.attrs, Mesh.init], ok_bind89]
    dsimp only [List.foldlM_nil, pure, Except.pure]
    rw [show ∀ m, passFace m vertNode = .ok m from fun m => by unfold passFace; rw [if_neg (by simp [vertNode, Node.name])], ok_bind89]
    rfl
  apply h (oneMesh [vertNode]) ⟨_, List.mem_cons_self, rfl, by simp [Node.children]⟩
  unfold DAE.read
  rw [read_one τ _ _ hm]
  rfl

/-- **C89** (refuted, `accessor`): an accessor with a fourth named parameter is not refused: it is written behind the three
that there are. -/
theorem C89_accessor_false (τ : ℝ) : DAE.read τ (oneMesh [.mk "source" [("id", .str "a")] none
    [.mk "float_array" [("count", .int 3)] (some [.real 1, .real 2, .real 3]) [],
     .mk "technique_common" [] none [.mk "accessor" [("count", .int 1), ("stride", .int 3)] none
      [.mk "param" [("name", .str "X")] none [], .mk "param" [("name", .str "Y")] none [], .mk "param" [("name", .str "Z")] none [],
       .mk "param" [("name", .str "X2")] none []]]]]) = .error .undef := by
  have hs : evalSrc (.mk "source" [("id", .str "a")] none
    [.mk "float_array" [("count", .int 3)] (some [.real 1, .real 2, .real 3]) [],
     .mk "technique_common" [] none [.mk "accessor" [("count", .int 1), ("stride", .int 3)] none
      [.mk "param" [("name", .str "X")] none [], .mk "param" [("name", .str "Y")] none [], .mk "param" [("name", .str "Z")] none [],
       .mk "param" [("name", .str "X2")] none []]]]) = .error .undef := by
    simp [evalSrc, Node.children, srcChild, Node.name, evalFloatArray, Node.attrs, countAttr, Attr.nat, evalAccessor, accessorAttr, params,
      setAccessor, setAccessorAttr, coordOf, Node.content, bind, Except.bind, pure, Except.pure]
  unfold DAE.read eval oneMesh
  rw [if_neg (by simp [Node.name]), Node.children, List.foldlM_cons, rootChild, if_pos (by rfl), Node.children, evalLibrary,
    List.foldlM_cons, if_pos (by rfl), evalGeometry, Node.children, List.foldlM_cons, geometryChild, if_pos (by rfl), Node.children,
    evalMesh, List.foldlM_cons, passSrc, if_pos (by rfl), hs]
  rfl

end Zeo
