import Verif.Model.PH
import Verif.Model.Mat3
import Verif.Model.Frame

/-! # DAE (COLLADA) files: src/zeo_ph3d_dae.c

The file is parsed by libxml2 and the macros `zXML…` of the ZEDA library, neither of which is part of /repo.  What is
assumed of them:

* `xmlReadFile` gives a tree of elements; text is kept only as the content of its element;
* `zXMLForEachNode` goes through the siblings in the order of the file, `zXMLForEachAttr` through the attributes;
* `zXMLFindNodeElement` finds the first sibling with the name; `zXMLFindNodeAttr` gives the value of the first attribute
  with the name, or NULL;
* `zXMLCheckElementAndExec` and `zXMLCheckAttrAndExec` evaluate the expression when the names match and ignore its value.

Contents are lists of numbers, attributes are strings or natural numbers.  `uint` does not overflow.  `zListInsertHead`
with `zListForEach` (from the tail) keeps the order of insertion.  Allocations succeed and give zeros (`calloc`). -/

namespace Zeo.DAE
noncomputable section
open Classical

/-- A number in a content. -/
inductive Num
  | real (x : ℝ)
  | int (n : ℤ)

/-- `atof`. -/
def Num.val : Num → ℝ
  | .real x => x
  | .int n => n

/-- The value of an attribute. -/
inductive Attr
  | str (s : String)
  | int (n : ℕ)
deriving DecidableEq

/-- An element: name, attributes, content, children. -/
inductive Node
  | mk (name : String) (attrs : List (String × Attr)) (content : Option (List Num)) (children : List Node)

def Node.name : Node → String | .mk n _ _ _ => n
def Node.attrs : Node → List (String × Attr) | .mk _ a _ _ => a
def Node.content : Node → Option (List Num) | .mk _ _ c _ => c
def Node.children : Node → List Node | .mk _ _ _ c => c

/-- How reading fails: NULL is returned; the behaviour is undefined; something not modelled is needed. -/
inductive Err
  | null
  | undef
  | unmodelled

/-- `zXMLFindNodeAttr` of the ZEDA library. -/
def Node.attr (nd : Node) (name : String) : Option Attr := (nd.attrs.find? fun a => a.1 = name).map Prod.snd
/-- The same, as a string. -/
def Node.attrStr (nd : Node) (name : String) : Option String :=
  match nd.attr name with
  | some (.str s) => some s
  | some (.int n) => some (toString n)
  | none => none
/-- `atoi` of an attribute. -/
def Attr.nat : Attr → Except Err ℕ
  | .int n => .ok n
  | .str _ => .error .unmodelled

/-- `zDAESrc`, src/zeo_ph3d_dae.c:11-19; the type is `some true` for `ZEO_DAE_XYZ`, `some false` for `ZEO_DAE_TEXTURE`. -/
structure Src where
  id : Option String
  count : ℕ
  vcount : ℕ
  stride : ℕ
  content : Option (List Num)
  acc : Fin 3 → Fin 3
  type : Option Bool

/-- `_zDAESrcInit`, src/zeo_ph3d_dae.c:21-29. -/
def Src.init : Src := ⟨none, 0, 0, 0, none, fun _ => 0, none⟩

/-- `_zDAESrcFind`, src/zeo_ph3d_dae.c:33-41.  A source without identifier in front is compared with NULL. -/
def srcFind : List Src → String → Except Err (Option Src)
  | [], _ => .ok none
  | s :: l, id => match s.id with
    | none => .error .undef
    | some i => if i = id then .ok (some s) else srcFind l id

/-- `zDAEPrimitive`, src/zeo_ph3d_dae.c:44-50. -/
structure Prim where
  vcount : Option (List Num)
  pcount : ℕ
  ni : ℕ
  voffset : ℕ
  p : Option (List Num)

/-- `_zDAEPrimitiveInit`, src/zeo_ph3d_dae.c:52-59. -/
def Prim.init : Prim := ⟨none, 0, 0, 0, none⟩

/-- `zDAEMesh`, src/zeo_ph3d_dae.c:64-71. -/
structure Mesh where
  slist : List Src
  vert : Option Src
  id : Option String
  vid : Option String
  plist : List Prim
  f : Frame3 ℝ

/-- `_zDAEMeshInit`, src/zeo_ph3d_dae.c:73-81. -/
def Mesh.init : Mesh := ⟨[], none, none, none, [], .ident⟩

/-- `_zDAEMeshListFind`, src/zeo_ph3d_dae.c:102-110: the offset of the mesh.  A mesh without identifier in front is
compared with NULL. -/
def meshFind : List Mesh → String → Except Err (Option ℕ)
  | [], _ => .ok none
  | m :: l, id => match m.id with
    | none => .error .undef
    | some i => if i = id then .ok (some 0) else match meshFind l id with
      | .ok r => .ok (r.map (· + 1))
      | .error e => .error e

/-- An attribute of an array, src/zeo_ph3d_dae.c:118-120. -/
def countAttr (s : Src) (a : String × Attr) : Except Err Src :=
  if a.1 = "count" then match a.2.nat with
    | .ok n => .ok { s with count := n }
    | .error e => .error e
  else .ok s

/-- `_zDAESrcEvalFloatArray`, src/zeo_ph3d_dae.c:114-123. -/
def evalFloatArray (s : Src) (nd : Node) : Except Err Src :=
  match nd.attrs.foldlM countAttr s with
  | .ok s => .ok { s with content := nd.content }
  | .error e => .error e

/-- The cases at src/zeo_ph3d_dae.c:132-136. -/
def coordOf : Char → Option (Fin 3 × Bool)
  | 'x' => some (0, true) | 'X' => some (0, true)
  | 'y' => some (1, true) | 'Y' => some (1, true)
  | 'z' => some (2, true) | 'Z' => some (2, true)
  | 's' => some (0, false) | 'S' => some (0, false)
  | 't' => some (1, false) | 'T' => some (1, false)
  | _ => none

/-- One attribute in `_zDAESrcSetAccessor`, src/zeo_ph3d_dae.c:129-138: beyond the third parameter, it is written outside
of the array. -/
def setAccessorAttr (i : ℕ) (s : Src) (a : String × Attr) : Except Err Src :=
  if a.1 = "name" then match a.2 with
    | .int _ => .ok s
    | .str v => match v.toList.head? with
      | none => .ok s
      | some c => match coordOf c with
        | none => .ok s
        | some (k, t) => if h : i < 3 then .ok { s with acc := Function.update s.acc ⟨i, h⟩ k, type := some t } else .error .undef
  else .ok s

/-- `_zDAESrcSetAccessor`, src/zeo_ph3d_dae.c:125-141. -/
def setAccessor (s : Src) (i : ℕ) (nd : Node) : Except Err Src := nd.attrs.foldlM (setAccessorAttr i) s

/-- The loop of parameters, src/zeo_ph3d_dae.c:162-168. -/
def params (s : Src) (i : ℕ) : List Node → Except Err Src
  | [] => .ok s
  | np :: r =>
    if np.name = "param" then match setAccessor s i np with
      | .error e => .error e
      | .ok s => if s.stride < i + 1 then .ok s else params s (i + 1) r
    else params s i r

/-- One attribute of the accessor, src/zeo_ph3d_dae.c:153-156. -/
def accessorAttr (s : Src) (a : String × Attr) : Except Err Src :=
  if a.1 = "count" then match a.2.nat with
    | .ok n => .ok { s with vcount := n }
    | .error e => .error e
  else if a.1 = "stride" then match a.2.nat with
    | .ok n => .ok { s with stride := n }
    | .error e => .error e
  else .ok s

/-- `_zDAESrcEvalAccessor`, src/zeo_ph3d_dae.c:143-170; the return value is ignored by the caller. -/
def evalAccessor (s : Src) (nds : List Node) : Except Err Src :=
  match nds.find? (fun n => n.name = "accessor") with
  | none => .ok s
  | some nd => match nd.attrs.foldlM accessorAttr s with
    | .error e => .error e
    | .ok s => if s.vcount * s.stride ≠ s.count then .ok s else params s 0 nd.children

/-- One child of a source, src/zeo_ph3d_dae.c:184-187. -/
def srcChild (s : Src) (np : Node) : Except Err Src :=
  if np.name = "float_array" then evalFloatArray s np
  else if np.name = "technique_common" then evalAccessor s np.children
  else .ok s

/-- `_zDAESrcEval`, src/zeo_ph3d_dae.c:172-189. -/
def evalSrc (nd : Node) : Except Err Src := nd.children.foldlM srcChild { Src.init with id := nd.attrStr "id" }

/-- `_zDAEEvalURI`, src/zeo_ph3d_dae.c:191-204. -/
def uri (nd : Node) (name : String) : Option String :=
  match nd.attrStr name with
  | none => none
  | some s => match s.toList with
    | '#' :: r => some (String.ofList r)
    | _ => none

/-- `zXMLCheckAttrVal` for one of the attributes. -/
def Node.has (nd : Node) (name val : String) : Bool := nd.attrs.any fun a => a.1 = name ∧ a.2 = .str val

/-- The first input that gives a source in `_zDAESrcEvalVert`, src/zeo_ph3d_dae.c:213-217. -/
def vertSource : List Node → Option String
  | [] => none
  | np :: r => if np.name = "input" ∧ np.has "semantic" "POSITION" then match uri np "source" with
      | some s => some s
      | none => vertSource r
    else vertSource r

/-- `_zDAESrcEvalVert`, src/zeo_ph3d_dae.c:206-231: the pointer is stored before it is checked, and the return value is
ignored by the caller. -/
def evalVert (m : Mesh) (nd : Node) : Except Err Mesh :=
  match vertSource nd.children with
  | none => .ok { m with vid := nd.attrStr "id" }
  | some id => match srcFind m.slist id with
    | .error e => .error e
    | .ok s => .ok { m with vid := nd.attrStr "id", vert := s }

/-- An input of a primitive, src/zeo_ph3d_dae.c:250-261; the flag is false where `false` is returned. -/
def evalInput (vid : Option String) (p : Prim) (np : Node) : Except Err (Prim × Bool) :=
  match np.attr "offset" with
  | none => .error .undef
  | some a => match a.nat with
    | .error e => .error e
    | .ok off =>
      let p := if p.ni < off then { p with ni := off } else p
      if np.has "semantic" "VERTEX" then match uri np "source" with
        | none => .ok (p, false)
        | some s => match vid with
          | none => .error .undef
          | some v => .ok ({ p with voffset := off }, decide (v = s))
      else .ok (p, true)

/-- The loop at src/zeo_ph3d_dae.c:249-268 and the increment at 269. -/
def faceLoop (vid : Option String) (p : Prim) : List Node → Except Err Prim
  | [] => .ok { p with ni := p.ni + 1 }
  | np :: r =>
    if np.name = "input" then match evalInput vid p np with
      | .error e => .error e
      | .ok (p, true) => faceLoop vid p r
      | .ok (p, false) => .ok p
    else if np.name = "vcount" then faceLoop vid { p with vcount := np.content } r
    else if np.name = "p" then faceLoop vid { p with p := np.content } r
    else faceLoop vid p r

/-- `_zDAEPrimitiveEvalFace`, src/zeo_ph3d_dae.c:233-271. -/
def evalFace (m : Mesh) (nd : Node) : Except Err Mesh :=
  match nd.attr "count" with
  | none => .error .undef
  | some a => match a.nat with
    | .error e => .error e
    | .ok n => match faceLoop m.vid { Prim.init with pcount := n } nd.children with
      | .error e => .error e
      | .ok p => .ok { m with plist := m.plist ++ [p] }

/-- The three passes of `_zDAEMeshEval`, src/zeo_ph3d_dae.c:285-296. -/
def passSrc (m : Mesh) (np : Node) : Except Err Mesh :=
  if np.name = "source" then match evalSrc np with
    | .ok s => .ok { m with slist := m.slist ++ [s] }
    | .error e => .error e
  else .ok m
/-- The second pass. -/
def passVert (m : Mesh) (np : Node) : Except Err Mesh := if np.name = "vertices" then evalVert m np else .ok m
/-- The third pass. -/
def passFace (m : Mesh) (np : Node) : Except Err Mesh :=
  if np.name = "polylist" ∨ np.name = "triangles" then evalFace m np else .ok m

/-- `_zDAEMeshEval`, src/zeo_ph3d_dae.c:273-298. -/
def evalMesh (id : Option String) (nds : List Node) : Except Err Mesh :=
  match nds.foldlM passSrc { Mesh.init with id := id } with
  | .error e => .error e
  | .ok m => match nds.foldlM passVert m with
    | .error e => .error e
    | .ok m => nds.foldlM passFace m

/-- A child of a geometry, src/zeo_ph3d_dae.c:306-308. -/
def geometryChild (id : Option String) (l : List Mesh) (np : Node) : Except Err (List Mesh) :=
  if np.name = "mesh" then match evalMesh id np.children with
    | .ok m => .ok (l ++ [m])
    | .error e => .error e
  else .ok l

/-- `_zDAEMeshEvalGeometry`, src/zeo_ph3d_dae.c:300-310. -/
def evalGeometry (l : List Mesh) (nd : Node) : Except Err (List Mesh) :=
  nd.children.foldlM (geometryChild (nd.attrStr "id")) l

/-- `_zDAEEvalLibraryGeometries`, src/zeo_ph3d_dae.c:312-322: the list is initialized anew. -/
def evalLibrary (nds : List Node) : Except Err (List Mesh) :=
  nds.foldlM (fun l np => if np.name = "geometry" then evalGeometry l np else .ok l) []

/-- The numbers of a content as `sscanf` reads them: missing ones are left undefined. -/
def scan (n : ℕ) (c : List Num) : Except Err (ℕ → ℝ) :=
  if c.length < n then .error .undef else .ok fun i => (c.getD i (.int 0)).val

/-- `zDeg2Rad` of ZM. -/
def deg2rad (q : ℝ) : ℝ := q * Real.pi / 180

/-- `_zDAEGetXform`, src/zeo_ph3d_dae.c:324-341, once the content is known. -/
def getXform (v : ℕ → ℝ) (_ : Frame3 ℝ) : Frame3 ℝ :=
  let pos : Vec3 ℝ := ⟨v 3, v 7, v 11⟩
  let att : Mat3 ℝ := ⟨⟨v 0, v 4, v 8⟩, ⟨v 1, v 5, v 9⟩, ⟨v 2, v 6, v 10⟩⟩
  ⟨(pos.div (v 15) pos).2, (att.div (v 15) att).2⟩
/-- `_zDAEGetTrans`, src/zeo_ph3d_dae.c:343-355. -/
def getTrans (v : ℕ → ℝ) (f : Frame3 ℝ) : Frame3 ℝ := { f with pos := f.pos.add ⟨v 0, v 1, v 2⟩ }
/-- `_zDAEGetRot`, src/zeo_ph3d_dae.c:357-371. -/
def getRot (τ : ℝ) (v : ℕ → ℝ) (f : Frame3 ℝ) : Frame3 ℝ :=
  { f with att := f.att.rot τ ((⟨v 0, v 1, v 2⟩ : Vec3 ℝ).mul (deg2rad (v 3))) }
/-- `_zDAEGetScale`, src/zeo_ph3d_dae.c:373-393. -/
def getScale (v : ℕ → ℝ) (f : Frame3 ℝ) : Frame3 ℝ :=
  { f with att := ⟨f.att.x.mul (v 0), f.att.y.mul (v 1), f.att.z.mul (v 2)⟩ }

/-- A transformation of a node: nothing without content. -/
def xfNode (n : ℕ) (g : (ℕ → ℝ) → Frame3 ℝ → Frame3 ℝ) (f : Frame3 ℝ) (np : Node) : Except Err (Frame3 ℝ) :=
  match np.content with
  | none => .ok f
  | some c => match scan n c with
    | .error e => .error e
    | .ok v => .ok (g v f)

/-- The loop of `_zDAEEvalXform`, src/zeo_ph3d_dae.c:403-412: the frame and the mesh; `none` where `false` is returned.
`ms` is `none` while the list of meshes is not initialized. -/
def xfLoop (τ : ℝ) (ms : Option (List Mesh)) (f : Frame3 ℝ) (mesh : Option ℕ) : List Node → Except Err (Option (Frame3 ℝ × Option ℕ))
  | [] => .ok (some (f, mesh))
  | np :: r =>
    if np.name = "matrix" then match xfNode 16 getXform f np with
      | .error e => .error e
      | .ok f => xfLoop τ ms f mesh r
    else if np.name = "translate" then match xfNode 3 getTrans f np with
      | .error e => .error e
      | .ok f => xfLoop τ ms f mesh r
    else if np.name = "rotate" then match xfNode 4 (getRot τ) f np with
      | .error e => .error e
      | .ok f => xfLoop τ ms f mesh r
    else if np.name = "scale" then match xfNode 3 getScale f np with
      | .error e => .error e
      | .ok f => xfLoop τ ms f mesh r
    else if np.name = "instance_geometry" then match uri np "url" with
      | none => .ok none
      | some id => match ms with
        | none => .error .undef
        | some l => match meshFind l id with
          | .error e => .error e
          | .ok m => xfLoop τ ms f m r
    else xfLoop τ ms f mesh r

/-- `_zDAEEvalXform`, src/zeo_ph3d_dae.c:395-416. -/
def evalXform (τ : ℝ) (ms : Option (List Mesh)) (nds : List Node) : Except Err (Option (List Mesh)) :=
  match xfLoop τ ms .ident none nds with
  | .error e => .error e
  | .ok none => .ok ms
  | .ok (some (_, none)) => .ok ms
  | .ok (some (f, some i)) => .ok (ms.map fun l => l.modify i fun m => { m with f := f })

/-- `_zDAEEvalLibraryVisualScenes`, src/zeo_ph3d_dae.c:418-430; the return value is ignored by the caller. -/
def evalScenes (τ : ℝ) (ms : Option (List Mesh)) (nds : List Node) : Except Err (Option (List Mesh)) :=
  match nds.find? (fun n => n.name = "visual_scene") with
  | none => .ok ms
  | some nd => nd.children.foldlM (fun ms np => if np.name = "node" then evalXform τ ms np.children else .ok ms) ms

/-- A child of the root, src/zeo_ph3d_dae.c:440-443. -/
def rootChild (τ : ℝ) (ms : Option (List Mesh)) (np : Node) : Except Err (Option (List Mesh)) :=
  if np.name = "library_geometries" then match evalLibrary np.children with
    | .ok l => .ok (some l)
    | .error e => .error e
  else if np.name = "library_visual_scenes" then evalScenes τ ms np.children
  else .ok ms

/-- `_zDAEEval`, src/zeo_ph3d_dae.c:432-452, and the end of `zPH3DReadFileDAE`: without the root `COLLADA` the list of meshes
is never initialized, and `_zDAEMeshListDestroy` (91-100) goes through it at 537. -/
def eval (τ : ℝ) (root : Node) : Except Err (List Mesh) :=
  if root.name ≠ "COLLADA" then .error .undef
  else match root.children.foldlM (rootChild τ) none with
    | .error e => .error e
    | .ok none => .error .undef
    | .ok (some []) => .error .null
    | .ok (some l) => .ok l

/-- The coordinates of a vertex, src/zeo_ph3d_dae.c:476-479, from the `j`-th on.  What `zSTokenSkim` gives behind the end
of the content is not modelled. -/
def coords (acc : Fin 3 → Fin 3) : ℕ → ℕ → Vec3 ℝ → List Num → Except Err (Vec3 ℝ × List Num)
  | 0, _, v, c => .ok (v, c)
  | _ + 1, _, _, [] => .error .unmodelled
  | k + 1, j, v, x :: c => if h : j < 3 then coords acc k (j + 1) (v.setE (acc ⟨j, h⟩) x.val) c else .error .undef

/-- The vertices of a mesh, src/zeo_ph3d_dae.c:475-481. -/
def readVerts (s : Src) (f : Frame3 ℝ) : ℕ → List Num → Except Err (List (Vec3 ℝ))
  | 0, _ => .ok []
  | n + 1, c => match coords s.acc s.stride 0 .zero c with
    | .error e => .error e
    | .ok (v, c) => match readVerts s f n c with
      | .error e => .error e
      | .ok l => .ok (f.xform v :: l)

/-- A turn of the loop over meshes, src/zeo_ph3d_dae.c:473-484.  Without content, NULL is read. -/
def meshVerts (m : Mesh) : Except Err (List (Vec3 ℝ)) :=
  match m.vert with
  | none => .error .undef
  | some s => match s.content with
    | some c => readVerts s m.f s.vcount c
    | none => if s.vcount * s.stride = 0 then readVerts s m.f s.vcount [] else .error .undef

/-- A corner of a face, src/zeo_ph3d_dae.c:502-505. -/
def corner (ni voff : ℕ) (c : List Num) : Except Err (ℕ × List Num) :=
  if ni ≤ voff then .error .undef
  else if c.length < ni then .error .unmodelled
  else match c[voff]? with
    | some (.int n) => if 0 ≤ n then .ok (n.toNat, c.drop ni) else .error .undef
    | _ => .error .unmodelled

/-- A face, src/zeo_ph3d_dae.c:501-507. -/
def readFace (τ : ℝ) (vert : List (Vec3 ℝ)) (vo ni voff : ℕ) (c : List Num) : Except Err (Face ℝ × List Num) :=
  match corner ni voff c with
  | .error e => .error e
  | .ok (i, c) => match corner ni voff c with
    | .error e => .error e
    | .ok (j, c) => match corner ni voff c with
      | .error e => .error e
      | .ok (k, c) =>
        if vo + i < vert.length ∧ vo + j < vert.length ∧ vo + k < vert.length then
          .ok (PH.mkFace τ (fun i => vert.getD i .zero) (vo + i) (vo + j) (vo + k), c)
        else .error .undef

/-- The faces of a primitive, src/zeo_ph3d_dae.c:493-510; `none` is a face that is left as allocated, with NULL for its
vertices. -/
def readFaces (τ : ℝ) (vert : List (Vec3 ℝ)) (vo ni voff : ℕ) : ℕ → Option (List Num) → Option (List Num) → Except Err (List (Option (Face ℝ)))
  | 0, _, _ => .ok []
  | n + 1, vc, p =>
    let go := fun vc => match p with
      | none => .error .undef
      | some c => match readFace τ vert vo ni voff c with
        | .error e => .error e
        | .ok (f, c) => match readFaces τ vert vo ni voff n vc (some c) with
          | .error e => .error e
          | .ok l => .ok (some f :: l)
    match vc with
    | none => go none
    | some (.int k :: vc) => if k = 3 then go (some vc) else .ok (List.replicate (n + 1) none)
    | some _ => .error .unmodelled

/-- The faces of a mesh, src/zeo_ph3d_dae.c:490-513. -/
def meshFaces (τ : ℝ) (vert : List (Vec3 ℝ)) (vo : ℕ) : List Prim → Except Err (List (Option (Face ℝ)))
  | [] => .ok []
  | p :: ps => match readFaces τ vert vo p.ni p.voffset p.pcount p.vcount p.p with
    | .error e => .error e
    | .ok l => match meshFaces τ vert vo ps with
      | .error e => .error e
      | .ok l' => .ok (l ++ l')

/-- What is read: the vertices, and the faces as they are stored. -/
structure Poly where
  vert : List (Vec3 ℝ)
  face : List (Option (Face ℝ))

/-- All vertices, src/zeo_ph3d_dae.c:471-484. -/
def allVerts : List Mesh → Except Err (List (Vec3 ℝ))
  | [] => .ok []
  | m :: ms => match meshVerts m with
    | .error e => .error e
    | .ok l => match allVerts ms with
      | .error e => .error e
      | .ok l' => .ok (l ++ l')

/-- All faces, src/zeo_ph3d_dae.c:487-514. -/
def allFaces (τ : ℝ) (vert : List (Vec3 ℝ)) : ℕ → List Mesh → Except Err (List (Option (Face ℝ)))
  | _, [] => .ok []
  | vo, m :: ms => match meshFaces τ vert vo m.plist with
    | .error e => .error e
    | .ok l => match allFaces τ vert (vo + (m.vert.elim 0 Src.vcount)) ms with
      | .error e => .error e
      | .ok l' => .ok (l ++ l')

/-- `_zDAEMeshList2PH3D`, src/zeo_ph3d_dae.c:454-516, and `zPH3DReadFileDAE`, 519-541. -/
def read (τ : ℝ) (root : Node) : Except Err Poly :=
  match eval τ root with
  | .error e => .error e
  | .ok ms => match allVerts ms with
    | .error e => .error e
    | .ok vs => match allFaces τ vs 0 ms with
      | .error e => .error e
      | .ok fs => .ok ⟨vs, fs⟩

end
end Zeo.DAE
