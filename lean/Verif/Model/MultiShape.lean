import Verif.Model.ShapePlace
import Verif.Model.Texture

/-! # Compounds of shapes

`zMultiShape3D` (src/zeo_multishape3d.c): optical information, textures and shapes of a ZTK file, and their clones.

Assumed of ZEDA, besides what is at the head of Model/ZTK.lean: `ZTKCountTag` counts the sections with a tag;
`_ZTKEvalTag` goes through the sections in the order of the file, calls the reader of the tag with the number of the
sections with the same tag before it, and stops at the first reader that returns NULL; `zArrayAlloc` clears the
elements, and an element with a NULL name is not found by name.  Allocations succeed. -/

namespace Zeo.ZTK
noncomputable section
open Classical

/-- A section of a file: the tag and the fields. -/
abbrev Section := String × List (KeyField ℝ)

/-- `zMultiShape3D`, include/zeo/zeo_multishape3d.h:17-22, the elements read so far. -/
structure Multi where
  optics : List (Optic ℝ)
  textures : List (Texture ℝ)
  shapes : List Placed

/-- The names in the array of optical information. -/
def Multi.onames (m : Multi) : List String := m.optics.map fun o => o.name.getD ""
/-- The names in the array of textures. -/
def Multi.tnames (m : Multi) : List String := m.textures.map fun t => t.name.getD ""

/-- `_ZTKEvalTag` with `__ztk_prp_multishape`, src/zeo_multishape3d.c:226-253.  The Boolean tells whether the end
was reached. -/
def multiEval (τ : ℝ) (junk : Mat3 ℝ) (junk2 : Vec2 ℝ) (fresh : String → Body) (m : Multi) : List Section → Except Err (Multi × Bool)
  | [] => .ok (m, true)
  | (tag, fs) :: rest =>
    if tag = "zeo::optic" then
      match Optic.fromZTK τ fs with
      | .ok o => multiEval τ junk junk2 fresh { m with optics := m.optics ++ [o] } rest
      | .error .null => .ok (m, false)
      | .error e => .error e
    else if tag = "zeo::texture" then
      match texFromZTK junk2 fs with
      | .ok t => multiEval τ junk junk2 fresh { m with textures := m.textures ++ [t] } rest
      | .error .null => .ok (m, false)
      | .error e => .error e
    else if tag = "zeo::shape" then
      match placedFromZTK τ junk fresh true m.shapes m.onames m.tnames fs with
      | .ok s => multiEval τ junk junk2 fresh { m with shapes := m.shapes ++ [s] } rest
      | .error .null => .ok (m, false)
      | .error e => .error e
    else multiEval τ junk junk2 fresh m rest

/-- `ZTKCountTag`. -/
def countTag (secs : List Section) (tag : String) : ℕ := (secs.filter fun s => s.1 = tag).length

/-- The arrays of a `zMultiShape3D` after reading; `none` is an element that is left as it was allocated, or half
read. -/
structure MultiArrays where
  optics : List (Option (Optic ℝ))
  textures : List (Option (Texture ℝ))
  shapes : List (Option Placed)

/-- The elements read, in an array of `n`. -/
def fillArray {α : Type*} (n : ℕ) (l : List α) : List (Option α) := l.map some ++ List.replicate (n - l.length) none

/-- `zMultiShape3DFromZTK`, src/zeo_multishape3d.c:257-277: the result of `_ZTKEvalTag` is not looked at. -/
def multiFromZTK (τ : ℝ) (junk : Mat3 ℝ) (junk2 : Vec2 ℝ) (fresh : String → Body) (secs : List Section) : Except Err MultiArrays :=
  if countTag secs "zeo::shape" = 0 then .error .null
  else match multiEval τ junk junk2 fresh ⟨[], [], []⟩ secs with
    | .error e => .error e
    | .ok (m, _) => .ok ⟨fillArray (countTag secs "zeo::optic") m.optics,
        fillArray (countTag secs "zeo::texture") m.textures, fillArray (countTag secs "zeo::shape") m.shapes⟩

/-- `zMultiShape3DFPrintZTK`, src/zeo_multishape3d.c:280-295.  `fmt`, `fmtF` and `pair` as in `Optic.print` and
`texPrint`. -/
def Multi.print (fmt fmtF : ℝ → ℝ) (pair : ℝ → ℝ → List (Tok ℝ)) (τ : ℝ) (m : Multi) : List Section :=
  (m.optics.map fun o => ("zeo::optic", o.print fmt fmtF τ)) ++
  (m.textures.map fun t => ("zeo::texture", texPrint fmt pair t)) ++
  (m.shapes.map fun s => ("zeo::shape", (⟨s.name.getD "", s.optic, s.texture, s.body⟩ : Shape).print fmt τ m.onames m.tnames))

/-- Which compound a shape's pointer points into. -/
inductive Owner
  | org (i : ℕ)
  | cln (i : ℕ)

/-- A shape of a clone. -/
structure ClonedShape where
  name : Option String
  optic : Option Owner
  texture : Option Owner
  body : Body

/-- The `_clone` methods of the classes of shapes: `zBox3DCopy` (src/zeo_elem3d_box.c:231-237), `zSphere3DCopy`,
`zCyl3DCopy` (src/zeo_shape3d_cyl.c:33-37; also `zCapsule3DCopy`), `zCone3DCopy` (src/zeo_shape3d_cone.c:33-37), `zEllips3DCopy`
(src/zeo_shape3d_ellips.c:37-43), `zECyl3DCopy` (src/zeo_shape3d_ecyl.c:42-51), `zPH3DClone` (src/zeo_ph3d.c:60-74).
`old` is the attitude of a box as allocated. -/
def Body.clone (τ : ℝ) (old : Mat3 ℝ) : Body → Body
  | .box b => .box (Box3.create τ b.frame.pos b.frame.att.x b.frame.att.y b.frame.att.z b.span.x b.span.y b.span.z old)
  | .sphere s => .sphere ⟨s.body, storeDiv s.div⟩
  | .ellips e => .ellips ⟨e.body.copy, storeDiv e.div⟩
  | .cyl c => .cyl ⟨c.body, storeDiv c.div⟩
  | .ecyl c => .ecyl ⟨c.body, c.div⟩
  | .capsule c => .capsule ⟨c.body, storeDiv c.div⟩
  | .cone c => .cone ⟨c.body, storeDiv c.div⟩
  | .ph p => .ph (p.clone τ)

/-- `zShape3DClone`, src/zeo_shape3d.c:50-62, called as in `zMultiShape3DClone`: the optical information is the
element of the clone with the same index, the texture is the one of the original.  A shape without optical information
beside an array that has some: the index is the difference of NULL and the buffer, undefined; with an empty array, whose
buffer is NULL, the difference is taken to be zero and the element at NULL to be NULL.  What `zName` gives for a shape
without name is ZEDA's: unmodelled. -/
def Placed.clone (τ : ℝ) (old : Mat3 ℝ) (no : ℕ) (s : Placed) : Except Err ClonedShape :=
  match s.name with
  | none => .error .unmodelled
  | some n => match s.optic with
    | none => if no = 0 then .ok ⟨some n, none, s.texture.map .org, s.body.clone τ old⟩ else .error .undef
    | some i => if i < no then .ok ⟨some n, some (.cln i), s.texture.map .org, s.body.clone τ old⟩ else .error .undef

/-- A list of results: the first error, or all of them. -/
def collect {α β : Type*} (f : α → Except Err β) : List α → Except Err (List β)
  | [] => .ok []
  | a :: l => match f a with
    | .error e => .error e
    | .ok b => match collect f l with
      | .error e => .error e
      | .ok l => .ok (b :: l)

/-- `zTextureClone`, NULL as an error. -/
def texClone (junk2 : Vec2 ℝ) (t : Texture ℝ) : Except Err (Texture ℝ) :=
  match t.clone junk2 with
  | none => .error .null
  | some t => .ok t

/-- The clone of a compound. -/
structure MultiClone where
  optics : List (Optic ℝ)
  textures : List (Texture ℝ)
  shapes : List ClonedShape

/-- `zMultiShape3DClone`, src/zeo_multishape3d.c:41-70. -/
def Multi.clone (τ : ℝ) (old : Mat3 ℝ) (junk2 : Vec2 ℝ) (m : Multi) : Except Err MultiClone :=
  match collect (fun o : Optic ℝ => if o.name = none then .error .unmodelled else .ok (o.clone o)) m.optics with
  | .error e => .error e
  | .ok os => match collect (texClone junk2) m.textures with
    | .error e => .error e
    | .ok ts => match collect (Placed.clone τ old m.optics.length) m.shapes with
      | .error e => .error e
      | .ok ss => .ok ⟨os, ts, ss⟩

end
end Zeo.ZTK
