import Verif.Model.MapZTK
import Verif.Model.Vec2

/-! # Textures: src/zeo_render_texture.c

What is assumed of ZEDA is at the heads of Model/ZTK.lean and Model/MapZTK.lean; in addition, `zArrayAlloc` of
size zero leaves the buffer NULL, `zStrClone` of NULL is NULL, memory is always available, and `ZTKKeyRewind`
fails on a section without key fields only.  The functions that read image files (`__z_texture_read_file`,
`__z_texture_bump_read_file`) are NULL unless the application assigns them; they are taken as not assigned. -/

namespace Zeo

/-- `zTexture`, include/zeo/zeo_render_texture.h:21-32.  A vertex of a face is a pointer into the buffer of
coordinates, here its index; `none` is a face as allocated.  Faces with pointers to elsewhere, which
`zTextureSetFace` permits, are not modelled. -/
structure Texture (K : Type*) where
  name : Option String
  id : ℕ
  idBump : ℕ
  bump : Bool
  filename : Option String
  coord : List (Vec2 K)
  face : List (Option (ℕ × ℕ × ℕ))
  width : ℤ
  height : ℤ
  depth : K

namespace Texture
section
variable {K : Type*} [Field K]

/-- `zTextureInit`, include/zeo/zeo_render_texture.h:42-52. -/
def init : Texture K := ⟨none, 0, 0, false, none, [], [], 0, 0, 1⟩

/-- `zTextureAlloc`, src/zeo_render_texture.c:13-22; `junk` is an element of the buffer as allocated.  The
second component tells whether the return value is not NULL. -/
def alloc (junk : Vec2 K) (t : Texture K) (nc nt : ℕ) : Texture K × Bool :=
  if nc = 0 ∨ nt = 0 then (init, false)
  else ({ t with coord := List.replicate nc junk, face := List.replicate nt none }, true)

/-- `zTextureSetCoord`, src/zeo_render_texture.c:25-29; `none` is NULL. -/
def setCoord (t : Texture K) (i : ℤ) (u v : K) : Option (Texture K) :=
  if 0 ≤ i ∧ i < t.coord.length then some { t with coord := t.coord.set i.toNat ⟨u, v⟩ } else none

/-- `zTextureSetFace`, src/zeo_render_texture.c:32-36, with coordinates of the same texture; `none` is NULL. -/
def setFace (t : Texture K) (i : ℤ) (f : ℕ × ℕ × ℕ) : Option (Texture K) :=
  if 0 ≤ i ∧ i < t.face.length then some { t with face := t.face.set i.toNat (some f) } else none

/-- `zTextureClone`, src/zeo_render_texture.c:49-64; `junk` as for `alloc`, `none` is NULL. -/
def clone (junk : Vec2 K) (org : Texture K) : Option (Texture K) :=
  match org.filename with
  | none => none
  | some f =>
    if org.coord.length = 0 ∨ org.face.length = 0 then none
    else some { (init : Texture K) with
      name := org.name, id := org.id, bump := org.bump, filename := some f,
      coord := List.replicate org.coord.length junk, face := List.replicate org.face.length none }

end
end Texture

namespace ZTK
open Classical

/-- `_zTextureTypeFromZTK`, src/zeo_render_texture.c:83-94: an unknown type is taken as a color map. -/
def texType {K : Type*} (t : Texture K) (vs : List (Tok K)) : Except Err (Texture K) :=
  match word vs with
  | .error e => .error e
  | .ok s => .ok { t with bump := s = "bump" }

/-- `_zTextureDepthFromZTK`, src/zeo_render_texture.c:96-99. -/
noncomputable def texDepth (t : Texture ℝ) (vs : List (Tok ℝ)) : Except Err (Texture ℝ) :=
  match num vs with
  | .error e => .error e
  | .ok x => if x = 0 then .error .null else .ok { t with depth := x }

/-- `_zTextureCoordFromZTK`, src/zeo_render_texture.c:101-109, with `zVec2DFromZTK`, src/zeo_vec2d.c:305-310.  The
index in the file is only compared, for a warning.  Outside the buffer: undefined. -/
noncomputable def texCoord (t : Texture ℝ) (i : ℕ) (vs : List (Tok ℝ)) : Except Err (Texture ℝ) :=
  match int vs with
  | .error e => .error e
  | .ok (_, vs) => match two vs with
    | .error e => .error e
    | .ok (u, v) => if i < t.coord.length then .ok { t with coord := t.coord.set i ⟨u, v⟩ } else .error .undef

/-- One of the three reads at src/zeo_render_texture.c:115-126: only the upper bound is tested. -/
def texIndex {K : Type*} (n : ℕ) (vs : List (Tok K)) : Except Err (ℤ × List (Tok K)) :=
  match int vs with
  | .error e => .error e
  | .ok (i, vs) => if (n : ℤ) ≤ i then .error .null else .ok (i, vs)

/-- `_zTextureFaceFromZTK`, src/zeo_render_texture.c:111-132.  The pointers that lines 128-130 make of negative
indices are undefined. -/
noncomputable def texFace (t : Texture ℝ) (i : ℕ) (vs : List (Tok ℝ)) : Except Err (Texture ℝ) :=
  match texIndex t.coord.length vs with
  | .error e => .error e
  | .ok (i0, vs) => match texIndex t.coord.length vs with
    | .error e => .error e
    | .ok (i1, vs) => match texIndex t.coord.length vs with
      | .error e => .error e
      | .ok (i2, _) =>
        if 0 ≤ i0 ∧ 0 ≤ i1 ∧ 0 ≤ i2 ∧ i < t.face.length then
          .ok { t with face := t.face.set i (some (i0.toNat, i1.toNat, i2.toNat)) }
        else .error .undef

/-- `__ztk_prp_texture`, src/zeo_render_texture.c:158-165, with its readers (73-99) and printers (134-156).  A
texture without name prints as ZEDA's `zName` does, here as the empty word; one without file name as the C library
prints NULL, here likewise. -/
noncomputable def texPrp (fmt : ℝ → ℝ) : List (Prp (Texture ℝ) ℝ) :=
  [⟨"name", 1, fun t _ => store word (fun t a => { t with name := some a }) t, some fun t _ => some [.word (t.name.getD "")]⟩,
   ⟨"file", 1, fun t _ => store word (fun t a => { t with filename := some a }) t,
     some fun t _ => some [.word (t.filename.getD "")]⟩,
   ⟨"type", 1, fun t _ => texType t, some fun t _ => some [.word (if t.bump then "bump" else "color")]⟩,
   ⟨"depth", 1, fun t _ => texDepth t, some fun t _ => if t.bump then some [.num (fmt t.depth)] else none⟩,
   ⟨"coord", -1, fun t i => texCoord t i, none⟩,
   ⟨"face", -1, fun t i => texFace t i, none⟩]

/-- `ZTKCountKey` of the ZEDA library: the number of fields with a key. -/
def countKey {K : Type*} (fs : List (KeyField K)) (key : String) : ℕ := (fs.filter fun f => f.1 = key).length

/-- `zTextureFromZTK`, src/zeo_render_texture.c:168-197; `junk` as for `Texture.alloc`. -/
noncomputable def texFromZTK (junk : Vec2 ℝ) (fs : List (KeyField ℝ)) : Except Err (Texture ℝ) :=
  if fs = [] then .error .null
  else if countKey fs "coord" = 0 then .error .null
  else evalKeys (texPrp id) { (Texture.init : Texture ℝ) with
    coord := List.replicate (countKey fs "coord") junk, face := List.replicate (countKey fs "face") none } fs

/-- `zTextureFPrintZTK`, src/zeo_render_texture.c:200-217.  `pair` is what ZEDA makes of a parenthesised pair as
`zVec2DFPrint` (src/zeo_vec2d.c:338-347) prints it.  For a face as allocated the differences of pointers at lines
212-214 are undefined; it is not printed here. -/
noncomputable def texPrint (fmt : ℝ → ℝ) (pair : ℝ → ℝ → List (Tok ℝ)) (t : Texture ℝ) : List (KeyField ℝ) :=
  printKeys (texPrp fmt) t ++
  t.coord.zipIdx.map (fun c => ("coord", .int (c.2 : ℤ) :: pair (fmt c.1.x) (fmt c.1.y))) ++
  t.face.filterMap (fun f => f.map fun f => ("face", [.int (f.1 : ℤ), .int (f.2.1 : ℤ), .int (f.2.2 : ℤ)]))

end ZTK
end Zeo
