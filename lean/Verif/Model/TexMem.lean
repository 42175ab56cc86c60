import Verif.Model.OctMem

/-! # The memory of textures

`src/zeo_render_texture.c` on memory: a texture has four pointers, to its name, the name of its file, its coordinates
and its faces.

Allocation may fail at any call.  Simplifications: an array without elements has a null pointer; contents are left out
(they are in `Model/Texture.lean`).  `zNameSet` and `zStrClone` of ZEDA give a new block, or a null pointer if there is
no memory; `zNameFree` and `zArrayFree` free the block, if there is one, and make the pointer null. -/

namespace Zeo
namespace TexMem

open Life OctMem

/-- The pointers of a texture (include/zeo/zeo_render_texture.h:21-32): name, file name, coordinates, faces. -/
abbrev T := Fin 4 → Option ℕ

/-- `zTextureInit` (include/zeo/zeo_render_texture.h:42-52). -/
def init : T := fun _ => none

/-- A pointer is set: to a new block, or to null; what it was before is not looked at. -/
def put (s : Fin 4) (new : Bool) (t : T) (h : Heap) : T × Heap :=
  if new then (Function.update t s (some h.next), ⟨insert h.next h.live, h.next + 1⟩)
  else (Function.update t s none, h)

/-- A pointer is freed, if it is not null. -/
def freeAt (t : T) (h : Heap) (s : Fin 4) : Option Heap :=
  match t s with
  | none => some h
  | some b => freeBlk h b

/-- `zTextureDestroy` (src/zeo_render_texture.c:39-46). -/
def destroy (t : T) (h : Heap) : Option (T × Heap) :=
  ([0, 1, 2, 3].foldlM (freeAt t) h).map fun h => (init, h)

/-- `zTextureAlloc` (src/zeo_render_texture.c:13-22); `nc` and `nt`: are there coordinates and faces
to be allocated, and memory for them? -/
def alloc (nc nt : Bool) (t : T) (h : Heap) : Option (T × Heap) :=
  let r := put 2 nc t h
  let r := put 3 nt r.1 r.2
  if nc && nt then some r else destroy r.1 r.2

/-- `zTextureClone` (src/zeo_render_texture.c:49-64) from the side of the copy; does the original have a name, a file
name, coordinates, faces, and is there memory for them? -/
def clone (name file nc nt : Bool) (_ : T) (h : Heap) : Option (T × Heap) :=
  let r := put 0 name init h
  let r := put 1 file r.1 r.2
  let r := put 2 nc r.1 r.2
  let r := put 3 nt r.1 r.2
  if file && (nc && nt) then some r else destroy r.1 r.2

/-- `zTextureClone` of an original with a name, if there is no memory for the name (src/zeo_render_texture.c:51-52,
61-63). -/
def cloneNoName (_ : T) (h : Heap) : Option (T × Heap) := destroy init h

/-- What is done to a texture. -/
inductive Op where
  | alloc (nc nt : Bool)
  | clone (name file nc nt : Bool)
  | cloneNoName
  /-- `zNameSet` (src/zeo_render_texture.c:74); is there memory? -/
  | setName (ok : Bool)
  /-- The file name is set (src/zeo_render_texture.c:79); is there memory? -/
  | setFile (ok : Bool)
  | destroy

/-- One operation. -/
def Op.run : Op → T → Heap → Option (T × Heap)
  | .alloc a b, t, h => TexMem.alloc a b t h
  | .clone n f a b, t, h => TexMem.clone n f a b t h
  | .cloneNoName, t, h => TexMem.cloneNoName t h
  | .setName ok, t, h => some (put 0 ok t h)
  | .setFile ok, t, h => some (put 1 ok t h)
  | .destroy, t, h => TexMem.destroy t h

/-- One operation after another, and the destruction at last. -/
def life : List Op → T → Heap → Option Heap
  | [], t, h => (TexMem.destroy t h).map Prod.snd
  | o :: os, t, h => (o.run t h).bind fun r => life os r.1 r.2

end TexMem
end Zeo
