import Verif.Model.Life

/-! # Life of maps

The pointers of a map and of a net of maps, and the blocks of memory they own. The heap, `zFree`, `zNameFree` and `zNameSet` are those of
`Model/Life.lean`; `none` is undefined behaviour. Simplifications: allocation succeeds; there is one type of maps, "terra", whose body owns the
block of its grid; of the text of a map only what allocates memory, and the failures of the
type and the size, are kept (a later failure of a cell allocates nothing). A net without maps has no array and is not considered. -/

namespace Zeo.Life

/-- `zMap`, include/zeo/zeo_map.h:28-32, with the grid of its body (`gridmap` of `zTerra`, include/zeo/zeo_map_terra.h:35-49), which is
meaningful while the body exists. -/
@[ext] structure MapObj where
  name : Ptr
  body : Ptr
  grid : Ptr
  com : Com
deriving DecidableEq

/-- What a text says: whether a name is set (before reading fails, if it does); the type, if any, and whether it is known; the size of the
grid, if any, and whether it is free of zeros. -/
structure MapText where
  name : Bool
  type : Option Bool
  size : Option Bool

/-- Storage before anything is written to it. -/
def MapObj.raw : MapObj := ⟨.wild, .wild, .wild, .wild⟩
/-- An element of an array just allocated by `zMapNetAlloc`, src/zeo_mapnet.c:18-27. -/
def MapObj.zeroed : MapObj := ⟨.null, .null, .null, .null⟩

/-- `zMapInit`, src/zeo_map.c:10-16. -/
def mapInit (m : MapObj) : MapObj := { m with name := .null, body := .null, com := .null }

/-- `zTerraDestroy`, src/zeo_map_terra.c:144-148, of the body: `_zMapTerraDestroy`, src/zeo_map_terra.c:438-440. -/
def terraDestroy (m : MapObj) (h : Heap) : Option (MapObj × Heap) :=
  match m.body with
  | .blk n => if n ∈ h.live then (h.free m.grid).map fun r => ({ m with grid := r.1 }, r.2) else none
  | _ => none

/-- `zMapDestroy`, src/zeo_map.c:19-26. -/
def mapDestroy (m : MapObj) (h : Heap) : Option (MapObj × Heap) :=
  match h.free m.name with
  | none => none
  | some (nm, h) =>
    let d : Option (MapObj × Heap) := match m.com with
      | .wild => none
      | .null => some (m, h)
      | .set => terraDestroy m h
    match d with
    | none => none
    | some (m, h) => match h.free m.body with
      | none => none
      | some (bd, h) => some ({ m with name := nm, body := bd, com := .null }, h)

/-- `_zMapNameFromZTK`, src/zeo_map.c:28-31. -/
def mapSetName (m : MapObj) (h : Heap) : MapObj × Heap := ({ m with name := h.alloc.1 }, h.alloc.2)

/-- `_zMapTypeFromZTK`, src/zeo_map.c:32-45, with `_zMapTerraAlloc`, src/zeo_map_terra.c:434-436: (non-NULL, map, heap). The memory of the body
is filled with zeros. -/
def mapSetType (known : Bool) (m : MapObj) (h : Heap) : Bool × MapObj × Heap :=
  if known then (true, { m with body := h.alloc.1, grid := .null, com := .set }, h.alloc.2) else (false, m, h)

/-- `zTerraFromZTK`, src/zeo_map_terra.c:398-402, with `zTerraInit` (69-78) and `zTerraAlloc` (92-104): (non-NULL, map, heap). -/
def terraRead (size : Option Bool) (m : MapObj) (h : Heap) : Bool × MapObj × Heap :=
  match size with
  | none => (true, { m with grid := .null }, h)
  | some true => (true, { m with grid := h.alloc.1 }, h.alloc.2)
  | some false => (false, { m with grid := .null }, h)

/-- `zMapFromZTK`, src/zeo_map.c:61-70: (non-NULL, map, heap). -/
def mapRead (t : MapText) (m : MapObj) (h : Heap) : Bool × MapObj × Heap :=
  let m := mapInit m
  let a := if t.name then mapSetName m h else (m, h)
  match t.type with
  | none => (false, a.1, a.2)
  | some k =>
    let b := mapSetType k a.1 a.2
    if b.1 then terraRead t.size b.2.1 b.2.2 else b

/-- The maps of `zMapNetFromZTK`, src/zeo_mapnet.c:52-61, with `_zMapNetMapFromZTK`, 42-44. `none` in the list: a map that is not evaluated,
since an earlier one failed. -/
def netRead : List (Option MapText) → Heap → List MapObj × Heap
  | [], h => ([], h)
  | none :: l, h => (.zeroed :: (netRead l h).1, (netRead l h).2)
  | some t :: l, h =>
    let a := mapRead t .zeroed h
    (a.2.1 :: (netRead l a.2.2).1, (netRead l a.2.2).2)

/-- The loop of `zMapNetDestroy`, src/zeo_mapnet.c:34-35. -/
def netDestroyMaps : List MapObj → Heap → Option Heap
  | [], h => some h
  | m :: l, h => match mapDestroy m h with
    | none => none
    | some (_, h) => netDestroyMaps l h

/-- `zMapNetDestroy`, src/zeo_mapnet.c:30-37, of a net whose array of maps is at `p`. -/
def netDestroy (p : Ptr) (ms : List MapObj) (h : Heap) : Option (Ptr × Heap) := (netDestroyMaps ms h).bind fun h => h.free p

end Zeo.Life
