import Mathlib.Data.Finset.Basic
import Mathlib.Data.Finset.Insert

/-! # Life of a shape

The pointers of a shape and the blocks of memory they own, for the seven types whose `_destroy` is empty
(src/zeo_shape3d_box.c:114, zeo_shape3d_capsule.c:233, zeo_shape3d_cone.c:296, zeo_shape3d_cyl.c:275, zeo_shape3d_ecyl.c:309,
zeo_shape3d_ellips.c:335, zeo_shape3d_sphere.c:152). `none` is undefined behaviour: freeing what is not a live block, reading an
indeterminate pointer, or following a null pointer. Simplifications: allocation succeeds, every type has one address of methods,
optical informations and textures (which a shape does not own) are left out. `zFree`, `zNameFree`, `zNameSet` and `zArrayAlloc` are
macros of ZEDA: the first frees a block unless the pointer is null, and makes the pointer null; `zNameFree` is that for the name;
`zNameSet` makes the name a new block; `zArrayAlloc` fills the elements with zeros. -/

namespace Zeo.Life

/-- A pointer: indeterminate, null, or to a block. -/
inductive Ptr | wild | null | blk (n : ℕ)
deriving DecidableEq

/-- The address of the methods of a type: indeterminate, null or that of a type. -/
inductive Com | wild | null | set
deriving DecidableEq

/-- `zShape3D`, include/zeo/zeo_shape3d.h:42-47 (the pointers it owns and the methods). -/
@[ext] structure Obj where
  name : Ptr
  body : Ptr
  com : Com
deriving DecidableEq

/-- The heap: live blocks, and a bound on the blocks that were ever given. -/
@[ext] structure Heap where
  live : Finset ℕ
  next : ℕ

/-- `malloc`. -/
def Heap.alloc (h : Heap) : Ptr × Heap := (.blk h.next, ⟨insert h.next h.live, h.next + 1⟩)

/-- `zFree`. -/
def Heap.free (h : Heap) : Ptr → Option (Ptr × Heap)
  | .wild => none
  | .null => some (.null, h)
  | .blk n => if n ∈ h.live then some (.null, ⟨h.live.erase n, h.next⟩) else none

/-- Storage of an automatic or `malloc`ed shape before anything is written to it. -/
def Obj.raw : Obj := ⟨.wild, .wild, .wild⟩

/-- An element of an array just allocated by `zMultiShape3DAllocShapeArray`, include/zeo/zeo_multishape3d.h:96. -/
def Obj.zeroed : Obj := ⟨.null, .null, .null⟩

/-- `zShape3DInit`, src/zeo_shape3d.c:15-23. -/
def init (_ : Obj) : Obj := ⟨.null, .null, .null⟩

/-- `zShape3DQueryAssign`, src/zeo_shape3d.c:26-36; `known` if the string is that of a type. -/
def queryAssign (known : Bool) (s : Obj) (h : Heap) : Bool × Obj × Heap :=
  if known then (true, { s with body := h.alloc.1, com := .set }, h.alloc.2) else (false, { s with com := .null }, h)

/-- `zShape3DBoxCreate` (src/zeo_shape3d_box.c:163-170), and `zShape3DSphereCreate`, … of the other types. -/
def create (s : Obj) (h : Heap) : Obj × Heap := ({ init s with body := h.alloc.1, com := .set }, h.alloc.2)

/-- `zNameSet` of ZEDA. -/
def setName (s : Obj) (h : Heap) : Obj × Heap := ({ s with name := h.alloc.1 }, h.alloc.2)

/-- `zShape3DDestroy`, src/zeo_shape3d.c:39-47 (the methods are not reset). -/
def destroy (s : Obj) (h : Heap) : Option (Obj × Heap) :=
  match h.free s.name with
  | none => none
  | some (nm, h) =>
    if s.com ≠ .set then none
    else match h.free s.body with
      | none => none
      | some (bd, h) => some ({ s with name := nm, body := bd }, h)

/-- `zShape3DMirror`, src/zeo_shape3d.c:65-80; `axis` if the axis is valid. The `_mirror` of every type reads the body of the source. The
result is `false` for a NULL returned. -/
def mirror (axis : Bool) (src dst : Obj) (h : Heap) : Option (Bool × Obj × Heap) :=
  let d : Option (Obj × Heap) := match dst.com with
    | .wild => none
    | .null => some (dst, h)
    | .set => destroy dst h
  match d with
  | none => none
  | some (d, h) =>
    if axis then
      match src.com, src.body with
      | .set, .blk n => if n ∈ h.live then some (true, { d with body := h.alloc.1, com := .set }, h.alloc.2) else none
      | _, _ => none
    else some (false, d, h)

/-- `zShape3DMirror(s,s,axis)`: the source is what is left of the destination. -/
def mirrorSelf (axis : Bool) (s : Obj) (h : Heap) : Option (Bool × Obj × Heap) :=
  match s.com with
  | .wild => none
  | .null => if axis then none else some (false, s, h)
  | .set => match destroy s h with
    | none => none
    | some (s, h) => if axis then mirror.core s h else some (false, s, h)
where
  /-- src/zeo_shape3d.c:75-79 with both shapes the same. -/
  mirror.core (s : Obj) (h : Heap) : Option (Bool × Obj × Heap) :=
    match s.body with
    | .blk n => if n ∈ h.live then some (true, { s with body := h.alloc.1 }, h.alloc.2) else none
    | _ => none

/-- `zShape3D::zShape3D()`, include/zeo/zeo_shape3d.h:303. -/
def ctor : Obj := init .raw
/-- `zShape3D::zShape3D(const char*)`, include/zeo/zeo_shape3d.h:304. -/
def ctorStr (known : Bool) (h : Heap) : Obj × Heap := (queryAssign known .raw h).2
/-- `zShape3D::~zShape3D()`, include/zeo/zeo_shape3d.h:305. -/
def dtor (s : Obj) (h : Heap) : Option Heap := (destroy s h).map Prod.snd

/-- Types by their `_destroy`: empty, that of polyhedra and that of NURBS. -/
inductive Kind | simple | ph | nurbs
deriving DecidableEq

/-- `_destroy(body)`: src/zeo_shape3d_box.c:114 etc. do nothing; `zPH3DDestroy` (src/zeo_ph3d.c:51-57) returns for NULL; `zNURBS3DDestroy`
(src/zeo_nurbs3d.c:50-56) reads the members. The blocks of the members are left out. -/
def kindDestroy : Kind → Ptr → Option Unit
  | .simple, _ => some ()
  | .ph, .wild => none
  | .ph, _ => some ()
  | .nurbs, .blk _ => some ()
  | .nurbs, _ => none

/-- `zShape3DDestroy`, src/zeo_shape3d.c:39-47, of a shape of type `k`. -/
def destroyKind (k : Kind) (s : Obj) (h : Heap) : Option (Obj × Heap) :=
  match h.free s.name with
  | none => none
  | some (nm, h) =>
    if s.com ≠ .set then none
    else match kindDestroy k s.body with
      | none => none
      | some _ => match h.free s.body with
        | none => none
        | some (bd, h) => some ({ s with name := nm, body := bd }, h)

/-- The loop of `zMultiShape3DDestroy`, src/zeo_multishape3d.c:29-30. -/
def destroyAll : List Obj → Heap → Option Heap
  | [], h => some h
  | s :: l, h => match destroy s h with
    | none => none
    | some (_, h) => destroyAll l h

/-- The shapes as `zMultiShape3DFromZTK` (src/zeo_multishape3d.c:256-277) leaves them: an entry of the list is whether the type written for
the shape is known; the result of reading a shape is not looked at. Names are set before types.
Reading is taken to go on after a failure; if it stopped, the shapes left would be without type as well. -/
def readShapes : List Bool → Heap → List Obj × Heap
  | [], h => ([], h)
  | k :: l, h =>
    let a := setName .zeroed h
    let b := (queryAssign k a.1 a.2).2
    let r := readShapes l b.2
    (b.1 :: r.1, r.2)

end Zeo.Life
