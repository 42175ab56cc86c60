import Verif.Model.MemPH

/-! # Shapes that are polyhedra, in memory

`Model/Life.lean` has the blocks of a shape whose body owns nothing further; a polyhedron owns its vertices and faces. `none` is undefined
behaviour. Simplifications as in `Model/MemPH.lean`; optical informations and textures, which a shape does not own, are left out. -/

namespace Zeo.ShapePH
open Life (Ptr)
open MemPH (Mem)
noncomputable section
open Classical

/-- Memory, with the polyhedra in the blocks that are bodies of shapes. -/
structure SMem where
  mem : Mem
  body : ℕ → MemPH.Obj

/-- `zShape3D`, include/zeo/zeo_shape3d.h:42-47: the pointers it owns, and whether its methods are those of polyhedra (otherwise null). -/
structure Shape where
  name : Ptr
  body : Ptr
  typed : Bool

/-- `zShape3DInit`, src/zeo_shape3d.c:15-23. -/
def init : Shape := ⟨.null, .null, false⟩

/-- `malloc` of a block. -/
def alloc (m : Mem) : Mem := { m with live := insert m.next m.live, next := m.next + 1 }

/-- `zShape3DQueryAssign`, src/zeo_shape3d.c:26-36, with "polyhedron"; `zAlloc` of ZEDA fills the body with zeros
(`_zShape3DPHAlloc`, src/zeo_shape3d_ph.c:13-20). -/
def queryAssign (s : Shape) (M : SMem) : Shape × SMem :=
  ({ s with body := .blk M.mem.next, typed := true }, ⟨alloc M.mem, Function.update M.body M.mem.next MemPH.init⟩)

/-- `zNameSet` of ZEDA. -/
def setName (s : Shape) (M : SMem) : Shape × SMem := ({ s with name := .blk M.mem.next }, { M with mem := alloc M.mem })

/-- `zShape3DDestroy`, src/zeo_shape3d.c:39-47, with `_zShape3DPHDestroy`, src/zeo_shape3d_ph.c:27-28, which does nothing for NULL. -/
def destroy (s : Shape) (M : SMem) : Option (Shape × SMem) :=
  (M.mem.free s.name).bind fun m =>
    if s.typed then
      match s.body with
      | .wild => none
      | .null => some (⟨.null, .null, true⟩, { M with mem := m })
      | .blk b =>
        if b ∈ m.live then
          (MemPH.destroy (M.body b) m).bind fun r => (r.2.free (.blk b)).map fun m => (⟨.null, .null, true⟩, ⟨m, Function.update M.body b r.1⟩)
        else none
    else none

/-- `_zShape3DPHClone` and `_zShape3DPHMirror`, src/zeo_shape3d_ph.c:21-26: a new body, filled by `op`. -/
def newBody (op : MemPH.Obj → Mem → Option (MemPH.Obj × Mem)) (src : Ptr) (M : SMem) : Option (Ptr × SMem) :=
  match src with
  | .blk b =>
    if b ∈ M.mem.live then
      (op (M.body b) (alloc M.mem)).map fun r => (.blk M.mem.next, ⟨r.2, Function.update M.body M.mem.next r.1⟩)
    else none
  | _ => none

/-- `zShape3DClone`, src/zeo_shape3d.c:50-61. What the destination had before is overwritten. -/
def clone (org : Shape) (M : SMem) : Option (Shape × SMem) :=
  let a := setName init M
  if org.typed then (newBody MemPH.clone org.body a.2).map fun r => (⟨a.1.name, r.1, true⟩, r.2) else none

/-- `zShape3DMirror`, src/zeo_shape3d.c:64-80, with a valid axis, into another shape. -/
def mirror (src : Shape) (axis : Fin 3) (dst : Shape) (M : SMem) : Option (Shape × SMem) :=
  let d := if dst.typed then destroy dst M else some (dst, M)
  d.bind fun d => if src.typed then (newBody (fun p => MemPH.mirror p axis) src.body d.2).map fun r => (⟨d.1.name, r.1, true⟩, r.2) else none

end
end Zeo.ShapePH
