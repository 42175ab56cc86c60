import Verif.Model.ShapePlace

/-! # Shapes from files in any format: `zShape3DReadFile` and the key `import`, src/zeo_shape3d.c

The readers of polyhedra are modelled in Model/STL.lean, Model/OBJ.lean, Model/PLY.lean and Model/DAE.lean; here a
file in one of those formats is what its reader makes of it.  Nested files are followed to a depth `n`; a shape that
needs more is `undef` (the C stack is exhausted). -/

namespace Zeo.ZTK
noncomputable section
open Classical

/-- What the files contain.  `suffix` is `zGetSuffix` and `lower` is `zStrToLower` of the ZEDA library; `dae` tells
whether the library was built with `__ZEO_USE_DAE`; `mesh fmt file` is the result of `zPH3DReadFileSTL`, `…OBJ`, `…PLY`
or `…DAE` (`none`: NULL); `solid` is the name `zPH3DReadFileSTL` leaves in its buffer; `ztk` gives the key fields, none
of them if there is no such file (src/zeo_shape3d.c:450 does not look at the result of `ZTKParse`). -/
structure Files where
  suffix : String → Option String
  lower : String → String
  dae : Bool
  mesh : String → String → Option (PH ℝ)
  solid : String → String
  ztk : String → List (KeyField ℝ)

/-- `zShape3DReadFileSTL`, src/zeo_shape3d.c:218-227, `zShape3DReadFilePLY` (230-235), `zShape3DReadFileOBJ` (238-243)
and `zShape3DReadFileDAE` (247-252), with `_zShape3DAssignPH` (182-187): the body the shape had is dropped. -/
def readMesh (E : Files) (s : Place) (fmt file : String) : Except Err Place :=
  match E.mesh fmt file with
  | none => .error .null
  | some q => .ok { s with body := some (.inr (.ph q)),
                           name := if fmt = "stl" ∧ s.name = none then some (E.solid file) else s.name }

/-- `_zShape3DReadFileEXT`, src/zeo_shape3d.c:256-284; `rd` is `zShape3DReadZTK`, which initialises the shape. -/
def readEXT (E : Files) (rd : String → Except Err Placed) (s : Place) (file : String) : Except Err Place :=
  match E.suffix file with
  | none => .error .null
  | some x =>
    if E.lower x = "ztk" then
      match rd file with
      | .error e => .error e
      | .ok p => .ok { s with name := p.name, optic := p.optic, texture := p.texture, body := some (.inr p.body) }
    else if E.lower x = "stl" then readMesh E s "stl" file
    else if E.lower x = "obj" then readMesh E s "obj" file
    else if E.lower x = "ply" then readMesh E s "ply" file
    else if E.lower x = "dae" then if E.dae then readMesh E s "dae" file else .error .null
    else .error .null

/-- `atof` of a value that is a number. -/
def tokNum : Tok ℝ → Option ℝ
  | .num x => some x
  | .int n => some n
  | _ => none

/-- `_zShape3DImportFromZTK`, src/zeo_shape3d.c:344-351.  The scale is applied to the body as if it were a polyhedron. -/
def importFromZTK (E : Files) (rd : String → Except Err Placed) (s : Place) (vs : List (Tok ℝ)) : Except Err Place :=
  match vs with
  | .word file :: r =>
    match readEXT E rd s file with
    | .error e => .error e
    | .ok s =>
      match r with
      | [] => .ok { s with imported := true }
      | t :: _ => match tokNum t with
        | none => .error .unmodelled
        | some k => match s.body with
          | some (.inr (.ph q)) => .ok { s with imported := true, body := some (.inr (.ph (q.scaleDRC k))) }
          | _ => .error .undef
  | _ => .error .undef

/-- `__ztk_prp_shape`, src/zeo_shape3d.c:395-406, with the reader of `import`. -/
def importPrp (E : Files) (rd : String → Except Err Placed) (τ : ℝ) (junk : Mat3 ℝ) (self : Bool) (sarr : List Placed)
    (onames tnames : List String) : List (Prp Place ℝ) :=
  (placePrp τ junk self sarr onames tnames).map fun p =>
    if p.key = "import" then { p with eval := fun s _ => importFromZTK E rd s } else p

/-- The end of `zShape3DFromZTK`, src/zeo_shape3d.c:422-432. -/
def Place.close (τ : ℝ) (fresh : String → Body) (fs : List (KeyField ℝ)) (s : Place) : Except Err Placed :=
  if s.imported then
    match s.body with
    | some (.inr b) => s.finish τ b
    | some (.inl t) => s.finish τ (fresh t)
    | none => .error .undef
  else match s.body with
    | some (.inl t) => match Body.fromZTK τ t fs with
      | .error e => .error e
      | .ok b => s.finish τ b
    | _ => .error .null

/-- `zShape3DFromZTK`, src/zeo_shape3d.c:409-433, following nested files to the depth `n`; `zShape3DReadZTK` (445-454)
calls it without arrays.  `fresh` as in `placedFromZTK`. -/
def shapeFromZTK (E : Files) (τ : ℝ) (junk : Mat3 ℝ) (fresh : String → Body) : ℕ → Bool → List Placed → List String →
    List String → List (KeyField ℝ) → Except Err Placed
  | 0, _, _, _, _, _ => .error .undef
  | n + 1, self, sarr, onames, tnames, fs =>
    match evalKeys (importPrp E (fun file => shapeFromZTK E τ junk fresh n false [] [] [] (E.ztk file)) τ junk self sarr
        onames tnames) .init fs with
    | .error e => .error e
    | .ok s => s.close τ fresh fs

/-- `zShape3DReadZTK`, src/zeo_shape3d.c:445-454. -/
def readZTK (E : Files) (τ : ℝ) (junk : Mat3 ℝ) (fresh : String → Body) (n : ℕ) (file : String) : Except Err Placed :=
  shapeFromZTK E τ junk fresh n false [] [] [] (E.ztk file)

/-- `zShape3DReadFile`, src/zeo_shape3d.c:471-483: `strcmp` is called with the suffix, which may be NULL. -/
def readFile (E : Files) (τ : ℝ) (junk : Mat3 ℝ) (fresh : String → Body) (n : ℕ) (file : String) : Except Err Placed :=
  match E.suffix file with
  | none => .error .undef
  | some x =>
    if x = "ztk" then readZTK E τ junk fresh n file
    else match readEXT E (readZTK E τ junk fresh n) .init file with
      | .error e => .error e
      | .ok s => match s.body with
        | some (.inr b) => .ok ⟨s.name, s.optic, s.texture, b⟩
        | _ => .error .undef

end
end Zeo.ZTK
