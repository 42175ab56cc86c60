import Verif.Model.ZTK
import Verif.Model.Terra

/-! # Maps and nets of maps in ZTK files

The ZTK parts of src/zeo_map_terra.c, src/zeo_map.c and src/zeo_mapnet.c.  What is assumed of ZEDA is at the
head of Model/ZTK.lean; in addition, a ZTK file is a list of sections, each a tag and its key fields;
`ZTKCountTag` counts the sections with a tag; `_ZTKEvalTag` goes through the sections in order, calls the reader
of the table entry with that tag with the number of sections already read, and stops as soon as a reader
returns NULL; an array of ZEDA is allocated with the requested size. -/

namespace Zeo.ZTK

section
variable {K : Type*} [Field K]
/-- Two calls of `ZTKDouble`. -/
def two (vs : List (Tok K)) : Except Err (K × K) :=
  match dbl vs with
  | .error e => .error e
  | .ok (x, vs) => match dbl vs with
    | .error e => .error e
    | .ok (y, _) => .ok (x, y)
end

/-- `zTerraInit`, src/zeo_map_terra.c:69-78, with `zTerraSetTravsThreshold`,
include/zeo/zeo_map_terra.h:78-82. -/
noncomputable def terraInit : Terra ℝ := ⟨0, 0, 0, 0, 0, 0, 0, 0, 0, Real.cos 0, 0, 0, 0, []⟩

/-- `zTerraAlloc` (src/zeo_map_terra.c:92-104) with `zTerraLevel` (81-89) on sizes read from a file; what a
negative size does is decided by ZEDA. -/
noncomputable def terraAlloc (t : Terra ℝ) (xsize ysize : ℤ) : Except Err (Terra ℝ) :=
  if xsize = 0 ∨ ysize = 0 then .error .null
  else if xsize < 0 ∨ ysize < 0 then .error .unmodelled
  else .ok { t with xsize := xsize.toNat, ysize := ysize.toNat,
                    cells := List.replicate (xsize.toNat * ysize.toNat) .init }

open Classical in
/-- `_zTerraResolFromZTK`, src/zeo_map_terra.c:302-310. -/
noncomputable def terraResol (τ : ℝ) (t : Terra ℝ) (vs : List (Tok ℝ)) : Except Err (Terra ℝ) :=
  match two vs with
  | .error e => .error e
  | .ok (dx, dy) => if zIsTol dx τ ∨ zIsTol dy τ then .error .null else .ok { t with dx := dx, dy := dy }

/-- `_zTerraSizeFromZTK`, src/zeo_map_terra.c:311-318. -/
noncomputable def terraSize (t : Terra ℝ) (vs : List (Tok ℝ)) : Except Err (Terra ℝ) :=
  match int vs with
  | .error e => .error e
  | .ok (xs, vs) => match int vs with
    | .error e => .error e
    | .ok (ys, _) => match terraAlloc t xs ys with
      | .error e => .error e
      | .ok t => .ok t.adjustMax

/-- `zDeg2Rad` and `zRad2Deg` of ZM, used in src/zeo_map_terra.c:332 and 377. -/
noncomputable def deg2Rad (a : ℝ) : ℝ := a * Real.pi / 180
/-- See `deg2Rad`. -/
noncomputable def rad2Deg (a : ℝ) : ℝ := a * 180 / Real.pi

/-- The six values of a grid read at src/zeo_map_terra.c:348-353, put into a cell. -/
noncomputable def terraCellVals (c : TerraCell ℝ) (vs : List (Tok ℝ)) : Except Err (TerraCell ℝ) :=
  match dbl vs with
  | .error e => .error e
  | .ok (z, vs) => match dbl vs with
    | .error e => .error e
    | .ok (nx, vs) => match dbl vs with
      | .error e => .error e
      | .ok (ny, vs) => match dbl vs with
        | .error e => .error e
        | .ok (nz, vs) => match dbl vs with
          | .error e => .error e
          | .ok (var, vs) => match int vs with
            | .error e => .error e
            | .ok (tr, _) => .ok { c with z := z, norm := ⟨nx, ny, nz⟩, var := var, travs := tr ≠ 0 }

/-- `_zTerraGridFromZTK`, src/zeo_map_terra.c:339-355. -/
noncomputable def terraGrid (t : Terra ℝ) (vs : List (Tok ℝ)) : Except Err (Terra ℝ) :=
  match int vs with
  | .error e => .error e
  | .ok (i, vs) => match int vs with
    | .error e => .error e
    | .ok (j, vs) => match t.grid i j with
      | none => .error .null
      | some c => match terraCellVals c vs with
        | .error e => .error e
        | .ok c => .ok (t.modify i j fun _ => c)

/-- `__ztk_prp_terra`, src/zeo_map_terra.c:386-395, with its readers (297-355) and printers (357-384). -/
noncomputable def terraPrp (fmt : ℝ → ℝ) (τ : ℝ) : List (Prp (Terra ℝ) ℝ) :=
  [⟨"origin", 1, fun t _ => store two (fun t a => { t with xmin := a.1, ymin := a.2 }) t,
     some fun t _ => some [.num (fmt t.xmin), .num (fmt t.ymin)]⟩,
   ⟨"resolution", 1, fun t _ => terraResol τ t, some fun t _ => some [.num (fmt t.dx), .num (fmt t.dy)]⟩,
   ⟨"size", 1, fun t _ => terraSize t, some fun t _ => some [.int t.xsize, .int t.ysize]⟩,
   ⟨"zrange", 1, fun t _ => store two (fun t a => { t with zmin := min a.1 a.2, zmax := max a.1 a.2 }) t,
     some fun t _ => some [.num (fmt t.zmin), .num (fmt t.zmax)]⟩,
   ⟨"th_var", 1, fun t _ => store num (fun t a => { t with thVar := a }) t, some fun t _ => some [.num (fmt t.thVar)]⟩,
   ⟨"th_grd", 1, fun t _ => store num (fun t a => { t with thGrd := Real.cos (deg2Rad a) }) t,
     some fun t _ => some [.num (fmt (rad2Deg (Real.arccos t.thGrd)))]⟩,
   ⟨"th_res", 1, fun t _ => store num (fun t a => { t with thRes := a }) t, some fun t _ => some [.num (fmt t.thRes)]⟩,
   ⟨"grid", -1, fun t _ => terraGrid t, none⟩]

/-- `zTerraFromZTK`, src/zeo_map_terra.c:398-402. -/
noncomputable def terraFromZTK (τ : ℝ) (fs : List (KeyField ℝ)) : Except Err (Terra ℝ) :=
  evalKeys (terraPrp id τ) terraInit fs

/-- The fields of the grids, src/zeo_map_terra.c:411-418; a grid outside the buffer is not printed. -/
noncomputable def terraGridFields (fmt : ℝ → ℝ) (t : Terra ℝ) : List (KeyField ℝ) :=
  (List.range t.xsize).flatMap fun i : ℕ => (List.range t.ysize).filterMap fun j : ℕ =>
    (t.gridNC i j).map fun c => ("grid", [.int i, .int j, .num (fmt c.z), .num (fmt c.norm.x), .num (fmt c.norm.y),
      .num (fmt c.norm.z), .num (fmt c.var), .int (if c.travs then 1 else 0)])

/-- `zTerraFPrintZTK`, src/zeo_map_terra.c:405-419. -/
noncomputable def terraPrint (fmt : ℝ → ℝ) (τ : ℝ) (t : Terra ℝ) : List (KeyField ℝ) :=
  printKeys (terraPrp fmt τ) t ++ terraGridFields fmt t

/-- `zMap`, include/zeo/zeo_map.h:28-32; the only class of maps is `zTerra`. -/
structure Map where
  name : Option String
  body : Terra ℝ

/-- The state while the keys of a map are read (src/zeo_map.c:29-47): the name, and whether the type has been
found and the body allocated. -/
structure MapHead where
  name : Option String
  typed : Bool

/-- `__ztk_prp_map`, src/zeo_map.c:58-61, with its readers (29-47) and printers (49-56).  A map that is printed
has a type. -/
noncomputable def mapPrp : List (Prp MapHead ℝ) :=
  [⟨"name", 1, fun m _ => store word (fun m a => { m with name := some a }) m, some fun m _ => some [.word (m.name.getD "")]⟩,
   ⟨"type", 1, fun m _ vs => match word vs with
      | .error e => .error e
      | .ok s => if s = "terra" then .ok { m with typed := true } else .error .null,
     some fun _ _ => some [.word "terra"]⟩]

/-- `zMapFromZTK`, src/zeo_map.c:63-72. -/
noncomputable def mapFromZTK (τ : ℝ) (fs : List (KeyField ℝ)) : Except Err Map :=
  match evalKeys mapPrp ⟨none, false⟩ fs with
  | .error e => .error e
  | .ok h => if h.typed then
      match terraFromZTK τ fs with
      | .error e => .error e
      | .ok t => .ok ⟨h.name, t⟩
    else .error .null

/-- `zMapFPrintZTK`, src/zeo_map.c:74-78. -/
noncomputable def mapPrint (fmt : ℝ → ℝ) (τ : ℝ) (m : Map) : List (KeyField ℝ) :=
  printKeys mapPrp ⟨m.name, true⟩ ++ terraPrint fmt τ m.body

/-- The elements of the array after `_ZTKEvalTag` in `zMapNetFromZTK`: the maps read before the first failure;
from the map that could not be read on the elements are incomplete or as allocated (`none`). -/
noncomputable def netMaps (τ : ℝ) : List (List (KeyField ℝ)) → Except Err (List (Option Map))
  | [] => .ok []
  | s :: ss => match mapFromZTK τ s with
    | .ok m => match netMaps τ ss with
      | .ok r => .ok (some m :: r)
      | .error e => .error e
    | .error .null => .ok (none :: ss.map fun _ => none)
    | .error e => .error e

/-- `zMapNetFromZTK`, src/zeo_mapnet.c:52-61, with `zMapNetAlloc` (18-27): the value of `_ZTKEvalTag` is not
looked at. -/
noncomputable def netFromZTK (τ : ℝ) (file : List (String × List (KeyField ℝ))) : Except Err (List (Option Map)) :=
  let ss := (file.filter fun s => s.1 = "zeo::map").map Prod.snd
  if ss.length = 0 then .error .null else netMaps τ ss

/-- `zMapNetFPrintZTK`, src/zeo_mapnet.c:64-72. -/
noncomputable def netPrint (fmt : ℝ → ℝ) (τ : ℝ) (ms : List Map) : List (String × List (KeyField ℝ)) :=
  ms.map fun m => ("zeo::map", mapPrint fmt τ m)

end Zeo.ZTK
