import Verif.Model.ShapeAny
import Verif.Model.MapZTK

/-! # Placement and mirroring of shapes in ZTK files

The part of `zShape3DFromZTK` (src/zeo_shape3d.c) that `Shape.fromZTK` in Model/ZTK.lean leaves out: the keys
`mirror`, `pos`, `att`, `rot` and `frame`.  `import` reads another file and is not modelled.  `sarr` is the array of
the shapes read before, `self` tells whether the array contains the shape being read as well; optical information and textures are indices as in Model/ZTK.lean.

Assumed of ZEDA, besides what is at the head of Model/ZTK.lean: `ZTKDouble` moves on to the next value, `ZTKVal` does
not; `zArrayFindName` gives NULL when there is no such element; `zNameFree` leaves a shape without name. -/

namespace Zeo.ZTK
noncomputable section
open Classical

/-- `zVec3DFromZTK`, src/zeo_vec3d.c:510-526, with the values left behind it: the branch of a parenthesised triple
does not move on. -/
def vecAdv : List (Tok ℝ) → Except Err (Vec3 ℝ × List (Tok ℝ))
  | .group x y z :: r => .ok (⟨x, y, z⟩, .group x y z :: r)
  | vs => match dbl vs with
    | .error e => .error e
    | .ok (x, vs) => match dbl vs with
      | .error e => .error e
      | .ok (y, vs) => match dbl vs with
        | .error e => .error e
        | .ok (z, vs) => .ok (⟨x, y, z⟩, vs)

/-- `zAAFromZTK`, src/zeo_mat3d.c:1064-1076. -/
def aaFromZTK (τ : ℝ) (vs : List (Tok ℝ)) : Except Err (Vec3 ℝ) :=
  match vecAdv vs with
  | .error e => .error e
  | .ok (axis, vs) => match dbl vs with
    | .error e => .error e
    | .ok (angle, _) =>
      let n := axis.normalize τ axis
      .ok (if 0 < n.1 then n.2.mul (deg2Rad angle) else .zero)

/-- Three numbers. -/
def three (vs : List (Tok ℝ)) : Except Err (Vec3 ℝ × List (Tok ℝ)) :=
  match dbl vs with
  | .error e => .error e
  | .ok (x, vs) => match dbl vs with
    | .error e => .error e
    | .ok (y, vs) => match dbl vs with
      | .error e => .error e
      | .ok (z, vs) => .ok (⟨x, y, z⟩, vs)

/-- `zMat3DFromZTK`, src/zeo_mat3d.c:1010-1026, on nine numbers: row by row.  The braced form is not modelled. -/
def matFromZTK (vs : List (Tok ℝ)) : Except Err (Mat3 ℝ) :=
  match three vs with
  | .error e => .error e
  | .ok (a, vs) => match three vs with
    | .error e => .error e
    | .ok (b, vs) => match three vs with
      | .error e => .error e
      | .ok (c, _) => .ok ⟨⟨a.x, b.x, c.x⟩, ⟨a.y, b.y, c.y⟩, ⟨a.z, b.z, c.z⟩⟩

/-- `zFrame3DFromZTK`, src/zeo_frame3d.c:320-340, on twelve numbers: row by row, the position last in each.  The
braced form is not modelled. -/
def frameFromZTK (vs : List (Tok ℝ)) : Except Err (Frame3 ℝ) :=
  match three vs with
  | .error e => .error e
  | .ok (a, vs) => match dbl vs with
    | .error e => .error e
    | .ok (px, vs) => match three vs with
      | .error e => .error e
      | .ok (b, vs) => match dbl vs with
        | .error e => .error e
        | .ok (py, vs) => match three vs with
          | .error e => .error e
          | .ok (c, vs) => match dbl vs with
            | .error e => .error e
            | .ok (pz, _) => .ok ⟨⟨px, py, pz⟩, ⟨⟨a.x, b.x, c.x⟩, ⟨a.y, b.y, c.y⟩, ⟨a.z, b.z, c.z⟩⟩⟩

/-- `zAxisFromStr`, src/zeo_misc.c:22-32, and the test of the range in `zShape3DMirror`, src/zeo_shape3d.c:70-73:
`none` where the latter fails. -/
def mirrorAxis (s : String) : Option (Fin 3) :=
  if s = "x" then some 0 else if s = "y" then some 1 else if s = "z" then some 2 else none

/-- The shape and `_zShape3DRefPrp` (src/zeo_shape3d.c:295-302) while the keys are read.  `body` is `inl` of the
type with a body as allocated, or `inr` of a mirrored body. -/
structure Place where
  name : Option String
  optic : Option ℕ
  texture : Option ℕ
  body : Option (String ⊕ Body)
  imported : Bool
  f : Frame3 ℝ
  xformed : Bool

/-- A shape that was read; `name` is `none` for a NULL pointer. -/
structure Placed where
  name : Option String
  optic : Option ℕ
  texture : Option ℕ
  body : Body

/-- `_zShape3DMirrorFromZTK`, src/zeo_shape3d.c:332-343, with `zShape3DMirror` (64-79) and `zShape3DDestroy` (39-47).
`junk` as in `Body.mirror`.  With `self`, the array contains the shape that is being read: its mirror image would be
made by the methods of a NULL class, or from a body just freed. -/
def mirrorFromZTK (τ : ℝ) (junk : Mat3 ℝ) (self : Bool) (sarr : List Placed) (s : Place) (vs : List (Tok ℝ)) : Except Err Place :=
  match vs with
  | .word r :: vs =>
    match sarr.find? (fun x => x.name = some r) with
    | none =>
      if self ∧ s.name = some r then
        match vs with
        | .word a :: _ => match mirrorAxis a with
          | none => .error .null
          | some _ => .error .undef
        | [] => .error .null
        | _ => .error .undef
      else .ok s
    | some ref => match vs with
      | .word a :: _ => match mirrorAxis a with
        | none => .error .null
        | some ax =>
          .ok { s with name := if s.body.isSome then none else s.name, body := some (.inr (ref.body.mirror τ junk ax)),
                       optic := ref.optic, texture := ref.texture, imported := true }
      | [] => .error .null
      | _ => .error .undef
  | _ => .error .undef

/-- `__ztk_prp_shape`, src/zeo_shape3d.c:395-406, readers only (304-374). -/
def placePrp (τ : ℝ) (junk : Mat3 ℝ) (self : Bool) (sarr : List Placed) (onames tnames : List String) : List (Prp Place ℝ) :=
  [⟨"name", 1, fun s _ vs => match word vs with
      | .error e => .error e
      | .ok n => if (findName (sarr.filterMap Placed.name) n).isSome then .error .null else .ok { s with name := some n }, none⟩,
   ⟨"type", 1, fun s _ vs => match word vs with
      | .error e => .error e
      | .ok n => if n ∈ types then .ok { s with body := some (.inl n) } else .error .null, none⟩,
   ⟨"optic", 1, fun s _ => store word (fun s n => { s with optic := findName onames n }) s, none⟩,
   ⟨"texture", 1, fun s _ => store word (fun s n => { s with texture := findName tnames n }) s, none⟩,
   ⟨"mirror", 1, fun s _ => mirrorFromZTK τ junk self sarr s, none⟩,
   ⟨"import", 1, fun _ _ _ => .error .unmodelled, none⟩,
   ⟨"pos", 1, fun s _ => store vec (fun s v => { s with f.pos := v, xformed := true }) s, none⟩,
   ⟨"att", 1, fun s _ => store matFromZTK (fun s m => { s with f.att := m, xformed := true }) s, none⟩,
   ⟨"rot", -1, fun s _ => store (aaFromZTK τ) (fun s a => { s with f.att := s.f.att.rot τ a, xformed := true }) s, none⟩,
   ⟨"frame", 1, fun s _ => store frameFromZTK (fun s f => { s with f := f, xformed := true }) s, none⟩]

/-- The state before the keys, src/zeo_shape3d.c:413-420. -/
def Place.init : Place := ⟨none, none, none, none, false, ⟨.zero, .ident⟩, false⟩

/-- The end of `zShape3DFromZTK`, src/zeo_shape3d.c:429-431.  The methods are called with the same body as source
and destination; `Body.xform` computes each component from the same component of the source. -/
def Place.finish (τ : ℝ) (s : Place) (b : Body) : Except Err Placed :=
  if s.xformed then
    match b.xform τ s.f b with
    | some b' => .ok ⟨s.name, s.optic, s.texture, b'⟩
    | none => .error .undef
  else .ok ⟨s.name, s.optic, s.texture, b⟩

/-- `zShape3DFromZTK`, src/zeo_shape3d.c:409-433, without `import`.  `fresh` gives the body that the `_alloc` method of
a type makes. -/
def placedFromZTK (τ : ℝ) (junk : Mat3 ℝ) (fresh : String → Body) (self : Bool) (sarr : List Placed) (onames tnames : List String)
    (fs : List (KeyField ℝ)) : Except Err Placed :=
  match evalKeys (placePrp τ junk self sarr onames tnames) .init fs with
  | .error e => .error e
  | .ok s =>
    if s.imported then
      match s.body with
      | some (.inr b) => s.finish τ b
      | some (.inl t) => s.finish τ (fresh t)
      | none => .error .undef
    else match s.body with
      | some (.inl t) => match Body.fromZTK τ t fs with
        | .error e => .error e
        | .ok b => s.finish τ b
      | _ => .error .null

end
end Zeo.ZTK
