import Verif.Model.Ellips
import Verif.Model.Shape
import Verif.Model.PH
import Verif.Model.Color

/-! # Reading and writing ZTK key fields

src/zeo_render_optic.c, the ZTK parts of src/zeo_shape3d*.c, src/zeo_ph3d.c, src/zeo_vec3d.c,
src/zeo_render_color.c and src/zeo_shape3d.c.

The ZTK processor itself belongs to the ZEDA library and is not part of /repo.  What is assumed of it:

* a section of a ZTK file is a list of key fields, each a key and the list of its values; a parenthesised
  triple is one value (this is what `zVec3DFromZTK`, src/zeo_vec3d.c:514, relies on);
* `_ZTKEvalKey` goes through the fields in the order of the file; for a field whose key is in the property
  table it calls the reader of that entry with the number of fields with this key already read, skips the
  field when that number has reached the limit of the entry (a non-positive limit is no limit), and returns
  NULL as soon as a reader does; fields with other keys are skipped;
* `_ZTKPrpKeyFPrint` prints, for each entry of the table with a printer and each `i` below its limit, a field
  with that key and the values the printer wrote, and nothing when the printer returns false.

Names are single words.  Printing a number in decimal and reading it back is the function `fmt` (`%.10g`, and
what `ZTKAddDouble` uses) or `fmtF` (`%.7g` on a `float`), left arbitrary; integers are exact. -/

namespace Zeo.ZTK

/-- A value of a key field. -/
inductive Tok (K : Type*)
  | num (x : K)
  | int (n : ℤ)
  | word (s : String)
  | group (x y z : K)

/-- Why reading stops: the reader returned NULL; it did something undefined (a pointer outside a buffer, a
missing value); or it needs something that is not modelled. -/
inductive Err
  | null
  | undef
  | unmodelled
deriving DecidableEq

/-- A key field. -/
abbrev KeyField (K : Type*) := String × List (Tok K)

/-- An entry of a property table (`ZTKPrp`). -/
structure Prp (σ K : Type*) where
  key : String
  num : ℤ
  eval : σ → ℕ → List (Tok K) → Except Err σ
  print : Option (σ → ℕ → Option (List (Tok K)))

section
variable {σ K : Type*}

/-- One field in the loop of `_ZTKEvalKey` (see the head of this file): the object and the number of fields
read for each key. -/
def evalField (prps : List (Prp σ K)) (s : σ × (String → ℕ)) (f : KeyField K) : Except Err (σ × (String → ℕ)) :=
  match prps.find? (fun p => p.key = f.1) with
  | none => .ok s
  | some p =>
    if 0 < p.num ∧ p.num ≤ s.2 f.1 then .ok s
    else match p.eval s.1 (s.2 f.1) f.2 with
      | .ok o => .ok (o, Function.update s.2 f.1 (s.2 f.1 + 1))
      | .error e => .error e
/-- `_ZTKEvalKey` (see the head of this file), called in src/zeo_render_optic.c:137, src/zeo_ph3d.c:698,
src/zeo_shape3d.c:421, src/zeo_shape3d_box.c:137 and its siblings. -/
def evalKeys (prps : List (Prp σ K)) (obj : σ) (fs : List (KeyField K)) : Except Err σ :=
  match fs.foldlM (evalField prps) (obj, fun _ => 0) with
  | .ok s => .ok s.1
  | .error e => .error e
/-- `_ZTKPrpKeyFPrint` (see the head of this file), called in src/zeo_render_optic.c:178,
src/zeo_shape3d.c:439, src/zeo_shape3d_box.c:99 and its siblings. -/
def printKeys (prps : List (Prp σ K)) (obj : σ) : List (KeyField K) :=
  prps.flatMap fun p =>
    match p.print with
    | none => []
    | some pr => (List.range p.num.toNat).filterMap fun i => (pr obj i).map fun vs => (p.key, vs)
end

section
variable {K : Type*} [Field K]

/-- `ZTKDouble` of the ZEDA library: the current value as a number, and the values left. -/
def dbl : List (Tok K) → Except Err (K × List (Tok K))
  | .num x :: r => .ok (x, r)
  | .int n :: r => .ok (n, r)
  | _ => .error .undef
/-- `ZTKInt` of the ZEDA library, on integers. -/
def int : List (Tok K) → Except Err (ℤ × List (Tok K))
  | .int n :: r => .ok (n, r)
  | .num _ :: _ => .error .unmodelled
  | _ => .error .undef
/-- `ZTKVal` of the ZEDA library, on words. -/
def word : List (Tok K) → Except Err String
  | .word s :: _ => .ok s
  | _ => .error .undef
/-- `zVec3DFromZTK`, src/zeo_vec3d.c:510-526: a parenthesised triple, or three numbers. -/
def vec : List (Tok K) → Except Err (Vec3 K)
  | .group x y z :: _ => .ok ⟨x, y, z⟩
  | vs => match dbl vs with
    | .error e => .error e
    | .ok (x, vs) => match dbl vs with
      | .error e => .error e
      | .ok (y, vs) => match dbl vs with
        | .error e => .error e
        | .ok (z, _) => .ok ⟨x, y, z⟩
/-- `zVec3DFPrint`, src/zeo_vec3d.c:563-572, and `zVec3DToZTK`, src/zeo_vec3d.c:529-536. -/
def vecTok (fmt : K → K) (v : Vec3 K) : List (Tok K) := [.group (fmt v.x) (fmt v.y) (fmt v.z)]
/-- `zRGBFromZTK`, src/zeo_render_color.c:136-144.  Strings beginning with '#' are not modelled here
(`RGB.ofHex` models their decoding). -/
def rgb (vs : List (Tok K)) : Except Err (RGB K) :=
  match vs with
  | .word _ :: _ => .error .unmodelled
  | vs => match dbl vs with
    | .error e => .error e
    | .ok (r, vs) => match dbl vs with
      | .error e => .error e
      | .ok (g, vs) => match dbl vs with
        | .error e => .error e
        | .ok (b, _) => .ok ⟨r, g, b⟩
/-- `zRGBFPrint`, src/zeo_render_color.c:167-170, and `zRGBToZTK`, src/zeo_render_color.c:147-153. -/
def rgbTok (fmtF : K → K) (c : RGB K) : List (Tok K) := [.num (fmtF c.r), .num (fmtF c.g), .num (fmtF c.b)]
/-- `zShape3DDivFromZTK`, src/zeo_shape3d.c:289-293; `ZEO_SHAPE_DEFAULT_DIV` is 32
(include/zeo/zeo_elem3d_sphere.h:15, include/zeo/zeo_shape3d.h:238). -/
def div (vs : List (Tok K)) : Except Err ℤ :=
  match int vs with
  | .ok (n, _) => .ok (if 0 < n then n else 32)
  | .error e => .error e

/-- A reader that stores a value. -/
def store {α σ : Type*} (rd : List (Tok K) → Except Err α) (put : σ → α → σ) (s : σ) (vs : List (Tok K)) :
    Except Err σ :=
  match rd vs with
  | .ok a => .ok (put s a)
  | .error e => .error e
/-- A reader of a number. -/
def num (vs : List (Tok K)) : Except Err K :=
  match dbl vs with
  | .ok (x, _) => .ok x
  | .error e => .error e
end

/-! ## Optical information -/

/-- `zOpticalInfo`, include/zeo/zeo_render_optic.h:17-24. -/
@[ext] structure Optic (K : Type*) where
  name : Option String
  ambient : RGB K
  diffuse : RGB K
  specular : RGB K
  esr : K
  shininess : K
  alpha : K

section
variable {K : Type*} [Field K] [LinearOrder K] [IsStrictOrderedRing K]

/-- `zOpticalInfoCreate`, src/zeo_render_optic.c:15-25. -/
def Optic.create (a d s : RGB K) (esr shininess alpha : K) (name : Option String) : Optic K :=
  ⟨name, RGB.set a.r a.g a.b, RGB.set d.r d.g d.b, RGB.set s.r s.g s.b, esr, shininess, alpha⟩
/-- `zOpticalInfoInit`, include/zeo/zeo_render_optic.h:74-75. -/
def Optic.init : Optic K := Optic.create ⟨1, 1, 1⟩ ⟨1, 1, 1⟩ ⟨1, 1, 1⟩ 0 0 1 none
/-- `zOpticalInfoCreateSimple`, include/zeo/zeo_render_optic.h:72-73. -/
def Optic.createSimple (r g b : K) (name : Option String) : Optic K :=
  Optic.create ⟨1/2 * r, 1/2 * g, 1/2 * b⟩ ⟨r, g, b⟩ ⟨0, 0, 0⟩ 0 0 1 name
/-- `zOpticalInfoCopy`, src/zeo_render_optic.c:28-37: the name of the destination is kept. -/
def Optic.copy (src dest : Optic K) : Optic K := { src with name := dest.name }
/-- `zOpticalInfoClone`, src/zeo_render_optic.c:40-44 (named source). -/
def Optic.clone (src dest : Optic K) : Optic K := src.copy { dest with name := src.name }
/-- `zOpticalInfoMul`, src/zeo_render_optic.c:47-56: the name of the destination is kept. -/
def Optic.mul (o1 o2 dest : Optic K) : Optic K :=
  ⟨dest.name, o1.ambient.mul o2.ambient, o1.diffuse.mul o2.diffuse, o1.specular.mul o2.specular,
   o1.esr * o2.esr, o1.shininess * o2.shininess, o1.alpha * o2.alpha⟩
/-- `zOpticalInfoBlend`, src/zeo_render_optic.c:59-73. -/
def Optic.blend (o1 o2 : Optic K) (ratio : K) (name : Option String) : Optic K :=
  let r := zLimit ratio 0 1
  let rn := 1 - r
  ⟨name, o1.ambient.blend o2.ambient r, o1.diffuse.blend o2.diffuse r, o1.specular.blend o2.specular r,
   r * o1.esr + rn * o2.esr, r * o1.shininess + rn * o2.shininess, r * o1.alpha + rn * o2.alpha⟩

/-- `__ztk_prp_optic`, src/zeo_render_optic.c:122-130, with its readers (77-98) and printers (100-120). -/
def opticPrp (fmt fmtF : K → K) (τ : K) : List (Prp (Optic K) K) :=
  [⟨"name", 1, fun o _ => store word (fun o a => { o with name := some a }) o, some fun o _ => some [.word (o.name.getD "")]⟩,
   ⟨"ambient", 1, fun o _ => store rgb (fun o a => { o with ambient := a }) o, some fun o _ => some (rgbTok fmtF o.ambient)⟩,
   ⟨"diffuse", 1, fun o _ => store rgb (fun o a => { o with diffuse := a }) o, some fun o _ => some (rgbTok fmtF o.diffuse)⟩,
   ⟨"specular", 1, fun o _ => store rgb (fun o a => { o with specular := a }) o, some fun o _ => some (rgbTok fmtF o.specular)⟩,
   ⟨"esr", 1, fun o _ => store num (fun o a => { o with esr := a }) o,
     some fun o _ => if zIsTol o.esr τ then none else some [.num (fmt o.esr)]⟩,
   ⟨"shininess", 1, fun o _ => store num (fun o a => { o with shininess := a }) o,
     some fun o _ => if zIsTol o.shininess τ then none else some [.num (fmt o.shininess)]⟩,
   ⟨"alpha", 1, fun o _ => store num (fun o a => { o with alpha := a }) o,
     some fun o _ => if zIsTol (1 - o.alpha) τ then none else some [.num (fmt o.alpha)]⟩]
/-- `zOpticalInfoFromZTK`, src/zeo_render_optic.c:133-138. -/
def Optic.fromZTK (τ : K) (fs : List (KeyField K)) : Except Err (Optic K) := evalKeys (opticPrp id id τ) .init fs
/-- `zOpticalInfoFPrintZTK`, src/zeo_render_optic.c:175-179. -/
def Optic.print (fmt fmtF : K → K) (τ : K) (o : Optic K) : List (KeyField K) := printKeys (opticPrp fmt fmtF τ) o
/-- `zRGBIsZero`, include/zeo/zeo_render_color.h:54; `ε` is `ZRGB_TOL`. -/
def rgbIsZero (ε : K) (c : RGB K) : Prop := zIsTol c.r ε ∧ zIsTol c.g ε ∧ zIsTol c.b ε
instance (ε : K) (c : RGB K) : Decidable (rgbIsZero ε c) := inferInstanceAs (Decidable (_ ∧ _ ∧ _))
/-- `zOpticalInfoToZTK`, src/zeo_render_optic.c:141-172. -/
def Optic.toZTK (fmt fmtF : K → K) (τ ε : K) (o : Optic K) : List (KeyField K) :=
  [("name", [.word (o.name.getD "")])] ++
  (if rgbIsZero ε o.ambient then [] else [("ambient", rgbTok fmtF o.ambient)]) ++
  (if rgbIsZero ε o.diffuse then [] else [("diffuse", rgbTok fmtF o.diffuse)]) ++
  (if rgbIsZero ε o.specular then [] else [("specular", rgbTok fmtF o.specular)]) ++
  (if zIsTol o.esr τ then [] else [("esr", [.num (fmt o.esr)])]) ++
  (if zIsTol o.shininess τ then [] else [("shininess", [.num (fmt o.shininess)])]) ++
  (if zIsTol o.alpha τ then [] else [("alpha", [.num (fmt o.alpha)])])

/-! ## Shapes -/

/-- A shape and its number of divisions (the `div` member of the smooth shapes, e.g.
include/zeo/zeo_shape3d_cyl.h:25). -/
@[ext] structure WithDiv (α : Type*) where
  body : α
  div : ℤ

/-- `__ztk_prp_shape_sphere`, src/zeo_shape3d_sphere.c:128-132, with its readers and printers (105-126). -/
def spherePrp (fmt : K → K) : List (Prp (WithDiv (Sphere3 K)) K) :=
  [⟨"center", 1, fun s _ => store vec (fun s v => { s with body.center := v }) s, some fun s _ => some (vecTok fmt s.body.center)⟩,
   ⟨"radius", 1, fun s _ => store num (fun s v => { s with body.radius := v }) s, some fun s _ => some [.num (fmt s.body.radius)]⟩,
   ⟨"div", 1, fun s _ => store div (fun s v => { s with div := v }) s, some fun s _ => some [.int s.div]⟩]
/-- `_zShape3DSphereParseZTK`, src/zeo_shape3d_sphere.c:171-173; `zSphere3DInit`, src/zeo_elem3d_sphere.c. -/
def sphereFromZTK (fs : List (KeyField K)) : Except Err (WithDiv (Sphere3 K)) :=
  evalKeys (spherePrp id) ⟨⟨.zero, 0⟩, 32⟩ fs
/-- `zSphere3DFPrintZTK`, src/zeo_shape3d_sphere.c:135-138. -/
def spherePrint (fmt : K → K) (s : WithDiv (Sphere3 K)) : List (KeyField K) := printKeys (spherePrp fmt) s

/-- `__ztk_prp_shape_cyl`, src/zeo_shape3d_cyl.c:251-255, with its readers and printers (229-249), and
`__ztk_prp_shape_capsule`, src/zeo_shape3d_capsule.c:209-213 (185-207), the same functions on the same
structure. -/
def cylPrp (fmt : K → K) : List (Prp (WithDiv (Cyl K)) K) :=
  [⟨"center", 2, fun s i => store vec (fun s v => if i = 0 then { s with body.c0 := v } else { s with body.c1 := v }) s,
     some fun s i => some (vecTok fmt (if i = 0 then s.body.c0 else s.body.c1))⟩,
   ⟨"radius", 1, fun s _ => store num (fun s v => { s with body.radius := v }) s, some fun s _ => some [.num (fmt s.body.radius)]⟩,
   ⟨"div", 1, fun s _ => store div (fun s v => { s with div := v }) s, some fun s _ => some [.int s.div]⟩]
/-- `_zShape3DCylParseZTK`, src/zeo_shape3d_cyl.c:296-298; `zCyl3DInit`, src/zeo_shape3d_cyl.c:24-27. -/
def cylFromZTK (fs : List (KeyField K)) : Except Err (WithDiv (Cyl K)) :=
  evalKeys (cylPrp id) ⟨⟨.zero, .zero, 0⟩, 32⟩ fs
/-- `zCyl3DFPrintZTK`, src/zeo_shape3d_cyl.c:258-261. -/
def cylPrint (fmt : K → K) (s : WithDiv (Cyl K)) : List (KeyField K) := printKeys (cylPrp fmt) s

/-- `__ztk_prp_shape_cone`, src/zeo_shape3d_cone.c:271-276, with its readers and printers (242-269). -/
def conePrp (fmt : K → K) : List (Prp (WithDiv (Cone K)) K) :=
  [⟨"center", 1, fun s _ => store vec (fun s v => { s with body.center := v }) s, some fun s _ => some (vecTok fmt s.body.center)⟩,
   ⟨"vert", 1, fun s _ => store vec (fun s v => { s with body.vert := v }) s, some fun s _ => some (vecTok fmt s.body.vert)⟩,
   ⟨"radius", 1, fun s _ => store num (fun s v => { s with body.radius := v }) s, some fun s _ => some [.num (fmt s.body.radius)]⟩,
   ⟨"div", 1, fun s _ => store div (fun s v => { s with div := v }) s, some fun s _ => some [.int s.div]⟩]
/-- `_zShape3DConeParseZTK`, src/zeo_shape3d_cone.c:317-319; `zCone3DInit`, src/zeo_shape3d_cone.c:24-27. -/
def coneFromZTK (fs : List (KeyField K)) : Except Err (WithDiv (Cone K)) :=
  evalKeys (conePrp id) ⟨⟨.zero, .zero, 0⟩, 32⟩ fs
/-- `zCone3DFPrintZTK`, src/zeo_shape3d_cone.c:279-282. -/
def conePrint (fmt : K → K) (s : WithDiv (Cone K)) : List (KeyField K) := printKeys (conePrp fmt) s
end

noncomputable section
open Classical

/-- `_zBox3DAxisFromZTK`, src/zeo_shape3d_box.c:33-41, and `_zEllips3DAxisFromZTK`,
src/zeo_shape3d_ellips.c:246-254: `auto` is the outer product of the two others (as they are now). -/
def axis (τ : ℝ) (att : Mat3 ℝ) (i0 i1 i2 : Fin 3) (vs : List (Tok ℝ)) : Except Err (Vec3 ℝ) :=
  match vs with
  | .word "auto" :: _ => let o := (att.v i1).outer (att.v i2); .ok (o.normalize τ o).2
  | vs => match vec vs with
    | .ok v => .ok (v.normalize τ v).2
    | .error e => .error e
/-- Store a column of an attitude matrix (`zBox3DAxis`, include/zeo/zeo_elem3d_box.h). -/
def setCol (m : Mat3 ℝ) (i : Fin 3) (v : Vec3 ℝ) : Mat3 ℝ :=
  if i = 0 then { m with x := v } else if i = 1 then { m with y := v } else { m with z := v }

/-- `__ztk_prp_shape_box`, src/zeo_shape3d_box.c:86-94, with its readers and printers (33-84). -/
def boxPrp (fmt : ℝ → ℝ) (τ : ℝ) : List (Prp (Box3 ℝ) ℝ) :=
  [⟨"center", 1, fun s _ => store vec (fun s v => { s with frame.pos := v }) s, some fun s _ => some (vecTok fmt s.frame.pos)⟩,
   ⟨"ax", 1, fun s _ => store (axis τ s.frame.att 0 1 2) (fun s v => { s with frame.att := setCol s.frame.att 0 v }) s,
     some fun s _ => some (vecTok fmt s.frame.att.x)⟩,
   ⟨"ay", 1, fun s _ => store (axis τ s.frame.att 1 2 0) (fun s v => { s with frame.att := setCol s.frame.att 1 v }) s,
     some fun s _ => some (vecTok fmt s.frame.att.y)⟩,
   ⟨"az", 1, fun s _ => store (axis τ s.frame.att 2 0 1) (fun s v => { s with frame.att := setCol s.frame.att 2 v }) s,
     some fun s _ => some (vecTok fmt s.frame.att.z)⟩,
   ⟨"depth", 1, fun s _ => store num (fun s v => { s with span.x := v }) s, some fun s _ => some [.num (fmt s.span.x)]⟩,
   ⟨"width", 1, fun s _ => store num (fun s v => { s with span.y := v }) s, some fun s _ => some [.num (fmt s.span.y)]⟩,
   ⟨"height", 1, fun s _ => store num (fun s v => { s with span.z := v }) s, some fun s _ => some [.num (fmt s.span.z)]⟩]
/-- `_zShape3DBoxParseZTK`, src/zeo_shape3d_box.c:135-137; `zBox3DInit`, src/zeo_elem3d_box.c:223-226. -/
def boxFromZTK (τ : ℝ) (fs : List (KeyField ℝ)) : Except Err (Box3 ℝ) :=
  evalKeys (boxPrp id τ) ⟨.zero, ⟨.zero, .ident⟩⟩ fs
/-- `zBox3DFPrintZTK`, src/zeo_shape3d_box.c:97-100. -/
def boxPrint (fmt : ℝ → ℝ) (τ : ℝ) (s : Box3 ℝ) : List (KeyField ℝ) := printKeys (boxPrp fmt τ) s

/-- `__ztk_prp_shape_ellips`, src/zeo_shape3d_ellips.c:306-315, with its readers and printers (246-304). -/
def ellipsPrp (fmt : ℝ → ℝ) (τ : ℝ) : List (Prp (WithDiv (Ellips ℝ)) ℝ) :=
  [⟨"center", 1, fun s _ => store vec (fun s v => { s with body.f.pos := v }) s, some fun s _ => some (vecTok fmt s.body.f.pos)⟩,
   ⟨"ax", 1, fun s _ => store (axis τ s.body.f.att 0 1 2) (fun s v => { s with body.f.att := setCol s.body.f.att 0 v }) s,
     some fun s _ => some (vecTok fmt s.body.f.att.x)⟩,
   ⟨"ay", 1, fun s _ => store (axis τ s.body.f.att 1 2 0) (fun s v => { s with body.f.att := setCol s.body.f.att 1 v }) s,
     some fun s _ => some (vecTok fmt s.body.f.att.y)⟩,
   ⟨"az", 1, fun s _ => store (axis τ s.body.f.att 2 0 1) (fun s v => { s with body.f.att := setCol s.body.f.att 2 v }) s,
     some fun s _ => some (vecTok fmt s.body.f.att.z)⟩,
   ⟨"rx", 1, fun s _ => store num (fun s v => { s with body.radius.x := v }) s, some fun s _ => some [.num (fmt s.body.radius.x)]⟩,
   ⟨"ry", 1, fun s _ => store num (fun s v => { s with body.radius.y := v }) s, some fun s _ => some [.num (fmt s.body.radius.y)]⟩,
   ⟨"rz", 1, fun s _ => store num (fun s v => { s with body.radius.z := v }) s, some fun s _ => some [.num (fmt s.body.radius.z)]⟩,
   ⟨"div", 1, fun s _ => store div (fun s v => { s with div := v }) s, some fun s _ => some [.int s.div]⟩]
/-- `_zShape3DEllipsParseZTK`, src/zeo_shape3d_ellips.c:356-358; `zEllips3DInit`, src/zeo_shape3d_ellips.c:28-31. -/
def ellipsFromZTK (τ : ℝ) (fs : List (KeyField ℝ)) : Except Err (WithDiv (Ellips ℝ)) :=
  evalKeys (ellipsPrp id τ) ⟨Ellips.createAlign .zero 0 0 0, 32⟩ fs
/-- `zEllips3DFPrintZTK`, src/zeo_shape3d_ellips.c:318-321. -/
def ellipsPrint (fmt : ℝ → ℝ) (τ : ℝ) (s : WithDiv (Ellips ℝ)) : List (KeyField ℝ) := printKeys (ellipsPrp fmt τ) s

/-- `__ztk_prp_shape_ecyl`, src/zeo_shape3d_ecyl.c:284-289, with its readers and printers (255-282): the
reference vector is used at once, with the centers read so far; the first radial vector is printed as the
reference vector. -/
def ecylPrp (fmt : ℝ → ℝ) (τ : ℝ) : List (Prp (WithDiv (ECyl ℝ)) ℝ) :=
  [⟨"center", 2, fun s i => store vec (fun s v => if i = 0 then { s with body.c0 := v } else { s with body.c1 := v }) s,
     some fun s i => some (vecTok fmt (if i = 0 then s.body.c0 else s.body.c1))⟩,
   ⟨"radius", 2, fun s i => store num (fun s v => if i = 0 then { s with body.r0 := v } else { s with body.r1 := v }) s,
     some fun s i => some [.num (fmt (if i = 0 then s.body.r0 else s.body.r1))]⟩,
   ⟨"ref", 1, fun s _ => store vec (fun s v => { s with body := s.body.defAxis τ (some v) }) s,
     some fun s _ => some (vecTok fmt s.body.rv0)⟩,
   ⟨"div", 1, fun s _ => store div (fun s v => { s with div := v }) s, some fun s _ => some [.int s.div]⟩]
/-- `_zShape3DECylParseZTK`, src/zeo_shape3d_ecyl.c:330-332; `zECyl3DInit`, src/zeo_shape3d_ecyl.c:26-36. -/
def ecylFromZTK (τ : ℝ) (fs : List (KeyField ℝ)) : Except Err (WithDiv (ECyl ℝ)) :=
  evalKeys (ecylPrp id τ) ⟨⟨.zero, .zero, 0, 0, .zero, .zero⟩, 32⟩ fs
/-- `zECyl3DFPrintZTK`, src/zeo_shape3d_ecyl.c:292-295. -/
def ecylPrint (fmt : ℝ → ℝ) (τ : ℝ) (s : WithDiv (ECyl ℝ)) : List (KeyField ℝ) := printKeys (ecylPrp fmt τ) s

/-! ## Polyhedra -/

/-- `_zPH3DVertFromZTK`, src/zeo_ph3d.c:489-510, without prism and pyramid: a wrong index is only warned
about; the `i`-th field gives the `i`-th vertex. -/
def phVert (s : PH ℝ) (i : ℕ) (vs : List (Tok ℝ)) : Except Err (PH ℝ) :=
  match int vs with
  | .error e => .error e
  | .ok (_, vs) => match vec vs with
    | .error e => .error e
    | .ok v => .ok { s with vert := Function.update s.vert i v }
/-- One index of `_zPH3DFaceFromZTK`, src/zeo_ph3d.c:516-519: only an upper bound is checked. -/
def phIndex (nv : ℕ) (vs : List (Tok ℝ)) : Except Err (ℤ × List (Tok ℝ)) :=
  match int vs with
  | .error e => .error e
  | .ok (i, vs) => if (nv : ℤ) ≤ i then .error .null else .ok (i, vs)
/-- `_zPH3DFaceFromZTK`, src/zeo_ph3d.c:512-537: the normal is computed from the vertices as they are now.  A
negative index makes pointers in front of the vertex buffer.  The faces are written in order. -/
def phFace (τ : ℝ) (s : PH ℝ) (vs : List (Tok ℝ)) : Except Err (PH ℝ) :=
  match phIndex s.nv vs with
  | .error e => .error e
  | .ok (i0, vs) => match phIndex s.nv vs with
    | .error e => .error e
    | .ok (i1, vs) => match phIndex s.nv vs with
      | .error e => .error e
      | .ok (i2, _) =>
        if i0 < 0 ∨ i1 < 0 ∨ i2 < 0 then .error .undef
        else .ok { s with face := s.face ++ [⟨i0.toNat, i1.toNat, i2.toNat,
          (Tri3.create τ (s.vert i0.toNat) (s.vert i1.toNat) (s.vert i2.toNat)).2.norm⟩] }
/-- `__ztk_prp_ph`, src/zeo_ph3d.c:662-668; loops, prisms and pyramids are not modelled. -/
def phPrp (τ : ℝ) : List (Prp (PH ℝ) ℝ) :=
  [⟨"vert", -1, phVert, none⟩,
   ⟨"face", -1, fun s _ => phFace τ s, none⟩,
   ⟨"loop", 1, fun _ _ _ => .error .unmodelled, none⟩,
   ⟨"prism", 1, fun _ _ _ => .error .unmodelled, none⟩,
   ⟨"pyramid", 1, fun _ _ _ => .error .unmodelled, none⟩]
/-- `zPH3DFromZTK`, src/zeo_ph3d.c:671-702, for sections without prism and pyramid: the numbers of vertices
and faces are the numbers of fields with those keys; the buffers are zero at first (`zArrayAlloc` of the ZEDA
library allocates with `calloc`). -/
def phFromZTK (τ : ℝ) (fs : List (KeyField ℝ)) : Except Err (PH ℝ) :=
  if fs = [] then .error .null
  else if fs.any (fun f => f.1 = "prism" ∨ f.1 = "pyramid") then .error .unmodelled
  else evalKeys (phPrp τ) ⟨fs.countP (fun f => f.1 = "vert"), fun _ => .zero, []⟩ fs
/-- `zPH3DFPrintZTK`, src/zeo_ph3d.c:705-721. -/
def phPrint (fmt : ℝ → ℝ) (ph : PH ℝ) : List (KeyField ℝ) :=
  if ph.nv = 0 then []
  else (List.range ph.nv).map (fun i => ("vert", .int i :: vecTok fmt (ph.vert i))) ++
    ph.face.map (fun f => ("face", [.int f.i0, .int f.i1, .int f.i2]))

/-! ## Shapes with a type -/

/-- `zShape3D`'s `body` together with `com`, include/zeo/zeo_shape3d.h:42-47.  NURBS surfaces are not
modelled. -/
inductive Body
  | box (b : Box3 ℝ)
  | sphere (s : WithDiv (Sphere3 ℝ))
  | ellips (e : WithDiv (Ellips ℝ))
  | cyl (c : WithDiv (Cyl ℝ))
  | ecyl (c : WithDiv (ECyl ℝ))
  | capsule (c : WithDiv (Cyl ℝ))
  | cone (c : WithDiv (Cone ℝ))
  | ph (p : PH ℝ)

/-- The `typestr` members, e.g. src/zeo_shape3d_box.c:142; src/zeo_shape3d_sphere.c, ellips, cyl, ecyl,
capsule, cone and src/zeo_shape3d_ph.c likewise. -/
def Body.type : Body → String
  | .box _ => "box"
  | .sphere _ => "sphere"
  | .ellips _ => "ellipsoid"
  | .cyl _ => "cylinder"
  | .ecyl _ => "ellipticcylinder"
  | .capsule _ => "capsule"
  | .cone _ => "cone"
  | .ph _ => "polyhedron"
/-- The `_fprintZTK` methods, e.g. src/zeo_shape3d_box.c:138-139. -/
def Body.print (fmt : ℝ → ℝ) (τ : ℝ) : Body → List (KeyField ℝ)
  | .box b => boxPrint fmt τ b
  | .sphere s => spherePrint fmt s
  | .ellips e => ellipsPrint fmt τ e
  | .cyl c => cylPrint fmt c
  | .ecyl c => ecylPrint fmt τ c
  | .capsule c => cylPrint fmt c
  | .cone c => conePrint fmt c
  | .ph p => phPrint fmt p
/-- Wrap a result. -/
def wrap {α β : Type*} (f : α → β) : Except Err α → Except Err β
  | .ok a => .ok (f a)
  | .error e => .error e
/-- `zShape3DQueryAssign`, src/zeo_shape3d.c:26-36, and the `_fromZTK` method of the class found, called in
src/zeo_shape3d.c:427: NULL for an unknown type. -/
def Body.fromZTK (τ : ℝ) (type : String) (fs : List (KeyField ℝ)) : Except Err Body :=
  if type = "box" then wrap Body.box (boxFromZTK τ fs)
  else if type = "sphere" then wrap Body.sphere (sphereFromZTK fs)
  else if type = "ellipsoid" then wrap Body.ellips (ellipsFromZTK τ fs)
  else if type = "cylinder" then wrap Body.cyl (cylFromZTK fs)
  else if type = "ellipticcylinder" then wrap Body.ecyl (ecylFromZTK τ fs)
  else if type = "capsule" then wrap Body.capsule (cylFromZTK fs)
  else if type = "cone" then wrap Body.cone (coneFromZTK fs)
  else if type = "polyhedron" then wrap Body.ph (phFromZTK τ fs)
  else if type = "nurbs" then .error .unmodelled
  else .error .null

/-- `zShape3D`, include/zeo/zeo_shape3d.h:42-47: optical information and texture are indices in the arrays
the shape refers to. -/
structure Shape where
  name : String
  optic : Option ℕ
  texture : Option ℕ
  body : Body

/-- What the first pass of `zShape3DFromZTK` fills: `shape` without its body, and the type assigned to it. -/
@[ext] structure Head where
  name : Option String
  type : Option String
  optic : Option ℕ
  texture : Option ℕ

/-- The types `zShape3DQueryAssign` knows, `ZEO_SHAPE_COM_ARRAY`, include/zeo/zeo_shape3d.h:349-357. -/
def types : List String :=
  ["box", "sphere", "ellipsoid", "cylinder", "ellipticcylinder", "capsule", "cone", "polyhedron", "nurbs"]
/-- `zArrayFindName` of the ZEDA library: the index of the first element with that name. -/
def findName (names : List String) (n : String) : Option ℕ := names.findIdx? (· = n)

/-- `__ztk_prp_shape`, src/zeo_shape3d.c:395-406, with its readers (304-374) and printers (376-393).
`snames`, `onames` and `tnames` are the names in the arrays of shapes, optical information and textures.
The keys that refer to other shapes or files or give a transformation (`mirror`, `import`, `pos`, `att`,
`rot`, `frame`) are not modelled; they are never printed. -/
def headPrp (snames onames tnames : List String) : List (Prp Head ℝ) :=
  [⟨"name", 1, fun h _ vs => match word vs with
      | .error e => .error e
      | .ok n => if (findName snames n).isSome then .error .null else .ok { h with name := some n },
     some fun h _ => some [.word (h.name.getD "")]⟩,
   ⟨"type", 1, fun h _ vs => match word vs with
      | .error e => .error e
      | .ok n => if n ∈ types then .ok { h with type := some n } else .error .null,
     some fun h _ => some [.word (h.type.getD "")]⟩,
   ⟨"optic", 1, fun h _ => store word (fun h n => { h with optic := findName onames n }) h,
     some fun h _ => (h.optic.bind (onames[·]?)).map fun n => [.word n]⟩,
   ⟨"texture", 1, fun h _ => store word (fun h n => { h with texture := findName tnames n }) h,
     some fun h _ => (h.texture.bind (tnames[·]?)).map fun n => [.word n]⟩,
   ⟨"mirror", 1, fun _ _ _ => .error .unmodelled, none⟩,
   ⟨"import", 1, fun _ _ _ => .error .unmodelled, none⟩,
   ⟨"pos", 1, fun _ _ _ => .error .unmodelled, none⟩,
   ⟨"att", 1, fun _ _ _ => .error .unmodelled, none⟩,
   ⟨"rot", -1, fun _ _ _ => .error .unmodelled, none⟩,
   ⟨"frame", 1, fun _ _ _ => .error .unmodelled, none⟩]
/-- `zShape3DFromZTK`, src/zeo_shape3d.c:409-433: both passes go over the same fields. -/
def Shape.fromZTK (τ : ℝ) (snames onames tnames : List String) (fs : List (KeyField ℝ)) : Except Err Shape :=
  match evalKeys (headPrp snames onames tnames) ⟨none, none, none, none⟩ fs with
  | .error e => .error e
  | .ok h => match h.type with
    | none => .error .null
    | some t => match Body.fromZTK τ t fs with
      | .error e => .error e
      | .ok b => .ok ⟨h.name.getD "", h.optic, h.texture, b⟩
/-- `zShape3DFPrintZTK`, src/zeo_shape3d.c:436-442. -/
def Shape.print (fmt : ℝ → ℝ) (τ : ℝ) (onames tnames : List String) (s : Shape) : List (KeyField ℝ) :=
  printKeys (headPrp [] onames tnames) ⟨some s.name, some s.body.type, s.optic, s.texture⟩ ++ s.body.print fmt τ

end
end Zeo.ZTK
