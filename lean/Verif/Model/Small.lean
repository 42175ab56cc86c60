import Verif.Model.Elem
import Verif.Model.Color

/-! # Common perpendiculars and strings of colours -/

namespace Zeo

/-- `zLine3DCommonPerp`, src/zeo_elem3d.c:60-66: (`*origin`, `*commonperp`). -/
noncomputable def Line3.commonPerp (τ : ℝ) (l1 l2 : Line3 ℝ) : Vec3 ℝ × Line3 ℝ :=
  ((l1.commonPerpEnd τ l2).1, Line3.createTwoPoints τ (l1.commonPerpEnd τ l2).1 (l1.commonPerpEnd τ l2).2)

section
variable {K : Type*} [Field K] [LinearOrder K]

/-- `zRGBDecodeStr`, src/zeo_render_color.c:93-96; `scan` is what `sscanf` makes of the string (`_zRGBRatio`, 65-71). The terminating NUL is
the end of the list. -/
def RGB.decodeStr (a2x : Char → BitVec 32) (scan : List Char → K × K × K) (s : List Char) : Option (RGB K) :=
  match s with
  | '#' :: hex => RGB.ofHex a2x hex
  | s => some (RGB.ratio (scan s).1 (scan s).2.1 (scan s).2.2)

/-- `zRGBByStr`, src/zeo_render_color.c:130-133 (`none` = NULL string; characters outside of ASCII, for which `isdigit` is not defined, are
left out). -/
def RGB.byStr (a2x : Char → BitVec 32) (scan : List Char → K × K × K) (s : Option (List Char)) : Option (RGB K) :=
  match s with
  | none => some (RGB.byName none)
  | some [] => some (RGB.byName (some ""))
  | some (c :: l) =>
    if c = '#' ∨ c.isDigit then RGB.decodeStr a2x scan (c :: l) else some (RGB.byName (some (String.ofList (c :: l))))
end
end Zeo
