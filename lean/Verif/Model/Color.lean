import Verif.Model.Basic
import Mathlib.Algebra.Order.Floor.Ring
import Mathlib.Data.List.Basic

/-! # Colours: include/zeo/zeo_render_color.h, src/zeo_render_color.c

The components are `float` in the code and elements of an ordered field here. -/

namespace Zeo

/-- `zRGB`, include/zeo/zeo_render_color.h:17-39. -/
@[ext] structure RGB (K : Type*) where
  r : K
  g : K
  b : K
deriving DecidableEq

/-- `zHSV`, include/zeo/zeo_render_color.h:179-183. -/
@[ext] structure HSV (K : Type*) where
  hue : K
  sat : K
  val : K
deriving DecidableEq

namespace RGB
variable {K : Type*} [Field K] [LinearOrder K] [IsStrictOrderedRing K]

/-- `zRGBSet`, src/zeo_render_color.c:24-30. -/
def set (red green blue : K) : RGB K := ⟨zLimit red 0 1, zLimit green 0 1, zLimit blue 0 1⟩
/-- `zRGBMul`, src/zeo_render_color.c:47-50. -/
def mul (c1 c2 : RGB K) : RGB K := set (c1.r * c2.r) (c1.g * c2.g) (c1.b * c2.b)
/-- `zRGBBlend`, src/zeo_render_color.c:53-62. -/
def blend (c1 c2 : RGB K) (ratio : K) : RGB K :=
  let rn := 1 - ratio
  ⟨ratio * c1.r + rn * c2.r, ratio * c1.g + rn * c2.g, ratio * c1.b + rn * c2.b⟩
/-- `zRGBToGS`, src/zeo_render_color.c:40-44, macros include/zeo/zeo_render_color.h:81-82. -/
def toGS (c : RGB K) : RGB K :=
  let i := (c.r + c.g + c.b) / 3
  ⟨i, i, i⟩
/-- C++ `zRGB::set(float intensity)`, include/zeo/zeo_render_color.h:162 (`zGSSet`). -/
def setGS (i : K) : RGB K := ⟨i, i, i⟩
/-- `zRGBFromZTK` on a value that does not begin with '#', src/zeo_render_color.c:140-142: the three
numbers are stored as they are. -/
def fromZTK (r g b : K) : RGB K := ⟨r, g, b⟩
/-- `_zRGBRatio`, src/zeo_render_color.c:65-71; `r g b` are what `sscanf` left in the three
variables: the parsed values, or indeterminate ones where the string did not match. -/
def ratio (r g b : K) : RGB K := set r g b

/-- The loop of `_zRGBHex`, src/zeo_render_color.c:83-88: the four 32-bit accumulators.
`a2x` is `zA2X_c` of the ZEDA library, left arbitrary. -/
def hexLoop (a2x : Char → BitVec 32) : List (Char × Char × Char) →
    BitVec 32 × BitVec 32 × BitVec 32 × BitVec 32 → BitVec 32 × BitVec 32 × BitVec 32 × BitVec 32
  | [], acc => acc
  | (c1, c2, c3) :: rest, (r, g, b, d) =>
    hexLoop a2x rest (r <<< 4 ||| a2x c1, g <<< 4 ||| a2x c2, b <<< 4 ||| a2x c3, d <<< 4 ||| 0xf)

/-- The digits the loop visits: characters `i`, `i+len`, `i+2*len` for `i < len = strlen/3`. -/
def hexDigits (hex : List Char) : List (Char × Char × Char) :=
  let len := hex.length / 3
  (hex.take len).zip (((hex.drop len).take len).zip ((hex.drop (len * 2)).take len))

/-- `_zRGBHex`, src/zeo_render_color.c:74-90; `none` is the 0/0 of line 89, reached when the
string is shorter than three digits. -/
def ofHex (a2x : Char → BitVec 32) (hex : List Char) : Option (RGB K) :=
  let (r, g, b, d) := hexLoop a2x (hexDigits hex) (0, 0, 0, 0)
  if d = 0 then none
  else some (set ((r.toNat : K) / (d.toNat : K)) ((g.toNat : K) / (d.toNat : K)) ((b.toNat : K) / (d.toNat : K)))

/-- The table of `zRGBByName`, src/zeo_render_color.c:106-116. -/
def colorTable : List (String × K × K × K) :=
  [("black", 0, 0, 0), ("red", 1, 0, 0), ("green", 0, 1, 0), ("blue", 0, 0, 1), ("yellow", 1, 1, 0),
   ("cyan", 0, 1, 1), ("magenta", 1, 0, 1), ("white", 1, 1, 1)]
/-- `zRGBByName`, src/zeo_render_color.c:99-127 (`none` = NULL name). -/
def byName (name : Option String) : RGB K :=
  match name.bind (fun n => (colorTable (K := K)).find? (fun p => p.1 = n)) with
  | some (_, r, g, b) => set r g b
  | none => ⟨0, 0, 0⟩

/-- `zRGB2HSV`, src/zeo_render_color.c:177-214. -/
def toHSV (c : RGB K) : HSV K :=
  let (max, min, phase, phase0) : K × K × K × K :=
    if c.r > c.g then
      if c.r > c.b then (c.r, Min.min c.g c.b, c.g - c.b, 0) else (c.b, c.g, c.r - c.g, 240)
    else
      if c.g > c.b then (c.g, Min.min c.r c.b, c.b - c.r, 120) else (c.b, c.r, c.r - c.g, 240)
  let d := max - min
  let hue := if d = 0 then 0 else 60 * phase / d + phase0
  ⟨if hue < 0 then hue + 360 else hue, if max = 0 then 0 else d / max, max⟩

end RGB

namespace HSV
variable {K : Type*} [Field K] [LinearOrder K] [IsStrictOrderedRing K] [FloorRing K]

/-- `zHSV2RGB`, src/zeo_render_color.c:217-238; `old` is what `*rgb` held. The conversion of
`floor(h)` to `int` is assumed not to overflow. -/
def toRGB (c : HSV K) (old : RGB K) : RGB K :=
  let h := c.hue / 60
  let i := Int.tmod ⌊h⌋ 6
  let f := h - (i : K)
  let p := c.val * (1 - c.sat)
  let q := c.val * (1 - f * c.sat)
  let t := c.val * (1 - (1 - f) * c.sat)
  if i = 0 then RGB.set c.val t p
  else if i = 1 then RGB.set q c.val p
  else if i = 2 then RGB.set p c.val t
  else if i = 3 then RGB.set p q c.val
  else if i = 4 then RGB.set t p c.val
  else if i = 5 then RGB.set c.val p q
  else old
end HSV
end Zeo
