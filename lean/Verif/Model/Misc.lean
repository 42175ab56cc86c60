/-! # Axis and direction names: include/zeo/zeo_misc.h, src/zeo_misc.c

`zAxis` and `zDir` are `int8_t`; the model uses `Int`. A C string argument is `Option String`
(`none` = NULL); `strcmp(..)==0` is string equality. -/

namespace Zeo

/-- `__zaxisname[]`, src/zeo_misc.c:9 (without the NULL terminator). -/
def axisName : List String := ["x", "y", "z", "tilt", "elev", "azim"]
/-- `__zdirname[]`, src/zeo_misc.c:34-36 (without the NULL terminator). -/
def dirName : List String :=
  ["none", "right", "left", "forward", "backward", "up", "down", "cw", "ccw"]

/-- `zAxisStr`, src/zeo_misc.c:12-19 (`zX`=0, `zZA`=5, include/zeo/zeo_misc.h:19-21). -/
def axisStr (axis : Int) : Option String :=
  if axis < 0 ∨ axis > 5 then none else axisName[axis.toNat]?
/-- `zDirStr`, src/zeo_misc.c:39-46 (`ZEO_DIR_NONE`=0, `ZEO_DIR_CCW`=8, include/zeo/zeo_misc.h:44-46). -/
def dirStr (dir : Int) : Option String :=
  if dir < 0 ∨ dir > 8 then none else dirName[dir.toNat]?

/-- The scan `for( k=0, jp=table; *jp; jp++, k++ ) if( strcmp(str,*jp)==0 ) return k;` of
src/zeo_misc.c:28-29 and 55-56. `fail` is the value returned after the loop. -/
def scanName (fail : Int) (str : String) : List String → Int → Int
  | [], _ => fail
  | s :: rest, k => if str = s then k else scanName fail str rest (k + 1)

/-- `zAxisFromStr`, src/zeo_misc.c:22-32 (`zAxisInvalid`=-1). -/
def axisFromStr : Option String → Int
  | none => -1
  | some s => scanName (-1) s axisName 0
/-- `zDirFromStr`, src/zeo_misc.c:49-59. -/
def dirFromStr : Option String → Int
  | none => 0
  | some s => scanName 0 s dirName 0
/-- `zDirRev`, src/zeo_misc.c:62-65. C's `%` truncates towards zero: `Int.tmod`. -/
def dirRev (dir : Int) : Int := if dir = 0 then 0 else 1 + dir - (Int.tmod (dir + 1) 2) * 2

end Zeo
