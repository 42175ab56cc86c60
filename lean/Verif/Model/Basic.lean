import Mathlib.Algebra.Order.Field.Basic
import Mathlib.Algebra.Order.Ring.Abs
import Mathlib.Tactic.Ring
import Mathlib.Tactic.Linarith
import Mathlib.Tactic.FieldSimp
import Mathlib.Tactic.Positivity

/-!
# Scalars

The C code computes with `double`.  The model computes in an ordered field `K`
(ℝ where `sqrt` or trigonometric functions are needed).  Rounding is not modelled.

`zTOL` of the ZM library is the parameter `τ`.
-/

namespace Zeo

section
variable {K : Type*} [Field K] [LinearOrder K] [IsStrictOrderedRing K]

/-- `zIsTol(x,tol)` of the ZM library (zm_misc.h, not part of /repo): `fabs(x) <= tol`.
`zIsTiny(x)` is `zIsTol(x,zTOL)`.  Used all over /repo, e.g. include/zeo/zeo_vec3d.h:133,153. -/
def zIsTol (x tol : K) : Prop := |x| ≤ tol

instance (x tol : K) : Decidable (zIsTol x tol) := inferInstanceAs (Decidable (|x| ≤ tol))

/-- `zLimit(x,min,max)` of the ZM library: clamp `x` into `[min,max]`.
As used in src/zeo_render_color.c and src/zeo_ep.c. -/
def zLimit (x lo hi : K) : K := if x < lo then lo else if hi < x then hi else x

end
end Zeo
