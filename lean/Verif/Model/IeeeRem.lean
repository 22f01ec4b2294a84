import Verif.Model.Ieee

/-!
# The operator `%` of the float types

`BinaryOpRem` for `f32`, `f64` (src/ops/binary_ops.rs 255-258, the default loops).
-/

namespace Verif

variable {p emax : Nat} [NeZero p]

/-- `x % y`: the remainder of the division rounded towards zero, with the sign of `x`, rounded to the format; NaN for infinite `x` and
for `y = 0`. -/
def Ieee.rem : Ieee p emax → Ieee p emax → Ieee p emax
  | nan, _ => nan
  | inf _, _ => nan
  | num .., nan => nan
  | num s x h h', inf _ => num s x h h'
  | num s x _ _, num _ y _ _ => if y = 0 then nan else pack s (x - ⌊x / y⌋ * y)

end Verif
