import Mathlib.Data.Rat.Floor
import Mathlib.Algebra.Order.AbsoluteValue.Basic

/-! # Dropping the fractional part -/

namespace Verif

/-- `z` is `x` without its fractional part: not larger in absolute value than `x`, by less than 1, and not of the other sign. -/
def IsTruncated (x : ℚ) (z : ℤ) : Prop := |(z : ℚ)| ≤ |x| ∧ |x| < |(z : ℚ)| + 1 ∧ 0 ≤ z * x

end Verif
