import Mathlib.Data.Rat.Floor
import Mathlib.Data.Int.Log
import Mathlib.Algebra.Order.Round

/-!
# Specification vocabulary: rounding of real numbers to floating-point numbers

IEEE 754 rounding to nearest, ties to even, with `p` significant bits (`p = 24`: `f32`, `p = 53`: `f64`). The exponent
range is unbounded: overflow to infinity, subnormal numbers, signed zeros and NaN are not part of this.
-/

namespace Verif

/-- Nearest integer, ties to the even one. -/
def roundEven (x : ℚ) : ℤ :=
  if Int.fract x < 1 / 2 then ⌊x⌋
  else if 1 / 2 < Int.fract x then ⌊x⌋ + 1
  else if ⌊x⌋ % 2 = 0 then ⌊x⌋ else ⌊x⌋ + 1

/-- The unit in the last place of numbers of the size of `x`. -/
def ulp (p : Nat) (x : ℚ) : ℚ := 2 ^ (Int.log 2 |x| + 1 - (p : ℤ))

/-- The floating-point number with `p` significant bits nearest to `x`. -/
def rnd (p : Nat) (x : ℚ) : ℚ := roundEven (x / ulp p x) * ulp p x

/-- The unit roundoff: half the distance from 1 to the next number with `p` significant bits. -/
def unitRoundoff (p : Nat) : ℚ := 1 / 2 ^ p

/-- `x` differs from `e` by at most `(1 + u)^k - 1` times `b`: the error `k` roundings can accumulate when all intermediate results
are bounded by `b`. -/
def AccurateTo (p k : Nat) (x e b : ℚ) : Prop := |x - e| ≤ ((1 + unitRoundoff p) ^ k - 1) * b

/-- A whole number. -/
def IsInt (x : ℚ) : Prop := ∃ k : ℤ, x = k

/-- Nearest integer, ties away from zero: `round()` of Rust's floating-point types. -/
def roundAway {K : Type} [Field K] [LinearOrder K] [FloorRing K] (x : K) : ℤ :=
  if 0 ≤ x then ⌊x + 1 / 2⌋ else -⌊-x + 1 / 2⌋

end Verif
