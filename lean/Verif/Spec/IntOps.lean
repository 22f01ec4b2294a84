import Mathlib.Algebra.Order.Ring.Int
import Mathlib.Algebra.Order.Ring.Rat

/-! # Specification vocabulary: bits and remainders -/

namespace Verif

/-- Bit `i` of the binary representation of `z` is set; negative numbers in two's complement, sign-extended without end. -/
def bitAt (z : Int) (i : Nat) : Prop := z / 2 ^ i % 2 = 1

/-- `v` is the remainder of the division of `x` by `y` that has the sign of `x`. -/
def IsRemainder (v x y : Int) : Prop := |v| < |y| ∧ y ∣ x - v ∧ 0 ≤ v * x

/-- The same for numbers that need not be whole; the quotient is. -/
def IsRemainderQ (v x y : ℚ) : Prop := |v| < |y| ∧ (∃ k : ℤ, x - v = k * y) ∧ 0 ≤ v * x

end Verif
