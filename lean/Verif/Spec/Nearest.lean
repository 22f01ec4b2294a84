import Verif.Model.Ieee

/-!
# Correct rounding
-/

namespace Verif

variable {p emax : Nat}

/-- `x` is the result IEEE 754 prescribes for the exact value `v`: up to half a unit above the largest number, a finite number such that
no other is closer to `v`, and in case of a tie the even one (an even multiple of the distance to the other); beyond that, infinity. -/
def CorrectlyRounded (x : Ieee p emax) (v : ℚ) : Prop :=
  if |v| < (2 - 1 / 2 ^ p) * 2 ^ emax then
    x.Finite ∧ ∀ y : Ieee p emax, y.Finite → |v - x.val| ≤ |v - y.val| ∧
      (|v - x.val| = |v - y.val| → y.val = x.val ∨ ∃ k : ℤ, x.val = 2 * k * |x.val - y.val|)
  else x = .inf (decide (v < 0))

end Verif
