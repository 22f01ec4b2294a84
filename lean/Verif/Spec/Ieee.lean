import Verif.Spec.Rounding

/-!
# Numbers of a binary floating-point format

`p` significant bits and exponents up to `emax`: `p = 24`, `emax = 127` for `f32`, `p = 53`, `emax = 1023` for `f64`.
-/

namespace Verif

/-- The least positive number of the format is `2 ^ tiny`: -149 for `f32`, -1074 for `f64`. -/
def tiny (p emax : Nat) : ℤ := 2 - emax - p

/-- `x` is an integer multiple of `2 ^ -q`. -/
def OnGrid (q : ℤ) (x : ℚ) : Prop := ∃ k : ℤ, x = k * 2 ^ (-q)

/-- `x` is rounded to nearest-even among the numbers of the format, were the exponents not bounded above. -/
def rndTiny (p emax : Nat) (x : ℚ) : ℚ :=
  roundEven (x / max (ulp p x) (2 ^ tiny p emax)) * max (ulp p x) (2 ^ tiny p emax)

/-- The finite numbers of the format. -/
structure IsNumber (p emax : Nat) (x : ℚ) : Prop where
  bits : rnd p x = x
  grid : OnGrid (-tiny p emax) x
  range : |x| < 2 ^ (emax + 1)

end Verif
