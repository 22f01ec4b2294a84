import Verif.Model.Macros
import Verif.Model.Random

/-!
# `==` and `assert_almost_eq!` on IEEE floats

src/ndarray/equals.rs, src/macros.rs 147-153
-/

namespace Verif

variable {p emax : Nat}

/-- `x == y` on `f32`, `f64`: false if either is NaN, and the two zeros are equal. -/
def Ieee.feq : Ieee p emax → Ieee p emax → Bool
  | nan, _ => false
  | _, nan => false
  | inf s, inf t => s == t
  | inf _, num .. => false
  | num .., inf _ => false
  | num s m _ _, num t n _ _ => decide (signed s m = signed t n)

/-- `(x as f64).abs() > tol` (src/macros.rs 150) for a finite `tol`; the conversion to `f64` is exact. -/
def Ieee.far (tol : ℚ) : Ieee p emax → Bool
  | nan => false
  | inf _ => true
  | num s m _ _ => decide (tol < |signed s m|)

/-- src/ndarray/equals.rs 8-23: `==` of two float arrays. -/
def Arr.eqFloat (a b : Arr (Ieee p emax)) : Res Bool := @Arr.eq _ ⟨Ieee.feq⟩ a b

/-- src/macros.rs 147-153 on `f32` (`p = 24`, `emax = 127`) or `f64` (`p = 53`, `emax = 1023`); `bot` is `min_value()`, the least finite
number. -/
def assertAlmostEqFloat [NeZero p] (bot : Ieee p emax) (tol : ℚ) (left right : Arr (Ieee p emax)) : Res Unit :=
  @assertAlmostEq _ ⟨Ieee.feq⟩ (fun x y => .ok (x - y)) 0 Ieee.lt bot (Ieee.far tol) left right

end Verif
