import Verif.Model.Ieee
import Verif.Model.IntOps
import Verif.Spec.Convert

/-!
# Numeric conversions

`NumCast::from`, which `astype` calls for each element (src/ndarray/astype.rs 12), is a function of the third-party crate `num`
(num-traits). This file has what its documentation promises for the numeric element types of src/util/dtype.rs 65-137: the number
itself if the target type has it; for floats to integers the number without its fractional part; for conversions to floats the nearest
float (the `as` of the language, which overflows to infinity); `None` otherwise.
-/

namespace Verif

/-- integer to integer -/
def Word.cast (V : Word) (z : Int) : Option Int := if V.Has z then some z else none

variable {p emax q emax' : Nat}

/-- float to integer -/
def Ieee.castInt (V : Word) : Ieee p emax → Option Int
  | nan => none
  | inf _ => none
  | num s m _ _ => V.cast (if s then -⌊m⌋ else ⌊m⌋)

/-- integer to float -/
def Ieee.castOfInt [NeZero p] (z : Int) : Option (Ieee p emax) := some (ofRat z)

/-- float to float -/
def Ieee.castFloat [NeZero q] : Ieee p emax → Option (Ieee q emax')
  | nan => some nan
  | inf s => some (inf s)
  | num s m _ _ => some (pack s m)

end Verif
