import Verif.Model.FloatArith
import Verif.Spec.Ieee

/-!
# Specification vocabulary: a float together with the status flags of IEEE 754

Numbers with `p` bits and unbounded exponents that remember whether the operations so far would have raised a flag in the format with
largest exponent `emax`.
-/

namespace Verif

/-- `clean`: no flag so far. -/
structure Flagged (p emax : Nat) where
  val : Fl p
  clean : Bool
  deriving DecidableEq

namespace Flagged

variable {p emax : Nat}

/-- The result `x` does not raise the overflow flag. -/
def fits (emax : Nat) (x : Fl p) : Bool := |x.val| < 2 ^ (emax + 1)

/-- The number `v` about to be rounded does not raise the underflow flag: it is at least the least normal number, or a multiple of the
least positive number of the format. -/
def normal (p emax : Nat) (v : ℚ) : Bool := (2 : ℚ) ^ (1 - (emax : ℤ)) ≤ |v| || (v / 2 ^ tiny p emax).den = 1

variable [NeZero p]

instance : Zero (Flagged p emax) := ⟨0, true⟩
instance : One (Flagged p emax) := ⟨1, true⟩
instance : Neg (Flagged p emax) := ⟨fun x => ⟨-x.val, x.clean⟩⟩
instance : Add (Flagged p emax) := ⟨fun x y => ⟨x.val + y.val, x.clean && y.clean && fits emax (x.val + y.val)⟩⟩
instance : Sub (Flagged p emax) := ⟨fun x y => ⟨x.val - y.val, x.clean && y.clean && fits emax (x.val - y.val)⟩⟩
instance : Mul (Flagged p emax) := ⟨fun x y =>
  ⟨x.val * y.val, x.clean && y.clean && fits emax (x.val * y.val) && normal p emax (x.val.val * y.val.val)⟩⟩
instance : Div (Flagged p emax) := ⟨fun x y =>
  ⟨x.val / y.val, x.clean && y.clean && fits emax (x.val / y.val) && normal p emax (x.val.val / y.val.val) && y.val.val ≠ 0⟩⟩
/-- The product is not rounded. -/
instance : MulAdd (Flagged p emax) := ⟨fun x y z => ⟨mulAdd x.val y.val z.val,
  x.clean && y.clean && z.clean && fits emax (mulAdd x.val y.val z.val) && normal p emax (x.val.val * y.val.val + z.val.val)⟩⟩

end Flagged

end Verif
