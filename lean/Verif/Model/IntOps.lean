import Verif.Model.Ranges
import Verif.Model.Kernels

/-!
# The operators `%`, `&`, `|`, `<<`, `>>` and unary `-` of the integer types

src/ops/binary_ops.rs 255-275 instantiates the default loops of `define_binary_op_trait!` with these operators for all integer
types, src/ops/unary_ops.rs 64 the default loops of `UnaryOps` for the signed ones. The loops are those of `Model/Kernels.lean`; this
file has the operators of the element type, as the Rust reference defines them. `usize` and `isize` have 64 bits.
-/

namespace Verif

/-- An integer type: number of bits, signed or not. -/
structure Word where
  width : Nat
  signed : Bool

namespace Word

/-- `T::MIN` -/
def lo (W : Word) : Int := if W.signed then -2 ^ (W.width - 1) else 0

/-- `T::MAX` -/
def hi (W : Word) : Int := if W.signed then 2 ^ (W.width - 1) - 1 else 2 ^ W.width - 1

/-- A number of the type. -/
def Has (W : Word) (z : Int) : Prop := W.lo ≤ z ∧ z ≤ W.hi

instance (W : Word) : DecidablePred W.Has := fun z => inferInstanceAs (Decidable (W.lo ≤ z ∧ z ≤ W.hi))

/-- The bits stored for a number. -/
def bits (W : Word) (z : Int) : BitVec W.width := BitVec.ofInt W.width z

/-- The number stored as these bits. -/
def num (W : Word) (b : BitVec W.width) : Int := if W.signed then b.toInt else b.toNat

/-- `x % y` (`BinaryOpRem`, binary_ops.rs 255-258): a panic if `y` is 0 or the quotient overflows (`MIN % -1`), in every build. -/
def rem (W : Word) (x y : Int) : Res Int :=
  if y = 0 then .error .panic
  else if W.signed ∧ x = W.lo ∧ y = -1 then .error .panic
  else .ok (x.tmod y)

/-- `x & y` (`BinaryOpBitAnd`, binary_ops.rs 260-262) -/
def and (W : Word) (x y : Int) : Res Int := .ok (W.num (W.bits x &&& W.bits y))

/-- `x | y` (`BinaryOpBitOr`, binary_ops.rs 264-266) -/
def or (W : Word) (x y : Int) : Res Int := .ok (W.num (W.bits x ||| W.bits y))

/-- The number of places to shift by. If it is negative or not less than the width: a panic with overflow checks, else the low
bits of the amount are used, that is, the amount modulo the width (a power of two). -/
def amount (W : Word) (checks : Bool) (y : Int) : Res Nat :=
  if 0 ≤ y ∧ y < W.width then .ok y.toNat
  else if checks then .error .panic
  else .ok (y % W.width).toNat

/-- `x << y` (`BinaryOpShl`, binary_ops.rs 268-270): bits shifted out are lost. -/
def shl (W : Word) (checks : Bool) (x y : Int) : Res Int := do
  let n ← W.amount checks y
  return W.num (W.bits x <<< n)

/-- `x >> y` (`BinaryOpShr`, binary_ops.rs 272-274): copies of the sign bit come in for signed types, zeros for unsigned ones. -/
def shr (W : Word) (checks : Bool) (x y : Int) : Res Int := do
  let n ← W.amount checks y
  return W.num (if W.signed then (W.bits x).sshiftRight n else W.bits x >>> n)

/-- `-x` (unary_ops.rs 64; signed types only) -/
def neg (W : Word) (checks : Bool) (x : Int) : Res Int := intResult checks W.lo W.hi (-x)

end Word

end Verif
