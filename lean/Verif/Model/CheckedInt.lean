import Verif.Model.SumOfProducts

/-!
# Integers of a debug build as an element type

Where the sums of products of src/linalg/sum_of_products.rs, src/ops/dot_product.rs and src/linalg/matrix_ops.rs are computed on
integers with overflow checks, an overflow panics. Here it leaves the mark `overflow`, which all further arithmetic keeps; every
intermediate result ends up in a cell of the result, so the program panics exactly when a cell of the result carries the mark.
An accumulator to which nothing has been added (`Self::default()`, `vec![T::default(); n]`) is `fresh`: `0 + x` is `x`. A fresh
accumulator is never multiplied by a result that may have overflowed (the only sum that is a factor, in `sum_of_scaled_array`, has at least one term),
so that `fresh * overflow` does not matter; it is `fresh`.
-/

namespace Verif

/-- A machine integer with values in `lo..=hi`. -/
inductive Chk (lo hi : Int) where
  | fresh
  | int (z : Int) (h : lo ≤ z ∧ z ≤ hi)
  | overflow
deriving DecidableEq

namespace Chk

variable {lo hi : Int}

/-- The result `z` of one operation. -/
def check (z : Int) : Chk lo hi := if h : lo ≤ z ∧ z ≤ hi then int z h else overflow

instance : Zero (Chk lo hi) := ⟨fresh⟩
instance : One (Chk lo hi) := ⟨check 1⟩

instance : Add (Chk lo hi) := ⟨fun
  | fresh, y => y
  | x, fresh => x
  | int x _, int y _ => check (x + y)
  | _, _ => overflow⟩

instance : Mul (Chk lo hi) := ⟨fun
  | fresh, _ => fresh
  | _, fresh => fresh
  | int x _, int y _ => check (x * y)
  | _, _ => overflow⟩

/-- The number in a cell, if the program got that far. -/
def value : Chk lo hi → Option Int
  | fresh => some 0
  | int z _ => some z
  | overflow => none

end Chk

end Verif
