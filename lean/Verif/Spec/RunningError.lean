import Verif.Spec.Rounding
import Verif.Model.SumOfProducts

/-!
# Specification vocabulary: a number together with what is known about rounding errors

A computation with floating-point numbers can be repeated with these numbers in place of the floats. They carry the result without
rounding, and what the textbook rules for error propagation say about the rounded result.
-/

namespace Verif

/-- `exact`: the result without rounding. `size`: the same computation with the absolute values of the inputs, and sums for differences
(so `|exact| ≤ size`, and `size` is larger only where something was cancelled). `steps`: number of roundings that count; `none` if
nothing is known, which only happens after a division by a number that is 0 or the result of a cancellation. `whole`: only integers
were used, and no division. -/
structure Est where
  exact : ℚ
  size : ℚ
  steps : Option Nat
  whole : Bool
  deriving DecidableEq, Repr

namespace Est

/-- An input. -/
def ofRat (x : ℚ) : Est := ⟨x, |x|, some 0, x.den = 1⟩

/-- A further rounding, on top of those of both operands. -/
def oneMore (f : Nat → Nat → Nat) : Option Nat → Option Nat → Option Nat
  | some k, some l => some (f k l + 1)
  | _, _ => none

/-- The roundings of both factors. -/
def both : Option Nat → Option Nat → Option Nat
  | some k, some l => some (k + l)
  | _, _ => none

instance : Zero Est := ⟨ofRat 0⟩
instance : One Est := ⟨ofRat 1⟩
instance : Add Est := ⟨fun a b => ⟨a.exact + b.exact, a.size + b.size, oneMore max a.steps b.steps, a.whole && b.whole⟩⟩
instance : Sub Est := ⟨fun a b => ⟨a.exact - b.exact, a.size + b.size, oneMore max a.steps b.steps, a.whole && b.whole⟩⟩
instance : Neg Est := ⟨fun a => ⟨-a.exact, a.size, a.steps, a.whole⟩⟩
instance : Mul Est := ⟨fun a b => ⟨a.exact * b.exact, a.size * b.size, oneMore (· + ·) a.steps b.steps, a.whole && b.whole⟩⟩
instance : Div Est := ⟨fun a b => ⟨a.exact / b.exact, a.size / |b.exact|,
  if b.exact ≠ 0 ∧ b.size = |b.exact| then oneMore (· + ·) a.steps b.steps else none, false⟩⟩
/-- The product is not rounded. -/
instance : MulAdd Est := ⟨fun a b c => ⟨a.exact * b.exact + c.exact, a.size * b.size + c.size,
  oneMore max (both a.steps b.steps) c.steps, a.whole && b.whole && c.whole⟩⟩

/-- What the rules say about the rounded result `x`: its error is at most `(1 + u)^steps - 1` times `size`; with integers whose `size`
does not exceed `2^p` there is no error. -/
structure Bounds (p : Nat) (t : Est) (x : ℚ) : Prop where
  accurate : ∀ k, t.steps = some k → AccurateTo p k x t.exact t.size
  exact_of_whole : t.whole = true → t.size ≤ 2 ^ p → x = t.exact

end Est

end Verif
