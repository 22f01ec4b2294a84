import Verif.Model.Basics
import Verif.Spec.Rounding

/-!
# Ranges and random integers

src/common/constructors.rs 157-262 (arange, arange_with_step, linspace, linspace_exclusive), src/common/random.rs 98-114
(randint), src/util/dtype.rs

The element type enters through a record of the operations the functions use (`NumTy`). Three kinds of element types are
given: exact arithmetic in an ordered field, the machine integers, and rounded floating-point arithmetic.
-/

namespace Verif

variable {α K : Type}

/-- What the functions use of an element type `T` (values `α`) and of its type `T::AsFloatType` (finite values: numbers of
the ordered field `K`). Operators can panic. -/
structure NumTy (α K : Type) where
  add : α → α → Res α
  sub : α → α → Res α
  mul : α → α → Res α
  div : α → α → Res α
  one : α
  /-- `<T as NumCast>::from(i)` for `i: usize` -/
  ofUsize : Nat → Option α
  /-- `<T as NumCast>::from(x)` for an integral float `x` -/
  ofIntegral : Int → Option α
  /-- `to_float` (src/util/dtype.rs 52-54): `self.to_f32().unwrap().into()`, for every type -/
  toFloat : α → K
  /-- division of `AsFloatType`; `none` is an infinity or NaN -/
  fdiv : K → K → Option K
  /-- `self < other` -/
  lt : α → α → Bool

/-- `.unwrap()` -/
def unwrap {α : Type} : Option α → Res α
  | some a => .ok a
  | none => .error .panic

variable [Field K] [LinearOrder K] [FloorRing K]

/-- `NumCast::from(x.ceil())` to `usize`: `None` for infinities, NaN and negative numbers. (`usize` is unbounded here;
a number of elements that does not fit also panics in the code.) -/
def ceilToUsize : Option K → Option Nat
  | none => none
  | some x => if 0 ≤ ⌈x⌉ then some ⌈x⌉.toNat else none

/-- src/common/constructors.rs 178-191: `arange_with_step`. -/
def arangeWithStep (T : NumTy α K) (start stop step : α) : Res (Arr α) := do
  let d ← T.sub stop start
  let n ← unwrap (ceilToUsize (T.fdiv (T.toFloat d) (T.toFloat step)))
  let data ← (List.range n).mapM fun i => do
    let c ← unwrap (T.ofUsize i)
    let m ← T.mul c step
    T.add m start
  return Arr.fromContiguousOwnedBuffer [data.length] data

/-- src/common/constructors.rs 157-162: `arange`. -/
def arange (T : NumTy α K) (start stop : α) : Res (Arr α) := arangeWithStep T start stop T.one

/-- src/common/constructors.rs 213-227: `linspace`. -/
def linspace (T : NumTy α K) (start stop : α) (num : Nat) : Res (Arr α) := do
  assert (decide (num > 0))
  if num = 1 then return Arr.fromContiguousOwnedBuffer [1] [start]
  let c ← unwrap (T.ofUsize num)
  let m ← T.sub c T.one
  let d ← T.sub stop start
  let step ← T.div d m
  let stop' ← T.add stop step
  arangeWithStep T start stop' step

/-- src/common/constructors.rs 249-261: `linspace_exclusive`. -/
def linspaceExclusive (T : NumTy α K) (start stop : α) (num : Nat) : Res (Arr α) := do
  assert (decide (num > 0))
  if num = 1 then return Arr.fromContiguousOwnedBuffer [1] [start]
  let c ← unwrap (T.ofUsize num)
  let d ← T.sub stop start
  let step ← T.div d c
  arangeWithStep T start stop step

/-- src/common/random.rs 98-114: `randint`. `draw i` is the `i`-th sample of the uniform distribution (a finite float);
`Uniform::new(a, b)` of the `rand` crate panics unless `a < b`. -/
def randint (T : NumTy α K) (draw : Nat → K) (shape : List Nat) (low high : α) : Res (Arr α) := do
  assert (T.lt low high)
  assert (decide (T.toFloat low < T.toFloat high))
  let data ← (List.range (numel shape)).mapM fun i => unwrap (T.ofIntegral (roundAway (draw i)))
  return Arr.fromContiguousOwnedBuffer shape data

/-! ### element types -/

/-- Floating-point types, if no operation had to round: numbers of an ordered field. Division by zero gives a value of the
field here, it is only used where the divisor is not zero. -/
def exactTy (K : Type) [Field K] [LinearOrder K] [FloorRing K] : NumTy K K where
  add x y := .ok (x + y)
  sub x y := .ok (x - y)
  mul x y := .ok (x * y)
  div x y := .ok (x / y)
  one := 1
  ofUsize n := some n
  ofIntegral z := some z
  toFloat x := x
  fdiv x y := if y = 0 then none else some (x / y)
  lt x y := decide (x < y)

/-- Result `z` of an integer operation in a type with values `lo..=hi`: if it does not fit, a panic with overflow checks
(debug builds), else wrapped around (release builds). -/
def intResult (checks : Bool) (lo hi z : Int) : Res Int :=
  if lo ≤ z ∧ z ≤ hi then .ok z
  else if checks then .error .panic
  else .ok ((z - lo) % (hi - lo + 1) + lo)

/-- The integer types with values `lo..=hi` whose `AsFloatType` has `p` significant bits (dtype.rs 61-111: `f32` for the types
of at most 32 bits, `f64` for the wider ones and `usize`, `isize`). Conversion to floats is always to `f32` first, rounding
to nearest. -/
def intTy (checks : Bool) (lo hi : Int) (p : Nat) : NumTy Int ℚ where
  add x y := intResult checks lo hi (x + y)
  sub x y := intResult checks lo hi (x - y)
  mul x y := intResult checks lo hi (x * y)
  div x y := if y = 0 then .error .panic else intResult checks lo hi (x.tdiv y)
  one := 1
  ofUsize n := if (n : Int) ≤ hi then some n else none
  ofIntegral z := if lo ≤ z ∧ z ≤ hi then some z else none
  toFloat x := rnd 24 x
  fdiv x y := if y = 0 then none else some (rnd p (x / y))
  lt x y := decide (x < y)

/-- `f32` (`p = 24`) and `f64` (`p = 53`) with every operation rounded to nearest (exponent range unbounded, see
`Spec/Rounding.lean`). `to_float` of an `f64` rounds to `f32` (dtype.rs 53). -/
def floatTy (p : Nat) : NumTy ℚ ℚ where
  add x y := .ok (rnd p (x + y))
  sub x y := .ok (rnd p (x - y))
  mul x y := .ok (rnd p (x * y))
  div x y := .ok (rnd p (x / y))
  one := 1
  ofUsize n := some (rnd p n)
  ofIntegral z := some (rnd p z)
  toFloat x := rnd 24 x
  fdiv x y := if y = 0 then none else some (rnd p (x / y))
  lt x y := decide (x < y)

end Verif
