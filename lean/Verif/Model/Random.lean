import Verif.Model.Ieee
import Verif.Model.Layout

/-!
# Random float arrays (src/common/random.rs)

The generator (crates `rand` and `rand_distr`) is not modelled: `draw i` is its `i`-th sample, an arbitrary float. What the crates promise
about samples is a hypothesis of the theorems that need it.
-/

namespace Verif

variable {p emax q fmax : Nat}

namespace Ieee

/-- `as` between float types, `NumCast::from` of crate `num` for them: to nearest, ties to even; a number that is too large becomes
infinite. -/
def convert [NeZero q] : Ieee p emax → Ieee q fmax
  | nan => nan
  | inf s => inf s
  | num s m _ _ => pack s m

/-- `x < y`, false if either is NaN. -/
def lt : Ieee p emax → Ieee p emax → Bool
  | nan, _ => false
  | _, nan => false
  | inf s, inf t => s && !t
  | inf s, num .. => s
  | num .., inf t => !t
  | num s m _ _, num t n _ _ => decide (signed s m < signed t n)

end Ieee

/-- src/common/random.rs 19-34: `randn`. `draw` samples the standard normal distribution over `f64`. -/
def randn [NeZero q] (draw : Nat → F64) (shape : List Nat) : Arr (Ieee q fmax) :=
  Arr.fromContiguousOwnedBuffer shape ((List.range (numel shape)).map fun i => (draw i).convert)

/-- src/common/random.rs 46-60: `rand`. The literals `0.0` and `1.0` are `f64`, so `draw` samples `[0, 1)` in `f64` whatever the element
type is. -/
def rand [NeZero q] (draw : Nat → F64) (shape : List Nat) : Arr (Ieee q fmax) :=
  Arr.fromContiguousOwnedBuffer shape ((List.range (numel shape)).map fun i => (draw i).convert)

/-- src/common/random.rs 72-86: `uniform`. `Uniform::new(low, high)` of crate `rand` panics unless `low < high` and if `high - low` is not
finite. -/
def uniform [NeZero p] (draw : Nat → Ieee p emax) (shape : List Nat) (low high : Ieee p emax) : Res (Arr (Ieee p emax)) := do
  assert (low.lt high)
  assert (decide (high - low).Finite)
  return Arr.fromContiguousOwnedBuffer shape ((List.range (numel shape)).map fun i => (draw i).convert)

end Verif
