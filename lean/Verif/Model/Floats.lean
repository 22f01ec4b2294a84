import Verif.Model.Reduce
import Verif.Model.Simd

/-!
# Floats with NaN and infinities, as far as comparisons go

`f32` and `f64` are ordered by `PartialOrd`: NaN compares with nothing, everything else, including the two infinities, is linearly
ordered (the two zeros compare equal and are identified here). `K` is that linear order.
-/

namespace Verif

/-- A float: NaN (payloads are not distinguished) or a number of the extended line `K`. -/
inductive Flt (K : Type) where
  | nan
  | num (x : K)
deriving DecidableEq, Repr

/-- `a.partial_cmp(&b) == Some(Less)` on floats. -/
def Flt.lt {K : Type} [LT K] [DecidableLT K] : Flt K → Flt K → Bool
  | .num x, .num y => decide (x < y)
  | _, _ => false

/-- src/util/absolute.rs 50-60: `abs` on floats; NaN stays NaN. -/
def Flt.abs {K : Type} (abs : K → K) : Flt K → Flt K
  | .num x => .num (abs x)
  | .nan => .nan

/-- src/ndarray/reduce.rs 162-184, 200-222 for floats; `bot`, `top` are the finite extremes `f32::MIN`, `f32::MAX` (`Bounded` of the
crate `num`), not the infinities. -/
def Arr.maxFloat {K : Type} [LT K] [DecidableLT K] (bot : K) (a : Arr (Flt K)) : Res (Arr (Flt K)) := a.max Flt.lt (.num bot)
def Arr.minFloat {K : Type} [LT K] [DecidableLT K] (top : K) (a : Arr (Flt K)) : Res (Arr (Flt K)) := a.min Flt.lt (.num top)
def Arr.maxMagnitudeFloat {K : Type} [LT K] [DecidableLT K] (abs : K → K) (bot : K) (a : Arr (Flt K)) : Res (Arr (Flt K)) :=
  a.maxMagnitude Flt.lt (Flt.abs abs) (.num bot)
def Arr.minMagnitudeFloat {K : Type} [LT K] [DecidableLT K] (abs : K → K) (top : K) (a : Arr (Flt K)) : Res (Arr (Flt K)) :=
  a.minMagnitude Flt.lt (Flt.abs abs) (.num top)

/-- src/ndarray/reduce.rs 167-169, 186-188, 205-207, 224-226: the `_along` forms (`max_magnitude_along` starts from zero). -/
def Arr.maxAlongFloat {K : Type} [LT K] [DecidableLT K] (bot : K) (a : Arr (Flt K)) (axes : List Int) : Res (Arr (Flt K)) :=
  a.maxAlong Flt.lt (.num bot) axes
def Arr.minAlongFloat {K : Type} [LT K] [DecidableLT K] (top : K) (a : Arr (Flt K)) (axes : List Int) : Res (Arr (Flt K)) :=
  a.minAlong Flt.lt (.num top) axes
def Arr.maxMagnitudeAlongFloat {K : Type} [LT K] [DecidableLT K] (abs : K → K) (zero : K) (a : Arr (Flt K)) (axes : List Int) :
    Res (Arr (Flt K)) :=
  a.reduceAlong (partialMaxMagnitude Flt.lt (Flt.abs abs)) axes (.num zero)
def Arr.minMagnitudeAlongFloat {K : Type} [LT K] [DecidableLT K] (abs : K → K) (top : K) (a : Arr (Flt K)) (axes : List Int) :
    Res (Arr (Flt K)) :=
  a.minMagnitudeAlong Flt.lt (Flt.abs abs) (.num top) axes

/-- src/acceleration/simd.rs: `vmaxq`, one lane: NaN if either operand is NaN (Arm FMAX). -/
def Flt.vmax {K : Type} [LT K] [DecidableLT K] : Flt K → Flt K → Flt K
  | .num x, .num y => .num (if x < y then y else x)
  | _, _ => .nan

/-- src/ops/reduce_max.rs 61-82 with NEON: `max` of `f32` (4 lanes) or `f64` (2 lanes). -/
def Arr.maxFloatNeon {K : Type} [LT K] [DecidableLT K] (L : Nat) (bot : K) (a : Arr (Flt K)) : Res (Arr (Flt K)) :=
  a.reduceAll (partialMax Flt.lt) (.num bot) (simdRed (partialMax Flt.lt) Flt.vmax (.num bot) L)

end Verif
