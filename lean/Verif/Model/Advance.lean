import Verif.Model.Layout

/-!
# Skipping elements of a flat iterator

src/ndarray/iterator/flat_index_generator.rs 41-62 and buffer_iterator.rs 26-29: `advance_by`. The method is public, but within the
library nothing calls it.
-/

namespace Verif

/-- flat_index_generator.rs 51-61: the loop of `advance_by`, axes from last to first: indices, flat index, carry. `idx` is a reference
to the cell `self.indices[i]`, so that in `*idx - self.indices[i]` (line 60) both sides are the new index. `dim` is not 0: the method
returns before the loop when there are no elements. -/
def advanceLoop : List Nat → List Nat → List Nat → Nat → Nat → List Nat × Nat × Nat
  | n :: s, d :: st, i :: idx, flat, carry =>
    let r := advanceLoop s st idx flat carry
    let total := i + r.2.2
    let i' := total % n
    (i' :: r.1, r.2.1 + d * (i' - i'), total / n)
  | _, _, idx, flat, carry => (idx, flat, carry)

/-- flat_index_generator.rs 42-62: `advance_by`. -/
def FlatGen.advanceBy (g : FlatGen) (n : Nat) : FlatGen :=
  let n := min n (g.size - g.iteratorIndex)
  if n = 0 then g
  else
    let r := advanceLoop g.shape g.stride g.indices g.flatIndex n
    { g with iteratorIndex := g.iteratorIndex + n, indices := r.1, flatIndex := r.2.1 }

/-- `odometer` (flat_index_generator.rs 76-91) in a debug build, where the subtraction in line 90 panics if it is negative. -/
def odometerDebug : List Nat → List Nat → List Nat → Nat → Res (List Nat × Nat × Bool)
  | n :: s, d :: st, i :: idx, flat => do
    match ← odometerDebug s st idx flat with
    | (idx', flat', true) =>
      if i + 1 < n then return ((i + 1) :: idx', flat' + d, false)
      else if flat' < d * (n - 1) then throw .overflow
      else return (0 :: idx', flat' - d * (n - 1), true)
    | (idx', flat', false) => return (i :: idx', flat', false)
  | _, _, idx, flat => return (idx, flat, true)

/-- flat_index_generator.rs 69-96: `next` in a debug build. -/
def FlatGen.nextDebug (g : FlatGen) : Res (Option (Nat × FlatGen)) :=
  if g.iteratorIndex = g.size then return none
  else do
    let r ← odometerDebug g.shape g.stride g.indices g.flatIndex
    return some (g.flatIndex, { g with indices := r.1, flatIndex := r.2.1, iteratorIndex := g.iteratorIndex + 1 })

/-- The generator after `k` calls of `next`. -/
def FlatGen.after : Nat → FlatGen → Option FlatGen
  | 0, g => some g
  | k + 1, g => match g.next with
    | none => none
    | some (_, g') => FlatGen.after k g'

end Verif
