import Verif.Model.Core

/-!
# Strides, merging of dimensions, flat iteration

src/ndarray/constructors.rs, src/ndarray/iterator/collapse_contiguous.rs,
src/ndarray/iterator/flat_index_generator.rs
-/

namespace Verif

/-- The loop of `stride_from_shape` seen from the left: returns the strides and the running product `p`
after the loop has processed these (right-most) axes. -/
def strideAux : List Nat → List Nat × Nat
  | [] => ([], 1)
  | n :: s => let r := strideAux s; (r.2 :: r.1, r.2 * n)

/-- src/ndarray/constructors.rs 36-47: `stride_from_shape`. The Rust loop runs over the axes from last to
first with a running product; here the same computation by recursion (the tail is processed first). -/
def strideFromShape (shape : List Nat) : List Nat := (strideAux shape).1

/-- Loop of `collapse_to_uniform_stride` (collapse_contiguous.rs 59-73). `cn`, `cd` are
`new_shape[last_idx]`, `new_stride[last_idx]`; the result is what the loop leaves from `last_idx` on. -/
def collapseAux (cn cd : Nat) : List Nat → List Nat → List Nat × List Nat
  | n :: s, d :: st =>
    if cd = n * d ∨ (cd = 0 ∧ cn = 1) then
      collapseAux (cn * n) d s st
    else
      let r := collapseAux n d s st
      (cn :: r.1, cd :: r.2)
  | _, _ => ([cn], [cd])

/-- src/ndarray/iterator/collapse_contiguous.rs 45-76: `collapse_to_uniform_stride`. -/
def collapseToUniformStride : List Nat → List Nat → List Nat × List Nat
  | n :: s, d :: st => collapseAux n d s st
  | _, _ => ([], [])

/-- src/ndarray/iterator/collapse_contiguous.rs 78-91: `has_uniform_stride`. The loop compares each pair
of neighbouring axes; `none` is the early return. -/
def hasUniformStride : List Nat → List Nat → Option Nat
  | _ :: n :: s, c :: d :: st =>
    if c ≠ 0 ∧ c ≠ n * d then none else hasUniformStride (n :: s) (d :: st)
  | [_], [d] => some d
  | _, _ => some 0

/-- The loop of `collapse_contiguous` (collapse_contiguous.rs 8-17), processing axes from last to first:
returns the number of axes not merged and the product of the merged extents. `none` for the product is
not needed: the loop stops at the first axis whose stride differs. -/
def collapseContiguousLoop : List (Nat × Nat) → Nat → Nat → Nat × Nat
  | [], acc, nd => (nd, acc)
  | (n, d) :: rest, acc, nd => if acc ≠ d then (nd, acc) else collapseContiguousLoop rest (acc * n) (nd - 1)

/-- src/ndarray/iterator/collapse_contiguous.rs 3-30: `collapse_contiguous` (only used by its own unit
tests). -/
def collapseContiguous (shape stride : List Nat) : List Nat × List Nat :=
  if stride.getLast? ≠ some 1 then (shape, stride)
  else
    let r := collapseContiguousLoop (shape.zip stride).reverse 1 shape.length
    if r.2 = 1 then (shape, stride)
    else (shape.take r.1 ++ [r.2], stride.take r.1 ++ [1])

/-- src/ndarray/iterator/flat_index_generator.rs 5-16: `struct FlatIndexGenerator`. The fixed-size arrays
`[usize; MAX_DIMS]`, of which only the first `ndims` entries are used, are lists of length `ndims`. -/
structure FlatGen where
  shape : List Nat
  stride : List Nat
  size : Nat
  iteratorIndex : Nat
  indices : List Nat
  flatIndex : Nat
  deriving DecidableEq, Repr

/-- flat_index_generator.rs 19-39: `FlatIndexGenerator::from`. Copying more than `MAX_DIMS` entries into
the fixed-size arrays panics. -/
def FlatGen.mk' (shape stride : List Nat) : Res FlatGen :=
  let r := collapseToUniformStride shape stride
  if r.1.length ≤ maxDims then
    .ok { shape := r.1, stride := r.2, size := numel r.1, iteratorIndex := 0,
          indices := List.replicate r.1.length 0, flatIndex := 0 }
  else .error .panic

/-- The `while i > 0` loop of `next` (flat_index_generator.rs 76-91). The axes are processed from last to
first; the flag is `true` while the loop has not hit `break` (carry). -/
def odometer : List Nat → List Nat → List Nat → Nat → List Nat × Nat × Bool
  | n :: s, d :: st, i :: idx, flat =>
    match odometer s st idx flat with
    | (idx', flat', true) =>
      if i + 1 < n then ((i + 1) :: idx', flat' + d, false)
      else (0 :: idx', flat' - d * (n - 1), true)
    | (idx', flat', false) => (i :: idx', flat', false)
  | _, _, idx, flat => (idx, flat, true)

/-- flat_index_generator.rs 69-96: `Iterator::next`. -/
def FlatGen.next (g : FlatGen) : Option (Nat × FlatGen) :=
  if g.iteratorIndex = g.size then none
  else
    let r := odometer g.shape g.stride g.indices g.flatIndex
    some (g.flatIndex,
      { g with indices := r.1, flatIndex := r.2.1, iteratorIndex := g.iteratorIndex + 1 })

/-- `for i in generator`: calls `next` until `None`, at most `fuel` times. -/
def FlatGen.collect : Nat → FlatGen → List Nat
  | 0, _ => []
  | fuel + 1, g => match g.next with
    | none => []
    | some (i, g') => i :: FlatGen.collect fuel g'

/-- All indices a generator yields. One more call than the number of elements is allowed for, so that the
result being of length `size` shows that `None` was reached. -/
def FlatGen.toList (g : FlatGen) : List Nat := FlatGen.collect (g.size + 1) g

/-- `count` calls of `next().unwrap_unchecked()`: undefined behaviour if the generator is exhausted. -/
def FlatGen.nextsUnchecked : Nat → FlatGen → Res (List Nat)
  | 0, _ => .ok []
  | count + 1, g => match g.next with
    | none => .error .ub
    | some (i, g') => do
      let rest ← FlatGen.nextsUnchecked count g'
      return i :: rest

/-- src/ndarray/iterator/flat_iterator.rs 9-23, buffer_iterator.rs 11-42 and iterators.rs 9-11:
`arr.flatiter()`, run to the end. The Rust iterator is lazy; here the list of all values it yields. -/
def Arr.flatiter (a : Arr α) : Res (List α) := do
  let g ← FlatGen.mk' a.shape a.stride
  g.toList.mapM a.read

end Verif
