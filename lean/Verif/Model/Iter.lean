import Verif.Model.Basics

/-!
# Iteration over sub-arrays

src/ndarray/iterator/tensor_iterator.rs, src/ndarray/iterator/iterators.rs, src/ndarray/iterator/util.rs
-/

namespace Verif

variable {α : Type}

/-- src/ndarray/iterator/util.rs 15-21: the loop filling `bitset`. -/
def markIndices : List Nat → List Bool → Res (List Bool)
  | [], mask => .ok mask
  | k :: ks, mask => match mask[k]? with
    | none => .error .panic
    | some true => .error .panic
    | some false => markIndices ks (mask.set k true)

/-- src/ndarray/iterator/util.rs 23-29: the loop distributing the values. -/
def splitByMask : List Bool → List Nat → List Nat × List Nat
  | b :: mask, x :: l =>
    let r := splitByMask mask l
    if b then (x :: r.1, r.2) else (r.1, x :: r.2)
  | _, _ => ([], [])

/-- src/ndarray/iterator/util.rs 4-32: `split_by_indices`. (`max_index - indices.len()` can only underflow for
index lists that panic anyway.) -/
def splitByIndices (data ks : List Nat) : Res (List Nat × List Nat) := do
  let mask ← markIndices ks (List.replicate data.length false)
  return splitByMask mask data

/-- src/ndarray/iterator/tensor_iterator.rs 8-17: `NdIterator`. `moved` is the displacement of `result.ptr`
from its initial value. -/
structure NdIter (α : Type) where
  result : Arr α
  moved : Int
  shape : List Nat
  stride : List Nat
  indices : List Nat
  iteratorIndex : Nat
  size : Nat

/-- src/ndarray/iterator/tensor_iterator.rs 26-43: `NdIterator::from`. -/
def NdIter.from (a : Arr α) (axes : List Nat) : Res (NdIter α) := do
  let sh ← splitByIndices a.shape axes
  let st ← splitByIndices a.stride axes
  return { result := a.reshapedView sh.2 st.2, moved := 0, shape := sh.1, stride := st.1,
           indices := List.replicate axes.length 0, iteratorIndex := 0, size := numel sh.1 }

/-- src/ndarray/iterator/tensor_iterator.rs 57-66: the loop of `next`, from the last axis to the first: new
indices, pointer movement, and whether the loop ran through without `break`. -/
def ndAdvance : List Nat → List Nat → List Nat → List Nat × Int × Bool
  | n :: s, d :: st, i :: idx =>
    let r := ndAdvance s st idx
    if r.2.2 then
      if i ≠ n then ((i + 1) :: r.1, r.2.1 + (d : Int), false)
      else (0 :: r.1, r.2.1 - ((d * (n - 1) : Nat) : Int), true)
    else (i :: r.1, r.2.1, false)
  | _, _, _ => ([], 0, true)

/-- src/ndarray/iterator/tensor_iterator.rs 19-23: `offset_ptr`. A pointer before the start of the buffer is
`Err.oob`; other out-of-buffer pointers are only an error when read. -/
def Arr.offsetPtr (a : Arr α) (d : Int) : Res (Arr α) :=
  if 0 ≤ (a.off : Int) + d then .ok { a with off := ((a.off : Int) + d).toNat } else .error .oob

/-- src/ndarray/iterator/tensor_iterator.rs 49-69: `next`. -/
def NdIter.next (it : NdIter α) : Option (Res (Arr α) × NdIter α) :=
  if it.iteratorIndex = it.size then none
  else
    let r := ndAdvance it.shape it.stride it.indices
    some (it.result.offsetPtr it.moved >>= Arr.clone,
      { it with iteratorIndex := it.iteratorIndex + 1, indices := r.1, moved := it.moved + r.2.1 })

/-- Running an iterator to its end, `fuel` bounds the number of steps. -/
def NdIter.collect : Nat → NdIter α → Res (List (Arr α))
  | 0, _ => .ok []
  | fuel + 1, it => match it.next with
    | none => .ok []
    | some (r, it') => do
      let x ← r
      let xs ← NdIter.collect fuel it'
      return x :: xs

/-- All items, e.g. `iter.collect::<Vec<_>>()`. -/
def NdIter.toList (it : NdIter α) : Res (List (Arr α)) := it.collect (it.size + 1)

/-- src/ndarray/iterator/iterators.rs 27-29: `nditer`, run to the end. -/
def Arr.nditer (a : Arr α) (axes : List Nat) : Res (List (Arr α)) := do
  let it ← NdIter.from a axes
  it.toList

/-- src/ndarray/iterator/iterators.rs 19-21: `iter`, run to the end. -/
def Arr.iter (a : Arr α) : Res (List (Arr α)) := a.nditer [0]

/-- src/ndarray/iterator/iterators.rs 23-25: `iter_along`, run to the end. -/
def Arr.iterAlong (a : Arr α) (axis : Int) : Res (List (Arr α)) := do
  let k ← asAbsolute axis a.ndims
  a.nditer [k]

end Verif
