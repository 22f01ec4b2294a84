import Verif.Model.Basics
import Verif.Model.Views

/-!
# The same constructors and views with machine `usize`

Elsewhere `usize` is `Nat`. Here it has `M` values (`2^64`, or `2^32` on 32-bit targets) and a product or sum that does not fit panics
with overflow checks (`checks`, debug builds) or wraps around (release builds). That memory for the elements can be had is not modelled.
-/

namespace Verif

variable {α : Type}

/-- A result `z` of `usize` arithmetic. -/
def uResult (M : Nat) (checks : Bool) (z : Nat) : Res Nat :=
  if z < M then .ok z else if checks then .error .panic else .ok (z % M)

/-- `shape.iter().product()` from the accumulator `acc` on. -/
def uProd (M : Nat) (checks : Bool) : List Nat → Nat → Res Nat
  | [], acc => .ok acc
  | n :: s, acc => do
    let p ← uResult M checks (acc * n)
    uProd M checks s p

/-- src/ndarray/constructors.rs 41-44 (`acc` = 1), src/common/reshape.rs 70-74: strides from the right, and the final product. -/
def uStrides (M : Nat) (checks : Bool) (acc : Nat) : List Nat → Res (List Nat × Nat)
  | [] => .ok ([], acc)
  | n :: s => do
    let r ← uStrides M checks acc s
    let p ← uResult M checks (r.2 * n)
    return (r.2 :: r.1, p)

/-- src/ndarray/iterator/collapse_contiguous.rs 78-91: `has_uniform_stride`; the product is not computed when the stride before is 0. -/
def uHasUniformStride (M : Nat) (checks : Bool) : List Nat → List Nat → Res (Option Nat)
  | _ :: n :: s, c :: d :: st => do
    if c ≠ 0 then
      let p ← uResult M checks (n * d)
      if c ≠ p then return none
    uHasUniformStride M checks (n :: s) (d :: st)
  | [_], [d] => .ok (some d)
  | _, _ => .ok (some 0)

/-- src/common/constructors.rs 69-76, src/ndarray/constructors.rs 51-71: `full`. -/
def Arr.fullU (M : Nat) (checks : Bool) (v : α) (shape : List Nat) : Res (Arr α) := do
  let n ← uProd M checks shape 1
  let data := List.replicate n v
  assert (!data.isEmpty)
  let st ← uStrides M checks 1 shape
  return { Arr.fromContiguousOwnedBuffer shape data with stride := st.1 }

/-- src/common/methods.rs 90-92: `size`. -/
def Arr.sizeU (M : Nat) (checks : Bool) (a : Arr α) : Res Nat := uProd M checks a.shape 1

/-- src/ndarray/slice.rs 8-26: `update_flags_with_contiguity`. -/
def uUpdateFlags (M : Nat) (checks : Bool) (flags : Flags) (shape stride : List Nat) : Res Flags := do
  match ← uHasUniformStride M checks shape stride with
  | none => return { flags with uniformStride := false, contiguous := false }
  | some d => return { flags with uniformStride := true, contiguous := decide (d ≤ 1) }

/-- src/ndarray/reshape.rs 82-98: `reshaped_view` on `&NdArray`. -/
def Arr.reshapedViewU (M : Nat) (checks : Bool) (a : Arr α) (shape stride : List Nat) : Res (Arr α) := do
  let fl ← uUpdateFlags M checks a.flags shape stride
  let len ← uProd M checks shape 1
  return { buf := a.buf, off := a.off, len, cap := a.cap, shape, stride, flags := { fl with userCreated := false, owned := false } }

/-- src/common/reshape.rs 55-77: `(&a).reshape(shape)`. -/
def Arr.reshapeU (M : Nat) (checks : Bool) (a : Arr α) (newShape : List Nat) : Res (Arr α) := do
  if newShape = a.shape then a.reshapedViewU M checks a.shape a.stride
  else do
    assert a.isUniformlyStrided
    let n ← a.sizeU M checks
    let m ← uProd M checks newShape 1
    if n ≠ m then throw .panic
    match a.stride.getLast? with
    | none => throw .panic
    | some d => do
      let st ← uStrides M checks d newShape
      a.reshapedViewU M checks newShape st.1

/-- src/ndarray/broadcast.rs 34-41: `broadcast_to`. -/
def Arr.broadcastToU (M : Nat) (checks : Bool) (a : Arr α) (shape : List Nat) : Res (Arr α) := do
  let bshape ← broadcastShape a.shape shape
  let bstride ← broadcastStride a.stride bshape a.shape
  let r ← a.reshapedViewU M checks bshape bstride
  return { r with flags := { r.flags with writeable := false } }

/-- src/ndarray/index_impl.rs 11-13: the flat position, from the running sum `acc` on. -/
def uOffset (M : Nat) (checks : Bool) : List Nat → List Nat → Nat → Res Nat
  | i :: idx, d :: st, acc => do
    let p ← uResult M checks (i * d)
    let s ← uResult M checks (acc + p)
    uOffset M checks idx st s
  | _, _, acc => .ok acc

/-- src/ndarray/index_impl.rs 8-17: `a[[..]]`. -/
def Arr.indexU (M : Nat) (checks : Bool) (a : Arr α) (idx : List Nat) : Res α := do
  assert (idx.length = a.ndims)
  let i ← uOffset M checks idx a.stride 0
  assert (i < a.len)
  a.read i

end Verif
