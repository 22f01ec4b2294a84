import Verif.Model.Layout

/-!
# Construction from a buffer, indexing, and all operations that return views

src/ndarray/constructors.rs, index_impl.rs, slice.rs, reshape.rs, broadcast.rs, src/common/reshape.rs,
src/util/axis.rs, src/util/index.rs, src/linalg/matrix_ops.rs (diagonals)
-/

namespace Verif

/-! ### construction -/

/-- src/ndarray/constructors.rs 51-69: `from_contiguous_owned_buffer`. The capacity of the vector is taken
to be its length (true for `vec![v; n]`; only `into_data_vector`/`drop` look at it, see
`Model/Ownership.lean`, where it is arbitrary). -/
def Arr.fromContiguousOwnedBuffer (shape : List Nat) (data : List α) : Arr α :=
  { buf := data, off := 0, len := data.length, cap := data.length, shape := shape,
    stride := strideFromShape shape,
    flags := { owned := true, contiguous := true, uniformStride := true, writeable := true,
               userCreated := false, requiresGrad := false } }

/-! ### indexing -/

/-- src/ndarray/index_impl.rs 8-17: `Index<[usize; D]>::index`. -/
def Arr.index (a : Arr α) (idx : List Nat) : Res α := do
  assert (idx.length = a.ndims)
  let i := offset idx a.stride
  assert (i < a.len)
  a.read i

/-- src/ndarray/index_impl.rs 21-30: `IndexMut<[usize; D]>::index_mut` followed by an assignment; returns
the new contents of the buffer. -/
def Arr.indexSet (a : Arr α) (idx : List Nat) (v : α) : Res (List α) := do
  assert (idx.length ≤ a.ndims)
  let i := offset idx a.stride
  assert (i < a.len)
  if a.off + i < a.buf.length then return a.buf.set (a.off + i) v else throw .oob

/-- src/ndarray/methods.rs 26-29: `value`. -/
def Arr.value (a : Arr α) : Res α := do
  assert (a.size = 1)
  a.read 0

/-- src/ndarray/methods.rs 41-44: `data_slice`: `len` elements from the pointer on. -/
def Arr.dataSlice (a : Arr α) : Res (List α) := do
  assert a.isContiguous
  (List.range a.len).mapM a.read

/-! ### axes -/

/-- src/util/axis.rs 29-38: `as_absolute`. -/
def asAbsolute (axis : Int) (ndims : Nat) : Res Nat :=
  if axis < -(ndims : Int) ∨ axis ≥ (ndims : Int) then .error .panic
  else .ok (if axis < 0 then axis + ndims else axis).toNat

/-! ### flags and raw views -/

/-- src/ndarray/slice.rs 8-26: `update_flags_with_contiguity`. -/
def updateFlagsWithContiguity (flags : Flags) (shape stride : List Nat) : Flags :=
  match hasUniformStride shape stride with
  | none => { flags with uniformStride := false, contiguous := false }
  | some d => { flags with uniformStride := true, contiguous := decide (d ≤ 1) }

/-- src/ndarray/reshape.rs 34-53: `reshaped_view_with_offset`. -/
def Arr.reshapedViewWithOffset (a : Arr α) (o : Nat) (shape stride : List Nat) : Arr α :=
  { buf := a.buf, off := a.off + o, len := numel shape, cap := 0, shape, stride,
    flags := { updateFlagsWithContiguity a.flags shape stride with userCreated := false, owned := false } }

/-- src/ndarray/reshape.rs 82-98: `reshaped_view` on `&NdArray` (borrowing). -/
def Arr.reshapedView (a : Arr α) (shape stride : List Nat) : Arr α :=
  { buf := a.buf, off := a.off, len := numel shape, cap := a.cap, shape, stride,
    flags := { updateFlagsWithContiguity a.flags shape stride with userCreated := false, owned := false } }

/-- src/ndarray/reshape.rs 59-76: `reshaped_view` on `NdArray` (consuming). -/
def Arr.intoReshapedView (a : Arr α) (shape stride : List Nat) : Arr α :=
  { buf := a.buf, off := a.off, len := a.len, cap := 0, shape, stride,
    flags := updateFlagsWithContiguity a.flags shape stride }

/-! ### the `Reshape` trait

Every method computes a new shape and stride (below: the `*Layout` functions) and ends with
`self.reshaped_view(shape, stride)`, borrowing or consuming. -/

/-- The strides computed by `reshape` (src/common/reshape.rs 69-74): running product from the right,
starting from the stride `acc` of the last axis; returns strides and the final `acc`. -/
def reshapeStrides (acc : Nat) : List Nat → List Nat × Nat
  | [] => ([], acc)
  | n :: s => let r := reshapeStrides acc s; (r.2 :: r.1, r.2 * n)

/-- src/common/reshape.rs 55-77: `reshape`. For a rank-0 array `self.stride()[self.ndims() - 1]` panics
(subtraction overflow in debug, index out of bounds in release). -/
def Arr.reshapeLayout (a : Arr α) (newShape : List Nat) : Res (List Nat × List Nat) := do
  if newShape = a.shape then return (a.shape, a.stride)
  assert a.isUniformlyStrided
  if a.size ≠ numel newShape then throw .panic
  match a.stride.getLast? with
  | none => throw .panic
  | some d => return (newShape, (reshapeStrides d newShape).1)

/-- src/common/reshape.rs 96-106: `squeeze`. -/
def Arr.squeezeLayout (a : Arr α) : List Nat × List Nat :=
  ((a.shape.zip a.stride).filter fun p => p.1 != 1).unzip

/-- src/common/reshape.rs 126-141: `unsqueeze`. `Vec::insert` then reads `stride[axis] * shape[axis + 1]`
with the already extended shape, i.e. the old extent of that axis. -/
def Arr.unsqueezeLayout (a : Arr α) (axis : Int) : Res (List Nat × List Nat) := do
  let ax ← asAbsolute axis (a.ndims + 1)
  if ax = a.ndims then return (a.shape ++ [1], a.stride ++ [1])
  else match a.stride[ax]?, a.shape[ax]? with
    | some d, some n => return (a.shape.insertIdx ax 1, a.stride.insertIdx ax (d * n))
    | _, _ => throw .panic

/-- `Vec::swap` (slice swap): panics when an index is out of range. -/
def swapAt (l : List α) (i j : Nat) : Res (List α) :=
  match l[i]?, l[j]? with
  | some x, some y => .ok ((l.set i y).set j x)
  | _, _ => .error .panic

/-- src/common/reshape.rs 176-187: `transpose`. -/
def Arr.transposeLayout (a : Arr α) (axis1 axis2 : Int) : Res (List Nat × List Nat) := do
  let ax1 ← asAbsolute axis1 a.ndims
  let ax2 ← asAbsolute axis2 a.ndims
  let shape ← swapAt a.shape ax1 ax2
  let stride ← swapAt a.stride ax1 ax2
  return (shape, stride)

/-- src/common/reshape.rs 26-30: `view` on a reference. -/
def Arr.view (a : Arr α) : Arr α := a.reshapedView a.shape a.stride
/-- `(&a).reshape(shape)`. -/
def Arr.reshape (a : Arr α) (newShape : List Nat) : Res (Arr α) := do
  let l ← a.reshapeLayout newShape
  return a.reshapedView l.1 l.2
/-- `(&a).squeeze()`. -/
def Arr.squeeze (a : Arr α) : Arr α := a.reshapedView a.squeezeLayout.1 a.squeezeLayout.2
/-- `(&a).unsqueeze(axis)`. -/
def Arr.unsqueeze (a : Arr α) (axis : Int) : Res (Arr α) := do
  let l ← a.unsqueezeLayout axis
  return a.reshapedView l.1 l.2
/-- `(&a).transpose(axis1, axis2)`. -/
def Arr.transpose (a : Arr α) (axis1 axis2 : Int) : Res (Arr α) := do
  let l ← a.transposeLayout axis1 axis2
  return a.reshapedView l.1 l.2
/-- src/common/reshape.rs 158-160: `T`. -/
def Arr.T (a : Arr α) : Res (Arr α) := a.transpose 0 1

/-- `a.view()`, consuming. -/
def Arr.intoView (a : Arr α) : Arr α := a.intoReshapedView a.shape a.stride
/-- `a.reshape(shape)`, consuming. -/
def Arr.intoReshape (a : Arr α) (newShape : List Nat) : Res (Arr α) := do
  let l ← a.reshapeLayout newShape
  return a.intoReshapedView l.1 l.2
/-- `a.squeeze()`, consuming. -/
def Arr.intoSqueeze (a : Arr α) : Arr α := a.intoReshapedView a.squeezeLayout.1 a.squeezeLayout.2
/-- `a.unsqueeze(axis)`, consuming. -/
def Arr.intoUnsqueeze (a : Arr α) (axis : Int) : Res (Arr α) := do
  let l ← a.unsqueezeLayout axis
  return a.intoReshapedView l.1 l.2
/-- `a.transpose(axis1, axis2)`, consuming. -/
def Arr.intoTranspose (a : Arr α) (axis1 axis2 : Int) : Res (Arr α) := do
  let l ← a.transposeLayout axis1 axis2
  return a.intoReshapedView l.1 l.2

/-! ### slices -/

/-- src/util/index.rs 10-19: `enum Index` (and the individual `Indexer` implementors). -/
inductive Indexer where
  /-- `i` -/
  | at (i : Nat)
  /-- `a..b` -/
  | range (a b : Nat)
  /-- `a..` -/
  | rangeFrom (a : Nat)
  /-- `..` -/
  | full
  /-- `a..=b` -/
  | rangeIncl (a b : Nat)
  /-- `..b` -/
  | rangeTo (b : Nat)
  /-- `..=b` -/
  | rangeToIncl (b : Nat)
  deriving DecidableEq, Repr

/-- src/util/index.rs 67-123: `indexed_length`. -/
def Indexer.indexedLength : Indexer → Nat → Res Nat
  | .at _, _ => .ok 1
  | .range a b, _ => usub b a
  | .rangeFrom a, n => usub n a
  | .full, n => .ok n
  | .rangeIncl a b, _ => do let d ← usub b a; return d + 1
  | .rangeTo b, _ => .ok b
  | .rangeToIncl b, _ => .ok (b + 1)

/-- src/util/index.rs 71-126: `index_of_first_element`. -/
def Indexer.first : Indexer → Nat
  | .at i => i
  | .range a _ => a
  | .rangeFrom a => a
  | .full => 0
  | .rangeIncl a _ => a
  | .rangeTo _ => 0
  | .rangeToIncl _ => 0

/-- src/util/index.rs 61-63, 75-77: `collapse_dimension`. -/
def Indexer.collapse : Indexer → Bool
  | .at _ => true
  | _ => false

/-- src/ndarray/slice.rs 28-38: `calculate_strided_buffer_length`. -/
def calculateStridedBufferLength (shape stride : List Nat) : Res Nat := do
  let l ← (shape.zip stride).mapM fun p => do
    let m ← usub p.1 1
    return p.2 * m
  return l.sum + 1

/-- The result of `slice` / `slice_along` once the layout is known (slice.rs 58-74, 105-120). -/
def Arr.sliceResult (a : Arr α) (shape stride : List Nat) (o : Nat) (capIsLen : Bool) : Res (Arr α) := do
  let len ← calculateStridedBufferLength shape stride
  return { buf := a.buf, off := a.off + o, len := len, cap := if capIsLen then len else 0, shape, stride,
           flags := { updateFlagsWithContiguity a.flags shape stride with owned := false, userCreated := false } }

/-- src/ndarray/slice.rs 42-75: `slice_along`. -/
def Arr.sliceAlong (a : Arr α) (axis : Int) (ix : Indexer) : Res (Arr α) := do
  let ax ← asAbsolute axis a.ndims
  match a.shape[ax]?, a.stride[ax]? with
  | some n, some d =>
    if ix.collapse then
      a.sliceResult (a.shape.eraseIdx ax) (a.stride.eraseIdx ax) (d * ix.first) true
    else do
      let len ← ix.indexedLength n
      a.sliceResult (a.shape.set ax len) a.stride (d * ix.first) true
  | _, _ => throw .panic

/-- The loops of `slice` (slice.rs 89-103): new shape, new stride, offset. Too many indexers index
`self.shape` out of range and panic. -/
def sliceLoop : List Indexer → List Nat → List Nat → Res (List Nat × List Nat × Nat)
  | [], s, st => .ok (s, st, 0)
  | ix :: ixs, n :: s, d :: st => do
    let len ← ix.indexedLength n
    let r ← sliceLoop ixs s st
    if ix.collapse then return (r.1, r.2.1, d * ix.first + r.2.2)
    else return (len :: r.1, d :: r.2.1, d * ix.first + r.2.2)
  | _ :: _, _, _ => .error .panic

/-- src/ndarray/slice.rs 77-121: `slice`. -/
def Arr.slice (a : Arr α) (ixs : List Indexer) : Res (Arr α) := do
  let r ← sliceLoop ixs a.shape a.stride
  a.sliceResult r.1 r.2.1 r.2.2 false

/-! ### broadcasting -/

/-- src/util/functions.rs 38-46: `pad`, front padding to total length `n`. -/
def pad (l : List Nat) (v n : Nat) : List Nat := List.replicate (n - l.length) v ++ l

/-- src/ndarray/broadcast.rs 83-99: `broadcast_shape`. -/
def broadcastShape (shape to : List Nat) : Res (List Nat) :=
  if to.length < shape.length then .error .panic
  else if (shape.zip (to.drop (to.length - shape.length))).all (fun p => p.1 == 1 || p.1 == p.2) then .ok to
  else .error .panic

/-- The loop of `broadcast_stride` over the original axes (broadcast.rs 135-145). -/
def broadcastStrideLoop : List Nat → List Nat → List Nat → Res (List Nat)
  | d :: st, b :: bs, n :: s =>
    if n = 1 then do let r ← broadcastStrideLoop st bs s; return 0 :: r
    else if n = b then do let r ← broadcastStrideLoop st bs s; return d :: r
    else .error .panic
  | _, _, _ => .ok []

/-- src/ndarray/broadcast.rs 121-148: `broadcast_stride`. -/
def broadcastStride (stride bshape shape : List Nat) : Res (List Nat) := do
  if bshape.length < shape.length then throw .panic
  let first := bshape.length - shape.length
  let r ← broadcastStrideLoop stride (bshape.drop first) shape
  return List.replicate first 0 ++ r

/-- The loop of `broadcast_shapes` over the padded shapes (broadcast.rs 185-198); `shape1` is returned. -/
def broadcastShapesLoop : List Nat → List Nat → Res (List Nat)
  | a :: s, b :: t =>
    if a = 1 then do let r ← broadcastShapesLoop s t; return b :: r
    else if b = 1 then do let r ← broadcastShapesLoop s t; return a :: r
    else if a ≠ b then .error .panic
    else do let r ← broadcastShapesLoop s t; return a :: r
  | _, _ => .ok []

/-- src/ndarray/broadcast.rs 172-201: `broadcast_shapes`. -/
def broadcastShapes (first second : List Nat) : Res (List Nat) :=
  if first.length > second.length then broadcastShapesLoop (pad second 1 first.length) first
  else broadcastShapesLoop (pad first 1 second.length) second

/-- src/ndarray/broadcast.rs 34-41: `broadcast_to`. -/
def Arr.broadcastTo (a : Arr α) (shape : List Nat) : Res (Arr α) := do
  let bshape ← broadcastShape a.shape shape
  let bstride ← broadcastStride a.stride bshape a.shape
  let r := a.reshapedView bshape bstride
  return { r with flags := { r.flags with writeable := false } }

/-! ### diagonals -/

/-- `l` without the entries at positions `i` and `j` (matrix_ops.rs 330-337: the loop skipping two axes),
counting from position `k`. -/
def dropTwo (i j : Nat) : Nat → List α → List α
  | _, [] => []
  | k, x :: l => if k = i ∨ k = j then dropTwo i j (k + 1) l else x :: dropTwo i j (k + 1) l

/-- src/linalg/matrix_ops.rs 289-347: `offset_diagonal_along`. -/
def Arr.offsetDiagonalAlong (a : Arr α) (o : Int) (axis1 axis2 : Int) : Res (Arr α) := do
  assert (2 ≤ a.ndims)
  let ax1 ← asAbsolute axis1 a.ndims
  let ax2 ← asAbsolute axis2 a.ndims
  assert (ax1 ≠ ax2)
  match a.shape[ax1]?, a.shape[ax2]?, a.stride[ax1]?, a.stride[ax2]? with
  | some dim1, some dim2, some stride1, some stride2 =>
    if o ≥ 0 then do
      let k := o.toNat
      if k ≥ dim2 then throw .panic
      return a.reshapedViewWithOffset (k * stride2)
        (dropTwo ax1 ax2 0 a.shape ++ [min dim1 (dim2 - k)]) (dropTwo ax1 ax2 0 a.stride ++ [stride1 + stride2])
    else do
      let k := (-o).toNat
      if k ≥ dim1 then throw .panic
      return a.reshapedViewWithOffset (k * stride1)
        (dropTwo ax1 ax2 0 a.shape ++ [min (dim1 - k) dim2]) (dropTwo ax1 ax2 0 a.stride ++ [stride1 + stride2])
  | _, _, _, _ => throw .panic

/-- src/linalg/matrix_ops.rs 268-270: `diagonal_along`. -/
def Arr.diagonalAlong (a : Arr α) (axis1 axis2 : Int) : Res (Arr α) := a.offsetDiagonalAlong 0 axis1 axis2
/-- src/linalg/matrix_ops.rs 247-249: `offset_diagonal`. -/
def Arr.offsetDiagonal (a : Arr α) (o : Int) : Res (Arr α) := a.offsetDiagonalAlong o 0 1
/-- src/linalg/matrix_ops.rs 227-229: `diagonal`. -/
def Arr.diagonal (a : Arr α) : Res (Arr α) := a.diagonalAlong 0 1

end Verif
