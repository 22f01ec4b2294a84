import Verif.Model.Einsum

/-!
# Matrix products

src/linalg/matrix_ops.rs. Pointer arithmetic itself is not checked (only accesses are); the overrides of
`MatrixOps` for `f32`/`f64` are in `Model/Blas.lean`.
-/

namespace Verif

variable {α : Type}

/-- src/linalg/matrix_ops.rs 386-393: `matrix_matrix_product`; the result is written at position `q` of `dst`. -/
def matrixMatrixProduct [Mul α] [One α] [Add α] [Zero α] (K : SopKernels α) (lhs rhs : Arr α)
    (resultStride : List Nat) (dst : List α) (q : Nat) : Res (List α) :=
  einsumIntoPtr K [lhs, rhs] [['i', 'j'], ['j', 'k']] ['i', 'k'] resultStride dst q

/-- The loop of `batch_matrix_matrix_product` (matrix_ops.rs 369-375). -/
def bmmLoop [Mul α] [One α] [Add α] [Zero α] (K : SopKernels α) (ls rs ds : Nat) (resultStride : List Nat) :
    Nat → Arr α → Arr α → List α → Nat → Res (List α)
  | 0, _, _, dst, _ => .ok dst
  | n + 1, l, r, dst, q => do
    let dst' ← matrixMatrixProduct K l r resultStride dst q
    bmmLoop K ls rs ds resultStride n { l with off := l.off + ls } { r with off := r.off + rs } dst' (q + ds)

/-- src/linalg/matrix_ops.rs 362-376: `batch_matrix_matrix_product`. -/
def batchMatrixMatrixProduct [Mul α] [One α] [Add α] [Zero α] (K : SopKernels α) (lhs rhs : Arr α)
    (resultStride : List Nat) (dst : List α) (q : Nat) : Res (List α) := do
  let l ← lhs.sliceAlong 0 (.at 0)
  let r ← rhs.sliceAlong 0 (.at 0)
  let ds ← getChecked resultStride 0
  let ls ← getChecked lhs.stride 0
  let rs ← getChecked rhs.stride 0
  bmmLoop K ls rs ds (resultStride.drop 1) lhs.lenMethod l r dst q

/-- The loop of `matrix_vector_product` (matrix_ops.rs 410-414); `p` is the position of `matrix_row`. -/
def matVecLoop [Mul α] [Add α] [Zero α] (m : List α) (v : Src α) (s0 s1 sv cols : Nat) :
    Nat → Nat → List α → Nat → Res (List α)
  | 0, _, dst, _ => .ok dst
  | n + 1, p, dst, q => do
    let dst' ← sopNN0 (m, p) v s1 sv cols dst q
    matVecLoop m v s0 s1 sv cols n (p + s0) dst' (q + 1)

/-- src/linalg/matrix_ops.rs 399-417: `matrix_vector_product`. -/
def matrixVectorProduct [Mul α] [Add α] [Zero α] (m v : Arr α) : Res (Arr α) := do
  let rows ← getChecked m.shape 0
  let cols ← getChecked m.shape 1
  let s1 ← getChecked m.stride 1
  let sv ← getChecked v.stride 0
  let s0 ← if rows = 0 then .ok 0 else getChecked m.stride 0
  let data ← matVecLoop m.buf (v.buf, v.off) s0 s1 sv cols rows m.off (List.replicate rows 0) 0
  return Arr.fromContiguousOwnedBuffer [rows] data

/-- src/linalg/matrix_ops.rs 111-126: `dot`. -/
def Arr.dot [Mul α] [Add α] [Zero α] (a b : Arr α) : Res (Arr α) := do
  assert (decide (a.ndims = 1))
  assert (decide (b.ndims = 1))
  assert (decide (a.lenMethod = b.lenMethod))
  let r ← Arr.scalar (0 : α)
  let sa ← getChecked a.stride 0
  let sb ← getChecked b.stride 0
  let data ← sopNN0 (a.buf, a.off) (b.buf, b.off) sa sb a.lenMethod r.buf r.off
  return { r with buf := data }

/-- src/linalg/matrix_ops.rs 39-62: `matmul`. -/
def Arr.matmul [Mul α] [One α] [Add α] [Zero α] (K : SopKernels α) (a b : Arr α) : Res (Arr α) :=
  match a.shape, b.shape with
  | [_], [_] => a.dot b
  | [_, k], [k'] => do
    assert (decide (k = k'))
    matrixVectorProduct a b
  | [m, k], [k', n] => do
    assert (decide (k = k'))
    let r ← Arr.zeros [m, n]
    let data ← matrixMatrixProduct K a b r.stride r.buf r.off
    return { r with buf := data }
  | _, _ => .error .panic

/-- src/linalg/matrix_ops.rs 82-93: `bmm`. -/
def Arr.bmm [Mul α] [One α] [Add α] [Zero α] (K : SopKernels α) (a b : Arr α) : Res (Arr α) := do
  assert (decide (a.ndims = 3))
  assert (decide (b.ndims = 3))
  assert (decide (a.lenMethod = b.lenMethod))
  let m ← getChecked a.shape 1
  let n ← getChecked b.shape 2
  let r ← Arr.zeros [a.lenMethod, m, n]
  let data ← batchMatrixMatrixProduct K a b r.stride r.buf r.off
  return { r with buf := data }

end Verif
