import Verif.Model.MatrixOps

/-!
# Matrix products with `--cfg blas`

src/linalg/matrix_ops.rs 422-526 (the overrides of `MatrixOps` for `f32` and `f64`), and `cblas_sdot`/`cblas_ddot`
as used by src/ops/dot_product.rs 66-70, 85-91, 111-115, 129-135.

`gemm`, `gemv` and `dot` stand for the third-party routines, row-major, untransposed, `alpha = 1`, `beta = 0`: what the
BLAS standard says they compute, with their argument checks. A violated check is `Err.ub`: the reference
implementation ends the process, others return without writing the result, and nothing is promised. Sums are over
a semiring: rounding and the order of summation of the routine are not modelled. Every read and write is checked
against its buffer.
-/

namespace Verif

variable {α : Type}

/-- `x as i32` of a `usize`. -/
def asI32 (n : Nat) : Int := (n : Int).bmod (2 ^ 32)

/-- Entry `(i, j)` of the product: row `i` of `a` times column `j` of `b`. -/
def gemmEntry [Mul α] [Add α] [Zero α] (a : List α) (pa lda : Nat) (b : List α) (pb ldb k i j : Nat) : Res α := do
  let ts ← (List.range k).mapM fun t => do
    let x ← bufLoad a (pa + i * lda + t)
    let y ← bufLoad b (pb + t * ldb + j)
    return x * y
  return ts.sum

/-- One row of the result. -/
def gemmRow [Mul α] [Add α] [Zero α] (a : List α) (pa lda : Nat) (b : List α) (pb ldb k i pc ldc n : Nat)
    (c : List α) : Res (List α) :=
  (List.range n).foldlM (fun c j => do
    let v ← gemmEntry a pa lda b pb ldb k i j
    bufStore c (pc + i * ldc + j) v) c

/-- `cblas_sgemm`/`cblas_dgemm` (declared in src/acceleration/cblas.rs 58-88). -/
def gemm [Mul α] [Add α] [Zero α] (m n k : Int) (a : List α) (pa : Nat) (lda : Int) (b : List α) (pb : Nat) (ldb : Int)
    (c : List α) (pc : Nat) (ldc : Int) : Res (List α) :=
  if m < 0 ∨ n < 0 ∨ k < 0 ∨ lda < max 1 k ∨ ldb < max 1 n ∨ ldc < max 1 n then .error .ub
  else (List.range m.toNat).foldlM
    (fun c i => gemmRow a pa lda.toNat b pb ldb.toNat k.toNat i pc ldc.toNat n.toNat c) c

/-- `cblas_sgemv`/`cblas_dgemv` with `incY = 1` (src/acceleration/cblas.rs 31-55). `incX < 0` reads the vector
backwards from its far end; it cannot come from a `usize` stride below `2^31` and counts as a violation here. -/
def gemv [Mul α] [Add α] [Zero α] (m n : Int) (a : List α) (pa : Nat) (lda : Int) (x : List α) (px : Nat) (incX : Int)
    (y : List α) (py : Nat) : Res (List α) :=
  if m < 0 ∨ n < 0 ∨ lda < max 1 n ∨ incX ≤ 0 then .error .ub
  else (List.range m.toNat).foldlM (fun y i => do
    let v ← gemmEntry a pa lda.toNat x px incX.toNat n.toNat i 0
    bufStore y (py + i) v) y

/-- `cblas_sdot`/`cblas_ddot` (src/acceleration/cblas.rs 26-28): nothing is read for `n ≤ 0`; increments may be 0; negative ones count as a
violation (see `gemv`). -/
def blasDot [Mul α] [Add α] [Zero α] (n : Int) (x : List α) (px : Nat) (incX : Int) (y : List α) (py : Nat)
    (incY : Int) : Res α :=
  if 0 < n ∧ (incX < 0 ∨ incY < 0) then .error .ub
  else do
    let ts ← (List.range n.toNat).mapM fun t => do
      let u ← bufLoad x (px + t * incX.toNat)
      let v ← bufLoad y (py + t * incY.toNat)
      return u * v
    return ts.sum

/-- src/ops/dot_product.rs 85-91, 129-135: `strided_dot_product` by `cblas_sdot`; `dot_product` (66-70, 111-115) is
the case of strides 1. The loads and stores are those of `sopNN0`. -/
def dotBlas [Mul α] [Add α] [Zero α] (x y : Src α) (s0 s1 count : Nat) (dst : List α) (q : Nat) : Res (List α) := do
  let sum ← blasDot (asI32 count) x.1 x.2 (asI32 s0) y.1 y.2 (asI32 s1)
  let v ← bufLoad dst q
  bufStore dst q (v + sum)

/-- src/linalg/matrix_ops.rs 424-446, 477-499: `matrix_matrix_product` with BLAS. -/
def matrixMatrixProductBlas [Mul α] [One α] [Add α] [Zero α] (K : SopKernels α) (lhs rhs : Arr α)
    (resultStride : List Nat) (dst : List α) (q : Nat) : Res (List α) := do
  let l1 ← getChecked lhs.stride 1
  let r1 ← if l1 ≠ 1 then .ok 0 else getChecked rhs.stride 1
  if l1 ≠ 1 ∨ r1 ≠ 1 then
    einsumIntoPtr K [lhs, rhs] [['i', 'j'], ['j', 'k']] ['i', 'k'] resultStride dst q
  else do
    let m ← getChecked lhs.shape 0
    let n ← getChecked rhs.shape 1
    let k ← getChecked lhs.shape 1
    let l0 ← getChecked lhs.stride 0
    let r0 ← getChecked rhs.stride 0
    gemm (asI32 m) (asI32 n) (asI32 k) lhs.buf lhs.off (asI32 l0) rhs.buf rhs.off (asI32 r0) dst q (asI32 n)

/-- matrix_ops.rs 369-375 with BLAS. -/
def bmmLoopBlas [Mul α] [One α] [Add α] [Zero α] (K : SopKernels α) (ls rs ds : Nat) (resultStride : List Nat) :
    Nat → Arr α → Arr α → List α → Nat → Res (List α)
  | 0, _, _, dst, _ => .ok dst
  | n + 1, l, r, dst, q => do
    let dst' ← matrixMatrixProductBlas K l r resultStride dst q
    bmmLoopBlas K ls rs ds resultStride n { l with off := l.off + ls } { r with off := r.off + rs } dst' (q + ds)

/-- src/linalg/matrix_ops.rs 362-376 with BLAS. -/
def batchMatrixMatrixProductBlas [Mul α] [One α] [Add α] [Zero α] (K : SopKernels α) (lhs rhs : Arr α)
    (resultStride : List Nat) (dst : List α) (q : Nat) : Res (List α) := do
  let l ← lhs.sliceAlong 0 (.at 0)
  let r ← rhs.sliceAlong 0 (.at 0)
  let ds ← getChecked resultStride 0
  let ls ← getChecked lhs.stride 0
  let rs ← getChecked rhs.stride 0
  bmmLoopBlas K ls rs ds (resultStride.drop 1) lhs.lenMethod l r dst q

/-- src/linalg/matrix_ops.rs 449-472, 502-525: `matrix_vector_product` with BLAS (and without `neon_simd`). -/
def matrixVectorProductBlas [Mul α] [One α] [Add α] [Zero α] (K : SopKernels α) (m v : Arr α) : Res (Arr α) := do
  let s1 ← getChecked m.stride 1
  if s1 ≠ 1 then einsum K [m, v] [['i', 'j'], ['j']] ['i']
  else do
    let rows ← getChecked m.shape 0
    let cols ← getChecked m.shape 1
    let s0 ← getChecked m.stride 0
    let sv ← getChecked v.stride 0
    let data ← gemv (asI32 rows) (asI32 cols) m.buf m.off (asI32 s0) v.buf v.off (asI32 sv) (List.replicate rows 0) 0
    return Arr.fromContiguousOwnedBuffer [rows] data

/-- src/linalg/matrix_ops.rs 39-62: `matmul`, as compiled for `f32`/`f64` with `blas` (`neon`: also with `neon_simd`,
in which case the matrix-vector product is not overridden). The dot product of two vectors goes through
`sum_of_products`, see `Arr.matmul`. -/
def Arr.matmulBlas [Mul α] [One α] [Add α] [Zero α] (neon : Bool) (K : SopKernels α) (a b : Arr α) : Res (Arr α) :=
  match a.shape, b.shape with
  | [_], [_] => a.dot b
  | [_, k], [k'] => do
    assert (decide (k = k'))
    if neon then matrixVectorProduct a b else matrixVectorProductBlas K a b
  | [m, k], [k', n] => do
    assert (decide (k = k'))
    let r ← Arr.zeros [m, n]
    let data ← matrixMatrixProductBlas K a b r.stride r.buf r.off
    return { r with buf := data }
  | _, _ => .error .panic

/-- src/linalg/matrix_ops.rs 82-93: `bmm` for `f32`/`f64` with `blas`. -/
def Arr.bmmBlas [Mul α] [One α] [Add α] [Zero α] (K : SopKernels α) (a b : Arr α) : Res (Arr α) := do
  assert (decide (a.ndims = 3))
  assert (decide (b.ndims = 3))
  assert (decide (a.lenMethod = b.lenMethod))
  let m ← getChecked a.shape 1
  let n ← getChecked b.shape 2
  let r ← Arr.zeros [a.lenMethod, m, n]
  let data ← batchMatrixMatrixProductBlas K a b r.stride r.buf r.off
  return { r with buf := data }

/-! ### the products of the backward pass with `blas` -/

/-- `grad.matmul(rhs.T())`, src/autograd/matrix_product_backwards.rs 17, with `blas`. -/
def matmulTransposedBlas [Mul α] [One α] [Add α] [Zero α] (neon : Bool) (K : SopKernels α) (g b : Arr α) : Res (Arr α) := do
  let t ← b.T
  g.matmulBlas neon K t

/-- `lhs.T().matmul(grad)`, src/autograd/matrix_product_backwards.rs 20, matrix_vec_backwards.rs 20, with `blas`. -/
def transposedMatmulBlas [Mul α] [One α] [Add α] [Zero α] (neon : Bool) (K : SopKernels α) (a g : Arr α) : Res (Arr α) := do
  let t ← a.T
  t.matmulBlas neon K g

/-- `grad.bmm(rhs.transpose(1, 2))`, src/autograd/bmm_backwards.rs 17, with `blas`. -/
def bmmTransposedBlas [Mul α] [One α] [Add α] [Zero α] (K : SopKernels α) (g b : Arr α) : Res (Arr α) := do
  let t ← b.transpose 1 2
  g.bmmBlas K t

/-- `lhs.transpose(1, 2).bmm(grad)`, src/autograd/bmm_backwards.rs 20, with `blas`. -/
def transposedBmmBlas [Mul α] [One α] [Add α] [Zero α] (K : SopKernels α) (a g : Arr α) : Res (Arr α) := do
  let t ← a.transpose 1 2
  t.bmmBlas K g

end Verif
