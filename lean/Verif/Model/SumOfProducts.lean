import Verif.Model.Reduce

/-!
# Sum-of-products kernels

src/linalg/sum_of_products.rs, src/ops/dot_product.rs

A kernel gets pointers to the operands (`Src`: a buffer and a position in it) and to the destination
(`dst`, position `q`), one stride per pointer and a count. The operands are never written and never overlap
the destination (every caller passes a freshly allocated output), so the operand buffers are plain values
and a kernel returns the new contents of `dst`. Arithmetic is that of the element type, integer overflow in
debug builds is not modelled here (Model/Overflow.lean). `mul_add` is the operation of `MulAdd`: `self * a + b` unless the element
type says otherwise, as the floating-point numbers of Model/FloatArith.lean do, which round once.
-/

namespace Verif

variable {α : Type}

/-- `num::traits::MulAdd`: `mulAdd x y z` is `x.mul_add(y, z)`. -/
class MulAdd (α : Type) where
  mulAdd (x y z : α) : α

export MulAdd (mulAdd)

/-- `x * y + z`, for all types without an instance of their own. -/
instance (priority := low) instMulAdd [Mul α] [Add α] : MulAdd α := ⟨fun x y z => x * y + z⟩

theorem mulAdd_def [Mul α] [Add α] (x y z : α) : mulAdd x y z = x * y + z := rfl

/-- A read-only pointer: buffer and position. -/
abbrev Src (α : Type) := List α × Nat

/-- `std::hint::assert_unchecked(c)`: undefined behaviour when `c` is false. -/
def assume (c : Bool) : Res Unit := if c then .ok () else .error .ub

/-- `*dst.add(i) += v`. -/
def bufAdd [Add α] (dst : List α) (i : Nat) (v : α) : Res (List α) := match dst[i]? with
  | some x => .ok (dst.set i (x + v))
  | none => .error .oob

/-- Type of the kernels: operand pointers, strides (one per operand, then the output's), count, destination. -/
abbrev SopKernel (α : Type) := List (Src α) → List Nat → Nat → List α → Nat → Res (List α)

/-- `ptrs.iter().zip(strides.iter()).map(|(ptr, stride)| *ptr.add(k * stride)).product()`
(sum_of_products.rs 70-72, 91-93): product of the `k`-th elements, starting from `acc`. -/
def prodAt [Mul α] (k : Nat) : List (Src α) → List Nat → α → Res α
  | (b, p) :: ops, s :: strides, acc => do
    let v ← bufLoad b (p + k * s)
    prodAt k ops strides (acc * v)
  | _, _, acc => .ok acc

/-- The loop of `sum_of_products_generic_` (65-73); `so` is the output stride. -/
def sopGenericLoop [Mul α] [One α] [Add α] (ops : List (Src α)) (strides : List Nat) (so q : Nat) :
    Nat → List α → Res (List α)
  | 0, dst => .ok dst
  | k + 1, dst => do
    let v ← prodAt k ops strides 1
    let dst' ← bufAdd dst (q + k * so) v
    sopGenericLoop ops strides so q k dst'

/-- src/linalg/sum_of_products.rs 57-74: `sum_of_products_generic_`, and `sum_of_products_generic` 156-158. -/
def sopGeneric [Mul α] [One α] [Add α] : SopKernel α := fun ops strides count dst q => do
  assume (decide (0 < count))
  sopGenericLoop ops strides (strides.getD ops.length 0) q count dst

/-- The loop of `sum_of_products_out_stride_0_` (87-94). -/
def sopSumLoop [Mul α] [One α] [Add α] (ops : List (Src α)) (strides : List Nat) : Nat → α → Res α
  | 0, sum => .ok sum
  | k + 1, sum => do
    let v ← prodAt k ops strides 1
    sopSumLoop ops strides k (sum + v)

/-- src/linalg/sum_of_products.rs 77-97: `sum_of_products_out_stride_0_`; also
`sum_of_products_in_strides_n_n_n_out_stride_0` 161-165 and `sum_of_products_out_stride_0` 175-177.
`Self::default()` is zero. -/
def sopOutStride0 [Mul α] [One α] [Add α] [Zero α] : SopKernel α := fun ops strides count dst q => do
  assume (decide (0 < count))
  assume (decide (strides.getD ops.length 0 = 0))
  let sum ← sopSumLoop ops strides count 0
  bufAdd dst q sum

/-- The loop of `sum_of_products_muladd` (109-113). -/
def muladdLoop [MulAdd α] (scalar : α) (data : List α) : Nat → Nat → List α → Nat → Res (List α)
  | 0, _, dst, _ => .ok dst
  | count + 1, p, dst, q => do
    let v ← bufLoad data p
    let x ← bufLoad dst q
    muladdLoop scalar data count (p + 1) (dst.set q (mulAdd scalar v x)) (q + 1)

/-- The loop of `sum_of_scaled_array` (125-127): sum of `count` elements from position `p` on. -/
def sumLoop [Add α] (data : List α) : Nat → Nat → α → Res α
  | 0, _, sum => .ok sum
  | count + 1, p, sum => do
    let v ← bufLoad data p
    sumLoop data count (p + 1) (sum + v)

/-- src/ops/dot_product.rs 15-19 and 37-41: the loop of `dot_product` (strides 1) and
`strided_dot_product`. -/
def dotLoop [Mul α] [Add α] (a b : List α) (sa sb : Nat) : Nat → Nat → Nat → α → Res α
  | 0, _, _, sum => .ok sum
  | count + 1, p, q, sum => do
    let x ← bufLoad a p
    let y ← bufLoad b q
    dotLoop a b sa sb count (p + sa) (q + sb) (sum + x * y)

/-- The loops that accelerated builds replace (sum_of_products.rs 240-271, dot_product.rs 49-140):
`muladd scalar data p dst q count`, `scaledArray scalar data p dst q count`, `dot a p b p' dst q count`. -/
structure SopKernels (α : Type) where
  muladd (scalar : α) (data : List α) (p : Nat) (dst : List α) (q count : Nat) : Res (List α)
  scaledArray (scalar : α) (data : List α) (p : Nat) (dst : List α) (q count : Nat) : Res (List α)
  dot (a : List α) (p : Nat) (b : List α) (p' : Nat) (dst : List α) (q count : Nat) : Res (List α)

/-- The portable versions: `sum_of_products_muladd` 100-114, `sum_of_scaled_array` 117-130, `dot_product`
dot_product.rs 12-22. -/
def portableSop [Mul α] [Add α] [Zero α] [MulAdd α] : SopKernels α where
  muladd scalar data p dst q count := do
    assume (decide (0 < count))
    muladdLoop scalar data count p dst q
  scaledArray scalar data p dst q count := do
    assume (decide (0 < count))
    let sum ← sumLoop data count p 0
    let x ← bufLoad dst q
    bufStore dst q (mulAdd scalar sum x)
  dot a p b p' dst q count := do
    let sum ← dotLoop a b 1 1 count p p' 0
    bufAdd dst q sum

/-- Loop of `sum_of_products_in_strides_1_1_out_stride_1` (144-150). -/
def sop111Loop [Mul α] [Add α] (a b : List α) : Nat → Nat → Nat → List α → Nat → Res (List α)
  | 0, _, _, dst, _ => .ok dst
  | count + 1, p, p', dst, q => do
    let x ← bufLoad a p
    let y ← bufLoad b p'
    let dst' ← bufAdd dst q (x * y)
    sop111Loop a b count (p + 1) (p' + 1) dst' (q + 1)

/-- The two operands of a kernel whose const generic is `N == 3`. -/
def twoOps (ops : List (Src α)) (k : Src α → Src α → Res (List α)) : Res (List α) := match ops with
  | [a, b] => k a b
  | _ => .error .ub

/-- src/linalg/sum_of_products.rs 133-153: `sum_of_products_in_strides_1_1_out_stride_1`. -/
def sop111 [Mul α] [Add α] : SopKernel α := fun ops strides count dst q => twoOps ops fun a b => do
  assume (decide (strides = [1, 1, 1]))
  assume (decide (0 < count))
  sop111Loop a.1 b.1 count a.2 b.2 dst q

/-- src/linalg/sum_of_products.rs 180-186: `sum_of_products_in_strides_0_1_out_stride_0`. -/
def sop010 (K : SopKernels α) : SopKernel α := fun ops strides count dst q => twoOps ops fun a b => do
  assume (decide (strides = [0, 1, 0]))
  let s ← bufLoad a.1 a.2
  K.scaledArray s b.1 b.2 dst q count

/-- src/linalg/sum_of_products.rs 189-195: `sum_of_products_in_strides_0_1_out_stride_1`. -/
def sop011 (K : SopKernels α) : SopKernel α := fun ops strides count dst q => twoOps ops fun a b => do
  assume (decide (strides = [0, 1, 1]))
  let s ← bufLoad a.1 a.2
  K.muladd s b.1 b.2 dst q count

/-- src/linalg/sum_of_products.rs 198-208: `sum_of_products_in_strides_1_0_out_stride_0` (swaps the
operands). -/
def sop100 (K : SopKernels α) : SopKernel α := fun ops strides count dst q => twoOps ops fun a b => do
  assume (decide (strides = [1, 0, 0]))
  let s ← bufLoad b.1 b.2
  K.scaledArray s a.1 a.2 dst q count

/-- src/linalg/sum_of_products.rs 211-221: `sum_of_products_in_strides_1_0_out_stride_1` (swaps the
operands). -/
def sop101 (K : SopKernels α) : SopKernel α := fun ops strides count dst q => twoOps ops fun a b => do
  assume (decide (strides = [1, 0, 1]))
  let s ← bufLoad b.1 b.2
  K.muladd s a.1 a.2 dst q count

/-- src/linalg/sum_of_products.rs 224-232: `sum_of_products_in_strides_1_1_out_stride_0`. -/
def sop110 (K : SopKernels α) : SopKernel α := fun ops strides count dst q => twoOps ops fun a b => do
  assume (decide (strides = [1, 1, 0]))
  assume (decide (0 < count))
  K.dot a.1 a.2 b.1 b.2 dst q count

/-- src/linalg/sum_of_products.rs 168-172 and src/ops/dot_product.rs 32-44:
`sum_of_products_in_strides_n_n_out_stride_0`. -/
def sopNN0 [Mul α] [Add α] [Zero α] (a b : Src α) (sa sb count : Nat) (dst : List α) (q : Nat) :
    Res (List α) := do
  let sum ← dotLoop a.1 b.1 sa sb count a.2 b.2 0
  bufAdd dst q sum

/-- The number added to the dispatch code for one stride (sum_of_products.rs 17-19). -/
def strideCode (s one : Nat) : Nat := if s = 0 then 0 else if s = 1 then one else 8

/-- src/linalg/sum_of_products.rs 8-37: `get_sum_of_products_function` for `N = strides.len()`. -/
def getSop [Mul α] [One α] [Add α] [Zero α] (K : SopKernels α) (strides : List Nat) : SopKernel α :=
  let fallback : SopKernel α := if strides.getLastD 0 = 0 then sopOutStride0 else sopGeneric
  match strides with
  | [s0, s1, s2] =>
    match strideCode s0 4 + strideCode s1 2 + strideCode s2 1 with
    | 2 => sop010 K
    | 3 => sop011 K
    | 4 => sop100 K
    | 5 => sop101 K
    | 6 => sop110 K
    | 7 => sop111
    | _ => fallback
  | _ => fallback

/-- src/linalg/sum_of_products.rs 40-52: `get_sum_of_products_function_generic_nops`. The special case for
three operands calls the same code. -/
def getSopGeneric [Mul α] [One α] [Add α] [Zero α] (strides : List Nat) : SopKernel α :=
  if strides.getLastD 0 = 0 then sopOutStride0 else sopGeneric

end Verif
