import Verif.Model.SumOfProducts

/-!
# NEON kernels

src/acceleration/simd.rs, src/ops/simd_binary_ops.rs, src/ops/simd_neg.rs, src/ops/simd_reduce_ops.rs,
src/ops/simd_sum_of_products.rs: the kernels that replace the portable loops for `f32` (`LANES = 4`) and `f64` (`LANES = 2`)
under `cfg(neon_simd)`.

A vector is the list of its lanes, `L` stands for `LANES`. The arithmetic instructions work lane by lane with the operation of
the element type (`simd_muladd(sum, a, b)`, the instruction `vfmaq`, is `mulAdd a b sum`). The operations are total, as those of floats are.
-/

namespace Verif

variable {α : Type}

/-! ### loads and stores -/

/-- simd.rs 9-27: `simd_vec_from_stride`; `simd_load` (135-137, 248-250) is the case of stride 1. -/
def vecLoad (L : Nat) (m : Mem α) (p : Ptr) (stride : Nat) : Res (List α) :=
  (List.range L).mapM fun i => m.load (p.add (i * stride))

/-- simd.rs 141-143, 254-256: `simd_store`. -/
def vecStore : List α → Ptr → Mem α → Res (Mem α)
  | [], _, m => .ok m
  | v :: vs, p, m => do
    let m' ← m.store p v
    vecStore vs (p.add 1) m'

/-! ### elementwise kernels -/

/-- The three ways in which the kernels of simd_binary_ops.rs read an operand: `simd_from_constant` of the value `v` read before
the loop, `simd_load`, `simd_vec_from_stride`. -/
inductive Operand (α : Type) where
  | const (v : α)
  | unit
  | strided (s : Nat)

/-- The `k`-th vector of a block, e.g. `simd_vec_from_stride(lhs.add(2 * lhs_stride * LANES), lhs_stride)`. -/
def Operand.vec (L : Nat) (m : Mem α) (p : Ptr) (k : Nat) : Operand α → Res (List α)
  | .const v => .ok (List.replicate L v)
  | .unit => vecLoad L m (p.add (k * L)) 1
  | .strided s => vecLoad L m (p.add (k * s * L)) s

/-- How far the pointer moves per element. -/
def Operand.stride : Operand α → Nat
  | .const _ => 0
  | .unit => 1
  | .strided s => s

/-- simd_binary_ops.rs 13-26 (and the same part of the other seven kernels): the body of the vector loop. -/
def simdBlock (f : α → α → α) (L : Nat) (A B : Operand α) (lhs rhs dst : Ptr) (m : Mem α) : Res (Mem α) := do
  let a0 ← A.vec L m lhs 0
  let b0 ← B.vec L m rhs 0
  let a1 ← A.vec L m lhs 1
  let b1 ← B.vec L m rhs 1
  let a2 ← A.vec L m lhs 2
  let b2 ← B.vec L m rhs 2
  let a3 ← A.vec L m lhs 3
  let b3 ← B.vec L m rhs 3
  let m ← vecStore (List.zipWith f a0 b0) (dst.add (0 * L)) m
  let m ← vecStore (List.zipWith f a1 b1) (dst.add (1 * L)) m
  let m ← vecStore (List.zipWith f a2 b2) (dst.add (2 * L)) m
  vecStore (List.zipWith f a3 b3) (dst.add (3 * L)) m

/-- The two loops of the kernels of simd_binary_ops.rs (e.g. 12-39): blocks of four vectors, then single elements, which are
read through the pointers again. (With `LANES = 0` the first loop would not end; `LANES` is 4 or 2.) -/
def simdBin (f : α → α → α) (L : Nat) (A B : Operand α) (count : Nat) (lhs rhs dst : Ptr) (m : Mem α) : Res (Mem α) :=
  if _h : 0 < L ∧ 4 * L ≤ count then do
    let m' ← simdBlock f L A B lhs rhs dst m
    simdBin f L A B (count - 4 * L) (lhs.add (4 * A.stride * L)) (rhs.add (4 * B.stride * L)) (dst.add (4 * L)) m'
  else strideNN (fun x y => .ok (f x y)) A.stride B.stride count lhs rhs dst m
termination_by count
decreasing_by omega

/-- simd_binary_ops.rs 8-309: the eight kernels. The constant operand is read first, even if `count` is 0. -/
def simdKernels (f : α → α → α) (L : Nat) : BinKernels α where
  s01 lhs rhs dst count m := do
    let v ← m.load lhs
    simdBin f L (.const v) .unit count lhs rhs dst m
  s10 lhs rhs dst count m := do
    let v ← m.load rhs
    simdBin f L .unit (.const v) count lhs rhs dst m
  sn0 lhs ls rhs dst count m := do
    let v ← m.load rhs
    simdBin f L (.strided ls) (.const v) count lhs rhs dst m
  s0n lhs rhs rs dst count m := do
    let v ← m.load lhs
    simdBin f L (.const v) (.strided rs) count lhs rhs dst m
  s11 lhs rhs dst count m := simdBin f L .unit .unit count lhs rhs dst m
  sn1 lhs ls rhs dst count m := simdBin f L (.strided ls) .unit count lhs rhs dst m
  s1n lhs rhs rs dst count m := simdBin f L .unit (.strided rs) count lhs rhs dst m
  snn lhs ls rhs rs dst count m := simdBin f L (.strided ls) (.strided rs) count lhs rhs dst m

/-- simd_neg.rs 8-21, 39-52: the body of the vector loop. -/
def simdNegBlock (g : α → α) (L : Nat) (A : Operand α) (src dst : Ptr) (m : Mem α) : Res (Mem α) := do
  let a0 ← A.vec L m src 0
  let a1 ← A.vec L m src 1
  let a2 ← A.vec L m src 2
  let a3 ← A.vec L m src 3
  let m ← vecStore (a0.map g) (dst.add (0 * L)) m
  let m ← vecStore (a1.map g) (dst.add (1 * L)) m
  let m ← vecStore (a2.map g) (dst.add (2 * L)) m
  vecStore (a3.map g) (dst.add (3 * L)) m

/-- simd_neg.rs 6-35 (`simd_neg_stride_1`) and 37-66 (`simd_neg_stride_n`). -/
def simdNeg (g : α → α) (L : Nat) (A : Operand α) (count : Nat) (src dst : Ptr) (m : Mem α) : Res (Mem α) :=
  if _h : 0 < L ∧ 4 * L ≤ count then do
    let m' ← simdNegBlock g L A src dst m
    simdNeg g L A (count - 4 * L) (src.add (4 * A.stride * L)) (dst.add (4 * L)) m'
  else negStrideN (fun x => .ok (g x)) A.stride count src dst m
termination_by count
decreasing_by omega

/-- src/ops/unary_ops.rs 67-77; `neg_stride_0` (9-11) calls the replaced `neg_stride_n`. -/
def simdNegKernels (g : α → α) (L : Nat) : UnKernels α where
  s0 src dst count m := simdNeg g L (.strided 0) count src dst m
  s1 src dst count m := simdNeg g L .unit count src dst m
  sn src stride dst count m := simdNeg g L (.strided stride) count src dst m

/-! ### reductions -/

/-- A vector read from a buffer. -/
def bufVec (L : Nat) (buf : List α) (p stride : Nat) : Res (List α) :=
  (List.range L).mapM fun i => bufLoad buf (p + i * stride)

/-- simd.rs 195-197, 208-216, 308-310, 321-329: `simd_horizontal_sum/min/max` (`vaddvq`, `vminvq`, `vmaxvq`): neighbouring lanes are combined pairwise. Only 2 and 4 lanes
exist. -/
def horizontal (op : α → α → α) : List α → Res α
  | [a, b] => .ok (op a b)
  | [a, b, c, d] => .ok (op (op a b) (op c d))
  | _ => .error .ub

/-- simd.rs 201-204, 314-317: `simd_horizontal_mul`: lower half times upper half. -/
def horizontalMul (op : α → α → α) : List α → Res α
  | [a, b] => .ok (op a b)
  | [a, b, c, d] => .ok (op (op a c) (op b d))
  | _ => .error .ub

/-- simd_reduce_ops.rs 10-25, 61-76, 111-125, 161-175: `simd_X_uniform`, from the vector accumulator `acc` on; `op` is
`simd_X`, `h` the horizontal operation, `step value accumulator` the loop body of the tail. -/
def simdRedUniform (step op : α → α → α) (h : List α → Res α) (L : Nat) (buf : List α) (stride : Nat) (count p : Nat)
    (acc : List α) : Res α :=
  if _h : 0 < L ∧ L ≤ count then do
    let v ← bufVec L buf p stride
    simdRedUniform step op h L buf stride (count - L) (p + stride * L) (List.zipWith op acc v)
  else do
    let output ← h acc
    redUniform step stride count buf p output
termination_by count
decreasing_by omega

/-- simd_reduce_ops.rs 32-54, 132-154, 182-204: `simd_X_contiguous` for sum, min, max, from the vector accumulator on. -/
def simdRedContiguous (step op : α → α → α) (h : List α → Res α) (L : Nat) (buf : List α) (count p : Nat) (acc : List α) :
    Res α :=
  if _h : 0 < L ∧ 4 * L ≤ count then do
    let a ← bufVec L buf (p + 0 * L) 1
    let b ← bufVec L buf (p + 1 * L) 1
    let c ← bufVec L buf (p + 2 * L) 1
    let d ← bufVec L buf (p + 3 * L) 1
    let ab := List.zipWith op a b
    let cd := List.zipWith op c d
    let abcd := List.zipWith op ab cd
    simdRedContiguous step op h L buf (count - 4 * L) (p + 4 * L) (List.zipWith op acc abcd)
  else do
    let output ← h acc
    redUniform step 1 count buf p output
termination_by count
decreasing_by omega

/-- simd_reduce_ops.rs 83-104: `simd_product_contiguous`, from the scalar accumulator on. -/
def simdProductContiguous (step op : α → α → α) (L : Nat) (buf : List α) (count p : Nat) (output : α) : Res α :=
  if _h : 0 < L ∧ 4 * L ≤ count then do
    let a ← bufVec L buf (p + 0 * L) 1
    let b ← bufVec L buf (p + 1 * L) 1
    let c ← bufVec L buf (p + 2 * L) 1
    let d ← bufVec L buf (p + 3 * L) 1
    let ab := List.zipWith op a b
    let cd := List.zipWith op c d
    let abcd := List.zipWith op ab cd
    let x ← horizontalMul op abcd
    simdProductContiguous step op L buf (count - 4 * L) (p + 4 * L) (op output x)
  else redUniform step 1 count buf p output
termination_by count
decreasing_by omega

/-- `simd_sum_*`, `simd_min_*`, `simd_max_*`; `init` is zero, `max_value()`, `min_value()`. -/
def simdRed (step op : α → α → α) (init : α) (L : Nat) : RedKernels α where
  contiguous buf p count := simdRedContiguous step op (horizontal op) L buf count p (List.replicate L init)
  uniform buf p count stride := simdRedUniform step op (horizontal op) L buf stride count p (List.replicate L init)

/-- `simd_product_*`. -/
def simdProduct (step op : α → α → α) (init : α) (L : Nat) : RedKernels α where
  contiguous buf p count := simdProductContiguous step op L buf count p init
  uniform buf p count stride := simdRedUniform step op (horizontalMul op) L buf stride count p (List.replicate L init)

/-! ### sums of products -/

/-- Store of a vector into a buffer. -/
def bufVecStore : List α → Nat → List α → Res (List α)
  | [], _, b => .ok b
  | v :: vs, p, b => do
    let b' ← bufStore b p v
    bufVecStore vs (p + 1) b'

/-- simd_sum_of_products.rs 44-60: the second vector loop and the tail of `simd_sum_of_products_muladd`. -/
def simdMuladd1 [MulAdd α] (scalar : α) (L : Nat) (data : List α) (count p : Nat) (dst : List α) (q : Nat) :
    Res (List α) :=
  if _h : 0 < L ∧ L ≤ count then do
    let a ← bufVec L data p 1
    let aDst ← bufVec L dst q 1
    let dst' ← bufVecStore (List.zipWith (fun s v => mulAdd scalar v s) aDst a) q dst
    simdMuladd1 scalar L data (count - L) (p + L) dst' (q + L)
  else muladdLoop scalar data count p dst q
termination_by count
decreasing_by omega

/-- simd_sum_of_products.rs 12-61: `simd_sum_of_products_muladd`. -/
def simdMuladd [MulAdd α] (scalar : α) (L : Nat) (data : List α) (count p : Nat) (dst : List α) (q : Nat) :
    Res (List α) :=
  if _h : 0 < L ∧ 4 * L ≤ count then do
    let a ← bufVec L data (p + 0 * L) 1
    let b ← bufVec L data (p + 1 * L) 1
    let c ← bufVec L data (p + 2 * L) 1
    let d ← bufVec L data (p + 3 * L) 1
    let aDst ← bufVec L dst (q + 0 * L) 1
    let bDst ← bufVec L dst (q + 1 * L) 1
    let cDst ← bufVec L dst (q + 2 * L) 1
    let dDst ← bufVec L dst (q + 3 * L) 1
    let dst ← bufVecStore (List.zipWith (fun s v => mulAdd scalar v s) aDst a) (q + 0 * L) dst
    let dst ← bufVecStore (List.zipWith (fun s v => mulAdd scalar v s) bDst b) (q + 1 * L) dst
    let dst ← bufVecStore (List.zipWith (fun s v => mulAdd scalar v s) cDst c) (q + 2 * L) dst
    let dst ← bufVecStore (List.zipWith (fun s v => mulAdd scalar v s) dDst d) (q + 3 * L) dst
    simdMuladd scalar L data (count - 4 * L) (p + 4 * L) dst (q + 4 * L)
  else simdMuladd1 scalar L data count p dst q
termination_by count
decreasing_by omega

/-- simd_sum_of_products.rs 91-102: the second vector loop of `simd_sum_of_scaled_array`, the horizontal sum and the tail. -/
def simdScaled1 [Add α] (L : Nat) (data : List α) (count p : Nat) (sum : List α) : Res α :=
  if _h : 0 < L ∧ L ≤ count then do
    let a ← bufVec L data p 1
    simdScaled1 L data (count - L) (p + L) (List.zipWith (· + ·) sum a)
  else do
    let s ← horizontal (· + ·) sum
    sumLoop data count p s
termination_by count
decreasing_by omega

/-- simd_sum_of_products.rs 75-102: the sum computed by `simd_sum_of_scaled_array`. -/
def simdScaled [Add α] (L : Nat) (data : List α) (count p : Nat) (sum : List α) : Res α :=
  if _h : 0 < L ∧ 4 * L ≤ count then do
    let a ← bufVec L data (p + 0 * L) 1
    let b ← bufVec L data (p + 1 * L) 1
    let c ← bufVec L data (p + 2 * L) 1
    let d ← bufVec L data (p + 3 * L) 1
    let ab := List.zipWith (· + ·) a b
    let cd := List.zipWith (· + ·) c d
    simdScaled L data (count - 4 * L) (p + 4 * L) (List.zipWith (· + ·) sum (List.zipWith (· + ·) ab cd))
  else simdScaled1 L data count p sum
termination_by count
decreasing_by omega

/-- simd_sum_of_products.rs 159-163: the tail of `simd_dot_product`. -/
def simdDotTail [MulAdd α] (a b : List α) : Nat → Nat → Nat → α → Res α
  | 0, _, _, sum => .ok sum
  | count + 1, p, q, sum => do
    let x ← bufLoad a p
    let y ← bufLoad b q
    simdDotTail a b count (p + 1) (q + 1) (mulAdd x y sum)

/-- simd_sum_of_products.rs 149-163: the second vector loop of `simd_dot_product`, the horizontal sum and the tail. -/
def simdDot1 [Add α] [MulAdd α] (L : Nat) (a b : List α) (count p q : Nat) (sum : List α) : Res α :=
  if _h : 0 < L ∧ L ≤ count then do
    let x ← bufVec L a p 1
    let y ← bufVec L b q 1
    simdDot1 L a b (count - L) (p + L) (q + L) (List.zipWith (fun s v => mulAdd v.1 v.2 s) sum (x.zip y))
  else do
    let s ← horizontal (· + ·) sum
    simdDotTail a b count p q s
termination_by count
decreasing_by omega

/-- simd_sum_of_products.rs 118-163: the sum computed by `simd_dot_product`. -/
def simdDot [Mul α] [Add α] [MulAdd α] (L : Nat) (a b : List α) (count p q : Nat) (sum : List α) : Res α :=
  if _h : 0 < L ∧ 4 * L ≤ count then do
    let a0 ← bufVec L a (p + 0 * L) 1
    let b0 ← bufVec L b (q + 0 * L) 1
    let a1 ← bufVec L a (p + 1 * L) 1
    let b1 ← bufVec L b (q + 1 * L) 1
    let a2 ← bufVec L a (p + 2 * L) 1
    let b2 ← bufVec L b (q + 2 * L) 1
    let a3 ← bufVec L a (p + 3 * L) 1
    let b3 ← bufVec L b (q + 3 * L) 1
    let ab0 := List.zipWith (· * ·) a0 b0
    let ab1 := List.zipWith (· * ·) a1 b1
    let ab2 := List.zipWith (· * ·) a2 b2
    let ab3 := List.zipWith (· * ·) a3 b3
    let ab01 := List.zipWith (· + ·) ab0 ab1
    let ab23 := List.zipWith (· + ·) ab2 ab3
    let ab0123 := List.zipWith (· + ·) ab01 ab23
    simdDot L a b (count - 4 * L) (p + 4 * L) (q + 4 * L) (List.zipWith (· + ·) sum ab0123)
  else simdDot1 L a b count p q sum
termination_by count
decreasing_by omega

/-- src/linalg/sum_of_products.rs 237-267, src/ops/dot_product.rs 60-64, 105-109: the kernels as they are called. -/
def simdSop [Mul α] [Add α] [Zero α] [MulAdd α] (L : Nat) : SopKernels α where
  muladd scalar data p dst q count := do
    assume (decide (0 < count))
    simdMuladd scalar L data count p dst q
  scaledArray scalar data p dst q count := do
    assume (decide (0 < count))
    let sum ← simdScaled L data count p (List.replicate L 0)
    let x ← bufLoad dst q
    bufStore dst q (mulAdd scalar sum x)
  dot a p b p' dst q count := do
    let sum ← simdDot L a b count p p' (List.replicate L 0)
    bufAdd dst q sum

end Verif
