import Verif.Model.Simd
import Verif.Model.Blas

/-!
# vDSP kernels

The kernels under `cfg(apple_vdsp)`: src/ops/binary_op_add.rs, binary_op_sub.rs, binary_op_mul.rs, binary_op_div.rs,
fill.rs, reduce_sum.rs, reduce_min.rs, reduce_max.rs, reduce_min_magnitude.rs, reduce_max_magnitude.rs, dot_product.rs, with
the bindings of src/acceleration/vdsp.rs.

The routines of the framework are third-party code; they are given by their documentation (`C[n] = A[n] + B[n]` and so on,
`vDSP_vsub` and `vDSP_vdiv` taking the second operand first). They read all their inputs before they write: the documentation
allows the output to be an input, and says nothing about other overlaps. For `N = 0` they touch nothing, and the reductions
return the value given in the documentation. Strides `as isize` are non-negative here (a stride of `2^63` cannot occur).
-/

namespace Verif

variable {α : Type}

/-! ### elementwise -/

/-- src/acceleration/vdsp.rs 14-24, 37-43: `vDSP_vadd`, `vDSP_vmul` and their `D`, `i` versions, output stride 1: `C[n] = A[n] f B[n]`. -/
def vdspVadd (f : α → α → α) (a : Ptr) (ia : Nat) (b : Ptr) (ib : Nat) (c : Ptr) (n : Nat) (m : Mem α) : Res (Mem α) := do
  let xs ← vecLoad n m a ia
  let ys ← vecLoad n m b ib
  vecStore (List.zipWith f xs ys) c m

/-- vdsp.rs 27-33, 47-57: `vDSP_vsub`, `vDSP_vdiv`: `B` is the first argument, `C[n] = A[n] f B[n]`. -/
def vdspVsub (f : α → α → α) (b : Ptr) (ib : Nat) (a : Ptr) (ia : Nat) (c : Ptr) (n : Nat) (m : Mem α) : Res (Mem α) := do
  let ys ← vecLoad n m b ib
  let xs ← vecLoad n m a ia
  vecStore (List.zipWith f xs ys) c m

/-- vdsp.rs 61-110: `vDSP_vsadd`, `vDSP_vsmul`, `vDSP_vsdiv`: `C[n] = A[n] f *B`. -/
def vdspVsadd (f : α → α → α) (a : Ptr) (ia : Nat) (b c : Ptr) (n : Nat) (m : Mem α) : Res (Mem α) :=
  if n = 0 then .ok m else do
    let xs ← vecLoad n m a ia
    let y ← m.load b
    vecStore (xs.map fun x => f x y) c m

/-- binary_op_add.rs 15-121, binary_op_mul.rs 14-65: `add` and `mul` (`add` also for `i32` and `u32`). `stride_0_n` passes the
vector `rhs` as `A` and the scalar `lhs` as `B`. The others are the defaults of binary_ops.rs 18-53. -/
def vdspAddKernels (f : α → α → α) : BinKernels α where
  s01 lhs rhs dst count m := vdspVadd f lhs 0 rhs 1 dst count m
  s10 lhs rhs dst count m := vdspVadd f lhs 1 rhs 0 dst count m
  sn0 lhs ls rhs dst count m := vdspVsadd f lhs ls rhs dst count m
  s0n lhs rhs rs dst count m := vdspVsadd f rhs rs lhs dst count m
  s11 lhs rhs dst count m := vdspVadd f lhs 1 rhs 1 dst count m
  sn1 lhs ls rhs dst count m := vdspVadd f lhs ls rhs 1 dst count m
  s1n lhs rhs rs dst count m := vdspVadd f lhs 1 rhs rs dst count m
  snn lhs ls rhs rs dst count m := vdspVadd f lhs ls rhs rs dst count m

/-- binary_op_sub.rs 16-35: `sub`. -/
def vdspSubKernels (f : α → α → α) : BinKernels α where
  s01 lhs rhs dst count m := vdspVsub f rhs 1 lhs 0 dst count m
  s10 lhs rhs dst count m := vdspVsub f rhs 0 lhs 1 dst count m
  sn0 lhs ls rhs dst count m := vdspVsub f rhs 0 lhs ls dst count m
  s0n lhs rhs rs dst count m := vdspVsub f rhs rs lhs 0 dst count m
  s11 lhs rhs dst count m := vdspVsub f rhs 1 lhs 1 dst count m
  sn1 lhs ls rhs dst count m := vdspVsub f rhs 1 lhs ls dst count m
  s1n lhs rhs rs dst count m := vdspVsub f rhs rs lhs 1 dst count m
  snn lhs ls rhs rs dst count m := vdspVsub f rhs rs lhs ls dst count m

/-- binary_op_div.rs 12-47: `div`. -/
def vdspDivKernels (f : α → α → α) : BinKernels α :=
  { vdspSubKernels f with sn0 := fun lhs ls rhs dst count m => vdspVsadd f lhs ls rhs dst count m }

/-- Addition of `i32` without a check (`vDSP_vaddi`). -/
def addI32 (x y : Int) : Int := (x + y).bmod 4294967296

/-- Addition of `i32` in Rust, which panics on overflow in a debug build. -/
def checkedAddI32 (x y : Int) : Res Int :=
  if -2147483648 ≤ x + y ∧ x + y < 2147483648 then .ok (x + y) else .error .overflow

/-- binary_op_add.rs 93-121: `u32` numbers are added through pointers cast to `i32`: the same bits. -/
def addU32 (x y : Nat) : Nat := (addI32 (asI32 x) (asI32 y) % 4294967296).toNat

/-! ### fill -/

/-- vdsp.rs 127-137: `vDSP_vfill`: `C[n * IC] = *A`, called by `fill_uniform_stride` (src/ops/fill.rs 80-119). -/
def vdspVfill (v : α) (c : List α) (p ic n : Nat) : Res (List α) :=
  (List.range n).foldlM (fun c i => bufStore c (p + i * ic) v) c

/-! ### reductions -/

/-- vdsp.rs 141-171: `vDSP_sve`, `vDSP_maxv`, `vDSP_minv`, `vDSP_maxmgv`, `vDSP_minmgv`: the elements combined with `step`,
from the documented result for `N = 0`: 0, -infinity, +infinity, 0, +infinity (the value that the caller stores in `output`
is overwritten). src/ops/reduce_sum.rs 68-77, 92-101, reduce_min.rs and reduce_max.rs 67-76, 91-100, reduce_min_magnitude.rs
and reduce_max_magnitude.rs 62-83; `X_contiguous` is the default, with stride 1. -/
def vdspRed (step : α → α → α) (start : α) : RedKernels α where
  contiguous buf p count := do
    let vs ← bufVec count buf p 1
    return vs.foldl (fun acc v => step v acc) start
  uniform buf p count stride := do
    let vs ← bufVec count buf p stride
    return vs.foldl (fun acc v => step v acc) start

/-- vdsp.rs 175-181: `vDSP_dotpr`. -/
def vdspDotpr [Mul α] [Add α] [Zero α] (a : List α) (p sa : Nat) (b : List α) (p' sb n : Nat) : Res α := do
  let ts ← (List.range n).mapM fun t => do
    let x ← bufLoad a (p + t * sa)
    let y ← bufLoad b (p' + t * sb)
    return x * y
  return ts.sum

/-- dot_product.rs 73-82, 117-126: `strided_dot_product`; 50-58, 95-103: `dot_product` is the case of strides 1. -/
def vdspDot [Mul α] [Add α] [Zero α] (a b : Src α) (sa sb count : Nat) (dst : List α) (q : Nat) : Res (List α) := do
  let sum ← vdspDotpr a.1 a.2 sa b.1 b.2 sb count
  bufAdd dst q sum

/-- The sum-of-products kernels of a build with `apple_vdsp`: `K` is the portable or the NEON family. -/
def withVdspDot [Mul α] [Add α] [Zero α] (K : SopKernels α) : SopKernels α :=
  { K with dot := fun a p b p' dst q count => vdspDot (a, p) (b, p') 1 1 count dst q }

end Verif
