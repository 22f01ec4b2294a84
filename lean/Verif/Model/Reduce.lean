import Verif.Model.Kernels

/-!
# Reductions

src/ndarray/reduce.rs, src/ops/reduce_*.rs, src/util/partial_ord.rs

The accumulator steps are total functions: integer overflow (wrapping in release builds) is part of the
step function; for the overflow panic of debug builds see Model/Overflow.lean.
-/

namespace Verif

variable {α : Type}

/-! ### whole-array kernels -/

/-- `*ptr.add(i)` for a pointer at position `p` of a buffer. -/
def bufLoad (buf : List α) (i : Nat) : Res α := match buf[i]? with
  | some v => .ok v
  | none => .error .oob

/-- src/ops/reduce_sum.rs 20-30 (and the same loop in reduce_product/min/max/min_magnitude/max_magnitude.rs
20-30): `X_uniform_stride`. `step value accumulator` is the loop body. -/
def redUniform (step : α → α → α) (stride : Nat) : Nat → List α → Nat → α → Res α
  | 0, _, _, acc => .ok acc
  | count + 1, buf, p, acc => do
    let v ← bufLoad buf p
    redUniform step stride count buf (p + stride) (step v acc)

/-- The two overridable loops: `contiguous buf p count`, `uniform buf p count stride`. -/
structure RedKernels (α : Type) where
  contiguous (buf : List α) (p count : Nat) : Res α
  uniform (buf : List α) (p count stride : Nat) : Res α

/-- The portable loops: `X_contiguous` (13-15) delegates to `X_uniform_stride` with stride 1. -/
def portableRed (step : α → α → α) (init : α) : RedKernels α where
  contiguous buf p count := redUniform step 1 count buf p init
  uniform buf p count stride := redUniform step stride count buf p init

/-- src/ops/reduce_sum.rs 42-56 (same code in the other reduce_*.rs files): the dispatch `X(ptr, shape,
stride)`. -/
def redKernel (step : α → α → α) (init : α) (K : RedKernels α) (buf : List α) (p : Nat) (shape stride : List Nat) : Res α :=
  match hasUniformStride shape stride with
  | some d => if d = 1 then K.contiguous buf p (numel shape) else K.uniform buf p (numel shape) d
  | none => do
    let g ← FlatGen.mk' shape stride
    g.toList.foldlM (fun acc i => do
      let v ← bufLoad buf (p + i)
      return step v acc) init

/-- Whole-array reduction returning `NdArray::scalar(output)`. -/
def Arr.reduceAll (step : α → α → α) (init : α) (K : RedKernels α) (a : Arr α) : Res (Arr α) := do
  let v ← redKernel step init K a.buf a.off a.shape a.stride
  Arr.scalar v

/-! ### accumulator steps -/

/-- src/util/partial_ord.rs 3-5: `partial_min`; `lt` is `partial_cmp == Some(Less)`. -/
def partialMin (lt : α → α → Bool) (a b : α) : α := if lt a b then a else b
/-- src/util/partial_ord.rs 7-9: `partial_max`; `a > b` is `lt b a`. -/
def partialMax (lt : α → α → Bool) (a b : α) : α := if lt b a then a else b
/-- src/util/partial_ord.rs 11-14: `partial_min_magnitude`. -/
def partialMinMagnitude (lt : α → α → Bool) (abs : α → α) (val acc : α) : α :=
  if lt acc (abs val) then acc else abs val
/-- src/util/partial_ord.rs 16-19: `partial_max_magnitude`. -/
def partialMaxMagnitude (lt : α → α → Bool) (abs : α → α) (val acc : α) : α :=
  if lt (abs val) acc then acc else abs val

/-- src/ndarray/reduce.rs 124-127, src/ops/reduce_sum.rs: `sum`. -/
def Arr.sum [Add α] [Zero α] (a : Arr α) : Res (Arr α) :=
  a.reduceAll (fun v acc => acc + v) 0 (portableRed (fun v acc => acc + v) 0)
/-- src/ndarray/reduce.rs 143-146, src/ops/reduce_product.rs: `product`. -/
def Arr.product [Mul α] [One α] (a : Arr α) : Res (Arr α) :=
  a.reduceAll (fun v acc => acc * v) 1 (portableRed (fun v acc => acc * v) 1)
/-- src/ndarray/reduce.rs 162-165, src/ops/reduce_min.rs: `min`; `top` is `max_value()`. -/
def Arr.min (lt : α → α → Bool) (top : α) (a : Arr α) : Res (Arr α) :=
  a.reduceAll (partialMin lt) top (portableRed (partialMin lt) top)
/-- src/ndarray/reduce.rs 181-184, src/ops/reduce_max.rs: `max`; `bot` is `min_value()`. -/
def Arr.max (lt : α → α → Bool) (bot : α) (a : Arr α) : Res (Arr α) :=
  a.reduceAll (partialMax lt) bot (portableRed (partialMax lt) bot)
/-- src/ndarray/reduce.rs 200-203, src/ops/reduce_min_magnitude.rs: `min_magnitude`. -/
def Arr.minMagnitude (lt : α → α → Bool) (abs : α → α) (top : α) (a : Arr α) : Res (Arr α) :=
  a.reduceAll (partialMinMagnitude lt abs) top (portableRed (partialMinMagnitude lt abs) top)
/-- src/ndarray/reduce.rs 219-222, src/ops/reduce_max_magnitude.rs: `max_magnitude` (starts from
`min_value()`). -/
def Arr.maxMagnitude (lt : α → α → Bool) (abs : α → α) (bot : α) (a : Arr α) : Res (Arr α) :=
  a.reduceAll (partialMaxMagnitude lt abs) bot (portableRed (partialMaxMagnitude lt abs) bot)

/-! ### reductions along axes -/

/-- src/ndarray/reduce.rs 29-35: the loop filling `axis_mask`. -/
def markAxes (ndims : Nat) : List Int → List Bool → Res (List Bool)
  | [], mask => .ok mask
  | ax :: axes, mask => do
    let k ← asAbsolute ax ndims
    if mask.getD k false then throw .panic
    markAxes ndims axes (mask.set k true)

/-- src/ndarray/reduce.rs 40-49: the loop over the axes from last to first; returns the new shape, the map
strides and the running `stride`. -/
def reducedAux : List Bool → List Nat → List Nat × List Nat × Nat
  | b :: mask, n :: shape =>
    let r := reducedAux mask shape
    if b then (r.1, 0 :: r.2.1, r.2.2) else (n :: r.1, r.2.2 :: r.2.1, r.2.2 * n)
  | _, _ => ([], [], 1)

/-- src/ndarray/reduce.rs 25-52: `reduced_shape_and_stride`. -/
def reducedShapeAndStride (axes : List Int) (shape : List Nat) : Res (List Nat × List Nat) := do
  let mask ← markAxes shape.length axes (List.replicate shape.length false)
  let r := reducedAux mask shape
  return (r.1, r.2.1)

/-- src/ndarray/reduce.rs 87-93: the loop of `reduce_along`. -/
def reduceLoop (func : α → α → α) : List α → FlatGen → List α → Res (List α)
  | [], _, out => .ok out
  | el :: els, g, out => match g.next with
    | none => .error .panic
    | some (i, g') => match out[i]? with
      | none => .error .oob
      | some acc => reduceLoop func els g' (out.set i (func el acc))

/-- src/ndarray/reduce.rs 78-96: `reduce_along`. -/
def Arr.reduceAlong (func : α → α → α) (a : Arr α) (axes : List Int) (init : α) : Res (Arr α) := do
  let r ← reducedShapeAndStride axes a.shape
  let c := collapseToUniformStride a.shape r.2
  let g ← FlatGen.mk' c.1 c.2
  let els ← a.flatiter
  let out ← reduceLoop func els g (List.replicate (numel r.1) init)
  return Arr.fromContiguousOwnedBuffer r.1 out

/-- src/ndarray/reduce.rs 129-131: `sum_along`. -/
def Arr.sumAlong [Add α] [Zero α] (a : Arr α) (axes : List Int) : Res (Arr α) :=
  a.reduceAlong (fun v acc => acc + v) axes 0
/-- src/ndarray/reduce.rs 148-150: `product_along`. -/
def Arr.productAlong [Mul α] [One α] (a : Arr α) (axes : List Int) : Res (Arr α) :=
  a.reduceAlong (fun v acc => acc * v) axes 1
/-- src/ndarray/reduce.rs 167-169: `min_along`. -/
def Arr.minAlong (lt : α → α → Bool) (top : α) (a : Arr α) (axes : List Int) : Res (Arr α) :=
  a.reduceAlong (partialMin lt) axes top
/-- src/ndarray/reduce.rs 186-188: `max_along`. -/
def Arr.maxAlong (lt : α → α → Bool) (bot : α) (a : Arr α) (axes : List Int) : Res (Arr α) :=
  a.reduceAlong (partialMax lt) axes bot
/-- src/ndarray/reduce.rs 205-207: `min_magnitude_along`. -/
def Arr.minMagnitudeAlong (lt : α → α → Bool) (abs : α → α) (top : α) (a : Arr α) (axes : List Int) : Res (Arr α) :=
  a.reduceAlong (partialMinMagnitude lt abs) axes top
/-- src/ndarray/reduce.rs 224-226: `max_magnitude_along` (starts from zero). -/
def Arr.maxMagnitudeAlong [Zero α] (lt : α → α → Bool) (abs : α → α) (a : Arr α) (axes : List Int) : Res (Arr α) :=
  a.reduceAlong (partialMaxMagnitude lt abs) axes 0

/-! ### mean -/

/-- src/ndarray/reduce.rs 238-244: `mean`, with the kernels of `sum` and of the division. `cast` is `NumCast::from` on `usize`
(never fails for floats); the default value only initialises the result vector of the division. -/
def Arr.meanWith [Add α] [Zero α] [Div α] (K : RedKernels α) (B : BinKernels α) (cast : Nat → α) (dflt : α) (a : Arr α) :
    Res (Arr α) := do
  let s ← a.reduceAll (fun v acc => acc + v) 0 K
  s.binOpScalar (fun x y => .ok (x / y)) B dflt (cast a.size)

/-- `mean` in the portable build. -/
def Arr.mean [Add α] [Zero α] [Div α] (cast : Nat → α) (dflt : α) (a : Arr α) : Res (Arr α) :=
  a.meanWith (portableRed (fun v acc => acc + v) 0) (portableKernels fun x y => .ok (x / y)) cast dflt

/-- src/ndarray/reduce.rs 252-256: the product of the extents; negative axes are refused, `shape()[axis]`
panics when out of range. -/
def meanCount (shape : List Nat) : List Int → Nat → Res Nat
  | [], n => .ok n
  | ax :: axes, n => do
    assert (decide (0 ≤ ax))
    match shape[ax.toNat]? with
    | none => throw .panic
    | some d => meanCount shape axes (n * d)

/-- src/ndarray/reduce.rs 246-260: `mean_along`, with the kernels of the division (`sum_along` has none). -/
def Arr.meanAlongWith [Add α] [Zero α] [Div α] (B : BinKernels α) (cast : Nat → α) (dflt : α) (a : Arr α) (axes : List Int) :
    Res (Arr α) := do
  let n ← meanCount a.shape axes 1
  let s ← a.sumAlong axes
  s.binOpScalar (fun x y => .ok (x / y)) B dflt (cast n)

/-- `mean_along` in the portable build. -/
def Arr.meanAlong [Add α] [Zero α] [Div α] (cast : Nat → α) (dflt : α) (a : Arr α) (axes : List Int) : Res (Arr α) :=
  a.meanAlongWith (portableKernels fun x y => .ok (x / y)) cast dflt axes

/-! ### trace -/

/-- src/linalg/matrix_ops.rs 204-207: `offset_trace_along`. -/
def Arr.offsetTraceAlong [Add α] [Zero α] (a : Arr α) (o axis1 axis2 : Int) : Res (Arr α) := do
  let d ← a.offsetDiagonalAlong o axis1 axis2
  d.sumAlong [-1]
/-- src/linalg/matrix_ops.rs 184-186: `trace_along`. -/
def Arr.traceAlong [Add α] [Zero α] (a : Arr α) (axis1 axis2 : Int) : Res (Arr α) := a.offsetTraceAlong 0 axis1 axis2
/-- src/linalg/matrix_ops.rs 164-166: `offset_trace`. -/
def Arr.offsetTrace [Add α] [Zero α] (a : Arr α) (o : Int) : Res (Arr α) := a.offsetTraceAlong o 0 1
/-- src/linalg/matrix_ops.rs 145-147: `trace`. -/
def Arr.trace [Add α] [Zero α] (a : Arr α) : Res (Arr α) := a.offsetTrace 0

end Verif
