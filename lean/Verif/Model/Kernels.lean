import Verif.Model.Basics

/-!
# Elementwise kernels and operators

src/ops/binary_ops.rs, src/ops/unary_ops.rs, src/ndarray/binary_ops.rs, assign_ops.rs, unary_ops.rs

The element operator `$operator` is an arbitrary function `f : α → α → Res α`, so that integer division by
zero, which panics, is covered.
-/

namespace Verif

variable {α : Type}

/-- `*dst = *lhs op *rhs`. -/
def binStep (f : α → α → Res α) (lhs rhs dst : Ptr) (m : Mem α) : Res (Mem α) := do
  let x ← m.load lhs
  let y ← m.load rhs
  let z ← f x y
  m.store dst z

/-- src/ops/binary_ops.rs 56-67: `<op>_stride_n_n`. -/
def strideNN (f : α → α → Res α) (ls rs : Nat) : Nat → Ptr → Ptr → Ptr → Mem α → Res (Mem α)
  | 0, _, _, _, m => .ok m
  | count + 1, lhs, rhs, dst, m => do
    let m' ← binStep f lhs rhs dst m
    strideNN f ls rs count (lhs.add ls) (rhs.add rs) (dst.add 1) m'

/-- The eight loops over two uniformly strided operands (src/ops/binary_ops.rs 18-68), which element types
may override (`cfg(neon_simd)`, `cfg(apple_vdsp)`). -/
structure BinKernels (α : Type) where
  s01 (lhs rhs dst : Ptr) (count : Nat) (m : Mem α) : Res (Mem α)
  s10 (lhs rhs dst : Ptr) (count : Nat) (m : Mem α) : Res (Mem α)
  sn0 (lhs : Ptr) (ls : Nat) (rhs dst : Ptr) (count : Nat) (m : Mem α) : Res (Mem α)
  s0n (lhs rhs : Ptr) (rs : Nat) (dst : Ptr) (count : Nat) (m : Mem α) : Res (Mem α)
  s11 (lhs rhs dst : Ptr) (count : Nat) (m : Mem α) : Res (Mem α)
  sn1 (lhs : Ptr) (ls : Nat) (rhs dst : Ptr) (count : Nat) (m : Mem α) : Res (Mem α)
  s1n (lhs rhs : Ptr) (rs : Nat) (dst : Ptr) (count : Nat) (m : Mem α) : Res (Mem α)
  snn (lhs : Ptr) (ls : Nat) (rhs : Ptr) (rs : Nat) (dst : Ptr) (count : Nat) (m : Mem α) : Res (Mem α)

/-- src/ops/binary_ops.rs 18-53: the portable defaults, all delegating to `stride_n_n`. -/
def portableKernels (f : α → α → Res α) : BinKernels α where
  s01 lhs rhs dst count m := strideNN f 0 1 count lhs rhs dst m
  s10 lhs rhs dst count m := strideNN f 1 0 count lhs rhs dst m
  sn0 lhs ls rhs dst count m := strideNN f ls 0 count lhs rhs dst m
  s0n lhs rhs rs dst count m := strideNN f 0 rs count lhs rhs dst m
  s11 lhs rhs dst count m := strideNN f 1 1 count lhs rhs dst m
  sn1 lhs ls rhs dst count m := strideNN f ls 1 count lhs rhs dst m
  s1n lhs rhs rs dst count m := strideNN f 1 rs count lhs rhs dst m
  snn lhs ls rhs rs dst count m := strideNN f ls rs count lhs rhs dst m

/-- Loop of `<op>_nonunif_n` (src/ops/binary_ops.rs 98-105). `next().unwrap_unchecked()` on an exhausted
generator is undefined behaviour. -/
def nonunifNLoop (f : α → α → Res α) (lhs : Ptr) (rs : Nat) : Nat → FlatGen → Ptr → Ptr → Mem α → Res (Mem α)
  | 0, _, _, _, m => .ok m
  | count + 1, g, rhs, dst, m => match g.next with
    | none => .error .ub
    | some (i, g') => do
      let m' ← binStep f (lhs.add i) rhs dst m
      nonunifNLoop f lhs rs count g' (rhs.add rs) (dst.add 1) m'

/-- src/ops/binary_ops.rs 93-106: `<op>_nonunif_n`. -/
def nonunifN (f : α → α → Res α) (lhs : Ptr) (shape stride : List Nat) (rhs : Ptr) (rs : Nat) (dst : Ptr)
    (count : Nat) (m : Mem α) : Res (Mem α) := do
  let g ← FlatGen.mk' shape stride
  nonunifNLoop f lhs rs count g rhs dst m

/-- Loop of `<op>_n_nonunif` (src/ops/binary_ops.rs 113-120). -/
def nNonunifLoop (f : α → α → Res α) (ls : Nat) (rhs : Ptr) : Nat → FlatGen → Ptr → Ptr → Mem α → Res (Mem α)
  | 0, _, _, _, m => .ok m
  | count + 1, g, lhs, dst, m => match g.next with
    | none => .error .ub
    | some (i, g') => do
      let m' ← binStep f lhs (rhs.add i) dst m
      nNonunifLoop f ls rhs count g' (lhs.add ls) (dst.add 1) m'

/-- src/ops/binary_ops.rs 108-121: `<op>_n_nonunif`. -/
def nNonunif (f : α → α → Res α) (lhs : Ptr) (ls : Nat) (rhs : Ptr) (shape stride : List Nat) (dst : Ptr)
    (count : Nat) (m : Mem α) : Res (Mem α) := do
  let g ← FlatGen.mk' shape stride
  nNonunifLoop f ls rhs count g lhs dst m

/-- src/ops/binary_ops.rs 69-91: `<op>_nonunif_0`, `<op>_nonunif_1` delegate with stride 0, 1. -/
def nonunif0 (f : α → α → Res α) (lhs : Ptr) (shape stride : List Nat) (rhs dst : Ptr) (count : Nat) (m : Mem α) :=
  nonunifN f lhs shape stride rhs 0 dst count m
/-- src/ops/binary_ops.rs 81-85 -/
def nonunif1 (f : α → α → Res α) (lhs : Ptr) (shape stride : List Nat) (rhs dst : Ptr) (count : Nat) (m : Mem α) :=
  nonunifN f lhs shape stride rhs 1 dst count m
/-- src/ops/binary_ops.rs 75-79 -/
def zeroNonunif (f : α → α → Res α) (lhs rhs : Ptr) (shape stride : List Nat) (dst : Ptr) (count : Nat) (m : Mem α) :=
  nNonunif f lhs 0 rhs shape stride dst count m
/-- src/ops/binary_ops.rs 87-91 -/
def oneNonunif (f : α → α → Res α) (lhs rhs : Ptr) (shape stride : List Nat) (dst : Ptr) (count : Nat) (m : Mem α) :=
  nNonunif f lhs 1 rhs shape stride dst count m

/-- A sequence of steps `*dst = *l op *r; dst += 1` over pairs of pointers. -/
def runPairs (f : α → α → Res α) : List (Ptr × Ptr) → Ptr → Mem α → Res (Mem α)
  | [], _, m => .ok m
  | (l, r) :: ps, dst, m => do
    let m' ← binStep f l r dst m
    runPairs f ps (dst.add 1) m'

/-- src/ops/binary_ops.rs 123-133: `<op>_unspecialized`. The `for` loop over the two zipped generators,
which do not look at the memory, is a loop over the zipped lists of the indices they yield. -/
def binUnspecialized (f : α → α → Res α) (lhs : Ptr) (lshape lstride : List Nat) (rhs : Ptr)
    (rshape rstride : List Nat) (dst : Ptr) (m : Mem α) : Res (Mem α) := do
  let gl ← FlatGen.mk' lshape lstride
  let gr ← FlatGen.mk' rshape rstride
  runPairs f ((gl.toList.zip gr.toList).map fun p => (lhs.add p.1, rhs.add p.2)) dst m

/-- `v[v.len() - 1]` and `v[0]`; a panic when out of range. -/
def innerOf (l : List Nat) : Res Nat := match l.getLast? with
  | none => .error .panic
  | some d => .ok d
/-- `v[0]` -/
def firstOf (l : List Nat) : Res Nat := match l.head? with
  | none => .error .panic
  | some d => .ok d

/-- src/common/methods.rs 164-176: the method `has_uniform_stride()`, which unlike the function of the same name goes by the flag
and the collapsed layout. -/
def Arr.uniformStride (a : Arr α) : Res (Option Nat) := do
  if !a.isUniformlyStrided then return none
  else if a.ndims = 0 then return some 0
  else return some (← firstOf (collapseToUniformStride a.shape a.stride).2)

/-- src/ops/binary_ops.rs 135-160: `<op>_scalar`. `rhs` points to the scalar (`addr_of!(rhs)`). -/
def binScalarKernel (f : α → α → Res α) (K : BinKernels α) (lhs : Ptr) (lshape lstride : List Nat) (rhs dst : Ptr)
    (m : Mem α) : Res (Mem α) :=
  if lstride.isEmpty then binStep f lhs rhs dst m
  else do
    let l := collapseToUniformStride lshape lstride
    let li ← innerOf l.2
    if l.1.length = 1 then do
      let n ← firstOf l.1
      if li = 1 then K.s10 lhs rhs dst n m else K.sn0 lhs li rhs dst n m
    else nonunif0 f lhs l.1 l.2 rhs dst (numel l.1) m

/-- src/ops/binary_ops.rs 162-249: the dispatch `<op>`. -/
def binKernel (f : α → α → Res α) (K : BinKernels α) (lhs : Ptr) (lstride : List Nat) (rhs : Ptr)
    (rstride : List Nat) (dst : Ptr) (shape : List Nat) (m : Mem α) : Res (Mem α) :=
  if lstride.isEmpty && rstride.isEmpty then binStep f lhs rhs dst m
  else do
    let l := collapseToUniformStride shape lstride
    let r := collapseToUniformStride shape rstride
    let li ← innerOf l.2
    let ri ← innerOf r.2
    let ln ← firstOf l.1
    let rn ← firstOf r.1
    if l.1.length = 1 ∧ r.1.length = 1 then
      if ri = 0 then
        if li = 1 then K.s10 lhs rhs dst ln m else K.sn0 lhs li rhs dst ln m
      else if li = 0 then
        if ri = 1 then K.s01 lhs rhs dst rn m else K.s0n lhs rhs ri dst rn m
      else if li = 1 ∧ ri = 1 then K.s11 lhs rhs dst ln m
      else if li = 1 then K.s1n lhs rhs ri dst ln m
      else if ri = 1 then K.sn1 lhs li rhs dst rn m
      else K.snn lhs li rhs ri dst ln m
    else if r.1.length = 1 ∧ ri = 0 then nonunif0 f lhs l.1 l.2 rhs dst rn m
    else if l.1.length = 1 ∧ li = 0 then zeroNonunif f lhs rhs r.1 r.2 dst ln m
    else if r.1.length = 1 ∧ ri = 1 then nonunif1 f lhs l.1 l.2 rhs dst rn m
    else if l.1.length = 1 ∧ li = 1 then oneNonunif f lhs rhs r.1 r.2 dst ln m
    else if r.1.length = 1 then nonunifN f lhs l.1 l.2 rhs ri dst rn m
    else if l.1.length = 1 then nNonunif f lhs li rhs r.1 r.2 dst ln m
    else binUnspecialized f lhs l.1 l.2 rhs r.1 r.2 dst m

/-! ### operators on arrays -/

/-- src/ndarray/binary_ops.rs 38-52: `&a op &b`; the owned variants (15-35) forward to it. The regions of
the memory are the buffers of `a`, of `b`, and the new vector of default values. (If `a` and `b` share a
buffer the two read-only regions are copies of the same contents.) -/
def Arr.binOp (f : α → α → Res α) (K : BinKernels α) (dflt : α) (a b : Arr α) : Res (Arr α) := do
  let shape ← broadcastShapes a.shape b.shape
  let lstride ← broadcastStride a.stride shape a.shape
  let rstride ← broadcastStride b.stride shape b.shape
  let m ← binKernel f K ⟨0, a.off⟩ lstride ⟨1, b.off⟩ rstride ⟨2, 0⟩ shape
    [a.buf, b.buf, List.replicate (numel shape) dflt]
  let data ← m.region 2
  return Arr.fromContiguousOwnedBuffer shape data

/-- src/ndarray/binary_ops.rs 61-74: `&a op s` for a scalar `s`. -/
def Arr.binOpScalar (f : α → α → Res α) (K : BinKernels α) (dflt : α) (a : Arr α) (s : α) : Res (Arr α) := do
  let m ← binScalarKernel f K ⟨0, a.off⟩ a.shape a.stride ⟨1, 0⟩ ⟨2, 0⟩
    [a.buf, [s], List.replicate a.size dflt]
  let data ← m.region 2
  return Arr.fromContiguousOwnedBuffer a.shape data

/-- src/ndarray/assign_ops.rs 22-46: `a op= &b`; returns the new contents of `a`'s buffer. `shared`: `b` is
a view of the same allocation as `a` (possible, because views are obtained from `&self` and keep the
Writeable flag), i.e. `b.buf = a.buf`. -/
def Arr.opAssign (f : α → α → Res α) (K : BinKernels α) (shared : Bool) (a b : Arr α) : Res (List α) := do
  assert a.flags.writeable
  let b' ← if b.shape = a.shape then pure b else b.broadcastTo a.shape
  let m ← binKernel f K ⟨0, a.off⟩ a.stride ⟨if shared then 0 else 1, b'.off⟩ b'.stride ⟨0, a.off⟩ a.shape
    [a.buf, b'.buf]
  m.region 0

/-- src/ndarray/assign_ops.rs 49-60: `a op= s` for a scalar `s`. -/
def Arr.opAssignScalar (f : α → α → Res α) (K : BinKernels α) (a : Arr α) (s : α) : Res (List α) := do
  assert a.flags.writeable
  let m ← binScalarKernel f K ⟨0, a.off⟩ a.shape a.stride ⟨1, 0⟩ ⟨0, a.off⟩ [a.buf, [s]]
  m.region 0

/-! ### negation -/

/-- `*dst = -*operand`. -/
def unStep (g : α → Res α) (src dst : Ptr) (m : Mem α) : Res (Mem α) := do
  let x ← m.load src
  let z ← g x
  m.store dst z

/-- src/ops/unary_ops.rs 17-25: `neg_stride_n` (the operation is an arbitrary `g`). -/
def negStrideN (g : α → Res α) (stride : Nat) : Nat → Ptr → Ptr → Mem α → Res (Mem α)
  | 0, _, _, m => .ok m
  | count + 1, src, dst, m => do
    let m' ← unStep g src dst m
    negStrideN g stride count (src.add stride) (dst.add 1) m'

/-- The three overridable loops of src/ops/unary_ops.rs 9-25. -/
structure UnKernels (α : Type) where
  s0 (src dst : Ptr) (count : Nat) (m : Mem α) : Res (Mem α)
  s1 (src dst : Ptr) (count : Nat) (m : Mem α) : Res (Mem α)
  sn (src : Ptr) (stride : Nat) (dst : Ptr) (count : Nat) (m : Mem α) : Res (Mem α)

/-- src/ops/unary_ops.rs 9-25: portable defaults. -/
def portableNeg (g : α → Res α) : UnKernels α where
  s0 src dst count m := negStrideN g 0 count src dst m
  s1 src dst count m := negStrideN g 1 count src dst m
  sn src stride dst count m := negStrideN g stride count src dst m

/-- A sequence of steps `*dst = -*p; dst += 1`. -/
def runUnary (g : α → Res α) : List Ptr → Ptr → Mem α → Res (Mem α)
  | [], _, m => .ok m
  | p :: ps, dst, m => do
    let m' ← unStep g p dst m
    runUnary g ps (dst.add 1) m'

/-- src/ops/unary_ops.rs 38-60: `neg` (and `neg_unspecialized` 27-36). -/
def negKernel (g : α → Res α) (K : UnKernels α) (src : Ptr) (shape stride : List Nat) (dst : Ptr) (m : Mem α) :
    Res (Mem α) :=
  if shape.isEmpty then unStep g src dst m
  else do
    let l := collapseToUniformStride shape stride
    if l.1.length = 1 then do
      let d ← firstOf l.2
      let n ← firstOf l.1
      if d = 0 then K.s0 src dst n m
      else if d = 1 then K.s1 src dst n m
      else K.sn src d dst n m
    else do
      let gen ← FlatGen.mk' l.1 l.2
      runUnary g (gen.toList.map src.add) dst m

/-- src/ndarray/unary_ops.rs 14-21: `-&a`. -/
def Arr.neg (g : α → Res α) (K : UnKernels α) (dflt : α) (a : Arr α) : Res (Arr α) := do
  let m ← negKernel g K ⟨0, a.off⟩ a.shape a.stride ⟨1, 0⟩ [a.buf, List.replicate a.size dflt]
  let data ← m.region 1
  return Arr.fromContiguousOwnedBuffer a.shape data

end Verif
