import Verif.Model.MatrixOps
import Verif.Model.Simd
import Verif.Spec.Autograd

/-!
# Tensors and automatic differentiation

src/autograd/*.rs, src/tensor/*.rs

A gradient function `Rc<RefCell<dyn GradientFuncTrait>>` is a tree of nodes. Nodes other than
`AccumulateGrad` are never changed after their creation, so sharing them is not observable and they are
plain values; the accumulators are numbered and live in a store. The graph has no cycles (a node only
refers to nodes that existed before it), so `borrow_mut` never fails and the recursion of `backward` is
structural. The element type's arithmetic is `+ - * / neg`; C40 to C46 treat floats as a field,
C73 as rounded numbers. The loops are those of the portable build or the NEON loops of `f32` and `f64` (`Loops`).
-/

namespace Verif

variable {α : Type}

/-- The loops compiled for an element type: the portable ones, or under `cfg(neon_simd)` those of src/ops/simd_binary_ops.rs,
simd_neg.rs and simd_sum_of_products.rs with two lanes (`f64`) or four (`f32`). -/
inductive Loops where
  | portable
  | neon64
  | neon32
deriving DecidableEq, Repr

/-- The build at hand: the loops of the element type of the tensors. -/
class Build where
  loops : Loops

/-- The loops of a binary operator. -/
def binLoops [k : Build] (f : α → α → α) : BinKernels α := match k.loops with
  | .portable => portableKernels fun x y => .ok (f x y)
  | .neon64 => simdKernels f 2
  | .neon32 => simdKernels f 4

/-- The loops of the negation. -/
def negLoops [k : Build] (f : α → α) : UnKernels α := match k.loops with
  | .portable => portableNeg fun x => .ok (f x)
  | .neon64 => simdNegKernels f 2
  | .neon32 => simdNegKernels f 4

/-- The loops of sums of products. -/
def sopLoops [k : Build] [Mul α] [Add α] [Zero α] [MulAdd α] : SopKernels α := match k.loops with
  | .portable => portableSop
  | .neon64 => simdSop 2
  | .neon32 => simdSop 4

section ops
variable [Add α] [Sub α] [Mul α] [Div α] [Neg α] [Zero α] [One α] [MulAdd α] [Build]

/-! ### the array operators used by the tensors

The names of the four operators (`SOp`, src/tensor/ops.rs 79-84) and of the shape-changing operations (`SView`,
src/common/reshape.rs) are shared with the specification. -/

/-- `&a * &b` -/
def Arr.mulA (a b : Arr α) : Res (Arr α) := a.binOp (fun x y => .ok (x * y)) (binLoops fun x y => x * y) 0 b
/-- `&a / &b` -/
def Arr.divA (a b : Arr α) : Res (Arr α) := a.binOp (fun x y => .ok (x / y)) (binLoops fun x y => x / y) 0 b
/-- `-&a` -/
def Arr.negA (a : Arr α) : Res (Arr α) := a.neg (fun x => .ok (-x)) (negLoops fun x => -x) 0

/-- `&a op &b` -/
def SOp.arr (op : SOp) (a b : Arr α) : Res (Arr α) :=
  a.binOp (fun x y => .ok (op.run x y)) (binLoops op.run) 0 b
/-- `&a op c` -/
def SOp.arrScalar (op : SOp) (a : Arr α) (c : α) : Res (Arr α) :=
  a.binOpScalar (fun x y => .ok (op.run x y)) (binLoops op.run) 0 c

/-! ### gradient functions -/

/-- The nodes of the backward graph: one constructor per implementation of `GradientFuncTrait`.
`acc i` is the `i`-th `AccumulateGrad`. src/autograd/add_backwards.rs 11-16, sub_backwards.rs 8-13,
mul_backwards.rs 8-20, div_backwards.rs 7-19, neg_backwards.rs 7-10, dot_backwards.rs 7-12,
matrix_vec_backwards.rs 7-12, matrix_product_backwards.rs 7-12, bmm_backwards.rs 7-12,
reshape_backwards.rs 7-10, transpose_backwards.rs 6-11. `AddScalarBackwards` and `IdentityBackwards` return the
operand's own node (identity_backwards.rs 7-9). -/
inductive GradFn (α : Type) where
  | none
  | acc (i : Nat)
  | add (l r : GradFn α) (ls rs : List Nat)
  | sub (l r : GradFn α) (ls rs : List Nat)
  | mul (l r : GradFn α) (a b : Arr α)
  | mulScalar (n : GradFn α) (shape : List Nat) (c : α)
  | div (l r : GradFn α) (a b : Arr α)
  | divScalar (n : GradFn α) (shape : List Nat) (oneBy : α)
  | neg (n : GradFn α) (shape : List Nat)
  | dot (l r : GradFn α) (a b : Arr α)
  | matVec (l r : GradFn α) (a b : Arr α)
  | matMul (l r : GradFn α) (a b : Arr α)
  | bmm (l r : GradFn α) (a b : Arr α)
  | reshape (n : GradFn α) (shape : List Nat)
  | transpose (n : GradFn α) (axis1 axis2 : Int)
  deriving DecidableEq, Repr

/-- src/autograd/gradient_function.rs 24-26, none_backwards.rs 14-16: `is_none`. -/
def GradFn.isNone : GradFn α → Bool
  | .none => true
  | _ => false

/-- The gradients of all accumulators (accumulate_grad.rs 12-14). -/
abbrev Store (α : Type) := List (Arr α)

/-- A gradient passed to `backward`. `src = some i`: it is a view of the gradient array of accumulator `i`
(`gradient()` hands out such views without borrowing the `RefCell`, tensor/autograd.rs 104-106), so reading it
reads the current contents of that array; then `arr.buf` is irrelevant. -/
structure GradArr (α : Type) where
  arr : Arr α
  src : Option Nat
  deriving DecidableEq, Repr

/-- The array as it is now. -/
def GradArr.get (g : GradArr α) (st : Store α) : Arr α := match g.src with
  | .none => g.arr
  | some i => match st[i]? with
    | some a => { g.arr with buf := a.buf }
    | .none => g.arr

/-- A newly allocated gradient. -/
def fresh (r : Res (Arr α)) : Res (GradArr α) := do
  let a ← r
  return ⟨a, .none⟩

/-- src/ndarray/broadcast.rs 222-242: `get_broadcasted_axes`. -/
def getBroadcastedAxes (broadcast original : List Nat) : Res (List Int) :=
  if broadcast.length < original.length then .error .panic
  else
    let diff := broadcast.length - original.length
    .ok (((List.range broadcast.length).filter fun i =>
      let from' := if i < diff then 1 else original.getD (i - diff) 0
      (from' == 1 && decide (1 < broadcast.getD i 0)) || decide (i < diff)).map Int.ofNat)

/-- src/autograd/util.rs 5-15: `reduce_gradient`. -/
def reduceGradient (g : Arr α) (shape : List Nat) : Res (Arr α) :=
  if g.shape = shape then .ok g.view
  else do
    let axes ← getBroadcastedAxes g.shape shape
    let r ← g.sumAlong axes
    r.intoReshape shape

/-- The three-argument form of `call_next_backward!` (gradient_function.rs 40-50): a gradient of the right
shape is passed on as it is, otherwise it is reduced. -/
def fit (g : GradArr α) (st : Store α) (shape : List Nat) : Res (GradArr α) :=
  if shape = g.arr.shape then .ok g else fresh (reduceGradient (g.get st) shape)

/-- `call_next_backward!` (gradient_function.rs 33-51): nothing is evaluated for a `NoneBackwards`. -/
def callNext (none : Bool) (st : Store α) (grad : Res (GradArr α)) (next : GradArr α → Res (Store α)) : Res (Store α) :=
  if none then .ok st
  else do
    let g ← grad
    next g

/-- src/autograd/accumulate_grad.rs 23-28: `AccumulateGrad::backward`. -/
def accumulate (i : Nat) (g : GradArr α) (st : Store α) : Res (Store α) := match st[i]? with
  | .none => .error .ub
  | some a => do
    assume (decide (a.shape = g.arr.shape))
    let buf ← a.opAssign (fun x y => .ok (x + y)) (binLoops fun x y => x + y) (g.src == some i) (g.get st)
    return st.set i { a with buf := buf }

/-- `-lhs / (rhs * rhs) * grad` as div_backwards.rs 25 computes it. -/
def divRightOnly (g a b : Arr α) : Res (Arr α) := do
  let na ← a.negA
  let n ← g.mulA na
  let d ← b.mulA b
  n.divA d

/-- `grad * (1 / rhs)`, div_backwards.rs 28. -/
def divLeft (g b : Arr α) : Res (Arr α) := do
  let one ← Arr.scalar (1 : α)
  let inv ← one.divA b
  g.mulA inv

/-- `(lhs_grad / rhs) * -lhs`, div_backwards.rs 32. -/
def divRight (lg a b : Arr α) : Res (Arr α) := do
  let q ← lg.divA b
  let na ← a.negA
  q.mulA na

/-- `grad.unsqueeze(1) * vector`, matrix_vec_backwards.rs 17. -/
def matVecLeft (g v : Arr α) : Res (Arr α) := do
  let u ← g.unsqueeze 1
  u.mulA v

/-- `matrix.T().matmul(grad)`, matrix_vec_backwards.rs 20, matrix_product_backwards.rs 20. -/
def transposedMatmul (m g : Arr α) : Res (Arr α) := do
  let t ← m.T
  t.matmul sopLoops g

/-- `grad.matmul(rhs.T())`, matrix_product_backwards.rs 17. -/
def matmulTransposed (g m : Arr α) : Res (Arr α) := do
  let t ← m.T
  g.matmul sopLoops t

/-- `grad.bmm(rhs.transpose(1, 2))`, bmm_backwards.rs 17. -/
def bmmTransposed (g b : Arr α) : Res (Arr α) := do
  let t ← b.transpose 1 2
  g.bmm sopLoops t

/-- `lhs.transpose(1, 2).bmm(grad)`, bmm_backwards.rs 20. -/
def transposedBmm (a g : Arr α) : Res (Arr α) := do
  let t ← a.transpose 1 2
  t.bmm sopLoops g

/-- `grad.reshape(&shape)`, a view. -/
def gradReshape (g : GradArr α) (st : Store α) (shape : List Nat) : Res (GradArr α) := do
  let r ← (g.get st).reshape shape
  return ⟨r, g.src⟩

/-- `grad.transpose(axis1, axis2)`, a view. -/
def gradTranspose (g : GradArr α) (st : Store α) (axis1 axis2 : Int) : Res (GradArr α) := do
  let r ← (g.get st).transpose axis1 axis2
  return ⟨r, g.src⟩

/-- A newly computed gradient, fitted to a shape. -/
def freshFit (r : Res (Arr α)) (st : Store α) (shape : List Nat) : Res (GradArr α) := do
  let g ← fresh r
  fit g st shape

/-- The `backward` methods: add_backwards.rs 24-27, sub_backwards.rs 17-20, mul_backwards.rs 24-37,
div_backwards.rs 23-42, neg_backwards.rs 13-15, dot_backwards.rs 16-22, matrix_vec_backwards.rs 16-22,
matrix_product_backwards.rs 16-22, bmm_backwards.rs 16-22, reshape_backwards.rs 13-16, transpose_backwards.rs
14-17, none_backwards.rs 12. Returns the new store. -/
def backward : GradFn α → GradArr α → Store α → Res (Store α)
  | .none, _, st => .ok st
  | .acc i, g, st => accumulate i g st
  | .add l r ls rs, g, st => do
    let st ← callNext l.isNone st (fit g st ls) fun g => backward l g st
    callNext r.isNone st (fit g st rs) fun g => backward r g st
  | .sub l r ls rs, g, st => do
    let st ← callNext l.isNone st (fit g st ls) fun g => backward l g st
    callNext r.isNone st (freshFit (g.get st).negA st rs) fun g => backward r g st
  | .mul l r a b, g, st => do
    let st ← callNext l.isNone st (freshFit (b.mulA (g.get st)) st a.shape) fun g => backward l g st
    callNext r.isNone st (freshFit (a.mulA (g.get st)) st b.shape) fun g => backward r g st
  | .mulScalar n shape c, g, st =>
    callNext n.isNone st (freshFit (SOp.mul.arrScalar (g.get st) c) st shape) fun g => backward n g st
  | .div l r a b, g, st =>
    if l.isNone then
      callNext r.isNone st (freshFit (divRightOnly (g.get st) a b) st b.shape) fun g => backward r g st
    else do
      let lg ← divLeft (g.get st) b
      let st ← callNext l.isNone st (fit ⟨lg, .none⟩ st a.shape) fun g => backward l g st
      callNext r.isNone st (freshFit (divRight lg a b) st b.shape) fun g => backward r g st
  | .divScalar n shape c, g, st => do
    let g' ← SOp.mul.arrScalar (g.get st) c
    callNext n.isNone st (fit ⟨g', .none⟩ st shape) fun g => backward n g st
  | .neg n shape, g, st =>
    callNext n.isNone st (freshFit (g.get st).negA st shape) fun g => backward n g st
  | .dot l r a b, g, st => do
    let st ← callNext l.isNone st (fresh (b.mulA (g.get st))) fun g => backward l g st
    callNext r.isNone st (fresh (a.mulA (g.get st))) fun g => backward r g st
  | .matVec l r a b, g, st => do
    let st ← callNext l.isNone st (fresh (matVecLeft (g.get st) b)) fun g => backward l g st
    callNext r.isNone st (fresh (transposedMatmul a (g.get st))) fun g => backward r g st
  | .matMul l r a b, g, st => do
    let st ← callNext l.isNone st (fresh (matmulTransposed (g.get st) b)) fun g => backward l g st
    callNext r.isNone st (fresh (transposedMatmul a (g.get st))) fun g => backward r g st
  | .bmm l r a b, g, st => do
    let st ← callNext l.isNone st (fresh (bmmTransposed (g.get st) b)) fun g => backward l g st
    callNext r.isNone st (fresh (transposedBmm a (g.get st))) fun g => backward r g st
  | .reshape n shape, g, st => callNext n.isNone st (gradReshape g st shape) fun g => backward n g st
  | .transpose n ax1 ax2, g, st => callNext n.isNone st (gradTranspose g st ax1 ax2) fun g => backward n g st

/-! ### tensors -/

/-- src/tensor/mod.rs 45-52: `struct Tensor`; of its flags only RequiresGrad and UserCreated are ever used. -/
structure Tensor (α : Type) where
  arr : Arr α
  requiresGrad : Bool
  userCreated : Bool
  gradFn : GradFn α
  deriving DecidableEq, Repr

/-- src/tensor/constructors.rs 10-13 and 51-67: tensors made by the constructors. -/
def Tensor.fromContiguousOwnedBuffer (shape : List Nat) (data : List α) : Tensor α :=
  ⟨Arr.fromContiguousOwnedBuffer shape data, false, true, .none⟩

/-- src/tensor/autograd.rs 26-32: `is_leaf`. -/
def Tensor.isLeaf (t : Tensor α) : Bool := if t.requiresGrad then t.userCreated else true

/-- src/tensor/autograd.rs 57-74: `set_requires_grad`; the store gets a new accumulator (`AccumulateGrad::new`,
accumulate_grad.rs 40-44) when gradients were not required before. -/
def Tensor.setRequiresGrad (t : Tensor α) (b : Bool) (st : Store α) : Res (Tensor α × Store α) :=
  if !t.requiresGrad && b then do
    let z ← Arr.zeros t.arr.shape
    return ({ t with requiresGrad := b, gradFn := .acc st.length }, st ++ [z])
  else if t.requiresGrad && !b then .ok ({ t with requiresGrad := b, gradFn := .none }, st)
  else .ok ({ t with requiresGrad := b }, st)

/-- src/tensor/autograd.rs 104-106 with gradient_function.rs 16-18, accumulate_grad.rs 30-32: `gradient`. -/
def Tensor.gradient (t : Tensor α) (st : Store α) : Option (Arr α) := match t.gradFn with
  | .acc i => st[i]?.map Arr.view
  | _ => .none

/-- src/tensor/autograd.rs 126-128 with gradient_function.rs 21, accumulate_grad.rs 34-36: `zero_gradient`
(`NdArray::zero` is `fill(0)`). -/
def Tensor.zeroGradient (t : Tensor α) (st : Store α) : Res (Store α) := match t.gradFn with
  | .acc i => match st[i]? with
    | .none => .error .ub
    | some a => do
      let buf ← a.fill 0
      return st.set i { a with buf := buf }
  | _ => .ok st

/-- src/tensor/autograd.rs 152-157: `backward_with`. -/
def Tensor.backwardWith (t : Tensor α) (g : GradArr α) (st : Store α) : Res (Store α) := do
  assert (decide (g.arr.shape = t.arr.shape))
  backward t.gradFn g st

/-- src/tensor/autograd.rs 177-179: `backward`. -/
def Tensor.backward (t : Tensor α) (st : Store α) : Res (Store α) := do
  let one ← Arr.ones t.arr.shape
  t.backwardWith ⟨one, .none⟩ st

/-- src/tensor/constructors.rs 22-37: `from_raw_parts` with the node `NoneBackwards` when no gradient is
required (ops.rs, matrix_ops.rs, reshape.rs all choose the node this way). -/
def Tensor.mk' (arr : Arr α) (requires : Bool) (node : GradFn α) : Tensor α :=
  ⟨arr, requires, false, if requires then node else .none⟩

/-- src/tensor/ops.rs 21-26: `-&t`. -/
def Tensor.neg (t : Tensor α) : Res (Tensor α) := do
  let r ← t.arr.negA
  return .mk' r t.requiresGrad (.neg t.gradFn t.arr.shape)

/-- The node of `l op r`: `AddBackwards::new` etc. (add_backwards.rs 31-40, sub_backwards.rs 25-32,
mul_backwards.rs 42-48, div_backwards.rs 47-53). -/
def SOp.node (op : SOp) (l r : Tensor α) : GradFn α := match op with
  | .add => .add l.gradFn r.gradFn l.arr.shape r.arr.shape
  | .sub => .sub l.gradFn r.gradFn l.arr.shape r.arr.shape
  | .mul => .mul l.gradFn r.gradFn l.arr r.arr
  | .div => .div l.gradFn r.gradFn l.arr r.arr

/-- src/tensor/ops.rs 52-57: `&l op &r`. -/
def Tensor.bin (op : SOp) (l r : Tensor α) : Res (Tensor α) := do
  let a ← op.arr l.arr r.arr
  return .mk' a (l.requiresGrad || r.requiresGrad) (op.node l r)

/-- The node of `t op c`: `AddScalarBackwards` for `+` and `-` (the operand's own node), `MulScalarBackwards`
(mul_backwards.rs 52-58), `DivScalarBackwards` (div_backwards.rs 57-63). -/
def SOp.nodeScalar (op : SOp) (t : Tensor α) (c : α) : GradFn α := match op with
  | .add => t.gradFn
  | .sub => t.gradFn
  | .mul => .mulScalar t.gradFn t.arr.shape c
  | .div => .divScalar t.gradFn t.arr.shape (1 / c)

/-- src/tensor/ops.rs 69-74: `&t op c`. -/
def Tensor.binScalar (op : SOp) (t : Tensor α) (c : α) : Res (Tensor α) := do
  let a ← op.arrScalar t.arr c
  return .mk' a t.requiresGrad (op.nodeScalar t c)

/-- src/tensor/matrix_ops.rs 23-30: `dot`. -/
def Tensor.dot (l r : Tensor α) : Res (Tensor α) := do
  let a ← l.arr.dot r.arr
  return .mk' a (l.requiresGrad || r.requiresGrad) (.dot l.gradFn r.gradFn l.arr r.arr)

/-- src/tensor/matrix_ops.rs 62-83: `matmul`. -/
def Tensor.matmul (l r : Tensor α) : Res (Tensor α) :=
  if l.arr.ndims = 1 ∧ r.arr.ndims = 1 then l.dot r
  else do
    let a ← l.arr.matmul sopLoops r.arr
    let req := l.requiresGrad || r.requiresGrad
    if l.arr.ndims = 2 ∧ r.arr.ndims = 1 then return .mk' a req (.matVec l.gradFn r.gradFn l.arr r.arr)
    else if l.arr.ndims = 2 ∧ r.arr.ndims = 2 then return .mk' a req (.matMul l.gradFn r.gradFn l.arr r.arr)
    else if req then .error .panic
    else return .mk' a req .none

/-- src/tensor/matrix_ops.rs 103-110: `bmm`. -/
def Tensor.bmm (l r : Tensor α) : Res (Tensor α) := do
  let a ← l.arr.bmm sopLoops r.arr
  return .mk' a (l.requiresGrad || r.requiresGrad) (.bmm l.gradFn r.gradFn l.arr r.arr)

/-- The node of a shape-changing operation (reshape.rs 19, 42, 71-76; 101, 119, 141-146): `reshape` to the
present shape is `view` (common/reshape.rs 57-59), whose node is the operand's own. -/
def SView.node (t : Tensor α) : SView → GradFn α
  | .view => t.gradFn
  | .reshape s => if s = t.arr.shape then t.gradFn else .reshape t.gradFn t.arr.shape
  | .squeeze => .reshape t.gradFn t.arr.shape
  | .unsqueeze _ => .reshape t.gradFn t.arr.shape
  | .transpose ax1 ax2 => .transpose t.gradFn ax1 ax2

/-- The operation on the array, borrowing. -/
def SView.arr (a : Arr α) : SView → Res (Arr α)
  | .view => .ok a.view
  | .reshape s => a.reshape s
  | .squeeze => .ok a.squeeze
  | .unsqueeze ax => a.unsqueeze ax
  | .transpose ax1 ax2 => a.transpose ax1 ax2

/-- src/tensor/reshape.rs 8-88: the borrowing forms `(&t).op()`. -/
def Tensor.viewOp (t : Tensor α) (op : SView) : Res (Tensor α) := do
  let r ← op.arr t.arr
  return .mk' r t.requiresGrad (op.node t)

/-- src/tensor/methods.rs 41-46: `into_ndarray`. `shared`: the `Rc` has other owners, then the array is
cloned. -/
def Tensor.intoNdarray (t : Tensor α) (shared : Bool) : Res (Arr α) := if shared then t.arr.clone else .ok t.arr

/-- The new shape and stride an operation computes from those of the tensor (src/common/reshape.rs 55-141);
`view` and `transpose` are overridden and compute theirs from the unwrapped array. -/
def SView.intoArr (a b : Arr α) : SView → Res (Arr α)
  | .view => .ok b.intoView
  | .reshape s => if s = a.shape then .ok b.intoView else do
    let l ← a.reshapeLayout s
    return b.intoReshapedView l.1 l.2
  | .squeeze => .ok (b.intoReshapedView a.squeezeLayout.1 a.squeezeLayout.2)
  | .unsqueeze ax => do
    let l ← a.unsqueezeLayout ax
    return b.intoReshapedView l.1 l.2
  | .transpose ax1 ax2 => b.intoTranspose ax1 ax2

/-- src/tensor/reshape.rs 90-151: the consuming forms `t.op()`: the layout comes from the tensor itself, the
buffer from `into_ndarray`. -/
def Tensor.intoViewOp (t : Tensor α) (shared : Bool) (op : SView) : Res (Tensor α) := do
  let b ← t.intoNdarray shared
  let r ← op.intoArr t.arr b
  return .mk' r t.requiresGrad (op.node t)

/-! ### programs -/

/-- A value of a program: an earlier tensor. (A reference to a tensor that does not exist cannot be written.) -/
def getT (env : List (Tensor α)) (i : Nat) : Res (Tensor α) := match env[i]? with
  | some t => .ok t
  | .none => .error .panic

/-- State of a program: its tensors and all gradient accumulators. -/
structure RunState (α : Type) where
  env : List (Tensor α)
  store : Store α

def RunState.push (σ : RunState α) (r : Res (Tensor α)) : Res (RunState α) := do
  let t ← r
  return { σ with env := σ.env ++ [t] }

/-- One operation of a tensor program. A leaf is a tensor made by a constructor from a buffer of the right
length. -/
def RunState.step (σ : RunState α) : Instr α → Res (RunState α)
  | .leaf s data => do
    assert (decide (data.length = numel s))
    σ.push (.ok (Tensor.fromContiguousOwnedBuffer s data))
  | .setReq i b => do
    let t ← getT σ.env i
    let r ← t.setRequiresGrad b σ.store
    return { env := σ.env.set i r.1, store := r.2 }
  | .neg i => do
    let t ← getT σ.env i
    σ.push t.neg
  | .bin op i j => do
    let a ← getT σ.env i
    let b ← getT σ.env j
    σ.push (Tensor.bin op a b)
  | .scal op i c => do
    let t ← getT σ.env i
    σ.push (Tensor.binScalar op t c)
  | .dot i j => do
    let a ← getT σ.env i
    let b ← getT σ.env j
    σ.push (a.dot b)
  | .matmul i j => do
    let a ← getT σ.env i
    let b ← getT σ.env j
    σ.push (a.matmul b)
  | .bmm i j => do
    let a ← getT σ.env i
    let b ← getT σ.env j
    σ.push (a.bmm b)
  | .view op i => do
    let t ← getT σ.env i
    σ.push (t.viewOp op)
  | .into op shared i => do
    let t ← getT σ.env i
    σ.push (t.intoViewOp shared op)

/-- A whole program, starting with no tensors. -/
def runProg (p : List (Instr α)) : Res (RunState α) := p.foldlM RunState.step ⟨[], []⟩

/-- src/tensor/autograd.rs 195-197: `detach`, a copy of the array; it has no gradient function. -/
def Tensor.detach (t : Tensor α) : Res (Arr α) := t.arr.clone

/-! ### sessions: programs with calls of the gradient methods -/

/-- What a user does with tensors: operations, and calls of `backward`, `backward_with` (with a gradient that is not a
view of an accumulator) and `zero_gradient`. -/
inductive Cmd (α : Type) where
  | op (x : Instr α)
  | backward (y : Nat)
  | backwardWith (y : Nat) (g : Arr α)
  | zeroGradient (i : Nat)
  deriving DecidableEq, Repr

/-- The state with new accumulators. -/
def RunState.withStore (σ : RunState α) (r : Res (Store α)) : Res (RunState α) := do
  let st ← r
  return { σ with store := st }

def RunState.exec (σ : RunState α) : Cmd α → Res (RunState α)
  | .op x => σ.step x
  | .backward y => do
    let t ← getT σ.env y
    σ.withStore (t.backward σ.store)
  | .backwardWith y g => do
    let t ← getT σ.env y
    σ.withStore (t.backwardWith ⟨g, .none⟩ σ.store)
  | .zeroGradient i => do
    let t ← getT σ.env i
    σ.withStore (t.zeroGradient σ.store)

/-- A whole session, starting with no tensors. -/
def runSession (c : List (Cmd α)) : Res (RunState α) := c.foldlM RunState.exec ⟨[], []⟩

end ops

/-- The tensor operations of a session. -/
def Cmd.instr : Cmd α → Option (Instr α)
  | .op x => some x
  | _ => .none

/-- The program that remains of a session when all gradient calls are left out. -/
def program (c : List (Cmd α)) : List (Instr α) := c.filterMap Cmd.instr

end Verif
