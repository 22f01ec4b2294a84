import Verif.Model.Core

/-!
# Memory held by tensors and gradient functions

A tensor holds its array and its gradient function through `Rc`s (src/tensor/mod.rs 45-52), some gradient
functions hold arrays of their operands. The elements and the gradients are dropped from the picture; what
remains is who holds which array, and which arrays point into which buffer.

`Rc` is taken for granted: what an `Rc` points to is dropped when, and only when, the last `Rc` to it is gone.
As gradient functions only refer to older ones there are no cycles, so this is the case exactly when it is no
longer reachable from a tensor that the program holds.
-/

namespace Verif.TMem

/-- An `NdArray` behind an `Rc`: the buffer it points into, the capacity it would free it with and whether it
has the flag `Owned` (src/ndarray.rs 195-205). -/
structure Box where
  ptr : Nat
  cap : Nat
  owned : Bool
  deriving DecidableEq, Repr

/-- A gradient function: the arrays it keeps for its backward pass and the functions it calls next
(src/autograd/*.rs). `AccumulateGrad` and `NoneBackwards` have neither. -/
structure Node where
  captures : List Nat
  next : List Nat
  deriving DecidableEq, Repr

/-- src/tensor/mod.rs 45-52: `Tensor`. `lender`: the tensor whose borrow the lifetime parameter is tied to
(`none` for `'static`). -/
structure Ten where
  array : Nat
  node : Nat
  requiresGrad : Bool
  lender : Option Nat
  deriving DecidableEq, Repr

/-- All arrays and gradient functions ever made, and the tensors the program holds (`none`: moved or
dropped). -/
structure State where
  boxes : List Box
  nodes : List Node
  tens : List (Option Ten)
  deriving DecidableEq, Repr

/-- Before the first operation. -/
def State.init : State := ⟨[], [], []⟩

/-- The program holds tensor `t` under the name `i`. -/
def State.Has (s : State) (i : Nat) (t : Ten) : Prop := s.tens[i]? = some (some t)

/-- Gradient function `n` can be reached from `m` along `next_functions`. -/
inductive State.Reach (s : State) : Nat → Nat → Prop
  | refl (n : Nat) : Reach s n n
  | step {m k n : Nat} {nd : Node} (h : s.nodes[m]? = some nd) (hk : k ∈ nd.next) (hr : Reach s k n) :
      Reach s m n

/-- Some gradient function that is still alive keeps array `a`. -/
def State.Captured (s : State) (a : Nat) : Prop :=
  ∃ i t n nd, s.Has i t ∧ s.Reach t.node n ∧ s.nodes[n]? = some nd ∧ a ∈ nd.captures

/-- There is an `Rc` to array `a`. -/
def State.Held (s : State) (a : Nat) : Prop := (∃ i t, s.Has i t ∧ t.array = a) ∨ s.Captured a

/-- Buffer `p` has been freed: its owner is no longer held, so that its `Drop` ran
(src/ndarray/constructors.rs 72-86: frees if the array has the flag `Owned`; nothing happens if the capacity
is 0). -/
def State.Freed (s : State) (p : Nat) : Prop :=
  ∃ (a : Nat) (b : Box), s.boxes[a]? = some b ∧ b.ptr = p ∧ b.owned = true ∧ b.cap ≠ 0 ∧ ¬ s.Held a

/-- A value whose lifetime is tied to a borrow of `i` is held; then `i` can be neither moved, nor dropped,
nor mutated. -/
def State.Borrowed (s : State) (i : Nat) : Prop := ∃ j t, s.Has j t ∧ t.lender = some i

/-- `Rc::strong_count` of array `a` is 1, where tensor `i` is one of its holders. -/
def State.Sole (s : State) (i a : Nat) : Prop :=
  (∀ j t, s.Has j t → t.array = a → j = i) ∧ ¬ s.Captured a

/-- The gradient function given to a result: a new one, or that of the operand
(src/autograd/identity_backwards.rs 6-10). -/
inductive Grad where
  | fresh (n : Node)
  | shared (n : Nat)
  deriving DecidableEq, Repr

/-- Operations of a program on tensors, named by their position in `State.tens`. -/
inductive Op where
  /-- a constructor -/
  | leaf (cap : Nat)
  /-- `t.set_requires_grad(b)` -/
  | requireGrad (t : Nat) (b : Bool)
  /-- `-&t`, `&t * c`, `&t + c`, …: a new tensor from one; `share` for those whose gradient function is that
  of `t` (`+ c`, `- c`) -/
  | unary (t : Nat) (cap : Nat) (share : Bool)
  /-- `&t * &u`, `&t / &u`, `t.dot(&u)`, `t.matmul(&u)`, `t.bmm(&u)` (`captures`), `&t + &u`, `&t - &u` -/
  | binary (t u : Nat) (cap : Nat) (captures : Bool)
  /-- `(&t).view()` (`share`), `(&t).reshape(..)`, `(&t).transpose(..)`, … -/
  | view (t : Nat) (share : Bool)
  /-- the same by value -/
  | consume (t : Nat) (share : Bool)
  /-- `t.backward()` -/
  | backward (t : Nat)
  /-- `drop(t)` or the end of the scope of `t` -/
  | drop (t : Nat)
  deriving DecidableEq, Repr

/-- src/tensor/constructors.rs 22-38: `from_raw_parts`. Adds array `b` and, if the result requires a gradient,
the gradient function `g`; otherwise `NoneBackwards` (src/tensor/ops.rs 23, 54, 71). -/
def State.add (s : State) (b : Box) (rg : Bool) (g : Grad) (lender : Option Nat) : State :=
  match (if rg then g else .fresh ⟨[], []⟩ : Grad) with
  | .fresh n =>
    { boxes := s.boxes ++ [b], nodes := s.nodes ++ [n],
      tens := s.tens ++ [some ⟨s.boxes.length, s.nodes.length, rg, lender⟩] }
  | .shared n =>
    { boxes := s.boxes ++ [b], nodes := s.nodes,
      tens := s.tens ++ [some ⟨s.boxes.length, n, rg, lender⟩] }

/-- An array in a buffer of its own; buffers are numbered by the array that allocated them. -/
def State.own (s : State) (cap : Nat) : Box := ⟨s.boxes.length, cap, true⟩

/-- A gradient function that calls that of `t`. -/
def Ten.grad (t : Ten) (share : Bool) : Grad := if share then .shared t.node else .fresh ⟨[], [t.node]⟩

/-- `s` without tensor `i`. -/
def State.remove (s : State) (i : Nat) : State := { s with tens := s.tens.set i none }

/-- One operation, if the borrow checker admits it.

* `leaf`: src/tensor/constructors.rs 9-14, 47-67.
* `requireGrad`: src/tensor/autograd.rs 57-74. Both a new `AccumulateGrad` and a new `NoneBackwards` are
  gradient functions without captures and successors.
* `unary`: src/tensor/ops.rs 18-27, 66-75. The result is `Tensor<'static, T>`.
* `binary`: src/tensor/ops.rs 49-58, src/tensor/matrix_ops.rs 23-110. The result has a free lifetime.
  `MulBackwards` and the like keep `get_ndarray()` of both operands (src/autograd/mul_backwards.rs 41-49,
  div_backwards.rs 46-54, dot_backwards.rs 25-33, matrix_vec_backwards.rs 25-34,
  matrix_product_backwards.rs 25-36, bmm_backwards.rs 25-33), `AddBackwards` and `SubBackwards` only shapes.
* `view`: src/tensor/reshape.rs 8-88. `reshaped_view` of `&NdArray` removes `Owned`
  (src/ndarray/reshape.rs 82-98), `lifetime_cast` keeps that and sets the capacity to 0
  (src/ndarray/astype.rs 18-30).
* `consumeSole`, `consumeShared`: src/tensor/reshape.rs 90-150, with `into_ndarray`
  (src/tensor/methods.rs 41-46): the array is moved out of its `Rc` if there is no other, and copied
  otherwise; then `reshaped_view` by value (src/ndarray/reshape.rs 59-76) moves the buffer and the flag `Owned`
  to an array with capacity 0.
* `backward`: src/tensor/autograd.rs 152-179; what it reads is described by `Reads`. -/
inductive Step (s : State) : Op → State → Prop
  | leaf {cap} : Step s (.leaf cap) (s.add (s.own cap) false (.fresh ⟨[], []⟩) none)
  | requireGradSame {i t b} (h : s.Has i t) (hb : ¬ s.Borrowed i) (he : t.requiresGrad = b) :
      Step s (.requireGrad i b) s
  | requireGrad {i t b} (h : s.Has i t) (hb : ¬ s.Borrowed i) (he : t.requiresGrad ≠ b) :
      Step s (.requireGrad i b)
        { boxes := s.boxes, nodes := s.nodes ++ [⟨[], []⟩],
          tens := s.tens.set i (some { t with requiresGrad := b, node := s.nodes.length }) }
  | unary {i t cap share} (h : s.Has i t) :
      Step s (.unary i cap share) (s.add (s.own cap) t.requiresGrad (t.grad share) none)
  | binary {i j t u cap captures} (h : s.Has i t) (h' : s.Has j u) :
      Step s (.binary i j cap captures)
        (s.add (s.own cap) (t.requiresGrad || u.requiresGrad)
          (.fresh ⟨if captures then [t.array, u.array] else [], [t.node, u.node]⟩) none)
  | view {i t b share} (h : s.Has i t) (hb : s.boxes[t.array]? = some b) :
      Step s (.view i share) (s.add ⟨b.ptr, 0, false⟩ t.requiresGrad (t.grad share) (some i))
  | consumeSole {i t b share} (h : s.Has i t) (hn : ¬ s.Borrowed i) (hb : s.boxes[t.array]? = some b)
      (hs : s.Sole i t.array) :
      Step s (.consume i share)
        (State.add { s.remove i with boxes := s.boxes.set t.array { b with owned := false } }
          ⟨b.ptr, 0, b.owned⟩ t.requiresGrad (t.grad share) none)
  | consumeShared {i t share} (h : s.Has i t) (hn : ¬ s.Borrowed i) (hs : ¬ s.Sole i t.array) :
      Step s (.consume i share)
        ((s.remove i).add (s.own 0) t.requiresGrad (t.grad share) none)
  | backward {i t} (h : s.Has i t) : Step s (.backward i) s
  | drop {i t} (h : s.Has i t) (hn : ¬ s.Borrowed i) : Step s (.drop i) (s.remove i)

/-- The arrays whose elements an operation reads: the operands, and for `backward` what the gradient functions
that are called have kept (src/autograd/mul_backwards.rs 23-31 and the like). A tensor that is consumed is read
when it has to be copied. -/
inductive Reads (s : State) : Op → Nat → Prop
  | unary {i t cap share} (h : s.Has i t) : Reads s (.unary i cap share) t.array
  | left {i j t cap c} (h : s.Has i t) : Reads s (.binary i j cap c) t.array
  | right {i j t cap c} (h : s.Has j t) : Reads s (.binary i j cap c) t.array
  | copy {i t share} (h : s.Has i t) (hs : ¬ s.Sole i t.array) : Reads s (.consume i share) t.array
  | backward {i t n nd a} (h : s.Has i t) (hr : s.Reach t.node n) (hn : s.nodes[n]? = some nd)
      (ha : a ∈ nd.captures) : Reads s (.backward i) a

/-- States reachable by a history of operations. -/
inductive Run : State → List Op → State → Prop
  | nil (s : State) : Run s [] s
  | cons {s t u : State} {o : Op} {os : List Op} (h : Step s o t) (hr : Run t os u) : Run s (o :: os) u

end Verif.TMem
