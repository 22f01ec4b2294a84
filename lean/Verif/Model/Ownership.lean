import Verif.Model.Core

/-!
# Ownership of buffers

`Model/Core.lean` describes one array at a time. Here the same struct is seen from the allocator's side:
which buffer it points to, whether it owns that buffer, and with which capacity it will free it. The
elements are dropped from the picture.

The borrow checker is part of the model: a value records the value it borrows from, and a value that is
borrowed from can be neither moved nor dropped. Such an attempt is `Stop.rejected` (it does not compile).
-/

namespace Verif.Own

/-- What a program must never do to the allocator. -/
inductive Fault where
  /-- a read or write through a pointer into a buffer that was freed -/
  | useAfterFree
  /-- a buffer freed a second time -/
  | doubleFree
  /-- a buffer freed with another address or capacity than it was allocated with -/
  | wrongLayout
  deriving DecidableEq, Repr

/-- Why a history stops: the compiler rejects the next operation, or the operation is a fault. -/
inductive Stop where
  | rejected
  | fault (f : Fault)
  deriving DecidableEq, Repr

/-- An allocation. `cap = 0` stands for the dangling pointer of a `Vec` without allocation. -/
structure Block where
  cap : Nat
  live : Bool
  deriving DecidableEq, Repr

/-- The kinds of handle a program holds. -/
inductive Kind where
  /-- an `NdArray` -/
  | array
  /-- the `Vec` returned by `into_data_vector` -/
  | vector
  /-- the `&[T]` returned by `data_slice` -/
  | slice
  deriving DecidableEq, Repr

/-- src/ndarray.rs 195-205: the fields of `NdArray` that matter for ownership. `ptr`/`off`: the block and
the offset in it; `lender`: the value whose borrow the lifetime parameter of this value is tied to (`none`
for `'static`). The same record describes vectors (always owning) and slices (never owning); `src` records
the array a slice was taken from, and plays no role in the behaviour. -/
structure Val where
  kind : Kind
  ptr : Nat
  off : Nat
  len : Nat
  cap : Nat
  owned : Bool
  contiguous : Bool
  lender : Option Nat
  src : Option Nat
  deriving DecidableEq, Repr

/-- All blocks ever allocated and all values ever created; `none` for a value that was moved or dropped. -/
structure State where
  blocks : List Block
  vals : List (Option Val)
  deriving DecidableEq, Repr

/-- The state before the first operation. -/
def State.init : State := ⟨[], []⟩

/-- The borrowing operations that return a view differ in the capacity they record. -/
inductive ViewKind where
  /-- src/ndarray/reshape.rs 82-98: `reshaped_view` of a reference, behind `view`, `reshape`, `squeeze`,
  `unsqueeze`, `transpose`, `T` (src/common/reshape.rs 26-187) -/
  | reshaped
  /-- src/ndarray/slice.rs 42-75: `slice_along` -/
  | sliceAlong
  /-- src/ndarray/slice.rs 77-121: `slice`; src/ndarray/reshape.rs 34-53: `reshaped_view_with_offset` -/
  | sliced
  deriving DecidableEq, Repr

/-- The capacity field of a view (lines as in `ViewKind`). -/
def ViewKind.cap : ViewKind → (base : Val) → (len : Nat) → Nat
  | .reshaped, base, _ => base.cap
  | .sliceAlong, _, len => len
  | .sliced, _, _ => 0

/-- Operations of a program that uses arrays. Values are named by their position in `State.vals`. -/
inductive Op where
  /-- an operation that reads some arrays and returns a new array in a `Vec` of length `len` and capacity
  `cap`; with no arguments, a constructor -/
  | make (args : List Nat) (len cap : Nat)
  /-- `(&x).view()`, `(&x).reshape(..)`, `x.slice(..)`, …; the view starts `shift` elements further -/
  | view (x : Nat) (k : ViewKind) (shift len : Nat) (contiguous : Bool)
  /-- `x.view()`, `x.reshape(..)`, `x.squeeze()`, `x.unsqueeze(..)`, `x.transpose(..)`, `x.T()` by value -/
  | consume (x : Nat) (contiguous : Bool)
  /-- `x.into_data_vector()` -/
  | intoVec (x : Nat)
  /-- `x.data_slice()` -/
  | dataSlice (x : Nat)
  /-- any read or write of elements through `x` -/
  | use (x : Nat)
  /-- `drop(x)` or the end of the scope of `x` -/
  | drop (x : Nat)
  deriving DecidableEq, Repr

/-- The value named `i`; a program cannot name a value that was moved or dropped. -/
def State.get (s : State) (i : Nat) : Except Stop Val :=
  match s.vals[i]? with
  | some (some v) => .ok v
  | _ => .error .rejected

/-- Is there a value whose lifetime is tied to a borrow of `i`? -/
def State.borrowed (s : State) (i : Nat) : Bool :=
  s.vals.any fun o => match o with
    | some v => v.lender == some i
    | none => false

/-- Moves value `i` out; not while it is borrowed. -/
def State.take (s : State) (i : Nat) : Except Stop (Val × State) := do
  let v ← s.get i
  if s.borrowed i then .error .rejected else
  .ok (v, { s with vals := s.vals.set i none })

/-- Adds a value. -/
def State.push (s : State) (v : Val) : State := { s with vals := s.vals ++ [some v] }

/-- A read or write through `v`. -/
def State.touch (s : State) (v : Val) : Except Stop Unit :=
  match s.blocks[v.ptr]? with
  | some b => if b.live then .ok () else .error (.fault .useAfterFree)
  | none => .error (.fault .useAfterFree)

/-- Reads through the values named by a list. -/
def State.touchAll (s : State) : List Nat → Except Stop Unit
  | [] => .ok ()
  | i :: is => do
    let v ← s.get i
    s.touch v
    s.touchAll is

/-- Drop of `Vec::from_raw_parts(ptr, len, capacity)`: a vector of capacity 0 frees nothing, otherwise the
allocator is given the address and the capacity. -/
def free (blocks : List Block) (ptr off cap : Nat) : Except Stop (List Block) :=
  if cap = 0 then .ok blocks else
  match blocks[ptr]? with
  | none => .error (.fault .wrongLayout)
  | some b =>
    if !b.live then .error (.fault .doubleFree)
    else if b.cap ≠ cap ∨ off ≠ 0 then .error (.fault .wrongLayout)
    else .ok (blocks.set ptr { b with live := false })

/-- src/ndarray/constructors.rs 72-86: `Drop for NdArray`; for a vector, `Drop for Vec`; a slice has none. -/
def State.release (s : State) (v : Val) : Except Stop State := do
  if v.owned then
    let blocks ← free s.blocks v.ptr v.off v.cap
    .ok { s with blocks := blocks }
  else .ok s

/-- One operation.

* `make`: src/ndarray/constructors.rs 51-69, `from_contiguous_owned_buffer`, through which every operation
  that returns a new array goes (src/ndarray/clone.rs 9-11, src/ndarray/reshape.rs 21-25, …); the arguments
  are read first.
* `view`: see `ViewKind`; the flag `Owned` is removed and the result borrows from `x`.
* `consume`: src/ndarray/reshape.rs 59-76. The result keeps the flags and `len`, its `capacity` is 0 and
  its lifetime is `'static`; `x` loses `Owned`, so that its drop at the end of the function frees nothing.
* `intoVec`: src/ndarray/methods.rs 59-69. On a panic `x` is dropped by unwinding and the history goes on.
* `dataSlice`: src/ndarray/methods.rs 41-44. The slice has the lifetime parameter of the *array*, not that
  of the reference to it. A panic (not contiguous) leaves everything as it is.
* `drop`: src/ndarray/constructors.rs 72-86. -/
def State.step (s : State) : Op → Except Stop State
  | .make args len cap => do
    s.touchAll args
    if cap < len then .error .rejected else
    .ok { blocks := s.blocks ++ [⟨cap, true⟩],
          vals := s.vals ++ [some ⟨.array, s.blocks.length, 0, len, cap, true, true, none, none⟩] }
  | .view x k shift len c => do
    let v ← s.get x
    if v.kind ≠ .array then .error .rejected else
    .ok (s.push { v with off := v.off + shift, len := len, cap := k.cap v len, owned := false,
                         contiguous := c, lender := some x })
  | .consume x c => do
    let (v, s') ← s.take x
    if v.kind ≠ .array then .error .rejected else
    .ok (s'.push { v with cap := 0, contiguous := c, lender := none })
  | .intoVec x => do
    let (v, s') ← s.take x
    if v.kind ≠ .array then .error .rejected else
    if v.owned && v.contiguous then
      .ok (s'.push { v with kind := .vector, lender := none })
    else s'.release v
  | .dataSlice x => do
    let v ← s.get x
    if v.kind ≠ .array then .error .rejected else
    if v.contiguous then
      .ok (s.push { v with kind := .slice, owned := false, cap := 0, src := some x })
    else .ok s
  | .use x => do
    let v ← s.get x
    s.touch v
    .ok s
  | .drop x => do
    let (v, s') ← s.take x
    s'.release v

/-- A history. -/
def State.run (s : State) : List Op → Except Stop State
  | [] => .ok s
  | o :: os => do
    let s' ← s.step o
    s'.run os

end Verif.Own
