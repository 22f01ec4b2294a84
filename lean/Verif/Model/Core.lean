import Verif.Spec.Tensor

/-!
# Core of the model: errors, memory, arrays

The Rust struct `NdArray` (src/ndarray.rs 195-205) is modelled by `Arr`.
-/

namespace Verif

/-- What can go wrong. `panic`: a Rust panic. `oob`: a read or write outside the live buffer
(undefined behaviour in the Rust code, which uses raw pointers). `overflow`: `usize` subtraction below
zero (panics in debug builds, wraps around in release builds, Cargo.toml `overflow-checks = false`).
`ub`: another undefined operation (`assert_unchecked(false)`, `unwrap_unchecked` on `None`). -/
inductive Err where
  | panic | oob | overflow | ub
  deriving DecidableEq, Repr

/-- Result of an operation of the library. -/
abbrev Res (α : Type u) := Except Err α

instance [DecidableEq α] : DecidableEq (Res α)
  | .ok a, .ok b => if h : a = b then isTrue (by rw [h]) else isFalse (by simpa using h)
  | .error a, .error b => if h : a = b then isTrue (by rw [h]) else isFalse (by simpa using h)
  | .ok _, .error _ => isFalse (by simp)
  | .error _, .ok _ => isFalse (by simp)

/-- `assert!(c)` / `if !c { panic!() }`. -/
def assert (c : Bool) : Res Unit := if c then .ok () else .error .panic

/-- `usize` subtraction. -/
def usub (a b : Nat) : Res Nat := if b ≤ a then .ok (a - b) else .error .overflow

/-- src/ndarray.rs 190: `MAX_DIMS`. -/
def maxDims : Nat := 32
/-- src/ndarray.rs 191: `MAX_ARGS`. -/
def maxArgs : Nat := 16

/-- src/ndarray/flags.rs 3-14: the bit set as a record of booleans. -/
structure Flags where
  owned : Bool
  contiguous : Bool
  uniformStride : Bool
  writeable : Bool
  userCreated : Bool
  requiresGrad : Bool
  deriving DecidableEq, Repr

/-- src/ndarray.rs 195-205: `struct NdArray`.
The pointer is represented by the contents `buf` of the allocation it points into and the offset `off`
of the pointee inside it; a view has the same `buf` as its base. Simplification: identity and liveness of
allocations are not part of this record, they are modelled in `Model/Ownership.lean`; writes through an
array return the new contents of the buffer. The lifetime marker is dropped. -/
structure Arr (α : Type u) where
  buf : List α
  off : Nat
  len : Nat
  cap : Nat
  shape : List Nat
  stride : List Nat
  flags : Flags
  deriving DecidableEq, Repr

/-- `*self.ptr().add(i)`: a read `i` elements after the array's pointer. -/
def Arr.read (a : Arr α) (i : Nat) : Res α :=
  match a.buf[a.off + i]? with
  | some v => .ok v
  | none => .error .oob

/-- src/common/methods.rs 47-49: `ndims`. -/
def Arr.ndims (a : Arr α) : Nat := a.shape.length

/-- src/common/methods.rs 90-92: `size`, `shape.iter().product()`. -/
def Arr.size (a : Arr α) : Nat := numel a.shape

/-- src/common/methods.rs 68-74: `len()`, the extent of the first axis. -/
def Arr.lenMethod (a : Arr α) : Nat := a.shape.headD 0

/-- src/common/methods.rs 108-110: `is_contiguous`. -/
def Arr.isContiguous (a : Arr α) : Bool := a.flags.contiguous
/-- src/common/methods.rs 123-125: `is_view`. -/
def Arr.isView (a : Arr α) : Bool := !a.flags.owned
/-- src/common/methods.rs 143-145: `is_uniformly_strided`. -/
def Arr.isUniformlyStrided (a : Arr α) : Bool := a.flags.uniformStride

/-- **Specification.** `a.Denotes s f`: the array `a` represents the tensor of shape `s` with element
`f idx` at multi-index `idx`; every one of these elements lies inside the buffer. -/
def Arr.Denotes (a : Arr α) (s : List Nat) (f : List Nat → α) : Prop :=
  a.shape = s ∧ a.stride.length = s.length ∧
    ∀ idx, InB idx s → a.buf[a.off + offset idx a.stride]? = some (f idx)

/-- **Specification.** Every element of the array lies inside its buffer. -/
def Arr.Valid (a : Arr α) : Prop :=
  a.stride.length = a.shape.length ∧
    ∀ idx, InB idx a.shape → a.off + offset idx a.stride < a.buf.length

/-! ## Raw memory for the kernels

Kernels work on raw pointers. A memory is a list of allocations ("regions"), a pointer is a region
number and an offset. -/

/-- A raw pointer. -/
structure Ptr where
  reg : Nat
  off : Nat
  deriving DecidableEq, Repr

/-- `ptr.add(n)`. -/
def Ptr.add (p : Ptr) (n : Nat) : Ptr := ⟨p.reg, p.off + n⟩

/-- A memory: list of live allocations. -/
abbrev Mem (α : Type u) := List (List α)

/-- `*p` as a value. -/
def Mem.load (m : Mem α) (p : Ptr) : Res α :=
  match m[p.reg]? with
  | none => .error .oob
  | some r => match r[p.off]? with
    | none => .error .oob
    | some v => .ok v

/-- `*p = v`. -/
def Mem.store (m : Mem α) (p : Ptr) (v : α) : Res (Mem α) :=
  match m[p.reg]? with
  | none => .error .oob
  | some r => if p.off < r.length then .ok (m.set p.reg (r.set p.off v)) else .error .oob

/-- Contents of an allocation. -/
def Mem.region (m : Mem α) (i : Nat) : Res (List α) :=
  match m[i]? with
  | none => .error .oob
  | some r => .ok r

end Verif
