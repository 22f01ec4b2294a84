import Verif.Model.Core
import Verif.Model.Basics
import Verif.Spec.Nested

/-!
# Construction from nested data

src/util/{shape,homogenous,flatten}.rs, src/common/constructors.rs 40-49. The trait implementations are functions by
recursion on the type of the data.
-/

namespace Verif

variable {α β : Type}

/-- `self[0]`; panics on empty data. -/
def first (l : List β) : Res β := match l with
  | [] => .error .panic
  | x :: _ => .ok x

/-- src/util/shape.rs 4-34: `shape`; only the first element is looked at. -/
def NTy.shape : (t : NTy) → t.Val α → Res (List Nat)
  | .vec1, (v : List α) => .ok [v.length]
  | .arr1 n, _ => .ok [n]
  | .vec t, (v : List (t.Val α)) => do
    let x ← first v
    let s ← t.shape x
    return v.length :: s
  | .arr n t, (v : { l : List (t.Val α) // l.length = n }) => do
    let x ← first v.1
    let s ← t.shape x
    return n :: s

/-- `iter().all(|v| v.shape() == first_shape)`, stopping at the first difference. -/
def allShapes (sh : β → Res (List Nat)) (s : List Nat) : List β → Res Bool
  | [] => .ok true
  | x :: l => do
    let s' ← sh x
    if s' = s then allShapes sh s l else .ok false

/-- src/util/homogenous.rs 8-33: `check_homogenous`. -/
def NTy.checkHomogenous : (t : NTy) → t.Val α → Res Bool
  | .vec1, _ => .ok true
  | .arr1 _, _ => .ok true
  | .vec t, (v : List (t.Val α)) => do
    let x ← first v
    let s ← t.shape x
    allShapes t.shape s v
  | .arr _ _, _ => .ok true

/-- The numbers in the memory of an array of arrays: arrays are stored inline, one after the other. A `Vec` stores a
pointer, a capacity and a length; these bits are not modelled (`ub`). -/
def NTy.memory : (t : NTy) → t.Val α → Res (List α)
  | .vec1, _ => .error .ub
  | .arr1 n, (v : { l : List α // l.length = n }) => .ok v.1
  | .vec _, _ => .error .ub
  | .arr n t, (v : { l : List (t.Val α) // l.length = n }) => do
    let parts ← v.1.mapM t.memory
    return parts.flatten

/-- src/util/flatten.rs 12-63: `flatten`. `Vec<T>` concatenates the flattened elements; `[T; N]` copies as many numbers as
the product of its shape from its memory. Simplification: the alignment assertion is left out (it can only
fail for 128-bit numbers in arrays of vectors). -/
def NTy.flatten : (t : NTy) → t.Val α → Res (List α)
  | .vec1, (v : List α) => .ok v
  | .arr1 n, (v : { l : List α // l.length = n }) => .ok v.1
  | .vec t, (v : List (t.Val α)) => do
    let parts ← v.mapM t.flatten
    return parts.flatten
  | .arr n t, v => do
    let s ← NTy.shape (.arr n t) v
    let m ← NTy.memory (.arr n t) v
    if numel s ≤ m.length then return m.take (numel s) else throw .oob

/-- src/common/constructors.rs 40-49: `NdArray::new`. -/
def Arr.new (t : NTy) (v : t.Val α) : Res (Arr α) := do
  let h ← t.checkHomogenous v
  assert h
  let s ← t.shape v
  let data ← t.flatten v
  assert (!data.isEmpty)
  return Arr.fromContiguousOwnedBuffer s data

end Verif
