import Verif.Spec.Tensor

/-!
# Specification: nested vectors and arrays as input data
-/

namespace Verif

/-- The Rust types accepted as data: `Vec<A>`, `[A; n]`, `Vec<T>` and `[T; n]`, where `A` is a number type and `T` again
such a type. -/
inductive NTy where
  | vec1
  | arr1 (n : Nat)
  | vec (t : NTy)
  | arr (n : Nat) (t : NTy)
  deriving DecidableEq, Repr

/-- The values of such a type. -/
def NTy.Val (α : Type) : NTy → Type
  | .vec1 => List α
  | .arr1 n => { l : List α // l.length = n }
  | .vec t => List (t.Val α)
  | .arr n t => { l : List (t.Val α) // l.length = n }

variable {α : Type}

/-- The data is rectangular with the given shape. -/
def NTy.Rect : (t : NTy) → t.Val α → List Nat → Prop
  | .vec1, (v : List α), s => s = [v.length]
  | .arr1 n, _, s => s = [n]
  | .vec t, (v : List (t.Val α)), s => ∃ s', s = v.length :: s' ∧ ∀ x ∈ v, t.Rect x s'
  | .arr n t, (v : { l : List (t.Val α) // l.length = n }), s => ∃ s', s = n :: s' ∧ ∀ x ∈ v.1, t.Rect x s'

/-- `data[i][j]...` -/
def NTy.entry : (t : NTy) → t.Val α → List Nat → Option α
  | .vec1, (v : List α), idx => match idx with
    | [i] => v[i]?
    | _ => none
  | .arr1 n, (v : { l : List α // l.length = n }), idx => match idx with
    | [i] => v.1[i]?
    | _ => none
  | .vec t, (v : List (t.Val α)), idx => match idx with
    | i :: idx => v[i]?.bind fun x => t.entry x idx
    | _ => none
  | .arr n t, (v : { l : List (t.Val α) // l.length = n }), idx => match idx with
    | i :: idx => v.1[i]?.bind fun x => t.entry x idx
    | _ => none

/-- A type without vectors. -/
def NTy.plain : NTy → Bool
  | .vec1 => false
  | .arr1 _ => true
  | .vec _ => false
  | .arr _ t => t.plain

/-- No vector inside an array. -/
def NTy.noVecInArray : NTy → Bool
  | .vec1 => true
  | .arr1 _ => true
  | .vec t => t.noVecInArray
  | .arr _ t => t.plain

/-- The number of nested `Vec`s (outside of arrays). -/
def NTy.vecDepth : NTy → Nat
  | .vec1 => 1
  | .arr1 _ => 0
  | .vec t => t.vecDepth + 1
  | .arr _ _ => 0

/-- The numbers in the data, from left to right. -/
def NTy.numbers : (t : NTy) → t.Val α → List α
  | .vec1, (v : List α) => v
  | .arr1 _, v => v.1
  | .vec t, (v : List (t.Val α)) => (v.map t.numbers).flatten
  | .arr _ t, v => (v.1.map t.numbers).flatten

/-- The lengths of the data, of its first element, of the first element of that and so on. -/
def NTy.Front : (t : NTy) → t.Val α → List Nat → Prop
  | .vec1, (v : List α), s => s = [v.length]
  | .arr1 n, _, s => s = [n]
  | .vec t, (v : List (t.Val α)), s => ∃ s' x l, v = x :: l ∧ s = v.length :: s' ∧ t.Front x s'
  | .arr n t, (v : { l : List (t.Val α) // l.length = n }), s => ∃ s' x l, v.1 = x :: l ∧ s = n :: s' ∧ t.Front x s'

/-- What is checked of the data: in a `Vec`, all elements have the same lengths along first elements. -/
def NTy.Checked : (t : NTy) → t.Val α → List Nat → Prop
  | .vec t, (v : List (t.Val α)), s => ∃ s', v ≠ [] ∧ s = v.length :: s' ∧ ∀ x ∈ v, t.Front x s'
  | t, v, s => t.Front v s

end Verif
