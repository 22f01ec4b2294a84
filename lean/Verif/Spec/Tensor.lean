/-!
# Specification vocabulary: shapes, multi-indices, tensors

Everything a reader needs to understand the property theorems about arrays. Nothing here is taken
from the code base: it is the textbook meaning of "shape", "multi-index", "row-major order".
-/

namespace Verif

/-- Number of elements of a shape. -/
def numel : List Nat → Nat
  | [] => 1
  | n :: s => n * numel s

/-- `InB idx s`: `idx` is an in-range multi-index of the shape `s`
(same number of coordinates, each below its extent). -/
def InB : List Nat → List Nat → Prop
  | [], [] => True
  | i :: idx, n :: s => i < n ∧ InB idx s
  | [], _ :: _ => False
  | _ :: _, [] => False

instance InB.dec : (idx s : List Nat) → Decidable (InB idx s)
  | [], [] => isTrue trivial
  | i :: idx, n :: s =>
    match (inferInstance : Decidable (i < n)), InB.dec idx s with
    | isTrue h, isTrue h' => isTrue ⟨h, h'⟩
    | isFalse h, _ => isFalse fun h' => h h'.1
    | _, isFalse h => isFalse fun h' => h h'.2
  | [], _ :: _ => isFalse id
  | _ :: _, [] => isFalse id

/-- All multi-indices of a shape, in row-major (lexicographic) order. -/
def indices : List Nat → List (List Nat)
  | [] => [[]]
  | n :: s => (List.range n).flatMap fun i => (indices s).map (i :: ·)

/-- Position of a multi-index relative to the first element, for given strides. -/
def offset : List Nat → List Nat → Nat
  | i :: idx, d :: st => i * d + offset idx st
  | _, _ => 0

/-- Memory positions (relative to the first element) of all elements of a strided view,
in row-major order. -/
def offsets (s st : List Nat) : List Nat := (indices s).map (offset · st)

/-- Rank of a multi-index in row-major order. -/
def rank : List Nat → List Nat → Nat
  | i :: idx, _ :: s => i * numel s + rank idx s
  | _, _ => 0

/-- The multi-index of a given rank. -/
def unrank : List Nat → Nat → List Nat
  | [], _ => []
  | _ :: s, k => k / numel s :: unrank s (k % numel s)

/-- The row-major list of the elements of the tensor of shape `s` with elements `f`. -/
def elements (s : List Nat) (f : List Nat → α) : List α := (indices s).map f

end Verif
