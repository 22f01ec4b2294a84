import Verif.Spec.Tensor
import Mathlib.Algebra.BigOperators.Group.List.Basic

/-!
# Specification vocabulary: Einstein sums

Letters name axes. An assignment gives every letter a value.
-/

namespace Verif

/-- The value of letter `c` when the letters `ls` have the values `vals` (in this order). -/
def valueOf : List Char → List Nat → Char → Nat
  | l :: ls, v :: vals, c => if c = l then v else valueOf ls vals c
  | _, _, _ => 0

/-- A factor of an Einstein sum: a tensor (its elements) with one letter per axis. -/
structure Factor (α : Type) where
  letters : List Char
  elem : List Nat → α

/-- The factor with every element replaced by its image. -/
def Factor.map {α β : Type} (φ : α → β) (f : Factor α) : Factor β := ⟨f.letters, fun i => φ (f.elem i)⟩

/-- The Einstein sum with output letters `out`, at output index `o`: the sum, over all values of the letters
`rest`, of the product of the factors' elements at the indices the letters stand for. Letter `c` runs
over `0 .. dim c - 1`. -/
def einsteinSum {α : Type} [Mul α] [One α] [Add α] [Zero α] (out rest : List Char) (dim : Char → Nat)
    (fs : List (Factor α)) (o : List Nat) : α :=
  ((indices (rest.map dim)).map fun r =>
    (fs.map fun f => f.elem (f.letters.map (valueOf (out ++ rest) (o ++ r)))).prod).sum

/-- The elements that enter entry `o` of an Einstein sum. -/
def entering {α : Type} (out rest : List Char) (dim : Char → Nat) (fs : List (Factor α)) (o : List Nat) : List α :=
  (indices (rest.map dim)).flatMap fun r => fs.map fun f => f.elem (f.letters.map (valueOf (out ++ rest) (o ++ r)))

/-- The subscripts are well formed: letters only, output letters distinct and occurring in the inputs, `rest`
an enumeration of the other letters, and every letter with at least one value. -/
structure WellFormed {α : Type} (fs : List (Factor α)) (out rest : List Char) (dim : Char → Nat) : Prop where
  alpha : ∀ f ∈ fs, ∀ c ∈ f.letters, c.isAlpha = true
  nodup : (out ++ rest).Nodup
  out_mem : ∀ c ∈ out, ∃ f ∈ fs, c ∈ f.letters
  rest_mem : ∀ c, c ∈ rest ↔ (∃ f ∈ fs, c ∈ f.letters) ∧ c ∉ out
  pos : ∀ f ∈ fs, ∀ c ∈ f.letters, 0 < dim c

/-- `WellFormed` without the last condition: letters may stand for axes of extent 0. -/
structure Subscripts {α : Type} (fs : List (Factor α)) (out rest : List Char) : Prop where
  alpha : ∀ f ∈ fs, ∀ c ∈ f.letters, c.isAlpha = true
  nodup : (out ++ rest).Nodup
  out_mem : ∀ c ∈ out, ∃ f ∈ fs, c ∈ f.letters
  rest_mem : ∀ c, c ∈ rest ↔ (∃ f ∈ fs, c ∈ f.letters) ∧ c ∉ out

theorem WellFormed.subscripts {α : Type} {fs : List (Factor α)} {out rest : List Char} {dim : Char → Nat}
    (h : WellFormed fs out rest dim) : Subscripts fs out rest := ⟨h.alpha, h.nodup, h.out_mem, h.rest_mem⟩

end Verif
