import Verif.Model.Basics

/-!
# Specification vocabulary: two computations give equal arrays
-/

namespace Verif

/-- Both computations succeed, and their results compare equal with the library's `==`
(same shape, equal elements: C22). -/
def SameArray {α : Type} [BEq α] (x y : Res (Arr α)) : Prop :=
  ∃ r r', x = .ok r ∧ y = .ok r' ∧ r.eq r' = .ok true

/-- The position of axis `j` among the axes that are left after removing the axes `ks`: the number of
remaining axes before it. -/
def remaining (ks : List Nat) (j : Nat) : Nat := ((List.range j).filter (· ∉ ks)).length

end Verif
