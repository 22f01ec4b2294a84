import Verif.Spec.Tensor
import Mathlib.Algebra.BigOperators.Group.List.Basic

/-!
# Specification vocabulary: inner products
-/

namespace Verif

/-- `Σ_{t < k} u t * v t`. -/
def innerProduct {α : Type} [Mul α] [Add α] [Zero α] (k : Nat) (u v : Nat → α) : α :=
  ((List.range k).map fun t => u t * v t).sum

end Verif
