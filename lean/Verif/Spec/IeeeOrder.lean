import Verif.Model.Ieee

/-!
# Signs of floats
-/

namespace Verif

variable {p emax : Nat}

/-- Not below zero. NaN and `-0` count as not below zero. -/
def NotNegative (x : Ieee p emax) : Prop := x ≠ .inf true ∧ 0 ≤ x.val

/-- Not below zero and not NaN. -/
def NonNegative (x : Ieee p emax) : Prop := x = .inf false ∨ x.Finite ∧ 0 ≤ x.val

/-- `v` is not NaN and at least as large as `x`, neither being below zero. -/
def AtLeast (v x : Ieee p emax) : Prop := v = .inf false ∨ x.Finite ∧ v.Finite ∧ x.val ≤ v.val

end Verif
