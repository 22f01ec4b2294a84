import Verif.Model.Ieee

/-!
# Elements of moderate size
-/

namespace Verif

variable {p emax : Nat}

/-- A finite number with at most `q` fractional bits. -/
def Moderate (q : Nat) (x : Ieee p emax) : Prop := x.Finite ∧ OnGrid q x.val

/-- A finite integer. -/
def Whole (x : Ieee p emax) : Prop := x.Finite ∧ IsInt x.val

end Verif
