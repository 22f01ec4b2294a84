import Verif.Spec.Autograd

/-!
# Specification: values, Jacobians and dependencies of a tensor program
-/

namespace Verif

variable {α : Type}

/-- Ordinary evaluation. -/
def Interp.value : Interp α α := ⟨fun c => c, fun _ _ x => x, fun x => x⟩

/-- The direction in which only element `J` of variable `k` moves, with speed 1. -/
def unitDir [Zero α] [One α] (k : Nat) (J : List Nat) : Nat → List Nat → α := fun k' J' => if k' = k ∧ J' = J then 1 else 0

section
variable [Add α] [Sub α] [Mul α] [Div α] [Neg α] [Zero α]

/-- The elements of tensor `y` of a program. -/
def tensorOf (p : List (Instr α)) (y : Nat) : MT α := ((specRun Interp.value 0 p).get y).1

/-- Whether tensor `y` is, or was computed from, a tensor with `requires_grad`. -/
def requiresOf (p : List (Instr α)) (y : Nat) : Bool := ((specRun Interp.value 0 p).get y).2

/-- `∂ y[idx] / ∂ x_k[J]` for tensor `y` of a program, by the rules of differentiation. -/
def jacobian [One α] (p : List (Instr α)) (y k : Nat) (J idx : List Nat) : α :=
  (((specRun (Dual.interp (unitDir k J)) 0 p).get y).1.elem idx).eps

/-- Tensor `i` is variable `k` of the program, up to constants: its element `idx` moves as element `idx` of the
variable. -/
def IsVariable (p : List (Instr α)) (i k : Nat) : Prop := ∀ v idx, InB idx (tensorOf p i).shape →
  (((specRun (Dual.interp v) 0 p).get i).1.elem idx).eps = v k idx

end

/-! ### dependencies -/

/-- The elements of variables that a number was computed from. -/
structure Deps where
  elems : List (Nat × List Nat)
  deriving DecidableEq, Repr

namespace Deps
instance : Zero Deps := ⟨⟨[]⟩⟩
instance : Add Deps := ⟨fun x y => ⟨x.elems ++ y.elems⟩⟩
instance : Sub Deps := ⟨fun x y => ⟨x.elems ++ y.elems⟩⟩
instance : Mul Deps := ⟨fun x y => ⟨x.elems ++ y.elems⟩⟩
instance : Div Deps := ⟨fun x y => ⟨x.elems ++ y.elems⟩⟩
instance : Neg Deps := ⟨fun x => x⟩

def interp : Interp α Deps := ⟨fun _ => ⟨[]⟩, fun k idx _ => ⟨[(k, idx)]⟩, fun _ => ⟨[]⟩⟩
end Deps

/-- Some element of tensor `y` is computed from element `J` of variable `k`. -/
def Reaches [Zero α] (p : List (Instr α)) (k : Nat) (J : List Nat) (y : Nat) (idx : List Nat) : Prop :=
  (k, J) ∈ (((specRun Deps.interp (0 : α) p).get y).1.elem idx).elems

end Verif
