import Verif.Spec.Jacobian
import Mathlib.Analysis.Calculus.Deriv.Inv
import Mathlib.Analysis.Calculus.Deriv.Add

/-!
# Specification: real tensor programs as functions of their variables

The program is evaluated while its variables move along straight lines; derivatives have their analytic meaning.
-/

namespace Verif

/-- A real number depending on a parameter `τ`; `ok`: no division by zero at `τ = 0` was used. -/
structure Curve where
  f : ℝ → ℝ
  ok : Prop

namespace Curve
noncomputable section
instance : Zero Curve := ⟨⟨fun _ => 0, True⟩⟩
instance : Add Curve := ⟨fun x y => ⟨fun τ => x.f τ + y.f τ, x.ok ∧ y.ok⟩⟩
instance : Sub Curve := ⟨fun x y => ⟨fun τ => x.f τ - y.f τ, x.ok ∧ y.ok⟩⟩
instance : Mul Curve := ⟨fun x y => ⟨fun τ => x.f τ * y.f τ, x.ok ∧ y.ok⟩⟩
instance : Div Curve := ⟨fun x y => ⟨fun τ => x.f τ / y.f τ, (x.ok ∧ y.ok) ∧ y.f 0 ≠ 0⟩⟩
instance : Neg Curve := ⟨fun x => ⟨fun τ => -x.f τ, x.ok⟩⟩

/-- Element `idx` of variable `k` moves with speed `v k idx`; values that were cut off stay where they are at `τ = 0`. -/
def interp (v : Nat → List Nat → ℝ) : Interp ℝ Curve where
  const c := ⟨fun _ => c, True⟩
  var k idx x := ⟨fun τ => x.f 0 + τ * v k idx, x.ok⟩
  cut x := ⟨fun _ => x.f 0, x.ok⟩
end
end Curve

/-- Element `idx` of tensor `y` of a program when element `J` of variable `k` is changed by `τ`. -/
noncomputable def movedElement (p : List (Instr ℝ)) (y k : Nat) (J idx : List Nat) (τ : ℝ) : ℝ :=
  (((specRun (Curve.interp (unitDir k J)) 0 p).get y).1.elem idx).f τ

/-- No division by zero occurs in the computation of element `idx` of tensor `y`. -/
def Defined (p : List (Instr ℝ)) (y : Nat) (idx : List Nat) : Prop :=
  (((specRun (Curve.interp fun _ _ => 0) 0 p).get y).1.elem idx).ok

end Verif
