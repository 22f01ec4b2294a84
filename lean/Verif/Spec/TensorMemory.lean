import Verif.Model.TensorMemory

/-! # Vocabulary for the memory of tensors -/

namespace Verif.TMem

namespace State

/-- Array `a` exists and owns its buffer. -/
def Owner (s : State) (a : Nat) : Prop := ∃ b, s.boxes[a]? = some b ∧ b.owned = true

/-- The discipline under which `backward` reads only live memory: only tensors that borrow from nobody are
reshaped by value, and a product (or quotient, …) whose gradient is wanted is not taken of views. -/
def Tame (s : State) : Op → Prop
  | .consume i _ => ∀ t, s.Has i t → t.lender = none
  | .binary i j _ captures => captures = true → ∀ t u, s.Has i t → s.Has j u →
      (t.requiresGrad || u.requiresGrad) = true → s.Owner t.array ∧ s.Owner u.array
  | _ => True

end State

/-- A history in which every operation keeps to the discipline. -/
inductive TameRun : State → List Op → State → Prop
  | nil (s : State) : TameRun s [] s
  | cons {s t u : State} {o : Op} {os : List Op} (ht : s.Tame o) (h : Step s o t) (hr : TameRun t os u) :
      TameRun s (o :: os) u

end Verif.TMem
