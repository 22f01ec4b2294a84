import Verif.Spec.Shapes

/-!
# Specification: which gradients find their way back through a program

Written in terms of the shapes of the tensors and the strides of the gradient only.
-/

namespace Verif

variable {α : Type}

/-- The strides of a tensor of shape `s` whose elements lie one after the other. -/
def rowStrides : List Nat → List Nat
  | [] => []
  | _ :: s => numel s :: rowStrides s

/-- The strides of a tensor of shape `s` whose elements lie `e` cells apart, in row-major order. -/
def evenStrides (s : List Nat) (e : Nat) : List Nat := (rowStrides s).map (· * e)

/-- A shape broadcast to `r` is `r`, has no axis, or has an axis as long as that of `r` in its place. -/
def KeepsAxis (s r : List Nat) : Prop := s = r ∨ s = [] ∨ ∃ k, k < s.length ∧ extentFromRight s k = extentFromRight r k

/-- What matters of a tensor for gradients: whether it requires gradient, and, if it does, for which strides of its gradient the pass gets
through from there. -/
structure Flow where
  req : Bool
  ok : List Nat → Prop

def Flow.takes (f : Flow) (d : List Nat) : Prop := f.req = true → f.ok d

/-- A gradient of shape `r` and strides `d` reaches the operand `f` of shape `s` of an operation that broadcasts. `keeps`: the operation hands on the
gradient itself, if it has not to be reduced. -/
def Flow.receives (f : Flow) (keeps : Bool) (s r d : List Nat) : Prop :=
  f.req = true → KeepsAxis s r ∧ f.ok (if keeps = true ∧ s = r then d else evenStrides s 1)

/-- The same through a shape-changing operation. A gradient is given back the shape `s` only if its elements lie at equal distances, and
not if it has no axes. -/
def Flow.through (f : Flow) (s r d : List Nat) : SView → Prop
  | .view => f.ok d
  | .transpose ax1 ax2 => f.ok (exchange (axisNat ax1 r.length) (axisNat ax2 r.length) d)
  | _ => r = s ∧ f.ok d ∨ r ≠ [] ∧ ∃ e, d = evenStrides r e ∧ f.ok (evenStrides s e)

/-- The tensors after an operation; `Γ`: the shapes of all tensors of the program. -/
def Instr.flow (Γ : List (List Nat)) (F : List Flow) (x : Instr α) : List Flow :=
  let sh := fun i => Γ.getD i []
  let f := fun i => F.getD i ⟨false, fun _ => True⟩
  let both := fun i j => (⟨(f i).req || (f j).req, fun _ => (f i).takes (evenStrides (sh i) 1) ∧ (f j).takes (evenStrides (sh j) 1)⟩ : Flow)
  match x with
  | .leaf _ _ => F ++ [⟨false, fun _ => True⟩]
  | .setReq i b => F.set i ⟨b, (f i).takes⟩
  | .neg i => F ++ [⟨(f i).req, fun _ => (f i).ok (evenStrides (sh i) 1)⟩]
  | .scal op i _ => F ++ [⟨(f i).req, fun d => (f i).ok (if op = .add ∨ op = .sub then d else evenStrides (sh i) 1)⟩]
  | .bin op i j => F ++ [⟨(f i).req || (f j).req, fun d => (f i).receives (op = .add ∨ op = .sub) (sh i) (sh F.length) d ∧
      (f j).receives (op = .add) (sh j) (sh F.length) d⟩]
  | .dot i j => F ++ [both i j]
  | .matmul i j => F ++ [both i j]
  | .bmm i j => F ++ [both i j]
  | .view op i => F ++ [⟨(f i).req, fun d => (f i).through (sh i) (sh F.length) d op⟩]
  | .into op _ i => F ++ [⟨(f i).req, fun d => (f i).through (sh i) (sh F.length) d op⟩]

/-- `backward` gets through from tensor `y` of a program with tensors of shapes `Γ`, given a gradient with strides `d`. -/
def Passes (Γ : List (List Nat)) (p : List (Instr α)) (y : Nat) (d : List Nat) : Prop :=
  ((p.foldl (Instr.flow Γ) []).getD y ⟨false, fun _ => True⟩).takes d

end Verif
