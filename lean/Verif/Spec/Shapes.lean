import Verif.Spec.Autograd

/-!
# Specification: which tensor operations make sense, and the shapes of their results
-/

namespace Verif

/-- A shape-changing operation turns a tensor of shape `s` into one of shape `r`. `even`: the elements of the tensor lie at
equal distances, in row-major order; only then `reshape` can give it another shape. (A tensor without axes cannot be
given any.) -/
def SView.HasShape (even : Prop) (s : List Nat) : SView → List Nat → Prop
  | .view, r => r = s
  | .reshape ns, r => r = ns ∧ (ns = s ∨ numel ns = numel s ∧ s ≠ [] ∧ even)
  | .squeeze, r => r = s.filter (· ≠ 1)
  | .unsqueeze ax, r => ∃ k, AxisIs ax (s.length + 1) k ∧ r = s.insertIdx k 1
  | .transpose ax1 ax2, r => ∃ i j, AxisIs ax1 s.length i ∧ AxisIs ax2 s.length j ∧ r = exchange i j s

variable {α : Type}

/-- In a context of tensors of shapes `Γ`, an operation makes sense and its result has shape `r`. `even i`: the elements of tensor
`i` lie at equal distances. -/
def Instr.HasShape (even : Nat → Prop) (Γ : List (List Nat)) : Instr α → List Nat → Prop
  | .leaf s data, r => data.length = numel s ∧ r = s
  | .setReq i _, r => Γ[i]? = some r
  | .neg i, r => Γ[i]? = some r
  | .scal _ i _, r => Γ[i]? = some r
  | .bin _ i j, r => ∃ s t, Γ[i]? = some s ∧ Γ[j]? = some t ∧ Compatible s t ∧ IsJoint s t r
  | .dot i j, r => ∃ n, Γ[i]? = some [n] ∧ Γ[j]? = some [n] ∧ r = []
  | .matmul i j, r =>
    (∃ n, Γ[i]? = some [n] ∧ Γ[j]? = some [n] ∧ r = []) ∨ (∃ m k, Γ[i]? = some [m, k] ∧ Γ[j]? = some [k] ∧ r = [m]) ∨
      ∃ m k n, Γ[i]? = some [m, k] ∧ Γ[j]? = some [k, n] ∧ r = [m, n]
  | .bmm i j, r => ∃ b m k n, Γ[i]? = some [b, m, k] ∧ Γ[j]? = some [b, k, n] ∧ r = [b, m, n]
  | .view op i, r => ∃ s, Γ[i]? = some s ∧ op.HasShape (even i) s r
  | .into op _ i, r => ∃ s, Γ[i]? = some s ∧ op.HasShape (even i) s r

/-- The context after the operation: `set_requires_grad` makes no new tensor. -/
def Instr.extend {γ : Type} (Γ : List γ) (r : γ) : Instr α → List γ
  | .setReq _ _ => Γ
  | _ => Γ ++ [r]

/-- Whether the elements of the result are known to lie one after the other in row-major order, if that is known of the
tensors in `B`: not after `transpose`. -/
def Instr.straight (B : List Bool) : Instr α → Bool
  | .setReq i _ => B.getD i false
  | .view (.transpose _ _) _ => false
  | .into (.transpose _ _) _ _ => false
  | .view _ i => B.getD i false
  | .into _ _ i => B.getD i false
  | _ => true

/-- The operation does not meet the fault of C43: a consuming `reshape`, `squeeze` or `unsqueeze` of a tensor whose array has other owners
(`into op true i`) reads a compact copy with the layout of the original. That is right if the original is compact itself. -/
def Instr.safe (B : List Bool) : Instr α → Bool
  | .into (.reshape _) true i => B.getD i false
  | .into .squeeze true i => B.getD i false
  | .into (.unsqueeze _) true i => B.getD i false
  | _ => true

/-- A program makes sense from a context on: every operation does, and no shape has an extent 0 or more than 32 axes. -/
def WellShaped (Γ : List (List Nat)) (B : List Bool) : List (Instr α) → List (List Nat) → Prop
  | [], Γ' => Γ' = Γ
  | x :: p, Γ' => ∃ r, x.HasShape (fun i => B[i]? = some true) Γ r ∧ 0 ∉ r ∧ r.length ≤ 32 ∧ x.safe B = true ∧
      WellShaped (x.extend Γ r) (x.extend B (x.straight B)) p Γ'

end Verif
