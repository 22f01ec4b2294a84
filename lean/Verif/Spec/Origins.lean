import Verif.Spec.Autograd

/-!
# Specification: what the tensors of a program were computed from

Only which operation takes which tensors matters here, neither shapes nor elements.
-/

namespace Verif

variable {α : Type}

/-- For each tensor of a program the variables it was computed from and whether it requires a gradient; and the number of variables so
far. The variables are numbered in the order of the calls of `set_requires_grad(true)` that changed something. -/
structure Origins where
  env : List (List Nat × Bool)
  vars : Nat
  deriving DecidableEq, Repr

def Origins.get (o : Origins) (i : Nat) : List Nat × Bool := o.env.getD i ([], false)

def Origins.push (o : Origins) (x : List Nat × Bool) : Origins := { o with env := o.env ++ [x] }

/-- The result of an operation with two operands. -/
def Origins.join (o : Origins) (i j : Nat) : List Nat × Bool := ((o.get i).1 ++ (o.get j).1, (o.get i).2 || (o.get j).2)

def Origins.step (o : Origins) : Instr α → Origins
  | .leaf _ _ => o.push ([], false)
  | .setReq i true => if (o.get i).2 then o else ⟨o.env.set i ([o.vars], true), o.vars + 1⟩
  | .setReq i false => { o with env := o.env.set i ([], false) }
  | .neg i => o.push (o.get i)
  | .scal _ i _ => o.push (o.get i)
  | .view _ i => o.push (o.get i)
  | .into _ _ i => o.push (o.get i)
  | .bin _ i j => o.push (o.join i j)
  | .dot i j => o.push (o.join i j)
  | .matmul i j => o.push (o.join i j)
  | .bmm i j => o.push (o.join i j)

def origins (p : List (Instr α)) : Origins := p.foldl Origins.step ⟨[], 0⟩

/-- The variables from which tensor `y` of a program was computed. -/
def variablesOf (p : List (Instr α)) (y : Nat) : List Nat := ((origins p).get y).1

end Verif
