import Verif.Spec.Broadcast
import Verif.Spec.Matrix
import Verif.Spec.Views
import Mathlib.Algebra.Field.Basic

/-!
# Specification: what a tensor program computes, and its derivative

A program is a sequence of tensor operations in single-assignment form: every operation appends one tensor and
refers to earlier ones by number. Its meaning is given over an arbitrary number system `β`, by textbook
formulas on functions from multi-indices to `β`. Two number systems are used: dual numbers (forward-mode
differentiation: value and directional derivative), and curves `ℝ → ℝ` (for which "derivative" has its
analytic meaning).
-/

namespace Verif

/-- A mathematical tensor. -/
structure MT (β : Type) where
  shape : List Nat
  elem : List Nat → β

/-- The joint shape under broadcasting: right-aligned, on every axis the extent that is not 1. -/
def jointShape (s t : List Nat) : List Nat :=
  ((List.range (max s.length t.length)).map fun k =>
    if extentFromRight s k = 1 then extentFromRight t k else extentFromRight s k).reverse

/-- The axis meant by a possibly negative axis number. -/
def axisNat (axis : Int) (n : Nat) : Nat := if axis < 0 then (axis + n).toNat else axis.toNat

/-- `Σ f[idx] * g[idx]` over all multi-indices of a shape. -/
def pair {β : Type} [Mul β] [Add β] [Zero β] (s : List Nat) (f g : List Nat → β) : β :=
  ((indices s).map fun idx => f idx * g idx).sum

/-- Shape-changing operations. -/
inductive SView where
  | view
  | reshape (shape : List Nat)
  | squeeze
  | unsqueeze (axis : Int)
  | transpose (axis1 axis2 : Int)
  deriving DecidableEq, Repr

inductive SOp where
  | add | sub | mul | div
  deriving DecidableEq, Repr

section
variable {β : Type}

def SOp.run [Add β] [Sub β] [Mul β] [Div β] : SOp → β → β → β
  | .add, x, y => x + y
  | .sub, x, y => x - y
  | .mul, x, y => x * y
  | .div, x, y => x / y

/-- Elementwise operation with broadcasting. -/
def MT.zip (f : β → β → β) (a b : MT β) : MT β :=
  ⟨jointShape a.shape b.shape, fun idx => f (a.elem (broadcastIndex a.shape idx)) (b.elem (broadcastIndex b.shape idx))⟩

def MT.map (f : β → β) (a : MT β) : MT β := ⟨a.shape, fun idx => f (a.elem idx)⟩

variable [Mul β] [Add β] [Zero β]

/-- Inner product of two vectors. -/
def MT.dot (a b : MT β) : MT β := ⟨[], fun _ => innerProduct (a.shape.headD 0) (fun t => a.elem [t]) fun t => b.elem [t]⟩

/-- Vector x vector, matrix x vector, or matrix x matrix. -/
def MT.matmul (a b : MT β) : MT β := match a.shape, b.shape with
  | [m, k], [_] => ⟨[m], fun idx => innerProduct k (fun t => a.elem [idx.getD 0 0, t]) fun t => b.elem [t]⟩
  | [m, k], [_, n] => ⟨[m, n], fun idx =>
      innerProduct k (fun t => a.elem [idx.getD 0 0, t]) fun t => b.elem [t, idx.getD 1 0]⟩
  | _, _ => a.dot b

/-- Matrix products, one per batch. -/
def MT.bmm (a b : MT β) : MT β :=
  ⟨[a.shape.getD 0 0, a.shape.getD 1 0, b.shape.getD 2 0], fun idx => innerProduct (a.shape.getD 2 0)
    (fun t => a.elem [idx.getD 0 0, idx.getD 1 0, t]) fun t => b.elem [idx.getD 0 0, t, idx.getD 2 0]⟩

omit [Mul β] [Add β] [Zero β] in
/-- Shape-changing operations keep the elements; `reshape` keeps their row-major order. -/
def MT.reshaped (a : MT β) : SView → MT β
  | .view => a
  | .reshape s => ⟨s, fun idx => a.elem (unrank a.shape (rank idx s))⟩
  | .squeeze => ⟨a.shape.filter (· ≠ 1), fun J => a.elem (withUnits a.shape J)⟩
  | .unsqueeze ax => ⟨a.shape.insertIdx (axisNat ax (a.shape.length + 1)) 1,
      fun idx => a.elem (idx.eraseIdx (axisNat ax (a.shape.length + 1)))⟩
  | .transpose ax1 ax2 => ⟨exchange (axisNat ax1 a.shape.length) (axisNat ax2 a.shape.length) a.shape,
      fun idx => a.elem (exchange (axisNat ax1 a.shape.length) (axisNat ax2 a.shape.length) idx)⟩

end

/-- One operation of a tensor program over the element type `α`. -/
inductive Instr (α : Type) where
  /-- a new tensor with given elements -/
  | leaf (shape : List Nat) (data : List α)
  /-- `set_requires_grad` -/
  | setReq (i : Nat) (b : Bool)
  | neg (i : Nat)
  | bin (op : SOp) (i j : Nat)
  | scal (op : SOp) (i : Nat) (c : α)
  | dot (i j : Nat)
  | matmul (i j : Nat)
  | bmm (i j : Nat)
  /-- a view operation on a borrowed tensor -/
  | view (op : SView) (i : Nat)
  /-- a view operation consuming its operand; `shared`: other owners of its elements exist -/
  | into (op : SView) (shared : Bool) (i : Nat)
  deriving DecidableEq, Repr

/-- A number system to interpret programs over: constants, making a value a new independent variable
(number `k` of the program, position `idx`), and forgetting all dependencies. -/
structure Interp (α β : Type) where
  const : α → β
  var : Nat → List Nat → β → β
  cut : β → β

/-- State of the interpretation: for each tensor its elements and whether it depends on a variable ("requires a
gradient"), and the number of variables so far. -/
structure SpecState (β : Type) where
  env : List (MT β × Bool)
  vars : Nat

def SpecState.get [Zero β] (σ : SpecState β) (i : Nat) : MT β × Bool := σ.env.getD i (⟨[], fun _ => 0⟩, false)

section
variable {α β : Type} [Add β] [Sub β] [Mul β] [Div β] [Neg β] [Zero β]

def SpecState.push (σ : SpecState β) (t : MT β) (dep : Bool) : SpecState β := { σ with env := σ.env ++ [(t, dep)] }

/-- The meaning of one operation. -/
def SpecState.step (I : Interp α β) (dflt : α) (σ : SpecState β) : Instr α → SpecState β
  | .leaf s data => σ.push ⟨s, fun idx => I.const (data.getD (rank idx s) dflt)⟩ false
  | .setReq i true =>
    if (σ.get i).2 then σ
    else { env := σ.env.set i (⟨(σ.get i).1.shape, fun idx => I.var σ.vars idx ((σ.get i).1.elem idx)⟩, true), vars := σ.vars + 1 }
  | .setReq i false => { σ with env := σ.env.set i ((σ.get i).1.map I.cut, false) }
  | .neg i => σ.push ((σ.get i).1.map (- ·)) (σ.get i).2
  | .bin op i j => σ.push ((σ.get i).1.zip op.run (σ.get j).1) ((σ.get i).2 || (σ.get j).2)
  | .scal op i c => σ.push ((σ.get i).1.map fun x => op.run x (I.const c)) (σ.get i).2
  | .dot i j => σ.push ((σ.get i).1.dot (σ.get j).1) ((σ.get i).2 || (σ.get j).2)
  | .matmul i j => σ.push ((σ.get i).1.matmul (σ.get j).1) ((σ.get i).2 || (σ.get j).2)
  | .bmm i j => σ.push ((σ.get i).1.bmm (σ.get j).1) ((σ.get i).2 || (σ.get j).2)
  | .view op i => σ.push ((σ.get i).1.reshaped op) (σ.get i).2
  | .into op _ i => σ.push ((σ.get i).1.reshaped op) (σ.get i).2

/-- The meaning of a program. -/
def specRun (I : Interp α β) (dflt : α) (p : List (Instr α)) : SpecState β := p.foldl (SpecState.step I dflt) ⟨[], 0⟩

end

/-! ### dual numbers -/

/-- `re + eps·ε` with `ε² = 0`. -/
structure Dual (α : Type) where
  re : α
  eps : α
  deriving DecidableEq, Repr

namespace Dual
variable {α : Type}

instance [Zero α] : Zero (Dual α) := ⟨⟨0, 0⟩⟩
/-- sum rule -/
instance [Add α] : Add (Dual α) := ⟨fun x y => ⟨x.re + y.re, x.eps + y.eps⟩⟩
instance [Sub α] : Sub (Dual α) := ⟨fun x y => ⟨x.re - y.re, x.eps - y.eps⟩⟩
instance [Neg α] : Neg (Dual α) := ⟨fun x => ⟨-x.re, -x.eps⟩⟩
/-- product rule -/
instance [Mul α] [Add α] : Mul (Dual α) := ⟨fun x y => ⟨x.re * y.re, x.re * y.eps + x.eps * y.re⟩⟩
/-- quotient rule -/
instance [Mul α] [Sub α] [Div α] : Div (Dual α) := ⟨fun x y => ⟨x.re / y.re, (x.eps * y.re - x.re * y.eps) / (y.re * y.re)⟩⟩

/-- Dual numbers whose variable number `k` moves in the direction `v k`. -/
def interp [Zero α] (v : Nat → List Nat → α) : Interp α (Dual α) where
  const c := ⟨c, 0⟩
  var k idx x := ⟨x.re, v k idx⟩
  cut x := ⟨x.re, 0⟩

end Dual

end Verif
