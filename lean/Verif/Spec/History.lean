import Verif.Model.History
import Verif.Spec.Slices

/-!
# Specification vocabulary for histories of view operations
-/

namespace Verif

/-- Slices stay within the axes of the array they are applied to; nothing is asked of other operations. -/
def ViewOp.InRange (a : Arr α) : ViewOp → Prop
  | .slice ixs => IndexersInRange ixs a.shape
  | .sliceAlong ax ix => ∀ k n, AxisIs ax a.ndims k → a.shape[k]? = some n → ix.InRange n
  | _ => True

/-- `History P a b`: `b` is obtained from `a` by a finite sequence of view operations satisfying `P`, all
of which succeed and all of whose slices are in range. -/
inductive History (P : ViewOp → Prop) (a : Arr α) : Arr α → Prop
  | refl : History P a a
  | step {b c : Arr α} (op : ViewOp) : History P a b → P op → op.InRange b → op.run b = .ok c → History P a c

/-- A freshly created array: row-major buffer of exactly `size` elements. -/
def Fresh (a : Arr α) : Prop := ∃ s data, data.length = numel s ∧ a = Arr.fromContiguousOwnedBuffer s data

def ViewOp.isBroadcast : ViewOp → Bool
  | .broadcastTo _ => true
  | _ => false

def ViewOp.isReshape : ViewOp → Bool
  | .reshape _ => true
  | .intoReshape _ => true
  | _ => false

/-- operations other than `broadcast_to` -/
def NoBroadcast (op : ViewOp) : Prop := op.isBroadcast = false
/-- operations other than `reshape` -/
def NoReshape (op : ViewOp) : Prop := op.isReshape = false

/-- Obtained from a freshly created array by view operations other than `broadcast_to`. -/
def Reached (a : Arr α) : Prop := ∃ o, Fresh o ∧ History NoBroadcast o a

end Verif
