import Verif.Spec.Views

/-!
# Specification vocabulary for reductions
-/

namespace Verif

/-- Remove the coordinates at the positions `ks`. -/
def dropAxes {β : Type} (ks : List Nat) (l : List β) : List β := (l.zipIdx.filter fun p => p.2 ∉ ks).map (·.1)

/-- The multi-indices of `s` whose remaining coordinates, after removing the axes `ks`, are `J`, in row-major
order. -/
def fibre (ks s J : List Nat) : List (List Nat) := (indices s).filter fun idx => dropAxes ks idx = J

/-- `axes` are, in this order and possibly written as negative numbers, the axes `ks` of a rank-`n` array. -/
def AxesAre : List Int → Nat → List Nat → Prop
  | [], _, [] => True
  | ax :: axes, n, k :: ks => AxisIs ax n k ∧ AxesAre axes n ks
  | _, _, _ => False

/-- Left fold of an accumulator step over the elements at given indices. -/
def foldOver (step : α → α → α) (init : α) (f : List Nat → α) (idxs : List (List Nat)) : α :=
  (idxs.map f).foldl (fun acc v => step v acc) init

end Verif

namespace Verif

/-- The coordinates at the positions `ks`, in ascending order of position. -/
def keepAxes (ks : List Nat) (l : List Nat) : List Nat := (l.zipIdx.filter fun p => p.2 ∈ ks).map (·.1)

/-- Strides of a row-major block with distance `q` between neighbours. -/
def chainStride (q : Nat) : List Nat → List Nat
  | [] => []
  | _ :: s => q * numel s :: chainStride q s

end Verif
