import Verif.Spec.Tensor

/-!
# Specification vocabulary for view operations

Plain functions on lists of numbers; independent of the code base.
-/

namespace Verif

/-- `axis` (possibly negative) denotes the `k`-th of `n` axes: counted from the front, or from the end. -/
def AxisIs (axis : Int) (n k : Nat) : Prop := k < n ∧ (axis = k ∨ axis = (k : Int) - n)

instance (axis : Int) (n k : Nat) : Decidable (AxisIs axis n k) := by unfold AxisIs; infer_instance

/-- `l` with the entries at positions `i` and `j` exchanged. -/
def exchange (i j : Nat) (l : List α) : List α :=
  l.mapIdx fun k x => if k = i then l.getD j x else if k = j then l.getD i x else x

/-- The multi-index of a tensor of shape `s` that corresponds to the multi-index `J` of the tensor
without the axes of extent 1: coordinate 0 on those axes. -/
def withUnits : List Nat → List Nat → List Nat
  | [], _ => []
  | n :: s, J =>
    if n = 1 then 0 :: withUnits s J
    else match J with
      | [] => []
      | j :: J => j :: withUnits s J

/-- What a slice does with one axis. -/
inductive Select where
  /-- fix the coordinate and drop the axis -/
  | fix (i : Nat)
  /-- keep `len` coordinates from `start` on -/
  | keep (start len : Nat)
  deriving DecidableEq, Repr

/-- The selection fits into an axis of extent `n`. -/
def Select.Fits : Select → Nat → Prop
  | .fix i, n => i < n
  | .keep start len, n => start + len ≤ n

instance (x : Select) (n : Nat) : Decidable (x.Fits n) := by cases x <;> unfold Select.Fits <;> infer_instance

/-- Shape of a selection; axes beyond the given selections are kept entirely. -/
def selectShape : List Select → List Nat → List Nat
  | .fix _ :: xs, _ :: s => selectShape xs s
  | .keep _ len :: xs, _ :: s => len :: selectShape xs s
  | _, s => s

/-- The multi-index of the original tensor that the multi-index `J` of the selection refers to. -/
def selectIndex : List Select → List Nat → List Nat
  | .fix i :: xs, J => i :: selectIndex xs J
  | .keep start _ :: xs, j :: J => (start + j) :: selectIndex xs J
  | .keep _ _ :: _, [] => []
  | [], J => J

/-- All selections fit, and there are not more selections than axes. -/
def SelectFits : List Select → List Nat → Prop
  | [], _ => True
  | x :: xs, n :: s => x.Fits n ∧ SelectFits xs s
  | _ :: _, [] => False

/-- `l` without the entries at positions `i` and `j`. -/
def others (i j : Nat) (l : List α) : List α :=
  (l.zipIdx.filter fun p => p.2 ≠ i ∧ p.2 ≠ j).map Prod.fst

/-- The multi-index of length `n` with `x` at position `i`, `y` at position `j`, and the entries of `J`
on the other positions, in order; `k` is the position of the first entry to produce. -/
def putTwo (i x j y : Nat) : (n k : Nat) → List Nat → List Nat
  | 0, _, _ => []
  | n + 1, k, J =>
    if k = i then x :: putTwo i x j y n (k + 1) J
    else if k = j then y :: putTwo i x j y n (k + 1) J
    else match J with
      | [] => []
      | a :: J => a :: putTwo i x j y n (k + 1) J

end Verif
