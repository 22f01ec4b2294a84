import Verif.Spec.Views
import Verif.Model.Views

/-!
# Specification: what a Rust range or integer selects on an axis
-/

namespace Verif

/-- What an indexer selects on an axis of extent `n`. -/
def Indexer.sel : Indexer → Nat → Select
  | .at i, _ => .fix i
  | .range a b, _ => .keep a (b - a)
  | .rangeFrom a, n => .keep a (n - a)
  | .full, n => .keep 0 n
  | .rangeIncl a b, _ => .keep a (b - a + 1)
  | .rangeTo b, _ => .keep 0 b
  | .rangeToIncl b, _ => .keep 0 (b + 1)

/-- the selections of a list of indexers, axis by axis -/
def sels : List Indexer → List Nat → List Select
  | ix :: ixs, n :: s => ix.sel n :: sels ixs s
  | _, _ => []

/-- range ends are not before range starts -/
def Indexer.Ordered : Indexer → Nat → Prop
  | .range a b, _ => a ≤ b
  | .rangeFrom a, n => a ≤ n
  | .rangeIncl a b, _ => a ≤ b
  | _, _ => True

/-- The indexer stays within an axis of extent `n` (half-open ranges may be empty). -/
def Indexer.InRange (ix : Indexer) (n : Nat) : Prop := ix.Ordered n ∧ (ix.sel n).Fits n

instance (ix : Indexer) (n : Nat) : Decidable (ix.InRange n) := by
  unfold Indexer.InRange; cases ix <;> unfold Indexer.Ordered <;> infer_instance

def IndexersInRange : List Indexer → List Nat → Prop
  | [], _ => True
  | ix :: ixs, n :: s => ix.InRange n ∧ IndexersInRange ixs s
  | _ :: _, [] => False

/-- Not more indexers than axes, and no range end before its start. -/
def IndexersOrdered : List Indexer → List Nat → Prop
  | [], _ => True
  | ix :: ixs, n :: s => ix.Ordered n ∧ IndexersOrdered ixs s
  | _ :: _, [] => False

instance IndexersInRange.dec : (ixs : List Indexer) → (s : List Nat) → Decidable (IndexersInRange ixs s)
  | [], _ => isTrue trivial
  | ix :: ixs, n :: s =>
    match (inferInstance : Decidable (ix.InRange n)), IndexersInRange.dec ixs s with
    | isTrue h, isTrue h' => isTrue ⟨h, h'⟩
    | isFalse h, _ => isFalse fun h' => h h'.1
    | _, isFalse h => isFalse fun h' => h h'.2
  | _ :: _, [] => isFalse id

end Verif
