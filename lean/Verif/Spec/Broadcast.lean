import Verif.Spec.Tensor

/-!
# Specification: NumPy's broadcasting rule
-/

namespace Verif

/-- `s` can be broadcast to `t` axis by axis (equal lengths). -/
def StretchTo : List Nat → List Nat → Prop
  | [], [] => True
  | n :: s, m :: t => (n = 1 ∨ n = m) ∧ StretchTo s t
  | _, _ => False

/-- Index with coordinate 0 on the axes of extent 1. -/
def clamp : List Nat → List Nat → List Nat
  | n :: s, i :: idx => (if n = 1 then 0 else i) :: clamp s idx
  | _, _ => []

/-- Index into the tensor of shape `s` for the index `idx` of the broadcast tensor: drop the leading new
axes, coordinate 0 on axes of extent 1. -/
def broadcastIndex (s : List Nat) (idx : List Nat) : List Nat := clamp s (idx.drop (idx.length - s.length))

/-- `s` broadcasts to `t`. -/
def BroadcastsTo (s t : List Nat) : Prop := s.length ≤ t.length ∧ StretchTo s (t.drop (t.length - s.length))

instance StretchTo.dec : (s t : List Nat) → Decidable (StretchTo s t)
  | [], [] => isTrue trivial
  | n :: s, m :: t =>
    match (inferInstance : Decidable (n = 1 ∨ n = m)), StretchTo.dec s t with
    | isTrue h, isTrue h' => isTrue ⟨h, h'⟩
    | isFalse h, _ => isFalse fun h' => h h'.1
    | _, isFalse h => isFalse fun h' => h h'.2
  | [], _ :: _ => isFalse id
  | _ :: _, [] => isFalse id

instance (s t : List Nat) : Decidable (BroadcastsTo s t) := by unfold BroadcastsTo; infer_instance

/-- Extent of a shape at position `k` counted from the right; missing axes count as extent 1. -/
def extentFromRight (s : List Nat) (k : Nat) : Nat := s.reverse.getD k 1

/-- Two shapes are compatible: right-aligned, every pair of extents is equal or contains a 1. -/
def Compatible (s t : List Nat) : Prop :=
  ∀ k, extentFromRight s k = extentFromRight t k ∨ extentFromRight s k = 1 ∨ extentFromRight t k = 1

/-- `r` is the joint broadcast shape of `s` and `t`: as many axes as the longer one, each with the extent
that is not 1. -/
def IsJoint (s t r : List Nat) : Prop :=
  r.length = max s.length t.length ∧
    ∀ k, extentFromRight r k = if extentFromRight s k = 1 then extentFromRight t k else extentFromRight s k

end Verif
