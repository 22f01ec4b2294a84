import Verif.Model.Ownership

/-! # Vocabulary for the ownership properties -/

namespace Verif.Own

/-- The program holds value `v` under the name `i`. -/
def State.Has (s : State) (i : Nat) (v : Val) : Prop := s.vals[i]? = some (some v)

/-- Block `p` exists and has not been freed. -/
def State.Live (s : State) (p : Nat) : Prop := ∃ b, s.blocks[p]? = some b ∧ b.live = true

/-- The names an operation reads elements through. -/
def Op.reads : Op → List Nat
  | .make args _ _ => args
  | .use x => [x]
  | _ => []

/-- The value named `x` is not tied to a borrow. -/
def State.Untied (s : State) (x : Nat) : Prop := ∀ v, s.Has x v → v.lender = none

/-- If `x` is a slice, the array it was taken from is still held. -/
def State.SourceHeld (s : State) (x : Nat) : Prop :=
  ∀ v y, s.Has x v → v.kind = .slice → v.src = some y → ∃ u, s.Has y u

/-- The discipline under which nothing is used after being freed: only arrays that borrow from nobody are
reshaped by value, and a slice is used only while its array is held. -/
def State.Tame (s : State) (o : Op) : Prop :=
  (∀ x c, o = .consume x c → s.Untied x) ∧ ∀ x ∈ o.reads, s.SourceHeld x

/-- `P` holds of every operation of the history, in the state it is executed in. -/
def State.Along (P : State → Op → Prop) : State → List Op → Prop
  | _, [] => True
  | s, o :: os => P s o ∧ ∀ s', s.step o = .ok s' → Along P s' os

end Verif.Own
