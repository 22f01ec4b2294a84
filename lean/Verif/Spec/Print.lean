import Verif.Spec.Tensor

/-!
# Specification vocabulary: nested bracket text
-/

namespace Verif

variable {α : Type}

/-- A piece of formatted text: a character of the notation, or the place where a value is shown. -/
inductive Tok (α : Type) where
  | chr (c : Char)
  | val (v : α)
  deriving DecidableEq, Repr

/-- The characters of a piece, for a way `shw` of showing values. -/
def Tok.text (shw : α → List Char) : Tok α → List Char
  | .chr c => [c]
  | .val v => shw v

/-- The values shown, from left to right. -/
def shown : List (Tok α) → List α
  | [] => []
  | .chr _ :: ts => shown ts
  | .val v :: ts => v :: shown ts

/-- Reading a text from left to right starting inside `d` open brackets: the number of brackets open around each value, and
the number open at the end. `none` if a bracket is closed that was not opened. -/
def nesting : Nat → List (Tok α) → Option (List Nat × Nat)
  | d, [] => some ([], d)
  | d, .val _ :: ts => (nesting d ts).map fun r => (d :: r.1, r.2)
  | d, .chr c :: ts =>
    if c = '[' then nesting (d + 1) ts
    else if c = ']' then (if d = 0 then none else nesting (d - 1) ts)
    else nesting d ts

/-- The characters that may stand between values. -/
def isSep (c : Char) : Bool := c = '[' || c = ']' || c = ',' || c = ' '

/-- The maximal runs of non-separators of a text (first: the run the text starts with, possibly empty). -/
def runs : List Char → List Char × List (List Char)
  | [] => ([], [])
  | c :: cs =>
    let r := runs cs
    if isSep c then ([], if r.1 = [] then r.2 else r.1 :: r.2) else (c :: r.1, r.2)

/-- The words of a text: its maximal non-empty runs of non-separators, from left to right. -/
def words (cs : List Char) : List (List Char) :=
  let r := runs cs
  if r.1 = [] then r.2 else r.1 :: r.2

/-- The nested bracket rendering of a tensor, without spaces: a scalar is shown as its value, a higher-rank tensor as the
comma-separated list, in brackets, of the renderings of its sub-tensors along the first axis. -/
def nested : List Nat → (List Nat → α) → List (Tok α)
  | [], f => [.val (f [])]
  | n :: s, f =>
    [.chr '['] ++ List.intercalate [.chr ','] ((List.range n).map fun i => nested s fun idx => f (i :: idx)) ++ [.chr ']']

/-- Not a space. -/
def Tok.notSpace : Tok α → Bool
  | .chr c => c != ' '
  | .val _ => true

end Verif
