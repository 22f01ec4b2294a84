import Verif.Model.Basics
import Verif.Spec.Print

/-!
# Debug output

src/ndarray/print.rs (src/tensor/print.rs 4-8 forwards to it)

The formatter is a stream of tokens (`Spec/Print.lean`): the characters the library writes itself, and the values it passes
to `{:?}` of the element type. Simplifications: the values of the lazy `flatiter()` are computed beforehand
(they only depend on the array); errors of the underlying writer are not modelled.
-/

namespace Verif

variable {α : Type}

/-- `write!(f, "{:?}", iter.next().unwrap())` (print.rs 14, 21). -/
def fmtNext : List α → Res (List (Tok α) × List α)
  | [] => .error .panic
  | v :: it => .ok ([.val v], it)

/-- The loops `for i in 0..shape[0]` (print.rs 19-22 and 26-33): `sep i` is what is written before item `i`, `body`
writes an item; `n` more items, starting with number `i`. -/
def fmtItems (sep : Nat → List Char) (body : List α → Res (List (Tok α) × List α)) :
    Nat → Nat → List α → Res (List (Tok α) × List α)
  | 0, _, it => .ok ([], it)
  | n + 1, i, it => do
    let r ← body it
    let rest ← fmtItems sep body n (i + 1) r.2
    return ((sep i).map .chr ++ r.1 ++ rest.1, rest.2)

/-- `{:indent$}` of the empty string: that many spaces. -/
def spaces (n : Nat) : List Char := List.replicate n ' '

/-- src/ndarray/print.rs 9-36: `fmt_inner`; returns what is written and what is left of the iterator. -/
def fmtInner : List Nat → Nat → List α → Res (List (Tok α) × List α)
  | [], _, it => fmtNext it
  | [n], _, it => do
    let r ← fmtItems (fun i => if i > 0 then [',', ' '] else []) fmtNext n 0 it
    return ([.chr '['] ++ r.1 ++ [.chr ']'], r.2)
  | n :: m :: s, level, it => do
    let r ← fmtItems (fun i => if i > 0 then ',' :: spaces ((level + 1) * 2) else spaces ((level + 1) * 2))
      (fmtInner (m :: s) (level + 1)) n 0 it
    return ([.chr '['] ++ r.1 ++ (spaces (level * 2)).map .chr ++ [.chr ']'], r.2)

/-- src/ndarray/print.rs 8, 38: `fmt`. -/
def Arr.debugTokens (a : Arr α) : Res (List (Tok α)) := do
  let it ← a.flatiter
  let r ← fmtInner a.shape 0 it
  return r.1

/-- The printed text; `shw` is `{:?}` of the element type. -/
def Arr.debug (shw : α → List Char) (a : Arr α) : Res (List Char) := do
  let ts ← a.debugTokens
  return ts.flatMap (Tok.text shw)

end Verif
