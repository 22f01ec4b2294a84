import Verif.Model.Reduce

/-!
# `assert_almost_eq!`, `into_data_vector`

src/macros.rs 147-158, src/ndarray/methods.rs 60-70
-/

namespace Verif

variable {α : Type}

/-- src/macros.rs 147-153: `assert_almost_eq!(left, right, tol)`. `sub` is `-` of the element type (it can panic for
integers), `bot` is `min_value()`, `far x` is `(x as f64).abs() > tol`. `next().unwrap()` panics if there is no element,
`assert_eq!` unless `left == right`. (156 is the same with `tol = 1e-5`.) -/
def assertAlmostEq [BEq α] (sub : α → α → Res α) (dflt : α) (lt : α → α → Bool) (bot : α) (far : α → Bool) (left right : Arr α) :
    Res Unit := do
  let d ← left.binOp sub (portableKernels sub) dflt right
  let m ← d.max lt bot
  let xs ← m.flatiter
  match xs.head? with
  | none => throw .panic
  | some x =>
    if far x then
      let e ← left.eq right
      assert e

/-- src/ndarray/methods.rs 60-70: `into_data_vector`, the contents of the vector. `Vec::from_raw_parts(ptr, len, capacity)`
is undefined unless the pointer is the start of the allocation and `len <= capacity` (that `capacity` must be the
allocated one is in `Model/Ownership.lean`). -/
def Arr.intoDataVector (a : Arr α) : Res (List α) := do
  assert a.flags.owned
  assert a.isContiguous
  if a.off = 0 ∧ a.len ≤ a.cap then (List.range a.len).mapM a.read else throw .ub

end Verif
