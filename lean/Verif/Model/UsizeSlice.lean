import Verif.Model.Usize

/-!
# Slices with machine `usize`

As in Model/Usize.lean, `usize` has `M` values. `[profile.release] overflow-checks = false` (Cargo.toml 36-37): release builds wrap around
where debug builds panic. The pointer of the view (`self.ptr.add(offset)`) is the position `a.off + offset`; whether that position exists
is checked by the model when an element is read.
-/

namespace Verif

variable {α : Type}

/-- `a - b` on `usize`. -/
def uSub (M : Nat) (checks : Bool) (a b : Nat) : Res Nat :=
  if b ≤ a then .ok (a - b) else if checks then .error .panic else .ok (a + M - b)

/-- src/util/index.rs 67-123: `indexed_length`. -/
def Indexer.indexedLengthU (M : Nat) (checks : Bool) : Indexer → Nat → Res Nat
  | .at _, _ => .ok 1
  | .range a b, _ => uSub M checks b a
  | .rangeFrom a, n => uSub M checks n a
  | .full, n => .ok n
  | .rangeIncl a b, _ => do
    let d ← uSub M checks b a
    uResult M checks (d + 1)
  | .rangeTo b, _ => .ok b
  | .rangeToIncl b, _ => uResult M checks (b + 1)

/-- src/ndarray/slice.rs 28-38: `calculate_strided_buffer_length`, from the running sum `acc` on. -/
def uBufferLength (M : Nat) (checks : Bool) : List Nat → List Nat → Nat → Res Nat
  | n :: s, d :: st, acc => do
    let m ← uSub M checks n 1
    let p ← uResult M checks (d * m)
    let acc' ← uResult M checks (acc + p)
    uBufferLength M checks s st acc'
  | _, _, acc => uResult M checks (acc + 1)

/-- The result of `slice` / `slice_along` once the layout is known (slice.rs 58-74, 105-120). -/
def Arr.sliceResultU (M : Nat) (checks : Bool) (a : Arr α) (shape stride : List Nat) (o : Nat) (capIsLen : Bool) : Res (Arr α) := do
  let len ← uBufferLength M checks shape stride 0
  let fl ← uUpdateFlags M checks a.flags shape stride
  return { buf := a.buf, off := a.off + o, len := len, cap := if capIsLen then len else 0, shape, stride,
           flags := { fl with owned := false, userCreated := false } }

/-- src/ndarray/slice.rs 42-75: `slice_along`. -/
def Arr.sliceAlongU (M : Nat) (checks : Bool) (a : Arr α) (axis : Int) (ix : Indexer) : Res (Arr α) := do
  let ax ← asAbsolute axis a.ndims
  match a.shape[ax]?, a.stride[ax]? with
  | some n, some d =>
    if ix.collapse then do
      let o ← uResult M checks (d * ix.first)
      a.sliceResultU M checks (a.shape.eraseIdx ax) (a.stride.eraseIdx ax) o true
    else do
      let len ← ix.indexedLengthU M checks n
      let o ← uResult M checks (d * ix.first)
      a.sliceResultU M checks (a.shape.set ax len) a.stride o true
  | _, _ => throw .panic

/-- The loops of `slice` (slice.rs 89-103) from the running offset `acc` on: new shape, new stride, offset. Too many indexers index
`self.shape` out of range and panic. -/
def sliceLoopU (M : Nat) (checks : Bool) : List Indexer → List Nat → List Nat → Nat → Res (List Nat × List Nat × Nat)
  | [], s, st, acc => .ok (s, st, acc)
  | ix :: ixs, n :: s, d :: st, acc => do
    let len ← ix.indexedLengthU M checks n
    let p ← uResult M checks (d * ix.first)
    let acc' ← uResult M checks (acc + p)
    let r ← sliceLoopU M checks ixs s st acc'
    if ix.collapse then return r else return (len :: r.1, d :: r.2.1, r.2.2)
  | _ :: _, _, _, _ => .error .panic

/-- src/ndarray/slice.rs 77-121: `slice`. -/
def Arr.sliceU (M : Nat) (checks : Bool) (a : Arr α) (ixs : List Indexer) : Res (Arr α) := do
  let r ← sliceLoopU M checks ixs a.shape a.stride 0
  a.sliceResultU M checks r.1 r.2.1 r.2.2 false

end Verif
