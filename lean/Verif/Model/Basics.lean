import Verif.Model.Views

/-!
# Constructors, copies, comparison, conversion, fill

src/common/constructors.rs, src/ndarray/clone.rs, reshape.rs (flatten), equals.rs, astype.rs, fill.rs,
src/ops/fill.rs
-/

namespace Verif

/-! ### constructors -/

/-- src/common/constructors.rs 69-76: `full`. -/
def Arr.full (v : α) (shape : List Nat) : Res (Arr α) := do
  let data := List.replicate (numel shape) v
  assert (!data.isEmpty)
  return Arr.fromContiguousOwnedBuffer shape data

/-- src/common/constructors.rs 93-98: `zeros`. -/
def Arr.zeros [Zero α] (shape : List Nat) : Res (Arr α) := Arr.full 0 shape
/-- src/common/constructors.rs 115-120: `ones`. -/
def Arr.ones [One α] (shape : List Nat) : Res (Arr α) := Arr.full 1 shape
/-- src/common/constructors.rs 135-137: `scalar`. -/
def Arr.scalar (v : α) : Res (Arr α) := Arr.full v []

/-! ### clone, flatten -/

/-- `copy_nonoverlapping(src.add(i), dst, n)`, the values copied. -/
def Arr.readRun (a : Arr α) (i n : Nat) : Res (List α) := (List.range n).mapM fun k => a.read (i + k)

/-- src/ndarray/clone.rs 21-27: `clone_data_contiguous`. -/
def Arr.cloneDataContiguous (a : Arr α) : Res (List α) := a.readRun 0 a.len

/-- src/ndarray/clone.rs 30-64: `clone_data_non_contiguous`. `set_len(size)` claims `size` initialised
elements; copying a different number of elements is undefined behaviour. -/
def Arr.cloneDataNonContiguous (a : Arr α) : Res (List α) := do
  let size := a.size
  let (shape, stride) := collapseToUniformStride a.shape a.stride
  match stride.getLast? with
  | none => throw .panic
  | some d =>
    let run := if d = 1 then shape.getLastD 0 else 1
    let shape' := if d = 1 then shape.dropLast else shape
    let stride' := if d = 1 then stride.dropLast else stride
    let g ← FlatGen.mk' shape' stride'
    let runs ← g.toList.mapM fun i => a.readRun i run
    let data := runs.flatten
    if data.length = size then return data else throw .ub

/-- src/ndarray/clone.rs 13-18: `clone_data`. -/
def Arr.cloneData (a : Arr α) : Res (List α) :=
  if a.isContiguous then a.cloneDataContiguous else a.cloneDataNonContiguous

/-- src/ndarray/clone.rs 9-11: `clone`. -/
def Arr.clone (a : Arr α) : Res (Arr α) := do
  let data ← a.cloneData
  return Arr.fromContiguousOwnedBuffer a.shape data

/-- src/ndarray/reshape.rs 21-25: `flatten`. -/
def Arr.flatten (a : Arr α) : Res (Arr α) := do
  let data ← a.cloneData
  return Arr.fromContiguousOwnedBuffer [a.size] data

/-! ### equality -/

/-- src/ndarray/equals.rs 11-18 (20-27, 4-9 are the same), and src/tensor/equals.rs 3-31, which compares the arrays of tensors: `==`. The iterators are zipped lazily in the
code; both are run to the end here (they read only their own elements). -/
def Arr.eq [BEq α] (a b : Arr α) : Res Bool :=
  if a.shape ≠ b.shape then .ok false
  else do
    let xs ← a.flatiter
    let ys ← b.flatiter
    return (xs.zip ys).all fun p => p.1 == p.2

/-! ### conversion -/

/-- `NumCast::from(x).unwrap()` (src/ndarray/astype.rs 12). -/
def castOne (cast : α → Option β) (x : α) : Res β := match cast x with
  | some y => .ok y
  | none => .error .panic

/-- src/ndarray/astype.rs 7-16: `astype`. `cast` is `NumCast::from` (`None` if not representable); the
vector of `size` default values is overwritten element by element (zip stops at the shorter). -/
def Arr.astype (cast : α → Option β) (dflt : β) (a : Arr α) : Res (Arr β) := do
  let xs ← a.flatiter
  let ys ← (xs.take a.size).mapM (castOne cast)
  return Arr.fromContiguousOwnedBuffer a.shape (ys ++ List.replicate (a.size - ys.length) dflt)

/-! ### fill -/

/-- `*ptr = v` in one buffer. -/
def bufStore (b : List α) (i : Nat) (v : α) : Res (List α) := if i < b.length then .ok (b.set i v) else .error .oob

/-- src/ops/fill.rs 27-32: `fill_uniform_stride` (`p` is the position of the pointer in the buffer `b`). -/
def fillUniformStride : (count : Nat) → (b : List α) → (p stride : Nat) → (v : α) → Res (List α)
  | 0, b, _, _, _ => .ok b
  | count + 1, b, p, stride, v => do
    let b ← bufStore b p v
    fillUniformStride count b (p + stride) stride v

/-- src/ops/fill.rs 13-15: `fill_contiguous`. -/
def fillContiguous (count : Nat) (b : List α) (p : Nat) (v : α) : Res (List α) := fillUniformStride count b p 1 v

/-- The `for _ in 0..shape[0]` loop of `fill` (fill.rs 54-59): `body` at `p`, `p + step`, ... -/
def fillLoop (body : List α → Nat → Res (List α)) (step : Nat) : Nat → List α → Nat → Res (List α)
  | 0, b, _ => .ok b
  | k + 1, b, p => do
    let b ← body b p
    fillLoop body step k b (p + step)

/-- src/ops/fill.rs 45-60: `Fill::fill`. In the `None` case the layout has at least two axes (otherwise
`has_uniform_stride` returns `Some`), so `shape[1]`, `stride[1]` exist. -/
def fillPtr : (shape stride : List Nat) → (len : Nat) → (v : α) → (b : List α) → (p : Nat) → Res (List α)
  | n :: s, d :: st, len, v, b, p =>
    match hasUniformStride (n :: s) (d :: st) with
    | some e => if e = 1 then fillContiguous len b p v else fillUniformStride (numel (n :: s)) b p e v
    | none => fillLoop (fun b p => fillPtr s st (s.headD 0 * st.headD 0) v b p) d n b p
  | s, st, len, v, b, p =>
    match hasUniformStride s st with
    | some e => if e = 1 then fillContiguous len b p v else fillUniformStride (numel s) b p e v
    | none => .error .panic

/-- src/ndarray/fill.rs 18-20: `fill` (returns the new contents of the buffer). -/
def Arr.fill (a : Arr α) (v : α) : Res (List α) := fillPtr a.shape a.stride a.len v a.buf a.off

/-- src/ndarray/fill.rs 35-37: `zero`. -/
def Arr.zero [Zero α] (a : Arr α) : Res (List α) := a.fill 0

end Verif
