import Verif.Model.Reduce
import Verif.Model.Ranges

/-!
# Reductions with arithmetic that can fail

The loops of `Model/Reduce.lean` once more, with accumulator steps that can panic, for the integer types: `+`, `*` and
`abs` panic on overflow in a debug build and wrap around in a release build (Cargo.toml 37: `overflow-checks = false`).
`intResult checks lo hi` (`Model/Ranges.lean`) is one such result for a type with the values `lo..=hi`.
-/

namespace Verif

variable {α : Type}

/-- src/ops/reduce_sum.rs 20-30 (and the same loop in the other reduce_*.rs): `X_uniform_stride`. -/
def redUniformM (step : α → α → Res α) (stride : Nat) : Nat → List α → Nat → α → Res α
  | 0, _, _, acc => .ok acc
  | count + 1, buf, p, acc => do
    let v ← bufLoad buf p
    let acc' ← step v acc
    redUniformM step stride count buf (p + stride) acc'

/-- src/ops/reduce_sum.rs 42-56 (and the same code in the other reduce_*.rs): the dispatch `X(ptr, shape, stride)`. -/
def redKernelM (step : α → α → Res α) (init : α) (buf : List α) (p : Nat) (shape stride : List Nat) : Res α :=
  match hasUniformStride shape stride with
  | some d => if d = 1 then redUniformM step 1 (numel shape) buf p init else redUniformM step d (numel shape) buf p init
  | none => do
    let g ← FlatGen.mk' shape stride
    g.toList.foldlM (fun acc i => do
      let v ← bufLoad buf (p + i)
      step v acc) init

/-- Whole-array reduction, returning `NdArray::scalar(output)`. -/
def Arr.reduceAllM (step : α → α → Res α) (init : α) (a : Arr α) : Res (Arr α) := do
  let v ← redKernelM step init a.buf a.off a.shape a.stride
  Arr.scalar v

/-- src/ndarray/reduce.rs 87-93: the loop of `reduce_along`. -/
def reduceLoopM (func : α → α → Res α) : List α → FlatGen → List α → Res (List α)
  | [], _, out => .ok out
  | el :: els, g, out => match g.next with
    | none => .error .panic
    | some (i, g') => match out[i]? with
      | none => .error .oob
      | some acc => do
        let acc' ← func el acc
        reduceLoopM func els g' (out.set i acc')

/-- src/ndarray/reduce.rs 78-96: `reduce_along`. -/
def Arr.reduceAlongM (func : α → α → Res α) (a : Arr α) (axes : List Int) (init : α) : Res (Arr α) := do
  let r ← reducedShapeAndStride axes a.shape
  let c := collapseToUniformStride a.shape r.2
  let g ← FlatGen.mk' c.1 c.2
  let els ← a.flatiter
  let out ← reduceLoopM func els g (List.replicate (numel r.1) init)
  return Arr.fromContiguousOwnedBuffer r.1 out

/-! ### integer reductions -/

/-- `acc + val` of the type `lo..=hi`. -/
def addStep (checks : Bool) (lo hi : Int) (v acc : Int) : Res Int := intResult checks lo hi (acc + v)
/-- `acc * val`. -/
def mulStep (checks : Bool) (lo hi : Int) (v acc : Int) : Res Int := intResult checks lo hi (acc * v)

/-- src/util/absolute.rs: `abs`; `num::Signed::abs` for signed integers is `-x` for negative `x`, the identity for unsigned ones. -/
def absInt (checks : Bool) (lo hi : Int) (x : Int) : Res Int := if x < 0 then intResult checks lo hi (-x) else .ok x

/-- src/util/partial_ord.rs 11-14: `partial_min_magnitude`. -/
def minMagStep (checks : Bool) (lo hi : Int) (v acc : Int) : Res Int := do
  let v' ← absInt checks lo hi v
  return if decide (acc < v') then acc else v'
/-- src/util/partial_ord.rs 16-19: `partial_max_magnitude`. -/
def maxMagStep (checks : Bool) (lo hi : Int) (v acc : Int) : Res Int := do
  let v' ← absInt checks lo hi v
  return if decide (v' < acc) then acc else v'

/-- src/ndarray/reduce.rs 124-127: `sum` of integers. -/
def Arr.sumInt (checks : Bool) (lo hi : Int) (a : Arr Int) : Res (Arr Int) := a.reduceAllM (addStep checks lo hi) 0
/-- src/ndarray/reduce.rs 143-146: `product` of integers. -/
def Arr.productInt (checks : Bool) (lo hi : Int) (a : Arr Int) : Res (Arr Int) := a.reduceAllM (mulStep checks lo hi) 1
/-- src/ndarray/reduce.rs 200-203: `min_magnitude` of integers; starts from `max_value()`. -/
def Arr.minMagnitudeInt (checks : Bool) (lo hi : Int) (a : Arr Int) : Res (Arr Int) := a.reduceAllM (minMagStep checks lo hi) hi
/-- src/ndarray/reduce.rs 219-222: `max_magnitude` of integers; starts from `min_value()`. -/
def Arr.maxMagnitudeInt (checks : Bool) (lo hi : Int) (a : Arr Int) : Res (Arr Int) := a.reduceAllM (maxMagStep checks lo hi) lo
/-- src/ndarray/reduce.rs 129-131: `sum_along` of integers. -/
def Arr.sumAlongInt (checks : Bool) (lo hi : Int) (a : Arr Int) (axes : List Int) : Res (Arr Int) :=
  a.reduceAlongM (addStep checks lo hi) axes 0
/-- src/ndarray/reduce.rs 148-150: `product_along` of integers. -/
def Arr.productAlongInt (checks : Bool) (lo hi : Int) (a : Arr Int) (axes : List Int) : Res (Arr Int) :=
  a.reduceAlongM (mulStep checks lo hi) axes 1

end Verif
