import Verif.Model.Views

/-!
# View operations as data, for statements about arbitrary histories

Every constructor is one public operation modelled in `Model/Views.lean`; `run` just calls it.
-/

namespace Verif

/-- A public operation turning an array (or view) into a view. The `into*` forms consume the receiver. -/
inductive ViewOp where
  | view | squeeze
  | reshape (shape : List Nat)
  | unsqueeze (axis : Int)
  | transpose (axis1 axis2 : Int)
  | slice (ixs : List Indexer)
  | sliceAlong (axis : Int) (ix : Indexer)
  | broadcastTo (shape : List Nat)
  | diagonal (offset axis1 axis2 : Int)
  | intoView | intoSqueeze
  | intoReshape (shape : List Nat)
  | intoUnsqueeze (axis : Int)
  | intoTranspose (axis1 axis2 : Int)
  deriving DecidableEq, Repr

/-- Running an operation: the functions of `Model/Views.lean`. -/
def ViewOp.run (a : Arr α) : ViewOp → Res (Arr α)
  | .view => .ok a.view
  | .squeeze => .ok a.squeeze
  | .reshape s => a.reshape s
  | .unsqueeze ax => a.unsqueeze ax
  | .transpose ax1 ax2 => a.transpose ax1 ax2
  | .slice ixs => a.slice ixs
  | .sliceAlong ax ix => a.sliceAlong ax ix
  | .broadcastTo s => a.broadcastTo s
  | .diagonal o ax1 ax2 => a.offsetDiagonalAlong o ax1 ax2
  | .intoView => .ok a.intoView
  | .intoSqueeze => .ok a.intoSqueeze
  | .intoReshape s => a.intoReshape s
  | .intoUnsqueeze ax => a.intoUnsqueeze ax
  | .intoTranspose ax1 ax2 => a.intoTranspose ax1 ax2

/-- Running a list of operations one after the other. -/
def runOps (a : Arr α) : List ViewOp → Res (Arr α)
  | [] => .ok a
  | op :: ops => do
    let b ← op.run a
    runOps b ops

end Verif
