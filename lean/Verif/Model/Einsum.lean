import Verif.Model.SumOfProducts

/-!
# einsum

src/linalg/einsum.rs, src/linalg/specialized_einsum.rs, src/ndarray/iterator/multi_flat_index_generator.rs

Subscript strings are lists of characters; the byte values used as labels are the character codes. The
`[u32; 128]` / `[usize; 128]` tables indexed by byte value are functions. `i8` label values are integers
(they stay within -31..127).
-/

namespace Verif

variable {α : Type}

/-! ### parsing -/

/-- The tables threaded through the parsing of all operands (`label_counts`, `label_dims`). -/
structure Tables where
  counts : Nat → Nat
  dims : Nat → Nat

/-- The zero tables. -/
def Tables.empty : Tables := ⟨fun _ => 0, fun _ => 0⟩

/-- `table[i] = v`. -/
def setFn {β : Type} (f : Nat → β) (i : Nat) (v : β) : Nat → β := fun j => if j = i then v else f j

/-- Local state of the loop of `parse_operand_subscripts`: `result`, `first_occurrence` (`none` is the
sentinel), whether an ellipsis was found, `check_ellipsis`. -/
structure ParseState where
  labels : List Int
  tables : Tables
  first : Nat → Option Nat
  ellipsis : Bool
  check : Bool

/-- `arr[i] = v` with bounds check. -/
def setChecked {β : Type} (l : List β) (i : Nat) (v : β) : Res (List β) :=
  if i < l.length then .ok (l.set i v) else .error .panic

/-- `arr[i]` with bounds check. -/
def getChecked {β : Type} (l : List β) (i : Nat) : Res β := match l[i]? with
  | some v => .ok v
  | none => .error .panic

/-- `for j in i..i + n { result[j] = 0 }` (einsum.rs 86-88, 145-147). -/
def zeroRange (l : List Int) (i : Nat) : Nat → Res (List Int)
  | 0 => .ok l
  | n + 1 => do
    let l' ← setChecked l i 0
    zeroRange l' (i + 1) n

/-- einsum.rs 65-71: writes the label of an axis: the byte on its first occurrence, the offset to the first
occurrence otherwise. -/
def placeLabel (labels : List Int) (first : Nat → Option Nat) (l i axis : Nat) :
    Res (List Int × (Nat → Option Nat)) :=
  match first l with
  | none => do
    let r ← setChecked labels axis (l : Int)
    return (r, setFn first l (some i))
  | some f => do
    let r ← setChecked labels axis ((f : Int) - axis)
    return (r, first)

/-- einsum.rs 74-78: records or compares the extent of a label that has been seen `count` times. -/
def recordDim (dims : Nat → Nat) (l count n : Nat) : Res (Nat → Nat) :=
  if count = 1 then .ok (setFn dims l n) else if dims l ≠ n then .error .panic else .ok dims

/-- Body of the loop of `parse_operand_subscripts` (einsum.rs 50-92) for character `c` at position `i`. -/
def parseStep (shape : List Nat) (bd i : Nat) (c : Char) (st : ParseState) : Res ParseState :=
  if st.check then
    if c ≠ '.' then .error .panic else .ok { st with check := false }
  else if c.isAlpha then do
    let l := c.toNat
    let axis := if st.ellipsis then (i - 2) + bd else i
    assert (decide (axis < shape.length))
    let r ← placeLabel st.labels st.first l i axis
    let count := st.tables.counts l + 1
    let n ← getChecked shape i
    let dims ← recordDim st.tables.dims l count n
    return { st with labels := r.1, first := r.2, tables := ⟨setFn st.tables.counts l count, dims⟩ }
  else if c = '.' then do
    if st.ellipsis then .error .panic
    else
      let labels ← zeroRange st.labels i bd
      pure { st with labels, check := true, ellipsis := true }
  else if c ≠ ' ' then .error .panic
  else .ok st

/-- The loop of `parse_operand_subscripts`. -/
def parseLoop (shape : List Nat) (bd : Nat) : Nat → List Char → ParseState → Res ParseState
  | _, [], st => .ok st
  | i, c :: cs, st => do
    let st' ← parseStep shape bd i c st
    parseLoop shape bd (i + 1) cs st'

/-- src/linalg/einsum.rs 27-101: `parse_operand_subscripts`; returns the labels, the updated tables and
`broadcast_dims`. Only the operand's shape matters. -/
def parseOperand (subs : List Char) (shape : List Nat) (t : Tables) : Res (List Int × Tables × Nat) := do
  assert (subs.all fun c => decide (c.toNat < 128))
  let alnum := (subs.filter Char.isAlphanum).length
  assert (decide (alnum ≤ shape.length))
  let bd := shape.length - alnum
  let st ← parseLoop shape bd 0 subs
    { labels := List.replicate maxDims 0, tables := t, first := fun _ => none, ellipsis := false, check := false }
  assert (!st.check)
  assert (st.ellipsis || decide (bd = 0))
  return (st.labels, st.tables, bd)

/-- Loop of `parse_output_subscripts` (einsum.rs 119-157); `labels`, `found_ellipsis`, `check_ellipsis`. -/
def parseOutLoop (bd : Nat) (counts : Nat → Nat) : Nat → List Char → List Int → Bool → Bool → Res (List Int × Bool)
  | _, [], labels, found, _ => .ok (labels, found)
  | i, c :: cs, labels, found, check =>
    if check then
      if c ≠ '.' then .error .panic else parseOutLoop bd counts (i + 1) cs labels found false
    else if c.isAlpha then do
      assert (decide (counts c.toNat ≠ 0))
      assert (!cs.contains c)
      let axis := if found then (i - 2) + bd else i
      let labels' ← setChecked labels axis (c.toNat : Int)
      parseOutLoop bd counts (i + 1) cs labels' found false
    else if c = '.' then do
      if found then .error .panic
      else do
        assert (decide (i + bd ≤ maxDims))
        let labels' ← zeroRange labels i bd
        parseOutLoop bd counts (i + 1) cs labels' true true
    else if c ≠ ' ' then .error .panic
    else parseOutLoop bd counts (i + 1) cs labels found check

/-- src/linalg/einsum.rs 107-162: `parse_output_subscripts`; returns the labels and the number of output
axes. -/
def parseOutput (subs : List Char) (bd : Nat) (counts : Nat → Nat) : Res (List Int × Nat) := do
  assert (subs.all fun c => decide (c.toNat < 128))
  let (labels, found) ← parseOutLoop bd counts 0 subs (List.replicate maxDims 0) false false
  if found then
    let n ← usub subs.length 2
    return (labels, n + bd)
  else return (labels, subs.length)

/-- `labels[idim]`, following a negative (relative) label (einsum.rs 173-176, 268-269). -/
def resolveLabel (labels : List Int) (i : Nat) : Res Int := do
  let l ← getChecked labels i
  if l < 0 then getChecked labels ((i : Int) + l).toNat else pure l

/-- `output_labels.iter().position(|&val| val == label)`. -/
def position (l : List Int) (x : Int) : Option Nat := l.findIdx? (· == x)

/-- Loop of `reshape_shape_and_stride_for_einsum` (einsum.rs 172-189) from axis `i` on. -/
def viewLoop (labels : List Int) (out : List Int) : Nat → List Nat → List Nat → List Nat → List Nat →
    Res (Option (List Nat × List Nat))
  | i, n :: shape, d :: stride, newShape, newStride => do
    let l ← resolveLabel labels i
    if l = 0 then .error .panic
    else match position out l with
      | none => pure none
      | some j => viewLoop labels out (i + 1) shape stride (newShape.set j n) (newStride.modify j (· + d))
  | _, _, _, newShape, newStride => .ok (some (newShape, newStride))

/-- src/linalg/einsum.rs 165-192: `reshape_shape_and_stride_for_einsum`; returns (shape, stride). -/
def viewLayout (shape stride : List Nat) (labels : List Int) (outDims : Nat) (out : List Int) :
    Res (Option (List Nat × List Nat)) :=
  viewLoop labels out 0 shape stride (List.replicate outDims 0) (List.replicate outDims 0)

/-- src/linalg/einsum.rs 280-297: `einsum_view` (with `try_reshape_for_einsum` 194-204). -/
def Arr.einsumView (a : Arr α) (subs out : List Char) : Res (Option (Arr α)) := do
  let (labels, t, bd) ← parseOperand subs a.shape Tables.empty
  let (outLabels, outDims) ← parseOutput out bd t.counts
  assert (decide (outDims ≤ maxDims))
  let r ← viewLayout a.shape a.stride labels outDims (outLabels.take outDims)
  return r.map fun (shape, stride) => a.reshapedView shape stride

/-! ### preparing the iteration -/

/-- First loop of `reshape_operand_for_einsum` (einsum.rs 222-241) from axis `axis` on. `cmap` is
`icombinemap` filled so far, `none` standing for the marker `MAX_DIMS + 1`; `shape'`, `stride'` are the new
shape and stride so far. -/
def combineLoop (labels : List Int) : Nat → List Nat → List Nat → List (Option Nat) → List Nat → List Nat →
    Res (List (Option Nat) × List Nat × List Nat)
  | axis, n :: shape, d :: stride, cmap, shape', stride' => do
    let l ← getChecked labels axis
    if 0 ≤ l then
      combineLoop labels (axis + 1) shape stride (cmap ++ [some shape'.length]) (shape' ++ [n]) (stride' ++ [d])
    else
      match cmap[((axis : Int) + l).toNat]? with
      | some (some i) => do
        let m ← getChecked shape' i
        if m ≠ n then .error .panic
        else combineLoop labels (axis + 1) shape stride (cmap ++ [none]) shape' (stride'.modify i (· + d))
      | _ => .error .panic
  | _, _, _, cmap, shape', stride' => .ok (cmap, shape', stride')

/-- Second loop of `reshape_operand_for_einsum` (einsum.rs 243-248). -/
def relabelLoop : Nat → List (Option Nat) → List Int → Res (List Int)
  | _, [], labels => .ok labels
  | axis, none :: cmap, labels => relabelLoop (axis + 1) cmap labels
  | axis, some i :: cmap, labels => do
    let l ← getChecked labels axis
    let labels' ← setChecked labels i l
    relabelLoop (axis + 1) cmap labels'

/-- src/linalg/einsum.rs 210-252: `reshape_operand_for_einsum`; returns the new shape and stride of the
operand (the data pointer is unchanged) and the new labels. -/
def combineOperand (shape stride : List Nat) (labels : List Int) : Res (List Nat × List Nat × List Int) :=
  if labels.all (fun v => decide (0 ≤ v)) then .ok (shape, stride, labels)
  else do
    let (cmap, shape', stride') ← combineLoop labels 0 shape stride [] [] []
    let labels' ← relabelLoop 0 cmap labels
    return (shape', stride', labels')

/-- Inner loop of `operand_stride_for_einsum` (einsum.rs 263-274): the sum of the strides of the axes
labelled `label`, from axis `i` on. -/
def labelStride (labels : List Int) (label : Int) : Nat → List Nat → Nat → Res Nat
  | _, [], acc => .ok acc
  | i, d :: stride, acc => do
    let l ← resolveLabel labels i
    labelStride labels label (i + 1) stride (if label = l then acc + d else acc)

/-- src/linalg/einsum.rs 255-278: `operand_stride_for_einsum`. -/
def operandStride (stride : List Nat) (labels iterLabels : List Int) : Res (List Nat) :=
  iterLabels.mapM fun label => if label = 0 then .error .panic else labelStride labels label 0 stride 0

/-- Loop of `prepare_einsum` over the subscripts and operands (einsum.rs 327-331). The two lists are zipped:
surplus subscripts are ignored, operands without subscript keep the all-zero labels. Returns the labels of
all operands, the tables and `max_broadcast_dims`. -/
def parseOperands : List (List Char) → List (List Nat) → Tables → Nat → Res (List (List Int) × Tables × Nat)
  | s :: subs, shape :: shapes, t, bd => do
    let (l, t', bd') ← parseOperand s shape t
    let (ls, t'', bd'') ← parseOperands subs shapes t' (max bd bd')
    return (l :: ls, t'', bd'')
  | [], shapes, t, bd => .ok (shapes.map fun _ => List.replicate maxDims 0, t, bd)
  | _, [], t, bd => .ok ([], t, bd)

/-- The labels 0..127 that occur in the inputs but not in the output, in ascending order (einsum.rs 365-380). -/
def sumLabels (counts : Nat → Nat) (out : List Int) : List Nat :=
  (List.range 128).filter fun l => decide (counts l ≠ 0) && !out.contains (l : Int)

/-- Comparison of two axes (multi_flat_index_generator.rs 39-51): the final `(ambiguous, should_swap)`.
`s0`, `s1` are the strides of the two axes for the operands still to be looked at. -/
def axisCompare : List Nat → List Nat → Bool × Bool → Bool × Bool
  | a :: s0, b :: s1, (ambiguous, swap) =>
    if a ≠ 0 ∧ b ≠ 0 then
      axisCompare s0 s1 (false, if b ≤ a then false else if ambiguous then true else swap)
    else axisCompare s0 s1 (ambiguous, swap)
  | _, _, r => r

/-- Loop over `ax_i1` (multi_flat_index_generator.rs 35-60), from position `i1 - 1` down; `ipos` is
`ax_ipos`. -/
def findPos (strides : List (List Nat)) (order : List Nat) (s0 : List Nat) : Nat → Nat → Nat
  | 0, ipos => ipos
  | i1 + 1, ipos =>
    let r := axisCompare s0 (strides.getD (order.getD i1 0) []) (true, false)
    if r.1 then findPos strides order s0 i1 ipos
    else if r.2 then findPos strides order s0 i1 i1
    else ipos

/-- `for ax_i1 in ((ax_ipos + 1)..=ax_i0).rev() { order[ax_i1] = order[ax_i1 - 1] }` (63-65). -/
def shiftLoop (ipos : Nat) : Nat → List Nat → List Nat
  | 0, order => order
  | i + 1, order => if ipos ≤ i then shiftLoop ipos i (order.set (i + 1) (order.getD i 0)) else order

/-- Body of the outer loop (multi_flat_index_generator.rs 30-69) for `ax_i0`; the flag is `permuted`. -/
def orderStep (strides : List (List Nat)) (i0 : Nat) (r : List Nat × Bool) : List Nat × Bool :=
  let j0 := r.1.getD i0 0
  let ipos := findPos strides r.1 (strides.getD j0 []) i0 i0
  if ipos ≠ i0 then ((shiftLoop ipos i0 r.1).set ipos j0, true) else r

/-- src/ndarray/iterator/multi_flat_index_generator.rs 20-75: `find_best_axis_ordering`. `strides` has one
row per axis, each with one entry per operand. -/
def findBestAxisOrdering (ndims : Nat) (strides : List (List Nat)) : Res (Option (List Nat)) := do
  assert (decide (ndims ≤ maxDims))
  let r := (List.range' 1 (ndims - 1)).foldl (fun r i0 => orderStep strides i0 r) (List.range ndims, false)
  return if r.2 then some r.1 else none

/-- src/util/functions.rs 14-21: `permute_array`. -/
def permuteArray {β : Type} (arr : List β) (perm : List Nat) : Res (List β) := do
  assert (decide (arr.length = perm.length))
  perm.mapM fun i => getChecked arr i

/-- What `prepare_einsum` computes. `strides` has one row per iteration axis: the strides of the operands,
then that of the output. -/
structure EinsumPlan where
  strides : List (List Nat)
  iterShape : List Nat
  outShape : List Nat
  deriving DecidableEq, Repr

/-- The rows of the transposed stride table (einsum.rs 387-395): entry `j` of every operand's stride list,
then of the output's (which is padded with zeros). -/
def strideRows (n : Nat) (opStrides : List (List Nat)) (outStride : List Nat) : List (List Nat) :=
  (List.range n).map fun j => opStrides.map (·.getD j 0) ++ [outStride.getD j 0]

/-- The test for the warning that a view would have been possible (einsum.rs 342-351), evaluated because it
can panic. The warning itself goes to stderr and is dropped. -/
def warnCheck (ops : List (Arr α)) (labels : List (List Int)) (outDims : Nat) (outLabels : List Int) :
    Res (Option (List Nat × List Nat)) :=
  match ops, labels with
  | [a], [l] => viewLayout a.shape a.stride l outDims outLabels
  | _, _ => .ok none

/-- The end of `prepare_einsum` (einsum.rs 396-400): reorder the axes. -/
def reorderPlan (strides : List (List Nat)) (iterShape outShape : List Nat) : Res EinsumPlan := do
  match ← findBestAxisOrdering iterShape.length strides with
  | none => return ⟨strides, iterShape, outShape⟩
  | some order => do
    let strides' ← permuteArray strides order
    let iterShape' ← permuteArray iterShape order
    return ⟨strides', iterShape', outShape⟩

/-- The middle of `prepare_einsum` (einsum.rs 353-395): combine repeated labels, collect the summed labels and
build the stride table. `outLabels` are the labels of the output axes. -/
def buildPlan (ops : List (Arr α)) (labels : List (List Int)) (t : Tables) (outLabels : List Int) :
    Res EinsumPlan := do
  let combined ← (ops.zip labels).mapM fun p => combineOperand p.1.shape p.1.stride p.2
  let outShape := outLabels.map fun l => t.dims l.toNat
  let rest := sumLabels t.counts outLabels
  assert (decide (outLabels.length + rest.length ≤ maxDims))
  let iterLabels := outLabels ++ rest.map Int.ofNat
  let opStrides ← combined.mapM fun p => operandStride p.2.1 p.2.2 iterLabels
  reorderPlan (strideRows iterLabels.length opStrides (strideFromShape outShape)) (outShape ++ rest.map t.dims) outShape

/-- src/linalg/einsum.rs 299-400: `prepare_einsum`. -/
def prepareEinsum (ops : List (Arr α)) (subs : List (List Char)) (out : List Char) : Res EinsumPlan := do
  assert (decide (ops.length < maxArgs))
  let p ← parseOperands subs (ops.map (·.shape)) Tables.empty 0
  let o ← parseOutput out p.2.2 p.2.1.counts
  assert (decide (o.2 ≤ maxDims))
  let _ ← warnCheck ops p.1 o.2 (o.1.take o.2)
  buildPlan ops p.1 p.2.1 (o.1.take o.2)

/-! ### the loops -/

/-- `base_ptrs[i].add(index)` for all operands. -/
def shiftOps (ops : List (Src α)) (d : List Nat) : List (Src α) := List.zipWith (fun o i => (o.1, o.2 + i)) ops d

/-- src/ndarray/iterator/multi_flat_index_generator.rs 5-17: `struct MultiFlatIndexGenerator`. `indices`
counts down. -/
structure MultiGen where
  shape : List Nat
  strides : List (List Nat)
  indices : List Nat
  flat : List Nat
  deriving DecidableEq, Repr

/-- src/ndarray/iterator/multi_flat_index_generator.rs 77-108: `from`. -/
def MultiGen.from (nops : Nat) (shape : List Nat) (strides : List (List Nat)) : Res MultiGen := do
  assert (decide (strides.length = shape.length))
  assert (decide (nops ≤ maxArgs))
  assert (decide (shape.length ≤ maxDims))
  return { shape, strides, indices := shape, flat := List.replicate nops 0 }

/-- `flat_indices[i] -= strides[i] * (dimension - 1)` for all operands (136-138). -/
def subAll : List Nat → List Nat → Res (List Nat)
  | a :: as, b :: bs => do
    let c ← usub a b
    let cs ← subAll as bs
    return c :: cs
  | _, _ => .ok []

/-- The `while idim != 0` loop of `increment_flat_indices` (120-141), last axis first; the flag is `true`
while the loop has not returned. -/
def multiAdvance : List Nat → List Nat → List (List Nat) → List Nat → Res (List Nat × List Nat × Bool)
  | i :: idx, n :: shape, s :: strides, flat => do
    let (idx', flat', carry) ← multiAdvance idx shape strides flat
    if carry then
      let i' ← usub i 1
      if i' ≠ 0 then pure (i' :: idx', List.zipWith (· + ·) flat' s, false)
      else
        let flat'' ← subAll flat' (s.map (· * (n - 1)))
        pure (n :: idx', flat'', true)
    else pure (i :: idx', flat', false)
  | _, _, _, flat => .ok ([], flat, true)

/-- src/ndarray/iterator/multi_flat_index_generator.rs 117-142: `increment_flat_indices`. -/
def MultiGen.increment (g : MultiGen) : Res MultiGen := do
  let r ← multiAdvance g.indices g.shape g.strides g.flat
  return { g with indices := r.1, flat := r.2.1 }

/-- The loop of `unspecialized_einsum_loop` (specialized_einsum.rs 32-42). -/
def einsumLoop (kernel : SopKernel α) (ops : List (Src α)) (inner : List Nat) (count q : Nat) :
    Nat → MultiGen → List α → Res (List α)
  | 0, _, dst => .ok dst
  | k + 1, g, dst => do
    let dst' ← kernel (shiftOps ops g.flat) inner count dst (q + g.flat.getD ops.length 0)
    let g' ← g.increment
    einsumLoop kernel ops inner count q k g' dst'

/-- src/linalg/specialized_einsum.rs 8-43: `unspecialized_einsum_loop`; `strides[0]` panics when there is no
iteration axis. -/
def einsumUnspecialized [Mul α] [One α] [Add α] [Zero α] (ops : List (Src α)) (plan : EinsumPlan)
    (dst : List α) (q : Nat) : Res (List α) :=
  match plan.iterShape, plan.strides with
  | n :: shape, inner :: strides => do
    let g ← MultiGen.from (ops.length + 1) shape strides
    einsumLoop (getSopGeneric inner) ops inner n q (numel shape) g dst
  | _, _ => .error .panic

/-- src/linalg/specialized_einsum.rs 88-112 and 142-165: `einsum_1operand_2labels`,
`einsum_2operands_2labels`. -/
def einsum2labels [Mul α] [One α] [Add α] [Zero α] (K : SopKernels α) (ops : List (Src α)) (s0 s1 : List Nat)
    (n0 n1 : Nat) (dst : List α) (q : Nat) : Res (List α) := do
  assume (decide (0 < n0))
  assume (decide (0 < n1))
  (List.range n1).foldlM (fun dst i =>
    getSop K s0 (shiftOps ops (s1.map (i * ·))) s0 n0 dst (q + i * s1.getD ops.length 0)) dst

/-- src/linalg/specialized_einsum.rs 114-140 and 167-192: `einsum_1operand_3labels`,
`einsum_2operands_3labels`. -/
def einsum3labels [Mul α] [One α] [Add α] [Zero α] (K : SopKernels α) (ops : List (Src α))
    (s0 s1 s2 : List Nat) (n0 n1 n2 : Nat) (dst : List α) (q : Nat) : Res (List α) := do
  assume (decide (0 < n0))
  assume (decide (0 < n1))
  assume (decide (0 < n2))
  (List.range n2).foldlM (fun dst i =>
    (List.range n1).foldlM (fun dst j =>
      getSop K s0 (shiftOps ops (List.zipWith (fun x y => i * x + j * y) s2 s1)) s0 n0 dst
        (q + (i * s2.getD ops.length 0 + j * s1.getD ops.length 0))) dst) dst

/-- src/linalg/specialized_einsum.rs 45-85: `try_specialized_einsum_loop`, falling back to
`unspecialized_einsum_loop` when it returns `false` (einsum.rs 424-428, 461-465). -/
def einsumRun [Mul α] [One α] [Add α] [Zero α] (K : SopKernels α) (ops : List (Src α)) (plan : EinsumPlan)
    (dst : List α) (q : Nat) : Res (List α) :=
  if ops.length = 1 ∨ ops.length = 2 then
    match plan.iterShape, plan.strides with
    | [n0, n1], [s0, s1] => einsum2labels K ops s0 s1 n0 n1 dst q
    | [n0, n1, n2], [s0, s1, s2] => einsum3labels K ops s0 s1 s2 n0 n1 n2 dst q
    | _, _ => einsumUnspecialized ops plan dst q
  else einsumUnspecialized ops plan dst q

/-- The data pointers of the operands. -/
def srcs (ops : List (Arr α)) : List (Src α) := ops.map fun a => (a.buf, a.off)

/-- src/linalg/einsum.rs 403-433: `einsum`. -/
def einsum [Mul α] [One α] [Add α] [Zero α] (K : SopKernels α) (ops : List (Arr α)) (subs : List (List Char))
    (out : List Char) : Res (Arr α) := do
  let plan ← prepareEinsum ops subs out
  let data ← einsumRun K (srcs ops) plan (List.replicate (numel plan.outShape) 0) 0
  return Arr.fromContiguousOwnedBuffer plan.outShape data

/-- src/linalg/einsum.rs 435-467: `einsum_into_ptr`; `result` is position `q` of the buffer `dst`, whose new
contents are returned. -/
def einsumIntoPtr [Mul α] [One α] [Add α] [Zero α] (K : SopKernels α) (ops : List (Arr α))
    (subs : List (List Char)) (out : List Char) (resultStride : List Nat) (dst : List α) (q : Nat) :
    Res (List α) := do
  let plan ← prepareEinsum ops subs out
  match hasUniformStride plan.outShape resultStride with
  | some d => assert (decide (d = 1))
  | none => pure ()
  let dst' ← fillPtr plan.outShape resultStride (numel plan.outShape) 0 dst q
  einsumRun K (srcs ops) plan dst' q

end Verif
