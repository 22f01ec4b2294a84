# Formal model of redstone-ml: design

Source: `/repo` (Rust, read as text only). Proof assistant: Lean 4.33.0 with single Mathlib modules.
All paths below are relative to `/repo/src`.

## 1. How the code is modelled

* **usize is `Nat`.** Overflow of products and sums is modelled only in `Model/Usize.lean` and `Model/UsizeSlice.lean`, where C62 shows that it
  cannot happen for shapes whose element count fits. Subtractions that can underflow in
  the code (slices) are explicit: `Err.overflow` stands for "panics in a debug build, wraps in release".
* **Panics are error values.** `Res := Except Err` with `Err.panic` (a Rust panic), `Err.oob` (a read or
  write outside the live buffer, undefined behaviour), `Err.overflow` (see above), `Err.ub` (another
  undefined operation, e.g. `assert_unchecked(false)`). Out-of-range accesses are never totalised away.
* **Arrays** are `Arr α`: the contents of the buffer the pointer points into, the pointer's offset in it,
  `len`, `capacity`, `shape`, `stride`, `flags` - the fields of the Rust struct. Reading is
  `buf[off + i]?`, and a miss is `Err.oob`. A view shares the `buf` of its base.
* **Mutation** (`op=`, `fill`, indexed write) returns the new contents of the underlying buffer; every
  array over the same buffer then sees it. Freeing and ownership live in a separate heap model
  (`Model/Ownership.lean`).
* **Elements** are an arbitrary type `α`; operators are arbitrary functions. Results that keep the code's
  evaluation order (elementwise operators, left folds) therefore hold for floats bit for bit. Where the
  code reorders sums (einsum, SIMD, autograd) a commutative semiring / field is assumed; floats satisfy
  those laws only approximately. `Model/FloatArith.lean` instantiates the same model with floats that round:
  C63 and C64 carry the results over with an error bound.
* **Loops** become structural recursion with the same per-iteration effects; `while` loops over a
  counter recurse on the counter. Iterators are state machines with a `next` function.
* **cfg**: the portable (non-macOS: no BLAS, vDSP, NEON) build is the model; the NEON kernels are modelled
  for C49 and in the sessions of C40 to C46 and C73, the BLAS products for C56 and C74 and the vDSP kernels for C57.

## 2. Specification vocabulary (small, independent)

`Spec/Tensor.lean`: `indices s` - all multi-indices of a shape in row-major order;
`InB idx s` - index in range; `offset idx st` - dot product of index and stride;
`Arr.Denotes a s f` - "array `a` is the tensor of shape `s` whose element at `idx` is `f idx`, every
element lying inside the buffer". Properties are stated as: if the inputs denote given tensors then the
operation returns (or panics, or the result denotes) the mathematically expected tensor.

## 3. Properties: what is modelled, how it is proved

Every definition in `Verif/Model` cites its file and lines. Property theorems are in `Verif/Props`.

| id | modelled | proof idea |
|----|----------|------------|
| C01 | stride_from_shape, from_contiguous_owned_buffer, Index | strides are suffix products; offset of an index is its rank; rank < size |
| C02 | collapse_to_uniform_stride, FlatIndexGenerator (odometer state machine), FlatIterator | collapsing preserves the offset sequence (induction over dims); odometer = successor on mixed-radix numbers |
| C03 | broadcast_shapes, pad | induction on the reversed shapes against a right-aligned spec |
| C04 | broadcast_shape, broadcast_stride, broadcast_to | offset with zero strides = offset of clamped index |
| C05 | whole kernel dispatch of ops/binary_ops.rs | every branch reads the same offset sequence as two flat iterators |
| C06 C07 | scalar and unary kernels | as C05 |
| C08 | assign_ops with in-place destination | false in general (non-contiguous target): negation by witness; partial for contiguous target; in machine integers and IEEE floats in Props/AssignArith.lean |
| C09 | reduce kernels with has_uniform_stride fast path | false for zero-stride views: negation; partial for views without zero strides |
| C10 | reduced_shape_and_stride, reduce_along | destination offset of an index = rank of its kept coordinates; fold over fibres |
| C11 | partial_min/max(+magnitude) folds | order lemmas over a linear order |
| C12 | mean, mean_along | from C09/C10; count of a fibre |
| C13 | reshape | uniform stride means k-th offset = k*stride |
| C14 C15 | transpose, squeeze, unsqueeze | offset is invariant under simultaneous permutation / unit axes |
| C16 | slice, slice_along, Indexer | offset of shifted index |
| C17 | same | false: negation by witness (out-of-range view), partial |
| C18 C19 | Index, IndexMut | false in general (only the flat offset is checked): negations; partial for row-major arrays |
| C20 C21 | clone, flatten | as C02; negation for broadcast views flagged contiguous |
| C22 | PartialEq | from C02; IEEE comparison of floats for `C22_float`, `C22_self` |
| C23 | `Model/Ownership.lean`: heap with ownership: create, views, consuming reshape, into_data_vector, data_slice, drop; the borrow checker is the `lender` field | invariant over op lists; leak / wrong capacity / laundered lifetime negations |
| C24 | Fill::fill recursion | set of written cells = cells of the view; negation for zero strides |
| C25 C26 C27 | op lists of view operations | invariants by induction over the list; negations with broadcast; C25 exactly: which reshapes lead out of the buffer (`C25_step_exact`, `C25_exact`) |
| C28 C29 | subscript parsing, label bookkeeping, axis ordering, loops, kernels | accumulated writes = sum over iteration space; permutation invariance of finite sums |
| C30-C32 | matmul, bmm, dot on top of einsum | instance of C28 |
| C33 C34 | diagonal, trace | offset algebra; C10 |
| C35 C36 | NdIterator | single axis correct; several axes: negation and partial |
| C37 | as_absolute | case analysis |
| C38 C39 | arange, linspace over an ordered field / with rounding parameter | ceil arithmetic; negation for the f32 length computation |
| C40-C42 | grad_fn graphs as an inductive type, accumulators as a store; the loops of either build (`Build`) | forward-mode linearisation as spec; induction over graphs: adjointness. Completed calls need no bound on shapes: `Lemmas/WeakArr.lean`, `WeakGradient.lean`, `WeakSession.lean` state the lemmas as "if the call returns, then", with extents 0 and more than 32 axes allowed (`Lemmas/KeepLengths.lean`: loops do not change the length of a buffer). Sessions (`Cmd.Fine`) may contain consuming `reshape`, `squeeze` and `unsqueeze` of arrays with other owners where the array lies row by row; for others the statement is false (`C40_shared_false`) |
| C43 C46 | requires_grad, is_leaf, gradient | invariant over the construction of graphs; negation for identity-sharing, and exactly whose gradient the results report (`C46_identity_exact`); for everything that can be done with tensors and any shapes (`Done` in `Props/GradientFrame.lean`), a relation between tensors and the variables they come from (`Spec/Origins.lean`) gives C41 and C43 |
| C44 | layouts of gradients in backward | exact condition (`C44_exact`), negations by witness |
| C45 | `Model/TensorMemory.lean`: heap of Rc'd arrays with drops, Rc modelled as reachability | negation by witness; safety invariant for histories whose captured operands own their data; in any history exactly the views whose owner is held by nothing dangle (`C45_exact`); operations other than `backward` are safe if no view is reshaped by value (`C45_forward_partial`) |
| C47 | randint with an arbitrary draw | negation by witness, partial low <= r <= high |
| C48 | astype | from C02 |
| C49 | unrolled kernels | block/tail induction, commutative laws |
| C50 | full, zeros, ones, scalar, value | direct |
| C51 | Debug recursion | induction on rank |
| C52 | check_homogenous, shape, flatten on nested data | exactly what is accepted at any depth (`C52_exact`); negation at depth 3, partial depth <= 2 |
| C53 | einsum_view | offset algebra |
| C54 | zero extents in the above | `assert_unchecked` modelled as `Err.ub`; negation by witness; an empty array represents every function, so the positive theorems specialise |
| C55 | linspace with IEEE rounding (`Model/Ranges.lean`) | exact on a power-of-two grid; negations by witness |
| C56 | `Model/Blas.lean`: the BLAS overrides of the products, with `gemm`/`gemv`/`dot` given by their documented contract over a semiring | store-loop induction; same result as C30/C31 when rows do not overlap, contract violated (`ub`) in exactly the other cases; negations by witness |
| C57 | `Model/Vdsp.lean`: the vDSP overrides, with the routines given by their documentation (inputs read before outputs are written; NaN not modelled, the documentation does not define it) | the kernel families satisfy the same contract as the portable ones; reductions differ in the start value only; negations by witness |
| C58 | `Model/Macros.lean`: the macro as the composition of `-`, `max`, `flatiter` and `==` | C05 for the difference, C11 for the maximum; negations by witness (negative differences, broadcasting, NaN); the exact condition of acceptance in exact arithmetic and in the IEEE model (`Model/FloatMacros.lean`) from the running maximum of a comparison that is only transitive and irreflexive |
| C59 | `Model/Overflow.lean`: the reduction loops with accumulator steps that can panic; `intResult` wraps or panics. `Model/CheckedInt.lean`: debug-build integers as an element type in which an overflow leaves a mark, for sums of products | the loop is the monadic fold of the elements; congruence modulo the width; prefixes in range; for sums of products the pair method of C63; negation for intermediate overflow |
| C60 | `Arr.dataSlice`, `Arr.intoDataVector` | stored length = number of elements and offsets = 0..n for contiguous views; negation for broadcast views |
| C61 | `Model/Floats.lean`: floats as NaN or a number of an arbitrary linear order, compared as `partial_cmp` does; start values are the finite extremes | the C09/C10 fold; induction over the list; negations by witness (magnitudes after a NaN, infinities, NEON) |
| C62 | `Model/Usize.lean`: `full`, `size`, `reshape`, `broadcast_to`, indexing with `usize` arithmetic that panics or wraps | products of positive extents bound their partial products; extents times strides are at most twice the buffer; negations by witness in release builds |
| C63 C64 | `Model/FloatArith.lean`: floats with `p` significant bits, unbounded exponents, every operation rounded (`mul_add` once); the code is the same model as for C09, C10, C28 to C32, C49, run over that type | the model commutes with maps that preserve the operations; run it on pairs (float, exact value with error budget) and project to both sides; the exact side is C09, C28 to C32, C49 in a commutative semiring that also counts operations |
| C65 C66 C67 | nothing new: compositions of the functions above, compared with the modelled `==` | both sides denote a tensor by the theorems of the operations (C05, C10, C14, C22, C28 to C34); the two tensors agree by finite-sum algebra |
| C68 C69 | `Model/Ieee.lean`: NaN, infinities, signed zeros, subnormals, overflow, fused `mul_add`, with parameters `p`, `emax` (f32: 24, 127; f64: 53, 1023); the code is the same model run over that type | pairs again: C68 counts the elements that are not NaN (not NaN or infinite); C69 carries the error budget of C63 together with a bound for the range. IEEE numbers have `0 * inf = NaN`, so the exact side is not a semiring: C28, C30, C31 are proved for the weaker algebra `SumProduct`, in which the code's initial 0 is told apart from elements and must never be multiplied |
| C70 | `Model/Random.lean`: `rand`, `randn`, `uniform` over IEEE numbers with an arbitrary draw per element | conversion between formats is correctly rounded, so a draw below `1 - 2^-(q+1)` stays below 1; negation by witness for `f32` |
| C71 | nothing new: `Model/Ieee.lean` run through the binary operations | `CorrectlyRounded` (nearest, ties to even, threshold) is stated without the rounding function; the rounding function is proved to be nearest, even on ties and monotone |
| C72 | nothing new | pairs again: the exact side collects the summands (`Summands`); monotone rounding gives `x + y >= x` for `y >= 0` |
| C73 | nothing new: the session model of C40 run on rounded floats, `mul_add` rounded once | the whole session model commutes with maps of the elements (`session_map`), so it can be run on related pairs (`Joint`); the other side carries exact value, magnitude and number of roundings (`Spec/RunningError.lean`), or IEEE status flags (`Spec/NoFlags.lean`); the exact side is C40 |
| C74 | `Model/Blas.lean`: the four products of the backward passes (`matmulTransposedBlas`, `transposedMatmulBlas`, `bmmTransposedBlas`, `transposedBmmBlas`) | layout of the transposes, then C56 with its exact condition; negation by witness |
| C08 C09 C11 C12 C13 C17 C18 C19 C20 C21 C24 C26 C35 C36 C60 exactly; together C75 | the same model; Props/Exact.lean, ExactAssign.lean, ExactFill.lean, ExactIter.lean, ExactReduce.lean, ExactSlice.lean | each says: right for all contents of the memory if and only if a condition on shape, strides and length holds. Necessity: contents that differ in one cell (`spike`) are placed where the code reads or writes a cell that is not the element's |
| C76 | `Model/UsizeSlice.lean`: `indexed_length`, the buffer length, `slice`, `slice_along` with `usize` arithmetic that panics or wraps | in range and not empty: the far corner lies in the buffer, so nothing overflows, and both builds equal the exact model; debug: whatever is accepted equals the exact model; release, in range and empty: the wrapped length of a contiguous view telescopes to 0 modulo the number of `usize` values; negation for every vector and every reversed range |
| C77 | `Model/IntOps.lean`: the integer operators `%`, `&`, `\|`, `<<`, `>>`, unary `-` of any width on bit vectors, with debug and release behaviour; `Model/IeeeRem.lean`: `%` of floats, the exact remainder then rounded; the loops are those of C05 to C07 | bits and remainders described on unbounded integers (`Spec/IntOps.lean`), each description determines the number; the float remainder is a multiple of the spacing of the divisor and less than it, so it is not rounded |
| C78 | `Model/NumCast.lean`: `NumCast::from` of num-traits 0.2.19 between integers and floats, by its documentation; `astype` of C48 around it | `Spec/Convert.lean`: truncation as an integer of the same sign, not larger in absolute value and less than 1 away, proved unique; nearest float as in C55; exactness of short integers and of widening by the grid of the format; `C78_int_back_false` for longer integers |
| C79 | the model of C02, C05 to C10, C20, C22, C48, C51, where copying more than 32 merged axes into a generator panics | the lemmas of these properties in the form "right, or an operand has more than 32 axes that cannot be merged and the call panics"; the axes of a new array merge into one; `C79_panics` shows the panic for four elements and 37 axes |
| C80 | the ranges of C38 and C55 with IEEE rounding (`Model/Ranges.lean`) | each rounding is a factor within `2^-24` of 1; products and quotients of such factors bound the computed number of elements before `ceil`; `C80_short_false` shows a linspace with too few elements where the condition on `stop` fails |
| C81 | `randint` of `Model/Ranges.lean` with one draw, over the reals | the draws that round to `k` lie between an open and a closed interval of the same length; Lebesgue measure of Mathlib; false of the code: `C81_share_false` gives the share of every value |
| C82 | `Tensor.matmul`, `Tensor.bin .add`, `Tensor.backwardWith` of `Model/Autograd.lean` on `Fl p` (`p` bits, rounded to nearest even, unbounded exponents), with the loops of any build | from the bounds of C63 for products and column sums and from C08 for the accumulators; overflow and underflow are the subject of C69 and `C73_ieee_session`; with BLAS the order of summation is not known (C74) |
| C83 | the ranges of C38 with rounding to `p` bits, unbounded exponents (`floatTy` of `Model/Ranges.lean`) | rounding to nearest is monotone, so the elements follow the order of the exact ones; distinct and far end from the bound of two roundings of C80; the far end is false by two witnesses |
| C84 | `Model/Advance.lean`: `advance_by`, and `next` with the subtraction that panics in debug builds | the loop adds the same cell's difference with itself, so the flat index stays (`C84_stuck`); the indices are mixed-radix addition with carry (`C84_indices`); false of the code by a vector of three elements |
| C85 | nothing new: the models of the arrays and sessions, which are generic in the element type | the element type with one element `*` has trivial arithmetic, and the whole model commutes with replacing every element by `*` (`session_map`, `Lemmas/Transfer*.lean`), so the outcome of a program is the outcome of the program without values; a pass keeps the lengths of all buffers (`Lemmas/KeepLengths.lean`), hence nothing but values changes. `C42_order` follows for all shapes. For integers with overflow checks it is false (`C85_overflow_false`) |
| C86 | the view operations (`Model/Views.lean`, `Model/History.lean`, `einsum_view`); a write is a new content of the buffer, as returned by the models of the writing operations | each operation commutes with replacing the contents (`C86_views_share`); single elements by cells (`C86_write_seen`). Iterators over sub-arrays yield copies (tensor_iterator.rs 49-69) and are not among the views |
| C87 | tensor sessions (`Model/Autograd.lean`); the rules are in `Spec/Shapes.lean`. Not covered: extents 0, more than 32 axes, and states after a consuming reshape, squeeze or unsqueeze of a shared array that is not compact (C43) | `C87_next` is an exact dichotomy by cases on the operation, over ℚ, carried to every element type by C85; `C87_unique`; `C87_program` by induction along the program, with one bit per tensor (strides still row-major) that settles `reshape` |
| C88 | as C87, over a field. Not covered: rounding, programs with both `transpose` and reshapes (in C44 with a condition on the order), and the cases in which `backward` fails (C44) | `C88_calls` (and its case of one call, `C88_backprop`) composes C87 (the program runs), C44 (`backward` completes), C46 (leaves have gradients), C40 (their values) with three invariants of programs: accumulators are zeros before the first `backward`, which tensors were constructed, and that constructed tensors share no accumulator; then induction over the calls. `C88_least_squares` and `C88_readme` evaluate the Jacobian of `Spec/Jacobian.lean` for all sizes |
| C89 | as C88, with `backward_with` for contiguous seeds. The tensors of earlier iterations stay in the model's environment, where Rust drops them (dropping frees memory only) | `C89_loop`: induction over the body, comparing the session with the run of its operations alone. That run never touches gradients (`step_transport`), and later operations never change what earlier tensors mean (`spec_get_append`). `C89_ratio_zero`, `C89_ratio`, `C89_affine` are the loops of src/bin/backwards.rs, by induction over the number of iterations |
| C90 | as C91, on the floats of C63 (any precision, unbounded exponents) and the IEEE numbers of C68; error bounds by the numbers `Est`, flags by `Flagged`, as in C73 | `C90_float`, `C90_ieee`: the hypotheses of C91 do not mention elements (`GoodLoop.map`), so C91 applies to the same loop over ℚ; by C85 the loop on floats runs too; both are projections of one run on pairs (C73) |
| C91 | as C89, with seeds of any layout and without the restriction on transposes and reshapes. `Spec/Passes.lean` states the condition on shapes and strides, without the recorded graph: each tensor carries whether it requires gradient and which strides its gradient may have | `C91_exact`, `C91_loop`, `C91_any`: `Safe` of C44 (on the graph) is equivalent to `Passes` (on the program), by induction over the session (`Lemmas/Flow.lean`); C89 follows from `C91_loop`. `C91_reshape_transpose` and the two after it are instances for all sizes |
| C92 | as C91 | both programs have the same meaning (`specRun_borrowed`), the same shapes and the same flow of gradients, so C91 gives both the same outcome, tensors and gradients |
| C93 | as C91, one program | `C93_gradient` from C91 and the dual number of the loss; `C93_minimum`, `C93_descent` by expanding the square (`squaredError_move`) and Cauchy-Schwarz |
| C94 | as C45: which arrays tensors and gradient functions hold; elements, gradients and other temporaries of `backward` are not modelled, except `reduce_gradient`, as a history in the model of C23 | gradient functions and arrays are only added and refer to older ones, so what the remaining tensors hold is what they held before (`Held.back`, `Held.forth`); `C94_exact` since an array with a capacity is the one that allocated its buffer (`Numbered`) |
| C95 | as C93; a step builds a new program from the gradient that was read (`TrainingStep`), since tensors cannot be updated in place | the gradient is exact (C93), so the standard argument for convex quadratic functions applies: a step loses at least half of eta times the squared gradient (Cauchy-Schwarz) and brings the weights closer to any better ones (`squaredError_step`) |
| C96 | as C91 | the derivative of the sum is the sum of the derivatives (`jacobian_sum`), an addition of equal shapes hands its gradient on unchanged (`passes_sum`), so C91 gives both sessions the same outcome and the same collected gradients; `C96_any` carries completion over to any element type |
| C97 | as C91 | the derivative of the product with a constant (`jacobian_times`, `jacobian_scaled`), the same completion (`passes_times`, `passes_scaled`), and C91 for both sessions (`compare_ends`); `C97_any` carries completion over to any element type |
| C98 | as C93; each batch is two new leaves and the three operations of the loss, `w` the first tensor of the session | completion by induction on the batches (`batches_pass`, through C91's condition), the derivative of each loss from dual numbers (`batch_eps`), their sum over the session (`batch_collected`), and the sum over the joined rows (`Batch.join_slope`); `C98_completes` is completion for any element type |
| C99 | as C91; one session with and one without a `set_requires_grad(true)` in the header | the two specifications run side by side (`Thawed`): the same elements for dual numbers that do not move the extra variable, the later variables renumbered (`skip`); tensors that depend on no variable do not move (`Still`); whatever passes with the variable passes without (`FlowsLe`); then C91 for both sessions |
| C100 | as C91; two sessions with the same beginning and different ends | equal derivatives give equal gradients (`C100_same`, by C91 for both sessions and `collected_extend`); for each law the dual numbers agree, and what the gradient functions accept agrees (`passes_one`, `distribute_flow`), so both complete or neither does |
| C101 | whole sessions (`runSession`), elements of any type; tensors are numbered in order of creation, so later numbers are shifted (`shiftPast`) or exchanged (`swapNext`); whether a consuming shape change finds its array shared is part of the instruction and kept as it is | simulation between the two runs: the states differ by one tensor put in (`exec_insert`), or by numbers (`Renamed`), and every command reads the same operands; a gradient call touches only accumulators, an operation none (`exec_swap`) |
| C102 | whole sessions, elements of any type; accumulators have numbers in the order of creation, standing for the `Rc`s of the code | simulation: the second session run after the first is the second session alone with tensor and accumulator numbers moved (`exec_after`, `backward_moved` by induction on the graph), errors included; mixed sessions (`C102_interleaved`): each session's state is embedded in the common one at a list of tensor places and a list of accumulator places, disjoint from those of the others; every command keeps this (`exec_within`, `Embeds.other`). errors too (`exec_fails`): the mixture completes exactly if all do, and its error is that of one of them |

## 4. Trusted base

* Lean's kernel; axioms at most `propext`, `Classical.choice`, `Quot.sound` (per-theorem list in section 6). No
  axioms of our own, no `sorry`, no `native_decide`, no `bv_decide`.
* The reading of the Rust source into the model (citations in each definition).
* Modelled: `src/ndarray` (constructors, layout, views, iterators, indexing, equality, printing, reductions,
  compound assignment), `src/ops` (portable kernels, and the NEON kernels for C49), `src/linalg` (einsum planner,
  sum-of-products kernels, matmul, bmm, dot, trace, diagonal), `src/autograd` and `src/tensor` (graph, backward,
  gradient functions, flags), `src/common` (constructors, ranges, random integers and floats), ownership of buffers.
* Simplifications: `usize` is `Nat` (no overflow of products of extents) except in `Model/Usize.lean`; element
  arithmetic is an arbitrary function or a commutative semiring/field, except in `Model/Ranges.lean` and `Model/IntOps.lean` (machine integers),
  `Model/Overflow.lean` and `Model/CheckedInt.lean` (debug-build overflow; in the latter a panic is a mark in the result), `Model/Floats.lean` (NaN, no rounding) and in `Model/Ranges.lean` and
  `Model/FloatArith.lean`, where every operation rounds to nearest-even with unbounded exponents, and `Model/Ieee.lean`, where exponents are bounded and NaN, infinities and signed zeros exist; `Rc` in `Model/TensorMemory.lean` is reachability; the borrow
  checker in `Model/Ownership.lean` is the `lender` field; in `Model/Simd.lean` `vfmaq` is the fused `mulAdd` of the element
  type, and `vminq`/`vmaxq` are the scalar minimum/maximum (with NaN: C61); the BLAS
  routines in `Model/Blas.lean` are what their documentation says, a violated argument check being `Err.ub`;
  `NumCast::from` of the crate num-traits in `Model/NumCast.lean` is what its documentation says.
* Not modelled: allocation failure, the generator of random bits, the implementation of BLAS, the profiler, the benchmark
  binaries, macro-generated trait plumbing, threads, what memory holds after a caught panic (a panic ends the run).

## 5. Where code and properties disagree

Each is a theorem with a concrete witness; the `_partial` theorems delimit what does hold.

| id | what the code does | theorem |
|----|--------------------|---------|
| C01 | an array of Vecs copies the Vec headers as numbers | `C01_array_of_vec_false` |
| C08 | `op=` on a non-contiguous target ignores the layout; overlapping operands read updated cells | `C08_false`, `C08_overlap_false` |
| C09 C11 C12 C35 | a broadcast view mixing zero and non-zero strides is taken for a uniform one | `C09_false`, `C09_false_values`, `C11_false`, `C12_false`, `C35_false` |
| C13 C25 | reshaping broadcast views keeps a wrong stride | `C13_broadcast_false`, `C25_false` |
| C16 C54 | the length of an empty slice underflows | `C16_empty_slice`, `C54_empty_slice_partial` |
| C17 | slices are not bounds-checked | `C17_false` |
| C18 C19 | only the flat offset of an index is checked; reads and writes alias or leave the view | `C18_aliases`, `C18_diagonal_panics`, `C18_broadcast_oob`, `C19_false`, `C19_short_index` |
| C20 C21 C24 | cloning, flattening or filling broadcast views flagged contiguous | `C20_false`, `C20_false_values`, `C24_false`, `C24_readonly_false` |
| C23 | consuming reshapes leak, wrong capacity on release, laundered lifetimes | `Own.C23_leak_false`, `Own.C23_capacity_false`, `Own.C23_laundered_view_false`, `Own.C23_data_slice_false` |
| C26 C27 | flags wrong after broadcasting; read-only views are filled and written by index; no write method looks at the Writeable flag of any array, and a write through a broadcast view reaches the base | `C26_false`, `C26_method_false`, `C26_unit_axis`, `C27_false`, `C27_flags_ignored`, `C27_write_reaches_base` |
| C28 C30 C31 C54 | extent 0 in products is undefined behaviour or a panic | `C28_empty_false`, `C30_empty_false`, `C31_empty_false`, `C54_false`; which of the two, for all layouts: `C28_empty`, `C28_empty_ub`, `C28_empty_ok`, `C30_empty`, `C31_empty` |
| C28 C29 | subscripts without letters panic; count mismatch and input ellipsis accepted; a lone dot ending the output drops a letter; a space in the output of `einsum_view` adds an axis of extent 0 | `C28_scalar_false`, `C28_letterless`, `C29_false`, `C29_surplus`, `C29_missing` (what a mismatch computes), `C29_ellipsis_false`, `C29_lone_dot_false`, `C29_view_space_false` |
| C36 | `iter_along` over axes that are not a row-major chain | `C36_false`, `C36_false_oob` |
| C38 C39 C55 | lengths of ranges lose or gain elements by rounding; linspace of a single value panics | `C38_int_false`, `C38_int_overflow_false`, `C38_f64_false`, `C39_constant_false`, `C55_f32_false`, `C55_f64_false`, `C55_exclusive_f32_false`, `C55_exclusive_f64_false`, `C80_short_false` |
| C83 | `arange(33554432f32, 33554436)` contains `stop` and repeats its first element; `linspace(0f32, 1, 42)` ends below 1 | `C83_stop_false`, `C83_end_false` |
| C81 | `randint` rounds instead of truncating: the lowest value has half the chance of the others, and the excluded bound the same half | `C81_share_false` |
| C40 C42 C43 C44 C46 | gradients of consumed shared arrays, aliasing seeds, transposed shapes, gradient flags | `C40_shared_false`, `C40_seed_false`, `C42_alias_false`, `C43_only_leaves_false`, `C44_transpose_false`, `C44_broadcast_false`, `C44_squeeze_false`, `C44_empty_false`, `C46_identity_false`, `C46_set_false` |
| C45 | backward can read a dropped base of a tensor view; after a view is reshaped by value any operation can | `TMem.C45_false`, `TMem.C45_forward_false` |
| C47 | the excluded bound of random integers is returned; float bounds are undercut | `C47_high_false`, `C47_low_false` |
| C49 | SIMD minima differ on NaN; overlapping in-place operands differ; hand-made strides that no history of views produces differ on empty results | `C49_nan_false`, `C49_overlap_false`, `C49_binary_unreached_false` |
| C56 | overlapping rows or a stride-0 vector break the contract of `gemm`/`gemv`; `bmm` never compares inner extents and reads past the end with BLAS | `C56_false`, `C56_bmm_oob_false` |
| C74 | with BLAS the gradient of activations `[m, k]`, `k >= 2`, times weights `[k, 1]` calls `gemm` with leading dimension 1 for a matrix with `k` columns | `C74_output_layer_false` |
| C57 | vDSP sums of `i32` wrap where the portable build panics; `max` of `[-inf]` and of an empty array is -inf with vDSP and the least finite number without | `C57_i32_false`, `C57_max_false`, `C57_max_empty_false` |
| C58 | `assert_almost_eq!` looks at the greatest signed difference only and broadcasts: `[0, -100]` passes against `[0, 0]`, a 2x3 array against a row; for unsigned numbers a negative difference panics | `C58_false`, `C58_shape_false`, `C58_unsigned_false`, `C58_nan_false` |
| C59 | in a debug build `sum` and `product` panic although the result fits, because an intermediate result does not; `min_magnitude` of `[-128, 5]` (`i8`) panics, or is -128 in a release build; a broadcast row of zeros times `[100, 100]` panics | `C59_false`, `C59_magnitude_false`, `C59_scaled_false` |
| C60 | `data_slice` of a broadcast view shows cells that are not its elements, or do not exist; `into_data_vector` after a consuming reshape builds a vector of capacity 0 | `C60_false`, `C60_false_values`, `C60_into_false` |
| C61 | `min_magnitude([1, NaN, 5])` is 5: a NaN hides everything before it; the maximum of minus infinities or of NaNs only is the least finite number; with NEON a NaN counts or not depending on its place | `C61_false`, `C61_along_false`, `C61_infinity_false`, `C61_all_nan_false`, `C61_neon_false` |
| C62 | release builds: element counts wrap, so `full(v, [2^63 + 1, 2])` has two elements, `reshape` accepts wrong counts, broadcast views of 2^64 elements have size 0, and row 2^63 of a 2x2 array is row 0 | `C62_false`, `C62_reshape_false`, `C62_broadcast_false`, `C62_index_false` |
| C76 | release builds accept what debug builds refuse: `3..1` of five numbers has extent 2^64 - 2 and reads beyond the buffer; an empty slice of a broadcast view has a clone with one element; empty slices in general are accepted | `C76_reversed`, `C76_false`, `C76_release_empty_partial` |
| C63 C64 | with rounding the two builds give different sums (`2^24` against `2^24 + 14`); `2^p + 1` is not exact | `C63_order_matters_false`, `C64_bound_sharp_false` |
| C65 C67 | `einsum("i->")` of an empty vector does not return, `sum_along` does; `sum` of a broadcast view differs from `sum_along` over all axes | `C65_empty_false`, `C67_broadcast_false` |
| C70 | `rand` over `f32` returns 1 for draws in the last `2^-25` of the interval | `C70_rand_false` |
| C71 C72 | a product of nonzero numbers can underflow to 0; a product of non-negative numbers can be NaN; a mean can lie below all elements | `C71_mul_zero_false`, `C72_nan_false`, `C72_mean_false` |
| C91 | `backward` panics for a reshape to a matrix followed by a transpose, unless there is a single element, and for a bias of shape `[1]` added to a longer vector | `C91_reshape_transpose_ones`, `C91_bias` |
| C94 | every reshape, view or transpose by value, and every reduction of a gradient to the shape of a broadcast operand, leaks a buffer | `C94_grows`, `C94_false`, `C94_reduce_gradient` |
| C84 | `advance_by` does not move the position in memory: `[0, 1, 2]` advanced by 1 continues with element 0, and in a debug build the last `next` panics | `C84_false`, `C84_panics_false` |
| C52 | ragged data three levels deep is accepted | `C52_false` |

## 6. Axioms per theorem

From `#print axioms`, for every theorem named in MANIFEST.json (prefix `Verif.` omitted).

**none** (1): `C01_array_of_vec_false`

**`Classical.choice`, `Quot.sound`, `propext`** (560): `C01_new_partial`, `C02_flatiter`, `C02_indices`, `C02_collapse_contiguous`, `C02_collapse_new`, `C03_broadcast_shapes`, `C03_symmetric`, `C03_identity`, `C03_idempotent`, `C03_both_broadcast`, `C04_broadcast_to`, `C04_rejects`, `C04_reads_only`, `C05_elementwise`, `C05_operator_panics`, `C05_incompatible`, `C06_scalar`, `C06_operator_panics`, `C07_neg`, `C08_assign_partial`, `C08_assign_scalar_partial`, `C08_shared_partial`, `C08_incompatible`, `C08_assign_exact`, `C08_assign_scalar_exact`, `C08_operator_panics_partial`, `C08_operator_panics_scalar_partial`, `C77_assign_partial`, `C09_reduce_partial`, `C09_history_partial`, `C09_sum_partial`, `C09_product_partial`, `C09_reduce_exact`, `C09_sum_exact`, `C09_product_exact`, `C10_reduce_along`, `C10_out_of_range`, `C10_sum_along`, `C10_product_along`, `C11_max_partial`, `C11_min_partial`, `C11_max_magnitude_partial`, `C11_min_magnitude_partial`, `C11_max_along`, `C11_min_along`, `C11_max_magnitude_along`, `C11_min_magnitude_along`, `C11_max_exact`, `C11_min_exact`, `C11_max_magnitude_exact`, `C11_min_magnitude_exact`, `C12_mean_partial`, `C12_mean_along`, `C12_false`, `C12_mean_exact`, `C13_reshape_partial`, `C13_reshape_exact`, `C14_transpose`, `C14_T`, `C14_transpose_twice`, `C15_squeeze_order`, `C15_unsqueeze`, `C15_squeeze_unsqueeze`, `C16_slice_partial`, `C16_sliceAlong_partial`, `C16_slice_slice_partial`, `C17_too_many_partial`, `C17_accepted_exact`, `C17_cells_exact`, `C17_in_array_exact`, `C17_leaves_buffer`, `C18_contiguous_partial`, `C18_slice_partial`, `C18_in_buffer_partial`, `C19_write_partial`, `C20_clone_partial`, `C20_noncontiguous_partial`, `C20_clone_exact`, `C21_flatten_partial`, `C21_flatten_exact`, `C22_eq`, `C22_equivalence`, `C22_float`, `C22_self`, `C24_fill_partial`, `C24_zero_partial`, `C24_fill_exact`, `C24_fill_layout_exact`, `C25_in_buffer_partial`, `C25_reads_original_partial`, `C25_step_exact`, `C25_exact`, `C26_contiguous_partial`, `C26_uniform_partial`, `C26_nonuniform_partial`, `C26_false`, `C26_uniform_exact`, `C26_method_partial`, `C27_write_reaches_base`, `C28_einsum_partial`, `C28_rest_irrelevant`, `C28_empty`, `C28_empty_ub`, `C28_empty_ok`, `C28_letterless`, `C28_refused`, `C28_exact`, `C29_einsum_rejects_partial`, `C29_characters`, `C29_output`, `C29_surplus`, `C29_missing`, `C30_matmul_vec_vec`, `C30_matmul_mat_vec`, `C30_matmul_partial`, `C30_empty`, `C31_bmm_partial`, `C31_bmm_rejects`, `C31_empty`, `C32_dot`, `C33_diagonal`, `C33_matrix_diagonal`, `C34_trace_along`, `C34_trace`, `C35_iter_along_partial`, `C35_iter_partial`, `C35_iter_along_exact`, `C36_nditer_partial`, `C36_leading_partial`, `C36_nditer_exact`, `C37_axis`, `C37_axis_iff`, `C38_exact`, `C38_exact_length`, `C38_exact_arange`, `C38_int_partial`, `C38_int_down_partial`, `C38_int_zero_step`, `C38_int_away`, `C38_float_partial`, `C38_int_false`, `C38_int_overflow_false`, `C38_f64_false`, `C39_linspace_partial`, `C39_linspace_exclusive_partial`, `C40_forward_partial`, `C40_vjp_partial`, `C40_backward_partial`, `C40_outcome_partial`, `C40_shared_false`, `C40_seed_false`, `C40_analytic_partial`, `C41_shape`, `C41_shape_partial`, `C42_order_partial`, `C42_sum_partial`, `C42_linear_partial`, `C42_zero_partial`, `C42_alias_false`, `C42_alias_view_false`, `C42_order`, `C43_requires_partial`, `C43_not_required_partial`, `C43_unreached_partial`, `C43_detach_partial`, `C43_requires`, `C43_not_required`, `C43_unreached`, `C43_changed`, `C43_only_leaves_false`, `C44_exact`, `C44_completes_partial`, `C44_transpose_false`, `C44_broadcast_false`, `C44_squeeze_false`, `C44_empty_false`, `TMem.C45_partial`, `TMem.C45_freed_stays`, `TMem.C45_exact`, `TMem.C45_forward_partial`, `C46_leaf`, `C46_not_required`, `C46_identity_false`, `C46_set_false`, `C46_identity_exact`, `C47_int_partial`, `C47_high_false`, `C47_low_false`, `C48_astype`, `C49_binary_partial`, `C49_binary_value_partial`, `C49_binary_incompatible`, `C49_scalar`, `C49_neg`, `C49_assign_partial`, `C49_assign_shared_partial`, `C49_assign_scalar_partial`, `C49_sum`, `C49_product`, `C49_min`, `C49_max`, `C49_sop`, `C49_einsum_partial`, `C49_matmul_partial`, `C49_mean_partial`, `C49_mean_along`, `C51_debug`, `C51_values_and_nesting`, `C51_words`, `C51_determines`, `C52_ragged_partial`, `C52_size_partial`, `C52_empty_partial`, `C52_exact`, `C53_einsum_view`, `C54_copies_partial`, `C54_fill_partial`, `C54_reduce_partial`, `C54_assign_partial`, `C54_reduce_along_partial`, `C54_eq_partial`, `C54_elementwise_partial`, `C54_scalar_partial`, `C54_dot_partial`, `C54_empty_slice_partial`, `C55_linspace_partial`, `C55_linspace_exclusive_partial`, `C55_f32_false`, `C55_f64_false`, `C55_exclusive_f32_false`, `C55_exclusive_f64_false`, `C56_matmul_partial`, `C56_mat_vec_partial`, `C56_mat_vec_neon`, `C56_bmm_partial`, `C56_matmul_ub`, `C56_bmm_ub`, `C56_dot`, `C56_bmm_rejects_partial`, `C57_add`, `C57_sub`, `C57_div`, `C57_scalar`, `C57_assign_partial`, `C57_i32_partial`, `C57_max_partial`, `C57_min_partial`, `C57_max_magnitude_partial`, `C57_min_magnitude_partial`, `C57_dot`, `C57_einsum_partial`, `C57_matmul_partial`, `C58_accepts`, `C58_rejects_partial`, `C58_rejects_below_partial`, `C58_passes_partial`, `C58_incompatible`, `C58_exact`, `C58_float_exact`, `C58_nan_false`, `C59_elementwise_release`, `C59_elementwise_fits`, `C59_elementwise_panics`, `C59_sum_release_partial`, `C59_product_release_partial`, `C59_sum_fits_partial`, `C59_sum_panics_partial`, `C59_product_fits_partial`, `C59_product_panics_partial`, `C59_sum_unsigned_partial`, `C59_sum_unsigned_panics_partial`, `C59_sum_along_release`, `C59_product_along_release`, `C59_sum_along_fits`, `C59_sum_along_panics`, `C59_product_along_fits`, `C59_product_along_panics`, `C59_max_magnitude_partial`, `C59_min_magnitude_partial`, `C59_dot_release`, `C59_matmul_release_partial`, `C59_trace_never_wrong`, `C59_dot_never_wrong`, `C59_matvec_never_wrong`, `C59_matmul_never_wrong_partial`, `C59_bmm_never_wrong_partial`, `C59_einsum_never_wrong_partial`, `C59_dot_fits`, `C59_matvec_fits`, `C59_matmul_fits_partial`, `C59_bmm_fits_partial`, `C59_einsum_fits_partial`, `C59_trace_release`, `C59_bmm_release_partial`, `C59_einsum_release_partial`, `C59_assign_release_partial`, `C59_assign_fits_partial`, `C59_assign_panics_partial`, `C60_data_slice_partial`, `C60_into_data_vector_partial`, `C60_data_slice_exact`, `C61_max_partial`, `C61_min_partial`, `C61_max_along_partial`, `C61_min_along_partial`, `C61_max_magnitude_partial`, `C61_min_magnitude_partial`, `C61_max_magnitude_nan`, `C61_min_magnitude_nan`, `C61_max_magnitude_along_partial`, `C61_min_magnitude_along_partial`, `C62_broadcast_partial`, `C62_broadcast_refused`, `C62_reshape_partial`, `C63_gamma`, `C63_sum_partial`, `C63_product_partial`, `C63_sum_along`, `C63_product_along`, `C63_trace_along`, `C63_mean_partial`, `C63_mean_along`, `C63_dot`, `C63_matvec`, `C63_matmul_partial`, `C63_bmm_partial`, `C63_einsum_partial`, `C63_elementwise`, `C63_ops`, `C63_elementwise_simd_partial`, `C63_order_matters_false`, `C64_sum_partial`, `C64_product_partial`, `C64_sum_along`, `C64_product_along`, `C64_trace`, `C64_dot`, `C64_matvec`, `C64_matmul_partial`, `C64_bmm_partial`, `C64_einsum_partial`, `C64_bound_sharp_false`, `C65_matmul_partial`, `C65_matvec_partial`, `C65_dot_partial`, `C65_bmm_partial`, `C65_diagonal_partial`, `C65_trace_partial`, `C65_transpose_partial`, `C65_sum_along_partial`, `C65_mul_partial`, `C65_outer_partial`, `C66_assoc_partial`, `C66_assoc_vec_partial`, `C66_left_distrib_partial`, `C66_right_distrib_partial`, `C66_transpose_partial`, `C66_trace_comm_partial`, `C66_trace_transpose_partial`, `C66_dot_comm`, `C66_adjoint`, `C66_bmm_slices_partial`, `C67_axis_order`, `C67_one_by_one`, `C67_all_axes_partial`, `C67_transpose_partial`, `C67_add_partial`, `C67_scale_partial`, `C67_split_partial`, `C68_sum_partial`, `C68_product_partial`, `C68_sum_along`, `C68_product_along`, `C68_trace_along`, `C68_mean_partial`, `C68_mean_along`, `C68_dot`, `C68_matvec`, `C68_matmul_partial`, `C68_bmm_partial`, `C68_einsum_partial`, `C69_sum_partial`, `C69_product_partial`, `C69_sum_along`, `C69_product_along`, `C69_trace_along`, `C69_dot`, `C69_matvec`, `C69_matmul_partial`, `C69_bmm_partial`, `C69_einsum_partial`, `C69_exact_sum_partial`, `C69_exact_product_partial`, `C69_exact_sum_along`, `C69_exact_product_along`, `C69_exact_trace`, `C69_exact_dot`, `C69_exact_matvec`, `C69_exact_matmul_partial`, `C69_exact_bmm_partial`, `C69_exact_einsum_partial`, `C69_zero_false`, `C69_underflow_false`, `C70_rand_partial`, `C70_rand_f64`, `C70_rand_false`, `C70_randn`, `C70_uniform_refused`, `C70_uniform`, `C71_unique`, `C71_ops`, `C71_elementwise`, `C71_elementwise_simd_partial`, `C71_scalar`, `C71_exact`, `C71_sub_exact`, `C71_sub_zero`, `C71_mul_zero_false`, `C71_assign_partial`, `C71_assign_simd_partial`, `C71_assign_scalar_partial`, `C72_sum_partial`, `C72_sum_along`, `C72_trace_along`, `C72_product_partial`, `C72_product_along`, `C72_dot`, `C72_matvec`, `C72_matmul_partial`, `C72_bmm_partial`, `C72_einsum_partial`, `C72_nan_false`, `C72_mean_false`, `C73_session`, `C73_vjp_partial`, `C73_ieee_session`, `C73_ieee_vjp_partial`, `C74_matmul_lhs_partial`, `C74_matmul_rhs_partial`, `C74_mat_vec_partial`, `C74_bmm_lhs_partial`, `C74_bmm_rhs_partial`, `C76_in_range_partial`, `C76_along_in_range_partial`, `C76_debug`, `C76_release_empty_partial`, `C77_rem`, `C77_rem_unique`, `C77_and`, `C77_or`, `C77_bits_unique`, `C77_shl_debug`, `C77_shl_release`, `C77_shr_debug`, `C77_shr_release`, `C77_neg`, `C77_neg_panics`, `C77_neg_release`, `C77_float_rem`, `C77_float_rem_special`, `C78_truncated_unique`, `C78_int_int`, `C78_float_int`, `C78_int_float`, `C78_float_float`, `C78_widen_back`, `C78_int_back`, `C78_int_back_false`, `C79_flatiter`, `C79_eq`, `C79_astype`, `C79_debug`, `C79_clone`, `C79_binary`, `C79_scalar`, `C79_neg`, `C79_assign`, `C79_assign_scalar`, `C79_reduce`, `C79_reduce_along`, `C80_arange`, `C80_arange_exact`, `C80_linspace_exclusive`, `C80_linspace`, `C80_int`, `C80_short_false`, `C81_nearest`, `C81_share_false`, `C82_linear`, `C83_arange`, `C83_linspace`, `C83_linspace_exclusive`, `C83_distinct`, `C83_far_end`, `C83_stop_false`, `C83_end_false`, `C84_count`, `C84_indices`, `C84_exact`, `C84_next_debug`, `C87_next`, `C87_program`, `C88_calls`, `C88_backprop`, `C88_least_squares`, `C88_readme`, `C89_loop`, `C89_ratio_zero`, `C89_ratio`, `C89_affine`, `C90_float`, `C90_ieee`, `C91_exact`, `C91_loop`, `C91_any`, `C91_reshape_transpose`, `C91_reshape_transpose_ones`, `C91_reshape_scale_transpose`, `C91_binary`, `C91_bias`, `C92_loop`, `C92_any`, `C93_gradient`, `C93_minimum`, `C93_descent`, `C93_completes`, `TMem.C94_exact`, `TMem.C94_released`, `TMem.C94_retained`, `TMem.C94_scope`, `TMem.C94_loop`, `TMem.C94_end`, `TMem.C94_grows`, `TMem.C94_false`, `C95_training`, `C95_runs`, `C96_sum`, `C96_any`, `C97_weights`, `C97_scaled`, `C97_any`, `C98_batches`, `C98_completes`, `C98_order`, `C99_freeze`, `C99_any`, `C100_same`, `C100_commute`, `C100_sub`, `C100_dot`, `C100_distribute`, `C101_unused`, `C101_gradients`, `C101_postpone`, `C101_swap`, `C102_observed`, `C102_interleaved`, `C102_interleaved_completes`, `C102_interleaved_panics`, `C102_any_order`

**`Quot.sound`, `propext`** (77): `C01_index`, `C01_denotes`, `C02_order`, `C02_lex`, `C03_unique`, `C09_false`, `C10_duplicate`, `C12_negative`, `C13_reshape_accepts`, `C14_transpose_rejects`, `C15_squeeze`, `C15_unsqueeze_rejects`, `C16_compose`, `C17_reversed_partial`, `C19_write_exact`, `Own.C23_never_freed_twice`, `Own.C23_no_use_after_free_partial`, `Own.C23_partial`, `Own.C23_all_freed_partial`, `Own.C23_consumed_never_freed`, `C27_assign_partial`, `C29_output_ellipsis`, `C33_diagonal_rejects`, `C35_bad_axis`, `C35_scalar`, `C36_bad_axes`, `C38_exact_refused`, `C39_zero_one`, `C39_constant_false`, `C43_unary`, `C43_binary`, `C43_tensors_kept`, `C44_empty_panics`, `C46_computed_partial`, `C47_refused`, `C49_binary_unreached_false`, `C49_overlap_false`, `C49_nan_false`, `C50_full`, `C50_zeros_ones`, `C50_value`, `C56_mat_vec_ub`, `C57_u32`, `C57_fill`, `C57_sum`, `C61_neon_false`, `C62_full`, `C62_full_refused`, `C62_full_empty`, `C62_index`, `C62_index_debug`, `C62_reshape_refused`, `C76_reversed`, `C76_false`, `C84_stuck`, `C85_session`, `C85_next`, `C85_gradient`, `C85_after`, `C85_again`, `C85_elementwise`, `C85_scalar`, `C85_neg`, `C85_dot`, `C85_matmul`, `C85_bmm`, `C85_einsum`, `C85_reduce`, `C85_reduce_simd`, `C85_reduce_along`, `C86_views_share`, `C86_same_memory`, `C86_write_seen`, `C86_einsum_view`, `C87_unique`, `Own.C94_reduce_gradient`, `C102_after`

**`propext`** (84): `C08_readonly`, `C08_false`, `C08_overlap_false`, `C09_false_values`, `C11_false`, `C13_broadcast_false`, `C13_scalar_panics`, `C13_uniform_rejected`, `C16_empty_slice`, `C17_false`, `C18_wrong_rank`, `C18_aliases`, `C18_diagonal_panics`, `C18_broadcast_oob`, `C18_index_exact`, `C18_fresh_exact`, `C19_false`, `C19_short_index`, `C20_false`, `C20_false_values`, `Own.C23_leak_false`, `Own.C23_capacity_false`, `Own.C23_laundered_view_false`, `Own.C23_data_slice_false`, `C24_false`, `C24_readonly_false`, `C25_false`, `C26_unit_axis`, `C26_method_fresh`, `C26_method_false`, `C27_false`, `C27_flags_ignored`, `C28_scalar_false`, `C28_empty_false`, `C29_false`, `C29_ellipsis_false`, `C29_lone_dot_false`, `C29_view_space_false`, `C30_matmul_rejects`, `C30_empty_false`, `C31_empty_false`, `C32_dot_rejects`, `C34_rejects`, `C35_false`, `C36_false`, `C36_false_oob`, `TMem.C45_false`, `TMem.C45_forward_false`, `C50_scalar`, `C52_false`, `C54_false`, `C56_false`, `C56_bmm_oob_false`, `C56_matmul_rejects`, `C57_i32_false`, `C57_max_false`, `C57_max_empty_false`, `C58_false`, `C58_shape_false`, `C58_unsigned_false`, `C59_false`, `C59_magnitude_false`, `C59_scaled_false`, `C60_not_contiguous`, `C60_view_refused`, `C60_into_not_contiguous`, `C60_false`, `C60_false_values`, `C60_into_false`, `C61_false`, `C61_along_false`, `C61_infinity_false`, `C61_all_nan_false`, `C62_false`, `C62_reshape_false`, `C62_broadcast_false`, `C62_index_false`, `C65_empty_false`, `C67_broadcast_false`, `C74_output_layer_false`, `C79_panics`, `C84_false`, `C84_panics_false`, `C85_overflow_false`
