{"id": "C01", "title": "Row-major construction", "statement": "An array created from a flat row-major buffer (NdArray::new on nested data, full, zeros, ones, results of operators) with shape [n0,..,nk] holds the element written at nested position (i0,..,ik) at index [i0,..,ik]; indexing it with any in-range multi-index returns exactly that element and never reads outside the buffer.", "quantifier": "every shape (any rank, any extents), every buffer of matching length, every in-range multi-index", "why_tests_cant": "shapes and ranks are unbounded; a stride mistake may only show for one rank or extent pattern", "anchors": ["src/ndarray/constructors.rs: stride_from_shape, from_contiguous_owned_buffer", "src/ndarray/index_impl.rs: Index::index", "src/common/constructors.rs: new"]}
{"id": "C02", "title": "Flat iteration visits every element once, in row-major order", "statement": "arr.flatiter() yields, for any array or view, exactly one value per multi-index of its shape, in lexicographic (row-major) order of the multi-index, and then stops, whatever the memory layout (transposed, sliced, broadcast, empty).", "quantifier": "all shapes and strides of rank <= 32 (including zero strides and zero extents), all buffers that cover the view", "why_tests_cant": "the iterator merges dimensions and walks an odometer; wrong merging shows only for particular stride patterns, of which there are infinitely many", "anchors": ["src/ndarray/iterator/flat_index_generator.rs", "src/ndarray/iterator/collapse_contiguous.rs: collapse_to_uniform_stride", "src/ndarray/iterator/flat_iterator.rs"]}
{"id": "C03", "title": "Broadcast shape rule", "statement": "For two shapes the library's joint broadcast shape is NumPy's: align right, each axis takes the extent that is not 1; it is computed exactly when every aligned pair is equal or contains a 1, and panics otherwise; the rule is symmetric in its operands, has [] as identity, and is idempotent.", "quantifier": "every pair of shapes", "why_tests_cant": "infinitely many shape pairs, different code for longer/shorter first operand", "anchors": ["src/ndarray/broadcast.rs: broadcast_shapes, broadcast_shape"]}
{"id": "C04", "title": "broadcast_to repeats, never copies or invents", "statement": "a.broadcast_to(shape) panics exactly when a's shape does not broadcast to shape; otherwise the result has that shape and its element at any multi-index is the element of a obtained by dropping the leading new axes and replacing the index by 0 on axes where a has extent 1; only memory a itself may read is read.", "quantifier": "every array or view a, every target shape, every in-range multi-index of the result", "why_tests_cant": "the space of shape pairs, layouts and indices is unbounded", "anchors": ["src/ndarray/broadcast.rs: broadcast_to, broadcast_shape, broadcast_stride"]}
{"id": "C05", "title": "Binary operators are elementwise with broadcasting for every memory layout", "statement": "For op in + - * / % & | << >>, (a op b) panics exactly when the shapes do not broadcast; otherwise its shape is the joint broadcast shape and its element at each multi-index is the element of a there (broadcast) op the element of b there (broadcast); it reads only elements of a and b. In particular the kernel specialisation selected from the strides never changes the result.", "quantifier": "all shapes, strides and contents of both operands; all element types via an arbitrary binary function", "why_tests_cant": "the kernel dispatch has 16 branches selected by collapsed stride patterns of both operands; tests cannot cover every pair of layouts and shapes", "anchors": ["src/ndarray/binary_ops.rs", "src/ops/binary_ops.rs: define_binary_op_trait"]}
{"id": "C06", "title": "Array-scalar operators are elementwise for every memory layout", "statement": "(a op s) for a scalar s has a's shape and its element at each multi-index is (element of a there) op s, for any layout of a.", "quantifier": "all shapes/strides/contents, any scalar, any binary function", "why_tests_cant": "unbounded layouts; several kernel branches", "anchors": ["src/ndarray/binary_ops.rs: scalar impl", "src/ops/binary_ops.rs: <op>_scalar"]}
{"id": "C07", "title": "Negation is elementwise for every memory layout", "statement": "-a has a's shape and its element at each multi-index is the negation of a's element there.", "quantifier": "all shapes/strides/contents, any unary function", "why_tests_cant": "unbounded layouts; several kernel branches", "anchors": ["src/ndarray/unary_ops.rs", "src/ops/unary_ops.rs"]}
{"id": "C08", "title": "Compound assignment updates exactly the target's elements", "statement": "a op= b (b broadcastable to a's shape, or a scalar) leaves a with its shape, each element replaced by (old element) op (b's broadcast element), and changes no memory that is not an element of a; it panics when a is a read-only broadcast view or b does not broadcast to a's shape.", "quantifier": "all writeable arrays and views a (any layout), all right-hand sides", "why_tests_cant": "layout-dependent: wrong only for non-contiguous targets, all shapes", "anchors": ["src/ndarray/assign_ops.rs", "src/ops/binary_ops.rs"]}
{"id": "C09", "title": "Whole-array reductions fold every element exactly once", "statement": "sum, product, min, max, min_magnitude and max_magnitude of an array or view equal the left fold, in row-major order, of the corresponding accumulator step over exactly the view's elements, from the documented start value, reading nothing else.", "quantifier": "all shapes, strides and contents, including transposed, sliced, broadcast and empty views", "why_tests_cant": "the fast path is chosen from strides; wrong results only on some layouts (infinitely many)", "anchors": ["src/ndarray/reduce.rs", "src/ops/reduce_sum.rs", "src/ops/reduce_product.rs", "src/ops/reduce_min.rs", "src/ops/reduce_max.rs", "src/ops/reduce_min_magnitude.rs", "src/ops/reduce_max_magnitude.rs"]}
{"id": "C10", "title": "Axis reductions fold exactly each fibre", "statement": "sum_along / product_along / min_along / max_along / min_magnitude_along / max_magnitude_along over a list of axes (negative allowed, no duplicates) return an array whose shape is the input shape with those axes removed, and whose element at index J is the fold over exactly the input elements whose remaining coordinates equal J, in row-major order; duplicate or out-of-range axes panic.", "quantifier": "all shapes, all strides, all axis lists, all accumulator functions", "why_tests_cant": "exponential number of axis subsets for every rank; unbounded shapes", "anchors": ["src/ndarray/reduce.rs: reduced_shape_and_stride, reduce_along"]}
{"id": "C11", "title": "min/max are really extremal", "statement": "Over a totally ordered element type, a.max() (a.min()) is an upper (lower) bound of all elements and, if the start value is not beyond them, is one of the elements; max_magnitude / min_magnitude likewise for absolute values.", "quantifier": "all arrays, any linear order", "why_tests_cant": "quantifies over every array content", "anchors": ["src/ndarray/reduce.rs", "src/util/partial_ord.rs"]}
{"id": "C12", "title": "mean is the sum divided by the count", "statement": "a.mean() is sum(a)/size(a) and a.mean_along(axes) at J is the sum of J's fibre divided by the number of elements in that fibre; mean_along rejects negative axes.", "quantifier": "all shapes, all axis lists, any field", "why_tests_cant": "the divisor must match the number of folded elements for every axis subset", "anchors": ["src/ndarray/reduce.rs: mean, mean_along"]}
{"id": "C13", "title": "reshape preserves the row-major element sequence", "statement": "a.reshape(shape) succeeds exactly when a can be viewed with one uniform stride and the sizes agree (otherwise panics); the result has the given shape and its k-th element in row-major order is a's k-th element in row-major order, for every k; no memory is copied.", "quantifier": "all arrays/views, all target shapes", "why_tests_cant": "all shape pairs with equal product; layouts where the uniform-stride shortcut is taken", "anchors": ["src/common/reshape.rs: reshape", "src/ndarray/reshape.rs"]}
{"id": "C14", "title": "transpose swaps two axes", "statement": "a.transpose(i,j) has shape with entries i and j exchanged and element at idx equal to a's element at idx with entries i and j exchanged; transposing twice gives back the same tensor; T() exchanges axes 0 and 1; out-of-range axes panic.", "quantifier": "all arrays/views, all (positive or negative) axis pairs", "why_tests_cant": "all ranks, all axis pairs", "anchors": ["src/common/reshape.rs: transpose, T"]}
{"id": "C15", "title": "squeeze and unsqueeze only add or drop unit axes", "statement": "unsqueeze(axis) inserts an axis of extent 1 at the position (negative counts from the end) and squeeze() removes exactly the axes of extent 1; elements and their order are unchanged; squeezing an unsqueezed array without unit axes gives back the same tensor.", "quantifier": "all arrays/views, all axes", "why_tests_cant": "all ranks and positions", "anchors": ["src/common/reshape.rs: squeeze, unsqueeze"]}
{"id": "C16", "title": "Slicing selects exactly the requested sub-box", "statement": "a.slice(..)/slice_along with in-range indexers yields the view whose element at J is a's element at J shifted by each range start, with single-integer axes fixed and dropped and missing trailing indexers taken as full ranges; slicing a slice is slicing once with composed ranges; nothing outside a's elements is reachable.", "quantifier": "all arrays/views, all lists of in-range, non-empty indexers of every kind", "why_tests_cant": "the number of indexer combinations per rank is unbounded", "anchors": ["src/ndarray/slice.rs", "src/util/index.rs"]}
{"id": "C17", "title": "Out-of-range slices are rejected", "statement": "A slice whose range or index leaves the axis (start > end, end beyond the extent, index beyond the extent, too many indexers) panics instead of producing a view that reaches memory outside the array.", "quantifier": "all arrays, all indexers", "why_tests_cant": "quantifies over all out-of-range requests; an accepted bad slice is undefined behaviour, which a passing test cannot exclude", "anchors": ["src/ndarray/slice.rs", "src/util/index.rs"]}
{"id": "C18", "title": "Indexing is bounds-checked and total on valid indices", "statement": "a[[i0,..,ik]] returns the element at that multi-index for every in-range multi-index, of every array or view, and panics for every multi-index with a wrong number of coordinates or any coordinate out of range; it never reads outside the buffer.", "quantifier": "all arrays/views (owned, sliced, transposed, broadcast, diagonal), all index vectors", "why_tests_cant": "depends on layout of the view and bound of each axis, unbounded", "anchors": ["src/ndarray/index_impl.rs"]}
{"id": "C19", "title": "Indexed writes change exactly one element", "statement": "a[idx] = v on a writeable array changes the element at idx to v and leaves every other element unchanged; it is refused on read-only (broadcast) views.", "quantifier": "all arrays/views and index vectors", "why_tests_cant": "unbounded shapes; aliasing views", "anchors": ["src/ndarray/index_impl.rs: IndexMut"]}
{"id": "C20", "title": "clone is a deep, equal, contiguous copy", "statement": "a.clone() has a's shape and elements, owns a fresh contiguous buffer with exactly size(a) elements, and later writes to either do not affect the other, for every view layout.", "quantifier": "all arrays/views", "why_tests_cant": "the copying loop depends on how dimensions collapse", "anchors": ["src/ndarray/clone.rs"]}
{"id": "C21", "title": "flatten lists the elements in row-major order", "statement": "a.flatten() is the 1-D array of all size(a) elements in row-major order.", "quantifier": "all arrays/views", "why_tests_cant": "layout-dependent fast path", "anchors": ["src/ndarray/reshape.rs: flatten", "src/ndarray/clone.rs"]}
{"id": "C22", "title": "Equality is semantic", "statement": "a == b holds exactly when the shapes agree and corresponding elements are equal, independently of memory layout; with a reflexive/symmetric/transitive element equality it is an equivalence relation.", "quantifier": "all pairs of arrays/views", "why_tests_cant": "all layout pairs", "anchors": ["src/ndarray/equals.rs", "src/tensor/equals.rs"]}
{"id": "C23", "title": "Each buffer is freed exactly once", "statement": "Over any history of creating arrays, taking borrowed views, consuming reshapes/transposes, extracting the data vector and dropping values (in an order the borrow checker admits), no buffer is freed twice, none is used after being freed, and every buffer is freed once its owner is gone, with the capacity it was allocated with.", "quantifier": "all finite histories of those operations", "why_tests_cant": "a history property over unboundedly many operations; leaks and double frees are invisible to value assertions", "anchors": ["src/ndarray/constructors.rs: Drop", "src/ndarray/reshape.rs", "src/ndarray/methods.rs: into_data_vector"]}
{"id": "C24", "title": "fill sets exactly the view's elements", "statement": "a.fill(v) (and a.zero()) sets every element of the array or view to v and changes no other memory; a read-only view is not written.", "quantifier": "all arrays/views, all layouts", "why_tests_cant": "recursion over dimensions chooses different loops per layout", "anchors": ["src/ndarray/fill.rs", "src/ops/fill.rs"]}
{"id": "C25", "title": "View histories stay inside the buffer", "statement": "Starting from any freshly created array, every finite sequence of view operations (slice with in-range non-empty ranges, transpose, reshape, squeeze, unsqueeze, diagonal, view, broadcast_to) that does not panic yields a view all of whose in-range multi-indices address memory inside the original buffer.", "quantifier": "all finite sequences of view operations, all shapes", "why_tests_cant": "unbounded histories; memory safety must hold for every one", "anchors": ["src/ndarray/slice.rs", "src/ndarray/reshape.rs", "src/common/reshape.rs", "src/linalg/matrix_ops.rs", "src/ndarray/broadcast.rs"]}
{"id": "C26", "title": "is_contiguous / is_uniformly_strided tell the truth", "statement": "After every finite sequence of view operations, if the array reports itself contiguous then its elements in row-major order are exactly consecutive memory cells, and if it reports a uniform stride its k-th element is k strides from the first.", "quantifier": "all finite view histories", "why_tests_cant": "the flag is recomputed from strides after every operation and later fast paths (clone, reshape, data_slice) rely on it for every layout", "anchors": ["src/ndarray/slice.rs: update_flags_with_contiguity", "src/ndarray/iterator/collapse_contiguous.rs: has_uniform_stride"]}
{"id": "C27", "title": "Broadcast views are read-only through every further view", "statement": "A view obtained from broadcast_to, and every view derived from it, refuses in-place modification (op-assign, fill, indexed write).", "quantifier": "all finite view histories containing a broadcast", "why_tests_cant": "needs to hold for every later history", "anchors": ["src/ndarray/broadcast.rs: broadcast_to", "src/ndarray/assign_ops.rs", "src/ndarray/index_impl.rs", "src/ndarray/fill.rs"]}
{"id": "C28", "title": "einsum computes the sum of products named by its subscripts", "statement": "einsum(operands, (inputs, output)) with one letter per operand axis (repeats allowed, extents of equal letters agree, output letters distinct and occurring in the inputs) returns the array whose element at each assignment of the output letters is the sum, over all assignments of the other letters, of the product of the operands' elements at the letters' values.", "quantifier": "all operand counts, ranks, layouts, subscripts and contents over a commutative semiring", "why_tests_cant": "subscript patterns x layouts x axis reorderings x kernels is unbounded", "anchors": ["src/linalg/einsum.rs", "src/linalg/specialized_einsum.rs", "src/linalg/sum_of_products.rs", "src/ndarray/iterator/multi_flat_index_generator.rs"]}
{"id": "C29", "title": "einsum rejects malformed requests", "statement": "einsum panics when an operand has a different number of axes than letters in its subscript, when one letter names axes of different extents, when an output letter does not occur in the inputs or is repeated, and when the number of subscripts differs from the number of operands.", "quantifier": "all subscripts and operand shapes", "why_tests_cant": "unbounded malformed inputs", "anchors": ["src/linalg/einsum.rs: parse_operand_subscripts, parse_output_subscripts, prepare_einsum"]}
{"id": "C30", "title": "matmul is the matrix product", "statement": "a.matmul(b) is the dot product for 1-D x 1-D, the matrix-vector product for 2-D x 1-D and the matrix product for 2-D x 2-D: entry (i,j) is the sum over k of a[i,k]*b[k,j], for every layout of a and b; it panics on mismatched inner extents or other ranks.", "quantifier": "all matrices/vectors of all sizes and layouts over a commutative semiring", "why_tests_cant": "all sizes and strides; the implementation goes through einsum with stride-dependent loop orders", "anchors": ["src/linalg/matrix_ops.rs: matmul"]}
{"id": "C31", "title": "bmm multiplies batchwise", "statement": "a.bmm(b) for a of shape [B,m,k], b of shape [B,k,n] is [B,m,n] with each batch entry the matrix product of the corresponding slices, for every layout; it panics on mismatched shapes.", "quantifier": "all batch sizes, matrix sizes and layouts", "why_tests_cant": "unbounded sizes and strides; uses raw pointer bumps", "anchors": ["src/linalg/matrix_ops.rs: bmm, batch_matrix_matrix_product"]}
{"id": "C32", "title": "dot is the inner product", "statement": "a.dot(b) for 1-D arrays of equal length is the sum of products of corresponding elements for any strides; it panics otherwise.", "quantifier": "all lengths, strides and contents", "why_tests_cant": "unbounded lengths/strides", "anchors": ["src/linalg/matrix_ops.rs: dot", "src/ops/dot_product.rs"]}
{"id": "C33", "title": "diagonal selects the requested diagonal", "statement": "a.offset_diagonal_along(offset, axis1, axis2) has the remaining axes first and then one axis of the diagonal's length min(n1 - max(-offset,0), n2 - max(offset,0)); its element at (J,k) is a's element with axis1 = k + max(-offset,0), axis2 = k + max(offset,0), other axes J; it panics for fewer than 2 axes, equal axes or an offset past the edge.", "quantifier": "all arrays/views, axis pairs (negative allowed) and offsets", "why_tests_cant": "all ranks, offsets, axis pairs", "anchors": ["src/linalg/matrix_ops.rs: offset_diagonal_along"]}
{"id": "C34", "title": "trace sums the diagonal", "statement": "trace / offset_trace / trace_along equal the sum over k of a's elements on the selected diagonal, for each remaining index.", "quantifier": "all arrays/views, offsets, axis pairs", "why_tests_cant": "all ranks and offsets", "anchors": ["src/linalg/matrix_ops.rs: trace, offset_trace_along"]}
{"id": "C35", "title": "iter / iter_along yield every sub-array once in order", "statement": "arr.iter() (iter_along(axis)) yields exactly shape[0] (shape[axis]) views, the k-th being the view with that coordinate fixed to k.", "quantifier": "all arrays/views and axes", "why_tests_cant": "pointer arithmetic per axis for every rank", "anchors": ["src/ndarray/iterator/tensor_iterator.rs", "src/ndarray/iterator/iterators.rs"]}
{"id": "C36", "title": "nditer over several axes yields every sub-array once", "statement": "arr.nditer(axes) yields, for each assignment of the selected axes in row-major order, exactly the view with those coordinates fixed.", "quantifier": "all arrays/views and axis sets", "why_tests_cant": "all axis subsets and layouts", "anchors": ["src/ndarray/iterator/tensor_iterator.rs", "src/ndarray/iterator/util.rs"]}
{"id": "C37", "title": "Axis numbers: negative counts from the end, others rejected", "statement": "An axis argument a of an n-dimensional array is accepted exactly when -n <= a < n and denotes axis a if a >= 0, n + a otherwise.", "quantifier": "all ranks, all integers", "why_tests_cant": "all integers", "anchors": ["src/util/axis.rs: as_absolute"]}
{"id": "C38", "title": "arange has the right length and values", "statement": "arange(start, stop) / arange_with_step(start, stop, step) with step > 0 and stop >= start is the 1-D array start, start+step, .. of all values below stop, i.e. exactly ceil((stop-start)/step) values; with step < 0 and stop <= start it is that of all values above stop; step = 0 panics.", "quantifier": "all start, stop, step", "why_tests_cant": "rounding in the length computation is wrong only for large ranges", "anchors": ["src/common/constructors.rs: arange_with_step", "src/util/dtype.rs: to_float"]}
{"id": "C39", "title": "linspace has num points and hits both ends", "statement": "linspace(start, stop, num) has exactly num evenly spaced values from start to stop inclusive; linspace_exclusive has exactly num values excluding stop; num = 0 panics.", "quantifier": "all start, stop, num (exact arithmetic)", "why_tests_cant": "all num", "anchors": ["src/common/constructors.rs: linspace, linspace_exclusive"]}
{"id": "C40", "title": "backward computes the exact vector-Jacobian product", "statement": "For every computation built from tensors by + - * / neg, scalar operators, matmul, dot, bmm, reshape, squeeze, unsqueeze, transpose and broadcasting, with any sharing of intermediate results, if y.backward_with(g) completes then each leaf's accumulated gradient increases by exactly the vector-Jacobian product of y with respect to that leaf at g (the transpose of the linearisation of the computation).", "quantifier": "all finite computation graphs, all shapes, all values over a field, all seeds g", "why_tests_cant": "the graphs are unbounded; gradient tests sample a few expressions", "anchors": ["src/autograd/*.rs", "src/tensor/ops.rs", "src/tensor/matrix_ops.rs", "src/tensor/reshape.rs", "src/tensor/autograd.rs"]}
{"id": "C41", "title": "A gradient has the shape of its tensor", "statement": "Whenever a leaf tensor has a gradient, the gradient has exactly the leaf's shape, after any sequence of backward and zero_gradient calls through any graph, including broadcasting operands.", "quantifier": "all graphs and histories", "why_tests_cant": "broadcast reduction must be undone for every shape pair", "anchors": ["src/autograd/util.rs: reduce_gradient", "src/autograd/accumulate_grad.rs"]}
{"id": "C42", "title": "Gradients accumulate and reset", "statement": "Successive backward calls add up (two backward passes give the sum of the two gradients, independent of their order), zero_gradient resets to zero, and backward is linear in the seed gradient.", "quantifier": "all graphs, all seeds, all histories of backward/zero_gradient", "why_tests_cant": "histories unbounded", "anchors": ["src/autograd/accumulate_grad.rs", "src/tensor/autograd.rs"]}
{"id": "C43", "title": "requires_grad and leaf status propagate", "statement": "The result of an operation requires gradient exactly when one of its operands does; only leaves that require gradient are ever changed by backward; tensors with requires_grad=false (and detach()ed ones) receive none; a leaf that does not reach the output keeps its gradient unchanged.", "quantifier": "all graphs", "why_tests_cant": "all graphs", "anchors": ["src/tensor/autograd.rs", "src/tensor/ops.rs", "src/tensor/constructors.rs", "src/autograd/none_backwards.rs"]}
{"id": "C44", "title": "backward completes on every graph that was built", "statement": "If a computation was built without a panic and its result requires gradient, then y.backward() completes without a panic.", "quantifier": "all graphs, shapes and values", "why_tests_cant": "requires the shape/layout of every intermediate gradient to be acceptable to every backward function", "anchors": ["src/autograd/reshape_backwards.rs", "src/autograd/transpose_backwards.rs", "src/autograd/util.rs", "src/common/reshape.rs: reshape"]}
{"id": "C45", "title": "backward reads only live memory", "statement": "Building an expression from tensors and views of tensors, dropping any intermediate tensors the borrow checker allows to drop, and then calling backward never reads memory that has been freed.", "quantifier": "all histories of building, dropping and backward", "why_tests_cant": "a use-after-free usually returns the right value in a test", "anchors": ["src/tensor/reshape.rs", "src/autograd/mul_backwards.rs", "src/tensor/constructors.rs"]}
{"id": "C46", "title": "gradient() of a non-leaf is None", "statement": "t.gradient() is Some exactly for leaf tensors that require gradient; a computed tensor reports None and zero_gradient on it changes no other tensor.", "quantifier": "all tensors", "why_tests_cant": "all graphs", "anchors": ["src/tensor/autograd.rs: gradient, zero_gradient", "src/autograd/identity_backwards.rs"]}
{"id": "C47", "title": "randint stays in its half-open interval", "statement": "randint(low, high, shape) panics unless low < high, and every value r it returns satisfies low <= r < high.", "quantifier": "all low, high and all random draws", "why_tests_cant": "the endpoint is hit with tiny probability for large ranges", "anchors": ["src/common/random.rs: randint"]}
{"id": "C48", "title": "astype converts elementwise", "statement": "a.astype::<U>() has a's shape and each element is the numeric cast of the corresponding element, for every layout; it panics if some element is not representable.", "quantifier": "all arrays/views, any partial cast function", "why_tests_cant": "all layouts and values", "anchors": ["src/ndarray/astype.rs"]}
{"id": "C49", "title": "SIMD kernels agree with the portable kernels", "statement": "On exact (associative, commutative) arithmetic the unrolled vector kernels for binary operators, negation, reductions and sum-of-products give the same result as the portable loops for every length, including lengths not divisible by the vector block.", "quantifier": "all lengths, strides and contents", "why_tests_cant": "tail handling must be right for every length modulo the block size; neon kernels do not even build on other hosts", "anchors": ["src/ops/simd_binary_ops.rs", "src/ops/simd_neg.rs", "src/ops/simd_reduce_ops.rs", "src/ops/simd_sum_of_products.rs"]}
{"id": "C50", "title": "full/zeros/ones/scalar", "statement": "full(v, shape) has the given shape, every element equal to v, and panics exactly when the shape has an extent 0; scalar(v) has rank 0 and value() = v.", "quantifier": "all shapes and values", "why_tests_cant": "all shapes", "anchors": ["src/common/constructors.rs: full, zeros, ones, scalar", "src/ndarray/methods.rs: value"]}
{"id": "C51", "title": "Debug output shows exactly the elements in order", "statement": "The printed form of an array is the nested bracket rendering of its elements: bracket nesting equals rank and the printed elements, read left to right, are the elements in row-major order; formatting never panics for a non-empty array.", "quantifier": "all arrays/views", "why_tests_cant": "recursion over all ranks and layouts", "anchors": ["src/ndarray/print.rs"]}
{"id": "C52", "title": "Ragged nested data is rejected", "statement": "NdArray::new(data) panics whenever the nested data is not rectangular; otherwise the product of the shape equals the number of stored elements.", "quantifier": "all nested vectors of any depth", "why_tests_cant": "depth unbounded; a missed level corrupts memory accesses later", "anchors": ["src/util/homogenous.rs", "src/util/shape.rs", "src/util/flatten.rs"]}
{"id": "C53", "title": "einsum_view is einsum without copying", "statement": "When einsum_view(a, (sub, out)) returns a view it equals einsum of the same single operand and subscripts (permuted axes and diagonals), sharing a's memory; it returns None exactly when some letter is summed over.", "quantifier": "all arrays/views and subscripts", "why_tests_cant": "all subscript patterns and layouts", "anchors": ["src/linalg/einsum.rs: einsum_view, reshape_shape_and_stride_for_einsum"]}
{"id": "C54", "title": "Zero-sized inputs are harmless", "statement": "Operations on arrays with an axis of extent 0 (e.g. arange(0,0)) either produce the mathematically empty/zero result or panic; they never perform an undefined operation.", "quantifier": "all operations on empty arrays", "why_tests_cant": "undefined behaviour from unchecked assumptions is not observable by assertions", "anchors": ["src/linalg/specialized_einsum.rs: assert_unchecked", "src/ndarray/slice.rs: calculate_strided_buffer_length"]}
{"id": "C55", "title": "linspace returns num points on floats", "statement": "On f32 and f64 with IEEE rounding, linspace(start, stop, num) and linspace_exclusive(start, stop, num) return arrays with exactly num elements for start < stop.", "quantifier": "all floats start < stop and all num", "why_tests_cant": "whether the rounded quotient lands above an integer depends on every bit of the inputs; most small examples come out right", "anchors": ["src/common/constructors.rs: linspace, linspace_exclusive, arange_with_step", "src/util/dtype.rs: to_float"]}
{"id": "C56", "title": "BLAS products agree with the portable ones", "statement": "In a build with BLAS, matmul, bmm, matrix-vector products and dot products of f32/f64 arrays and views return, up to rounding, what the portable build returns (or panic when it panics), call the BLAS routines within their documented contract and never touch memory outside the operands.", "quantifier": "all operand shapes and layouts accepted by matmul, bmm and dot", "why_tests_cant": "the accelerated paths exist only in some builds, depend on strides that few tests vary, and a violated contract or an out-of-bounds read need not be visible in the result", "anchors": ["src/linalg/matrix_ops.rs: MatrixOps for f32, f64", "src/ops/dot_product.rs", "src/acceleration/cblas.rs"]}
{"id": "C57", "title": "vDSP kernels agree with the portable ones", "statement": "In a build for Apple's vDSP, the elementwise operators, fill, the whole-array reductions and the dot products give, up to rounding, what the portable build gives (or panic when it panics).", "quantifier": "all arrays and views of f32, f64, i32 and u32, every layout and length including 0", "why_tests_cant": "the tests run one build at a time; the routines take some operands in the other order, start reductions from infinities instead of the finite extremes, and wrap integers silently, which a handful of small test values does not show", "anchors": ["src/ops/binary_op_add.rs", "src/ops/binary_op_sub.rs", "src/ops/binary_op_mul.rs", "src/ops/binary_op_div.rs", "src/ops/fill.rs", "src/ops/reduce_max.rs", "src/ops/reduce_min.rs", "src/ops/reduce_sum.rs", "src/ops/dot_product.rs", "src/acceleration/vdsp.rs"]}
{"id": "C58", "title": "assert_almost_eq! accepts exactly the arrays that agree within the tolerance", "statement": "assert_almost_eq!(a, b, tol) passes when a and b have the same shape and every pair of elements differs by at most tol in absolute value, and panics in every other case.", "quantifier": "all pairs of non-empty arrays of any shape and layout, all tolerances", "why_tests_cant": "this macro is what the tests themselves are written with: if it accepts wrong results no test can notice", "anchors": ["src/macros.rs:148", "src/ndarray/reduce.rs", "src/ops/reduce_max.rs"]}
{"id": "C59", "title": "Integer results are exact whenever they fit", "statement": "For integer arrays, sums, products and elementwise sums, differences and products are the exact mathematical value whenever that value fits the element type; otherwise a debug build panics and a release build returns the value modulo 2^w. Magnitude reductions likewise.", "quantifier": "all integer types, all arrays and views of any size, debug and release builds", "why_tests_cant": "tests use small numbers, where nothing overflows; overflow of an intermediate result depends on the order of accumulation and on the build profile", "anchors": ["src/ops/reduce_sum.rs:20", "src/ops/reduce_product.rs:20", "src/ops/reduce_min_magnitude.rs", "src/ops/reduce_max_magnitude.rs", "src/ndarray/reduce.rs:78", "src/util/absolute.rs", "src/util/partial_ord.rs", "Cargo.toml:37"]}
{"id": "C60", "title": "data_slice and into_data_vector expose exactly the elements", "statement": "If data_slice() or into_data_vector() returns, the result lists the array's elements in row-major order; otherwise it panics. Both succeed on every array that is laid out contiguously (into_data_vector: and owns its data).", "quantifier": "all arrays and views reachable from a constructor by view operations", "why_tests_cant": "the slice is made from a raw pointer and a stored length; whether length and contiguity flag match the view depends on the whole chain of view operations", "anchors": ["src/ndarray/methods.rs:41", "src/ndarray/methods.rs:60"]}
{"id": "C61", "title": "NaN and infinities do not hide other elements in min and max", "statement": "On f32/f64 arrays, max()/min() (and max_along/min_along) return the greatest/least of the elements that are not NaN, infinities included; max_magnitude/min_magnitude likewise for absolute values. A NaN never makes another element disappear, and the answer is an element of the array whenever some element is a number.", "quantifier": "all arrays of floats with any number of NaNs and infinities at any position, every layout", "why_tests_cant": "the outcome depends on the position of the NaN relative to every other element and on the build; the tests contain no NaN and no infinity", "anchors": ["src/util/partial_ord.rs", "src/ndarray/reduce.rs", "src/ops/reduce_max.rs", "src/ops/reduce_min_magnitude.rs"]}
{"id": "C62", "title": "Sizes and offsets never wrap around", "statement": "With 64-bit (or 32-bit) usize, in debug and release builds: creating, reshaping or broadcasting to a shape whose element count does not fit in usize is refused; otherwise the reported size, the stored length, the strides and the position of every in-range element are the exact ones.", "quantifier": "all shapes, all arrays and views lying in an allocation of at most isize::MAX bytes, all indices, both builds", "why_tests_cant": "needs shapes whose products exceed 2^64, and release builds behave differently from the debug builds the tests run in", "anchors": ["src/common/constructors.rs", "src/ndarray/constructors.rs", "src/common/reshape.rs", "src/ndarray/broadcast.rs", "src/ndarray/index_impl.rs", "src/common/methods.rs"]}
{"id": "C63", "title": "Floating-point reductions and products obey the textbook error bound", "statement": "On arrays of floats with p significant bits (f32: 24, f64: 53), with u = 2^-p and barring overflow and underflow, sum, sum_along, trace, product, mean, dot, matmul, bmm and einsum return values that differ from the exact ones by at most ((1+u)^k - 1) times the same expression on the absolute values, where k is the number of terms plus the number of factors per term minus 2 (for mean one more, or two more if the number of terms exceeds 2^p); in the portable and the vector (NEON) build alike. Elementwise operators are off by at most u times the exact value.", "quantifier": "all float arrays, shapes and layouts, all lengths, both builds", "why_tests_cant": "a bound on the error over all inputs and lengths; the order of the additions differs between kernels and builds, so single expected values say nothing", "anchors": ["src/ops/reduce_sum.rs", "src/ops/reduce_product.rs", "src/ndarray/reduce.rs", "src/ops/dot_product.rs", "src/linalg/sum_of_products.rs", "src/ops/simd_reduce_ops.rs", "src/ops/simd_sum_of_products.rs", "src/linalg/matrix_ops.rs", "src/linalg/einsum.rs"]}
{"id": "C64", "title": "Float arithmetic on integers of moderate size is exact", "statement": "If all elements of the float arrays are integers and the same expression on their absolute values is at most 2^p (f32: 2^24, f64: 2^53), then sum, sum_along, trace, product, dot, matmul, bmm and einsum return the exact integer result, whatever the order of the operations, in the portable and the vector build.", "quantifier": "all integer-valued float arrays within the bound, all shapes and layouts, both builds", "why_tests_cant": "universal over contents and lengths; the library's own tests compare float results with integers and rely on it", "anchors": ["src/ops/reduce_sum.rs", "src/ops/reduce_product.rs", "src/ndarray/reduce.rs", "src/ops/dot_product.rs", "src/linalg/sum_of_products.rs", "src/ops/simd_reduce_ops.rs", "src/ops/simd_sum_of_products.rs", "src/linalg/matrix_ops.rs", "src/linalg/einsum.rs"]}
{"id": "C65", "title": "einsum agrees with the named operations", "statement": "einsum with the subscripts of a named operation returns an array that compares equal (==) to the result of that operation: 'ij,jk->ik' = matmul, 'ij,j->i' = matrix-vector matmul, 'i,i->' = dot, 'bij,bjk->bik' = bmm, 'ij->ji' = T, 'ii->i' = diagonal, 'ii->' = trace, 'ij->i' and 'ij->j' = sum_along, 'i,j->ij' = the broadcast product of a column and a row, 'ij,ij->ij' = *; for every choice of letters.", "quantifier": "all arrays, sizes, layouts and element values over a commutative semiring, all letters", "why_tests_cant": "the two sides go through different planners, loops and kernels; equality for all layouts and sizes cannot be enumerated", "anchors": ["src/linalg/einsum.rs", "src/linalg/matrix_ops.rs", "src/ops/dot_product.rs", "src/ndarray/reduce.rs", "src/ndarray/reshape.rs", "src/ndarray/equals.rs", "src/ops/binary_ops.rs"]}
{"id": "C66", "title": "Products, transposes and traces obey the laws of linear algebra", "statement": "Through the API and up to ==, over exact arithmetic: (AB)C = A(BC), (AB)v = A(Bv), A(B+C) = AB+AC, (A+B)C = AC+BC, (AB)^T = B^T A^T, tr(AB) = tr(BA), tr(A^T) = tr(A), dot is symmetric, u.(Av) = (A^T u).v, and slice x of bmm(a,b) is the matmul of the slices x.", "quantifier": "all arrays of fitting sizes and any layouts over a commutative semiring", "why_tests_cant": "universally quantified equations between compositions of several operations on views of arbitrary layout", "anchors": ["src/linalg/matrix_ops.rs", "src/ops/dot_product.rs", "src/common/reshape.rs", "src/ndarray/slice.rs", "src/ops/binary_ops.rs", "src/ndarray/reduce.rs"]}
{"id": "C67", "title": "Sums do not depend on how they are taken", "statement": "Through the API and up to ==: sum_along over all axes, in any order of the axes, equals sum; the order in which the axes are listed does not matter; summing along one axis and then along another equals summing along both; transposing first does not change sum; sum(a+b) = sum(a)+sum(b) for arrays of one shape, sum(c*a) = c*sum(a); and cutting an axis in two, the sums of the two slices add up to the sum.", "quantifier": "all arrays, shapes, layouts, axes over a commutative semiring", "why_tests_cant": "equations between different reductions over all ranks, axes and layouts", "anchors": ["src/ndarray/reduce.rs", "src/ops/reduce_sum.rs", "src/ops/binary_ops.rs", "src/common/reshape.rs", "src/ndarray/slice.rs"]}
{"id": "C68", "title": "A NaN or an infinity among the inputs is never lost in sums and products", "statement": "On f32/f64 arrays, if any element that enters a result of sum, sum_along, product, product_along, trace, mean, dot, matmul, bmm or einsum is NaN, that result is NaN; if any such element is NaN or infinite, that result is NaN or infinite. No kernel skips an element because its partner is zero or because the partial product already is zero, in the portable and in the vector (NEON) build.", "quantifier": "all float arrays with any number of NaNs and infinities at any positions, every shape and layout, all subscripts of einsum, both builds", "why_tests_cant": "a kernel that skips zeros, hoists a zero factor out of a loop or replaces 0*x by 0 gives the same numbers on all finite data; the tests contain no NaN and no infinity", "anchors": ["src/ops/reduce_sum.rs", "src/ops/reduce_product.rs", "src/ndarray/reduce.rs", "src/ops/dot_product.rs", "src/linalg/sum_of_products.rs", "src/ops/simd_sum_of_products.rs", "src/linalg/matrix_ops.rs", "src/linalg/einsum.rs"]}
{"id": "C69", "title": "No spurious overflow or underflow: moderate inputs give finite results within the error bound", "statement": "On f32/f64 arrays with IEEE arithmetic (overflow to infinity, gradual underflow, signed zeros), if all elements are finite and the expression evaluated on max(1,|x|), times (1+u)^k, is below the overflow threshold 2^(emax+1), and the elements of an expression with F factors are multiples of 2^-q with F*q at most emax+p-2 (always true for sums), then sum, sum_along, product, trace, dot, matmul, bmm and einsum return finite numbers that obey the bound of C63; and if the elements are integers and the expression on max(1,|x|) is at most 2^p, the results are exact. In the portable and in the vector build, whatever the order of the operations.", "quantifier": "all float arrays, shapes and layouts, all lengths, f32 and f64, both builds", "why_tests_cant": "whether an intermediate value leaves the range depends on the order of the operations, on which factor a kernel pulls out of a sum, and on all elements at once; tests use small numbers", "anchors": ["src/ops/reduce_sum.rs", "src/ops/reduce_product.rs", "src/ndarray/reduce.rs", "src/ops/dot_product.rs", "src/linalg/sum_of_products.rs", "src/ops/simd_reduce_ops.rs", "src/ops/simd_sum_of_products.rs", "src/linalg/matrix_ops.rs", "src/linalg/einsum.rs"]}
{"id": "C70", "title": "Random float constructors fill their shape with numbers of the promised interval", "statement": "rand(shape) returns an array of that shape whose elements lie in [0, 1); uniform(shape, low, high) returns elements in [low, high) and panics when low is not below high or a bound is NaN; randn(shape) returns the normal draws rounded to the element type. For every shape, including empty ones, and for every draw of the generator.", "quantifier": "all shapes, all sequences of draws the generator may produce, all bounds, f32 and f64", "why_tests_cant": "tests see a handful of draws; the value that leaves the half-open interval appears once in 2^25 draws", "anchors": ["src/common/random.rs"]}
{"id": "C71", "title": "Elementwise float arithmetic is correctly rounded", "statement": "For f32/f64 arrays, each element of a+b, a-b, a*b, a/b (arrays with broadcasting, or array and scalar) with finite operands, and a nonzero divisor, is the IEEE 754 result: a number of the format nearest to the exact result, on a tie the one with the even significand, an infinity of the right sign exactly when the exact result is at or beyond the overflow threshold. Hence a result that is a number of the format is exact, a-b is exact when the operands are within a factor two, and a-b is zero exactly when the operands are equal. The same in the portable and in the vector build.", "quantifier": "all finite floats, all shapes and layouts, both builds", "why_tests_cant": "a kernel that computes a/b as a*(1/b), computes in another precision, or flushes subnormals to zero agrees with the correct one on small integers and within any tolerance", "anchors": ["src/ops/binary_ops.rs", "src/ops/simd_binary_ops.rs", "src/ndarray/binary_ops.rs"]}
{"id": "C72", "title": "Reductions of non-negative floats respect sign and order", "statement": "If no element that enters a result is NaN or negative, then sum, sum_along and trace return a value that is not NaN, not negative and at least as large as each of the elements, rounding and overflow included; product, product_along, dot, matmul, bmm and einsum never return a negative number when no element that enters is negative. In the portable and in the vector build, whatever the order of the operations.", "quantifier": "all float arrays without negative numbers, every shape, layout and length, all subscripts of einsum, both builds", "why_tests_cant": "depends on the monotonicity of every rounding in an order chosen by layout and build; a compensated or difference-based kernel passes all tolerance tests and still returns a tiny negative variance", "anchors": ["src/ops/reduce_sum.rs", "src/ops/reduce_product.rs", "src/ndarray/reduce.rs", "src/ops/dot_product.rs", "src/linalg/sum_of_products.rs", "src/ops/simd_sum_of_products.rs", "src/linalg/matrix_ops.rs", "src/linalg/einsum.rs"]}
{"id": "C73", "title": "Rounding errors of gradients: within the textbook bound of the exact derivative", "statement": "In a session with float tensors (any sequence of operations and backward passes), every value and every gradient computed in floating point differs from the one computed without rounding, for gradients the exact vector-Jacobian product, by at most ((1+u)^k - 1) times the same computation on absolute values, where k counts roundings by the rules for +, -, *, /, fused multiply-add and negation; the bound is missing only behind a division by 0 or by the result of a cancellation. If only integers and no division are involved and the computation on absolute values stays at or below 2^p, values and gradients are exact. On f32 and f64 this holds for every element for which no operation overflows, underflows or divides by zero, and such elements are finite.", "quantifier": "all sessions of tensor operations, all shapes and float contents, all seeds, any precision, f32 and f64, the portable build and the NEON build", "why_tests_cant": "tests compare gradients with a fixed tolerance on a few graphs; a backward rule that reorders a division or accumulates in another order can lose all digits on other graphs", "anchors": ["src/autograd/mod.rs", "src/autograd/div_backwards.rs", "src/autograd/mul_backwards.rs", "src/autograd/matrix_product_backwards.rs", "src/autograd/matrix_vec_backwards.rs", "src/autograd/accumulate_grad.rs", "src/tensor/mod.rs"]}
{"id": "C74", "title": "Gradients of matrix products are the same with BLAS", "statement": "In a build with BLAS, backward() through matmul (matrix with matrix, matrix with vector) and bmm of f32/f64 tensors gives, up to rounding, the gradients of the portable build, grad @ b^T and a^T @ grad, and calls the BLAS routines within their documented contract.", "quantifier": "all extents m, k, n and batch sizes, including extent 1 (a layer with one unit), all values, all gradients of the result", "why_tests_cant": "the transposes taken in the backward pass have layouts that the forward pass never uses; whether they meet the contract of BLAS depends on which extents are 1, and a violated contract need not be visible in the result", "anchors": ["src/autograd/matrix_product_backwards.rs: MatrixProductBackwards::backward", "src/autograd/matrix_vec_backwards.rs: MatrixVecBackwards::backward", "src/autograd/bmm_backwards.rs: BMMBackwards::backward", "src/linalg/matrix_ops.rs: MatrixOps for f32, f64"]}
{"id": "C75", "title": "The layout alone decides whether an operation can be trusted", "statement": "For compound assignment, whole-array reductions (sum, product, min, max, the magnitudes, mean), reshape, slices, indexed reads and writes, clone, flatten, fill, iteration along one axis and data_slice on any view: the operation is right for all contents of the memory if and only if a condition on the shape, the strides and the recorded length of the view holds; the condition can be checked before the call and is stated per operation.", "quantifier": "all shapes, strides, offsets and lengths of valid views (rank at most 32, flags as the library sets them), all contents", "why_tests_cant": "a test shows that one layout is handled right for one content; which layouts are safe, and that all the others go wrong for some content, ranges over infinitely many layouts and contents", "anchors": ["src/ops/fill.rs", "src/ndarray/reduce.rs", "src/ndarray/slice.rs", "src/ndarray/index_impl.rs", "src/ndarray/clone.rs", "src/ndarray/reshape.rs", "src/ops/binary_ops.rs", "src/ndarray/iterator/"]}
{"id": "C76", "title": "Slices agree between debug and release builds", "statement": "slice and slice_along give the same view in debug and release builds, or are refused by both; a view that is returned has exactly the shape and elements asked for, and never shows memory beyond the array it was taken from.", "quantifier": "all arrays and views, all lists of integers and ranges (empty and reversed ones included), both build profiles, every width of usize", "why_tests_cant": "tests are run in a debug build, where every underflow panics; release builds have overflow checks switched off, so the accepted inputs differ, and what the wrapped lengths do depends on strides and extents", "anchors": ["Cargo.toml: [profile.release] overflow-checks = false", "src/util/index.rs: Indexer::indexed_length", "src/ndarray/slice.rs: calculate_strided_buffer_length, slice_along, slice"]}
{"id": "C77", "title": "Remainder, bitwise and shift operators and negation on arrays", "statement": "For integer arrays of any layout and broadcastable shapes, a % b has in every position the remainder with the sign of the dividend and panics exactly if some divisor is 0 or some pair is MIN, -1; a & b and a | b combine the bits of the two's complement representations; a << b and a >> b multiply by, or divide by and round down, a power of two, dropping the bits that do not fit, where a shift amount that is negative or at least the width panics in a debug build and is reduced modulo the width in a release build; -a is the exact negation, except that MIN panics in a debug build and stays MIN in a release build. The same holds with a scalar on the right. For float arrays a % b is exact, never rounded.", "quantifier": "all integer widths, signed and unsigned, all float formats, all arrays, views and broadcastable shapes, debug and release builds", "why_tests_cant": "there are 2^2w pairs of operands; panics depend on single pairs (MIN, -1) and on the build profile; exactness of the float remainder is a statement about all pairs of floats", "anchors": ["src/ops/binary_ops.rs:255-275", "src/ndarray/binary_ops.rs:91-101", "src/ops/unary_ops.rs:64", "src/ndarray/unary_ops.rs"]}
{"id": "C78", "title": "astype keeps, truncates, rounds or refuses numbers", "statement": "For every array of at most 32 axes, in any layout: converting integers to an integer type keeps all numbers if all fit and panics otherwise; converting floats to an integer type drops the fractional part (towards zero) if all results fit and panics if some element is NaN, infinite or too large; converting integers to floats never panics and gives the nearest float, exactly the number if its absolute value is at most 2^24 (f32) or 2^53 (f64); converting floats to floats never panics, keeps NaN, infinities and signed zeros and otherwise gives the nearest float. f32 to f64 and back changes nothing; integers of at most 24 (53) bits survive the way to f32 (f64) and back, larger ones may change or panic on the way back.", "quantifier": "all arrays and views of rank at most 32, all elements, all integer widths, signed and unsigned, all pairs of float formats", "why_tests_cant": "there are up to 2^64 values per element and 100 pairs of types; wrong results occur only near the limits of the types and at ties between two floats", "anchors": ["src/ndarray/astype.rs:6-17", "src/util/dtype.rs"]}
{"id": "C79", "title": "More than 32 axes: right or a panic", "statement": "Arrays may have any number of axes, although the iterators hold at most 32. For arrays of any rank: flatiter(), ==, printing, astype, operators with an array or a scalar, negation and reductions along axes, and for views made without broadcast_to clone and reductions over all elements, and compound assignment to contiguous arrays, either give the result specified for at most 32 axes, or panic; they panic only if the array has more than 32 axes. Newly created arrays of any rank are iterated, compared, printed, converted, negated, combined with scalars, updated in place (also by a new array of the same shape), cloned and reduced over all elements without a panic, and so are two new arrays of the same shape without extents of 1 when combined by an operator.", "quantifier": "all arrays and views of any rank, all shapes and strides, all operators and kernels", "why_tests_cant": "tests use a handful of small ranks; a wrong bound on a fixed-size buffer only shows beyond 32 axes that cannot be merged, and shapes and strides of all ranks cannot be enumerated", "anchors": ["src/ndarray/iterator/flat_index_generator.rs:18-39", "src/ndarray/iterator/collapse_contiguous.rs:45-76", "src/ops/binary_ops.rs:60-140", "src/ndarray.rs:190"]}
{"id": "C80", "title": "Lengths of rounded ranges are off by at most one", "statement": "With rounding, arange_with_step(start, stop, step) on f32 and f64, upwards or downwards, and upwards on integers of any size if the values up to stop + step fit the type, never panics when X = (stop - start) / step is between 0 and 2^24 / 5; the number of elements differs from the exact ceil(X) by at most one, and for floats it is exact whenever X is further from every integer than 5 / 2^24 of itself. linspace_exclusive(start, stop, num) with start different from stop and num up to 2^21 has num or num + 1 elements, never fewer. linspace(start, stop, num) with num up to 2^20 has num or num + 1 elements if |stop| is at most 2^(p-2) times the spacing (p = 24 for f32, 53 for f64); without that condition it can have fewer. The element at position i is start + i * spacing up to two roundings for arange_with_step, up to four for the other two, and exact for integers.", "quantifier": "all start, stop, step and num in the stated ranges, f32, f64 and all integer types, debug and release builds (exponent range of floats unbounded)", "why_tests_cant": "the length depends on the rounding of five or more operations for every triple of floats; tests sample a few round numbers, and C55 shows that some of them are already wrong by one", "anchors": ["src/common/constructors.rs:157-262", "src/util/dtype.rs:52-54"]}
{"id": "C81", "title": "randint chooses evenly", "statement": "randint(shape, low, high) on integers gives each of low, .., high - 1 the same chance: of draws spread evenly over [low, high), the draws that give k have the same total length for every k with low <= k < high. Exactly (the property is false of the code): the element is the integer nearest to the draw, so values strictly between the bounds get a unit of length each, low and the excluded high half a unit each.", "quantifier": "all integer bounds low < high and all values k", "why_tests_cant": "a test sees finitely many draws and cannot tell a probability from a frequency; the halved chance of low is invisible without a statistical test", "anchors": ["src/common/random.rs:88-114"]}
{"id": "C82", "title": "A linear layer in floats, forwards and backwards", "statement": "For float tensors x of shape [m, k], w of shape [k, n] and b of shape [n] with m, k, n > 0, each a leaf that requires gradients or not, z = x.matmul(&w) + &b and z.backward_with(g) never fail; as long as nothing overflows or underflows, every z[i, j] differs from the exact sum_t x[i,t] w[t,j] + b[j] by at most ((1+u)^(k+1) - 1) times the same sum of absolute values; what backward adds to the gradients of x, w and b differs from g w^T, x^T g and the column sums of g by at most the bound for n, m and m - 1 roundings, with one more rounding for the addition to what was there before; no other gradient changes.", "quantifier": "all m, k, n > 0, all float contents and layouts of x, w, b and g, all contents of the accumulators, any precision, the portable build and the NEON build", "why_tests_cant": "tests check a few small layers against a tolerance; a reduction over the wrong axis for square shapes, an accumulator that is overwritten, or a summation order that loses digits for long sums shows only for other shapes, contents and numbers of passes", "anchors": ["src/tensor/matrix_ops.rs", "src/tensor/ops.rs", "src/autograd/add_backwards.rs", "src/autograd/matrix_product_backwards.rs", "src/autograd/accumulate_grad.rs", "src/autograd/util.rs"]}
{"id": "C83", "title": "Float ranges are in order and keep their ends", "statement": "On f32 and f64, an array returned by arange_with_step(start, stop, step), linspace(start, stop, num) or linspace_exclusive(start, stop, num) begins with exactly start (if it has elements) and never goes back: its elements are non-decreasing towards a larger stop (positive step) and non-increasing towards a smaller one. The elements of arange_with_step are distinct when |step| is more than 5 * 2^-p times |start| + n |step| (n elements, p = 24 for f32, 53 for f64). No element of arange_with_step reaches stop, and the last element of linspace is stop.", "quantifier": "all floats start, stop, step and all num for which the call returns (exponent range of floats unbounded)", "why_tests_cant": "order and distinctness must hold for every pair of neighbours of every range; whether the last element meets stop depends on the rounding of every bit of the inputs", "anchors": ["src/common/constructors.rs:157-262", "src/util/dtype.rs:52-54"]}
{"id": "C84", "title": "Skipping elements of a flat iterator", "statement": "After FlatIndexGenerator::advance_by(n) the iterator continues as after n calls of next: the next element yielded is the one n places further on in row-major order, and the iterator is exhausted exactly when fewer elements were left. Exactly (the property is false of the code): the number of elements left and the multi-dimensional index are right, the position in memory is not moved, so the next element is right iff it lies in the same cell; in debug builds a later call of next may panic, while without advance_by no call of next does.", "quantifier": "all shapes, strides, positions reached by next, and n", "why_tests_cant": "unbounded layouts, positions and step sizes; nothing in the library calls the method", "anchors": ["src/ndarray/iterator/flat_index_generator.rs: FlatIndexGenerator::advance_by, Iterator::next", "src/ndarray/iterator/buffer_iterator.rs: BufferIterator::advance_by"]}
{"id": "C85", "title": "Element values never decide whether a tensor program runs", "statement": "Two tensor programs (any mix of constructors, arithmetic, dot, matmul, bmm, view operations, set_requires_grad, backward, backward_with, zero_gradient) that differ only in the values of elements - data of new tensors, scalar operands, elements of the gradients passed in - have the same outcome: either both stop at the same failure, or both complete with tensors, graphs and gradients of the same shapes and layouts. The same holds for the elementwise operators, products, einsum and reductions of float arrays. In particular backward, backward_with and zero_gradient change nothing but values, so a pass that completes once can be repeated for ever, with any gradients of the same layout, and whatever could be done before a pass can be done after it.", "quantifier": "for all programs, states reached, element types with total arithmetic (floats), values, both builds", "why_tests_cant": "a test runs a program on a few values; that no value whatsoever (NaN, infinity, zero divisors, accumulated gradients after any number of steps) makes a loop, bounds check or reshape fail is a statement about all data and all numbers of repetitions", "anchors": ["src/tensor/autograd.rs:57-179", "src/autograd/accumulate_grad.rs:23-36", "src/autograd/gradient_function.rs:33-51", "src/ops/binary_ops.rs", "src/linalg/matrix_ops.rs:39-62", "src/linalg/einsum.rs"]}
{"id": "C86", "title": "Views share memory with their source", "statement": "view, reshape, squeeze, unsqueeze, transpose, T, diagonals, slices, broadcast_to and einsum_view never copy, in borrowing and consuming form: taking views and writing to the memory commute, so a view taken before a write shows exactly what the same view of the written source shows. An element written through one view is seen through every other view of the same source in the element that lies in the same cell, and nowhere else.", "quantifier": "all arrays and views, all sequences of view operations on either side, all writes", "why_tests_cant": "every combination of two sequences of view operations, unbounded layouts, and every write; a copy made on one path only (say, for a layout that cannot be reshaped in place) is invisible until someone writes", "anchors": ["README.md: NdArray Views & Lifetimes", "src/ndarray/reshape.rs:34-98", "src/common/reshape.rs", "src/ndarray/slice.rs:42-121", "src/ndarray/broadcast.rs:34-41", "src/linalg/matrix_ops.rs:289-347", "src/linalg/einsum.rs:280-297"]}
{"id": "C87", "title": "Shapes decide whether a tensor operation is accepted, and predict every result's shape", "statement": "For tensors with no extent 0 and at most 32 axes: whether the next operation (constructor, set_requires_grad, negation, arithmetic with tensors or scalars, dot, matmul, bmm, view, reshape, squeeze, unsqueeze, transpose, borrowing or consuming) is accepted depends only on the shapes of its operands - and for a reshape to another shape on is_uniformly_strided - by the usual rules (broadcast-compatible shapes, matching inner extents, axes in range, equal numbers of elements). If the rules hold the operation completes and the result has the one shape they give; if not it panics. Hence a program whose shapes check out step by step, with reshape applied only to tensors not obtained from a transpose, runs to its end, whatever the elements are.", "quantifier": "for all sessions (without consuming reshape, squeeze or unsqueeze of a shared array that is not compact, see C43), operations, shapes without extent 0 and with at most 32 axes, element types with total arithmetic, element values, both builds", "why_tests_cant": "a test tries finitely many shapes; that no other combination of ranks, extents, strides and history is refused, or accepted with another shape, is a statement about all of them", "anchors": ["src/common/reshape.rs:26-160", "src/ndarray/broadcast.rs", "src/ndarray/binary_ops.rs", "src/linalg/matrix_ops.rs:39-130", "src/tensor/ops.rs:13-80", "src/tensor/matrix_ops.rs:23-110", "src/tensor/reshape.rs:8-151"]}
{"id": "C88", "title": "A program whose shapes check out backpropagates, and its gradients are the derivatives", "statement": "Take any program of tensor constructors, set_requires_grad and differentiable operations whose shapes check out by the rules of C87, which uses transpose or reshape/squeeze/unsqueeze but not both, whose broadcast operands have an axis as long as the result's (or none at all), and which reshapes or squeezes nothing to a scalar. Then it runs; each tensor has the elements its operations define; y.backward() completes for each of its tensors y; and afterwards every constructed tensor x with requires_grad has gradient() = Some, with elements sum over idx of dy[idx]/dx[J]. More generally any number of calls y.backward() and x.zero_gradient() (x constructed) complete, and the gradient is the sum over the calls of backward since the tensor's last zero_gradient. Two instances for all sizes and elements: least squares (the loss is the sum of squared residuals, the weights' gradient is 2 X^T(Xw - t)), and the README's autodiff program (the result is (c+5) times the row sums of a, a's gradient is c+5 everywhere and b's is 0 if b has no zero).", "quantifier": "for all programs, shapes without extent 0 and with at most 32 axes, element values, tensors y; exact arithmetic (any field); no consuming reshape, squeeze or unsqueeze of a shared array obtained from a transpose (C43)", "why_tests_cant": "a test fixes one program with one set of numbers; that every accepted program also completes its backward pass, with the right gradient at each leaf, is a statement about all programs and sizes", "anchors": ["README.md:157-173", "src/tensor/autograd.rs", "src/tensor/constructors.rs", "src/tensor/ops.rs:13-80", "src/tensor/matrix_ops.rs:23-110", "src/autograd/"]}
{"id": "C89", "title": "Training loops: operations, backward and zero_gradient in any order", "statement": "Make some tensors and decide which require gradient; then run any sequence of differentiable operations, y.backward(), y.backward_with(g) with contiguous g of y's shape, and x.zero_gradient() on constructed tensors, interleaved in any order and of any length. If the shapes of all the operations check out (restrictions as in C88), every call completes, every tensor has the elements its operations define no matter which calls came in between, and each constructed x with requires_grad ends with gradient elements sum over idx of g[idx] * dy[idx]/dx[J], summed over the calls of backward since the last x.zero_gradient() (those on tensors made before and after alike). Two instances for all sizes, elements and numbers of iterations: the loops of the crate's own benchmark. For (a*b)/(c+1) the gradients are 0 after each iteration, and before zeroing they are g*b/(c+1), g*a/(c+1), -g*a*b/(c+1)^2; for a.matmul(x)+b they are the outer product of g and x, and g.", "quantifier": "for all headers, loop bodies and lengths; shapes without extent 0 and with at most 32 axes; element values in any field (exact arithmetic); set_requires_grad only before the loop", "why_tests_cant": "a stale or shared accumulator, or a graph node that changes what an earlier tensor means, shows only for particular interleavings; there are unboundedly many", "anchors": ["src/bin/backwards.rs:10-58", "src/tensor/autograd.rs", "src/tensor/constructors.rs", "src/autograd/"]}
{"id": "C90", "title": "Training loops in f32 and f64: they run, and every gradient is the derivative within its error bound", "statement": "A training loop as in C89 (same restrictions on shapes), on f32 or f64 tensors, runs to its end whatever the numbers are - NaN, infinities and overflow included. Every element of a tensor, and every element of the gradient of a constructed tensor that requires gradient, for whose computation no operation overflowed, underflowed or divided by zero, is finite and differs from the value without rounding by at most the textbook bound ((1+u)^k - 1) times the same computation on absolute values, k counting roundings; for gradients the value without rounding is the sum of the derivatives over the calls of backward since the last zero_gradient.", "quantifier": "for all headers, loop bodies and lengths, all float contents, any precision, f32 and f64, the portable build and the NEON build; shapes without extent 0 and with at most 32 axes; set_requires_grad only before the loop", "why_tests_cant": "rounding errors accumulate over iterations and interleavings; a test compares a few loops with a fixed tolerance", "anchors": ["src/bin/backwards.rs:10-58", "src/tensor/autograd.rs", "src/autograd/accumulate_grad.rs", "src/autograd/"]}
{"id": "C91", "title": "Which sessions complete: backward's panics are decided by shapes and strides", "statement": "Any sequence of differentiable operations (transposes and reshapes mixed freely), y.backward(), y.backward_with(g) with a g of y's shape and of any layout, and x.zero_gradient() on constructed tensors, after a header that fixes which tensors require gradient: if the shapes of the operations check out, the sequence runs to its end if and only if each gradient gets back through the operations before it, a condition on shapes and on the strides of g alone; otherwise it panics, whatever the elements are and whatever their type is (f32 and f64 included). The condition: no reshape is given a gradient whose elements do not lie at equal distances in row-major order or that has no axes, and no operand was broadcast along all its axes at once; every operation other than add, sub and views hands on a contiguous gradient. When it runs, the gradients are the derivatives as in C89. For instance y = x.reshape([n, m]); z = (&y).transpose(0, 1): z.backward() panics unless x has a single element, z.backward_with(g) completes exactly for column-major g, and with a multiplication by a scalar between the two both complete.", "quantifier": "for all programs, interleavings and lengths, all shapes without extent 0 and with at most 32 axes, all well-formed seeds, all elements of any type; set_requires_grad only before the loop", "why_tests_cant": "whether a gradient reaches a reshape with suitable strides depends on the whole path of operations; no finite set of graphs covers the interactions", "anchors": ["src/autograd/reshape_backwards.rs", "src/autograd/", "src/tensor/autograd.rs", "src/ndarray/reshape.rs", "src/common/methods.rs"]}
{"id": "C92", "title": "Consuming and borrowing shape changes are interchangeable", "statement": "In any session (operations, backward, backward_with, zero_gradient in any order) whose shapes check out, replace every consuming shape change t.reshape(s), t.squeeze(), t.unsqueeze(k), t.transpose(a, b), t.view() by its borrowing form (&t).reshape(s), ..., whether or not other owners of t's elements exist. Either both sessions panic or both complete; every tensor has the same shape and elements in both, and so has the gradient of every constructed tensor with requires_grad. (The shape rules exclude consuming reshapes, squeezes and unsqueezes of a transposed array that has other owners, where the code gives other elements: C40.)", "quantifier": "for all sessions, interleavings and ownership situations; shapes without extent 0 and with at most 32 axes; values in any field (exact arithmetic), completion for elements of any type", "why_tests_cant": "the consuming form takes another path through the code (try_unwrap or clone, then the layout computed from the old tensor) whose result depends on who else owns the elements and on all later uses", "anchors": ["src/tensor/reshape.rs", "src/tensor/methods.rs:41-46", "src/common/reshape.rs:55-141", "src/autograd/reshape_backwards.rs"]}
{"id": "C93", "title": "Least squares: the gradient is that of the squared error, and following it does not increase the loss", "statement": "For a matrix x of shape [m, n], vectors y and w, with w.requires_grad: r = x.matmul(&w) - &y; loss = (&r).dot(&r); loss.backward(). The program completes, the loss is the sum of the squares of x w - y, and w.gradient() is 2 x^T (x w - y). If that gradient is zero, the same program with any other vector has no smaller loss. If 0 <= eta and eta times the sum of squares of x is at most 1, the same program with w - eta * gradient has no larger loss.", "quantifier": "for all m, n >= 1 and all elements of x, y, w in any field (the last two claims: any ordered field), exact arithmetic", "why_tests_cant": "holds for all sizes and contents; a test checks some fits with a tolerance", "anchors": ["src/tensor/matrix_ops.rs", "src/autograd/matrix_vec_backwards.rs", "src/autograd/sub_backwards.rs", "src/autograd/dot_backwards.rs", "src/tensor/autograd.rs"]}
{"id": "C94", "title": "A scope gives back the memory it took, unless it reshapes by value", "statement": "If a stretch of a program (constructors, arithmetic, products, borrowing views, set_requires_grad, backward, drops) ends holding the tensors it began with, then the element buffers that are allocated at its end are those allocated at its beginning, whatever graphs were built and whatever gradient functions kept; a loop of such iterations takes no more memory than none. This is for stretches that change shapes by borrowing: after any history at all the allocated buffers are exactly those a held tensor or a reachable gradient function refers to and those of tensors that were reshaped, viewed or transposed by value, so a loop that does the latter once per iteration grows by a buffer per iteration. Likewise each gradient that backward reduces to the shape of a broadcast operand leaves a buffer behind.", "quantifier": "all histories of operations, all numbers of iterations", "why_tests_cant": "memory that is never returned changes no value; that loops of any length and any body return it is a statement about all histories", "anchors": ["src/tensor/reshape.rs", "src/ndarray/reshape.rs: reshaped_view", "src/ndarray/constructors.rs: Drop", "src/autograd/util.rs: reduce_gradient"]}
{"id": "C95", "title": "Training a linear model converges", "statement": "Repeating r = x.matmul(&w) - &y; loss = (&r).dot(&r); loss.backward(); w = w - eta * w.gradient() with a fixed step eta of at most half the reciprocal of the sum of the squares of x never panics, never increases the loss, and after N steps the loss exceeds that of any other weights v by at most |w0 - v|^2 / (2 eta N). In exact arithmetic.", "quantifier": "all sizes, data, initial weights, step sizes in the range and numbers of steps", "why_tests_cant": "a test runs finitely many steps on one data set and cannot tell slow convergence from none", "anchors": ["src/tensor/autograd.rs: backward, gradient", "src/autograd/matrix_vec_backwards.rs", "src/autograd/dot_backwards.rs", "src/autograd/sub_backwards.rs"]}
{"id": "C96", "title": "Calling backward on several losses is calling backward on their sum", "statement": "At any point of a session (operations, backward, backward_with, zero_gradient in any order) whose shapes check out, take tensors z, y1, ..., yn of the same shape. z.backward(); y1.backward(); ...; yn.backward() and (&(&z + &y1) + ... + &yn).backward() either both panic or both complete; in the latter case every tensor has the same elements either way, and so has the gradient of every constructed tensor with requires_grad. In particular, gradients accumulated over parts of the data are those of the total loss.", "quantifier": "for all sessions, all numbers and shapes of losses (no extent 0, at most 32 axes), whether or not they depend on each other or share tensors; values in any field (exact arithmetic), completion for elements of any type", "why_tests_cant": "accumulation over separate passes and over the branches of one graph are different code paths; their agreement is a statement about all graphs", "anchors": ["src/tensor/autograd.rs:152-180", "src/autograd/accumulate_grad.rs", "src/autograd/add_backwards.rs"]}
{"id": "C97", "title": "backward_with(g) is backward of the product with g", "statement": "At any point of a session whose shapes check out, for a tensor y and a row-major array g of its shape: y.backward_with(&g), and w = tensor of g's elements; (&y * &w).backward(), either both panic or both complete, with the same elements of every tensor and the same gradient of every constructed tensor with requires_grad. If all elements of g are c, the same holds of (&y * c).backward(). So weighting a loss and weighting its seed are the same, and backward_with is the vector-Jacobian product in terms of the API alone.", "quantifier": "for all sessions, shapes (no extent 0, at most 32 axes) and weights; values in any field (exact arithmetic), completion for elements of any type", "why_tests_cant": "the seed enters the pass without an operation of its own, the product through mul_backwards; agreement is a statement about all graphs and weights", "anchors": ["src/tensor/autograd.rs:152-180", "src/autograd/mul_backwards.rs", "src/autograd/gradient_function.rs"]}
{"id": "C98", "title": "Fitting in batches gives the gradient of the whole", "statement": "With the rows of the data in any number of batches of any sizes: building loss_b = ||x_b w - y_b||² and calling loss_b.backward() for one batch after the other, without w.zero_gradient() in between, completes, and leaves in w.gradient() what one backward on the loss over all rows at once leaves. Accumulation over batches (gradient accumulation) is thus exact: no batch is lost, counted twice, or disturbed by the graphs of the batches before.", "quantifier": "for all numbers of batches, batch sizes, columns and elements (no extent 0); values in any field (exact arithmetic), completion for elements of any type, floats included", "why_tests_cant": "a statement about all ways of splitting the data; the batches share only the accumulator of w, and a wrong overwrite, double visit or leftover gradient shows only for some number of batches", "anchors": ["src/tensor/autograd.rs:152-180", "src/autograd/accumulate_grad.rs", "src/autograd/matrix_vec_backwards.rs", "src/autograd/dot_backwards.rs"]}
{"id": "C99", "title": "Freezing one parameter leaves the others alone", "statement": "Take any session in which, among the constructors and set_requires_grad calls before training, set_requires_grad(true) is called on a tensor a that did not require gradient. If the session completes, so does the same session without that call, with the same elements of every tensor and, for every other constructed tensor, the same requires_grad and the same gradient. So a layer can be frozen, or thawed, without changing what is learned about the rest; and freezing never makes backward panic.", "quantifier": "for all sessions whose shapes check out (no extent 0, at most 32 axes), any parameter, any later set_requires_grad calls on other constructed tensors; gradients in any field (exact arithmetic), completion for elements of any type", "why_tests_cant": "which gradient functions exist, what they capture and in which order accumulators are reached all change when one operand no longer requires gradient; that nothing else is affected is a statement about all graphs", "anchors": ["src/tensor/autograd.rs:57-75", "src/tensor/autograd.rs:152-180", "src/autograd/gradient_function.rs", "src/autograd/none_backwards.rs"]}
{"id": "C100", "title": "Gradients do not depend on how a formula is written", "statement": "Take any session and end it in two ways that compute the same function of the tensors, each time calling backward on the result: &a + &b or &b + &a, &a * &b or &b * &a, &a - &b or &a + &(-&b), a.dot(&b) or a.matmul(&b) on vectors, &a * &(&b + &c) or &(&a * &b) + &(&a * &c) on tensors of one shape. Either both sessions panic or both complete, with the same elements of the result and the same gradient of every constructed tensor that requires one. More generally, whenever the two results have the same derivatives and both sessions complete, they leave the same gradients.", "quantifier": "for all sessions whose shapes check out (no extent 0, at most 32 axes), all operands (the same tensor twice, broadcast operands, operands that do not require gradient, views); in any field (exact arithmetic)", "why_tests_cant": "the two formulas build different graphs, with different gradient functions that capture different operands and reduce over different axes; that these agree is a statement about all graphs below the operands", "anchors": ["src/tensor/ops.rs", "src/tensor/matrix_ops.rs:23-110", "src/autograd/add_backwards.rs", "src/autograd/sub_backwards.rs", "src/autograd/mul_backwards.rs", "src/autograd/neg_backwards.rs", "src/autograd/dot_backwards.rs"]}
{"id": "C101", "title": "What is computed on the side changes nothing", "statement": "Computing a further tensor anywhere in a session (a metric, a prediction, a temporary that is never used) changes no other tensor and no gradient, to the last bit: if the operation does not panic itself, the session with it and the session without it end alike. backward, backward_with and zero_gradient may be called at once or after further operations, with the same effect. Two operations that do not use each other's results can be done in either order.", "quantifier": "for all sessions of constructors, operators, products, shape changes, set_requires_grad, backward, backward_with and zero_gradient; all shapes; elements of any type with any arithmetic, floats in particular; the operation moved or left out is any but set_requires_grad", "why_tests_cant": "a statement about all sessions and all places at which an operation can be put in; it fails as soon as an operation writes to shared state (accumulators, operands, buffers)", "anchors": ["src/tensor/ops.rs", "src/tensor/matrix_ops.rs", "src/tensor/reshape.rs", "src/tensor/autograd.rs:57-180", "src/autograd/gradient_function.rs"]}
{"id": "C102", "title": "No state is shared between computations", "statement": "A session run after another one, on tensors of its own, gives the same tensors, requires_grad flags and gradients as when it is run alone, to the last bit; it panics exactly when it panics alone; and the tensors and gradients of the first session stay as they are. There is no global tape: training a second model cannot disturb the first, nor depend on it. The same holds for any number of sessions whose commands are mixed in any order: the mixture completes exactly if each completes alone, and panics as one of them does.", "quantifier": "for all pairs of sessions one after the other, and all mixtures of any number of sessions, (constructors, operators, products, shape changes, set_requires_grad, backward, backward_with, zero_gradient); all shapes; elements of any type with any arithmetic, floats in particular; portable and NEON loops", "why_tests_cant": "tests run each scenario in a fresh process or in one fixed order; independence of all earlier computations is a statement about all pairs of sessions", "anchors": ["src/tensor/autograd.rs:57-180", "src/autograd/accumulate_grad.rs", "src/autograd/gradient_function.rs", "src/tensor/ops.rs", "src/tensor/matrix_ops.rs", "src/tensor/reshape.rs"]}
