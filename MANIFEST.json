{
 "claims": [
  {
   "property": "C01",
   "status": "partial",
   "theorems": [
    "Verif.C01_index",
    "Verif.C01_denotes",
    "Verif.C01_new_partial",
    "Verif.C01_array_of_vec_false"
   ],
   "note": "Row-major buffers proved for all shapes, and nested Vec/array input of any depth without empty extents. False of the code for arrays of Vecs, e.g. [vec![1,2], vec![3,4]], whose headers are copied as numbers (C01_array_of_vec_false)."
  },
  {
   "property": "C02",
   "status": "proved",
   "theorems": [
    "Verif.C02_flatiter",
    "Verif.C02_indices",
    "Verif.C02_order",
    "Verif.C02_lex",
    "Verif.C02_collapse_contiguous",
    "Verif.C02_collapse_new"
   ],
   "note": "Every layout, rank at most 32 (the library's maximum). C02_collapse_contiguous, C02_collapse_new: collapse_contiguous (called by its unit test only)."
  },
  {
   "property": "C03",
   "status": "proved",
   "theorems": [
    "Verif.C03_broadcast_shapes",
    "Verif.C03_unique",
    "Verif.C03_symmetric",
    "Verif.C03_identity",
    "Verif.C03_idempotent",
    "Verif.C03_both_broadcast"
   ],
   "note": "Joint shape, rejection, uniqueness, symmetry, identity, idempotence."
  },
  {
   "property": "C04",
   "status": "proved",
   "theorems": [
    "Verif.C04_broadcast_to",
    "Verif.C04_rejects",
    "Verif.C04_reads_only"
   ],
   "note": ""
  },
  {
   "property": "C05",
   "status": "proved",
   "theorems": [
    "Verif.C05_elementwise",
    "Verif.C05_operator_panics",
    "Verif.C05_incompatible"
   ],
   "note": "Every pair of layouts and every dispatch branch, rank at most 32; operator panics propagate."
  },
  {
   "property": "C06",
   "status": "proved",
   "theorems": [
    "Verif.C06_scalar",
    "Verif.C06_operator_panics"
   ],
   "note": ""
  },
  {
   "property": "C07",
   "status": "proved",
   "theorems": [
    "Verif.C07_neg"
   ],
   "note": ""
  },
  {
   "property": "C08",
   "status": "partial",
   "theorems": [
    "Verif.C08_assign_partial",
    "Verif.C08_assign_scalar_partial",
    "Verif.C08_shared_partial",
    "Verif.C08_readonly",
    "Verif.C08_incompatible",
    "Verif.C08_false",
    "Verif.C08_overlap_false",
    "Verif.C08_assign_exact",
    "Verif.C08_assign_scalar_exact",
    "Verif.C08_operator_panics_partial",
    "Verif.C08_operator_panics_scalar_partial",
    "Verif.C77_assign_partial"
   ],
   "note": "Proved for contiguous targets reached without broadcast_to (separate or non-interfering right-hand sides, scalars, refusals). False for non-contiguous targets (C08_false) and overlapping right-hand sides (C08_overlap_false). Exactly: with portable kernels and a neutral operand, right for all contents iff the elements of the target lie in consecutive cells (C08_assign_exact, C08_assign_scalar_exact). In machine arithmetic: C59_assign_*, C71_assign_*, C77_assign_partial; a panicking operator makes the assignment panic (C08_operator_panics_*)."
  },
  {
   "property": "C09",
   "status": "partial",
   "theorems": [
    "Verif.C09_reduce_partial",
    "Verif.C09_history_partial",
    "Verif.C09_sum_partial",
    "Verif.C09_product_partial",
    "Verif.C09_false",
    "Verif.C09_false_values",
    "Verif.C09_reduce_exact",
    "Verif.C09_sum_exact",
    "Verif.C09_product_exact"
   ],
   "note": "Proved for every view never broadcast, every layout without a code-detected common stride, and fully zero-stride views. False for other broadcast views (C09_false, C09_false_values). Exactly: right for all contents iff the layout is Reducible (C09_reduce_exact, C09_sum_exact, C09_product_exact)."
  },
  {
   "property": "C10",
   "status": "proved",
   "theorems": [
    "Verif.C10_reduce_along",
    "Verif.C10_duplicate",
    "Verif.C10_out_of_range",
    "Verif.C10_sum_along",
    "Verif.C10_product_along"
   ],
   "note": ""
  },
  {
   "property": "C11",
   "status": "partial",
   "theorems": [
    "Verif.C11_max_partial",
    "Verif.C11_min_partial",
    "Verif.C11_max_magnitude_partial",
    "Verif.C11_min_magnitude_partial",
    "Verif.C11_max_along",
    "Verif.C11_min_along",
    "Verif.C11_max_magnitude_along",
    "Verif.C11_min_magnitude_along",
    "Verif.C11_false",
    "Verif.C11_max_exact",
    "Verif.C11_min_exact",
    "Verif.C11_max_magnitude_exact",
    "Verif.C11_min_magnitude_exact"
   ],
   "note": "The _along forms are proved for every layout; the whole-array forms for the layouts of C09. False for broadcast views (C11_false). Exactly: right for all contents iff the layout is Reducible (C11_*_exact)."
  },
  {
   "property": "C12",
   "status": "partial",
   "theorems": [
    "Verif.C12_mean_partial",
    "Verif.C12_mean_along",
    "Verif.C12_negative",
    "Verif.C12_false",
    "Verif.C12_mean_exact"
   ],
   "note": "mean_along proved for every layout, negative axes rejected; mean for the layouts of C09. False for broadcast views (C12_false). Exactly: right for all contents iff the layout is Reducible (C12_mean_exact)."
  },
  {
   "property": "C13",
   "status": "partial",
   "theorems": [
    "Verif.C13_reshape_partial",
    "Verif.C13_reshape_accepts",
    "Verif.C13_broadcast_false",
    "Verif.C13_scalar_panics",
    "Verif.C13_uniform_rejected",
    "Verif.C13_reshape_exact"
   ],
   "note": "Proved for every array without zero strides on extents >= 2 (all non-broadcast arrays); false for reshapes of broadcast views and of scalars (negations proved). Exactly: an accepted reshape to another shape is right for all contents iff the layout is Good (C13_reshape_exact)."
  },
  {
   "property": "C14",
   "status": "proved",
   "theorems": [
    "Verif.C14_transpose",
    "Verif.C14_transpose_rejects",
    "Verif.C14_T",
    "Verif.C14_transpose_twice"
   ],
   "note": ""
  },
  {
   "property": "C15",
   "status": "proved",
   "theorems": [
    "Verif.C15_squeeze",
    "Verif.C15_squeeze_order",
    "Verif.C15_unsqueeze",
    "Verif.C15_unsqueeze_rejects",
    "Verif.C15_squeeze_unsqueeze"
   ],
   "note": ""
  },
  {
   "property": "C16",
   "status": "partial",
   "theorems": [
    "Verif.C16_slice_partial",
    "Verif.C16_sliceAlong_partial",
    "Verif.C16_compose",
    "Verif.C16_slice_slice_partial",
    "Verif.C16_empty_slice"
   ],
   "note": "Proved for non-empty in-range slices; empty slices underflow (C16_empty_slice)."
  },
  {
   "property": "C17",
   "status": "partial",
   "theorems": [
    "Verif.C17_too_many_partial",
    "Verif.C17_reversed_partial",
    "Verif.C17_false",
    "Verif.C17_accepted_exact",
    "Verif.C17_cells_exact",
    "Verif.C17_in_array_exact",
    "Verif.C17_leaves_buffer"
   ],
   "note": "The code has no bounds checks: negation C17_false; the rejections that do happen are proved. Exactly: a slice is accepted iff there are not more indexers than axes, no range is reversed and the result has elements (C17_accepted_exact); it shows the strided cells of the selected indices (C17_cells_exact), which are in the array iff the indexers are in range (C17_in_array_exact); leaving the first axis of a fresh array always leaves its buffer (C17_leaves_buffer)."
  },
  {
   "property": "C18",
   "status": "partial",
   "theorems": [
    "Verif.C18_wrong_rank",
    "Verif.C18_contiguous_partial",
    "Verif.C18_slice_partial",
    "Verif.C18_in_buffer_partial",
    "Verif.C18_aliases",
    "Verif.C18_diagonal_panics",
    "Verif.C18_broadcast_oob",
    "Verif.C18_index_exact",
    "Verif.C18_fresh_exact"
   ],
   "note": "Proved: contiguous non-broadcast arrays, all slices, never out of the buffer without broadcast_to, wrong coordinate counts panic. False otherwise: negations C18_aliases, C18_diagonal_panics, C18_broadcast_oob. Exactly: an in-range index is right iff its strided position is below the stored length, else a panic (C18_index_exact); what any index of a fresh array returns (C18_fresh_exact)."
  },
  {
   "property": "C19",
   "status": "partial",
   "theorems": [
    "Verif.C19_write_partial",
    "Verif.C19_false",
    "Verif.C19_short_index",
    "Verif.C19_write_exact"
   ],
   "note": "Proved for non-broadcast arrays; false for read-only views (C19_false) and short indices (C19_short_index). Exactly: right for all contents iff the strided position is below the recorded length and no other element shares the cell (C19_write_exact)."
  },
  {
   "property": "C20",
   "status": "partial",
   "theorems": [
    "Verif.C20_clone_partial",
    "Verif.C20_noncontiguous_partial",
    "Verif.C20_false",
    "Verif.C20_false_values",
    "Verif.C20_clone_exact"
   ],
   "note": "Proved for every non-broadcast array and every view not flagged contiguous; false for broadcast views flagged contiguous (C20_false, C20_false_values). Exactly: right for all contents iff not flagged contiguous or packed (C20_clone_exact)."
  },
  {
   "property": "C21",
   "status": "partial",
   "theorems": [
    "Verif.C21_flatten_partial",
    "Verif.C21_flatten_exact"
   ],
   "note": "Proved for every non-broadcast array; false for broadcast views (C20_false). Exactly: right for all contents iff not flagged contiguous or packed (C21_flatten_exact)."
  },
  {
   "property": "C22",
   "status": "proved",
   "theorems": [
    "Verif.C22_eq",
    "Verif.C22_equivalence",
    "Verif.C22_float",
    "Verif.C22_self"
   ],
   "note": " C22_float, C22_self: IEEE floats; an array equals itself iff it contains no NaN."
  },
  {
   "property": "C23",
   "status": "partial",
   "theorems": [
    "Verif.Own.C23_never_freed_twice",
    "Verif.Own.C23_no_use_after_free_partial",
    "Verif.Own.C23_partial",
    "Verif.Own.C23_all_freed_partial",
    "Verif.Own.C23_leak_false",
    "Verif.Own.C23_consumed_never_freed",
    "Verif.Own.C23_capacity_false",
    "Verif.Own.C23_laundered_view_false",
    "Verif.Own.C23_data_slice_false"
   ],
   "note": "Proved for all histories: no buffer is freed twice; no use after free and exact-once release for histories without the code's defects (Tame). The full statement is false: consuming reshapes/transposes leak, from_raw_parts uses len as capacity, into_ndarray launders a borrowed view, data_slice's lifetime is not tied to the array (each a proved witness)."
  },
  {
   "property": "C24",
   "status": "partial",
   "theorems": [
    "Verif.C24_fill_partial",
    "Verif.C24_zero_partial",
    "Verif.C24_false",
    "Verif.C24_readonly_false",
    "Verif.C24_fill_exact",
    "Verif.C24_fill_layout_exact"
   ],
   "note": "Proved for every non-broadcast array; false for broadcast views (C24_false, C24_readonly_false). Exactly: for every valid view, right for all contents iff the layout satisfies Arr.Fills (C24_fill_layout_exact; C24_fill_exact is the case of a common stride and a length equal to the number of elements)."
  },
  {
   "property": "C25",
   "status": "partial",
   "theorems": [
    "Verif.C25_in_buffer_partial",
    "Verif.C25_reads_original_partial",
    "Verif.C25_false",
    "Verif.C25_step_exact",
    "Verif.C25_exact"
   ],
   "note": "Proved for histories without broadcast_to-then-reshape; negation C25_false. Exactly: of the operations that do not panic only a reshape can lead out of the buffer, and does iff the last of its elements, in steps of the last stride, lies outside (C25_step_exact, C25_exact)."
  },
  {
   "property": "C26",
   "status": "partial",
   "theorems": [
    "Verif.C26_contiguous_partial",
    "Verif.C26_uniform_partial",
    "Verif.C26_nonuniform_partial",
    "Verif.C26_unit_axis",
    "Verif.C26_false",
    "Verif.C26_uniform_exact",
    "Verif.C26_method_partial",
    "Verif.C26_method_fresh",
    "Verif.C26_method_false"
   ],
   "note": "Proved for histories without broadcast_to; negations C26_false, C26_unit_axis, C26_method_false. Exactly: a common stride found by the code is right iff the layout is Good (C26_uniform_exact). The method has_uniform_stride() is treated separately (C26_method_*)."
  },
  {
   "property": "C27",
   "status": "partial",
   "theorems": [
    "Verif.C27_assign_partial",
    "Verif.C27_false",
    "Verif.C27_flags_ignored",
    "Verif.C27_write_reaches_base"
   ],
   "note": "Compound assignment is refused for every later history; fill and indexed writes are not (C27_false). fill, zero and indexed writes ignore the flag (C27_flags_ignored), and an indexed write through any broadcast view of any fresh array is accepted and changes the base (C27_write_reaches_base)."
  },
  {
   "property": "C28",
   "status": "partial",
   "theorems": [
    "Verif.C28_einsum_partial",
    "Verif.C28_rest_irrelevant",
    "Verif.C28_scalar_false",
    "Verif.C28_empty_false",
    "Verif.C28_empty",
    "Verif.C28_empty_ub",
    "Verif.C28_empty_ok",
    "Verif.C28_letterless",
    "Verif.C28_refused",
    "Verif.C28_exact"
   ],
   "note": "Exactly: of the well-formed requests without extents 0, those with fewer than 16 operands, at most 32 letters per subscript and in all, and at least one letter get the right result, the others a panic (C28_exact; C28_refused also with extents 0). With an axis of extent 0 the result is right or the behaviour undefined, never a wrong result (C28_empty), and undefined for one or two operands with two or three letters (C28_empty_ub). Negations proved."
  },
  {
   "property": "C29",
   "status": "partial",
   "theorems": [
    "Verif.C29_einsum_rejects_partial",
    "Verif.C29_characters",
    "Verif.C29_false",
    "Verif.C29_ellipsis_false",
    "Verif.C29_output",
    "Verif.C29_output_ellipsis",
    "Verif.C29_lone_dot_false",
    "Verif.C29_view_space_false",
    "Verif.C29_surplus",
    "Verif.C29_missing"
   ],
   "note": "Rejection of inconsistent extents, wrong rank, unknown or repeated output labels and illegal characters is proved. A subscript/operand count mismatch and an ellipsis are silently accepted (negations proved). C29_output: spaces in the output and an output ellipsis that stands for axes are refused; one that stands for none may be left out (C29_output_ellipsis). A lone dot at the end of the output is not noticed (C29_lone_dot_false), nor is a space by einsum_view (C29_view_space_false). C29_surplus and C29_missing: what a count mismatch does instead of being refused. Surplus subscripts are ignored. Of an operand without a subscript only the first element enters, as a factor of every term."
  },
  {
   "property": "C30",
   "status": "partial",
   "theorems": [
    "Verif.C30_matmul_vec_vec",
    "Verif.C30_matmul_mat_vec",
    "Verif.C30_matmul_partial",
    "Verif.C30_matmul_rejects",
    "Verif.C30_empty_false",
    "Verif.C30_empty"
   ],
   "note": "Vector-vector and matrix-vector for all sizes, matrix-matrix for positive extents, all rejections. With an extent 0 the matrix product panics (no entries) or has undefined behaviour (empty common axis), for all layouts (C30_empty; negation by witness in C30_empty_false)."
  },
  {
   "property": "C31",
   "status": "partial",
   "theorems": [
    "Verif.C31_bmm_partial",
    "Verif.C31_bmm_rejects",
    "Verif.C31_empty_false",
    "Verif.C31_empty"
   ],
   "note": "All positive extents and layouts, all rejections. With an extent 0, bmm panics (no entries) or a length computation underflows (empty common axis), for all layouts (C31_empty; negation by witness in C31_empty_false)."
  },
  {
   "property": "C32",
   "status": "proved",
   "theorems": [
    "Verif.C32_dot",
    "Verif.C32_dot_rejects"
   ],
   "note": "All lengths including 0, all strides, all rejections."
  },
  {
   "property": "C33",
   "status": "proved",
   "theorems": [
    "Verif.C33_diagonal",
    "Verif.C33_matrix_diagonal",
    "Verif.C33_diagonal_rejects"
   ],
   "note": ""
  },
  {
   "property": "C34",
   "status": "proved",
   "theorems": [
    "Verif.C34_trace_along",
    "Verif.C34_trace",
    "Verif.C34_rejects"
   ],
   "note": ""
  },
  {
   "property": "C35",
   "status": "partial",
   "theorems": [
    "Verif.C35_iter_along_partial",
    "Verif.C35_iter_partial",
    "Verif.C35_bad_axis",
    "Verif.C35_scalar",
    "Verif.C35_false",
    "Verif.C35_iter_along_exact"
   ],
   "note": "Proved for every array or view reached without broadcast_to. False for broadcast views (C35_false). Exactly: right for all contents iff the sub-arrays are not flagged contiguous or are packed (C35_iter_along_exact)."
  },
  {
   "property": "C36",
   "status": "partial",
   "theorems": [
    "Verif.C36_nditer_partial",
    "Verif.C36_leading_partial",
    "Verif.C36_bad_axes",
    "Verif.C36_false",
    "Verif.C36_false_oob",
    "Verif.C36_nditer_exact"
   ],
   "note": "Proved when the selected axes form a row-major chain (in particular leading axes of fresh arrays). False for other axis sets (C36_false, C36_false_oob). Exactly, for chosen extents of at least 2: right for all contents iff the chosen axes form a row-major chain and the sub-arrays are not flagged contiguous or are packed (C36_nditer_exact)."
  },
  {
   "property": "C37",
   "status": "proved",
   "theorems": [
    "Verif.C37_axis",
    "Verif.C37_axis_iff"
   ],
   "note": ""
  },
  {
   "property": "C38",
   "status": "partial",
   "theorems": [
    "Verif.C38_exact",
    "Verif.C38_exact_length",
    "Verif.C38_exact_arange",
    "Verif.C38_exact_refused",
    "Verif.C38_int_partial",
    "Verif.C38_int_down_partial",
    "Verif.C38_int_zero_step",
    "Verif.C38_int_away",
    "Verif.C38_float_partial",
    "Verif.C38_int_false",
    "Verif.C38_int_overflow_false",
    "Verif.C38_f64_false"
   ],
   "note": "Exact arithmetic: all start, stop, step. Machine integers of every width, debug and release: ranges of at most 2^24 that fit the type, upwards and downwards; a step of 0 always panics; a step leading away from stop gives an empty array if longer than the range, else a panic (C38_int_away). f32/f64 with IEEE rounding: multiples of a common power of two. False of the code: arange(0, 2^24+1) on i32/i64 loses the last value (C38_int_false), arange(-100i8, 100) panics (C38_int_overflow_false), f64 arange(0, 1+2^-30) loses a value (C38_f64_false)."
  },
  {
   "property": "C39",
   "status": "partial",
   "theorems": [
    "Verif.C39_linspace_partial",
    "Verif.C39_linspace_exclusive_partial",
    "Verif.C39_zero_one",
    "Verif.C39_constant_false"
   ],
   "note": "Exact arithmetic, either direction. False of the code for start = stop and num >= 2, which panics (C39_constant_false). Rounded arithmetic: see C55."
  },
  {
   "property": "C40",
   "status": "partial",
   "theorems": [
    "Verif.C40_forward_partial",
    "Verif.C40_vjp_partial",
    "Verif.C40_backward_partial",
    "Verif.C40_outcome_partial",
    "Verif.C40_shared_false",
    "Verif.C40_seed_false",
    "Verif.C40_analytic_partial"
   ],
   "note": "Backward adds the vector-Jacobian product for every session of fine commands, over an arbitrary field, with the portable and with the NEON loops; consuming shape changes of shared arrays are covered where the array lies row by row (all but transposed ones), and proved false otherwise; broadcast seeds are proved false. Tensors of any shape: also with an extent 0 or more than 32 axes; only C40_outcome_partial, which says which calls complete, excludes those. Rounding: C73."
  },
  {
   "property": "C41",
   "status": "proved",
   "theorems": [
    "Verif.C41_shape",
    "Verif.C41_shape_partial"
   ],
   "note": "After anything that can be done with tensors: all modelled operations in borrowing and consuming forms, backward, backward_with with any seed (also a view of a gradient), zero_gradient; any shapes and any arithmetic (C41_shape). C41_shape_partial is the earlier version for sessions of the C40 kind."
  },
  {
   "property": "C42",
   "status": "partial",
   "theorems": [
    "Verif.C42_order_partial",
    "Verif.C42_sum_partial",
    "Verif.C42_linear_partial",
    "Verif.C42_zero_partial",
    "Verif.C42_alias_false",
    "Verif.C42_alias_view_false",
    "Verif.C42_order"
   ],
   "note": "Order independence, sum of two passes, reset and linearity for all sessions of fine commands, tensors of any shape (C42_order_partial: no extent 0, rank <= 32); false when the seed is a view of an accumulator (C42_alias_false, also through views: C42_alias_view_false). C42_order: either order, tensors of any shape."
  },
  {
   "property": "C43",
   "status": "partial",
   "theorems": [
    "Verif.C43_unary",
    "Verif.C43_binary",
    "Verif.C43_requires_partial",
    "Verif.C43_tensors_kept",
    "Verif.C43_not_required_partial",
    "Verif.C43_unreached_partial",
    "Verif.C43_detach_partial",
    "Verif.C43_requires",
    "Verif.C43_not_required",
    "Verif.C43_unreached",
    "Verif.C43_changed",
    "Verif.C43_only_leaves_false"
   ],
   "note": "Local rules for all operations are unconditional; the session theorems have the hypotheses of C40 (any shapes). C43_requires, C43_not_required, C43_unreached, C43_changed have no such hypotheses: any shapes, any arithmetic, consuming forms, any seed. The clause 'only leaves' is false for computed tensors on which set_requires_grad(true) was called (C43_only_leaves_false) and for x + 1.0 and views, which share the gradient of x (C46_identity_exact); exactly: whatever is changed belongs to the one variable the tensor was computed from."
  },
  {
   "property": "C44",
   "status": "partial",
   "theorems": [
    "Verif.C44_exact",
    "Verif.C44_completes_partial",
    "Verif.C44_transpose_false",
    "Verif.C44_broadcast_false",
    "Verif.C44_squeeze_false",
    "Verif.C44_empty_panics",
    "Verif.C44_empty_false"
   ],
   "note": "Exactly when backward and backward_with complete after any fine session (no extent 0, rank <= 32): Safe follows the shape and strides of the gradient through the recorded graph (C44_exact); otherwise they panic. C91_exact states the same on the program text instead of the graph; C44_completes_partial gives a sufficient criterion; four negations show the property is false as stated. On tensors with an extent 0, backward and set_requires_grad(true) always panic (C44_empty_panics)."
  },
  {
   "property": "C45",
   "status": "partial",
   "theorems": [
    "Verif.TMem.C45_false",
    "Verif.TMem.C45_partial",
    "Verif.TMem.C45_freed_stays",
    "Verif.TMem.C45_exact",
    "Verif.TMem.C45_forward_partial",
    "Verif.TMem.C45_forward_false"
   ],
   "note": "False in general: a tensor view keeps no reference to its base, so backward can read a dropped base (witness). Proved for histories in which every captured operand is an owner. Exactly, in any history: what is read has been freed iff it is a view whose owner is held by no tensor and no gradient function in use (C45_exact). Operations other than backward are safe if no view is reshaped by value (C45_forward_partial), otherwise not (C45_forward_false)."
  },
  {
   "property": "C46",
   "status": "partial",
   "theorems": [
    "Verif.C46_leaf",
    "Verif.C46_not_required",
    "Verif.C46_computed_partial",
    "Verif.C46_identity_false",
    "Verif.C46_set_false",
    "Verif.C46_identity_exact"
   ],
   "note": "Leaves and non-requiring tensors for all sessions; computed tensors except scalar + and -, view and identity reshape, for which it is proved false; also false after set_requires_grad on a computed tensor. Exactly: the results of those operations report the gradient of their operand, and zero_gradient on them is zero_gradient on it (C46_identity_exact), after any session."
  },
  {
   "property": "C47",
   "status": "partial",
   "theorems": [
    "Verif.C47_refused",
    "Verif.C47_int_partial",
    "Verif.C47_high_false",
    "Verif.C47_low_false"
   ],
   "note": "Proved: low <= r <= high for integers up to 2^24 in absolute value and every stream of draws; refusal of low >= high. False of the code: the excluded bound is returned (C47_high_false), float bounds are undercut (C47_low_false). The random generator is an arbitrary stream of draws in [low, high)."
  },
  {
   "property": "C48",
   "status": "proved",
   "theorems": [
    "Verif.C48_astype"
   ],
   "note": ""
  },
  {
   "property": "C49",
   "status": "partial",
   "theorems": [
    "Verif.C49_binary_partial",
    "Verif.C49_binary_value_partial",
    "Verif.C49_binary_unreached_false",
    "Verif.C49_binary_incompatible",
    "Verif.C49_scalar",
    "Verif.C49_neg",
    "Verif.C49_assign_partial",
    "Verif.C49_assign_shared_partial",
    "Verif.C49_assign_scalar_partial",
    "Verif.C49_overlap_false",
    "Verif.C49_sum",
    "Verif.C49_product",
    "Verif.C49_min",
    "Verif.C49_max",
    "Verif.C49_nan_false",
    "Verif.C49_sop",
    "Verif.C49_einsum_partial",
    "Verif.C49_matmul_partial",
    "Verif.C49_mean_partial",
    "Verif.C49_mean_along"
   ],
   "note": "Elementwise kernels (binary, scalar, negation, compound assignment; no arithmetic law needed, any number of lanes), reductions (any array, associative commutative operation, 2 or 4 lanes), sums of products, mean, mean_along, einsum and matmul agree with the portable loops for all lengths, strides and contents. Scalar operators and negation for every layout and size; binary operators and op= for every layout if the result is not empty, and for empty results of arrays reached without broadcast_to (the vector kernels read a constant operand before looking at the count, C49_binary_unreached_false). Missing: overlapping operands of op=, where the builds differ (C49_overlap_false). NaN is outside exact arithmetic and also differs (C49_nan_false). With rounding the results of reordered sums differ (C63_order_matters_false) but obey C63 and C64."
  },
  {
   "property": "C50",
   "status": "proved",
   "theorems": [
    "Verif.C50_full",
    "Verif.C50_zeros_ones",
    "Verif.C50_scalar",
    "Verif.C50_value"
   ],
   "note": ""
  },
  {
   "property": "C51",
   "status": "proved",
   "theorems": [
    "Verif.C51_debug",
    "Verif.C51_values_and_nesting",
    "Verif.C51_words",
    "Verif.C51_determines"
   ],
   "note": "Every layout, rank at most 32, extents 0 included. Formatting of one element is an arbitrary function; the words of the output determine shape and elements."
  },
  {
   "property": "C52",
   "status": "partial",
   "theorems": [
    "Verif.C52_ragged_partial",
    "Verif.C52_size_partial",
    "Verif.C52_empty_partial",
    "Verif.C52_false",
    "Verif.C52_exact"
   ],
   "note": "Proved: exactly which data is accepted, at any depth, without vectors in arrays (C52_exact); ragged data with at most two levels of Vec panics, empty extents panic, and for rectangular data of any depth the product of the shape is the number of elements. False of the code for three levels of Vec (C52_false: shape [2,2,2] with 7 elements is accepted)."
  },
  {
   "property": "C53",
   "status": "proved",
   "theorems": [
    "Verif.C53_einsum_view"
   ],
   "note": "einsum_view with repeated labels gives the diagonal view, all cases."
  },
  {
   "property": "C54",
   "status": "partial",
   "theorems": [
    "Verif.C54_false",
    "Verif.C54_copies_partial",
    "Verif.C54_fill_partial",
    "Verif.C54_reduce_partial",
    "Verif.C54_assign_partial",
    "Verif.C54_reduce_along_partial",
    "Verif.C54_eq_partial",
    "Verif.C54_elementwise_partial",
    "Verif.C54_scalar_partial",
    "Verif.C54_dot_partial",
    "Verif.C54_empty_slice_partial"
   ],
   "note": "False in general (assert_unchecked(false) reached by matmul/einsum with an empty common axis; indexing an empty axis yields a view of memory that does not exist). Proved for every empty array: iteration, clone, flatten, fill, compound assignment, whole-array and axis reductions, equality, elementwise/scalar operators, negation, dot; empty slices are never returned (length computation underflows)."
  },
  {
   "property": "C55",
   "status": "partial",
   "theorems": [
    "Verif.C55_linspace_partial",
    "Verif.C55_linspace_exclusive_partial",
    "Verif.C55_f32_false",
    "Verif.C55_f64_false",
    "Verif.C55_exclusive_f32_false",
    "Verif.C55_exclusive_f64_false"
   ],
   "note": "Proved for start and step on a common power-of-two grid, where nothing rounds. False of the code otherwise: f32 linspace(0,5,7) has 8 values, f64 linspace(0,1,6) has 7, and the exclusive forms likewise. IEEE rounding to nearest-even with unbounded exponents."
  },
  {
   "property": "C56",
   "status": "partial",
   "theorems": [
    "Verif.C56_matmul_partial",
    "Verif.C56_mat_vec_partial",
    "Verif.C56_mat_vec_neon",
    "Verif.C56_bmm_partial",
    "Verif.C56_matmul_ub",
    "Verif.C56_mat_vec_ub",
    "Verif.C56_bmm_ub",
    "Verif.C56_dot",
    "Verif.C56_false",
    "Verif.C56_bmm_oob_false",
    "Verif.C56_matmul_rejects",
    "Verif.C56_bmm_rejects_partial"
   ],
   "note": "Products through BLAS (third-party routines given by their documented contract, exact arithmetic, sizes below 2^31) agree with the portable products for positive extents exactly when the rows of adjacent elements do not overlap (BlasFit; otherwise the contract is violated, C56_*_ub); dot products always. False otherwise: transposed columns, broadcast matrices and broadcast vectors violate the contract; bmm with unequal inner extents reads out of bounds."
  },
  {
   "property": "C57",
   "status": "partial",
   "theorems": [
    "Verif.C57_add",
    "Verif.C57_sub",
    "Verif.C57_div",
    "Verif.C57_scalar",
    "Verif.C57_assign_partial",
    "Verif.C57_i32_partial",
    "Verif.C57_u32",
    "Verif.C57_i32_false",
    "Verif.C57_fill",
    "Verif.C57_sum",
    "Verif.C57_max_partial",
    "Verif.C57_min_partial",
    "Verif.C57_max_magnitude_partial",
    "Verif.C57_min_magnitude_partial",
    "Verif.C57_max_false",
    "Verif.C57_max_empty_false",
    "Verif.C57_dot",
    "Verif.C57_einsum_partial",
    "Verif.C57_matmul_partial"
   ],
   "note": "full for float operators, fill, sum and dot; i32 addition without overflow; min/max on non-empty arrays without infinities, products as in C28/C30; overflow, infinities and empty arrays disagree"
  },
  {
   "property": "C58",
   "status": "partial",
   "theorems": [
    "Verif.C58_accepts",
    "Verif.C58_rejects_partial",
    "Verif.C58_rejects_below_partial",
    "Verif.C58_passes_partial",
    "Verif.C58_incompatible",
    "Verif.C58_false",
    "Verif.C58_shape_false",
    "Verif.C58_unsigned_false",
    "Verif.C58_exact",
    "Verif.C58_float_exact",
    "Verif.C58_nan_false"
   ],
   "note": "Exact arithmetic. Accepting close arrays, rejecting elements that are too large, arrays that are entirely too small and incompatible shapes is proved. False of the code for elements that are too small and for broadcastable shapes. Exactly: passes iff no difference is above tol and some difference is not below -tol (C58_exact, also for shapes that broadcast); for f32 and f64 with rounding, NaN and infinities C58_float_exact; NaN is accepted (C58_nan_false)."
  },
  {
   "property": "C59",
   "status": "partial",
   "theorems": [
    "Verif.C59_elementwise_release",
    "Verif.C59_elementwise_fits",
    "Verif.C59_elementwise_panics",
    "Verif.C59_sum_release_partial",
    "Verif.C59_product_release_partial",
    "Verif.C59_sum_fits_partial",
    "Verif.C59_sum_panics_partial",
    "Verif.C59_product_fits_partial",
    "Verif.C59_product_panics_partial",
    "Verif.C59_sum_unsigned_partial",
    "Verif.C59_sum_unsigned_panics_partial",
    "Verif.C59_false",
    "Verif.C59_sum_along_release",
    "Verif.C59_product_along_release",
    "Verif.C59_sum_along_fits",
    "Verif.C59_sum_along_panics",
    "Verif.C59_product_along_fits",
    "Verif.C59_product_along_panics",
    "Verif.C59_max_magnitude_partial",
    "Verif.C59_min_magnitude_partial",
    "Verif.C59_magnitude_false",
    "Verif.C59_dot_release",
    "Verif.C59_matmul_release_partial",
    "Verif.C59_trace_never_wrong",
    "Verif.C59_dot_never_wrong",
    "Verif.C59_matvec_never_wrong",
    "Verif.C59_matmul_never_wrong_partial",
    "Verif.C59_bmm_never_wrong_partial",
    "Verif.C59_einsum_never_wrong_partial",
    "Verif.C59_dot_fits",
    "Verif.C59_matvec_fits",
    "Verif.C59_matmul_fits_partial",
    "Verif.C59_bmm_fits_partial",
    "Verif.C59_einsum_fits_partial",
    "Verif.C59_scaled_false",
    "Verif.C59_trace_release",
    "Verif.C59_bmm_release_partial",
    "Verif.C59_einsum_release_partial",
    "Verif.C59_assign_release_partial",
    "Verif.C59_assign_fits_partial",
    "Verif.C59_assign_panics_partial"
   ],
   "note": "Release builds: exact result modulo 2^w for elementwise operators, sum, product (layouts of C09), *_along (all layouts), trace, dot, matmul, bmm and einsum. Debug builds: sums and products are exact iff all intermediate results in row-major order fit, else panic; trace, dot, matmul, bmm and einsum never return a wrong number, and return the exact one if the products of magnitudes (zeros counted as 1) add up to a number of the type. False of the code: intermediate overflow in debug builds (C59_false, C59_scaled_false), magnitudes of the least number. Extents 0 as in C28 to C31. Compound assignment: C59_assign_* (contiguous targets, as in C08)."
  },
  {
   "property": "C60",
   "status": "partial",
   "theorems": [
    "Verif.C60_data_slice_partial",
    "Verif.C60_not_contiguous",
    "Verif.C60_into_data_vector_partial",
    "Verif.C60_view_refused",
    "Verif.C60_into_not_contiguous",
    "Verif.C60_false",
    "Verif.C60_false_values",
    "Verif.C60_into_false",
    "Verif.C60_data_slice_exact"
   ],
   "note": "data_slice proved for every view reached without broadcast_to, into_data_vector for fresh arrays, all refusals. False for broadcast views, and after a consuming reshape. Exactly: data_slice is right for all contents iff the view is packed (C60_data_slice_exact)."
  },
  {
   "property": "C61",
   "status": "partial",
   "theorems": [
    "Verif.C61_max_partial",
    "Verif.C61_min_partial",
    "Verif.C61_max_along_partial",
    "Verif.C61_min_along_partial",
    "Verif.C61_max_magnitude_partial",
    "Verif.C61_min_magnitude_partial",
    "Verif.C61_max_magnitude_nan",
    "Verif.C61_min_magnitude_nan",
    "Verif.C61_max_magnitude_along_partial",
    "Verif.C61_min_magnitude_along_partial",
    "Verif.C61_false",
    "Verif.C61_along_false",
    "Verif.C61_infinity_false",
    "Verif.C61_all_nan_false",
    "Verif.C61_neon_false"
   ],
   "note": "min/max ignore NaN for all layouts of C09 and along axes for every layout; magnitudes right without NaN, and what they do after a NaN is stated exactly. False for magnitudes with NaN, for arrays of infinities or NaN only, and with NEON."
  },
  {
   "property": "C62",
   "status": "partial",
   "theorems": [
    "Verif.C62_full",
    "Verif.C62_full_refused",
    "Verif.C62_full_empty",
    "Verif.C62_index",
    "Verif.C62_index_debug",
    "Verif.C62_broadcast_partial",
    "Verif.C62_broadcast_refused",
    "Verif.C62_reshape_partial",
    "Verif.C62_reshape_refused",
    "Verif.C62_false",
    "Verif.C62_reshape_false",
    "Verif.C62_broadcast_false",
    "Verif.C62_index_false"
   ],
   "note": "Counts that fit: exact in both builds (full, reshape, broadcast_to, indexing); debug builds refuse the others. Release builds accept some of them (negations)."
  },
  {
   "property": "C63",
   "status": "partial",
   "theorems": [
    "Verif.C63_gamma",
    "Verif.C63_sum_partial",
    "Verif.C63_product_partial",
    "Verif.C63_sum_along",
    "Verif.C63_product_along",
    "Verif.C63_trace_along",
    "Verif.C63_mean_partial",
    "Verif.C63_mean_along",
    "Verif.C63_dot",
    "Verif.C63_matvec",
    "Verif.C63_matmul_partial",
    "Verif.C63_bmm_partial",
    "Verif.C63_einsum_partial",
    "Verif.C63_elementwise",
    "Verif.C63_ops",
    "Verif.C63_elementwise_simd_partial",
    "Verif.C63_order_matters_false"
   ],
   "note": "Every kernel of the portable and of the NEON build, run on floats with p significant bits and round-to-nearest-even. sum_along, product_along, trace, mean_along, dot and matrix x vector in full; sum, product, mean without the broadcast views excluded in C09; matmul, bmm, einsum without extents 0 and empty subscripts (C28 to C31); vector elementwise operators as in C49. C63_gamma gives the bound as k u/(1 - k u). Exponents are unbounded here; C69 carries the bounds over to IEEE arithmetic. The builds round differently (C63_order_matters_false)."
  },
  {
   "property": "C64",
   "status": "partial",
   "theorems": [
    "Verif.C64_sum_partial",
    "Verif.C64_product_partial",
    "Verif.C64_sum_along",
    "Verif.C64_product_along",
    "Verif.C64_trace",
    "Verif.C64_dot",
    "Verif.C64_matvec",
    "Verif.C64_matmul_partial",
    "Verif.C64_bmm_partial",
    "Verif.C64_einsum_partial",
    "Verif.C64_bound_sharp_false"
   ],
   "note": "Integers within 2^p: all roundings are exact, in the portable and the NEON build. Missing: broadcast views in sum and product (C09), extents 0 in matmul, bmm, einsum (C28 to C31). The bound is sharp (C64_bound_sharp_false)."
  },
  {
   "property": "C65",
   "status": "partial",
   "theorems": [
    "Verif.C65_matmul_partial",
    "Verif.C65_matvec_partial",
    "Verif.C65_dot_partial",
    "Verif.C65_bmm_partial",
    "Verif.C65_diagonal_partial",
    "Verif.C65_trace_partial",
    "Verif.C65_transpose_partial",
    "Verif.C65_sum_along_partial",
    "Verif.C65_mul_partial",
    "Verif.C65_outer_partial",
    "Verif.C65_empty_false"
   ],
   "note": "All layouts, positive extents, any letters, any correct leaf kernels: matmul, matvec, dot, bmm, diagonal, trace; for any rank: transpose, sum_along, elementwise product; outer product. Missing: extents 0, false by witness."
  },
  {
   "property": "C66",
   "status": "partial",
   "theorems": [
    "Verif.C66_assoc_partial",
    "Verif.C66_assoc_vec_partial",
    "Verif.C66_left_distrib_partial",
    "Verif.C66_right_distrib_partial",
    "Verif.C66_transpose_partial",
    "Verif.C66_trace_comm_partial",
    "Verif.C66_trace_transpose_partial",
    "Verif.C66_dot_comm",
    "Verif.C66_adjoint",
    "Verif.C66_bmm_slices_partial"
   ],
   "note": "All layouts, exact arithmetic over a commutative semiring. Missing: matrix products with an extent 0 (those do not return, C30_empty_false); dot symmetry and the adjoint law hold for all sizes."
  },
  {
   "property": "C67",
   "status": "partial",
   "theorems": [
    "Verif.C67_axis_order",
    "Verif.C67_one_by_one",
    "Verif.C67_all_axes_partial",
    "Verif.C67_transpose_partial",
    "Verif.C67_add_partial",
    "Verif.C67_scale_partial",
    "Verif.C67_split_partial",
    "Verif.C67_broadcast_false"
   ],
   "note": "Order of axes and summing axes one after the other: every layout. Laws involving sum of a whole array: every view that was never broadcast; false for broadcast views by witness. Split: no extent 0 and both parts non-empty (an empty slice overflows, C16_empty_slice)."
  },
  {
   "property": "C68",
   "status": "partial",
   "theorems": [
    "Verif.C68_sum_partial",
    "Verif.C68_product_partial",
    "Verif.C68_sum_along",
    "Verif.C68_product_along",
    "Verif.C68_trace_along",
    "Verif.C68_mean_partial",
    "Verif.C68_mean_along",
    "Verif.C68_dot",
    "Verif.C68_matvec",
    "Verif.C68_matmul_partial",
    "Verif.C68_bmm_partial",
    "Verif.C68_einsum_partial"
   ],
   "note": "Proved for the IEEE model (NaN, infinities, signed zeros, subnormals, overflow), portable and vector kernels. sum_along, product_along, trace, mean_along, dot, matrix-vector: without restriction. Missing in the _partial ones: broadcast views excluded in C09 (sum, product, mean), extents 0 (matmul, bmm, einsum), einsum without letters."
  },
  {
   "property": "C69",
   "status": "partial",
   "theorems": [
    "Verif.C69_sum_partial",
    "Verif.C69_product_partial",
    "Verif.C69_sum_along",
    "Verif.C69_product_along",
    "Verif.C69_trace_along",
    "Verif.C69_dot",
    "Verif.C69_matvec",
    "Verif.C69_matmul_partial",
    "Verif.C69_bmm_partial",
    "Verif.C69_einsum_partial",
    "Verif.C69_exact_sum_partial",
    "Verif.C69_exact_product_partial",
    "Verif.C69_exact_sum_along",
    "Verif.C69_exact_product_along",
    "Verif.C69_exact_trace",
    "Verif.C69_exact_dot",
    "Verif.C69_exact_matvec",
    "Verif.C69_exact_matmul_partial",
    "Verif.C69_exact_bmm_partial",
    "Verif.C69_exact_einsum_partial",
    "Verif.C69_zero_false",
    "Verif.C69_underflow_false"
   ],
   "note": "Proved in the IEEE model for portable and vector kernels: results finite and within the bound of C63 (C69_*), exact on integers (C69_exact_*). Fractions: Moderate q bounds the fractional bits, so nothing underflows. Missing in the _partial ones: broadcast views excluded in C09 (sum, product), extents 0 (matmul, bmm, einsum), einsum without letters. The two C69_*_false theorems show that max(1,|x|) and the underflow condition cannot be dropped."
  },
  {
   "property": "C70",
   "status": "partial",
   "theorems": [
    "Verif.C70_rand_partial",
    "Verif.C70_rand_f64",
    "Verif.C70_rand_false",
    "Verif.C70_randn",
    "Verif.C70_uniform_refused",
    "Verif.C70_uniform"
   ],
   "note": "The generator is an arbitrary sequence of draws (f64 in [0,1) for rand; in [low, high) for uniform, as the generator crate promises). rand over f64 and uniform are in their half-open interval, uniform refuses unordered or NaN bounds, shapes and elements are right. rand over f32 may return 1 (C70_rand_false), exactly for draws of at least 1 - 2^-25 (C70_rand_partial)."
  },
  {
   "property": "C71",
   "status": "partial",
   "theorems": [
    "Verif.C71_unique",
    "Verif.C71_ops",
    "Verif.C71_elementwise",
    "Verif.C71_elementwise_simd_partial",
    "Verif.C71_scalar",
    "Verif.C71_exact",
    "Verif.C71_sub_exact",
    "Verif.C71_sub_zero",
    "Verif.C71_mul_zero_false",
    "Verif.C71_assign_partial",
    "Verif.C71_assign_simd_partial",
    "Verif.C71_assign_scalar_partial"
   ],
   "note": "IEEE 754 with parameters p, emax. Full for arrays (broadcast) and scalars with the portable kernels; with the vector kernels also, except empty results of arrays not reached without broadcast_to (C49). C71_unique shows that the specification determines the value. Compound assignment: C71_assign_* (contiguous targets, as in C08)."
  },
  {
   "property": "C72",
   "status": "partial",
   "theorems": [
    "Verif.C72_sum_partial",
    "Verif.C72_sum_along",
    "Verif.C72_trace_along",
    "Verif.C72_product_partial",
    "Verif.C72_product_along",
    "Verif.C72_dot",
    "Verif.C72_matvec",
    "Verif.C72_matmul_partial",
    "Verif.C72_bmm_partial",
    "Verif.C72_einsum_partial",
    "Verif.C72_nan_false",
    "Verif.C72_mean_false"
   ],
   "note": "Kernels of both builds, any order. sum and product of broadcast views that are not Reducible are left out (the code reads the wrong cells, C09), as are extents 0 in matmul, bmm and einsum. A product may be NaN (C72_nan_false: infinity times zero), and means are not monotone (C72_mean_false)."
  },
  {
   "property": "C73",
   "status": "partial",
   "theorems": [
    "Verif.C73_session",
    "Verif.C73_vjp_partial",
    "Verif.C73_ieee_session",
    "Verif.C73_ieee_vjp_partial"
   ],
   "note": "values and gradients of every float session are within the running error bound of the session without rounding, whose gradients are the vector-Jacobian products; integers exactly; f32/f64 where no IEEE flag is raised. For the portable and the NEON loops, mul_add rounded once. Missing: the hypotheses of C40 for the link to the derivative."
  },
  {
   "property": "C74",
   "status": "partial",
   "theorems": [
    "Verif.C74_matmul_lhs_partial",
    "Verif.C74_matmul_rhs_partial",
    "Verif.C74_mat_vec_partial",
    "Verif.C74_bmm_lhs_partial",
    "Verif.C74_bmm_rhs_partial",
    "Verif.C74_output_layer_false"
   ],
   "note": "Row-major operands and gradient, positive extents below 2^31, exact arithmetic: with BLAS the gradients are right except that the gradient of the first factor violates the contract of gemm when n = 1 and k >= 2, that of the second factor when k = 1 and m >= 2 (matrix-vector: without NEON); exactly those cases. An output layer with one unit is such a case (C74_output_layer_false)."
  },
  {
   "property": "C75",
   "status": "proved",
   "theorems": [
    "Verif.C08_assign_exact",
    "Verif.C08_assign_scalar_exact",
    "Verif.C09_reduce_exact",
    "Verif.C09_sum_exact",
    "Verif.C09_product_exact",
    "Verif.C11_max_exact",
    "Verif.C11_min_exact",
    "Verif.C11_max_magnitude_exact",
    "Verif.C11_min_magnitude_exact",
    "Verif.C12_mean_exact",
    "Verif.C13_reshape_exact",
    "Verif.C17_accepted_exact",
    "Verif.C17_cells_exact",
    "Verif.C17_in_array_exact",
    "Verif.C18_index_exact",
    "Verif.C18_fresh_exact",
    "Verif.C19_write_exact",
    "Verif.C20_clone_exact",
    "Verif.C21_flatten_exact",
    "Verif.C26_uniform_exact",
    "Verif.C24_fill_layout_exact",
    "Verif.C35_iter_along_exact",
    "Verif.C60_data_slice_exact",
    "Verif.C13_reshape_accepts",
    "Verif.C60_not_contiguous"
   ],
   "note": "Each _exact theorem is an equivalence between being right for all contents of the memory and a condition on shape, strides and recorded length. Rank at most 32, exact flags; reductions and assignment for element types and operations with two distinguishable values; portable kernels. reshape and data_slice panic where the condition does not apply (C13_reshape_accepts, C60_not_contiguous)."
  },
  {
   "property": "C76",
   "status": "partial",
   "theorems": [
    "Verif.C76_in_range_partial",
    "Verif.C76_along_in_range_partial",
    "Verif.C76_debug",
    "Verif.C76_release_empty_partial",
    "Verif.C76_reversed",
    "Verif.C76_false"
   ],
   "note": "In range and not empty: both builds give exactly the view asked for. Debug builds: everything accepted is the view asked for. Release builds: empty slices are accepted and behave as empty arrays if no stride is 0. False in release builds for reversed ranges (every vector) and for empty slices of broadcast views."
  },
  {
   "property": "C77",
   "status": "proved",
   "theorems": [
    "Verif.C77_rem",
    "Verif.C77_rem_unique",
    "Verif.C77_and",
    "Verif.C77_or",
    "Verif.C77_bits_unique",
    "Verif.C77_shl_debug",
    "Verif.C77_shl_release",
    "Verif.C77_shr_debug",
    "Verif.C77_shr_release",
    "Verif.C77_neg",
    "Verif.C77_neg_panics",
    "Verif.C77_neg_release",
    "Verif.C77_float_rem",
    "Verif.C77_float_rem_special"
   ],
   "note": "All integer widths, both builds, arrays with broadcasting and scalars; floats of any format. Compound forms are C08 with the same operators."
  },
  {
   "property": "C78",
   "status": "proved",
   "theorems": [
    "Verif.C78_truncated_unique",
    "Verif.C78_int_int",
    "Verif.C78_float_int",
    "Verif.C78_int_float",
    "Verif.C78_float_float",
    "Verif.C78_widen_back",
    "Verif.C78_int_back",
    "Verif.C78_int_back_false"
   ],
   "note": "astype for every layout of at most 32 axes; NumCast of num-traits by its documented contract; the larger-integer round trips that change or panic are C78_int_back_false"
  },
  {
   "property": "C79",
   "status": "proved",
   "theorems": [
    "Verif.C79_flatiter",
    "Verif.C79_eq",
    "Verif.C79_astype",
    "Verif.C79_debug",
    "Verif.C79_clone",
    "Verif.C79_binary",
    "Verif.C79_scalar",
    "Verif.C79_neg",
    "Verif.C79_assign",
    "Verif.C79_assign_scalar",
    "Verif.C79_reduce",
    "Verif.C79_reduce_along",
    "Verif.C79_panics"
   ],
   "note": "every statement holds for any rank; compound assignment for contiguous targets, reductions and clone for views made without broadcast_to (elsewhere they are wrong in any rank: C08, C09, C20); C79_panics shows that the panic occurs"
  },
  {
   "property": "C80",
   "status": "proved",
   "theorems": [
    "Verif.C80_arange",
    "Verif.C80_arange_exact",
    "Verif.C80_linspace_exclusive",
    "Verif.C80_linspace",
    "Verif.C80_int",
    "Verif.C80_short_false"
   ],
   "note": "Exponents are unbounded: overflow to infinity and subnormal numbers are not covered. Integers downwards beyond 2^24 are not covered. C80_short_false shows that the condition on stop for linspace is needed."
  },
  {
   "property": "C81",
   "status": "partial",
   "theorems": [
    "Verif.C81_nearest",
    "Verif.C81_share_false"
   ],
   "note": "False of the code: low and the excluded high have half the chance of the values between them (C81_share_false, exact arithmetic, for every value k); what each draw gives is C81_nearest (integers up to 2^24 in absolute value)."
  },
  {
   "property": "C82",
   "status": "proved",
   "theorems": [
    "Verif.C82_linear"
   ],
   "note": "correctly rounded arithmetic without overflow or underflow (Fl p), for the portable and the NEON loops"
  },
  {
   "property": "C83",
   "status": "partial",
   "theorems": [
    "Verif.C83_arange",
    "Verif.C83_linspace",
    "Verif.C83_linspace_exclusive",
    "Verif.C83_distinct",
    "Verif.C83_far_end",
    "Verif.C83_stop_false",
    "Verif.C83_end_false"
   ],
   "note": "First element, order and distinctness proved for every call that returns; bound for the far end: within one step and two roundings of stop (C83_far_end). False of the code: arange(33554432f32, 33554436) contains stop (C83_stop_false), linspace(0f32, 1, 42) ends with 1 - 2^-24 (C83_end_false). Rounding to nearest-even with unbounded exponents."
  },
  {
   "property": "C84",
   "status": "partial",
   "theorems": [
    "Verif.C84_count",
    "Verif.C84_indices",
    "Verif.C84_stuck",
    "Verif.C84_exact",
    "Verif.C84_false",
    "Verif.C84_panics_false",
    "Verif.C84_next_debug"
   ],
   "note": "Number of elements left and multi-dimensional index proved right for all layouts and positions (C84_count, C84_indices). False of the code: the position in memory is not moved (C84_stuck, C84_false), so right exactly when the element skipped to lies in the cell of the present one (C84_exact); a later next panics in debug builds (C84_panics_false), which without advance_by never happens (C84_next_debug). No code in the library calls the method."
  },
  {
   "property": "C85",
   "status": "proved",
   "theorems": [
    "Verif.C85_session",
    "Verif.C85_next",
    "Verif.C85_gradient",
    "Verif.C85_after",
    "Verif.C85_again",
    "Verif.C85_elementwise",
    "Verif.C85_scalar",
    "Verif.C85_neg",
    "Verif.C85_dot",
    "Verif.C85_matmul",
    "Verif.C85_bmm",
    "Verif.C85_einsum",
    "Verif.C85_reduce",
    "Verif.C85_reduce_simd",
    "Verif.C85_reduce_along",
    "Verif.C85_overflow_false"
   ],
   "note": "Sessions (C85_session, C85_next), any state, any element types with total arithmetic, portable and NEON loops; gradient calls change only values (C85_gradient, C85_after, C85_again); arrays: elementwise, products, einsum, reductions. Integers with overflow checks are outside the property: C85_overflow_false."
  },
  {
   "property": "C86",
   "status": "proved",
   "theorems": [
    "Verif.C86_views_share",
    "Verif.C86_same_memory",
    "Verif.C86_write_seen",
    "Verif.C86_einsum_view"
   ],
   "note": "All view operations in both forms, any sequences, any new contents of the memory."
  },
  {
   "property": "C87",
   "status": "proved",
   "theorems": [
    "Verif.C87_next",
    "Verif.C87_unique",
    "Verif.C87_program"
   ],
   "note": "Exact for the next operation after any session, and for whole programs; any element type. Restrictions (no extent 0, at most 32 axes, no consuming reshape, squeeze or unsqueeze of shared non-compact arrays earlier) are part of the statement."
  },
  {
   "property": "C88",
   "status": "proved",
   "theorems": [
    "Verif.C88_calls",
    "Verif.C88_backprop",
    "Verif.C88_least_squares",
    "Verif.C88_readme"
   ],
   "note": "Over any field (exact arithmetic); composes C87, C44, C46, C42 and C40. Hypotheses are on the program text and shapes only; nothing is assumed to complete. C88_calls: any calls of backward and zero_gradient; C88_backprop: one call. Instances: least squares and the README's program, for all sizes and elements."
  },
  {
   "property": "C89",
   "status": "proved",
   "theorems": [
    "Verif.C89_loop",
    "Verif.C89_ratio_zero",
    "Verif.C89_ratio",
    "Verif.C89_affine"
   ],
   "note": "Over any field (exact arithmetic). C89_loop: any interleaving of operations, backward, backward_with (contiguous seed) and zero_gradient after a header that fixes requires_grad; hypotheses are on the program text, shapes and seeds only. Instances: both loops of src/bin/backwards.rs, for all sizes, elements and numbers of iterations."
  },
  {
   "property": "C90",
   "status": "proved",
   "theorems": [
    "Verif.C90_float",
    "Verif.C90_ieee"
   ],
   "note": "Hypotheses as in C91 (those of C89 suffice, GoodLoop.tame). C90_float: floats of any precision with unbounded exponents; C90_ieee: f32 and f64 with NaN, infinities and subnormals, bounds where no IEEE flag is raised."
  },
  {
   "property": "C91",
   "status": "proved",
   "theorems": [
    "Verif.C91_exact",
    "Verif.C91_loop",
    "Verif.C91_any",
    "Verif.C91_reshape_transpose",
    "Verif.C91_reshape_transpose_ones",
    "Verif.C91_reshape_scale_transpose",
    "Verif.C91_binary",
    "Verif.C91_bias"
   ],
   "note": "C91_exact: a single call after any fine session. C91_loop: whole sessions over any field (exact arithmetic), with the gradients they end up with. C91_any: completion for elements of any type. The condition Passes is a function of the program text, the shapes and the strides of the seed (Spec/Passes.lean). C91_reshape_*: instances for all sizes. C91_binary and C91_bias: the exact condition for one operator, all shapes."
  },
  {
   "property": "C92",
   "status": "proved",
   "theorems": [
    "Verif.C92_loop",
    "Verif.C92_any"
   ],
   "note": "C92_loop: outcome, tensors and gradients over any field; C92_any: outcome and shapes for elements of any type."
  },
  {
   "property": "C93",
   "status": "proved",
   "theorems": [
    "Verif.C93_gradient",
    "Verif.C93_minimum",
    "Verif.C93_descent",
    "Verif.C93_completes"
   ],
   "note": "Exact arithmetic; rounding is the subject of C90. completion for elements of any type (C93_completes)"
  },
  {
   "property": "C94",
   "status": "proved",
   "theorems": [
    "Verif.TMem.C94_exact",
    "Verif.TMem.C94_released",
    "Verif.TMem.C94_retained",
    "Verif.TMem.C94_scope",
    "Verif.TMem.C94_loop",
    "Verif.TMem.C94_end",
    "Verif.TMem.C94_grows",
    "Verif.TMem.C94_false",
    "Verif.Own.C94_reduce_gradient"
   ],
   "note": "C94_exact: what is allocated after any history. C94_scope, C94_loop, C94_end: scopes and loops without consuming shape changes; C94_grows, C94_false: with them memory grows without bound. C94_reduce_gradient: the buffer reduce_gradient leaves behind, in the model of C23. Gradients and other temporaries of backward are not modelled here."
  },
  {
   "property": "C95",
   "status": "proved",
   "theorems": [
    "Verif.C95_training",
    "Verif.C95_runs"
   ],
   "note": "Exact arithmetic. C95_runs: the sequence of weights exists and is unique, no run panics; C95_training: monotone loss and the bound."
  },
  {
   "property": "C96",
   "status": "proved",
   "theorems": [
    "Verif.C96_sum",
    "Verif.C96_any"
   ],
   "note": "C96_sum: sessions over any field, whatever came before; C96_any: completion for elements of any type. On floats the two gradients may differ by rounding."
  },
  {
   "property": "C97",
   "status": "proved",
   "theorems": [
    "Verif.C97_weights",
    "Verif.C97_scaled",
    "Verif.C97_any"
   ],
   "note": "C97_weights: weights given as an array; C97_scaled: a number; C97_any: completion for elements of any type. On floats the gradients may differ by rounding. Seeds with other strides are decided by C91."
  },
  {
   "property": "C98",
   "status": "proved",
   "theorems": [
    "Verif.C98_batches",
    "Verif.C98_completes",
    "Verif.C98_order"
   ],
   "note": "any number and sizes of batches; gradient in any field, completion for any element type order of batches: C98_order"
  },
  {
   "property": "C99",
   "status": "proved",
   "theorems": [
    "Verif.C99_freeze",
    "Verif.C99_any"
   ],
   "note": "gradients in any field, completion for any element type; that the frozen tensor itself has no gradient is C46_not_required"
  },
  {
   "property": "C100",
   "status": "proved",
   "theorems": [
    "Verif.C100_same",
    "Verif.C100_commute",
    "Verif.C100_sub",
    "Verif.C100_dot",
    "Verif.C100_distribute"
   ],
   "note": "C100_same: any two ends with the same derivatives; then commutativity, subtraction, dot and matmul, distributivity (operands of one shape). In any field; on floats the gradients may differ by rounding."
  },
  {
   "property": "C101",
   "status": "proved",
   "theorems": [
    "Verif.C101_unused",
    "Verif.C101_gradients",
    "Verif.C101_postpone",
    "Verif.C101_swap"
   ],
   "note": "Exact equality of the runs, any element type, no hypotheses on shapes. The flag of consuming shape changes (array shared or not) is kept as it is; set_requires_grad itself is not moved."
  },
  {
   "property": "C102",
   "status": "proved",
   "theorems": [
    "Verif.C102_after",
    "Verif.C102_observed",
    "Verif.C102_interleaved",
    "Verif.C102_interleaved_completes",
    "Verif.C102_interleaved_panics",
    "Verif.C102_any_order"
   ],
   "note": "Equality of runs, errors included (C102_after), and what a user sees of it (C102_observed). Any element type, any shapes. Memory exhaustion and the random generator are not modelled here. C102_interleaved: any number of sessions, their commands mixed in any order. C102_interleaved_completes, C102_interleaved_panics: the mixture completes exactly if every session does; it panics as one of them does. C102_any_order: two mixtures of the same sessions agree."
  }
 ]
}
