{
 "claims": [
  {
   "property": "C01",
   "status": "proved",
   "theorems": [
    "PyNucleus.Props.C01.pattern_is_sorted_set",
    "PyNucleus.Props.C01.pattern_order_independent"
   ],
   "note": ""
  },
  {
   "property": "C02",
   "status": "proved",
   "theorems": [
    "PyNucleus.Props.C02.dict_refines_map",
    "PyNucleus.Props.C02.first_value_wins"
   ],
   "note": "General counter width W; hypothesis Fits is the counter range."
  },
  {
   "property": "C03",
   "status": "proved",
   "theorems": [
    "PyNucleus.Props.C03.delete_hits_keeps_odd",
    "PyNucleus.Props.C03.delete_hits_returns_stored",
    "PyNucleus.Props.C03.or_hits_accumulates"
   ],
   "note": ""
  },
  {
   "property": "C04",
   "status": "proved",
   "theorems": [
    "PyNucleus.Props.C04.iteration_complete",
    "PyNucleus.Props.C04.pickle_roundtrip"
   ],
   "note": ""
  },
  {
   "property": "C05",
   "status": "proved",
   "theorems": [
    "PyNucleus.Props.C05.union_correct",
    "PyNucleus.Props.C05.inter_correct",
    "PyNucleus.Props.C05.setminus_correct",
    "PyNucleus.Props.C05.inSet_correct",
    "PyNucleus.Props.C05.position_correct",
    "PyNucleus.Props.C05.constructor_correct",
    "PyNucleus.Props.C05.isSorted_correct",
    "PyNucleus.Props.C05.range_correct"
   ],
   "note": "qsort is trusted to sort by the modelled comparator; unsortedArrayIndexSet is not modelled."
  },
  {
   "property": "C06",
   "status": "partial",
   "theorems": [
    "PyNucleus.Props.C06.inSet_correct",
    "PyNucleus.Props.C06.fromSet_correct",
    "PyNucleus.Props.C06.getNumEntries_correct",
    "PyNucleus.Props.C06.union_correct",
    "PyNucleus.Props.C06.inter_correct",
    "PyNucleus.Props.C06.iterator_safe_iff",
    "PyNucleus.Props.C06.iterator_correct_partial",
    "PyNucleus.Props.C06.iterator_reads_past_end"
   ],
   "note": "Set semantics proved. The iterator part is false exactly for arrays whose last bit is set; iterator_safe_iff characterises this."
  },
  {
   "property": "C07",
   "status": "proved",
   "theorems": [
    "PyNucleus.Props.C07.product_iterator_complete",
    "PyNucleus.Props.C07.empty_range_yields"
   ],
   "note": "empty_range_yields shows that m >= 1 is needed."
  },
  {
   "property": "C08",
   "status": "partial",
   "theorems": [
    "PyNucleus.Props.C08.matvec_correct",
    "PyNucleus.Props.C08.matvec_no_overwrite_correct",
    "PyNucleus.Props.C08.matvecTrans_correct_partial",
    "PyNucleus.Props.C08.matvecTrans_no_overwrite_correct_partial",
    "PyNucleus.Props.C08.adjoint_partial",
    "PyNucleus.Props.C08.residual_correct",
    "PyNucleus.Props.C08.complex_matvecTrans_wrong"
   ],
   "note": "Proved for matvec (real and complex) and for the real transposed product. False for complex matvecTrans, which multiplies by A itself (complex_matvecTrans_wrong)."
  },
  {
   "property": "C09",
   "status": "proved",
   "theorems": [
    "PyNucleus.Props.C09.transpose_correct",
    "PyNucleus.Props.C09.transpose_rows_sorted",
    "PyNucleus.Props.C09.transpose_transpose",
    "PyNucleus.Props.C09.transpose_matvec",
    "PyNucleus.Props.C09.graph_transpose_correct"
   ],
   "note": "The function is typed for real scalars only. The in-place branch (S._shape is not an attribute of the cdef class) is not modelled; the in-place graph transpose is."
  },
  {
   "property": "C10",
   "status": "proved",
   "theorems": [
    "PyNucleus.Props.C10.sort_rows",
    "PyNucleus.Props.C10.sort_entry",
    "PyNucleus.Props.C10.sort_matvec",
    "PyNucleus.Props.C10.wasSorted_iff",
    "PyNucleus.Props.C10.isSorted_correct",
    "PyNucleus.Props.C10.isSorted_after_sort",
    "PyNucleus.Props.C10.sort_pattern"
   ],
   "note": ""
  },
  {
   "property": "C11",
   "status": "partial",
   "theorems": [
    "PyNucleus.Props.C11.matvec_no_overwrite_correct",
    "PyNucleus.Props.C11.matvec_correct",
    "PyNucleus.Props.C11.to_csr_correct",
    "PyNucleus.Props.C11.to_lower_csc_correct",
    "PyNucleus.Props.C11.getEntry_correct",
    "PyNucleus.Props.C11.to_sss_lower_partial",
    "PyNucleus.Props.C11.to_sss_round_trip_partial",
    "PyNucleus.Props.C11.missing_diagonal_uninitialised"
   ],
   "note": "Proved when every diagonal entry is stored exactly once. A missing diagonal entry leaves uninitialised memory in the result (missing_diagonal_uninitialised), so the full statement is false."
  },
  {
   "property": "C12",
   "status": "partial",
   "theorems": [
    "PyNucleus.Props.C12.getEntry_correct",
    "PyNucleus.Props.C12.getEntry_unsorted_short",
    "PyNucleus.Props.C12.setEntry_correct",
    "PyNucleus.Props.C12.addToEntry_correct",
    "PyNucleus.Props.C12.addToEntry_absent",
    "PyNucleus.Props.C12.setEntry_absent_partial",
    "PyNucleus.Props.C12.history_correct",
    "PyNucleus.Props.C12.silently_ignored"
   ],
   "note": "Everything but the rejection is proved, for all histories. Positions outside the pattern are silently ignored when the row stores fewer than 20 entries (silently_ignored)."
  },
  {
   "property": "C13",
   "status": "partial",
   "theorems": [
    "PyNucleus.Props.C13.eliminate_zeros_correct",
    "PyNucleus.Props.C13.drop_rows_correct",
    "PyNucleus.Props.C13.drop_columns_correct_partial",
    "PyNucleus.Props.C13.drop_columns_graph_invalid",
    "PyNucleus.Props.C13.drop_columns_unsorted"
   ],
   "note": "Zero elimination and row dropping are proved in full. Column dropping is proved for matrices with sorted rows and a non-empty column list; it is wrong for unsorted rows (drop_columns_unsorted), and dropColsInPlace on a sparse graph reads a data array that was never assigned (drop_columns_graph_invalid)."
  },
  {
   "property": "C14",
   "status": "proved",
   "theorems": [
    "PyNucleus.Props.C14.decode_encode_edge",
    "PyNucleus.Props.C14.encode_decode_edge",
    "PyNucleus.Props.C14.face_round_trip",
    "PyNucleus.Props.C14.keys_injective",
    "PyNucleus.Props.C14.sortEdge_sorted",
    "PyNucleus.Props.C14.sortFace_sorted",
    "PyNucleus.Props.C14.key_order_independent",
    "PyNucleus.Props.C14.same_key_iff_same_vertices",
    "PyNucleus.Props.C14.bound_sharp"
   ],
   "note": "64 and 32 bit wrap-around of the machine arithmetic is part of the model."
  },
  {
   "property": "C15",
   "status": "partial",
   "theorems": [
    "PyNucleus.Props.C15.getEntry_history_partial",
    "PyNucleus.Props.C15.to_csr_history_partial",
    "PyNucleus.Props.C15.complex_add_loses_entry",
    "PyNucleus.Props.C15.complex_history_false"
   ],
   "note": "Proved for real scalars. For complex scalars the full statement is false: addToEntry declares the old value as REAL_t, so adding to a stored entry raises after the entry was popped and the entry is lost (complex_add_loses_entry)."
  },
  {
   "property": "C16",
   "status": "partial",
   "theorems": [
    "PyNucleus.Props.C16.multiply_correct",
    "PyNucleus.Props.C16.multiply_restr_correct",
    "PyNucleus.Props.C16.multiply_sss_correct",
    "PyNucleus.Props.C16.multiply_restr_sss_correct",
    "PyNucleus.Props.C16.multiply2_correct",
    "PyNucleus.Props.C16.multiply2_sss_correct",
    "PyNucleus.Props.C16.galerkin_symmetric",
    "PyNucleus.Props.C16.restrictMatrix_partial",
    "PyNucleus.Props.C16.restrictMatrix_square",
    "PyNucleus.Props.C16.restrictMatrix_square_false"
   ],
   "note": "All kernels proved for sorted rows. restrictMatrix is correct for rectangular R only: for square R both branches run and R^T A R is added as well (restrictMatrix_square, restrictMatrix_square_false)."
  },
  {
   "property": "C17",
   "status": "proved",
   "theorems": [
    "PyNucleus.Props.C17.forward_csc",
    "PyNucleus.Props.C17.backward_csc",
    "PyNucleus.Props.C17.backward_csr",
    "PyNucleus.Props.C17.forward_sss",
    "PyNucleus.Props.C17.backward_sss",
    "PyNucleus.Props.C17.lu",
    "PyNucleus.Props.C17.cholesky",
    "PyNucleus.Props.C17.ichol_solve",
    "PyNucleus.Props.C17.cholesky_packed"
   ],
   "note": "Over any field. The factorisations themselves (SuperLU, scipy cholesky) are outside the model."
  },
  {
   "property": "C18",
   "status": "proved",
   "theorems": [
    "PyNucleus.Props.C18.node_degrees",
    "PyNucleus.Props.C18.permutation",
    "PyNucleus.Props.C18.breadth_first",
    "PyNucleus.Props.C18.degree_ordered",
    "PyNucleus.Props.C18.reversed"
   ],
   "note": "np.argsort is a parameter described by ArgSort (a permutation that sorts the keys, ties in any order). Symmetry of the graph is not needed."
  },
  {
   "property": "C19",
   "status": "partial",
   "theorems": [
    "PyNucleus.Props.C19.program_matvec_partial",
    "PyNucleus.Props.C19.program_usable_partial",
    "PyNucleus.Props.C19.program_trans_partial",
    "PyNucleus.Props.C19.transpose_of_zero_fails",
    "PyNucleus.Props.C19.transpose_twice_fails",
    "PyNucleus.Props.C19.transpose_of_rectangular_sum_fails",
    "PyNucleus.Props.C19.statement_false"
   ],
   "note": "Proved for every program of +, -, scalar *, unary - and @ over csr, dense, diagonal, identity and null operators, objects shared arbitrarily, with residuals. With .T the operand needs a working matvecTrans (Usable/TransOK): the code has none for diagonal, identity, null and transposed operators, and buffers of rectangular scaled sums are too short. Those failures are proved as witnesses."
  },
  {
   "property": "C20",
   "status": "partial",
   "theorems": [
    "PyNucleus.Props.C20.overwrites_partial",
    "PyNucleus.Props.C20.accumulates_partial",
    "PyNucleus.Props.C20.frame_partial",
    "PyNucleus.Props.C20.gemv_value",
    "PyNucleus.Props.C20.transposed_sum_keeps_old_output",
    "PyNucleus.Props.C20.gemvT_out_of_bounds",
    "PyNucleus.Props.C20.gemvF_keeps_old_output",
    "PyNucleus.Props.C20.statement_false"
   ],
   "note": "Holds for every operator of the algebra in plain application and for transposed application under TransOK. Violated by TimeStepperLinearOperator.matvecTrans with facS = 0 (adds to the old y), gemvT with beta != 0 on tall matrices (writes out of bounds), gemvF with beta = 0 (keeps the old y)."
  },
  {
   "property": "C21",
   "status": "proved",
   "theorems": [
    "PyNucleus.Props.C21.block_matvec",
    "PyNucleus.Props.C21.lower_solves",
    "PyNucleus.Props.C21.upper_solves",
    "PyNucleus.Props.C21.lower_roundtrip",
    "PyNucleus.Props.C21.upper_roundtrip",
    "PyNucleus.Props.C21.null_is_zero",
    "PyNucleus.Props.C21.block_diagonal_matvec"
   ],
   "note": "Sub-blocks are arbitrary operators described by the matrix they apply, diagonal inverses by the fact that they solve. Blocks of one column must have equal widths: the constructor only checks the sum of the widths."
  },
  {
   "property": "C22",
   "status": "proved",
   "theorems": [
    "PyNucleus.Props.C22.init_iff",
    "PyNucleus.Props.C22.set_coeffs",
    "PyNucleus.Props.C22.set_out_of_range",
    "PyNucleus.Props.C22.unsupported_is_stale",
    "PyNucleus.Props.C22.matvec_interpolates",
    "PyNucleus.Props.C22.matvec_no_overwrite_interpolates",
    "PyNucleus.Props.C22.reproduces_polynomials",
    "PyNucleus.Props.C22.at_node",
    "PyNucleus.Props.C22.multi_set"
   ],
   "note": "Coefficients after any history of calls are the derivatives of order 0, 1, 2 of the Lagrange basis; polynomial matrices of degree below the number of nodes are reproduced. Exact arithmetic. matvec_no_overwrite is modelled as its loop; the declaration `LinearOperator op = 0` in front of it is not modelled. to_csr and HDF5 of these operators are not modelled."
  },
  {
   "property": "C23",
   "status": "partial",
   "theorems": [
    "PyNucleus.Props.C23.transparent_partial",
    "PyNucleus.Props.C23.nnz_is_stale",
    "PyNucleus.Props.C23.builds_once"
   ],
   "note": "Violated for nnz: getnnz reads self.A without constructing, so it is None before the first use and stale after a change of parameters (nnz_is_stale). All other requests are transparent for every history, including failed assemblies (transparent_partial). Parameters that compare equal are assumed to assemble the same operator; writing to the public attributes params, A, isConstructed is not modelled."
  },
  {
   "property": "C24",
   "status": "proved",
   "theorems": [
    "PyNucleus.Props.C24.residual_tracked",
    "PyNucleus.Props.C24.final_visited",
    "PyNucleus.Props.C24.converged",
    "PyNucleus.Props.C24.finite_termination",
    "PyNucleus.Props.C24.exact_solution"
   ],
   "note": "Serial inner products, exact arithmetic, any initial contents of the work arrays, division by zero counts as breakdown. On convergence the returned number is the index of the last iteration, one less than the iterations performed. For positive definite A and preconditioner also finite termination after at most n iterations."
  },
  {
   "property": "C25",
   "status": "partial",
   "theorems": [
    "PyNucleus.Props.C25.residual_tracked_partial",
    "PyNucleus.Props.C25.final_visited",
    "PyNucleus.Props.C25.converged_partial",
    "PyNucleus.Props.C25.zero_residual_breakdown",
    "PyNucleus.Props.C25.zero_residual_fails",
    "PyNucleus.Props.C25.exact_half_step_breakdown"
   ],
   "note": "Residual and convergence are proved. Violated for a zero initial residual: nothing is checked before the first iteration, which divides zero by zero for every operator and linear preconditioner (zero_residual_breakdown, zero_residual_fails). The same happens whenever the first half step is exact, e.g. for every multiple of the identity (exact_half_step_breakdown)."
  },
  {
   "property": "C26",
   "status": "partial",
   "theorems": [
    "PyNucleus.Props.C26.cycle_minimises_partial",
    "PyNucleus.Props.C26.converged_partial",
    "PyNucleus.Props.C26.first_breakdown_exact_partial",
    "PyNucleus.Props.C26.breakdown_fails",
    "PyNucleus.Props.C26.no_blas_fails",
    "PyNucleus.Props.C26.flexible_without_preconditioner_fails"
   ],
   "note": "Minimisation and honest reporting are proved for every cycle and call that does not end in a breakdown (left, right, no preconditioner, flexible with right preconditioner, BLAS kernels), and exactness for a breakdown in the first iteration. Violated for later breakdowns: the stored rotations are not applied to the last column (breakdown_fails). Also violated without BLAS, where gemvF adds to stale data (no_blas_fails), and for the flexible variant without preconditioner (flexible_without_preconditioner_fails)."
  },
  {
   "property": "C27",
   "status": "partial",
   "theorems": [
    "PyNucleus.Props.C27.sor_solves_partial",
    "PyNucleus.Props.C27.ssor_solves",
    "PyNucleus.Props.C27.jacobi_solves",
    "PyNucleus.Props.C27.separable_steps",
    "PyNucleus.Props.C27.separable_fixed",
    "PyNucleus.Props.C27.gauss_seidel_sweeps",
    "PyNucleus.Props.C27.gauss_seidel_fixed",
    "PyNucleus.Props.C27.time_stepper_sweeps_partial",
    "PyNucleus.Props.C27.time_stepper_direction_fails",
    "PyNucleus.Props.C27.sss_sor_fails",
    "PyNucleus.Props.C27.sss_gauss_seidel_fails"
   ],
   "note": "Proved for CSR matrices (all directions, all numbers of steps) and for the SOR preconditioner of time steppers with equal patterns. Violated: SOR and Gauss-Seidel on symmetric storage always raise because A_diagonal is never set (sss_sor_fails, sss_gauss_seidel_fails); Gauss-Seidel on a time stepper exchanges the directions for the default configuration (time_stepper_direction_fails). Overlaps (parallel case), block Jacobi, ILU and GMRES smoothers are not modelled; sorSmoother itself cannot be constructed (wrong arguments to the base constructor)."
  },
  {
   "property": "C28",
   "status": "proved",
   "theorems": [
    "PyNucleus.Props.C28.cycle_error",
    "PyNucleus.Props.C28.fixed_point",
    "PyNucleus.Props.C28.linear_from_zero",
    "PyNucleus.Props.C28.symmetric",
    "PyNucleus.Props.C28.separable_smoother",
    "PyNucleus.Props.C28.jacobi_preconditioner",
    "PyNucleus.Props.C28.outer_loop",
    "PyNucleus.Props.C28.solve_exact"
   ],
   "note": "Any number of levels at least two (with one level `solve` raises, there is no temp array), V, W and full multigrid. Smoothers and coarse solver are arbitrary linear ones; that the separable smoothers are such is proved (separable_smoother, jacobi_preconditioner). The parallel case, Krylov smoothers and iterative (nonlinear) coarse solvers are not covered; norms are real square roots, so no residual is NaN."
  },
  {
   "property": "C29",
   "status": "partial",
   "theorems": [
    "PyNucleus.Props.C29.l1_weights",
    "PyNucleus.Props.C29.l1_coefficients",
    "PyNucleus.Props.C29.l1_scheme",
    "PyNucleus.Props.C29.theta_scheme",
    "PyNucleus.Props.C29.wrong_step_rejected",
    "PyNucleus.Props.C29.imex_step_partial",
    "PyNucleus.Props.C29.tableaux_ok",
    "PyNucleus.Props.C29.order_conditions",
    "PyNucleus.Props.C29.imex_stale_solver_fails",
    "PyNucleus.Props.C29.imex_column_sum_fails",
    "PyNucleus.Props.C29.imex_time_dependent_mass_fails"
   ],
   "note": "Proved for the theta and L1 schemes. Violated for IMEX: the cached implicit solver is kept when the step size changes, stages are not evaluated if a column of the tableau sums to zero, and a time dependent mass operator is evaluated at the wrong times (the three _fails theorems); imex_step_partial covers the other cases. fastL1Scheme is not modelled."
  },
  {
   "property": "C30",
   "status": "partial",
   "theorems": [
    "PyNucleus.Props.C30.build_by_name_partial",
    "PyNucleus.Props.C30.build_by_alias",
    "PyNucleus.Props.C30.unknown_name",
    "PyNucleus.Props.C30.isRegistered_partial",
    "PyNucleus.Props.C30.numRegistered_counts",
    "PyNucleus.Props.C30.constructor_arguments",
    "PyNucleus.Props.C30.isRegistered_fails",
    "PyNucleus.Props.C30.alias_shadows_fails"
   ],
   "note": "Violated: isRegistered does not bring aliases to lower case (isRegistered_fails), and a name equal to an alias of another entry cannot be built (alias_shadows_fails). Everything else is proved; parameters nested deeper than one mutable object are not modelled."
  },
  {
   "property": "C31",
   "status": "proved",
   "theorems": [
    "PyNucleus.Props.C31.accumulate_every_schedule",
    "PyNucleus.Props.C31.accumulate_sums",
    "PyNucleus.Props.C31.accumulate_keeps_unshared"
   ],
   "note": "All interleavings of the ranks and of the message system, any number of calls with arbitrary local computations in between; also no deadlock and a fixed number of steps. Two-sided overlaps with vecNo 0; one-sided windows are not modelled."
  },
  {
   "property": "C32",
   "status": "proved",
   "theorems": [
    "PyNucleus.Props.C32.scaling_is_inverse_multiplicity",
    "PyNucleus.Props.C32.distribute_divides",
    "PyNucleus.Props.C32.distribute_then_accumulate"
   ],
   "note": "prepareDistribute and distribute; the distribution after a repartitioning (prepareDistributeRepartition) is not modelled."
  },
  {
   "property": "C33",
   "status": "partial",
   "theorems": [
    "PyNucleus.Props.C33.unique_every_schedule_partial",
    "PyNucleus.Props.C33.unique_highest_rank_partial",
    "PyNucleus.Props.C33.unique_after_accumulate_fails",
    "PyNucleus.Props.C33.unique_dictionary_order_fails"
   ],
   "note": "Violated twice: unique overwrites send buffers of a preceding accumulate (unique_after_accumulate_fails), and the result depends on the order of the overlap dictionary, which HDF5read changes (unique_dictionary_order_fails). Proved for dictionaries in increasing order and programs without unique directly after accumulate."
  },
  {
   "property": "C34",
   "status": "partial",
   "theorems": [
    "PyNucleus.Props.C34.countDoFs_counts_once",
    "PyNucleus.Props.C34.getGlobalIndices_bijective",
    "PyNucleus.Props.C34.getGlobalIndices_results_partial",
    "PyNucleus.Props.C34.getGlobalIndices_dictionary_order_fails"
   ],
   "note": "countDoFs is proved in full. getGlobalIndices is proved for dictionaries in increasing order; for the order produced by HDF5read it is violated (getGlobalIndices_dictionary_order_fails). scan is modelled as the sum over lower ranks."
  },
  {
   "property": "C35",
   "status": "proved",
   "theorems": [
    "PyNucleus.Props.C35.rows_are_the_parts",
    "PyNucleus.Props.C35.every_cell_once"
   ],
   "note": "All partitions with values below n, empty parts included; the uninitialised index array has arbitrary content."
  },
  {
   "property": "C36",
   "status": "proved",
   "theorems": [
    "PyNucleus.Props.C36.primes_factor",
    "PyNucleus.Props.C36.balance_product",
    "PyNucleus.Props.C36.part_in_range",
    "PyNucleus.Props.C36.same_part_iff_same_box",
    "PyNucleus.Props.C36.raises_only_if_empty",
    "PyNucleus.Props.C36.irregular_in_range"
   ],
   "note": "Coordinates in an ordered field; rounding is not modelled. np.quantile is an arbitrary function."
  },
  {
   "property": "C37",
   "status": "partial",
   "theorems": [
    "PyNucleus.Props.C37.matvec_global",
    "PyNucleus.Props.C37.csr_matvec_global",
    "PyNucleus.Props.C37.csr_residual_global",
    "PyNucleus.Props.C37.diagonal_global",
    "PyNucleus.Props.C37.row_matvec_global",
    "PyNucleus.Props.C37.row_setup_keys",
    "PyNucleus.Props.C37.row_diagonal_zero",
    "PyNucleus.Props.C37.row_diagonal_fails",
    "PyNucleus.Props.C37.csr_doDistribute_fails"
   ],
   "note": "Products, residual and sub-assembled diagonal are proved in full. Violated: the diagonal of the row distributed operator is always zero (own columns are renumbered as ghosts), and the CSR operator with doDistribute uses attributes that do not exist."
  },
  {
   "property": "C38",
   "status": "partial",
   "theorems": [
    "PyNucleus.Props.C38.table_shape_partial",
    "PyNucleus.Props.C38.same_number_iff_partial",
    "PyNucleus.Props.C38.negative_iff_boundary_partial",
    "PyNucleus.Props.C38.gap_free_partial",
    "PyNucleus.Props.C38.skipped_cells_partial",
    "PyNucleus.Props.C38.same_number_same_point_partial",
    "PyNucleus.Props.C38.reorder_keeps",
    "PyNucleus.Props.C38.reset_keeps",
    "PyNucleus.Props.C38.p3_boundary_fails",
    "PyNucleus.Props.C38.edge_iff",
    "PyNucleus.Props.C38.face_iff"
   ],
   "note": "Violated for elements with several dofs per edge when a boundary edge is traversed from its larger to its smaller vertex: boundary dofs are counted in the wrong direction (DoFMaps.pyx 263-283), witness p3_boundary_fails. The _partial theorems hold for all meshes and elements without such edges (Forward); P1 and P2 are always covered."
  },
  {
   "property": "C39",
   "status": "partial",
   "theorems": [
    "PyNucleus.Props.C39.complement_complement",
    "PyNucleus.Props.C39.complement_entry",
    "PyNucleus.Props.C39.complement_sign",
    "PyNucleus.Props.C39.combine_entry",
    "PyNucleus.Props.C39.combine_complement",
    "PyNucleus.Props.C39.combine_complement_bijective",
    "PyNucleus.Props.C39.productDofs_getElem?",
    "PyNucleus.Props.C39.product_entry",
    "PyNucleus.Props.C39.product_bijection",
    "PyNucleus.Props.C39.product_range",
    "PyNucleus.Props.C39.product_complement",
    "PyNucleus.Props.C39.copy_keeps_partial",
    "PyNucleus.Props.C39.complement_order_fails"
   ],
   "note": "The numbering parts are proved in full. Violated: the copy behind getComplementDoFMap (__getstate__/__setstate__, DoFMaps.pyx 949-977) loses the polynomial order and the dimension."
  },
  {
   "property": "C40",
   "status": "proved",
   "theorems": [
    "PyNucleus.Props.C40.pattern_of_cells",
    "PyNucleus.Props.C40.nonsymmetric_pattern",
    "PyNucleus.Props.C40.reordered_pattern",
    "PyNucleus.Props.C40.cuthill_pattern"
   ],
   "note": "For at most 65527 couplings per dof (the 16-bit counters of the pattern, see C01)."
  },
  {
   "property": "C41",
   "status": "proved",
   "theorems": [
    "PyNucleus.Props.C41.nodal",
    "PyNucleus.Props.C41.reproduces",
    "PyNucleus.Props.C41.sum_one",
    "PyNucleus.Props.C41.nodes_sum",
    "PyNucleus.Props.C41.strided"
   ],
   "note": "Scalars are any field of characteristic zero; rounding is not modelled. Polynomials are Mathlib MvPolynomial in the barycentric coordinates, which contain all polynomials in cartesian coordinates."
  },
  {
   "property": "C42",
   "status": "partial",
   "theorems": [
    "PyNucleus.Props.C42.refine_intervals",
    "PyNucleus.Props.C42.refine_triangles",
    "PyNucleus.Props.C42.refine_tetrahedra",
    "PyNucleus.Props.C42.refine_sorted",
    "PyNucleus.Props.C42.refine_sorted_surface_fails"
   ],
   "note": "Proved for all meshes with at most 253 larger neighbours per vertex (limit of tupleDict, C04). refineCy2Dsort always has two coordinates, so surface meshes lose the third one (refine_sorted_surface_fails); proved for plane meshes. Intervals: no cell twice. Not modelled: refineCy2Dhash, mesh transformers."
  },
  {
   "property": "C43",
   "status": "proved",
   "theorems": [
    "PyNucleus.Props.C43.vertices",
    "PyNucleus.Props.C43.edges",
    "PyNucleus.Props.C43.faces",
    "PyNucleus.Props.C43.vertices_of_edges",
    "PyNucleus.Props.C43.edges_of_faces"
   ],
   "note": "boundaryVertices/Edges/Faces return, each once, exactly the vertices/edges/faces in an odd number of cells; boundary edges have the orientation of the cell returned with them; boundary vertices from edges and boundary edges from faces are exact. For every listing order of Python sets."
  },
  {
   "property": "C44",
   "status": "partial",
   "theorems": [
    "PyNucleus.Props.C44.orientation_partial",
    "PyNucleus.Props.C44.outward_fails"
   ],
   "note": "The property is violated: the code adds the cell center where it has to be subtracted. Proved: the returned faces are the boundary faces, each once, and exactly when they are outward (the origin has to be on the inner side, further than 1/8 of the height of the cell). outward_fails: the reference tetrahedron has three inward faces."
  },
  {
   "property": "C45",
   "status": "partial",
   "theorems": [
    "PyNucleus.Props.C45.boundary_triangles",
    "PyNucleus.Props.C45.boundary_tetrahedra_partial",
    "PyNucleus.Props.C45.quarters_normal",
    "PyNucleus.Props.C45.edges_unchanged_fails"
   ],
   "note": "newBoundaryAndTags3D writes into the last row of the boundary edges of the mesh that is refined (edges_unchanged_fails); the new boundary is right and all other rows are unchanged. In 3D boundary edges must have the smaller vertex first, which the routine preserves."
  },
  {
   "property": "C46",
   "status": "proved",
   "theorems": [
    "PyNucleus.Props.C46.removeUnused"
   ],
   "note": "For every content of the new arrays: the cells and all boundary rows of used vertices are renumbered by an injective map onto 0..n-1, coordinates are kept, boundary vertices that are used keep their tags."
  },
  {
   "property": "C47",
   "status": "partial",
   "theorems": [
    "PyNucleus.Props.C47.segment_line",
    "PyNucleus.Props.C47.triangle_plane",
    "PyNucleus.Props.C47.triangle_space_partial",
    "PyNucleus.Props.C47.segment_plane_iff",
    "PyNucleus.Props.C47.segment_plane_vertical_iff",
    "PyNucleus.Props.C47.segment_space_iff",
    "PyNucleus.Props.C47.vertexInCell_line",
    "PyNucleus.Props.C47.vertexInCell_plane",
    "PyNucleus.Props.C47.inCell_iff",
    "PyNucleus.Props.C47.vertexInCell_segment_fails",
    "PyNucleus.Props.C47.triangle_space_fails"
   ],
   "note": "Right for segments on the line, triangles in the plane (with vertexInCell, every tolerance) and triangles in space whose plane does not contain the origin. Segments in the plane and in space are divided by their length instead of the difference of the coordinate: right only for segments with the direction of an axis (iff theorems); vertexInCell does not find the midpoint of a horizontal segment. dgetrf/dgetrs is a parameter."
  },
  {
   "property": "C48",
   "status": "partial",
   "theorems": [
    "PyNucleus.Props.C48.exclusive_partial",
    "PyNucleus.Props.C48.atomic_partial",
    "PyNucleus.Props.C48.one_thread",
    "PyNucleus.Props.C48.race_fails"
   ],
   "note": "The property is violated: the second loop has unprotected updates; race_fails is an execution with two threads that loses an update. Proved for all divisions of rows: every interleaving is right if no entry is updated by two threads, and every execution with uninterrupted updates is right. Sequentially consistent memory."
  },
  {
   "property": "C49",
   "status": "partial",
   "theorems": [
    "PyNucleus.Props.C49.edge_dict_overflow",
    "PyNucleus.Props.C49.edge_dict_zero_increment",
    "PyNucleus.Props.C49.pattern_zero_initial_length",
    "PyNucleus.Props.C49.edge_dict_no_overflow_partial"
   ],
   "note": "The property is false of the code: the 256th key of a row, length_inc = 0 and initial_length = 0 are witnesses. Safety is proved inside the counter range."
  },
  {
   "property": "C50",
   "status": "partial",
   "theorems": [
    "PyNucleus.Props.C50.ichol_partial",
    "PyNucleus.Props.C50.ichol_wrong",
    "PyNucleus.Props.C50.root_sq"
   ],
   "note": "The code subtracts data[hh]*data[jj] before data[hh] is divided by the pivot, so the claim is false for the full 3x3 matrix (ichol_wrong); it holds for every pattern without three mutually coupled indices (ichol_partial)."
  },
  {
   "property": "C51",
   "status": "proved",
   "theorems": [
    "PyNucleus.Props.C51.roots_in_interval",
    "PyNucleus.Props.C51.residual_polynomial",
    "PyNucleus.Props.C51.degree_zero_fails"
   ],
   "note": "The cosines are arbitrary numbers in [-1, 1]. The estimate of the spectral radius and the accumulation over an overlap are not modelled."
  },
  {
   "property": "C52",
   "status": "partial",
   "theorems": [
    "PyNucleus.Props.C52.columns_partial",
    "PyNucleus.Props.C52.iteration_matrix_fails"
   ],
   "note": "Violated: a column with |A e_i| <= tolerance is returned as e_i (iteration_matrix_fails); the theorem columns_partial gives the columns in both cases."
  },
  {
   "property": "C53",
   "status": "partial",
   "theorems": [
    "PyNucleus.Props.C53.metis_inverse_partial",
    "PyNucleus.Props.C53.metis_inverse_fails"
   ],
   "note": "Violated for partitions with an empty part that is not the last one (metis_inverse_fails); proved for partitions without gaps."
  },
  {
   "property": "C54",
   "status": "proved",
   "theorems": [
    "PyNucleus.Props.C54.full_restriction",
    "PyNucleus.Props.C54.full_restriction_once",
    "PyNucleus.Props.C54.augment_restrict",
    "PyNucleus.Props.C54.component_restriction",
    "PyNucleus.Props.C54.build_sameNodes"
   ],
   "note": "Hypothesis SameNodes: both maps number the nodes of the same mesh bijectively; build_sameNodes shows it for the constructor under the hypotheses of C38. Where C38 is violated (reversed boundary edges of P3) these restrictions inherit the defect."
  },
  {
   "property": "C55",
   "status": "proved",
   "theorems": [
    "PyNucleus.Props.C55.shapes",
    "PyNucleus.Props.C55.mass_exact",
    "PyNucleus.Props.C55.mass01_exact",
    "PyNucleus.Props.C55.stiffness_exact",
    "PyNucleus.Props.C55.stiffness1_exact"
   ],
   "note": "The mean value over a simplex is defined by the factorial formula for monomials in barycentric coordinates. Scalars are any field of characteristic zero; rounding is not modelled."
  },
  {
   "property": "C56",
   "status": "partial",
   "theorems": [
    "PyNucleus.Props.C56.volume",
    "PyNucleus.Props.C56.volume_embedded",
    "PyNucleus.Props.C56.products2",
    "PyNucleus.Props.C56.products3d",
    "PyNucleus.Props.C56.products2Din3D",
    "PyNucleus.Props.C56.gradients_exist",
    "PyNucleus.Props.C56.gradient1_partial",
    "PyNucleus.Props.C56.gradient2_partial",
    "PyNucleus.Props.C56.gradient3_partial",
    "PyNucleus.Props.C56.gradient_products",
    "PyNucleus.Props.C56.gradient1_fails",
    "PyNucleus.Props.C56.gradient2_fails",
    "PyNucleus.Props.C56.gradient3_fails",
    "PyNucleus.Props.C56.stiffness_integral",
    "PyNucleus.Props.C56.stiffness1_integral",
    "PyNucleus.Props.C56.mass_integral",
    "PyNucleus.Props.C56.drift_partial",
    "PyNucleus.Props.C56.drift1_fails",
    "PyNucleus.Props.C56.drift2_fails"
   ],
   "note": "Everything holds except signs: simplexComputations1D/3D return the negative gradients for positive orientation, 2D for negative orientation (only products of gradients are used by the callers, gradient_products), and the drift matrices have the wrong sign for negative orientation. Witnesses are proved."
  },
  {
   "property": "C57",
   "status": "partial",
   "theorems": [
    "PyNucleus.Props.C57.csr_sum_partial",
    "PyNucleus.Props.C57.csr_boundary_partial",
    "PyNucleus.Props.C57.sss_sum_partial",
    "PyNucleus.Props.C57.sss_boundary_partial",
    "PyNucleus.Props.C57.nonsym_sum",
    "PyNucleus.Props.C57.nonsym_symlocal",
    "PyNucleus.Props.C57.nonsym_set",
    "PyNucleus.Props.C57.assemble_csr_partial",
    "PyNucleus.Props.C57.assemble_sss_partial",
    "PyNucleus.Props.C57.assemble_nonsym",
    "PyNucleus.Props.C57.assemble_reordered_partial",
    "PyNucleus.Props.C57.matrix_free_partial",
    "PyNucleus.Props.C57.matrix_free_diagonal_partial",
    "PyNucleus.Props.C57.mass_matrix_partial",
    "PyNucleus.Props.C57.stiffness_matrix_partial",
    "PyNucleus.Props.C57.repeated_fails"
   ],
   "note": "The symmetric routines add the off-diagonal local entry only once if two local dofs have the same global number (repeated_fails), as on periodic meshes with few cells; they are correct when the interior dofs of each cell are distinct. The non-symmetric routine is correct without that. Not modelled: cellIndices with local matrices that need setCell (the code does not call it there), surface meshes in matrixFreeOperator (simplex array has the wrong shape)."
  },
  {
   "property": "C58",
   "status": "proved",
   "theorems": [
    "PyNucleus.Props.C58.admissible_cover",
    "PyNucleus.Props.C58.covering_cover"
   ],
   "note": "All trees and parameters. The square root is a parameter with its defining property; clusters share refParams; refinement during the traversal is represented by the children after the attempt."
  },
  {
   "property": "C59",
   "status": "partial",
   "theorems": [
    "PyNucleus.Props.C59.dist_exact",
    "PyNucleus.Props.C59.diam_exact",
    "PyNucleus.Props.C59.maxDist_iff",
    "PyNucleus.Props.C59.far_separated",
    "PyNucleus.Props.C59.far_outside",
    "PyNucleus.Props.C59.far_inside_partial",
    "PyNucleus.Props.C59.complement_partial",
    "PyNucleus.Props.C59.far_inside_fails",
    "PyNucleus.Props.C59.complement_fails"
   ],
   "note": "Violated: maxDistBoxes compares lower bounds and is too small when one box contains the other in a dimension. maxDist_iff has the exact condition under which it bounds all distances (centres in the order of the lower bounds). far_inside_fails: a far-field pair with points beyond the horizon; complement_fails: an interacting pair of a complement kernel that is dropped. Proved under the condition (far_inside_partial, complement_partial); the other parts without it."
  },
  {
   "property": "C60",
   "status": "partial",
   "theorems": [
    "PyNucleus.Props.C60.divides",
    "PyNucleus.Props.C60.tree_dofs",
    "PyNucleus.Props.C60.hull_exact",
    "PyNucleus.Props.C60.child_box",
    "PyNucleus.Props.C60.barycenter_splits",
    "PyNucleus.Props.C60.no_error_partial",
    "PyNucleus.Props.C60.quadrants_partial",
    "PyNucleus.Props.C60.ids_distinct_partial",
    "PyNucleus.Props.C60.quadrant_fails",
    "PyNucleus.Props.C60.ids_mixed_fails",
    "PyNucleus.Props.C60.barycenter_fails"
   ],
   "note": "Violated in three ways. quadrant_fails: with splitEveryDim an empty quadrant is skipped but the next one still writes children[k].id beyond the end of the list (proved absent in one dimension, for mixed clusters, for the default branch, and if no quadrant is empty). ids_mixed_fails: mixed clusters use two children per level and others four, so identifiers of siblings' children collide (distinct if all or no clusters are mixed: ids_distinct_partial). barycenter_fails: the default branch of two dimensions never computes a split box for BARYCENTER, so no cluster is ever split. The rest is proved for all inputs; the median is a parameter."
  },
  {
   "property": "C61",
   "status": "partial",
   "theorems": [
    "PyNucleus.Props.C61.upTo_levels",
    "PyNucleus.Props.C61.nodes_levels",
    "PyNucleus.Props.C61.numLevels_exact",
    "PyNucleus.Props.C61.numNodesOnLevel_exact",
    "PyNucleus.Props.C61.numLeavesOnLevel_exact",
    "PyNucleus.Props.C61.leaves_divide",
    "PyNucleus.Props.C61.find_exact",
    "PyNucleus.Props.C61.parent_exact",
    "PyNucleus.Props.C61.parent_up",
    "PyNucleus.Props.C61.setId_exact",
    "PyNucleus.Props.C61.setId_distinct",
    "PyNucleus.Props.C61.maxId_exact",
    "PyNucleus.Props.C61.unique_iff",
    "PyNucleus.Props.C61.numDofs_exact",
    "PyNucleus.Props.C61.trim_exact",
    "PyNucleus.Props.C61.trim_divided",
    "PyNucleus.Props.C61.trimTree_keeps",
    "PyNucleus.Props.C61.symmetrize_exact",
    "PyNucleus.Props.C61.symmetrize_symmetric",
    "PyNucleus.Props.C61.onLevel_exact",
    "PyNucleus.Props.C61.onLevel_partial",
    "PyNucleus.Props.C61.onLevel_fails"
   ],
   "note": "Violated: get_tree_nodes_on_level(l) calls get_tree_nodes_up_to_level and yields the nodes of all levels from 1 to l (onLevel_exact, onLevel_fails; right for l at most 1). Everything else is proved for all inputs; the branch of trim that adopts grandchildren is shown to be never taken."
  },
  {
   "property": "C62",
   "status": "partial",
   "theorems": [
    "PyNucleus.Props.C62.matvec_exact",
    "PyNucleus.Props.C62.matvecAdd_exact",
    "PyNucleus.Props.C62.matvecTrans_exact",
    "PyNucleus.Props.C62.matvecTransAdd_exact",
    "PyNucleus.Props.C62.basis_partial",
    "PyNucleus.Props.C62.toarray_partial",
    "PyNucleus.Props.C62.basis_fails",
    "PyNucleus.Props.C62.toarray_fails",
    "PyNucleus.Props.C62.transfer_fails"
   ],
   "note": "The four products are proved for all inputs. Violated: the basis matrix (basis_fails) and toarray (toarray_fails) use component 0 only, they are right for one component (for toarray also each entry in one block at most, as proved in C58). Without BLAS gemvT accesses memory past the end if a child has fewer coefficients than its parent (transfer_fails), which the default orders allow. matvecTrans with the basis matrix passes vectors of the wrong length and is not modelled."
  },
  {
   "property": "C63",
   "status": "partial",
   "theorems": [
    "PyNucleus.Props.C63.nodes_in_box",
    "PyNucleus.Props.C63.transfer_partial",
    "PyNucleus.Props.C63.leaf_partial",
    "PyNucleus.Props.C63.nested_partial",
    "PyNucleus.Props.C63.farfield_partial",
    "PyNucleus.Props.C63.tolerance_fails"
   ],
   "note": "nodes_in_box holds for all inputs. The other statements are proved when coordinates that are compared are equal or differ by more than the tolerance (1e-8 or 1e-9). Without this they are violated (tolerance_fails): the tolerances are absolute, so for a box of width 1e-9 all entries of the transfer matrix are one and not even constants are reproduced."
  },
  {
   "property": "C64",
   "status": "partial",
   "theorems": [
    "PyNucleus.Props.C64.eval_ball2",
    "PyNucleus.Props.C64.eval_ballInf",
    "PyNucleus.Props.C64.eval_complement",
    "PyNucleus.Props.C64.position_ball",
    "PyNucleus.Props.C64.interact_ball",
    "PyNucleus.Props.C64.remote_complement",
    "PyNucleus.Props.C64.symmetric",
    "PyNucleus.Props.C64.complement_opposite",
    "PyNucleus.Props.C64.stored",
    "PyNucleus.Props.C64.transform_inside",
    "PyNucleus.Props.C64.transform_position",
    "PyNucleus.Props.C64.transform_interact",
    "PyNucleus.Props.C64.remote_line_partial",
    "PyNucleus.Props.C64.remote_fails",
    "PyNucleus.Props.C64.stored_fails"
   ],
   "note": "REMOTE is proved for intervals side by side in one dimension (remote_line_partial). In two dimensions it is violated, and so is INTERACT for the complement: only distances of vertices are compared, and edges can be nearer (remote_fails, two disjoint triangles). linearTransformInteraction.getRelativePosition returns its answer without assigning relPos, so cut elements are not treated as cut for ellipses and l1 balls (stored_fails). For matrices that depend on the point INTERACT is described for pairs of vertices only."
  },
  {
   "property": "C65",
   "status": "partial",
   "theorems": [
    "PyNucleus.Props.C65.intersections",
    "PyNucleus.Props.C65.inner_inside",
    "PyNucleus.Props.C65.inner_volume",
    "PyNucleus.Props.C65.inner_disjoint",
    "PyNucleus.Props.C65.inner_whole",
    "PyNucleus.Props.C65.inner_line_partial",
    "PyNucleus.Props.C65.inner_line_fails",
    "PyNucleus.Props.C65.inner_triangle_fails",
    "PyNucleus.Props.C65.outer_line",
    "PyNucleus.Props.C65.outer_line_volume",
    "PyNucleus.Props.C65.outer_line_fails",
    "PyNucleus.Props.C65.outer_raises",
    "PyNucleus.Props.C65.outer_triangle",
    "PyNucleus.Props.C65.outer_vertex",
    "PyNucleus.Props.C65.outer_triangle_fails",
    "PyNucleus.Props.C65.corners_fails",
    "PyNucleus.Props.C65.memory_fails"
   ],
   "note": "Containment, volumes and disjointness are proved for intervals and triangles. That the parts are the whole intersection is proved on the line if no end of the interval is on the sphere; with an end on the sphere the part can shrink to a point (inner_line_fails). Triangles without vertices in the ball have no parts (inner_triangle_fails, a TODO in the code). Outer loop: exact for intervals side by side with ordered vertices; with decreasing order there are no parts (outer_line_fails); for triangles only distances to vertices of the other triangle count (outer_triangle_fails) and without near vertices it raises (outer_raises). In the maximum norm findIntersections can write four values into an array of two (corners_fails) and reads a second coordinate in one dimension (memory_fails); its decomposition of triangles is covered only by the lemmas that hold for every findIntersections."
  },
  {
   "property": "C66",
   "status": "partial",
   "theorems": [
    "PyNucleus.Props.C66.restriction_values",
    "PyNucleus.Props.C66.prolongation_exact_partial",
    "PyNucleus.Props.C66.prolongation_exact_fails",
    "PyNucleus.Props.C66.unsupported"
   ],
   "note": "Entries: proved for all pairs, for the orders 1,3 and 2,3 up to 5e-10. Exactness of the prolongation: proved for all other pairs (boundary dofs inherited from the coarse mesh); for 1,3 and 2,3 it fails since the tables have nine decimals (prolongation_exact_fails)."
  },
  {
   "property": "C67",
   "status": "partial",
   "theorems": [
    "PyNucleus.Props.C67.nodes_position",
    "PyNucleus.Props.C67.volume_spec",
    "PyNucleus.Props.C67.integrate_exact",
    "PyNucleus.Props.C67.add_eval",
    "PyNucleus.Props.C67.transform_values",
    "PyNucleus.Props.C67.double_iterated",
    "PyNucleus.Props.C67.double_fails",
    "PyNucleus.Props.C67.gauss1D_exact",
    "PyNucleus.Props.C67.gauss2D_exact",
    "PyNucleus.Props.C67.gauss3D_exact",
    "PyNucleus.Props.C67.duffy_exact",
    "PyNucleus.Props.C67.xiaoGimbutas_exact",
    "PyNucleus.Props.C67.gauss_exact",
    "PyNucleus.Props.C67.quad_partial",
    "PyNucleus.Props.C67.quad_fails",
    "PyNucleus.Props.C67.spherical_exact"
   ],
   "note": "Proved for the rules on simplices, circles and for nodes and weights on cubes. `integrate` of the rules on cubes reads the array of nodes with exchanged indices and adds the first vertex for every dimension: quad_fails; it is right for one node on an interval (quad_partial). Rules for pairs of simplices read outside of the arrays for embedded simplices (double_fails). simplexJaskowiecSukumar with its decimal tables is not covered."
  },
  {
   "property": "C68",
   "status": "partial",
   "theorems": [
    "PyNucleus.Props.C68.rhs_exact",
    "PyNucleus.Props.C68.complex_parts",
    "PyNucleus.Props.C68.default_exact",
    "PyNucleus.Props.C68.default_fails",
    "PyNucleus.Props.C68.fromFE_exact",
    "PyNucleus.Props.C68.fromFE_default_partial",
    "PyNucleus.Props.C68.fromFE_fails",
    "PyNucleus.Props.C68.surface_fails",
    "PyNucleus.Props.C68.nonlinearity_exact",
    "PyNucleus.Props.C68.nonlinearRule_partial",
    "PyNucleus.Props.C68.nonlinear_fails",
    "PyNucleus.Props.C68.vector_components"
   ],
   "note": "Proved for given rules. The default rule of assembleRHS is exact for functions of the space except quadratic elements in three dimensions, where the rule of order 3 is used (default_fails). assembleRHSfromFEfunction without rule uses rules of order 3, 2, 3, too low for quadratic elements (fromFE_fails), and on surfaces the volume of the projection to the first coordinates (surface_fails). The rule of assembleNonlinearity suffices for affine functions of linear elements (nonlinearRule_partial), not for the identity on quadratic elements in three dimensions (nonlinear_fails). Edge elements (needsGradients) and assembleRHSgrad are not covered."
  },
  {
   "property": "C69",
   "status": "partial",
   "theorems": [
    "PyNucleus.Props.C69.rank_bijective",
    "PyNucleus.Props.C69.rank_lex",
    "PyNucleus.Props.C69.permutation_table",
    "PyNucleus.Props.C69.table_built",
    "PyNucleus.Props.C69.ignored",
    "PyNucleus.Props.C69.panel_common",
    "PyNucleus.Props.C69.dofs",
    "PyNucleus.Props.C69.base_inside",
    "PyNucleus.Props.C69.identifier",
    "PyNucleus.Props.C69.ignored_line_partial",
    "PyNucleus.Props.C69.ignored_fails"
   ],
   "note": "Everything proved except that pairs left out have no points within the horizon: the test uses distances of vertices and is wrong for triangles (ignored_fails), right for intervals side by side (ignored_line_partial). Without common vertices the second half of the permutation of dofs is not set by the code. Pairs of a cell with a surface cell have only the first half. Quadrature orders (getPanelType after the first step) are not covered."
  },
  {
   "property": "C70",
   "status": "partial",
   "theorems": [
    "PyNucleus.Props.C70.dense",
    "PyNucleus.Props.C70.ranks",
    "PyNucleus.Props.C70.csr",
    "PyNucleus.Props.C70.sss",
    "PyNucleus.Props.C70.masked_symmetric",
    "PyNucleus.Props.C70.masked_general",
    "PyNucleus.Props.C70.masked_all",
    "PyNucleus.Props.C70.entry_partial",
    "PyNucleus.Props.C70.entry_unsymmetric_fails",
    "PyNucleus.Props.C70.entry_variable_fails"
   ],
   "note": "Everything proved except getEntry. For symmetric cells and constant kernels it is proved to be the sum over the pairs of cells that contain I or J (entry_partial); the remainder, which the code replaces by an integral over the boundary of the union of these cells, is not covered. For unsymmetric cells (entry_unsymmetric_fails: cells are swapped once and not back) and variable kernels (entry_variable_fails: pairs with a cell outside are counted once, or not at all if the outer cell has the smaller number) it is not the entry of the matrix. Local matrices are parameters. Vector-valued operators, two dof maps and getDense's conversion of dense to sparse matrices are not modelled."
  },
  {
   "property": "C71",
   "status": "proved",
   "theorems": [
    "PyNucleus.Props.C71.masked",
    "PyNucleus.Props.C71.filtered",
    "PyNucleus.Props.C71.masked_filtered",
    "PyNucleus.Props.C71.ranks",
    "PyNucleus.Props.C71.exterior",
    "PyNucleus.Props.C71.one_sided"
   ],
   "note": "one_sided shows that for symmetric local matrices the reversed cluster pairs cannot be omitted. Local matrices are parameters. The subtraction of the exterior for regional operators, the part for variable kernels with jumps, and vector-valued kernels are not modelled; the dictionary of masks is a list (see C02 for the table)."
  },
  {
   "property": "C72",
   "status": "partial",
   "theorems": [
    "PyNucleus.Props.C72.fractional",
    "PyNucleus.Props.C72.integrable_partial",
    "PyNucleus.Props.C72.exponential_divergence",
    "PyNucleus.Props.C72.exponential_fails",
    "PyNucleus.Props.C72.polynomial_fails",
    "PyNucleus.Props.C72.phi_fails",
    "PyNucleus.Props.C72.tempered_fails",
    "PyNucleus.Props.C72.interaction_fails",
    "PyNucleus.Props.C72.value",
    "PyNucleus.Props.C72.value_fails",
    "PyNucleus.Props.C72.symmetric",
    "PyNucleus.Props.C72.vanishes"
   ],
   "note": "Proved for fractional kernels (d = 1, 2, 3), indicator, peridynamic and Gaussian kernels (d = 1, 2) and exponential kernels (d = 1). False, with witnesses: exponential kernels for d = 2, 3 (the term (d-1) \u0393/r is missing, exponential_divergence), polynomial kernels, kernels with a factor phi (contained in the scaling and applied again), tempered kernels (the parameter is not passed on), kernels whose interaction domain is not the Euclidean ball (replaced by it). On squares a fractional kernel uses the distance in the maximum norm (value_fails). Only constant orders, horizons and scalings; tempered boundary kernels evaluate gammaincc outside its domain and have no value in the model; complex kernels and derivatives with respect to the order are not modelled here."
  },
  {
   "property": "C73",
   "status": "partial",
   "theorems": [
    "PyNucleus.Props.C73.derivative",
    "PyNucleus.Props.C73.variable_eq",
    "PyNucleus.Props.C73.gradient",
    "PyNucleus.Props.C73.hessian",
    "PyNucleus.Props.C73.getDerivativeKernel_partial",
    "PyNucleus.Props.C73.boundary_of_derivative",
    "PyNucleus.Props.C73.boundary_fails",
    "PyNucleus.Props.C73.scaling_fails",
    "PyNucleus.Props.C73.tempered_fails"
   ],
   "note": "Proved for untempered kernels of getFractionalKernel, their derivative and Hessian kernels, variable orders, and boundary kernels of derivative kernels. False, with witnesses: getDerivativeKernel of a normalised boundary kernel (the product with 1/s is a constantTwoPoint, so the normalisation is lost), of a kernel with another constant scaling than 1/2, and the derivative of normalised tempered kernels of infinite horizon (the factor of the untempered normalisation is used). The entries of the Hessian need an order that is affine in its parameters, as all orders of the code with evalGrad are. polygamma(1, x), computed by a Hurwitz zeta function, is modelled as the derivative of digamma. Not modelled: manifold kernels, variableFractionalLaplacianScalingWithDifferentHorizon."
  },
  {
   "property": "C74",
   "status": "partial",
   "theorems": [
    "PyNucleus.Props.C74.second_moment",
    "PyNucleus.Props.C74.fractional_moment",
    "PyNucleus.Props.C74.exponential_moment",
    "PyNucleus.Props.C74.gaussian_mass_partial",
    "PyNucleus.Props.C74.gaussian_fails",
    "PyNucleus.Props.C74.square_fails"
   ],
   "note": "Proved for indicator, peridynamic and Gaussian kernels in dimensions 1 and 2 on Euclidean balls (intervals, also as ballInf), fractional kernels in dimensions 1, 2, 3 and the exponential kernel of finite and infinite horizon. False, with witnesses: the indicator kernel on a square (`ballInf` in two dimensions) has the second moment 1/2, and the mass of the two dimensional Gaussian kernel of infinite horizon is variance/2, since the exponent is divided by variance**dim. Not treated: the symbol of the fractional kernels of infinite horizon, ellipses, the polynomial kernel (which is scaled by 1/2), variable horizons, manifolds. The error function is the integral that defines it; pow and exp are exact."
  },
  {
   "property": "C75",
   "status": "partial",
   "theorems": [
    "PyNucleus.Props.C75.range",
    "PyNucleus.Props.C75.symmetric",
    "PyNucleus.Props.C75.symmetric_partial",
    "PyNucleus.Props.C75.leftRight_value",
    "PyNucleus.Props.C75.innerOuter_value_partial",
    "PyNucleus.Props.C75.islands_value",
    "PyNucleus.Props.C75.layers_value",
    "PyNucleus.Props.C75.transition_value",
    "PyNucleus.Props.C75.gradient",
    "PyNucleus.Props.C75.gradient_const",
    "PyNucleus.Props.C75.gradient_fe",
    "PyNucleus.Props.C75.reduce_partial",
    "PyNucleus.Props.C75.sum_fails",
    "PyNucleus.Props.C75.innerOuter_fails",
    "PyNucleus.Props.C75.piecewise_fails",
    "PyNucleus.Props.C75.symmetric_fails",
    "PyNucleus.Props.C75.reduce_fails",
    "PyNucleus.Props.C75.smoothedInnerOuter_fails"
   ],
   "note": "Proved for all classes that can be constructed, apart from these defects, each with a witness: sumFractionalOrder multiplies its summands (and lies outside of its bounds); innerOuterFractionalOrder stores only the first coordinate of the centre and reads the others from uninitialised memory; piecewiseConstantFractionalOrder returns -1 for block indices out of range and is flagged symmetric up to 1e-10; lambdaFractionalOrder and sumFractionalOrder inherit __reduce__ of the base class, whose eval raises; smoothedInnerOuterFractionalOrder fails its own assertion. Bounds of lambda and finite element orders are given by the caller. Point location and shape functions of lookupExtended are parameters. The tuple of __reduce__ is applied directly; the encoding by pickle is not modelled."
  },
  {
   "property": "C76",
   "status": "partial",
   "theorems": [
    "PyNucleus.Props.C76.arithmetic",
    "PyNucleus.Props.C76.length_eval",
    "PyNucleus.Props.C76.vector_partial",
    "PyNucleus.Props.C76.vector_scale",
    "PyNucleus.Props.C76.vector_rows",
    "PyNucleus.Props.C76.matrix_value",
    "PyNucleus.Props.C76.matrix_ptr",
    "PyNucleus.Props.C76.affine_value",
    "PyNucleus.Props.C76.shiftScale_comp",
    "PyNucleus.Props.C76.radial_eq",
    "PyNucleus.Props.C76.radial_value",
    "PyNucleus.Props.C76.square_value",
    "PyNucleus.Props.C76.proj_value",
    "PyNucleus.Props.C76.indicator_value",
    "PyNucleus.Props.C76.periodic_partial",
    "PyNucleus.Props.C76.vector_fails",
    "PyNucleus.Props.C76.periodic_fails",
    "PyNucleus.Props.C76.reduce_fails",
    "PyNucleus.Props.C76.matrix_fails"
   ],
   "note": "Proved apart from these defects, each with a witness: sums and differences with a vector valued function that was multiplied by a function forget that function; periodicityFunctor uses the C remainder (directive cdivision) and is not periodic for negative coordinates; sqrtAffineFunction is rebuilt as affineFunction. With the flag symmetric the components below the diagonal are ignored. Values of special functions are opaque; rounding is not modelled. constantMatrixFunction, lookup functions and the sphere integral are not covered."
  },
  {
   "property": "C77",
   "status": "partial",
   "theorems": [
    "PyNucleus.Props.C77.sin1D",
    "PyNucleus.Props.C77.sin2D",
    "PyNucleus.Props.C77.cos2D_laplacian",
    "PyNucleus.Props.C77.sin3D",
    "PyNucleus.Props.C77.boundaryLayer",
    "PyNucleus.Props.C77.boundarySingularity",
    "PyNucleus.Props.C77.fichera",
    "PyNucleus.Props.C77.corner",
    "PyNucleus.Props.C77.heat",
    "PyNucleus.Props.C77.nonlinear",
    "PyNucleus.Props.C77.grayScott_system",
    "PyNucleus.Props.C77.gradients",
    "PyNucleus.Props.C77.derivative_partial",
    "PyNucleus.Props.C77.scaling",
    "PyNucleus.Props.C77.families",
    "PyNucleus.Props.C77.fractional_system",
    "PyNucleus.Props.C77.brusselator_residual",
    "PyNucleus.Props.C77.brusselator_partial",
    "PyNucleus.Props.C77.fits_origin",
    "PyNucleus.Props.C77.brusselator_fails",
    "PyNucleus.Props.C77.normal_fails",
    "PyNucleus.Props.C77.derivative_fails"
   ],
   "note": "Proved for all pairs of local equations. Defects with witnesses: the Brusselator right-hand sides divide by radius^(2s) although solFractional already contains that factor, so they fit only for the unit ball; _grad_cos2d_n is not the normal derivative of _cos2D; solFractionalDerivative is NaN on the sphere. For the fractional systems that the fractional Laplacian of solFractional is 1 in the ball is a hypothesis (the operator is a parameter); Jacobi polynomials are a parameter. _rhsFunSin1D and _rhsFunSin3D have no wave numbers and fit the solutions with all wave numbers 1. Rounding is not modelled."
  },
  {
   "property": "C78",
   "status": "partial",
   "theorems": [
    "PyNucleus.Props.C78.symmetric_partial",
    "PyNucleus.Props.C78.matrix_symmetric",
    "PyNucleus.Props.C78.eval_partial",
    "PyNucleus.Props.C78.valueSize_one",
    "PyNucleus.Props.C78.product_value",
    "PyNucleus.Props.C78.inverse_value",
    "PyNucleus.Props.C78.fixed_value",
    "PyNucleus.Props.C78.tensor_value",
    "PyNucleus.Props.C78.leftRight_value",
    "PyNucleus.Props.C78.interface_sum",
    "PyNucleus.Props.C78.smoothed_value_partial",
    "PyNucleus.Props.C78.tempered_value",
    "PyNucleus.Props.C78.unsym_value",
    "PyNucleus.Props.C78.lookup_value",
    "PyNucleus.Props.C78.reduce_partial",
    "PyNucleus.Props.C78.symmetric_fails",
    "PyNucleus.Props.C78.symmetric_right_fails",
    "PyNucleus.Props.C78.interface_fails",
    "PyNucleus.Props.C78.matrix_fails",
    "PyNucleus.Props.C78.smoothed_fails"
   ],
   "note": "Proved except for defects with witnesses: interfaceTwoPoint is flagged symmetric but is not in two dimensions, and stores nothing in three; matrixTwoPoint.eval divides by a vanishing distance where evalPtr gives 1, and its __reduce__ does not return a tuple; smoothedLeftRightTwoPoint overwrites the constant values outside of the transition zone. Flags given by the caller (lambdaTwoPoint, lookupTwoPoint) are assumed correct. Real values; the complex versions are not modelled (their fixedX, fixedY and diagonal build the real class). Parametrised functions only as products. cellFinder and the local shape functions are parameters of the lookup. Rounding is not modelled; the tolerance 1e-12 in the symmetry test of matrixTwoPoint is not needed since its values are symmetric for every matrix."
  },
  {
   "property": "C79",
   "status": "partial",
   "theorems": [
    "PyNucleus.Props.C79.refines_map_partial",
    "PyNucleus.Props.C79.delete_twice",
    "PyNucleus.Props.C79.enter_distinct",
    "PyNucleus.Props.C79.fits_of_length",
    "PyNucleus.Props.C79.overflow_fails"
   ],
   "note": "Proved as long as at most 255 keys have the same first number. Defect with witness: after 256 such keys the 8-bit counter wraps around to 0 and none of them is found (cellFinder2 can reach this in two dimensions). Missing: behaviour beyond the wrap around other than this. Calls with a first number outside of 0 \u2026 num_dofs\u22121 are invalid accesses in the model; 32-bit overflow of INDEX_t is not modelled."
  },
  {
   "property": "C80",
   "status": "partial",
   "theorems": [
    "PyNucleus.Props.C80.sound",
    "PyNucleus.Props.C80.notfound",
    "PyNucleus.Props.C80.exact_partial",
    "PyNucleus.Props.C80.safe_partial",
    "PyNucleus.Props.C80.complete_line_partial",
    "PyNucleus.Props.C80.build_partial",
    "PyNucleus.Props.C80.build_line",
    "PyNucleus.Props.C80.lookup_value",
    "PyNucleus.Props.C80.lookup_affine",
    "PyNucleus.Props.C80.uniform_value",
    "PyNucleus.Props.C80.uniform_affine",
    "PyNucleus.Props.C80.interval_valid",
    "PyNucleus.Props.C80.interval_chain",
    "PyNucleus.Props.C80.square_valid",
    "PyNucleus.Props.C80.complete_fails",
    "PyNucleus.Props.C80.last_fails",
    "PyNucleus.Props.C80.first_fails",
    "PyNucleus.Props.C80.outside_fails",
    "PyNucleus.Props.C80.build_overflow",
    "PyNucleus.Props.C80.overflow_fails"
   ],
   "note": "Proved: what is returned is right up to the tolerance 1e-15 of the code; \u22121 only if no candidate and no neighbour of a candidate contains the point; every point is found on a mesh of an interval that is not shorter than 1/2, unless it lies in an empty last slice; set-up in one dimension always, in two dimensions with at most 255 occupied boxes per slice. Defects with witnesses: on an interval of length 1/10 an interior vertex is not found (`L` depends on `h` and not on `h` relative to the extent); the search for the right end of the unit interval with 65 equal cells, for the left end of a short interval, and for any point far enough outside of the bounding box reads outside of the arrays of `faceVals`; a strip of 256 triangles makes the constructor's assertion fail. Missing: completeness in two dimensions; meshes with codimension; `vectorLookupFunction`; `cellFinder` (scipy's cKDTree)."
  },
  {
   "property": "C81",
   "status": "partial",
   "theorems": [
    "PyNucleus.Props.C81.loops",
    "PyNucleus.Props.C81.edges_triangle",
    "PyNucleus.Props.C81.edges_tetrahedron",
    "PyNucleus.Props.C81.edges_face",
    "PyNucleus.Props.C81.faces_tetrahedron",
    "PyNucleus.Props.C81.nested_fails",
    "PyNucleus.Props.C81.edge_number_triangle",
    "PyNucleus.Props.C81.edge_number_tetrahedron",
    "PyNucleus.Props.C81.face_number",
    "PyNucleus.Props.C81.edge_absent",
    "PyNucleus.Props.C81.edge_absent_fails",
    "PyNucleus.Props.C81.keys",
    "PyNucleus.Props.C81.order_zero",
    "PyNucleus.Props.C81.edge_orders",
    "PyNucleus.Props.C81.face_orders",
    "PyNucleus.Props.C81.face_edges",
    "PyNucleus.Props.C81.orientation",
    "PyNucleus.Props.C81.vertex_number",
    "PyNucleus.Props.C81.nodes_partial",
    "PyNucleus.Props.C81.nodes_fails"
   ],
   "note": "Proved: enumeration, numbers, keys, orders and orientation. The full statement is false: pairs that are not edges of the cell (or are not sorted) get the number of the last edge, whereas faces give -1 (edge_absent, edge_absent_fails); all loops share one counter, so a loop over face edges inside a loop over faces skips faces and never ends (nested_fails); the loop over vertices uses the dimension of the space and reads behind cells of lower dimension (nodes_fails)."
  },
  {
   "property": "C82",
   "status": "proved",
   "theorems": [
    "PyNucleus.Props.C82.interface_intervals",
    "PyNucleus.Props.C82.interface_triangles",
    "PyNucleus.Props.C82.interface_tetrahedra",
    "PyNucleus.Props.C82.points",
    "PyNucleus.Props.C82.sides_intervals",
    "PyNucleus.Props.C82.sides_triangles",
    "PyNucleus.Props.C82.sides_tetrahedra"
   ],
   "note": "Scalars are an ordered field, so midpoints are exact. The set intersections of the code are lists without duplicates from which pop takes the only element."
  },
  {
   "property": "C83",
   "status": "partial",
   "theorems": [
    "PyNucleus.Props.C83.collected",
    "PyNucleus.Props.C83.two_sides",
    "PyNucleus.Props.C83.built_numbered",
    "PyNucleus.Props.C83.members",
    "PyNucleus.Props.C83.full_overlap_fails"
   ],
   "note": "Proved: the collected list, its members and the correspondence of the two sides (the signs of the map of the overlap are a hypothesis of two_sides). The full statement is false for overlaps with all cells of a mesh in another order: the map of the overlap is then the one of the whole mesh but is read with the numbers of the overlap (full_overlap_fails). Hypotheses of C38 (built maps) apply."
  },
  {
   "property": "C84",
   "status": "partial",
   "theorems": [
    "PyNucleus.Props.C84.sub_map",
    "PyNucleus.Props.C84.full_map",
    "PyNucleus.Props.C84.restriction",
    "PyNucleus.Props.C84.restriction_same_mesh",
    "PyNucleus.Props.C84.restriction_marked",
    "PyNucleus.Props.C84.restricted_values",
    "PyNucleus.Props.C84.prolonged_values",
    "PyNucleus.Props.C84.subdomains",
    "PyNucleus.Props.C84.kept_map",
    "PyNucleus.Props.C84.tags",
    "PyNucleus.Props.C84.face_tags_fails",
    "PyNucleus.Props.C84.indicator_rows_partial",
    "PyNucleus.Props.C84.indicator_fails",
    "PyNucleus.Props.C84.sample_case"
   ],
   "note": "Fails: tags of boundary faces in 3D (getSubmesh encodes the array e of the last edge instead of the face f: face_tags_fails); with an explicit indicator the rows of the restriction are the marked degrees of freedom in increasing order, which is not the numbering of the sub map in general (indicator_fails). All other parts are proved. The construction of the new mesh object and its boundary are inputs (C43, C44)."
  },
  {
   "property": "C85",
   "status": "partial",
   "theorems": [
    "PyNucleus.Props.C85.connectivity",
    "PyNucleus.Props.C85.face_connectivity",
    "PyNucleus.Props.C85.boundary_cells",
    "PyNucleus.Props.C85.layers",
    "PyNucleus.Props.C85.refined",
    "PyNucleus.Props.C85.refined_layers",
    "PyNucleus.Props.C85.triangles_refine",
    "PyNucleus.Props.C85.intervals_refine",
    "PyNucleus.Props.C85.exhausted_fails",
    "PyNucleus.Props.C85.tetrahedra_fails",
    "PyNucleus.Props.C85.sample_case"
   ],
   "note": "Fails: for tetrahedra the pruning keeps too few cells (tetrahedra_fails: the children of one layer do not contain two layers of the refined mesh, because a child has vertices on opposite edges); a refinement more than afterRefinements divides by zero (exhausted_fails). Connectivity after refinement in 3D is not modelled. Everything else is proved. Meshes are conforming, two cells have at most one common side, triangles are oriented, and boundary sides have a boundary vertex."
  },
  {
   "property": "C86",
   "status": "partial",
   "theorems": [
    "PyNucleus.Props.C86.square",
    "PyNucleus.Props.C86.uniform_square",
    "PyNucleus.Props.C86.lines_accepted",
    "PyNucleus.Props.C86.lines_fails",
    "PyNucleus.Props.C86.tensor_partial",
    "PyNucleus.Props.C86.tensor_fails",
    "PyNucleus.Props.C86.bricks",
    "PyNucleus.Props.C86.box_mesh",
    "PyNucleus.Props.C86.box_interactions_partial",
    "PyNucleus.Props.C86.box_interactions_fails",
    "PyNucleus.Props.C86.lshape",
    "PyNucleus.Props.C86.simple_box",
    "PyNucleus.Props.C86.fichera",
    "PyNucleus.Props.C86.sample_case"
   ],
   "note": "Fails: the uniform variant of squareWithInteractions counts all triangles clockwise (tensor_fails; all else about it is tensor_partial); the assertion on the lines to preserve has no absolute value and accepts lines that are no grid lines (lines_fails); boxWithInteractions uses Nx for all three directions (box_interactions_fails, the rest is box_interactions_partial). Everything else is proved for all grids. Arithmetic is exact."
  },
  {
   "property": "C87",
   "status": "partial",
   "theorems": [
    "PyNucleus.Props.C87.covers",
    "PyNucleus.Props.C87.interval",
    "PyNucleus.Props.C87.interaction",
    "PyNucleus.Props.C87.interaction_default",
    "PyNucleus.Props.C87.double_partial",
    "PyNucleus.Props.C87.double_fails",
    "PyNucleus.Props.C87.graded",
    "PyNucleus.Props.C87.graded_error",
    "PyNucleus.Props.C87.width_partial",
    "PyNucleus.Props.C87.width_fails",
    "PyNucleus.Props.C87.refinement",
    "PyNucleus.Props.C87.grading",
    "PyNucleus.Props.C87.sample_case"
   ],
   "note": "double_fails: with 0 \u2264 horizon1 \u2264 horizon2, which is all the program asks for, an end of an interval need not be a vertex, or an error is raised, if the layers of the middle point are wider than the intervals; double_partial is the rest. width_fails: exponents below one give cells wider than h; width_partial is for exponents of at least one. Arithmetic is exact, tolerances are parameters."
  },
  {
   "property": "C88",
   "status": "partial",
   "theorems": [
    "PyNucleus.Props.C88.line",
    "PyNucleus.Props.C88.triangles",
    "PyNucleus.Props.C88.closed_triangles",
    "PyNucleus.Props.C88.vertices_le",
    "PyNucleus.Props.C88.connected_partial",
    "PyNucleus.Props.C88.hole_fails",
    "PyNucleus.Props.C88.tetrahedra",
    "PyNucleus.Props.C88.closed_tetrahedra",
    "PyNucleus.Props.C88.odd_one",
    "PyNucleus.Props.C88.array_bound",
    "PyNucleus.Props.C88.sample_case"
   ],
   "note": "hole_fails: a ring of triangles, which has a hole, gives no error, and two triangles with one common vertex, which have no hole, give the error. connected_partial: the error is raised exactly if there are more than two boundary edges at a vertex. A facet counts as boundary if an odd number of cells contains it, which is one cell for meshes (odd_one)."
  },
  {
   "property": "C89",
   "status": "partial",
   "theorems": [
    "PyNucleus.Props.C89.radial_works",
    "PyNucleus.Props.C89.radial_nan",
    "PyNucleus.Props.C89.shell",
    "PyNucleus.Props.C89.hole",
    "PyNucleus.Props.C89.pointed_step",
    "PyNucleus.Props.C89.never_nan",
    "PyNucleus.Props.C89.stays",
    "PyNucleus.Props.C89.circle",
    "PyNucleus.Props.C89.disc",
    "PyNucleus.Props.C89.layers",
    "PyNucleus.Props.C89.disc_layered",
    "PyNucleus.Props.C89.ball_fails",
    "PyNucleus.Props.C89.graded_works",
    "PyNucleus.Props.C89.graded_levels",
    "PyNucleus.Props.C89.hypercube_partial",
    "PyNucleus.Props.C89.hypercube_fails",
    "PyNucleus.Props.C89.grade_mesh",
    "PyNucleus.Props.C89.ball_grading",
    "PyNucleus.Props.C89.dist0_sq",
    "PyNucleus.Props.C89.sample_case"
   ],
   "note": "ball_fails: `ballNd` in one dimension refines an interval with midpoint at the origin, a coordinate becomes NaN. hypercube_fails: `boundMaxInv` is computed from an overwritten value, so for cubes other than the unit cube new vertices are at wrong places, for [1,2] at an old vertex; hypercube_partial is for the unit cube. radial_nan: NaN is written exactly for edges with midpoint at the origin; meshes whose cells are in half spaces (Pointed) never have such edges. Real numbers, rounding is not modelled; the mesh generators that call meshpy or gmsh are not modelled."
  },
  {
   "property": "C90",
   "status": "partial",
   "theorems": [
    "PyNucleus.Props.C90.tree_assign",
    "PyNucleus.Props.C90.sum_points",
    "PyNucleus.Props.C90.sum",
    "PyNucleus.Props.C90.line_draws",
    "PyNucleus.Props.C90.line_two",
    "PyNucleus.Props.C90.polygonOf_draws",
    "PyNucleus.Props.C90.polygon_draws",
    "PyNucleus.Props.C90.rectangle_partial",
    "PyNucleus.Props.C90.rectangle_fails",
    "PyNucleus.Props.C90.moved",
    "PyNucleus.Props.C90.rotT_rot",
    "PyNucleus.Props.C90.rotation",
    "PyNucleus.Props.C90.transformations_partial",
    "PyNucleus.Props.C90.arc",
    "PyNucleus.Props.C90.angle_range",
    "PyNucleus.Props.C90.angle",
    "PyNucleus.Props.C90.transformations_fails",
    "PyNucleus.Props.C90.snap_spec",
    "PyNucleus.Props.C90.snap",
    "PyNucleus.Props.C90.snap_works",
    "PyNucleus.Props.C90.sample_case"
   ],
   "note": "rectangle_fails: two corners of `rectangle` are taken from wrong coordinates, and its transformation is stored in an attribute that nothing reads; rectangle_partial is for corners (x,x) and (y,y). transformations_fails: the closures of moved segments all call the last transformation of the segment, so a translated sum of two circles does not transform new vertices of the first circle; transformations_partial is for at most one transformation. Not modelled: the generation of the points of a circle, the shared default list of holes, the call of meshpy, plots. Real numbers, rounding is not modelled."
  },
  {
   "property": "C91",
   "status": "partial",
   "theorems": [
    "PyNucleus.Props.C91.scaled",
    "PyNucleus.Props.C91.scale_zero",
    "PyNucleus.Props.C91.block_entry",
    "PyNucleus.Props.C91.block_diagonal",
    "PyNucleus.Props.C91.block_columns",
    "PyNucleus.Props.C91.graph_product",
    "PyNucleus.Props.C91.restriction",
    "PyNucleus.Props.C91.prolongation",
    "PyNucleus.Props.C91.times_transpose",
    "PyNucleus.Props.C91.adjoint",
    "PyNucleus.Props.C91.no_overwrite_fails",
    "PyNucleus.Props.C91.split",
    "PyNucleus.Props.C91.triple",
    "PyNucleus.Props.C91.slice_rows_partial",
    "PyNucleus.Props.C91.slice_fails",
    "PyNucleus.Props.C91.slice_columns_partial",
    "PyNucleus.Props.C91.wrap_csr",
    "PyNucleus.Props.C91.wrap",
    "PyNucleus.Props.C91.helmholtz",
    "PyNucleus.Props.C91.diagonal_entry",
    "PyNucleus.Props.C91.helmholtz_diagonal",
    "PyNucleus.Props.C91.sample_case"
   ],
   "note": "no_overwrite_fails: restrictionOp and prolongationOp inherit matvec_no_overwrite of sparseGraph, which adds the product with J instead of I + J/2; a sparseGraph read from a file becomes a restrictionOp. slice_fails: rows of a slice that are not increasing are read after they were overwritten; slice_rows_partial and slice_columns_partial are for increasing lists. helmholtz_diagonal needs each column stored at most once in a row. Exact scalars, rounding is not modelled."
  },
  {
   "property": "C92",
   "status": "partial",
   "theorems": [
    "PyNucleus.Props.C92.to_overlap",
    "PyNucleus.Props.C92.exchange",
    "PyNucleus.Props.C92.receive_keeps",
    "PyNucleus.Props.C92.duplicates",
    "PyNucleus.Props.C92.same_cells",
    "PyNucleus.Props.C92.label_received",
    "PyNucleus.Props.C92.new_boundary_1D",
    "PyNucleus.Props.C92.new_boundary_2D",
    "PyNucleus.Props.C92.new_boundary_3D_partial",
    "PyNucleus.Props.C92.old_edge_fails",
    "PyNucleus.Props.C92.boundary_cells",
    "PyNucleus.Props.C92.shared_order_partial",
    "PyNucleus.Props.C92.shared_order_fails",
    "PyNucleus.Props.C92.sample_case"
   ],
   "note": "old_edge_fails: updateBoundary3D does not sort the old boundary edges, so an edge stored with its larger vertex first is appended again; new_boundary_3D_partial is for sorted edges. shared_order_fails: shared vertices are sorted by the sum of the coordinates times powers of 100, so two vertices with the same sum can come in different orders on the two sides; shared_order_partial is for distinct sums. The layers themselves are C85. Messages are assumed to arrive as sent. Not modelled: tags of the new boundary, the search for shared vertices in the new cells, getMeshOverlapsWithOtherPartition. Places are exact; np.unique is a contract."
  },
  {
   "property": "C93",
   "status": "partial",
   "theorems": [
    "PyNucleus.Props.C93.nonoverlapping",
    "PyNucleus.Props.C93.overlapping_partial",
    "PyNucleus.Props.C93.overlapping_fails",
    "PyNucleus.Props.C93.boundary_vertices",
    "PyNucleus.Props.C93.boundary_edges_overlapping",
    "PyNucleus.Props.C93.boundary_edges_faces",
    "PyNucleus.Props.C93.edge_twice_fails",
    "PyNucleus.Props.C93.solution",
    "PyNucleus.Props.C93.mapping",
    "PyNucleus.Props.C93.sample_case"
   ],
   "note": "overlapping_fails: a vertex of two subdomains that have no cell in common becomes two vertices if they are stitched one after the other, so the mesh is cut there; whether this happens depends on the order of the subdomains. overlapping_partial asks that shared vertices belong to overlap cells with an earlier subdomain. edge_twice_fails: an edge listed in both directions by two subdomains is not recognised as shared. solution and mapping are for elements with one dof per vertex. Not modelled: MPI gather, stitchSubdomains (older interface), overwriting of the cells of the caller, construction of dof maps."
  },
  {
   "property": "C94",
   "status": "partial",
   "theorems": [
    "PyNucleus.Props.C94.ip_partial",
    "PyNucleus.Props.C94.ip_fails",
    "PyNucleus.Props.C94.norm",
    "PyNucleus.Props.C94.nonoverlapping",
    "PyNucleus.Props.C94.nonoverlapping_norm",
    "PyNucleus.Props.C94.complex_inner",
    "PyNucleus.Props.C94.complex_norm",
    "PyNucleus.Props.C94.complex_distributed_partial",
    "PyNucleus.Props.C94.convergence",
    "PyNucleus.Props.C94.sample_case"
   ],
   "note": "ip_fails: for two accumulated vectors ip_distributed ignores its level and searches one by the number of local dofs, so a higher level of the same local size gives wrong weights; ip_partial assumes that no higher level has the same size in this case. Not modelled: asynchronous reductions, messages to clients, rounding."
  },
  {
   "property": "C95",
   "status": "partial",
   "theorems": [
    "PyNucleus.Props.C95.matvec",
    "PyNucleus.Props.C95.symmetric",
    "PyNucleus.Props.C95.solve",
    "PyNucleus.Props.C95.energy",
    "PyNucleus.Props.C95.combination_partial",
    "PyNucleus.Props.C95.combination_adds_partial",
    "PyNucleus.Props.C95.no_overwrite_fails",
    "PyNucleus.Props.C95.transposed_fails",
    "PyNucleus.Props.C95.sample_case"
   ],
   "note": "no_overwrite_fails: sumMultiplyOperator.matvec_no_overwrite initialises a variable of type LinearOperator with 0, which raises a TypeError. transposed_fails: its temporary vector has one entry per row, so the transposed product of two or more operators with fewer rows than columns writes behind its end; combination_partial asks that it is long enough. The solver of the Schur complement is a contract (exact). Not modelled: toarray, to_csr."
  },
  {
   "property": "C96",
   "status": "partial",
   "theorems": [
    "PyNucleus.Props.C96.questions_partial",
    "PyNucleus.Props.C96.boundary_cells_fails",
    "PyNucleus.Props.C96.boundary_cells_partial",
    "PyNucleus.Props.C96.vertices_by_tag",
    "PyNucleus.Props.C96.others_by_tag_partial",
    "PyNucleus.Props.C96.none_in_list_fails",
    "PyNucleus.Props.C96.interior_by_tag",
    "PyNucleus.Props.C96.sorted_partial",
    "PyNucleus.Props.C96.sorted_fails",
    "PyNucleus.Props.C96.tagging",
    "PyNucleus.Props.C96.replacing",
    "PyNucleus.Props.C96.copies",
    "PyNucleus.Props.C96.file_partial",
    "PyNucleus.Props.C96.file_fails",
    "PyNucleus.Props.C96.renumber_partial",
    "PyNucleus.Props.C96.renumber_fails",
    "PyNucleus.Props.C96.interior_fails",
    "PyNucleus.Props.C96.eq_fails",
    "PyNucleus.Props.C96.vtk_partial",
    "PyNucleus.Props.C96.vtk_fails",
    "PyNucleus.Props.C96.sample_case"
   ],
   "note": "boundary_cells_fails: get_boundary_cells replaces boundary edges that have been set but keeps their tags. none_in_list_fails: [None] stands for all vertices but for no edges or faces. sorted_fails: getBoundaryVerticesByTag(None, sorted=True) sorts the cached vertices but not their tags. file_fails: the transformer is not stored. renumber_fails: with cached boundary faces reorderVertices renumbers the edges twice and the faces not at all, or raises. interior_fails: cached interior vertices go stale. eq_fails: different meshes can be equal. vtk_fails: exported meshes of lower dimension come back in space. The computation of the boundary from the cells is a parameter (see the properties on mesh boundaries). Not modelled: dtypes, HDF5 itself, the class chosen by HDF5read for surfaces."
  },
  {
   "property": "C97",
   "status": "partial",
   "theorems": [
    "PyNucleus.Props.C97.sizes",
    "PyNucleus.Props.C97.hmin_partial",
    "PyNucleus.Props.C97.hmin_fails",
    "PyNucleus.Props.C97.shape",
    "PyNucleus.Props.C97.sample_case"
   ],
   "note": "hmin_fails: the search for the shortest edge starts with 100, in three dimensions with the square 100, so hmin is 100 or 10 if all edges are longer; hmin_partial is for meshes with an edge of at most that length. Reals instead of floating point numbers. The caching of the values is not modelled."
  },
  {
   "property": "C98",
   "status": "partial",
   "theorems": [
    "PyNucleus.Props.C98.box_distances",
    "PyNucleus.Props.C98.halves",
    "PyNucleus.Props.C98.in_box",
    "PyNucleus.Props.C98.circle",
    "PyNucleus.Props.C98.cells_on_circle",
    "PyNucleus.Props.C98.inside_fails",
    "PyNucleus.Props.C98.cell_partial",
    "PyNucleus.Props.C98.cell_fails",
    "PyNucleus.Props.C98.halves_case",
    "PyNucleus.Props.C98.sample_case"
   ],
   "note": "cell_fails: the loop over the cells of a leaf returns -1 in its first pass, so a point in another cell of the leaf is not found, and a leaf without cells gives cell 0; cell_partial is for points in the first cell of a leaf. inside_fails: a circle in the interior of a triangle gives no cell. cells_on_circle: exactly the cells with a point of the circle on an edge whose line the circle does not only touch. Reals instead of floating point numbers; vertexInCell is a parameter."
  },
  {
   "property": "C99",
   "status": "partial",
   "theorems": [
    "PyNucleus.Props.C99.power_partial",
    "PyNucleus.Props.C99.power_fails",
    "PyNucleus.Props.C99.generalised",
    "PyNucleus.Props.C99.standard",
    "PyNucleus.Props.C99.between",
    "PyNucleus.Props.C99.overwritten",
    "PyNucleus.Props.C99.hessenberg_partial",
    "PyNucleus.Props.C99.hessenberg_fails",
    "PyNucleus.Props.C99.sample_case"
   ],
   "note": "power_fails: without symmetry the estimate can be twice the spectral radius (it does not converge if two eigenvalues have the same absolute value), the operator 0 gives NaN, and a tolerance of 1 gives 1; power_partial is for symmetric operators that do not map the start vector to 0. hessenberg_fails: if the space of the basis becomes invariant, arnoldi does not return the last column, so the result is empty for an eigenvector; hessenberg_partial is about the columns that are returned. overwritten: lanczos2 changes the given start vector. Reals instead of floating point numbers; operators are matrices; arnoldi without memory for H."
  },
  {
   "property": "C100",
   "status": "partial",
   "theorems": [
    "PyNucleus.Props.C100.fresh_partial",
    "PyNucleus.Props.C100.again",
    "PyNucleus.Props.C100.fresh_fails",
    "PyNucleus.Props.C100.recompute_fails",
    "PyNucleus.Props.C100.sample_case"
   ],
   "note": "fresh_fails: unchanged arguments are not kept when a method is called because of another one, so that a later change to None is not seen; methods without arguments or with None for all arguments are never called; a computed property that was set by hand is not computed again. fresh_partial: no value None, each builder has an argument, only inputs are set. recompute_fails: for the same reason a method is called again although no argument changed. One object, no remote properties, equality as comparison of values."
  },
  {
   "property": "C101",
   "status": "partial",
   "theorems": [
    "PyNucleus.Props.C101.timers_partial",
    "PyNucleus.Props.C101.merge_raises",
    "PyNucleus.Props.C101.merge_order",
    "PyNucleus.Props.C101.timers_fails",
    "PyNucleus.Props.C101.mean_call",
    "PyNucleus.Props.C101.diff_partial",
    "PyNucleus.Props.C101.diff_raises",
    "PyNucleus.Props.C101.own_partial",
    "PyNucleus.Props.C101.own_fails",
    "PyNucleus.Props.C101.series_partial",
    "PyNucleus.Props.C101.series_fails",
    "PyNucleus.Props.C101.pairs",
    "PyNucleus.Props.C101.rate_power",
    "PyNucleus.Props.C101.rate_exp",
    "PyNucleus.Props.C101.sample_case"
   ],
   "note": "timers_fails: mergeOrdered raises an error exactly if a timer that only the later rank has comes before a common one (merge_raises). own_fails: two tested entries with the same label. series_fails: a group that only the reference has is not reported. Numbers without rounding and NaN; labels are natural numbers; np.argsort is a parameter."
  },
  {
   "property": "C102",
   "status": "partial",
   "theorems": [
    "PyNucleus.Props.C102.defaults_fill",
    "PyNucleus.Props.C102.defaults_keep",
    "PyNucleus.Props.C102.defaults_raises",
    "PyNucleus.Props.C102.difference",
    "PyNucleus.Props.C102.difference_raises",
    "PyNucleus.Props.C102.difference_empty",
    "PyNucleus.Props.C102.files_partial",
    "PyNucleus.Props.C102.files_fails",
    "PyNucleus.Props.C102.compressed",
    "PyNucleus.Props.C102.sample_case"
   ],
   "note": "files_fails: a dictionary inside with the key type is not read as dictionary again; empty lists and lists of lists that begin with an empty one cannot be written. Lists of numbers come back as arrays. A stored number is handed to pickle.loads first; files_partial assumes that this fails. Operators, meshes, pickled values, shared references and the order in files are not modelled."
  },
  {
   "property": "C103",
   "status": "proved",
   "theorems": [
    "PyNucleus.Props.C103.connected",
    "PyNucleus.Props.C103.mutual_fewer",
    "PyNucleus.Props.C103.sample_case"
   ],
   "note": "Sets as lists without repetition; dictionaries as functions with the empty list for missing keys."
  },
  {
   "property": "C104",
   "status": "partial",
   "theorems": [
    "PyNucleus.Props.C104.fixed_partial",
    "PyNucleus.Props.C104.covers_partial",
    "PyNucleus.Props.C104.covers_fails",
    "PyNucleus.Props.C104.variable_partial",
    "PyNucleus.Props.C104.variable_fails",
    "PyNucleus.Props.C104.chosen",
    "PyNucleus.Props.C104.nodes",
    "PyNucleus.Props.C104.augmented",
    "PyNucleus.Props.C104.pair_partial",
    "PyNucleus.Props.C104.pair_fails",
    "PyNucleus.Props.C104.sample_case"
   ],
   "note": "covers_fails: the number of intervals is limited to 1000 without notice. variable_fails: the largest allowed order is used even if it does not give the factor of contraction. pair_fails: z[-0:] is the whole vector for a second set without parameters. The bound contraction is the expression of the code; its meaning for the operators is not proved. Real numbers without rounding; the regularity r plus the left end is positive."
  },
  {
   "property": "C105",
   "status": "partial",
   "theorems": [
    "PyNucleus.Props.C105.interval",
    "PyNucleus.Props.C105.values",
    "PyNucleus.Props.C105.calls",
    "PyNucleus.Props.C105.total_partial",
    "PyNucleus.Props.C105.total_fails",
    "PyNucleus.Props.C105.by_hand",
    "PyNucleus.Props.C105.emptied",
    "PyNucleus.Props.C105.keys",
    "PyNucleus.Props.C105.sample_case"
   ],
   "note": "total_fails: a timer that is used twice enters its accumulated time each time, so the first interval is counted twice in the sum. total_partial: each timer of the key is used once. Barriers, memory profiling, and log messages are not modelled; times without rounding."
  },
  {
   "property": "C106",
   "status": "partial",
   "theorems": [
    "PyNucleus.Props.C106.mean",
    "PyNucleus.Props.C106.common_times",
    "PyNucleus.Props.C106.bounds",
    "PyNucleus.Props.C106.range",
    "PyNucleus.Props.C106.number",
    "PyNucleus.Props.C106.times_checked",
    "PyNucleus.Props.C106.exact_partial",
    "PyNucleus.Props.C106.exact_fails",
    "PyNucleus.Props.C106.sample_case"
   ],
   "note": "exact_fails: the first and the last rows are compared without looking at their times, so levels that end at different times get an error although the solutions agree. exact_partial: all levels begin and end at the same times. Norm and prolongations are parameters; no rounding."
  },
  {
   "property": "C107",
   "status": "partial",
   "theorems": [
    "PyNucleus.Props.C107.sub_solution",
    "PyNucleus.Props.C107.restricts_partial",
    "PyNucleus.Props.C107.restricts_fails",
    "PyNucleus.Props.C107.prolongs",
    "PyNucleus.Props.C107.union",
    "PyNucleus.Props.C107.distinct",
    "PyNucleus.Props.C107.transformed",
    "PyNucleus.Props.C107.union_raises",
    "PyNucleus.Props.C107.sample_case"
   ],
   "note": "restricts_fails: a dof of the part that is no dof of the mesh (on its boundary) gets the column 0 in the restriction operator instead of zero. restricts_partial: all dofs of the part are dofs of the mesh. The tree of scipy is the relation of nearness; getSubmesh is not part of this property."
  },
  {
   "property": "C108",
   "status": "partial",
   "theorems": [
    "PyNucleus.Props.C108.reduced_dofs",
    "PyNucleus.Props.C108.reduced_cells",
    "PyNucleus.Props.C108.sorted",
    "PyNucleus.Props.C108.periodic",
    "PyNucleus.Props.C108.periodic_empty_fails",
    "PyNucleus.Props.C108.sample_case"
   ],
   "note": "periodic_empty_fails: a map without dofs has one dof after applyPeriodicity. The argsort of numpy and the nearest dof found by the tree of scipy are parameters; the code passes eps as the number of neighbours of the query, which is not modelled. The reduced mesh itself and combine are not part of this property."
  },
  {
   "property": "C109",
   "status": "partial",
   "theorems": [
    "PyNucleus.Props.C109.galerkin",
    "PyNucleus.Props.C109.assembled",
    "PyNucleus.Props.C109.reaction",
    "PyNucleus.Props.C109.reaction_partial",
    "PyNucleus.Props.C109.reaction_fails",
    "PyNucleus.Props.C109.assembled_fails",
    "PyNucleus.Props.C109.variable_fails",
    "PyNucleus.Props.C109.variable_partial",
    "PyNucleus.Props.C109.symmetric_partial",
    "PyNucleus.Props.C109.symmetric_fails",
    "PyNucleus.Props.C109.sample_case"
   ],
   "note": "reaction: on the coarser level number k the reaction term is there k times, since A is the same object as S, and it is also in S (reaction_fails; reaction_partial: one coarser level). assembled_fails: a level that was assembled gets the reaction term twice. variable_fails: with a variable reaction and without the dof map of the level below (the default from three levels on) there is an error. symmetric_fails: in symmetric format the loop over the diagonal is inside the loop over the entries, so the diagonal gets the reaction term once per entry. The triple product itself is C16; the assembled matrices are parameters."
  },
  {
   "property": "C110",
   "status": "partial",
   "theorems": [
    "PyNucleus.Props.C110.coarse_grid",
    "PyNucleus.Props.C110.processes",
    "PyNucleus.Props.C110.hierarchies",
    "PyNucleus.Props.C110.total_fails",
    "PyNucleus.Props.C110.total_partial",
    "PyNucleus.Props.C110.no_refinement_fails",
    "PyNucleus.Props.C110.sample_case"
   ],
   "note": "total_fails: if there is a level between the coarse grid and the finest one, the hierarchies have one refinement less than asked for, and the finest level (on all processes) is missing; total_partial is the other case. no_refinement_fails: without refinements there is an index error. Labels, connectors and solver parameters of the hierarchies are not modelled."
  },
  {
   "property": "C111",
   "status": "partial",
   "theorems": [
    "PyNucleus.Props.C111.build_levels",
    "PyNucleus.Props.C111.no_more",
    "PyNucleus.Props.C111.keep_fails",
    "PyNucleus.Props.C111.single_fails",
    "PyNucleus.Props.C111.sample_case"
   ],
   "note": "keep_fails: the options last and none keep the mesh of the first level (whose policy is not set by the hierarchy), and none keeps that of the last level as well; build_levels says exactly which meshes remain. single_fails: without refinements the only level is not marked as the last one. Meshes, matrices, overlaps and communicators themselves are not modelled here."
  },
  {
   "property": "C112",
   "status": "partial",
   "theorems": [
    "PyNucleus.Props.C112.fair",
    "PyNucleus.Props.C112.disjoint",
    "PyNucleus.Props.C112.each_fails",
    "PyNucleus.Props.C112.reordered",
    "PyNucleus.Props.C112.sample_case"
   ],
   "note": "each_fails: a subdomain with few cells gets no partition, so there is none for its cells. The partitioner and the linear program of scipy are parameters; set.pop is taken to give the smallest element (the theorems on reordering do not depend on it)."
  },
  {
   "property": "C113",
   "status": "partial",
   "theorems": [
    "PyNucleus.Props.C113.exchanged",
    "PyNucleus.Props.C113.overlaps",
    "PyNucleus.Props.C113.vertices",
    "PyNucleus.Props.C113.partitions_partial",
    "PyNucleus.Props.C113.partitions_fails",
    "PyNucleus.Props.C113.sample_case"
   ],
   "note": "partitions_fails: if old and new communicator overlap, processes outside of the new one compute a number of partitions that is too small; partitions_partial is for disjoint communicators. Messages are delivered completely; the vertices of a cell are sent as a block."
  },
  {
   "property": "C114",
   "status": "partial",
   "theorems": [
    "PyNucleus.Props.C114.top",
    "PyNucleus.Props.C114.propagated",
    "PyNucleus.Props.C114.propagated3D",
    "PyNucleus.Props.C114.dropped_partial",
    "PyNucleus.Props.C114.dropped_fails",
    "PyNucleus.Props.C114.dropped3D_fails",
    "PyNucleus.Props.C114.sample_case"
   ],
   "note": "dropped_fails: vertices shared by at most three subdomains are dropped, but two subdomains that lie between two parts of a third one meet only there. dropped3D_fails: in three dimensions the same happens for connected subdomains. dropped_partial is for two dimensions, if the cells of each subdomain at the vertex lie side by side."
  },
  {
   "property": "C115",
   "status": "partial",
   "theorems": [
    "PyNucleus.Props.C115.restored",
    "PyNucleus.Props.C115.others_fails",
    "PyNucleus.Props.C115.linked_fails",
    "PyNucleus.Props.C115.chain",
    "PyNucleus.Props.C115.connection_fails",
    "PyNucleus.Props.C115.stored",
    "PyNucleus.Props.C115.mesh_fails",
    "PyNucleus.Props.C115.collapsed_prolongation",
    "PyNucleus.Props.C115.collapsed_restriction",
    "PyNucleus.Props.C115.sample_case"
   ],
   "note": "others_fails: the Neumann matrix (the name is tested with a leading blank) and the surface stiffness matrix (stored under another name) are lost. linked_fails: algebraic levels of a rebuilt hierarchy do not know the previous level. connection_fails: the prolongation to the finest level of a hierarchy is lost if another one follows. mesh_fails: the mesh is written to the file and not read. Values are written and read unchanged; the manager of overlaps is left out."
  },
  {
   "property": "C116",
   "status": "partial",
   "theorems": [
    "PyNucleus.Props.C116.combined",
    "PyNucleus.Props.C116.combine_fails_iff",
    "PyNucleus.Props.C116.equal_partial",
    "PyNucleus.Props.C116.equal_fails",
    "PyNucleus.Props.C116.blocks",
    "PyNucleus.Props.C116.key_close",
    "PyNucleus.Props.C116.key_fails",
    "PyNucleus.Props.C116.sample_case"
   ],
   "note": "equal_fails: for maps with the same numbers of degrees of freedom on meshes with different numbers of cells, both not one, the comparison raises an exception instead of giving false; equal_partial is for the same number of cells, at least one. key_fails: coordinates in different blocks can be arbitrarily close; key_close is the other direction. The argument delta of getCoordinateBlocks is overwritten by 1e-5 in the code; the model takes any tolerance. A domain without extent in a direction (division by zero) is left out."
  },
  {
   "property": "C117",
   "status": "partial",
   "theorems": [
    "PyNucleus.Props.C117.uniform_partial",
    "PyNucleus.Props.C117.nested",
    "PyNucleus.Props.C117.nested3",
    "PyNucleus.Props.C117.uniform_fails",
    "PyNucleus.Props.C117.direct_partial",
    "PyNucleus.Props.C117.direct3_partial",
    "PyNucleus.Props.C117.direct_fails",
    "PyNucleus.Props.C117.symmetric",
    "PyNucleus.Props.C117.symmetric3",
    "PyNucleus.Props.C117.symmetric_fails",
    "PyNucleus.Props.C117.sample_case"
   ],
   "note": "uniform_partial: one direction of a grid with constant distance; nested and nested3 reduce two and three directions to it. uniform_fails: on other grids the two nearest points need not enclose the point. direct_partial, direct3_partial: points of the half open unit square or cube on the grid with N+1 points; direct_fails: the last point reads after the end. symmetric_fails: the index of the cell is computed with the number of points instead of the number of cells, so on the symmetric grid values between 0 and 1 give a value larger than 1."
  },
  {
   "property": "C118",
   "status": "partial",
   "theorems": [
    "PyNucleus.Props.C118.residuals",
    "PyNucleus.Props.C118.descent",
    "PyNucleus.Props.C118.conjugate_partial",
    "PyNucleus.Props.C118.memory_fails",
    "PyNucleus.Props.C118.plain_partial",
    "PyNucleus.Props.C118.plain_fails",
    "PyNucleus.Props.C118.sample_case"
   ],
   "note": "memory_fails: rold is not initialised and is read in the first iteration, so the second direction and the result depend on its content; conjugate_partial holds from the second iteration on, or if the memory has the first residual. plain_fails: without preconditioner, for every problem there is a content with which the method stops after one iteration and records zero; plain_partial is for a memory that is zero or has the first residual. Exact arithmetic in a field, one process."
  },
  {
   "property": "C119",
   "status": "partial",
   "theorems": [
    "PyNucleus.Props.C119.written",
    "PyNucleus.Props.C119.values_partial",
    "PyNucleus.Props.C119.bool_fails",
    "PyNucleus.Props.C119.rest_fails",
    "PyNucleus.Props.C119.accepted_iff",
    "PyNucleus.Props.C119.sample_case"
   ],
   "note": "bool_fails: the text False gives the value true. rest_fails: what follows the fields is not looked at, so a fraction is accepted as integer and cut off; an integer is not accepted as floating point number. Names without characters that have a meaning in regular expressions; the match is read from left to right, which is the same because the fields and what follows them have no common characters."
  },
  {
   "property": "C120",
   "status": "partial",
   "theorems": [
    "PyNucleus.Props.C120.prolongation",
    "PyNucleus.Props.C120.memory",
    "PyNucleus.Props.C120.vertices_partial",
    "PyNucleus.Props.C120.vertices_fails",
    "PyNucleus.Props.C120.interpolation_partial",
    "PyNucleus.Props.C120.interpolation_fails",
    "PyNucleus.Props.C120.sample_case"
   ],
   "note": "vertices_fails: if surface and volume have the same number of vertices, vertex numbers are taken for degrees of freedom, which are numbered in another order; a value goes to a place from uninitialised memory. vertices_partial: numbered like the vertices. interpolation_fails: on vertices and edges the values of all cells are added; in three dimensions everything is zero. interpolation_partial: points in exactly one cell. The search tree and barycentric coordinates are parameters; one degree of freedom per vertex."
  },
  {
   "property": "C121",
   "status": "partial",
   "theorems": [
    "PyNucleus.Props.C121.kept",
    "PyNucleus.Props.C121.raises_iff",
    "PyNucleus.Props.C121.writable_partial",
    "PyNucleus.Props.C121.writable_fails",
    "PyNucleus.Props.C121.idempotent",
    "PyNucleus.Props.C121.original_partial",
    "PyNucleus.Props.C121.original_fails",
    "PyNucleus.Props.C121.sample_case"
   ],
   "note": "writable_fails: integers of numpy, and numbers of numpy, arrays or functions in lists of lists, in lists or in dictionaries in lists are not converted. original_fails: lists are changed in the given dictionary. writable_partial and original_partial say for which dictionaries this does not happen. Floating point numbers are rational; integer arrays have one dimension."
  },
  {
   "property": "C122",
   "status": "proved",
   "theorems": [
    "PyNucleus.Props.C122.partition",
    "PyNucleus.Props.C122.between",
    "PyNucleus.Props.C122.owners",
    "PyNucleus.Props.C122.entries",
    "PyNucleus.Props.C122.layered",
    "PyNucleus.Props.C122.values",
    "PyNucleus.Props.C122.sample_case"
   ],
   "note": "partition is for any values, so it holds for elements of higher order too; values is for degrees of freedom of vertices, and the linear interpolation to the others is not modelled. The layers of cells are given; assertions are hypotheses of partition, and entries shows when they hold. No rounding."
  },
  {
   "property": "C123",
   "status": "proved",
   "theorems": [
    "PyNucleus.Props.C123.pairs_spec",
    "PyNucleus.Props.C123.form",
    "PyNucleus.Props.C123.symmetric",
    "PyNucleus.Props.C123.constants",
    "PyNucleus.Props.C123.semidefinite",
    "PyNucleus.Props.C123.uncoupled",
    "PyNucleus.Props.C123.sample_case"
   ],
   "note": "The faces of a cell are keys of any type, the squares of their volumes are given; the pattern is found by the same loop and not modelled on its own. Exact arithmetic."
  },
  {
   "property": "C124",
   "status": "partial",
   "theorems": [
    "PyNucleus.Props.C124.affine",
    "PyNucleus.Props.C124.inside",
    "PyNucleus.Props.C124.box",
    "PyNucleus.Props.C124.projected_fails",
    "PyNucleus.Props.C124.renumbered",
    "PyNucleus.Props.C124.selected_partial",
    "PyNucleus.Props.C124.selected_fails",
    "PyNucleus.Props.C124.sample_case"
   ],
   "note": "projected_fails: for tetrahedra the projected center can be outside. selected_fails: a list with as many entries as there are cells is taken for new numbers, so all cells in another order come in the inverse order, and a cell listed twice leaves uninitialised cells. selected_partial: other lengths. Vertices that are not used are not removed in this model; rows of cells are copied as a whole, although the code copies dim + 1 entries also for surfaces."
  },
  {
   "property": "C125",
   "status": "partial",
   "theorems": [
    "PyNucleus.Props.C125.p_levels",
    "PyNucleus.Props.C125.p_number",
    "PyNucleus.Props.C125.p_type",
    "PyNucleus.Props.C125.p_type_fails",
    "PyNucleus.Props.C125.p_param",
    "PyNucleus.Props.C125.p_again",
    "PyNucleus.Props.C125.sub_levels",
    "PyNucleus.Props.C125.sub_exists_partial",
    "PyNucleus.Props.C125.sub_exists_fails",
    "PyNucleus.Props.C125.sub_set_up_fails",
    "PyNucleus.Props.C125.build_entries",
    "PyNucleus.Props.C125.takes_part",
    "PyNucleus.Props.C125.level_list_iff",
    "PyNucleus.Props.C125.level_list_fails",
    "PyNucleus.Props.C125.level_list_partial",
    "PyNucleus.Props.C125.sub_manager",
    "PyNucleus.Props.C125.sub_manager_last",
    "PyNucleus.Props.C125.manager_sub",
    "PyNucleus.Props.C125.print_rank",
    "PyNucleus.Props.C125.sample_case"
   ],
   "note": "meshLevel.copy loses the type of the algebraic level (p_type, p_type_fails), and the parameters of the caller keep the last element only (p_param), so they cannot be used again (p_again). getSubHierarchy raises with buildInteriorBL (sub_exists_fails), its result is not set up and has the overlaps of all levels (sub_set_up_fails). getLevelList looks for None but ranks that do not take part have an EmptyHierarchy, so it raises on every rank that does not take part in all hierarchies (level_list_iff, level_list_fails); proved for the others. Not modelled: exchange of meshes by the connectors, tables of ranks."
  },
  {
   "property": "C126",
   "status": "proved",
   "theorems": [
    "PyNucleus.Props.C126.received",
    "PyNucleus.Props.C126.prepared",
    "PyNucleus.Props.C126.transferred",
    "PyNucleus.Props.C126.there_and_back",
    "PyNucleus.Props.C126.sample_case"
   ],
   "note": "Over an ordered field, with two-sided messages that all arrive. Hypotheses: both sides of an overlap have equally many shared dofs in range, and senders agree on shared values (accumulated vectors)."
  },
  {
   "property": "C127",
   "status": "partial",
   "theorems": [
    "PyNucleus.Props.C127.entries",
    "PyNucleus.Props.C127.rhs_partial",
    "PyNucleus.Props.C127.total_zero",
    "PyNucleus.Props.C127.orientation_fails",
    "PyNucleus.Props.C127.sample_case"
   ],
   "note": "entries and total_zero for all cells; rhs_partial for cells of positive orientation. orientation_fails: for an interval whose vertices are in decreasing order the sign is wrong, because the volume has lost the orientation. Over an ordered field; values of the function in the quadrature nodes are given."
  },
  {
   "property": "C128",
   "status": "partial",
   "theorems": [
    "PyNucleus.Props.C128.gradient_rows",
    "PyNucleus.Props.C128.curl_gradient",
    "PyNucleus.Props.C128.gradient_half",
    "PyNucleus.Props.C128.curl_value",
    "PyNucleus.Props.C128.tangential",
    "PyNucleus.Props.C128.mass_integral",
    "PyNucleus.Props.C128.curlcurl_entries",
    "PyNucleus.Props.C128.curlcurl_partial",
    "PyNucleus.Props.C128.curlcurl_kernel",
    "PyNucleus.Props.C128.curlcurl_fails",
    "PyNucleus.Props.C128.sample_case"
   ],
   "note": "Proved except for the curl-curl matrix: curlcurl_partial shows that its entries are the integrals times four times the square of the area, and curlcurl_fails has a triangle where this is wrong. gradient_half: the edge function with the coefficients of the discrete gradient is half of the gradient, because the shape functions have a factor 1/2. mass_integral uses the rule with the midpoints of the edges; that this rule is exact for degree 2 is not part of the theorem. The constant 0.020833333333333332 is taken as 1/48."
  }
 ]
}