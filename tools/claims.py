claim('C01', 'proved', 'C01_operator_algebra C01_operator_algebra_total',
      'All client programs over the operator API, sharing allowed. Total part needs complete user operators (C02_composite_without_transpose shows why).')
claim('C02', 'proved', 'C02_transpose_adjoint C02_transpose_adjoint_total C02_composite_without_transpose')
claim('C03', 'partial', 'C03_pointers_partial C03_double_transpose_missing',
      'Everything but the last clause; that clause is false: for complex one-sided operators the double transpose/adjoint is None on one side.')
claim('C04', 'proved', 'C04_real_transpose_adjoint')
claim('C05', 'proved', 'C05_wrong_size C05_result_size C05_right_size C05_shape_errors C05_pow_errors')
claim('C06', 'proved', 'C06_own_counter C06_mul C06_add C06_sub C06_smul C06_reduce C06_pow C06_block C06_diag C06_block_count C06_diag_count C06_sessions',
  'For block operators: op, op.T and op.H; not the .T and .H of flagged complex block operators that are conjugates of op.')
claim('C07', 'proved', 'C07_result_dtype')
claim('C08', 'partial', 'C08_scalar C08_zero C08_neg C08_truediv C08_div_int_wrong',
      'Proved except for the quotient by a Python 2 int, which is false (C08_div_int_wrong: op/k is the zero operator for k >= 2).')
claim('C09', 'proved', 'C09_power C06_pow')
claim('C10', 'proved', 'C10_to_array C10_to_array_returns')
claim('C11', 'proved', 'C11_conjugate C11_conjugate_pointers')
claim('C12', 'partial', 'C12_reduced_partial C12_symmetrically_reduced_partial C12_repeated_index',
      'For index lists in range without repetitions; false with repeated indices (C12_repeated_index).')
claim('C13', 'partial', 'C13_coord C13_omitted_dims_fail',
      'Proved when both sizes are given, for real and complex values, duplicates, any order. The last clause is false: inferred sizes are one too small, every product raises (C13_omitted_dims_fail).')
claim('C14', 'partial', 'C14_diagonal_partial C14_abs_sqrt C14_sqrt_squared C14_caller_mutation',
      'Proved for every history in which the caller does not overwrite the array passed in. The aliasing clause is false (C14_caller_mutation): the closure reads the caller\'s array, op.diag is a copy.')
claim('C15', 'proved', 'C15_from_ndarray C15_flags')
claim('C16', 'proved', 'C16_block', 'Every grid whose blocks are operators built by any client program.')
claim('C17', 'partial', 'C17_upper_partial C17_caller_list C17_full_grid_fails Examples.C17_both_flags',
      'The completed matrix is proved. False: the caller\'s nested list is modified (C17_caller_list); with both flags and a complex block the operator is not hermitian (C17_both_flags).')
claim('C18', 'partial', 'C18_shape_error_partial C18_widths_unchecked Examples.C18_inconsistent_accepted',
      'Exact condition for ShapeError proved. False: widths are checked in the first block column only (C18_widths_unchecked).')
claim('C19', 'partial', 'C19_assign_partial C19_flagged_partial C19_diag_partial C19_lower_ignored C19_stale_adjoint C19_stale_transpose Examples.C19_stale_adjoint_example Examples.C19_diag_symmetric_example',
      'Proved for all sequences of assignments to unflagged operators, to the upper triangle of flagged ones (products with op and the flagged one of .T/.H) and to block diagonal operators with square blocks. False: assignments below the diagonal are ignored; .H of a real symmetric operator is stale.')
claim('C20', 'partial', 'C20_square_partial C20_forward_partial C20_rectangular_transpose C20_empty',
      'Proved for square blocks; forward products for all shapes. False: with a rectangular block every product with .T and .H raises (C20_rectangular_transpose).')
claim('C21', 'proved', 'C21_memory C21_rejected C21_restart', 'All three operators, any arithmetic.')
claim('C22', 'proved', 'C22_inverse_bfgs', 'Exact arithmetic.')
claim('C23', 'partial', 'C23_forward_bfgs_partial C23_scaling_ignored',
      'Proved for scaling=False. False for scaling=True: LBFGSOperator ignores the option (C23_scaling_ignored).')
claim('C24', 'proved', 'C24_compact_bfgs', 'Exact arithmetic; np.linalg.solve is assumed to solve nonsingular systems (nonsingularity of the small system is proved).')
claim('C25', 'partial', 'C25_never_constructed C25_binding C25_empty_memory_partial',
      'False: the constructor always raises TypeError (C25_never_constructed). The other three classes have the property.')
claim('C26', 'proved', 'C26_budget C26_products_complete')
claim('C27', 'proved', 'C27_converged')
claim('C28', 'partial', 'C28_terminates_partial C28_preconditioned_fails',
      'Proved without preconditioner; false with one (C28_preconditioned_fails): the search direction update uses the unpreconditioned residual.')
claim('C29', 'partial', 'C29_direction C29_direction_partial C29_zero_direction',
      'Proved in full without preconditioner; with one the reported direction may be zero (C29_zero_direction).')
claim('C30', 'partial', 'C30_repeated_solve_partial C30_stale',
      'CG. Solution, norms, counts and flags do not depend on earlier solves; histories accumulate and infiniteDescent stays stale (C30_stale).')
claim('C31', 'partial', 'C31_converged C31_budget_partial C31_products_complete C31_guess_not_counted',
      'Convergence clause proved in full. Budget clause proved except that the product with the initial guess is not counted in nMatvec (C31_guess_not_counted).')
claim('C32', 'partial', 'C32_budget C32_products_complete C32_converged_partial C32_wrong_residNorm',
      'Budget proved; converged implies a small residual. False: residNorm need not be the residual norm of x when the budget runs out in mid-iteration (C32_wrong_residNorm).')
claim('C33', 'partial', 'C33_budget_partial C33_converged_partial C33_zero_rhs_raises C33_converged_nan',
      'Quasi-residual bound proved for finite x. False: solve raises on a zero right-hand side (C33_zero_rhs_raises), and converged can be set with a non-finite x (C33_converged_nan).')
claim('C43', 'proved', 'C43_exact_roots C43_ill_conditioned C43_zero_polynomial C43_large_tol',
      'Real arithmetic; never raises. Ill-conditioned bound tol^nitref*|q0| for tol <= 1/4 (default 1e-8); C43_large_tol shows the bound on tol is needed.')
claim('C44', 'partial', 'C44_check_symmetric_partial C44_complex_symmetric_rejected',
      'Proved for real operators; false for complex symmetric ones (C44_complex_symmetric_rejected).')
claim('C45', 'proved', 'C45_check_positive_definite')
claim('C46', 'proved', 'C46_poisson1d C46_posDef C46_poincare')
claim('C47', 'proved', 'C47_poisson2d C47_posDef C47_poincare')
claim('C34', 'partial', 'C34_status_partial C34_codes C34_converges_partial C34_converges_generic C34_beta2_eigenvector C34_beta2_no_stop C34_beta2_nan C34_preconditioned_partial C34_preconditioned_generic',
      'Budget, codes and the exact reason for each code, converged flag and counts proved in every arithmetic; convergence in at most n iterations in exact arithmetic, also with a symmetric positive definite preconditioner. False: a solve that finds beta2 = 0 in its first Lanczos step does not stop, and ends with an undefined x (C34_beta2_no_stop, C34_beta2_nan).')
claim('C35', 'partial', 'C35_residual_partial C35_preconditioned_partial C35_clipped',
      'Exact arithmetic, without preconditioner or with a symmetric positive definite one (then in the norm of the preconditioner); also minimality over the Krylov space. False when A - shift I has singular values below the machine precision (C35_clipped).')
claim('C36', 'partial', 'C36_always_raises C36_returned_partial C36_returns_with_matvec_partial',
      'False: solve raises for every input, the attribute matvec it calls is never set (C36_always_raises). Once the client sets that attribute it returns, and the attributes it sets describe the returned x.')
claim('C37', 'partial', 'C37_status_partial C37_converges C37_preconditioned_converges C37_conlim_ignored C37_wantvar_raises C37_nan_raises C37_nMatvec_undercounts',
      'Limit, codes with their reasons and priority, status, optimal and history lengths proved in every arithmetic; success within n iterations in exact arithmetic. False: conlim has no effect (C37_conlim_ignored), nMatvec is not the number of products (C37_nMatvec_undercounts), wantvar=True and non-finite products raise.')
claim('C38', 'proved', 'C38_true_norms C38_preconditioned', 'Exact arithmetic; with symmetric positive definite preconditioners in the preconditioned norms.')
claim('C50', 'partial', 'C50_minimal_partial C50_r1norm_wrong', 'Proved except for r1norm, which equals |b-Ax| for damp = 0 but is too large for damp != 0 (C50_r1norm_wrong).')
claim('C39', 'proved', 'C39_symOrtho', 'Exact arithmetic.')
claim('C40', 'partial', 'C40_status_partial C40_selfX_stale C40_identity_raises C40_consistent_raises', 'Proved when solve returns; self.x is not assigned on the early exit (C40_selfX_stale). It raises ZeroDivisionError for every consistent undamped system with zero tolerances (C40_consistent_raises) and whenever b is an eigenvector of AA\' (C40_identity_raises).')
claim('C51', 'proved', 'C51_true_norms C51_converges C51_preconditioned C51_preconditioned_converges', 'Exact arithmetic; with symmetric positive definite preconditioners in the preconditioned norms.')
claim('C41', 'partial', 'C41_status_partial C41_damp_ignored C41_zero_raises C41_never_solves', 'Limit, codes, status and histories proved when solve returns. False: damp, atol and conlim have no effect (C41_damp_ignored), a zero right-hand side raises UnboundLocalError (C41_zero_raises), and for damp = 0 the result never solves Ax = b (C41_never_solves).')
claim('C42', 'proved', 'C42_status C42_zero C42_damp_ignored', 'Codes and limits in every arithmetic; zero right-hand side in exact arithmetic without preconditioners. Also: damp, atol, btol and conlim have no effect (C42_damp_ignored).')
claim('C52', 'proved', 'C52_true_norms C52_converges C52_preconditioned C52_preconditioned_converges', 'Exact arithmetic; with symmetric positive definite preconditioners in the preconditioned norms.')
claim('C53', 'proved', 'C53_minimizes C53_converges C53_default_limit_short C53_preconditioned C53_preconditioned_converges', 'Exact arithmetic; also with symmetric positive definite preconditioners. The default limit min(m, n) can stop one iteration short of the solution (C53_default_limit_short).')
claim('C48', 'partial', 'C48_tolerances_partial C48_budget_partial C48_precon_partial C48_minres_solve_partial C48_minres_options_partial C48_documented_tolerances_ignored C48_constructor_budget_ignored C48_solve_precon_ignored C48_minres_constructor_ignored C48_guess_none_raises', 'abstol, reltol and precon of the constructor and matvec_max of solve take effect in CG, CGS, BiCGSTAB and TFQMR, in every arithmetic. False: the documented names atol and rtol are never read (C48_documented_tolerances_ignored), and MINRES ignores the preconditioner and tolerances of its constructor (C48_minres_constructor_ignored); guess=None raises AttributeError (C48_guess_none_raises).')
claim('C49', 'proved', 'C49_cg_inputs_unmodified C49_cgs_inputs_unmodified C49_bicgstab_inputs_unmodified C49_tfqmr_inputs_unmodified C49_minres_inputs_unmodified C49_symmlq_inputs_unmodified C49_lsqr_inputs_unmodified C49_lsmr_inputs_unmodified C49_craig_inputs_unmodified C49_craigmr_inputs_unmodified', 'Heap models of all ten solvers; every arithmetic, every aliasing, also when solve raises.')
claim('C54', 'partial', 'C54_cg C54_cgs C54_cgs_sharing C54_bicgstab_partial C54_tfqmr_partial C54_minres_partial C54_minres_violated C54_symmlq_partial C54_lsqr_partial C54_lsmr_partial C54_craig_partial C54_craigmr_partial C54_lsqr_violated C54_symmlq_violated', 'CG and CGS in full. Bi-CGSTAB, TFQMR, MINRES, SYMMLQ, LSQR, LSMR, CRAIG and CRAIG-MR if certain operators return new arrays, as all operators of the library do (astype copies); with other operators or functions of the user the code violates the property otherwise, shown for MINRES, LSQR and SYMMLQ.')
claim('C55', 'proved', 'C55_cgs C55_cgs_spd C55_bicgstab C55_bicgstab_spd C55_tfqmr C55_tfqmr_spd C55_cgs_breakdown', 'Exact arithmetic. C55_cgs_breakdown shows that the breakdown case occurs.')
claim('C56', 'partial', 'C56_accuracy_partial C56_definite_partial C56_preconditioned_partial C56_preconditioned_definite_partial C56_budget_wrong', 'Exact arithmetic, also with a symmetric positive definite preconditioner, for a solver whose client has set the missing attribute matvec (otherwise solve raises, C36), with a budget above the dimension (the default is). False for smaller budgets: the last iterate is combined with the pivot of the iteration before (C56_budget_wrong).')
claim('C57', 'partial', 'C34_preconditioned_partial C35_preconditioned_partial C38_preconditioned C37_preconditioned_converges C51_preconditioned C51_preconditioned_converges C52_preconditioned C52_preconditioned_converges C53_preconditioned C53_preconditioned_converges C56_preconditioned_partial C56_preconditioned_definite_partial C28_preconditioned_fails', 'Proved for MINRES, LSQR, LSMR, CRAIG and CRAIG-MR, and for SYMMLQ under the conditions of C56. False for CG, which updates the direction with the unpreconditioned residual (C28_preconditioned_fails).')
claim('C58', 'proved', 'C58_slice_up C58_slice_down C58_slice_all C58_slice_between C58_slice_reverse C58_block C58_flagged C58_diag', 'Integers and slices; index lists and masks are not modelled. C58_slice_* say which positions a slice selects.')
claim('C59', 'partial', 'C59_block_fits_partial C59_diag_fits_partial C59_block_index_partial C59_diag_rejected_partial C59_diag_misfit C59_diag_resized C59_diag_none C59_block_misfit C59_block_none Examples.C59_block_broadcast Examples.C59_diag_broadcast', 'Fitting operators are assigned correctly; bad indices, and for block diagonal operators lists with other objects, are rejected. False for values that do not fit: they are accepted, or the exception comes after the block was replaced, and afterwards every product raises (C59_*_misfit, C59_diag_resized, C59_*_none) or returns wrong values (C59_*_broadcast).')
claim('C60', 'partial', 'C60_minres_rejects C60_minres_accepts C60_symmlq_rejects C60_symmlq_accepts C60_symmlq_symmetric C60_symmlq_test C60_symmlq_rotation', 'Proved for MINRES, given the verdicts of check_symmetric (whose own correctness is C44). For SYMMLQ (with the missing attribute matvec set) acceptance is proved; rejection is not reported, solve raises UnboundLocalError instead (C60_symmlq_rejects).')
claim('C61', 'proved', 'C61_pysparse C61_no_flag', 'For sparse matrices that do what they should (SparseObj.Holds): the library itself is a parameter.')
claim('C62', 'partial', 'C62_cholesky_partial C62_complex_transpose C62_complex_float Examples.C62_complex_float_wrong', 'Proved for real matrices, given a factorization that solves linear systems. False for complex hermitian matrices: the operator is declared symmetric, so .T is wrong (C62_complex_transpose), and with the default dtype imaginary parts are discarded (C62_complex_float).')
claim('C63', 'partial', 'C63_assign C63_widen_partial C63_widen_total_partial C63_declared_later C63_stale Examples.C63_stale_wrong', 'Values are preserved by every sequence of widening assignments, for all operators on the heap. False part: .T and .H keep the old dtype, so an operator whose functions are complex and which is declared complex by an assignment has a transpose that discards imaginary parts, and an adjoint that is this transpose (C63_stale). Not covered: operators built after an assignment.')
claim('C64', 'proved', 'C64_real_matrix C64_programs C64_operator C64_counter C64_cg C64_cgs C64_bicgstab C64_tfqmr C64_minres C64_lsqr C64_lsmr C64_craig C64_craigmr', 'Composition of the operator model with the solver models, in exact arithmetic and without preconditioners. The limits of each solver (LSMR: no zero residual; MINRES: no singular value below the machine precision; SYMMLQ is left out because it always raises) are hypotheses, and are the subject of C34, C36 and C51.')
claim('C65', 'proved', 'C65_sessions C65_reciprocal', 'For user operators that come with transpose or adjoint. Excluded: an array as the left operand of an operator (NumPy decides), strings, NumPy scalars, arrays with more than two dimensions. Exact arithmetic.')
claim('C66', 'proved', 'C66_meaningful C66_conditioning C66_product C66_cg C66_cgs C66_bicgstab C66_tfqmr C66_lsqr C66_script', 'Exact arithmetic; composition of the gallery, operator and solver models.')
claim('C67', 'proved', 'C67_replay C67_precon C67_cg_compact C67_cg_forward C67_minres C67_lsqr C67_conjugate C67_cg_steps C67_from_cg', 'C67_replay in every arithmetic, the rest in exact arithmetic. The compact operator assumes that np.linalg.solve solves nonsingular systems.')
claim('C68', 'proved', 'C68_regularized C68_quasidefinite C68_diagonal C68_preconditioner', 'exact arithmetic; built on C16, C17, C20 and the convergence theorems')
claim('C69', 'partial', 'C69_cgs C69_bicgstab C69_tfqmr C69_krylov_values C69_minres_partial C69_minres_reads_nothing C69_minres_values C69_minres_history C69_minres_status C69_minres_show C69_minres_doubles C69_minres_violated C69_minres_status_violated C69_symmlq_partial C69_symmlq_values C69_symmlq_iterates C69_symmlq_doubles C69_symmlq_violated C69_lsqr_partial C69_lsqr_values C69_lsqr_ctol C69_lsmr_partial C69_lsmr_values C69_lsmr_x C69_craig_partial C69_craig_values C69_craig_ctol C69_craigmr C69_craigmr_values C69_status', 'Proved in any arithmetic, completely for CGS, Bi-CGSTAB, TFQMR and CRAIG-MR. The code violates it for single attributes, and the negations are proved: MINRES residHistory, status and show; SYMMLQ iterates; LSQR and CRAIG ctol; LSMR x after an early return.')
claim('C70', 'proved', 'C70_cg C70_cgs C70_bicgstab C70_tfqmr C70_minres C70_symmlq C70_lsqr C70_lsmr C70_craig C70_craigmr', 'The heap models record the contents of all arrays after every statement that writes or allocates; an operator that raises leaves the heap of the moment of the call.')
claim('C71', 'partial', 'C71_few_eigenvalues C71_low_rank_update C71_low_rank C71_perfect C71_cg C71_cg_eigenvalues C71_cgs C71_cgs_spd C71_bicgstab C71_bicgstab_spd C71_tfqmr C71_tfqmr_spd C71_minres_partial C71_minres_preconditioned_partial C71_minres_perfect_preconditioner C71_symmlq_partial C71_lsqr C71_lsqr_preconditioned C71_lsmr C71_lsmr_preconditioned C71_craig_partial C71_craig_preconditioned_partial C71_craigmr C71_craigmr_preconditioned', 'Exact arithmetic. False parts: MINRES with the inverse of the operator as preconditioner returns an undefined vector for every right-hand side (C71_minres_perfect_preconditioner); CRAIG uses all iterations allowed and reports max iterations. CGS, Bi-CGSTAB and TFQMR can break down unless the operator is positive definite; CG is without preconditioner (C28_preconditioned_fails).')
claim('C72', 'partial', 'C72_cg C72_cg_iterations C72_cg_condition C72_minres_partial C72_lsqr C72_lsmr C72_craig C72_craigmr C72_minres_preconditioned_partial C72_lsqr_preconditioned C72_lsmr_preconditioned C72_craig_preconditioned C72_craigmr_preconditioned C72_poisson_spectrum C72_poisson', 'Exact arithmetic. Missing: MINRES with eigenvalues below the machine precision (C35_clipped: the code replaces small pivots), and CG with a preconditioner, which is not the method the bound is for (its search directions use the residual instead of the preconditioned residual).')
claim('C73', 'partial', 'C73_cg C73_cg_raises C73_cg_integers C73_cg_narrow_rhs C73_integers_violated C73_cgs C73_cgs_raises C73_bicgstab C73_bicgstab_integers C73_bicgstab_precon C73_tfqmr C73_tfqmr_raises C73_lsqr C73_lsqr_raises C73_lsmr C73_lsmr_raises C73_craig C73_craig_raises C73_craigmr C73_craigmr_raises C73_lls_integers C73_lls_complex C73_minres C73_minres_integers C73_minres_integers_exact', 'False in general. CG, CGS, TFQMR: true if the initial residual is not integer and nothing is wider than it; otherwise TypeError at the first update (C73_cg_raises, C73_cgs_raises, C73_tfqmr_raises), except that CG on integers only returns integers after dividing with rounding (C73_integers_violated: 2x = 1 never converges). Bi-CGSTAB: true unless all is integer or the preconditioner is widest. LSQR, LSMR, CRAIG, CRAIG-MR: true if the right-hand side holds floats and nothing is complex; otherwise TypeError (*_raises), for instance for every nonzero right-hand side of integers (C73_lls_integers). MINRES on integer or real data: true unless operator and right-hand side are both integer, then TypeError in the first iteration. Not stated: what CGS does on integers only; LSMR and CRAIG-MR with b = 0 and a complex operator; MINRES on complex data; SYMMLQ. NumPy >= 1.10 casting rules, Python 2 division.')
claim('C74', 'partial', 'C74_alone C74_results C74_matrix C74_counter_partial C74_counter_violated C74_lbfgs_forward C74_lbfgs_compact C74_lbfgs_inverse_partial C74_lbfgs_inverse_violated', 'Results: proved for all operators of linop.py and for the forward and compact L-BFGS operators. False parts, with the negation proved: counters can lose increments (C74_counter_violated; they never exceed the number of products, C74_counter_partial), and products with one inverse L-BFGS operator disturb each other (C74_lbfgs_inverse_violated; right if not interrupted, C74_lbfgs_inverse_partial). Threads do not store pairs or build operators while others multiply.')
claim('C75', 'partial', 'C75_cgs_partial C75_bicgstab_partial C75_tfqmr_partial C75_cg_partial C75_cg_symmetric C75_isotropic C75_isotropic_violated C75_cg_phase C75_tfqmr_violated C75_real', 'Exact complex arithmetic. Proved: CGS and Bi-CGSTAB keep the promise unless they stop before the first product; CG, for the size without conjugation; CG on complex symmetric operators; real systems. False parts, with the negation proved: inner products are not conjugated, so right-hand sides such as (1, i) are declared solved by x = 0 (C75_isotropic), TFQMR stops too early (C75_tfqmr_violated), and CG calls a positive definite operator indefinite if the right-hand side is purely imaginary (C75_cg_phase).')
claim('C76', 'partial', 'C76_cgs C76_bicgstab C76_tfqmr C76_cg_partial C76_cg_violated C76_lsqr C76_craig C76_craigmr C76_lsmr_partial C76_lsmr_violated C76_symmlq_partial C76_minres_partial C76_minres_violated C35_clipped',
      'Proved for CGS, Bi-CGSTAB and TFQMR (preconditioner in any unit), CG (preconditioner in the same unit), LSQR, CRAIG and CRAIG-MR (no preconditioners; the operator of the last two has no unit), LSMR and SYMMLQ (unit of the right-hand side, coordinates) and MINRES (coordinates, with a preconditioner). Violated: CG with a preconditioner in another unit (C76_cg_violated), LSMR, which takes its initial rhobar = 1 for a part of the operator when it estimates the condition number (C76_lsmr_violated), and MINRES, which takes the norm of the right-hand side for a part of the operator in its stopping tests (C76_minres_violated: a large right-hand side is "solved" in one iteration with a residual of 4/5 of it) and replaces small singular values by the machine precision (C35_clipped). Missing: SYMMLQ with another unit of the operator, preconditioners of the least-squares solvers.')
claim('C77', 'proved', 'C77_cg C77_cgs C77_bicgstab C77_tfqmr', 'Exact arithmetic (additions are associative).')
claim('C78', 'partial', 'C78_lsqr_silent C78_lsqr_show C78_lsqr_no_columns C78_lsmr_silent C78_lsmr_show C78_craig_silent C78_craig_show C78_craigmr_show C78_craigmr_noise C78_minres_show C78_minres_noise C78_minres_overruled C78_minres_violated C78_minres_wrong_message C78_lsqr_rows C78_lsmr_rows C78_minres_rows C78_craig_no_rows',
      'LSQR, LSMR, CRAIG: proved for operators with at least one column (in every arithmetic with four laws of comparison; CRAIG in any). False parts, with the negation proved: show=True raises IndexError for an operator without columns (C78_lsqr_no_columns); CRAIG-MR prints one line per iteration (C78_craigmr_noise) and MINRES a blank line every ten iterations (C78_minres_noise, C78_minres_violated) with show=False; a preconditioner that fails the check makes MINRES print the summary with show=False (C78_minres_overruled); MINRES announces an eigenvector when it stops for the condition number (C78_minres_wrong_message). CRAIG has no rows in its log (C78_craig_no_rows), CRAIG-MR neither. The layout of the numbers is not modelled.')
claim('C79', 'partial', 'C79_cg C79_cg_values C79_cgs C79_bicgstab C79_tfqmr C79_minres C79_lsqr C79_lsqr_solution C79_lsmr C79_craig C79_craigmr_partial C79_craigmr_lost C79_lsqr_torn C79_cg_torn C79_symmlq C79_symmlq_raises C79_symmlq_torn',
      'For calls that would return if they were not interrupted, and for SYMMLQ also for those that raise by themselves. False parts, with the negation proved: CRAIG-MR resets x and the other results when the call begins (C79_craigmr_lost), and an interrupt between the last assignments leaves the verdict of the new call with the x of the old one (C79_cg_torn, C79_lsqr_torn, C79_symmlq_torn). residNorm0, ctol, infiniteDescent and show are assigned early. Missing: calls of the other solvers that end in an exception of the solver itself (division by zero).')
claim('C80', 'proved', 'C80_cg C80_cgs C80_bicgstab C80_tfqmr C80_minres C80_symmlq C80_lsqr C80_lsmr',
      'Exact arithmetic. Bi-CGSTAB: for operators other than zero. TFQMR: for a positive threshold below the initial residual norm (otherwise it raises, C33). MINRES: for singular values that are zero or at least the machine precision (C35_clipped). SYMMLQ: for objects that were given the missing attribute matvec (C56). LSMR on consistent systems can raise (C40).')
claim('C81', 'proved', 'C81_cg C81_consistent', 'Exact arithmetic. With a preconditioner the direction can be zero (C29_zero_direction).')
claim('C82', 'partial', 'C82_symmetric C82_definite C82_not_square C82_keeps_stream_partial C82_stream_lost C82_stream_violated C82_reproducible',
      'False part, with the negation proved: check_symmetric of a square operator calls np.random.seed(1), so from then on the numbers of the caller no longer depend on their seed (C82_stream_lost for every generator, C82_stream_violated). For the two functions called by themselves; CG and MINRES call them on request.')
claim('C83', 'partial', 'C83_symmetric_exposed C83_symmetric_exact C83_symmetric_likely C83_symmetric_blind C83_definite_exact C83_definite_violated',
      'Exact arithmetic, real operators. Symmetry: an asymmetry beyond the tolerance is exposed by vectors of positive volume in the unit cube, but false for the vectors that are actually drawn, which are the same in every call: for every order above the number of repetitions there is an operator far from symmetric that always passes (C83_symmetric_blind). Definiteness is false: only vectors with nonnegative entries are drawn, so exactly the copositive operators always pass (C83_definite_exact), among them all operators with positive entries, definite or not (C83_definite_violated).')
claim('C84', 'partial', 'C84_cg C84_cg_last C84_bicgstab C84_cgs_partial C84_cgs_violated C84_tfqmr_partial C84_tfqmr_violated',
      'CG and Bi-CGSTAB in full, for every arithmetic. False for CGS (the last iteration is never logged) and for TFQMR (the last iteration is never logged, and a line counts a product the residual norm in it does not use). Lines are read as exact numbers: the layout of the numbers is not modelled.')
claim('C85', 'proved', 'C85_cg C85_minres C85_lsqr C85_lsmr',
      'Exact arithmetic. MINRES: for singular values that are zero or at least the machine precision (C35_clipped), unless the solve breaks down with istop = -1 (C34_beta2_nan). LSMR can raise on consistent systems (C40).')
claim('C86', 'partial', 'C86_minres_partial C86_minres_violated C86_minres_not_shortest',
      'Exact arithmetic, no preconditioner. Proved: convergence, optimality in the Krylov space, least squares once it is exhausted, and rnorm before that. The code violates the rest: when the Krylov space is exhausted rnorm is 0 and istop is 1 (solved) or 10, for every inconsistent system with nonzero curvature b\'(A - shift I)b (C86_minres_violated); the result need not be the shortest minimizer (C86_minres_not_shortest).')
claim('C87', 'partial', 'C87_cg C87_minres_partial C87_lsqr C87_lsmr C87_craig C87_craigmr C87_minres_preconditioned_partial C87_lsqr_preconditioned C87_lsmr_preconditioned C87_craig_preconditioned C87_craigmr_preconditioned',
      'Exact arithmetic. With symmetric positive definite preconditioners, in the norms that belong to them, except for CG, whose preconditioning is wrong (C28_preconditioned_fails). MINRES: for eigenvalues of at least the machine precision (C35_clipped), unless the solve breaks down with istop = -1 (C34_beta2_nan). LSMR can raise on consistent systems (C40). CRAIG: for nonzero right-hand sides and a positive limit, and for the vectors r it returns.')
claim('C88', 'partial', 'C88_products_partial C88_returns C88_laws C88_to_array C88_narrow_violated C88_promotion C88_classes C88_commutes C88_order_violated',
      'Integer arrays with wrap-around arithmetic. Missing, because the code violates it: vectors of a narrower dtype than the operator get a product of the wider dtype with wrapped values (C88_narrow_violated: 100 * A with 8-bit A and x), and the dtype of a sum of three operators depends on the grouping (C88_order_violated).')
claim('C89', 'partial', 'C89_new_square C89_new_rectangular C69_krylov_values C69_minres_values C69_symmlq_values C69_lsqr_values C69_craig_values C69_craigmr_values C89_square_violated C89_lsqr_violated C89_lsmr_violated C89_craig_violated C89_craigmr_violated',
      'New objects: all classes. After a call: CGS, Bi-CGSTAB, TFQMR and MINRES set all attributes but nIter, which no solver sets. The code violates the rest: SYMMLQ, LSQR, LSMR, CRAIG and CRAIG-MR never set converged, LSMR sets nothing but x and the lists, CRAIG and CRAIG-MR do not set residNorm.')
claim('C90', 'partial', 'C90_cg_partial C90_cgs C90_bicgstab_partial C90_dense_cg_partial C90_dense_cgs C90_dense_bicgstab_partial C90_threshold_violated',
      'Every arithmetic with the laws of rounded operations (Rounding), in particular every floating-point format with sums from left to right (FloatFormat.rounding, float64). CGS with or without preconditioner; CG without preconditioner (with one, residNorm is not the norm of the residual, C28); Bi-CGSTAB with or without preconditioner, for invertible operators with a bound that depends on the condition number and the largest residual, if it converges or does not stop in mid-iteration (then residNorm is that of another vector, C32_wrong_residNorm). Missing: TFQMR (whose residual norm is an estimate, C32), MINRES, SYMMLQ and the least-squares solvers (estimates by recurrences). C90_threshold_violated: CG in float64 stops with residNorm 0 although the residual of the solution is not 0.')
claim('C91', 'proved', 'C91_products C91_laws C91_transpose C91_to_array C91_relative C91_solvers C91_finite C91_float64',
      'Every floating-point format with a relative error per operation (FloatFormat; float64 is IEEE 754), real dtypes, dot products added from left to right. Block diagonal operators with square blocks (for others the product with the transpose raises, C20_rectangular_transpose).')
claim('C92', 'partial', 'C92_symmetric_partial C92_operators_partial C92_exposed C92_definite C92_indefinite C92_symmetric_violated',
      'Symmetric operators are accepted except when a product A x is small compared with |A| |x|. C92_symmetric_violated: a symmetric float64 array of integers and a vector in [0, 1) for which np.dot(x, r) rounds and check_symmetric returns False. Real dtypes; the numbers compared are assumed to be finite.')
claim('C93', 'partial', 'C93_poisson1d C93_poisson2d C93_finite C93_exact C93_computes1 C93_computes2 C93_cg_partial C93_cg2_partial',
      'The products, overflow and integers are proved in full. For CG: without preconditioner, at least two unknowns per direction, and vectors whose products do not underflow.')
claim('C94', 'partial', 'C94_roots_partial C94_newton_partial C94_no_exception C94_normal C94_float64_partial C94_newton_float64_partial C94_refine_violated C94_underflow_violated',
      'The bound is proved for nitref = 0, and for nitref >= 1 (with 9u, tol <= 1/2000 and without the exception for small roots) if the discriminant is at least 20000 u (q1^2 + 4 |q0 q2|), in arithmetic without underflow, and for double precision runs in which nothing underflows. It fails for nitref = 1 near double roots (C94_refine_violated) and when products of coefficients underflow (C94_underflow_violated); both are proved for the default parameters.')
claim('C95', 'partial', 'C95_cg_partial C95_cgs C95_bicgstab_partial C95_poisson1d_cg_partial C95_poisson2d_cg_partial C95_poisson1d_cgs C95_poisson2d_cgs C95_poisson1d_bicgstab_partial C95_poisson2d_bicgstab_partial',
      'CG without preconditioner (with one, residNorm is not the norm of the residual, C28), CGS, and Bi-CGSTAB unless its budget ends in mid-iteration. For operators that compute products up to n+1 roundings (dense arrays, Poisson operators with at least two unknowns per direction) with vectors whose products do not underflow. Missing: the other solvers, whose residual norms are estimates.')
claim('C96', 'partial', 'C96_same C96_raises C96_table C96_message_partial C96_reason_partial C96_limit_violated C96_limit_message C96_wrong_message',
      'The log does not change the call, a call that raises logs no reason (C96_raises), and the table and the reported numbers are right. In exact arithmetic with a symmetric operator and without preconditioner the message of a run that was not ended by the limit is true of the returned x, unless a compression of the operator is singular (C96_reason_partial); in any arithmetic the code is that of a test met within the budget, and code 4 is true (C96_message_partial). False for a stop at the limit: the code stays 0, whose message is that zero is the exact solution (C96_limit_violated, C96_limit_message, C96_wrong_message).')
