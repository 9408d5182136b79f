{
 "claims": [
  {
   "property": "C01",
   "status": "proved",
   "theorems": [
    "Verif.Linop.C01_operator_algebra",
    "Verif.Linop.C01_operator_algebra_total"
   ],
   "note": "All client programs over the operator API, sharing allowed. Total part needs complete user operators (C02_composite_without_transpose shows why)."
  },
  {
   "property": "C02",
   "status": "proved",
   "theorems": [
    "Verif.Linop.C02_transpose_adjoint",
    "Verif.Linop.C02_transpose_adjoint_total",
    "Verif.Linop.Examples.C02_composite_without_transpose"
   ],
   "note": ""
  },
  {
   "property": "C03",
   "status": "partial",
   "theorems": [
    "Verif.Linop.C03_pointers_partial",
    "Verif.Linop.C03_double_transpose_missing"
   ],
   "note": "Everything but the last clause; that clause is false: for complex one-sided operators the double transpose/adjoint is None on one side."
  },
  {
   "property": "C04",
   "status": "proved",
   "theorems": [
    "Verif.Linop.C04_real_transpose_adjoint"
   ],
   "note": ""
  },
  {
   "property": "C05",
   "status": "proved",
   "theorems": [
    "Verif.Linop.C05_wrong_size",
    "Verif.Linop.C05_result_size",
    "Verif.Linop.C05_right_size",
    "Verif.Linop.C05_shape_errors",
    "Verif.Linop.C05_pow_errors"
   ],
   "note": ""
  },
  {
   "property": "C06",
   "status": "proved",
   "theorems": [
    "Verif.Linop.C06_own_counter",
    "Verif.Linop.C06_mul",
    "Verif.Linop.C06_add",
    "Verif.Linop.C06_sub",
    "Verif.Linop.C06_smul",
    "Verif.Linop.C06_reduce",
    "Verif.Linop.C06_pow",
    "Verif.Blkop.C06_block",
    "Verif.Blkop.C06_diag",
    "Verif.Blkop.C06_block_count",
    "Verif.Blkop.C06_diag_count",
    "Verif.Linop.C06_sessions"
   ],
   "note": "For block operators: op, op.T and op.H; not the .T and .H of flagged complex block operators that are conjugates of op."
  },
  {
   "property": "C07",
   "status": "proved",
   "theorems": [
    "Verif.Linop.C07_result_dtype"
   ],
   "note": ""
  },
  {
   "property": "C08",
   "status": "partial",
   "theorems": [
    "Verif.Linop.C08_scalar",
    "Verif.Linop.C08_zero",
    "Verif.Linop.C08_neg",
    "Verif.Linop.C08_truediv",
    "Verif.Linop.C08_div_int_wrong"
   ],
   "note": "Proved except for the quotient by a Python 2 int, which is false (C08_div_int_wrong: op/k is the zero operator for k >= 2)."
  },
  {
   "property": "C09",
   "status": "proved",
   "theorems": [
    "Verif.Linop.C09_power",
    "Verif.Linop.C06_pow"
   ],
   "note": ""
  },
  {
   "property": "C10",
   "status": "proved",
   "theorems": [
    "Verif.Linop.C10_to_array",
    "Verif.Linop.C10_to_array_returns"
   ],
   "note": ""
  },
  {
   "property": "C11",
   "status": "proved",
   "theorems": [
    "Verif.Linop.C11_conjugate",
    "Verif.Linop.C11_conjugate_pointers"
   ],
   "note": ""
  },
  {
   "property": "C12",
   "status": "partial",
   "theorems": [
    "Verif.Linop.C12_reduced_partial",
    "Verif.Linop.C12_symmetrically_reduced_partial",
    "Verif.Linop.Examples.C12_repeated_index"
   ],
   "note": "For index lists in range without repetitions; false with repeated indices (C12_repeated_index)."
  },
  {
   "property": "C13",
   "status": "partial",
   "theorems": [
    "Verif.Linop.C13_coord",
    "Verif.Linop.C13_omitted_dims_fail"
   ],
   "note": "Proved when both sizes are given, for real and complex values, duplicates, any order. The last clause is false: inferred sizes are one too small, every product raises (C13_omitted_dims_fail)."
  },
  {
   "property": "C14",
   "status": "partial",
   "theorems": [
    "Verif.Linop.C14_diagonal_partial",
    "Verif.Linop.C14_abs_sqrt",
    "Verif.Linop.C14_sqrt_squared",
    "Verif.Linop.C14_caller_mutation"
   ],
   "note": "Proved for every history in which the caller does not overwrite the array passed in. The aliasing clause is false (C14_caller_mutation): the closure reads the caller's array, op.diag is a copy."
  },
  {
   "property": "C15",
   "status": "proved",
   "theorems": [
    "Verif.Linop.C15_from_ndarray",
    "Verif.Linop.C15_flags"
   ],
   "note": ""
  },
  {
   "property": "C16",
   "status": "proved",
   "theorems": [
    "Verif.Blkop.C16_block"
   ],
   "note": "Every grid whose blocks are operators built by any client program."
  },
  {
   "property": "C17",
   "status": "partial",
   "theorems": [
    "Verif.Blkop.C17_upper_partial",
    "Verif.Blkop.C17_caller_list",
    "Verif.Blkop.C17_full_grid_fails",
    "Verif.Blkop.Examples.C17_both_flags"
   ],
   "note": "The completed matrix is proved. False: the caller's nested list is modified (C17_caller_list); with both flags and a complex block the operator is not hermitian (C17_both_flags)."
  },
  {
   "property": "C18",
   "status": "partial",
   "theorems": [
    "Verif.Blkop.C18_shape_error_partial",
    "Verif.Blkop.C18_widths_unchecked",
    "Verif.Blkop.Examples.C18_inconsistent_accepted"
   ],
   "note": "Exact condition for ShapeError proved. False: widths are checked in the first block column only (C18_widths_unchecked)."
  },
  {
   "property": "C19",
   "status": "partial",
   "theorems": [
    "Verif.Blkop.C19_assign_partial",
    "Verif.Blkop.C19_flagged_partial",
    "Verif.Blkop.C19_diag_partial",
    "Verif.Blkop.C19_lower_ignored",
    "Verif.Blkop.C19_stale_adjoint",
    "Verif.Blkop.C19_stale_transpose",
    "Verif.Blkop.Examples.C19_stale_adjoint_example",
    "Verif.Blkop.Examples.C19_diag_symmetric_example"
   ],
   "note": "Proved for all sequences of assignments to unflagged operators, to the upper triangle of flagged ones (products with op and the flagged one of .T/.H) and to block diagonal operators with square blocks. False: assignments below the diagonal are ignored; .H of a real symmetric operator is stale."
  },
  {
   "property": "C20",
   "status": "partial",
   "theorems": [
    "Verif.Blkop.C20_square_partial",
    "Verif.Blkop.C20_forward_partial",
    "Verif.Blkop.C20_rectangular_transpose",
    "Verif.Blkop.C20_empty"
   ],
   "note": "Proved for square blocks; forward products for all shapes. False: with a rectangular block every product with .T and .H raises (C20_rectangular_transpose)."
  },
  {
   "property": "C21",
   "status": "proved",
   "theorems": [
    "Verif.Lbfgs.C21_memory",
    "Verif.Lbfgs.C21_rejected",
    "Verif.Lbfgs.C21_restart"
   ],
   "note": "All three operators, any arithmetic."
  },
  {
   "property": "C22",
   "status": "proved",
   "theorems": [
    "Verif.Lbfgs.C22_inverse_bfgs"
   ],
   "note": "Exact arithmetic."
  },
  {
   "property": "C23",
   "status": "partial",
   "theorems": [
    "Verif.Lbfgs.C23_forward_bfgs_partial",
    "Verif.Lbfgs.C23_scaling_ignored"
   ],
   "note": "Proved for scaling=False. False for scaling=True: LBFGSOperator ignores the option (C23_scaling_ignored)."
  },
  {
   "property": "C24",
   "status": "proved",
   "theorems": [
    "Verif.Lbfgs.C24_compact_bfgs"
   ],
   "note": "Exact arithmetic; np.linalg.solve is assumed to solve nonsingular systems (nonsingularity of the small system is proved)."
  },
  {
   "property": "C25",
   "status": "partial",
   "theorems": [
    "Verif.Lbfgs.C25_never_constructed",
    "Verif.Lbfgs.C25_binding",
    "Verif.Lbfgs.C25_empty_memory_partial"
   ],
   "note": "False: the constructor always raises TypeError (C25_never_constructed). The other three classes have the property."
  },
  {
   "property": "C26",
   "status": "proved",
   "theorems": [
    "Verif.Solver.C26_budget",
    "Verif.Solver.C26_products_complete"
   ],
   "note": ""
  },
  {
   "property": "C27",
   "status": "proved",
   "theorems": [
    "Verif.Solver.C27_converged"
   ],
   "note": ""
  },
  {
   "property": "C28",
   "status": "partial",
   "theorems": [
    "Verif.Solver.C28_terminates_partial",
    "Verif.Solver.C28_preconditioned_fails"
   ],
   "note": "Proved without preconditioner; false with one (C28_preconditioned_fails): the search direction update uses the unpreconditioned residual."
  },
  {
   "property": "C29",
   "status": "partial",
   "theorems": [
    "Verif.Solver.C29_direction",
    "Verif.Solver.C29_direction_partial",
    "Verif.Solver.C29_zero_direction"
   ],
   "note": "Proved in full without preconditioner; with one the reported direction may be zero (C29_zero_direction)."
  },
  {
   "property": "C30",
   "status": "partial",
   "theorems": [
    "Verif.Solver.C30_repeated_solve_partial",
    "Verif.Solver.C30_stale"
   ],
   "note": "CG. Solution, norms, counts and flags do not depend on earlier solves; histories accumulate and infiniteDescent stays stale (C30_stale)."
  },
  {
   "property": "C31",
   "status": "partial",
   "theorems": [
    "Verif.Solver.C31_converged",
    "Verif.Solver.C31_budget_partial",
    "Verif.Solver.C31_products_complete",
    "Verif.Solver.C31_guess_not_counted"
   ],
   "note": "Convergence clause proved in full. Budget clause proved except that the product with the initial guess is not counted in nMatvec (C31_guess_not_counted)."
  },
  {
   "property": "C32",
   "status": "partial",
   "theorems": [
    "Verif.Solver.C32_budget",
    "Verif.Solver.C32_products_complete",
    "Verif.Solver.C32_converged_partial",
    "Verif.Solver.C32_wrong_residNorm"
   ],
   "note": "Budget proved; converged implies a small residual. False: residNorm need not be the residual norm of x when the budget runs out in mid-iteration (C32_wrong_residNorm)."
  },
  {
   "property": "C33",
   "status": "partial",
   "theorems": [
    "Verif.Solver.C33_budget_partial",
    "Verif.Solver.C33_converged_partial",
    "Verif.Solver.C33_zero_rhs_raises",
    "Verif.Solver.C33_converged_nan"
   ],
   "note": "Quasi-residual bound proved for finite x. False: solve raises on a zero right-hand side (C33_zero_rhs_raises), and converged can be set with a non-finite x (C33_converged_nan)."
  },
  {
   "property": "C34",
   "status": "partial",
   "theorems": [
    "Verif.Solver.C34_status_partial",
    "Verif.Solver.C34_codes",
    "Verif.Solver.C34_converges_partial",
    "Verif.Solver.C34_converges_generic",
    "Verif.Solver.C34_beta2_eigenvector",
    "Verif.Solver.C34_beta2_no_stop",
    "Verif.Solver.C34_beta2_nan",
    "Verif.Solver.C34_preconditioned_partial",
    "Verif.Solver.C34_preconditioned_generic"
   ],
   "note": "Budget, codes and the exact reason for each code, converged flag and counts proved in every arithmetic; convergence in at most n iterations in exact arithmetic, also with a symmetric positive definite preconditioner. False: a solve that finds beta2 = 0 in its first Lanczos step does not stop, and ends with an undefined x (C34_beta2_no_stop, C34_beta2_nan)."
  },
  {
   "property": "C35",
   "status": "partial",
   "theorems": [
    "Verif.Solver.C35_residual_partial",
    "Verif.Solver.C35_preconditioned_partial",
    "Verif.Solver.C35_clipped"
   ],
   "note": "Exact arithmetic, without preconditioner or with a symmetric positive definite one (then in the norm of the preconditioner); also minimality over the Krylov space. False when A - shift I has singular values below the machine precision (C35_clipped)."
  },
  {
   "property": "C36",
   "status": "partial",
   "theorems": [
    "Verif.Solver.C36_always_raises",
    "Verif.Solver.C36_returned_partial",
    "Verif.Solver.C36_returns_with_matvec_partial"
   ],
   "note": "False: solve raises for every input, the attribute matvec it calls is never set (C36_always_raises). Once the client sets that attribute it returns, and the attributes it sets describe the returned x."
  },
  {
   "property": "C37",
   "status": "partial",
   "theorems": [
    "Verif.Solver.C37_status_partial",
    "Verif.Solver.C37_converges",
    "Verif.Solver.C37_preconditioned_converges",
    "Verif.Solver.C37_conlim_ignored",
    "Verif.Solver.C37_wantvar_raises",
    "Verif.Solver.C37_nan_raises",
    "Verif.Solver.C37_nMatvec_undercounts"
   ],
   "note": "Limit, codes with their reasons and priority, status, optimal and history lengths proved in every arithmetic; success within n iterations in exact arithmetic. False: conlim has no effect (C37_conlim_ignored), nMatvec is not the number of products (C37_nMatvec_undercounts), wantvar=True and non-finite products raise."
  },
  {
   "property": "C38",
   "status": "proved",
   "theorems": [
    "Verif.Solver.C38_true_norms",
    "Verif.Solver.C38_preconditioned"
   ],
   "note": "Exact arithmetic; with symmetric positive definite preconditioners in the preconditioned norms."
  },
  {
   "property": "C39",
   "status": "proved",
   "theorems": [
    "Verif.Solver.C39_symOrtho"
   ],
   "note": "Exact arithmetic."
  },
  {
   "property": "C40",
   "status": "partial",
   "theorems": [
    "Verif.Solver.C40_status_partial",
    "Verif.Solver.C40_selfX_stale",
    "Verif.Solver.C40_identity_raises",
    "Verif.Solver.C40_consistent_raises"
   ],
   "note": "Proved when solve returns; self.x is not assigned on the early exit (C40_selfX_stale). It raises ZeroDivisionError for every consistent undamped system with zero tolerances (C40_consistent_raises) and whenever b is an eigenvector of AA' (C40_identity_raises)."
  },
  {
   "property": "C41",
   "status": "partial",
   "theorems": [
    "Verif.Solver.C41_status_partial",
    "Verif.Solver.C41_damp_ignored",
    "Verif.Solver.C41_zero_raises",
    "Verif.Solver.C41_never_solves"
   ],
   "note": "Limit, codes, status and histories proved when solve returns. False: damp, atol and conlim have no effect (C41_damp_ignored), a zero right-hand side raises UnboundLocalError (C41_zero_raises), and for damp = 0 the result never solves Ax = b (C41_never_solves)."
  },
  {
   "property": "C42",
   "status": "proved",
   "theorems": [
    "Verif.Solver.C42_status",
    "Verif.Solver.C42_zero",
    "Verif.Solver.C42_damp_ignored"
   ],
   "note": "Codes and limits in every arithmetic; zero right-hand side in exact arithmetic without preconditioners. Also: damp, atol, btol and conlim have no effect (C42_damp_ignored)."
  },
  {
   "property": "C43",
   "status": "proved",
   "theorems": [
    "Verif.Tools.C43_exact_roots",
    "Verif.Tools.C43_ill_conditioned",
    "Verif.Tools.C43_zero_polynomial",
    "Verif.Tools.C43_large_tol"
   ],
   "note": "Real arithmetic; never raises. Ill-conditioned bound tol^nitref*|q0| for tol <= 1/4 (default 1e-8); C43_large_tol shows the bound on tol is needed."
  },
  {
   "property": "C44",
   "status": "partial",
   "theorems": [
    "Verif.Tools.C44_check_symmetric_partial",
    "Verif.Tools.C44_complex_symmetric_rejected"
   ],
   "note": "Proved for real operators; false for complex symmetric ones (C44_complex_symmetric_rejected)."
  },
  {
   "property": "C45",
   "status": "proved",
   "theorems": [
    "Verif.Tools.C45_check_positive_definite"
   ],
   "note": ""
  },
  {
   "property": "C46",
   "status": "proved",
   "theorems": [
    "Verif.Gallery.C46_poisson1d",
    "Verif.Gallery.C46_posDef",
    "Verif.Gallery.C46_poincare"
   ],
   "note": ""
  },
  {
   "property": "C47",
   "status": "proved",
   "theorems": [
    "Verif.Gallery.C47_poisson2d",
    "Verif.Gallery.C47_posDef",
    "Verif.Gallery.C47_poincare"
   ],
   "note": ""
  },
  {
   "property": "C48",
   "status": "partial",
   "theorems": [
    "Verif.Solver.C48_tolerances_partial",
    "Verif.Solver.C48_budget_partial",
    "Verif.Solver.C48_precon_partial",
    "Verif.Solver.C48_minres_solve_partial",
    "Verif.Solver.C48_minres_options_partial",
    "Verif.Solver.C48_documented_tolerances_ignored",
    "Verif.Solver.C48_constructor_budget_ignored",
    "Verif.Solver.C48_solve_precon_ignored",
    "Verif.Solver.C48_minres_constructor_ignored",
    "Verif.Solver.C48_guess_none_raises"
   ],
   "note": "abstol, reltol and precon of the constructor and matvec_max of solve take effect in CG, CGS, BiCGSTAB and TFQMR, in every arithmetic. False: the documented names atol and rtol are never read (C48_documented_tolerances_ignored), and MINRES ignores the preconditioner and tolerances of its constructor (C48_minres_constructor_ignored); guess=None raises AttributeError (C48_guess_none_raises)."
  },
  {
   "property": "C49",
   "status": "proved",
   "theorems": [
    "Verif.Solver.C49_cg_inputs_unmodified",
    "Verif.Solver.C49_cgs_inputs_unmodified",
    "Verif.Solver.C49_bicgstab_inputs_unmodified",
    "Verif.Solver.C49_tfqmr_inputs_unmodified",
    "Verif.Solver.C49_minres_inputs_unmodified",
    "Verif.Solver.C49_symmlq_inputs_unmodified",
    "Verif.Solver.C49_lsqr_inputs_unmodified",
    "Verif.Solver.C49_lsmr_inputs_unmodified",
    "Verif.Solver.C49_craig_inputs_unmodified",
    "Verif.Solver.C49_craigmr_inputs_unmodified"
   ],
   "note": "Heap models of all ten solvers; every arithmetic, every aliasing, also when solve raises."
  },
  {
   "property": "C50",
   "status": "partial",
   "theorems": [
    "Verif.Solver.C50_minimal_partial",
    "Verif.Solver.C50_r1norm_wrong"
   ],
   "note": "Proved except for r1norm, which equals |b-Ax| for damp = 0 but is too large for damp != 0 (C50_r1norm_wrong)."
  },
  {
   "property": "C51",
   "status": "proved",
   "theorems": [
    "Verif.Solver.C51_true_norms",
    "Verif.Solver.C51_converges",
    "Verif.Solver.C51_preconditioned",
    "Verif.Solver.C51_preconditioned_converges"
   ],
   "note": "Exact arithmetic; with symmetric positive definite preconditioners in the preconditioned norms."
  },
  {
   "property": "C52",
   "status": "proved",
   "theorems": [
    "Verif.Solver.C52_true_norms",
    "Verif.Solver.C52_converges",
    "Verif.Solver.C52_preconditioned",
    "Verif.Solver.C52_preconditioned_converges"
   ],
   "note": "Exact arithmetic; with symmetric positive definite preconditioners in the preconditioned norms."
  },
  {
   "property": "C53",
   "status": "proved",
   "theorems": [
    "Verif.Solver.C53_minimizes",
    "Verif.Solver.C53_converges",
    "Verif.Solver.C53_default_limit_short",
    "Verif.Solver.C53_preconditioned",
    "Verif.Solver.C53_preconditioned_converges"
   ],
   "note": "Exact arithmetic; also with symmetric positive definite preconditioners. The default limit min(m, n) can stop one iteration short of the solution (C53_default_limit_short)."
  },
  {
   "property": "C54",
   "status": "partial",
   "theorems": [
    "Verif.Solver.C54_cg",
    "Verif.Solver.C54_cgs",
    "Verif.Solver.C54_cgs_sharing",
    "Verif.Solver.C54_bicgstab_partial",
    "Verif.Solver.C54_tfqmr_partial",
    "Verif.Solver.C54_minres_partial",
    "Verif.Solver.C54_minres_violated",
    "Verif.Solver.C54_symmlq_partial",
    "Verif.Solver.C54_lsqr_partial",
    "Verif.Solver.C54_lsmr_partial",
    "Verif.Solver.C54_craig_partial",
    "Verif.Solver.C54_craigmr_partial",
    "Verif.Solver.C54_lsqr_violated",
    "Verif.Solver.C54_symmlq_violated"
   ],
   "note": "CG and CGS in full. Bi-CGSTAB, TFQMR, MINRES, SYMMLQ, LSQR, LSMR, CRAIG and CRAIG-MR if certain operators return new arrays, as all operators of the library do (astype copies); with other operators or functions of the user the code violates the property otherwise, shown for MINRES, LSQR and SYMMLQ."
  },
  {
   "property": "C55",
   "status": "proved",
   "theorems": [
    "Verif.Solver.C55_cgs",
    "Verif.Solver.C55_cgs_spd",
    "Verif.Solver.C55_bicgstab",
    "Verif.Solver.C55_bicgstab_spd",
    "Verif.Solver.C55_tfqmr",
    "Verif.Solver.C55_tfqmr_spd",
    "Verif.Solver.C55_cgs_breakdown"
   ],
   "note": "Exact arithmetic. C55_cgs_breakdown shows that the breakdown case occurs."
  },
  {
   "property": "C56",
   "status": "partial",
   "theorems": [
    "Verif.Solver.C56_accuracy_partial",
    "Verif.Solver.C56_definite_partial",
    "Verif.Solver.C56_preconditioned_partial",
    "Verif.Solver.C56_preconditioned_definite_partial",
    "Verif.Solver.C56_budget_wrong"
   ],
   "note": "Exact arithmetic, also with a symmetric positive definite preconditioner, for a solver whose client has set the missing attribute matvec (otherwise solve raises, C36), with a budget above the dimension (the default is). False for smaller budgets: the last iterate is combined with the pivot of the iteration before (C56_budget_wrong)."
  },
  {
   "property": "C57",
   "status": "partial",
   "theorems": [
    "Verif.Solver.C34_preconditioned_partial",
    "Verif.Solver.C35_preconditioned_partial",
    "Verif.Solver.C38_preconditioned",
    "Verif.Solver.C37_preconditioned_converges",
    "Verif.Solver.C51_preconditioned",
    "Verif.Solver.C51_preconditioned_converges",
    "Verif.Solver.C52_preconditioned",
    "Verif.Solver.C52_preconditioned_converges",
    "Verif.Solver.C53_preconditioned",
    "Verif.Solver.C53_preconditioned_converges",
    "Verif.Solver.C56_preconditioned_partial",
    "Verif.Solver.C56_preconditioned_definite_partial",
    "Verif.Solver.C28_preconditioned_fails"
   ],
   "note": "Proved for MINRES, LSQR, LSMR, CRAIG and CRAIG-MR, and for SYMMLQ under the conditions of C56. False for CG, which updates the direction with the unpreconditioned residual (C28_preconditioned_fails)."
  },
  {
   "property": "C58",
   "status": "proved",
   "theorems": [
    "Verif.Blkop.C58_slice_up",
    "Verif.Blkop.C58_slice_down",
    "Verif.Blkop.C58_slice_all",
    "Verif.Blkop.C58_slice_between",
    "Verif.Blkop.C58_slice_reverse",
    "Verif.Blkop.C58_block",
    "Verif.Blkop.C58_flagged",
    "Verif.Blkop.C58_diag"
   ],
   "note": "Integers and slices; index lists and masks are not modelled. C58_slice_* say which positions a slice selects."
  },
  {
   "property": "C59",
   "status": "partial",
   "theorems": [
    "Verif.Blkop.C59_block_fits_partial",
    "Verif.Blkop.C59_diag_fits_partial",
    "Verif.Blkop.C59_block_index_partial",
    "Verif.Blkop.C59_diag_rejected_partial",
    "Verif.Blkop.C59_diag_misfit",
    "Verif.Blkop.C59_diag_resized",
    "Verif.Blkop.C59_diag_none",
    "Verif.Blkop.C59_block_misfit",
    "Verif.Blkop.C59_block_none",
    "Verif.Blkop.Examples.C59_block_broadcast",
    "Verif.Blkop.Examples.C59_diag_broadcast"
   ],
   "note": "Fitting operators are assigned correctly; bad indices, and for block diagonal operators lists with other objects, are rejected. False for values that do not fit: they are accepted, or the exception comes after the block was replaced, and afterwards every product raises (C59_*_misfit, C59_diag_resized, C59_*_none) or returns wrong values (C59_*_broadcast)."
  },
  {
   "property": "C60",
   "status": "partial",
   "theorems": [
    "Verif.Solver.C60_minres_rejects",
    "Verif.Solver.C60_minres_accepts",
    "Verif.Solver.C60_symmlq_rejects",
    "Verif.Solver.C60_symmlq_accepts",
    "Verif.Solver.C60_symmlq_symmetric",
    "Verif.Solver.C60_symmlq_test",
    "Verif.Solver.C60_symmlq_rotation"
   ],
   "note": "Proved for MINRES, given the verdicts of check_symmetric (whose own correctness is C44). For SYMMLQ (with the missing attribute matvec set) acceptance is proved; rejection is not reported, solve raises UnboundLocalError instead (C60_symmlq_rejects)."
  },
  {
   "property": "C61",
   "status": "proved",
   "theorems": [
    "Verif.Linop.C61_pysparse",
    "Verif.Linop.C61_no_flag"
   ],
   "note": "For sparse matrices that do what they should (SparseObj.Holds): the library itself is a parameter."
  },
  {
   "property": "C62",
   "status": "partial",
   "theorems": [
    "Verif.Linop.C62_cholesky_partial",
    "Verif.Linop.C62_complex_transpose",
    "Verif.Linop.C62_complex_float",
    "Verif.Linop.Examples.C62_complex_float_wrong"
   ],
   "note": "Proved for real matrices, given a factorization that solves linear systems. False for complex hermitian matrices: the operator is declared symmetric, so .T is wrong (C62_complex_transpose), and with the default dtype imaginary parts are discarded (C62_complex_float)."
  },
  {
   "property": "C63",
   "status": "partial",
   "theorems": [
    "Verif.Linop.C63_assign",
    "Verif.Linop.C63_widen_partial",
    "Verif.Linop.C63_widen_total_partial",
    "Verif.Linop.C63_declared_later",
    "Verif.Linop.C63_stale",
    "Verif.Linop.Examples.C63_stale_wrong"
   ],
   "note": "Values are preserved by every sequence of widening assignments, for all operators on the heap. False part: .T and .H keep the old dtype, so an operator whose functions are complex and which is declared complex by an assignment has a transpose that discards imaginary parts, and an adjoint that is this transpose (C63_stale). Not covered: operators built after an assignment."
  },
  {
   "property": "C64",
   "status": "proved",
   "theorems": [
    "Verif.Link.C64_real_matrix",
    "Verif.Link.C64_programs",
    "Verif.Link.C64_operator",
    "Verif.Link.C64_counter",
    "Verif.Link.C64_cg",
    "Verif.Link.C64_cgs",
    "Verif.Link.C64_bicgstab",
    "Verif.Link.C64_tfqmr",
    "Verif.Link.C64_minres",
    "Verif.Link.C64_lsqr",
    "Verif.Link.C64_lsmr",
    "Verif.Link.C64_craig",
    "Verif.Link.C64_craigmr"
   ],
   "note": "Composition of the operator model with the solver models, in exact arithmetic and without preconditioners. The limits of each solver (LSMR: no zero residual; MINRES: no singular value below the machine precision; SYMMLQ is left out because it always raises) are hypotheses, and are the subject of C34, C36 and C51."
  },
  {
   "property": "C65",
   "status": "proved",
   "theorems": [
    "Verif.Linop.C65_sessions",
    "Verif.Linop.C65_reciprocal"
   ],
   "note": "For user operators that come with transpose or adjoint. Excluded: an array as the left operand of an operator (NumPy decides), strings, NumPy scalars, arrays with more than two dimensions. Exact arithmetic."
  },
  {
   "property": "C66",
   "status": "proved",
   "theorems": [
    "Verif.Link.C66_meaningful",
    "Verif.Link.C66_conditioning",
    "Verif.Link.C66_product",
    "Verif.Link.C66_cg",
    "Verif.Link.C66_cgs",
    "Verif.Link.C66_bicgstab",
    "Verif.Link.C66_tfqmr",
    "Verif.Link.C66_lsqr",
    "Verif.Link.C66_script"
   ],
   "note": "Exact arithmetic; composition of the gallery, operator and solver models."
  },
  {
   "property": "C67",
   "status": "proved",
   "theorems": [
    "Verif.Link.C67_replay",
    "Verif.Link.C67_precon",
    "Verif.Link.C67_cg_compact",
    "Verif.Link.C67_cg_forward",
    "Verif.Link.C67_minres",
    "Verif.Link.C67_lsqr",
    "Verif.Link.C67_conjugate",
    "Verif.Link.C67_cg_steps",
    "Verif.Link.C67_from_cg"
   ],
   "note": "C67_replay in every arithmetic, the rest in exact arithmetic. The compact operator assumes that np.linalg.solve solves nonsingular systems."
  },
  {
   "property": "C68",
   "status": "proved",
   "theorems": [
    "Verif.Link.C68_regularized",
    "Verif.Link.C68_quasidefinite",
    "Verif.Link.C68_diagonal",
    "Verif.Link.C68_preconditioner"
   ],
   "note": "exact arithmetic; built on C16, C17, C20 and the convergence theorems"
  },
  {
   "property": "C69",
   "status": "partial",
   "theorems": [
    "Verif.Solver.C69_cgs",
    "Verif.Solver.C69_bicgstab",
    "Verif.Solver.C69_tfqmr",
    "Verif.Solver.C69_krylov_values",
    "Verif.Solver.C69_minres_partial",
    "Verif.Solver.C69_minres_reads_nothing",
    "Verif.Solver.C69_minres_values",
    "Verif.Solver.C69_minres_history",
    "Verif.Solver.C69_minres_status",
    "Verif.Solver.C69_minres_show",
    "Verif.Solver.C69_minres_doubles",
    "Verif.Solver.C69_minres_violated",
    "Verif.Solver.C69_minres_status_violated",
    "Verif.Solver.C69_symmlq_partial",
    "Verif.Solver.C69_symmlq_values",
    "Verif.Solver.C69_symmlq_iterates",
    "Verif.Solver.C69_symmlq_doubles",
    "Verif.Solver.C69_symmlq_violated",
    "Verif.Solver.C69_lsqr_partial",
    "Verif.Solver.C69_lsqr_values",
    "Verif.Solver.C69_lsqr_ctol",
    "Verif.Solver.C69_lsmr_partial",
    "Verif.Solver.C69_lsmr_values",
    "Verif.Solver.C69_lsmr_x",
    "Verif.Solver.C69_craig_partial",
    "Verif.Solver.C69_craig_values",
    "Verif.Solver.C69_craig_ctol",
    "Verif.Solver.C69_craigmr",
    "Verif.Solver.C69_craigmr_values",
    "Verif.Solver.C69_status"
   ],
   "note": "Proved in any arithmetic, completely for CGS, Bi-CGSTAB, TFQMR and CRAIG-MR. The code violates it for single attributes, and the negations are proved: MINRES residHistory, status and show; SYMMLQ iterates; LSQR and CRAIG ctol; LSMR x after an early return."
  },
  {
   "property": "C70",
   "status": "proved",
   "theorems": [
    "Verif.Solver.C70_cg",
    "Verif.Solver.C70_cgs",
    "Verif.Solver.C70_bicgstab",
    "Verif.Solver.C70_tfqmr",
    "Verif.Solver.C70_minres",
    "Verif.Solver.C70_symmlq",
    "Verif.Solver.C70_lsqr",
    "Verif.Solver.C70_lsmr",
    "Verif.Solver.C70_craig",
    "Verif.Solver.C70_craigmr"
   ],
   "note": "The heap models record the contents of all arrays after every statement that writes or allocates; an operator that raises leaves the heap of the moment of the call."
  },
  {
   "property": "C71",
   "status": "partial",
   "theorems": [
    "Verif.Solver.C71_few_eigenvalues",
    "Verif.Solver.C71_low_rank_update",
    "Verif.Solver.C71_low_rank",
    "Verif.Solver.C71_perfect",
    "Verif.Solver.C71_cg",
    "Verif.Solver.C71_cg_eigenvalues",
    "Verif.Solver.C71_cgs",
    "Verif.Solver.C71_cgs_spd",
    "Verif.Solver.C71_bicgstab",
    "Verif.Solver.C71_bicgstab_spd",
    "Verif.Solver.C71_tfqmr",
    "Verif.Solver.C71_tfqmr_spd",
    "Verif.Solver.C71_minres_partial",
    "Verif.Solver.C71_minres_preconditioned_partial",
    "Verif.Solver.C71_minres_perfect_preconditioner",
    "Verif.Solver.C71_symmlq_partial",
    "Verif.Solver.C71_lsqr",
    "Verif.Solver.C71_lsqr_preconditioned",
    "Verif.Solver.C71_lsmr",
    "Verif.Solver.C71_lsmr_preconditioned",
    "Verif.Solver.C71_craig_partial",
    "Verif.Solver.C71_craig_preconditioned_partial",
    "Verif.Solver.C71_craigmr",
    "Verif.Solver.C71_craigmr_preconditioned"
   ],
   "note": "Exact arithmetic. False parts: MINRES with the inverse of the operator as preconditioner returns an undefined vector for every right-hand side (C71_minres_perfect_preconditioner); CRAIG uses all iterations allowed and reports max iterations. CGS, Bi-CGSTAB and TFQMR can break down unless the operator is positive definite; CG is without preconditioner (C28_preconditioned_fails)."
  },
  {
   "property": "C72",
   "status": "partial",
   "theorems": [
    "Verif.Solver.C72_cg",
    "Verif.Solver.C72_cg_iterations",
    "Verif.Solver.C72_cg_condition",
    "Verif.Solver.C72_minres_partial",
    "Verif.Solver.C72_lsqr",
    "Verif.Solver.C72_lsmr",
    "Verif.Solver.C72_craig",
    "Verif.Solver.C72_craigmr",
    "Verif.Solver.C72_minres_preconditioned_partial",
    "Verif.Solver.C72_lsqr_preconditioned",
    "Verif.Solver.C72_lsmr_preconditioned",
    "Verif.Solver.C72_craig_preconditioned",
    "Verif.Solver.C72_craigmr_preconditioned",
    "Verif.Link.C72_poisson_spectrum",
    "Verif.Link.C72_poisson"
   ],
   "note": "Exact arithmetic. Missing: MINRES with eigenvalues below the machine precision (C35_clipped: the code replaces small pivots), and CG with a preconditioner, which is not the method the bound is for (its search directions use the residual instead of the preconditioned residual)."
  },
  {
   "property": "C73",
   "status": "partial",
   "theorems": [
    "Verif.Solver.C73_cg",
    "Verif.Solver.C73_cg_raises",
    "Verif.Solver.C73_cg_integers",
    "Verif.Solver.C73_cg_narrow_rhs",
    "Verif.Solver.C73_integers_violated",
    "Verif.Solver.C73_cgs",
    "Verif.Solver.C73_cgs_raises",
    "Verif.Solver.C73_bicgstab",
    "Verif.Solver.C73_bicgstab_integers",
    "Verif.Solver.C73_bicgstab_precon",
    "Verif.Solver.C73_tfqmr",
    "Verif.Solver.C73_tfqmr_raises",
    "Verif.Solver.C73_lsqr",
    "Verif.Solver.C73_lsqr_raises",
    "Verif.Solver.C73_lsmr",
    "Verif.Solver.C73_lsmr_raises",
    "Verif.Solver.C73_craig",
    "Verif.Solver.C73_craig_raises",
    "Verif.Solver.C73_craigmr",
    "Verif.Solver.C73_craigmr_raises",
    "Verif.Solver.C73_lls_integers",
    "Verif.Solver.C73_lls_complex",
    "Verif.Solver.C73_minres",
    "Verif.Solver.C73_minres_integers",
    "Verif.Solver.C73_minres_integers_exact"
   ],
   "note": "False in general. CG, CGS, TFQMR: true if the initial residual is not integer and nothing is wider than it; otherwise TypeError at the first update (C73_cg_raises, C73_cgs_raises, C73_tfqmr_raises), except that CG on integers only returns integers after dividing with rounding (C73_integers_violated: 2x = 1 never converges). Bi-CGSTAB: true unless all is integer or the preconditioner is widest. LSQR, LSMR, CRAIG, CRAIG-MR: true if the right-hand side holds floats and nothing is complex; otherwise TypeError (*_raises), for instance for every nonzero right-hand side of integers (C73_lls_integers). MINRES on integer or real data: true unless operator and right-hand side are both integer, then TypeError in the first iteration. Not stated: what CGS does on integers only; LSMR and CRAIG-MR with b = 0 and a complex operator; MINRES on complex data; SYMMLQ. NumPy >= 1.10 casting rules, Python 2 division."
  },
  {
   "property": "C74",
   "status": "partial",
   "theorems": [
    "Verif.Threads.C74_alone",
    "Verif.Threads.C74_results",
    "Verif.Threads.C74_matrix",
    "Verif.Threads.C74_counter_partial",
    "Verif.Threads.C74_counter_violated",
    "Verif.Threads.C74_lbfgs_forward",
    "Verif.Threads.C74_lbfgs_compact",
    "Verif.Threads.C74_lbfgs_inverse_partial",
    "Verif.Threads.C74_lbfgs_inverse_violated"
   ],
   "note": "Results: proved for all operators of linop.py and for the forward and compact L-BFGS operators. False parts, with the negation proved: counters can lose increments (C74_counter_violated; they never exceed the number of products, C74_counter_partial), and products with one inverse L-BFGS operator disturb each other (C74_lbfgs_inverse_violated; right if not interrupted, C74_lbfgs_inverse_partial). Threads do not store pairs or build operators while others multiply."
  },
  {
   "property": "C75",
   "status": "partial",
   "theorems": [
    "Verif.Solver.C75_cgs_partial",
    "Verif.Solver.C75_bicgstab_partial",
    "Verif.Solver.C75_tfqmr_partial",
    "Verif.Solver.C75_cg_partial",
    "Verif.Solver.C75_cg_symmetric",
    "Verif.Solver.C75_isotropic",
    "Verif.Solver.C75_isotropic_violated",
    "Verif.Solver.C75_cg_phase",
    "Verif.Solver.C75_tfqmr_violated",
    "Verif.Solver.C75_real"
   ],
   "note": "Exact complex arithmetic. Proved: CGS and Bi-CGSTAB keep the promise unless they stop before the first product; CG, for the size without conjugation; CG on complex symmetric operators; real systems. False parts, with the negation proved: inner products are not conjugated, so right-hand sides such as (1, i) are declared solved by x = 0 (C75_isotropic), TFQMR stops too early (C75_tfqmr_violated), and CG calls a positive definite operator indefinite if the right-hand side is purely imaginary (C75_cg_phase)."
  },
  {
   "property": "C76",
   "status": "partial",
   "theorems": [
    "Verif.Solver.C76_cgs",
    "Verif.Solver.C76_bicgstab",
    "Verif.Solver.C76_tfqmr",
    "Verif.Solver.C76_cg_partial",
    "Verif.Solver.C76_cg_violated",
    "Verif.Solver.C76_lsqr",
    "Verif.Solver.C76_craig",
    "Verif.Solver.C76_craigmr",
    "Verif.Solver.C76_lsmr_partial",
    "Verif.Solver.C76_lsmr_violated",
    "Verif.Solver.C76_symmlq_partial",
    "Verif.Solver.C76_minres_partial",
    "Verif.Solver.C76_minres_violated",
    "Verif.Solver.C35_clipped"
   ],
   "note": "Proved for CGS, Bi-CGSTAB and TFQMR (preconditioner in any unit), CG (preconditioner in the same unit), LSQR, CRAIG and CRAIG-MR (no preconditioners; the operator of the last two has no unit), LSMR and SYMMLQ (unit of the right-hand side, coordinates) and MINRES (coordinates, with a preconditioner). Violated: CG with a preconditioner in another unit (C76_cg_violated), LSMR, which takes its initial rhobar = 1 for a part of the operator when it estimates the condition number (C76_lsmr_violated), and MINRES, which takes the norm of the right-hand side for a part of the operator in its stopping tests (C76_minres_violated: a large right-hand side is \"solved\" in one iteration with a residual of 4/5 of it) and replaces small singular values by the machine precision (C35_clipped). Missing: SYMMLQ with another unit of the operator, preconditioners of the least-squares solvers."
  },
  {
   "property": "C77",
   "status": "proved",
   "theorems": [
    "Verif.Solver.C77_cg",
    "Verif.Solver.C77_cgs",
    "Verif.Solver.C77_bicgstab",
    "Verif.Solver.C77_tfqmr"
   ],
   "note": "Exact arithmetic (additions are associative)."
  },
  {
   "property": "C78",
   "status": "partial",
   "theorems": [
    "Verif.Solver.C78_lsqr_silent",
    "Verif.Solver.C78_lsqr_show",
    "Verif.Solver.C78_lsqr_no_columns",
    "Verif.Solver.C78_lsmr_silent",
    "Verif.Solver.C78_lsmr_show",
    "Verif.Solver.C78_craig_silent",
    "Verif.Solver.C78_craig_show",
    "Verif.Solver.C78_craigmr_show",
    "Verif.Solver.C78_craigmr_noise",
    "Verif.Solver.C78_minres_show",
    "Verif.Solver.C78_minres_noise",
    "Verif.Solver.C78_minres_overruled",
    "Verif.Solver.C78_minres_violated",
    "Verif.Solver.C78_minres_wrong_message",
    "Verif.Solver.C78_lsqr_rows",
    "Verif.Solver.C78_lsmr_rows",
    "Verif.Solver.C78_minres_rows",
    "Verif.Solver.C78_craig_no_rows"
   ],
   "note": "LSQR, LSMR, CRAIG: proved for operators with at least one column (in every arithmetic with four laws of comparison; CRAIG in any). False parts, with the negation proved: show=True raises IndexError for an operator without columns (C78_lsqr_no_columns); CRAIG-MR prints one line per iteration (C78_craigmr_noise) and MINRES a blank line every ten iterations (C78_minres_noise, C78_minres_violated) with show=False; a preconditioner that fails the check makes MINRES print the summary with show=False (C78_minres_overruled); MINRES announces an eigenvector when it stops for the condition number (C78_minres_wrong_message). CRAIG has no rows in its log (C78_craig_no_rows), CRAIG-MR neither. The layout of the numbers is not modelled."
  },
  {
   "property": "C79",
   "status": "partial",
   "theorems": [
    "Verif.Solver.C79_cg",
    "Verif.Solver.C79_cg_values",
    "Verif.Solver.C79_cgs",
    "Verif.Solver.C79_bicgstab",
    "Verif.Solver.C79_tfqmr",
    "Verif.Solver.C79_minres",
    "Verif.Solver.C79_lsqr",
    "Verif.Solver.C79_lsqr_solution",
    "Verif.Solver.C79_lsmr",
    "Verif.Solver.C79_craig",
    "Verif.Solver.C79_craigmr_partial",
    "Verif.Solver.C79_craigmr_lost",
    "Verif.Solver.C79_lsqr_torn",
    "Verif.Solver.C79_cg_torn",
    "Verif.Solver.C79_symmlq",
    "Verif.Solver.C79_symmlq_raises",
    "Verif.Solver.C79_symmlq_torn"
   ],
   "note": "For calls that would return if they were not interrupted, and for SYMMLQ also for those that raise by themselves. False parts, with the negation proved: CRAIG-MR resets x and the other results when the call begins (C79_craigmr_lost), and an interrupt between the last assignments leaves the verdict of the new call with the x of the old one (C79_cg_torn, C79_lsqr_torn, C79_symmlq_torn). residNorm0, ctol, infiniteDescent and show are assigned early. Missing: calls of the other solvers that end in an exception of the solver itself (division by zero)."
  },
  {
   "property": "C80",
   "status": "proved",
   "theorems": [
    "Verif.Solver.C80_cg",
    "Verif.Solver.C80_cgs",
    "Verif.Solver.C80_bicgstab",
    "Verif.Solver.C80_tfqmr",
    "Verif.Solver.C80_minres",
    "Verif.Solver.C80_symmlq",
    "Verif.Solver.C80_lsqr",
    "Verif.Solver.C80_lsmr"
   ],
   "note": "Exact arithmetic. Bi-CGSTAB: for operators other than zero. TFQMR: for a positive threshold below the initial residual norm (otherwise it raises, C33). MINRES: for singular values that are zero or at least the machine precision (C35_clipped). SYMMLQ: for objects that were given the missing attribute matvec (C56). LSMR on consistent systems can raise (C40)."
  },
  {
   "property": "C81",
   "status": "proved",
   "theorems": [
    "Verif.Solver.C81_cg",
    "Verif.Solver.C81_consistent"
   ],
   "note": "Exact arithmetic. With a preconditioner the direction can be zero (C29_zero_direction)."
  },
  {
   "property": "C82",
   "status": "partial",
   "theorems": [
    "Verif.Tools.C82_symmetric",
    "Verif.Tools.C82_definite",
    "Verif.Tools.C82_not_square",
    "Verif.Tools.C82_keeps_stream_partial",
    "Verif.Tools.C82_stream_lost",
    "Verif.Tools.C82_stream_violated",
    "Verif.Tools.C82_reproducible"
   ],
   "note": "False part, with the negation proved: check_symmetric of a square operator calls np.random.seed(1), so from then on the numbers of the caller no longer depend on their seed (C82_stream_lost for every generator, C82_stream_violated). For the two functions called by themselves; CG and MINRES call them on request."
  },
  {
   "property": "C83",
   "status": "partial",
   "theorems": [
    "Verif.Tools.C83_symmetric_exposed",
    "Verif.Tools.C83_symmetric_exact",
    "Verif.Tools.C83_symmetric_likely",
    "Verif.Tools.C83_symmetric_blind",
    "Verif.Tools.C83_definite_exact",
    "Verif.Tools.C83_definite_violated"
   ],
   "note": "Exact arithmetic, real operators. Symmetry: an asymmetry beyond the tolerance is exposed by vectors of positive volume in the unit cube, but false for the vectors that are actually drawn, which are the same in every call: for every order above the number of repetitions there is an operator far from symmetric that always passes (C83_symmetric_blind). Definiteness is false: only vectors with nonnegative entries are drawn, so exactly the copositive operators always pass (C83_definite_exact), among them all operators with positive entries, definite or not (C83_definite_violated)."
  },
  {
   "property": "C84",
   "status": "partial",
   "theorems": [
    "Verif.Solver.C84_cg",
    "Verif.Solver.C84_cg_last",
    "Verif.Solver.C84_bicgstab",
    "Verif.Solver.C84_cgs_partial",
    "Verif.Solver.C84_cgs_violated",
    "Verif.Solver.C84_tfqmr_partial",
    "Verif.Solver.C84_tfqmr_violated"
   ],
   "note": "CG and Bi-CGSTAB in full, for every arithmetic. False for CGS (the last iteration is never logged) and for TFQMR (the last iteration is never logged, and a line counts a product the residual norm in it does not use). Lines are read as exact numbers: the layout of the numbers is not modelled."
  },
  {
   "property": "C85",
   "status": "proved",
   "theorems": [
    "Verif.Solver.C85_cg",
    "Verif.Solver.C85_minres",
    "Verif.Solver.C85_lsqr",
    "Verif.Solver.C85_lsmr"
   ],
   "note": "Exact arithmetic. MINRES: for singular values that are zero or at least the machine precision (C35_clipped), unless the solve breaks down with istop = -1 (C34_beta2_nan). LSMR can raise on consistent systems (C40)."
  },
  {
   "property": "C86",
   "status": "partial",
   "theorems": [
    "Verif.Solver.C86_minres_partial",
    "Verif.Solver.C86_minres_violated",
    "Verif.Solver.C86_minres_not_shortest"
   ],
   "note": "Exact arithmetic, no preconditioner. Proved: convergence, optimality in the Krylov space, least squares once it is exhausted, and rnorm before that. The code violates the rest: when the Krylov space is exhausted rnorm is 0 and istop is 1 (solved) or 10, for every inconsistent system with nonzero curvature b'(A - shift I)b (C86_minres_violated); the result need not be the shortest minimizer (C86_minres_not_shortest)."
  },
  {
   "property": "C87",
   "status": "partial",
   "theorems": [
    "Verif.Solver.C87_cg",
    "Verif.Solver.C87_minres_partial",
    "Verif.Solver.C87_lsqr",
    "Verif.Solver.C87_lsmr",
    "Verif.Solver.C87_craig",
    "Verif.Solver.C87_craigmr",
    "Verif.Solver.C87_minres_preconditioned_partial",
    "Verif.Solver.C87_lsqr_preconditioned",
    "Verif.Solver.C87_lsmr_preconditioned",
    "Verif.Solver.C87_craig_preconditioned",
    "Verif.Solver.C87_craigmr_preconditioned"
   ],
   "note": "Exact arithmetic. With symmetric positive definite preconditioners, in the norms that belong to them, except for CG, whose preconditioning is wrong (C28_preconditioned_fails). MINRES: for eigenvalues of at least the machine precision (C35_clipped), unless the solve breaks down with istop = -1 (C34_beta2_nan). LSMR can raise on consistent systems (C40). CRAIG: for nonzero right-hand sides and a positive limit, and for the vectors r it returns."
  },
  {
   "property": "C88",
   "status": "partial",
   "theorems": [
    "Verif.Linop.C88_products_partial",
    "Verif.Linop.C88_returns",
    "Verif.Linop.C88_laws",
    "Verif.Linop.C88_to_array",
    "Verif.Linop.C88_narrow_violated",
    "Verif.Linop.C88_promotion",
    "Verif.Linop.C88_classes",
    "Verif.Linop.C88_commutes",
    "Verif.Linop.C88_order_violated"
   ],
   "note": "Integer arrays with wrap-around arithmetic. Missing, because the code violates it: vectors of a narrower dtype than the operator get a product of the wider dtype with wrapped values (C88_narrow_violated: 100 * A with 8-bit A and x), and the dtype of a sum of three operators depends on the grouping (C88_order_violated)."
  },
  {
   "property": "C89",
   "status": "partial",
   "theorems": [
    "Verif.Solver.C89_new_square",
    "Verif.Solver.C89_new_rectangular",
    "Verif.Solver.C69_krylov_values",
    "Verif.Solver.C69_minres_values",
    "Verif.Solver.C69_symmlq_values",
    "Verif.Solver.C69_lsqr_values",
    "Verif.Solver.C69_craig_values",
    "Verif.Solver.C69_craigmr_values",
    "Verif.Solver.C89_square_violated",
    "Verif.Solver.C89_lsqr_violated",
    "Verif.Solver.C89_lsmr_violated",
    "Verif.Solver.C89_craig_violated",
    "Verif.Solver.C89_craigmr_violated"
   ],
   "note": "New objects: all classes. After a call: CGS, Bi-CGSTAB, TFQMR and MINRES set all attributes but nIter, which no solver sets. The code violates the rest: SYMMLQ, LSQR, LSMR, CRAIG and CRAIG-MR never set converged, LSMR sets nothing but x and the lists, CRAIG and CRAIG-MR do not set residNorm."
  },
  {
   "property": "C90",
   "status": "partial",
   "theorems": [
    "Verif.Solver.C90_cg_partial",
    "Verif.Solver.C90_cgs",
    "Verif.Solver.C90_bicgstab_partial",
    "Verif.Solver.C90_dense_cg_partial",
    "Verif.Solver.C90_dense_cgs",
    "Verif.Solver.C90_dense_bicgstab_partial",
    "Verif.Solver.Float64Example.C90_threshold_violated"
   ],
   "note": "Every arithmetic with the laws of rounded operations (Rounding), in particular every floating-point format with sums from left to right (FloatFormat.rounding, float64). CGS with or without preconditioner; CG without preconditioner (with one, residNorm is not the norm of the residual, C28); Bi-CGSTAB with or without preconditioner, for invertible operators with a bound that depends on the condition number and the largest residual, if it converges or does not stop in mid-iteration (then residNorm is that of another vector, C32_wrong_residNorm). Missing: TFQMR (whose residual norm is an estimate, C32), MINRES, SYMMLQ and the least-squares solvers (estimates by recurrences). C90_threshold_violated: CG in float64 stops with residNorm 0 although the residual of the solution is not 0."
  },
  {
   "property": "C91",
   "status": "proved",
   "theorems": [
    "Verif.Linop.C91_products",
    "Verif.Linop.C91_laws",
    "Verif.Linop.C91_transpose",
    "Verif.Linop.C91_to_array",
    "Verif.Linop.C91_relative",
    "Verif.Linop.C91_solvers",
    "Verif.Linop.C91_finite",
    "Verif.Linop.C91_float64"
   ],
   "note": "Every floating-point format with a relative error per operation (FloatFormat; float64 is IEEE 754), real dtypes, dot products added from left to right. Block diagonal operators with square blocks (for others the product with the transpose raises, C20_rectangular_transpose)."
  },
  {
   "property": "C92",
   "status": "partial",
   "theorems": [
    "Verif.Tools.C92_symmetric_partial",
    "Verif.Tools.C92_operators_partial",
    "Verif.Tools.C92_exposed",
    "Verif.Tools.C92_definite",
    "Verif.Tools.C92_indefinite",
    "Verif.Tools.C92_symmetric_violated"
   ],
   "note": "Symmetric operators are accepted except when a product A x is small compared with |A| |x|. C92_symmetric_violated: a symmetric float64 array of integers and a vector in [0, 1) for which np.dot(x, r) rounds and check_symmetric returns False. Real dtypes; the numbers compared are assumed to be finite."
  },
  {
   "property": "C93",
   "status": "partial",
   "theorems": [
    "Verif.Gallery.C93_poisson1d",
    "Verif.Gallery.C93_poisson2d",
    "Verif.Gallery.C93_finite",
    "Verif.Gallery.C93_exact",
    "Verif.Gallery.C93_computes1",
    "Verif.Gallery.C93_computes2",
    "Verif.Gallery.C93_cg_partial",
    "Verif.Gallery.C93_cg2_partial"
   ],
   "note": "The products, overflow and integers are proved in full. For CG: without preconditioner, at least two unknowns per direction, and vectors whose products do not underflow."
  },
  {
   "property": "C94",
   "status": "partial",
   "theorems": [
    "Verif.Tools.C94_roots_partial",
    "Verif.Tools.C94_newton_partial",
    "Verif.Tools.C94_no_exception",
    "Verif.Tools.C94_normal",
    "Verif.Tools.C94_float64_partial",
    "Verif.Tools.C94_newton_float64_partial",
    "Verif.Tools.C94_refine_violated",
    "Verif.Tools.C94_underflow_violated"
   ],
   "note": "The bound is proved for nitref = 0, and for nitref >= 1 (with 9u, tol <= 1/2000 and without the exception for small roots) if the discriminant is at least 20000 u (q1^2 + 4 |q0 q2|), in arithmetic without underflow, and for double precision runs in which nothing underflows. It fails for nitref = 1 near double roots (C94_refine_violated) and when products of coefficients underflow (C94_underflow_violated); both are proved for the default parameters."
  },
  {
   "property": "C95",
   "status": "partial",
   "theorems": [
    "Verif.Solver.C95_cg_partial",
    "Verif.Solver.C95_cgs",
    "Verif.Solver.C95_bicgstab_partial",
    "Verif.Gallery.C95_poisson1d_cg_partial",
    "Verif.Gallery.C95_poisson2d_cg_partial",
    "Verif.Gallery.C95_poisson1d_cgs",
    "Verif.Gallery.C95_poisson2d_cgs",
    "Verif.Gallery.C95_poisson1d_bicgstab_partial",
    "Verif.Gallery.C95_poisson2d_bicgstab_partial"
   ],
   "note": "CG without preconditioner (with one, residNorm is not the norm of the residual, C28), CGS, and Bi-CGSTAB unless its budget ends in mid-iteration. For operators that compute products up to n+1 roundings (dense arrays, Poisson operators with at least two unknowns per direction) with vectors whose products do not underflow. Missing: the other solvers, whose residual norms are estimates."
  },
  {
   "property": "C96",
   "status": "partial",
   "theorems": [
    "Verif.Solver.C96_same",
    "Verif.Solver.C96_raises",
    "Verif.Solver.C96_table",
    "Verif.Solver.C96_message_partial",
    "Verif.Solver.C96_reason_partial",
    "Verif.Solver.C96_limit_violated",
    "Verif.Solver.C96_limit_message",
    "Verif.Solver.C96_wrong_message"
   ],
   "note": "The log does not change the call, a call that raises logs no reason (C96_raises), and the table and the reported numbers are right. In exact arithmetic with a symmetric operator and without preconditioner the message of a run that was not ended by the limit is true of the returned x, unless a compression of the operator is singular (C96_reason_partial); in any arithmetic the code is that of a test met within the budget, and code 4 is true (C96_message_partial). False for a stop at the limit: the code stays 0, whose message is that zero is the exact solution (C96_limit_violated, C96_limit_message, C96_wrong_message)."
  }
 ]
}
