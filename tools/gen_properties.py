#!/usr/bin/env python3
"""Writes /verif/properties.jsonl (one JSON object per line) from the table below."""
import json, os
P = []
def p(id, title, statement, quantifier, why, *anchors):
    P.append(dict(id=id, title=title, statement=statement, quantifier=quantifier,
                  why_tests_cant=why, anchors=list(anchors)))

L = "pykrylov/linop/linop.py"; B = "pykrylov/linop/blkop.py"; Q = "pykrylov/linop/lbfgs.py"
U = "pykrylov/tools/utils.py"; G = "pykrylov/gallery/gallery.py"

p("C01", "Operator algebra computes the matrix algebra",
  "Whatever operators a program builds with the operator API (arrays, identity, zero, diagonal, +, -, *, scalar multiples, negation, integer powers, conjugate, .T, .H, reduction), sharing operands freely, multiplying the resulting operator by any vector of the right size returns the product of the corresponding matrix expression with that vector.",
  "every finite sequence of API calls, every operand sharing pattern, every size, every vector",
  "the set of operator expressions is infinite and products of nested closures depend on the whole construction history",
  f"{L}: LinearOperator.__mul__/__add__/__sub__/__neg__/__pow__/conjugate, IdentityOperator, ZeroOperator, DiagonalOperator, linop_from_ndarray, ReducedLinearOperator")
p("C02", "Transpose and adjoint of every operator are the true ones",
  "If op.T is present then op.T * y is the transpose matrix times y, and if op.H is present then op.H * y is the conjugate-transpose matrix times y, for every operator obtainable through the API, including those whose .T or .H was inferred.",
  "every sequence of API calls, real and complex, every vector",
  "inferred pointers depend on dtype, flags and which of matvec_transp/matvec_adj were supplied; a wrong one is only visible on specific nestings",
  f"{L}: LinearOperator.__init__, __set_transpose, __set_adjoint, T, H, conjugate")
p("C03", "Pointer identities of .T and .H",
  "For an operator constructed with matvec_transp (not flagged symmetric), op.T.T is op itself; for a symmetric operator op.T is op; for a hermitian operator with real dtype op.H is op. For a complex operator constructed with only one of matvec_transp / matvec_adj, both .T and .H are present, and taking .T (or .H) twice leads back to the operator.",
  "every constructor call (all flag combinations, dtypes, supplied functions), every prior heap",
  "identity of objects in a cyclic object graph under all flag combinations",
  f"{L}: LinearOperator.__init__ lines 114-194")
p("C04", "Real operators have transpose iff they have adjoint, and they agree",
  "For every non-complex operator obtained through the API, .T is None exactly when .H is None, and when present both compute the same products.",
  "every API history with int/float dtypes",
  "depends on constructor inference for all histories",
  f"{L}: LinearOperator.__init__ lines 126-131")
p("C05", "Size mismatches are rejected and right sizes are accepted",
  "A product op * x with an array x raises ValueError when x does not have exactly nargin entries and otherwise returns an array with exactly nargout entries; op1 + op2, op1 - op2 raise ShapeError exactly when shapes differ; op1 * op2 raises ShapeError exactly when nargin of op1 differs from nargout of op2; op ** k raises for non-square or negative k.",
  "all operators reachable through the API, all vectors, all sizes",
  "all sizes and nestings",
  f"{L}: _matvec, __add__, __sub__, __mul_linop, __pow__")
p("C06", "nMatvec counts products exactly",
  "op.nMatvec increases by exactly one for each product op * x that is attempted (even one that raises), is changed by nothing else but products and reset_counters, and a product with a composite operator adds to each component exactly the number of times the expression applies it (e.g. k for A**k).",
  "every API history and every product",
  "the count is a property of the whole call history through nested closures",
  f"{L}: __mul_vector, reset_counters, nMatvec")
p("C07", "Result dtype",
  "The dtype class of op * x is result_type(op.dtype, x.dtype) for every operator and vector, and casting to it never changes the value of the product of a well-typed operator.",
  "every operator built through the API, every vector",
  "all nestings and dtype combinations",
  f"{L}: __mul_vector, __mul_scalar, __mul_linop, __add__")
p("C08", "Scalar multiples and quotients",
  "(a*op)*x = (op*a)*x = a*(op*x); multiplying by 0 gives the zero operator of the same shape; (-op)*x = -(op*x); (op / k)*x = (op*x)/k for every nonzero number k.",
  "all operators, scalars and vectors",
  "all scalars; integer scalars in Python 2 division are a boundary case",
  f"{L}: __mul_scalar, __neg__, __div__, __truediv__")
p("C09", "Integer powers",
  "(op ** k) * x equals op applied k times to x for every k >= 0, and costs exactly k products with op.",
  "all k, all square operators, all vectors",
  "unbounded recursion on k",
  f"{L}: __pow__")
p("C10", "Dense conversion",
  "op.to_array() returns exactly the matrix of the operator and performs exactly nargin products.",
  "all operators and sizes", "all sizes", f"{L}: to_array, full")
p("C11", "Conjugate operator",
  "op.bar * x is the entrywise-conjugated matrix times x, op.bar is op for non-complex dtypes, op.bar.T is op.H and op.bar.H is op.T.",
  "all operators, vectors", "all nestings and flag combinations", f"{L}: conjugate, bar")
p("C12", "Reduced operators are submatrices",
  "ReducedLinearOperator(op, rows, cols) represents exactly the submatrix op[rows, cols] and its .T / .H the transpose / adjoint of that submatrix; SymmetricallyReducedLinearOperator(op, idx) represents op[idx, idx].",
  "all operators, all index lists", "index lists may repeat or be out of order; all sizes",
  f"{L}: ReducedLinearOperator, SymmetricallyReducedLinearOperator")
p("C13", "Coordinate-format operators",
  "CoordLinearOperator(vals, rows, cols, nargin, nargout) represents the matrix with vals[k] accumulated at (rows[k], cols[k]) (plus the mirrored entries when symmetric=True), its transpose the transposed matrix; when nargin/nargout are omitted they are inferred so that every entry fits.",
  "all coordinate lists (duplicates, any order), all sizes", "unbounded lists with duplicates",
  f"{L}: CoordLinearOperator")
p("C14", "Diagonal operators",
  "DiagonalOperator(d) multiplies entrywise by d; abs(op) has diagonal |d|; sqrt(op)*sqrt(op) reproduces op for a nonnegative or complex-typed d, and sqrt raises ValueError for a non-complex d with a negative entry; the operator keeps representing the diagonal it was built from even if the caller later modifies the array, and op.diag agrees with the action of op.",
  "all diagonals, all vectors, all later mutations by the caller", "aliasing: any later history of the caller's array",
  f"{L}: DiagonalOperator, sqrt")
p("C15", "linop_from_ndarray",
  "linop_from_ndarray(A) represents A with .T = A.T and .H = A.conj().T; for a real array symmetric and hermitian flags must agree or ValueError is raised.",
  "all arrays and flags", "all sizes and flag combinations", f"{L}: linop_from_ndarray")
p("C16", "Block operators compute the block matrix product",
  "For a grid of blocks with consistent shapes, BlockLinearOperator(blocks)*x is the block matrix times x, and .T / .H are the transpose / adjoint of the whole block matrix.",
  "all grids (any number and sizes of blocks), all vectors", "all grid shapes and block sizes",
  f"{B}: BlockLinearOperator.__init__, blk_matvec")
p("C17", "Symmetric block construction from the upper triangle",
  "BlockLinearOperator(upper, symmetric=True) (resp. hermitian=True) has block (i,j), i>j, equal to the transpose (resp. adjoint) of block (j,i), so that the represented matrix is symmetric (hermitian), and the caller's list of blocks is left as it was.",
  "all numbers of block rows, all blocks", "all sizes; effect on the caller's data",
  f"{B}: BlockLinearOperator.__init__ lines 24-42")
p("C18", "Block shape validation",
  "BlockLinearOperator raises ShapeError at construction for every grid whose block shapes are inconsistent, and never for a consistent one.",
  "all grids", "all grids", f"{B}: BlockLinearOperator.__init__ lines 50-60")
p("C19", "Block assignment",
  "After op[i,j] = blk, products with op, op.T and op.H all use the new block (and, for symmetric or hermitian operators, its mirror), and nothing else changes.",
  "all grids, positions and replacement blocks, all sequences of assignments", "histories of assignments interleaved with products",
  f"{B}: BlockLinearOperator.__setitem__, BlockDiagonalLinearOperator.__setitem__")
p("C20", "Block diagonal operators",
  "BlockDiagonalLinearOperator(blocks)*x is the block-diagonal matrix times x and .T / .H are its transpose / adjoint, for blocks of any shapes.",
  "all lists of blocks of any shapes, all vectors", "all sizes; rectangular blocks", f"{B}: BlockDiagonalLinearOperator")
p("C21", "L-BFGS memory keeps the most recent accepted pairs",
  "After any sequence of store calls, the operator depends exactly on the last npairs accepted pairs in the order they were stored, where a pair is accepted iff s'y exceeds the threshold; a rejected pair changes nothing; restart forgets everything.",
  "all sequences of store/restart, all npairs >= 1", "circular buffer: all histories", f"{Q}: InverseLBFGSOperator.store, restart, lbfgs_matvec")
p("C22", "Inverse L-BFGS product is the BFGS matrix",
  "InverseLBFGSOperator * v equals the inverse BFGS matrix obtained by applying the BFGS inverse update with the stored pairs in order to the (scaled) identity, times v; this matrix is symmetric positive definite and maps the last y to the last s.",
  "all histories of stores, all vectors, all dimensions", "all histories and vectors", f"{Q}: InverseLBFGSOperator.lbfgs_matvec")
p("C23", "Forward and inverse L-BFGS are inverses of each other",
  "With the same history, LBFGSOperator * (InverseLBFGSOperator * v) = v for every v, and LBFGSOperator is symmetric positive definite.",
  "all histories of stores, all vectors, both scaling options", "all histories", f"{Q}: LBFGSOperator.lbfgs_matvec")
p("C24", "Compact L-BFGS equals forward BFGS",
  "CompactLBFGSOperator * v equals the forward BFGS matrix (inverse of the inverse L-BFGS matrix with the same history and scaling) times v.",
  "all histories, all vectors", "all histories", f"{Q}: CompactLBFGSOperator.lbfgs_matvec")
p("C25", "Structured L-BFGS can be constructed",
  "StructuredLBFGSOperator(n, npairs) constructs an operator with an empty memory for all n and npairs.",
  "all n, npairs and keyword arguments", "all arguments", f"{Q}: StructuredLBFGSOperator.__init__")
p("C26", "CG respects its budget and reports it",
  "CG.solve performs at most max(matvec_max, 1) products with op (exactly matvec_max at most if no guess is given), reports their exact number in nMatvec, and appends one residual norm per iteration to residHistory.",
  "all operators, right-hand sides, guesses, tolerances, including floating-point rounding and NaN", "every execution, any arithmetic", "pykrylov/cg/cg.py: CG.solve")
p("C27", "CG convergence means a small residual",
  "If CG.solve without preconditioner sets converged to True then the norm of rhs - op*x is at most max(abstol, reltol*initial residual norm), and residNorm is that norm.",
  "all linear operators, right-hand sides, guesses, options", "every execution path", "pykrylov/cg/cg.py: CG.solve")
p("C28", "CG terminates in at most n iterations on positive definite systems",
  "In exact arithmetic, for a symmetric positive definite operator of order n, CG.solve (with or without a symmetric positive definite preconditioner) converges to a solution within n iterations for every right-hand side and guess, never reports indefiniteness, and the energy norm of the error strictly decreases at every iteration.",
  "all n, all SPD operators, all right-hand sides, guesses and SPD preconditioners", "infinite families of matrices; finite termination is a theorem about all of them", "pykrylov/cg/cg.py: CG.solve")
p("C29", "CG reports genuine nonconvexity directions",
  "When CG.solve sets definite to False, infiniteDescent is a nonzero direction p with p'Ap <= 0; with check_curvature disabled definite stays True.",
  "all operators, right-hand sides and options", "every execution", "pykrylov/cg/cg.py: CG.solve")
p("C30", "Solver state across repeated solves",
  "The results of a second solve on the same solver object do not depend on the first one: histories and flags describe the latest solve.",
  "all sequences of solve calls", "histories of calls", "pykrylov/cg/cg.py, pykrylov/generic/generic.py, pykrylov/lls/*.py")
p("C31", "CGS convergence and budget",
  "CGS.solve with any linear preconditioner: converged implies the true residual norm is within the threshold and residNorm is the true residual norm; the number of products with op is at most matvec_max + 1 and is reported exactly in nMatvec.",
  "all operators, preconditioners, right-hand sides, guesses", "every execution", "pykrylov/cgs/cgs.py: CGS.solve")
p("C32", "Bi-CGSTAB convergence and budget",
  "BiCGSTAB.solve: converged implies the true residual norm of the returned x is within the threshold; residNorm is the residual norm of the returned x; nMatvec is the exact number of products and does not exceed matvec_max (>= 1).",
  "all operators, preconditioners, right-hand sides, guesses", "every execution", "pykrylov/bicgstab/bicgstab.py: BiCGSTAB.solve")
p("C33", "TFQMR convergence bound",
  "TFQMR.solve: converged implies the true residual norm of the returned x is below the threshold (quasi-residual bound tau*sqrt(m+1)); the product count is exact and bounded by the budget; solve returns normally on every input.",
  "all operators, preconditioners, right-hand sides, guesses", "every execution", "pykrylov/tfqmr/tfqmr.py: TFQMR.solve")
p("C34", "MINRES termination and status",
  "Minres.solve performs at most itnlim iterations, istop is always a documented code (-1..10) with a message, converged is True exactly for istop in {1,2,3,4,10}, and nMatvec = itn; a solve whose first Lanczos step finds beta2 = 0 stops with the exact solution.",
  "all operators, right-hand sides, options, including rounding/NaN", "every execution", "pykrylov/minres/minres.py: Minres.solve")
p("C35", "MINRES residual recurrence",
  "In exact arithmetic, for a symmetric operator, after every MINRES iteration the reported residual norm rnorm equals the true norm of rhs - (A - shift*I) x and never increases.",
  "all symmetric operators, right-hand sides and shifts, all iterations", "all sizes and iterations", "pykrylov/minres/minres.py: Minres.solve")
p("C36", "SYMMLQ returns a result",
  "Symmlq.solve returns normally and sets x, residNorm and nMatvec for every operator and right-hand side.",
  "all operators and right-hand sides", "every input", "pykrylov/symmlq/symmlq.py: Symmlq.solve")
p("C37", "LSQR stopping logic and options",
  "LSQRFramework.solve runs at most itnlim iterations, istop is always in 0..8 with the documented priority, status and optimal are consistent with istop, resids has itn+1 entries when stored, conlim limits the condition estimate, and nMatvec is the number of products.",
  "all operators, right-hand sides, options, including rounding/NaN", "every execution", "pykrylov/lls/lsqr.py: LSQRFramework.solve")
p("C38", "LSQR residual estimates are the true norms",
  "In exact arithmetic, after every LSQR iteration without preconditioners, r2norm equals sqrt(|b-Ax|^2 + damp^2|x|^2), and Arnorm equals the norm of the normal-equations residual A'(b-Ax) - damp^2 x.",
  "all operators, right-hand sides, damping, all iterations", "all sizes and iterations", "pykrylov/lls/lsqr.py: LSQRFramework.solve")
p("C39", "Stable Givens rotation",
  "symOrtho(a, b) returns c, s, r with c^2+s^2 = 1, c*a + s*b = r, s*a - c*b = 0 and r = sqrt(a^2+b^2), for all real a, b not both zero (and also for zero arguments).",
  "all real a and b", "all reals incl. signs and zeros", "pykrylov/lls/lsmr.py: symOrtho, sign")
p("C40", "LSMR stopping logic and results",
  "LSMRFramework.solve returns a status in 0..8 after at most itnlim iterations, istop = 7 only if the limit was reached, and self.x is the returned solution on every exit.",
  "all operators, right-hand sides and options", "every execution", "pykrylov/lls/lsmr.py: LSMRFramework.solve")
p("C41", "CRAIG honours its options and inputs",
  "CRAIGFramework.solve solves the problem selected by damp (least norm Ax=b for damp=0), stops within itnlim iterations and returns normally for every right-hand side including zero.",
  "all operators, right-hand sides, damping values", "every execution", "pykrylov/lls/craig.py: CRAIGFramework.solve")
p("C42", "CRAIG-MR stopping logic",
  "CRAIGMRFramework.solve stops after at most itnlim iterations with istop in {0,7,8}, with x = 0 for a zero right-hand side.",
  "all operators, right-hand sides, options", "every execution", "pykrylov/lls/craigmr.py: CRAIGMRFramework.solve")
p("C43", "Quadratic roots",
  "roots_quadratic(q2,q1,q0) returns exactly the real roots of the polynomial (empty list iff there are none) in exact arithmetic, except that for ill-conditioned quadratics the returned values satisfy |q(root)| <= tol*|q0| after at least one refinement.",
  "all real coefficients (not all zero), tolerances 0 <= tol <= 1/4 (default 1e-8), refinement counts", "all reals", f"{U}: roots_quadratic")
p("C44", "Symmetry check never rejects a symmetric operator",
  "check_symmetric(op) returns False for non-square operators and True for every symmetric operator, whatever random vectors are drawn; a False answer on a square operator proves the operator is not symmetric.",
  "all operators, all random streams, all repeat counts", "random streams", f"{U}: check_symmetric")
p("C45", "Definiteness check never rejects a definite operator",
  "check_positive_definite(op) is True for every real positive definite operator and every stream of nonzero vectors, check with semi=True is True for every positive semidefinite operator; a False answer exhibits a vector with nonpositive (negative) curvature.",
  "all operators and random streams", "random streams", f"{U}: check_positive_definite")
p("C46", "1D Poisson operator",
  "Poisson1dMatvec(x) is the tridiagonal (-1,2,-1) matrix times x for every size, and is symmetric positive definite.",
  "all sizes and vectors", "all sizes", f"{G}: Poisson1dMatvec")
p("C47", "2D Poisson operator",
  "Poisson2dMatvec(x), for x of size n*n, is the 5-point Laplacian (I kron T + T kron I) times x for every n >= 1, and is symmetric positive definite.",
  "all n and vectors", "slice arithmetic at every block boundary for all n", f"{G}: Poisson2dMatvec")
p("C48", "Keyword options reach the solver",
  "The documented keyword options of a solver (tolerances, preconditioner, budgets) given at construction take effect in solve.",
  "all option values", "all option values", "pykrylov/generic/generic.py: KrylovMethod.__init__", "pykrylov/cg/cg.py", "pykrylov/minres/minres.py")
p("C49", "Solvers do not modify their inputs",
  "No solver modifies the right-hand side, the initial guess or the vectors held by its caller, although many updates are done in place on possibly aliased arrays.",
  "all inputs, all executions", "aliasing of in-place updates in every execution", "pykrylov/cg/cg.py", "pykrylov/cgs/cgs.py", "pykrylov/bicgstab/bicgstab.py", "pykrylov/tfqmr/tfqmr.py", "pykrylov/minres/minres.py", "pykrylov/symmlq/symmlq.py", "pykrylov/lls/lsqr.py", "pykrylov/lls/lsmr.py", "pykrylov/lls/craig.py", "pykrylov/lls/craigmr.py")
p("C50", "LSQR iterates are minimizers, xnorm and r1norm are true norms",
  "In exact arithmetic, without preconditioners, the x returned by LSQR after k iterations minimizes |b-Ax|^2 + damp^2|x|^2 over the span of A'b, (A'A)A'b, ..., (A'A)^(k-1)A'b; xnorm equals |x| and r1norm equals |b-Ax|.",
  "all operators, right-hand sides, damping, iteration limits", "all sizes and iterations", "pykrylov/lls/lsqr.py: LSQRFramework.solve")
p("C51", "LSMR residual estimates are the true norms and its iterates are minimizers",
  "In exact arithmetic, without preconditioners, LSMR either raises ZeroDivisionError because an iterate has zero residual (Ax = b and damp x = 0), or returns with normr, normar, normx equal to sqrt(|b-Ax|^2 + damp^2|x|^2), |A'(b-Ax) - damp^2 x| and |x|, the stored histories are these values at the iterates, and the k-th iterate minimizes |A'(b-Ax) - damp^2 x| over the span of A'b, ..., (A'A)^(k-1)A'b; if no vector has zero residual and the limit is at least the dimension, it stops with a convergence code.",
  "all operators, right-hand sides, damping, tolerances, iteration limits", "all sizes and iterations", "pykrylov/lls/lsmr.py: LSMRFramework.solve")
p("C52", "CRAIG computes the regularized solution with damping 1",
  "In exact arithmetic, without preconditioners, for a nonzero right-hand side and a positive iteration limit, CRAIG returns; its i-th dual iterate r is the energy-norm best approximation of the solution of (AA'+I)r = b in the span of b, ..., (AA')^i b and its i-th iterate is A'r; r2norm is sqrt(|r|^2+|x|^2) and the stored histories are the squares of these values; with as many iterations as columns the returned x minimizes |b-Ax|^2+|x|^2.",
  "all operators, nonzero right-hand sides, damping, tolerances, iteration limits", "all sizes and iterations", "pykrylov/lls/craig.py: CRAIGFramework.solve")
p("C53", "CRAIG-MR minimizes the residual of (AA'+I)x = b over Krylov spaces",
  "In exact arithmetic, without preconditioners, CRAIG-MR returns for every right-hand side; its i-th iterate minimizes |b-(AA'+I)x| over the span of b, ..., (AA')^(i-1)b; the stored norms are |(AA'+I)x|^2 and the stored normal-equation values are the square roots of the decrease of the squared residual norm; if etol <= 0 and the limit is at least the number of rows or exceeds the number of columns, the result solves (AA'+I)x = b.",
  "all operators, right-hand sides, options", "all sizes and iterations", "pykrylov/lls/craigmr.py: CRAIGMRFramework.solve")
p("C54", "Sharing of arrays does not change results",
  "The result of a solve depends on the contents of the arrays it is given, not on which of them are the same array, nor on whether the operator and the preconditioner return new arrays (as all operators of the library do) or their argument itself (as M = lambda v: v does): the in-place updates compute the recurrences of the method.",
  "all operators and preconditioners with any such behaviour, all inputs, all sharing of arrays, all executions", "every pattern of aliasing in every iteration", "pykrylov/cg/cg.py", "pykrylov/cgs/cgs.py", "pykrylov/bicgstab/bicgstab.py", "pykrylov/tfqmr/tfqmr.py", "pykrylov/minres/minres.py", "pykrylov/symmlq/symmlq.py", "pykrylov/lls", "pykrylov/linop/linop.py: LinearOperator.__mul_vector")
p("C55", "CGS, Bi-CGSTAB and TFQMR converge within the dimension or break down",
  "In exact arithmetic, for a linear operator on a space of dimension at most n, any linear preconditioner or none, a nonnegative threshold (TFQMR: positive, and below the initial residual norm) and a budget of at least 2n products (the default), CGS, Bi-CGSTAB and TFQMR stop with converged = True after at most 2n products, or they break down and report a residual norm which is nan. If the operator is symmetric positive definite and there is no preconditioner, they never break down: the answer is finite and its true residual is within the threshold.",
  "all linear operators, preconditioners, right-hand sides, guesses, tolerances, dimensions", "all dimensions and iterations", "pykrylov/cgs/cgs.py: CGS.solve", "pykrylov/bicgstab/bicgstab.py: BiCGSTAB.solve", "pykrylov/tfqmr/tfqmr.py: TFQMR.solve")
p("C56", "SYMMLQ returns an accurate solution or says why not",
  "In exact arithmetic, for a symmetric operator and a nonzero right-hand side, SYMMLQ stops after at most one product more than the dimension. The returned x is the Galerkin point or the least-error point of the Krylov space, residNorm and xNorm are the true norms, and the residual is within the tolerance rtol*anorm*xNorm, unless the problem is singular to working precision or the Krylov space is deficient. If the budget of products is smaller, x is still one of these points.",
  "all symmetric operators, right-hand sides, shifts, tolerances, budgets, dimensions", "all dimensions and iterations", "pykrylov/symmlq/symmlq.py: Symmlq.solve")
p("C57", "Symmetric positive definite preconditioners only change the inner products",
  "In exact arithmetic, a solver given symmetric positive definite preconditioners computes what it computes without them for the preconditioned problem: MINRES with preconditioner P minimizes the P-norm of the residual over the Krylov space of AP, LSQR and LSMR with M and N solve min |b-Ax|_M^2 + damp^2 |x|^2 in the norm of N^-1, CRAIG and CRAIG-MR solve (A N A' + M^-1) r = b, SYMMLQ with preconditioner P returns the Galerkin or the least-error point of the Krylov space of AP, CG minimizes the energy norm of the error over the preconditioned Krylov space; the reported norms are the preconditioned norms, and the convergence statements of the unpreconditioned solvers hold.",
  "all operators, symmetric positive definite preconditioners (one, both or none), right-hand sides, tolerances, limits", "all preconditioners, sizes and iterations", "pykrylov/minres/minres.py: Minres.solve", "pykrylov/lls/lsqr.py: LSQRFramework.solve", "pykrylov/lls/lsmr.py: LSMRFramework.solve", "pykrylov/lls/craig.py: CRAIGFramework.solve", "pykrylov/lls/craigmr.py: CRAIGMRFramework.solve", "pykrylov/symmlq/symmlq.py: Symmlq.solve", "pykrylov/cg/cg.py: CG.solve")
p("C58", "Indexing a block operator follows the rules of sequences and matrices",
  "For integers (also negative) and slices, op[i, j] of a block operator is the block, or the block operator that acts as the block matrix of the selected block rows and columns (in the order of the slice), op[i] selects whole block rows; op[i] of a block diagonal operator is the block, or the block diagonal operator of the selected blocks. An index out of range, a zero step and an empty selection raise. blk in op and iteration agree with the blocks. All this also after any sequence of assignments of fitting blocks.",
  "all block operators, all integers and slices, all sequences of fitting assignments", "all shapes, starts, stops, steps and histories", "pykrylov/linop/blkop.py: BlockLinearOperator.__getitem__", "pykrylov/linop/blkop.py: BlockLinearOperator.__contains__", "pykrylov/linop/blkop.py: BlockLinearOperator.__iter__", "pykrylov/linop/blkop.py: BlockDiagonalLinearOperator.__getitem__")
p("C59", "Assignments to blocks are checked",
  "An assignment op[idx] = value to a block operator either replaces the selected blocks by operators that fit, and op, op.T and op.H then act as the matrix with these blocks replaced, or it raises and leaves the operator as it was.",
  "all block operators, all integers and slices, all values", "all values and selections", "pykrylov/linop/blkop.py: BlockLinearOperator.__setitem__", "pykrylov/linop/blkop.py: BlockDiagonalLinearOperator.__setitem__")
p("C60", "The symmetry checks of MINRES and SYMMLQ",
  "With check=True, a solve whose operator or preconditioner fails the symmetry test ends without an iteration and reports which of the two is to blame; if both pass, solve does exactly what it does with check=False. In exact arithmetic a symmetric operator passes the test.",
  "all operators, preconditioners, right-hand sides and options", "all operators and right-hand sides", "pykrylov/minres/minres.py: Minres.solve", "pykrylov/symmlq/symmlq.py: Symmlq.solve")
p("C61", "Operators from PySparse matrices",
  "PysparseLinearOperator(A) acts as the matrix A: op*x, op.T*x and op.H*x are the products with A and its transpose, for vectors of the right size; other sizes raise; the symmetric flag is the one of A; the operator can be combined with others like any operator.",
  "all sparse matrices (by operators or by methods), all vectors, all client programs", "all matrices, interfaces and histories", "pykrylov/linop/linop.py: PysparseLinearOperator")
p("C62", "Cholesky operators solve linear systems",
  "For a symmetric (hermitian) positive definite sparse matrix A, CholeskyOperator(A) represents the inverse of A: y = op*x satisfies A y = x, op.T and op.H represent its transpose and adjoint; a rectangular matrix raises ValueError.",
  "all positive definite matrices, real or complex, all right-hand sides", "all matrices and right-hand sides", "pykrylov/linop/cholesky.py: CholeskyOperator.__init__", "pykrylov/linop/cholesky.py: CholeskyOperator.cholesky_matvec")
p("C63", "Assigning a dtype keeps the operator and its relatives consistent",
  "After op.dtype = k for a dtype k that can hold the entries of op, op still acts as its matrix and returns results of the dtype of k and the argument; op.T and op.H act as its transpose and adjoint with the same dtype as op; operators built from op before still act as the same matrices. A value that is no NumPy number type raises TypeError and changes nothing.",
  "all operators obtainable through the API, all sequences of assignments", "all programs, matrices and assignments", "pykrylov/linop/linop.py: BaseLinearOperator.dtype", "pykrylov/linop/linop.py: LinearOperator.__init__", "pykrylov/linop/linop.py: LinearOperator.__mul_vector")
p("C64", "The solvers solve the systems of operators built with the operator layer",
  "Let op be any operator built by any program of the operator layer (ndarrays, diagonals, identities, user functions with transpose, sums, products, powers, multiples, transposes, reductions) with integer or real dtype; it is some real matrix M. In exact arithmetic: if M is positive definite, CG, CGS, Bi-CGSTAB and TFQMR given op converge within the default budget, and CG returns the solution; MINRES given op with a symmetric M returns the vector with the smallest residual; LSQR and LSMR given op find op.T and return a solution of M'(b - Mx) = damp^2 x, CRAIG and CRAIG-MR solve (MM' + I)r = b. The counter op.nMatvec grows by exactly the number of products CG or MINRES made.",
  "all client programs of the operator layer, all right-hand sides, guesses, options", "all programs, matrices, sizes and iterations", "pykrylov/linop/linop.py: LinearOperator", "pykrylov/cg/cg.py: CG.solve", "pykrylov/lls/lsqr.py: LSQRFramework.solve", "pykrylov/lls/lsmr.py: LSMRFramework.solve", "pykrylov/lls/craig.py: CRAIGFramework.solve", "pykrylov/lls/craigmr.py: CRAIGMRFramework.solve", "pykrylov/minres/minres.py: Minres.solve", "pykrylov/cgs/cgs.py: CGS.solve", "pykrylov/bicgstab/bicgstab.py: BiCGSTAB.solve", "pykrylov/tfqmr/tfqmr.py: TFQMR.solve")
p("C65", "Any session with operators is the same session with matrices",
  "In an interactive session, operators, arrays, numbers and other objects are combined in any order by *, +, -, /, **, calls, rmatvec, .T, .H, .bar, full(), linop_from_ndarray, reduced operators and reset_counters(), with the operands on either side, and products are mixed freely with the construction of operators. Every statement has the outcome it has when the operators are replaced by their matrices: op(x) and rmatvec(x) are products with the matrix and its adjoint, arrays with two dimensions are read row by row, scalars commute with operators, operands of the wrong type or size raise ValueError, ShapeError or TypeError as documented, and an exception does not disturb later statements.",
  "all sessions: lists of statements of any length over any operands, including those that raise", "every order of statements and every combination of operand types", "pykrylov/linop/linop.py: LinearOperator.__mul__, __rmul__, __call__, rmatvec, __add__, __sub__, __truediv__, __pow__, full, reset_counters", "pykrylov/linop/linop.py: linop_from_ndarray")
p("C66", "The solvers solve the gallery problems to a known accuracy",
  "Let A be the operator made from Poisson1dMatvec or Poisson2dMatvec with n or n^2 unknowns, used in any client program, and rhs = A*e for any e. In exact arithmetic CG, CGS, Bi-CGSTAB and TFQMR converge within their default budgets and the error of x is at most n(n+1)/2 (1D) or n(n+1)/4 (2D) times the stopping threshold; CG with zero tolerances and LSQR return e.",
  "all n, vectors e, guesses, tolerances, client programs that contain the operator", "all sizes and right-hand sides", "pykrylov/gallery/gallery.py: Poisson1dMatvec", "pykrylov/gallery/gallery.py: Poisson2dMatvec", "pykrylov/cg/tests/test_diagdom.py", "pykrylov/linop/linop.py: LinearOperator", "pykrylov/cg/cg.py: CG.solve")
p("C67", "L-BFGS operators serve as operators and preconditioners of the solvers",
  "A quasi-Newton operator used in a solver gives the same answers at every product, however many products are made. In exact arithmetic, after any history of stores and restarts: the inverse operator is a valid (symmetric positive definite) preconditioner for MINRES and LSQR, which then minimize the residual in its norm; CG given the compact operator, or the forward operator without scaling, returns in at most n products what one product of the inverse operator gives; storing the steps between the iterates of a CG solve, with their images under A, in a new inverse operator that accepts and holds them all makes a product of this operator with A x return the x of CG, and with b the solution of Ax = b.",
  "all histories of stores, restarts and products, all memory sizes, all systems", "all histories, dimensions and iterations", "pykrylov/linop/lbfgs.py: InverseLBFGSOperator", "pykrylov/linop/lbfgs.py: LBFGSOperator", "pykrylov/linop/lbfgs.py: CompactLBFGSOperator", "pykrylov/cg/cg.py: CG.solve", "pykrylov/minres/minres.py: Minres.solve", "pykrylov/lls/lsqr.py: LSQRFramework.solve")
p("C68", "Block operators and block preconditioners serve the solvers",
  "Built from operators of any client program: LSQR on BlockLinearOperator([[A], [D]]) with D = d I and right-hand side (b, 0) returns what LSQR on A with damp = d returns, the minimizer of ||b - Ax||^2 + d^2 ||x||^2. BlockLinearOperator([[A, B], [E]], symmetric=True) with A and C = -E positive definite is the operator of the system A u + B v = f, B'u - C v = g: LSQR returns its solution, and MINRES converges within as many iterations as unknowns (or stops with code -1), with an error of at most the reported residual norm divided by the smallest eigenvalue of A and C. CG on BlockDiagonalLinearOperator(blocks) with positive definite blocks solves the system of each block with its part of the right-hand side. BlockDiagonalPreconditioner(blocks) with such blocks is a positive definite preconditioner for MINRES, which minimizes the residual in its norm. In exact arithmetic.",
  "all programs that build the blocks, all numbers and sizes of blocks, all right-hand sides, all options", "all programs, block structures and systems", "pykrylov/linop/blkop.py: BlockLinearOperator", "pykrylov/linop/blkop.py: BlockDiagonalLinearOperator", "pykrylov/linop/blkop.py: BlockDiagonalPreconditioner", "pykrylov/lls/lsqr.py: LSQRFramework.solve", "pykrylov/minres/minres.py: Minres.solve", "pykrylov/cg/cg.py: CG.solve")
p("C69", "A used solver object serves like a new one",
  "Call solve on a solver object that has been used before - any number of earlier calls with any right-hand sides and options, some of which may have been cut short by an exception - and on a new object of the same class with the same operator. If the call returns, the attributes of both objects are the same afterwards: solution, convergence flag, status, counts, norms, and the stored iterates, residuals and direct errors contain this call and nothing of the earlier ones. (For CG see C30.)",
  "all solver classes (CGS, Bi-CGSTAB, TFQMR, MINRES, SYMMLQ, LSQR, LSMR, CRAIG, CRAIG-MR), all operators, all histories of an object, all calls; any arithmetic", "a history of calls has no bound, and an exception can end a call anywhere", "pykrylov/generic/generic.py: KrylovMethod.__init__", "pykrylov/cgs/cgs.py: CGS.solve", "pykrylov/bicgstab/bicgstab.py: BiCGSTAB.solve", "pykrylov/tfqmr/tfqmr.py: TFQMR.solve", "pykrylov/minres/minres.py: Minres.solve", "pykrylov/symmlq/symmlq.py: Symmlq.solve", "pykrylov/lls/lsqr.py: LSQRFramework.solve", "pykrylov/lls/lsmr.py: LSMRFramework.solve", "pykrylov/lls/craig.py: CRAIGFramework.solve", "pykrylov/lls/craigmr.py: CRAIGMRFramework.solve")
p("C70", "The caller's arrays are intact at every moment of a call",
  "Interrupt a call of solve anywhere - the operator or the preconditioner raises, the user presses Ctrl-C, another thread looks - and the right-hand side, the guess, the arrays stored by earlier calls and every other array that existed before the call have the contents they had before it. A solver never uses an array of the caller as work space, not even temporarily.",
  "all ten solver classes, all operators and preconditioners (which may return new arrays or their arguments), all aliasing between arrays, all options, every statement of the run after which it can be cut short; any arithmetic", "a crash can come at any of unboundedly many statements, for every aliasing", "pykrylov/cg/cg.py: CG.solve", "pykrylov/cgs/cgs.py: CGS.solve", "pykrylov/bicgstab/bicgstab.py: BiCGSTAB.solve", "pykrylov/tfqmr/tfqmr.py: TFQMR.solve", "pykrylov/minres/minres.py: Minres.solve", "pykrylov/symmlq/symmlq.py: Symmlq.solve", "pykrylov/lls/lsqr.py: LSQRFramework.solve", "pykrylov/lls/lsmr.py: LSMRFramework.solve", "pykrylov/lls/craig.py: CRAIGFramework.solve", "pykrylov/lls/craigmr.py: CRAIGMRFramework.solve")
p("C71", "Few distinct eigenvalues, few iterations",
  "If the first residual lies in a subspace of dimension d that the (preconditioned) operator maps to itself - because the operator has d distinct eigenvalues, or is a multiple of the identity plus a matrix of rank d - 1, or the residual is a sum of d eigenvectors - then, in exact arithmetic, CG and MINRES converge within d iterations, CGS, Bi-CGSTAB and TFQMR within 2d products, SYMMLQ within d + 1 products, and, with the normal equations in place of the operator (for instance A of rank d), LSQR within max(d, 2) and LSMR within d iterations; CRAIG and CRAIG-MR have the solution if d or d + 1 iterations are allowed. In particular a preconditioner that is the inverse of the operator makes one iteration enough.",
  "all operators, preconditioners, right-hand sides, guesses, tolerances, dimensions n and d; budgets that allow the stated numbers", "all systems of all sizes", "pykrylov/cg/cg.py: CG.solve", "pykrylov/cgs/cgs.py: CGS.solve", "pykrylov/bicgstab/bicgstab.py: BiCGSTAB.solve", "pykrylov/tfqmr/tfqmr.py: TFQMR.solve", "pykrylov/minres/minres.py: Minres.solve", "pykrylov/symmlq/symmlq.py: Symmlq.solve", "pykrylov/lls/lsqr.py: LSQRFramework.solve", "pykrylov/lls/lsmr.py: LSMRFramework.solve", "pykrylov/lls/craig.py: CRAIGFramework.solve", "pykrylov/lls/craigmr.py: CRAIGMRFramework.solve")
p("C72", "Convergence rates by condition number",
  "In exact arithmetic the error of the short-recurrence solvers decreases at the rate the condition number dictates, whatever the dimension. With rho = (sqrt(kappa) - 1) / (sqrt(kappa) + 1): on a symmetric positive definite system, the k-th iterate of CG is the best that k products can give in the energy norm, its energy error is at most 2 rho^k times that of the guess, and CG converges within (sqrt(kappa) + 1)/2 log(2 sqrt(kappa)/reltol) iterations; the residual of MINRES is at most 2 rho^k |b| (or 2 ((kappa - 1)/(kappa + 1))^(k/2) |b| on an indefinite system); for LSQR, with kappa the condition number of A'A + damp^2 I, the excess of the objective over its minimum is at most (2 rho^k)^2 times its first value; for LSMR the residual of the normal equations is at most 2 rho^k |A'b|; for CRAIG and CRAIG-MR the same holds with kappa = 1 + |A|^2. With symmetric positive definite preconditioners, MINRES, LSQR, LSMR, CRAIG and CRAIG-MR have these rates for the condition number of the preconditioned operator, in the norms that the preconditioners define. In particular CG on the 2D Poisson operator with n^2 unknowns needs at most (n + 1) log(3(n + 1)/reltol) products.",
  "all operators, right-hand sides, guesses, tolerances, dimensions and iteration numbers", "all systems of all sizes", "pykrylov/cg/cg.py: CG.solve", "pykrylov/minres/minres.py: Minres.solve", "pykrylov/lls/lsqr.py: LSQRFramework.solve", "pykrylov/lls/lsmr.py: LSMRFramework.solve", "pykrylov/lls/craig.py: CRAIGFramework.solve", "pykrylov/lls/craigmr.py: CRAIGMRFramework.solve", "pykrylov/gallery/gallery.py: Poisson1dMatvec, Poisson2dMatvec")
p("C73", "The dtypes of operator, preconditioner and right-hand side do not change the answer",
  "Operators, preconditioners, right-hand sides and guesses may hold integers, real or complex numbers. Whatever the combination, CG, CGS, Bi-CGSTAB, TFQMR, MINRES, LSQR, LSMR, CRAIG and CRAIG-MR raise nothing because of it and return what they return when all data are first converted to the common type, in an array of that type.",
  "all combinations of dtype classes of operator, preconditioner, right-hand side and guess; all operators, options and numbers of iterations; any arithmetic", "the combination of types decides which statement of which iteration fails", "pykrylov/cg/cg.py: CG.solve", "pykrylov/cgs/cgs.py: CGS.solve", "pykrylov/bicgstab/bicgstab.py: BiCGSTAB.solve", "pykrylov/tfqmr/tfqmr.py: TFQMR.solve", "pykrylov/minres/minres.py: Minres.solve", "pykrylov/lls/lsqr.py: LSQRFramework.solve", "pykrylov/lls/lsmr.py: LSMRFramework.solve", "pykrylov/lls/craig.py: CRAIGFramework.solve", "pykrylov/lls/craigmr.py: CRAIGMRFramework.solve", "pykrylov/linop/linop.py: LinearOperator.dtype")
p("C74", "Operators can be shared by threads",
  "Any number of threads multiply with the same operators at the same time. Under every schedule each thread gets the results it gets when it runs alone - with operators of a client program, the products with their matrices - and stops if it gets its turn often enough; the counter of an operator shows the number of products made with it in all threads. The same holds for threads that multiply with the same L-BFGS operator.",
  "all operators of all client programs, all programs of any number of threads (products and counter resets in an order that depends on the results), all schedules of the accesses to shared memory; for L-BFGS all histories, in any arithmetic", "schedules: a test sees a few of unboundedly many interleavings", "pykrylov/linop/linop.py: LinearOperator._matvec, nMatvec, reset_counters", "pykrylov/linop/lbfgs.py: InverseLBFGSOperator.lbfgs_matvec", "pykrylov/linop/lbfgs.py: LBFGSOperator.lbfgs_matvec", "pykrylov/linop/lbfgs.py: CompactLBFGSOperator.lbfgs_matvec")
p("C75", "Complex systems",
  "On complex systems CG, CGS, Bi-CGSTAB and TFQMR keep their promise: if converged is set, the Euclidean norm of b - Ax is at most max(abstol, reltol times that of the first residual). CG solves every complex symmetric (check_curvature=False) system within as many iterations as unknowns, unless it divides by zero, and every right-hand side that is a complex multiple of b as it solves b. A real system stored in complex arrays gives the results of the real system.",
  "all complex operators, right-hand sides, guesses, preconditioners, tolerances and budgets", "all complex systems of all sizes", "pykrylov/cg/cg.py: CG.solve", "pykrylov/cgs/cgs.py: CGS.solve", "pykrylov/bicgstab/bicgstab.py: BiCGSTAB.solve", "pykrylov/tfqmr/tfqmr.py: TFQMR.solve")
p("C76", "Units and coordinates do not matter",
  "In exact arithmetic, a system or least-squares problem written in other units of the unknowns and of the right-hand side, and in other "
  "orthonormal coordinates, with its absolute tolerance, damping and guess converted, is solved in the same number of products, stops for "
  "the same reason or raises the same exception, and yields the same solution, norms, histories and iterates, converted. A multiple of "
  "the preconditioner is as good as the preconditioner.",
  "every operator, right-hand side, guess, preconditioner, tolerance, limit, positive unit of the unknowns, of the right-hand side and of the preconditioner, and every isometry between inner product spaces, of the same or another dimension",
  "A test compares two runs of one system in two units; initial values such as rho = 1 or rhobar = 1, comparisons with 1 or with an absolute constant and mixed units show up only for particular scales.",
  "pykrylov/cgs/cgs.py:CGS.solve", "pykrylov/bicgstab/bicgstab.py:BiCGSTAB.solve", "pykrylov/tfqmr/tfqmr.py:TFQMR.solve", "pykrylov/cg/cg.py:CG.solve", "pykrylov/lls/lsqr.py:LSQRFramework.solve", "pykrylov/lls/lsmr.py:LSMRFramework.solve", "pykrylov/lls/craig.py:CRAIGFramework.solve", "pykrylov/lls/craigmr.py:CRAIGMRFramework.solve", "pykrylov/symmlq/symmlq.py:Symmlq.solve", "pykrylov/minres/minres.py:Minres.solve")

p("C77", "A guess is a change of origin",
  "In exact arithmetic, solving A x = b from a guess g gives g plus the result of solving A d = b - A g without a guess: the same residual "
  "norms, histories, verdicts and products, the same exception if any, the stored iterates shifted by g. CG and Bi-CGSTAB count the product "
  "with the guess and charge it to the limit, CGS and TFQMR do neither.",
  "every operator (any function), preconditioner, right-hand side, guess, tolerances, limit and combination of keywords, including breakdowns",
  "A test compares final solutions for one guess; that every intermediate quantity and the point of stopping agree for all guesses follows only from the structure of the recurrences.",
  "pykrylov/cg/cg.py:CG.solve", "pykrylov/cgs/cgs.py:CGS.solve", "pykrylov/bicgstab/bicgstab.py:BiCGSTAB.solve", "pykrylov/tfqmr/tfqmr.py:TFQMR.solve")

p("C78", "show prints, and does nothing else",
  "solve(..., show=False) writes nothing to standard output. solve(..., show=True) returns the results, or raises the exception, of the same "
  "call with show=False, and if it returns, the message that it writes last is the one for the stop code that it returns, and, for up to 40 unknowns, its log "
  "has one row for every iteration, in order.",
  "every operator, preconditioner, right-hand side and combination of options of LSQR, LSMR, CRAIG, CRAIG-MR and MINRES, including operators without columns, stops of every kind and exceptions",
  "Tests run with show=False and do not capture the output; the code for printing reads entries of arrays, divides and takes roots at every exit of the loops.",
  "pykrylov/lls/lsqr.py:LSQRFramework.solve", "pykrylov/lls/lsmr.py:LSMRFramework.solve", "pykrylov/lls/craig.py:CRAIGFramework.solve", "pykrylov/lls/craigmr.py:CRAIGMRFramework.solve", "pykrylov/minres/minres.py:Minres.solve")

p("C79", "An interrupted solve leaves the earlier results, or all of the new ones",
  "If an exception ends solve at any moment (raised by the operator, by a preconditioner or by a signal), the solver object keeps the results of "
  "the earlier solve (x, bestSolution, converged, the norms, the counts) until the last iteration has ended; the lists that solve fills (residHistory, "
  "iterates, resids, ...) are an initial part of the lists of the complete call, in step with each other; and an attribute that has changed has the "
  "value that the complete call gives it, and then all lists are complete.",
  "every operator, preconditioner, right-hand side and combination of options of CG, CGS, Bi-CGSTAB, TFQMR, MINRES, SYMMLQ, LSQR, LSMR, CRAIG and CRAIG-MR, every state of the object, every moment of the interrupt between two statements of solve",
  "A test interrupts at one or two chosen products; the moment is arbitrary, also between two assignments at the end.",
  "pykrylov/cg/cg.py:CG.solve", "pykrylov/cgs/cgs.py:CGS.solve", "pykrylov/bicgstab/bicgstab.py:BiCGSTAB.solve", "pykrylov/tfqmr/tfqmr.py:TFQMR.solve", "pykrylov/minres/minres.py:Minres.solve", "pykrylov/lls/lsqr.py:LSQRFramework.solve", "pykrylov/lls/lsmr.py:LSMRFramework.solve", "pykrylov/lls/craig.py:CRAIGFramework.solve", "pykrylov/lls/craigmr.py:CRAIGMRFramework.solve", "pykrylov/symmlq/symmlq.py:Symmlq.solve")

p("C80", "Singular and rank-deficient systems get the nearest solution",
  "In exact arithmetic, on a consistent system with a symmetric positive semidefinite operator that may be singular, CG, CGS, Bi-CGSTAB and TFQMR without "
  "preconditioner converge within as many products as the rank (twice the rank for the last three), CG reports no indefiniteness, and the solution is "
  "the guess plus a vector in the range: with tolerances zero, the solution nearest to the guess (of smallest norm without a guess). MINRES, unless it "
  "stops with istop = -1, and SYMMLQ on a consistent system with a symmetric (for SYMMLQ: semidefinite) operator stop within the rank and return a vector in the "
  "range. LSQR, and LSMR on inconsistent systems, without damping, stop within the rank and return a vector in the range of the transpose: with "
  "tolerances zero, the least-squares solution of smallest norm.",
  "every operator of any rank on a space of any finite dimension, every right-hand side (in the range for the square solvers), guess, tolerance, limit that is at least the bound, and combination of options",
  "Tests use nonsingular matrices, mostly random; singular operators and the choice among infinitely many solutions never occur.",
  "pykrylov/cg/cg.py:CG.solve", "pykrylov/cgs/cgs.py:CGS.solve", "pykrylov/bicgstab/bicgstab.py:BiCGSTAB.solve", "pykrylov/tfqmr/tfqmr.py:TFQMR.solve", "pykrylov/minres/minres.py:Minres.solve", "pykrylov/symmlq/symmlq.py:Symmlq.solve", "pykrylov/lls/lsqr.py:LSQRFramework.solve", "pykrylov/lls/lsmr.py:LSMRFramework.solve")

p("C81", "CG finds a solution or a direction along which the objective falls without bound",
  "In exact arithmetic, on a symmetric operator of any inertia, without preconditioner and with check_curvature=True, CG.solve ends within as many products "
  "as the order (and one for the guess), either with converged and definite true and a residual within the threshold, or with both false and a vector "
  "infiniteDescent along which x'Ax/2 - b'x, starting from the returned x, decreases below every bound. Along the iterates this objective strictly decreases and "
  "the distance from the guess strictly increases. On a semidefinite operator with tolerances zero, definite tells whether the system has a solution; "
  "if not, infiniteDescent is a certificate p with Ap = 0 and p'b > 0.",
  "every symmetric operator of any finite order, right-hand side, guess, tolerances with abstol at least 0, state of the object, and limit that allows that many products",
  "Tests use positive definite matrices; the truncated Newton methods that this package was made for meet every kind of operator.",
  "pykrylov/cg/cg.py:CG.solve")

p("C82", "The checks and the random numbers of the caller",
  "check_symmetric and check_positive_definite draw their vectors from NumPy's global generator, which the caller shares. The verdict of check_symmetric is "
  "the same in every run and does not depend on the state of the generator. Neither check repeats or skips numbers of the caller's stream other than those it uses: "
  "afterwards the generator is where it was before, up to the vectors drawn. check_symmetric does two products per vector, check_positive_definite one, and both "
  "stop at the first vector that fails; operators that are not square are rejected without a product and without drawing.",
  "every generator, state of the generator, operator of any shape, number of repetitions, and every program that calls the checks in between its own draws",
  "A test runs the check with the generator in one state; that a library call replaces the seed chosen by the caller shows only in what the caller does later.",
  "pykrylov/tools/utils.py:check_symmetric", "pykrylov/tools/utils.py:check_positive_definite")

p("C83", "The checks find operators that are not symmetric or not definite",
  "For every real operator that differs from its transpose by more than the tolerance, some vector that can be drawn makes check_symmetric return False, and such vectors "
  "have positive volume, so that repeated calls find the asymmetry in the end. With tolerance zero, only symmetric operators pass for all vectors. For every real operator that is not "
  "positive definite (semidefinite), some vector that can be drawn makes check_positive_definite return False.",
  "every real operator of every order, every random generator, tolerance and number of repetitions",
  "A test tries a few operators that are far from symmetric or have a negative diagonal entry; which operators escape the check is a statement about all vectors.",
  "pykrylov/tools/utils.py:check_symmetric", "pykrylov/tools/utils.py:check_positive_definite")

p("C84", "The iteration log shows the run",
  "CG, CGS, Bi-CGSTAB and TFQMR called with a logger behave exactly as without one, and the log shows the run: the residual norm of the starting point, then one line per iteration with the number of products so far and the residual norm at that point (for CG also the curvature), in order; the last line shows the nMatvec and residNorm the solver reports. CG logs an error exactly if it rejects the operator as not symmetric or leaves definite false.",
  "Any operator, preconditioner, right-hand side, keywords, tolerances and arithmetic; any number of iterations.",
  "A test reads the log of a few runs; which iterations are logged depends on where the loop is left, and the runs that matter (leaving in the middle of an iteration, stopping at the budget, indefinite operators) depend on the data.",
  "pykrylov/cg/cg.py: CG.solve", "pykrylov/cgs/cgs.py: CGS.solve", "pykrylov/bicgstab/bicgstab.py: BiCGSTAB.solve", "pykrylov/tfqmr/tfqmr.py: TFQMR.solve", "pykrylov/generic/generic.py: KrylovMethod.__init__")
p("C85", "Zero eigenvalues do not slow convergence down",
  "On singular and rank-deficient systems the eigenvalues (singular values) that are zero do not count for the rates of C72. In exact arithmetic, with rho = (sqrt(kappa) - 1) / (sqrt(kappa) + 1), where kappa is the quotient of the largest and the smallest eigenvalue other than zero: on a symmetric positive semidefinite system with the right-hand side in the range, CG without preconditioner converges within (sqrt(kappa) + 1)/2 log(2 sqrt(kappa)/reltol) iterations for every guess; unless it breaks down with istop = -1, the residual history of MINRES, for eigenvalues not below the machine precision, is at most 2 rho^k |b| (2 ((kappa - 1)/(kappa + 1))^(k/2) |b| on an indefinite system); for LSQR on a least-squares problem of any rank the excess of the objective is at most (2 rho^k)^2 times its first value, and the iterates approach the solution of smallest norm at this rate; for LSMR the residual of the normal equations is at most 2 rho^k |A'b|.",
  "all operators, ranks, right-hand sides, guesses, tolerances, dimensions and iteration numbers", "all systems of all sizes and ranks",
  "pykrylov/cg/cg.py: CG.solve", "pykrylov/minres/minres.py: Minres.solve", "pykrylov/lls/lsqr.py: LSQRFramework.solve", "pykrylov/lls/lsmr.py: LSMRFramework.solve")

p("C86", "MINRES solves the least-squares problem when there is no solution",
  "For a symmetric operator A and a shift that is an eigenvalue of A, or a singular A, MINRES solves min |b - (A - shift I) x| when the system has no solution, as its documentation says: it converges within as many iterations as the dimension, the result is the best in the Krylov space of the products made, and a least-squares solution once that space is exhausted; rnorm is the norm of its residual, and istop does not say that the system is solved.",
  "all symmetric operators, shifts, inconsistent right-hand sides (not in the kernel), options, dimensions, iteration numbers, and machine precisions that are small for the system",
  "all inconsistent systems of all sizes; on a given one, what happens when the Krylov space is exhausted hides behind rounding errors",
  "pykrylov/minres/minres.py: Minres.solve")

p("C87", "Every iteration brings the iterate nearer to the solution",
  "A solve that is stopped early by its budget or its tolerance has made progress with every product. On a symmetric positive definite system, each iterate of CG and of MINRES is strictly nearer to the solution than the one before, "
  "in the norm of the space and in the energy norm, and strictly farther from the starting point; the residual norm of MINRES decreases strictly as well. For LSQR and LSMR, on systems of every shape and rank, each iterate is "
  "strictly nearer to the solution of the (damped) least-squares problem, that of smallest norm if there is no damping, its norm is larger and its objective |b - Ax|^2 + damp^2 |x|^2 is smaller. "
  "The same holds for the iterates of CRAIG and CRAIG-MR on (AA' + I) x = b. So nothing is lost by a larger budget, and the norm of the solution is never exceeded. Exact arithmetic.",
  "all symmetric positive definite operators, all rectangular operators of every rank, right-hand sides, guesses, damping parameters, tolerances, budgets and iteration numbers",
  "a test checks the distance to a known solution in a few runs; monotonicity is a statement about all systems and all pairs of consecutive iterates, and only the minimized quantity is monotone by construction",
  "pykrylov/cg/cg.py: CG.solve", "pykrylov/minres/minres.py: Minres.solve", "pykrylov/lls/lsqr.py: LSQRFramework.solve", "pykrylov/lls/lsmr.py: LSMRFramework.solve", "pykrylov/lls/craig.py: CRAIGFramework.solve", "pykrylov/lls/craigmr.py: CRAIGMRFramework.solve")

p("C88", "Operators of integers of limited width compute the true product modulo 2^b",
  "Build an operator from integer arrays of NumPy dtypes (int8 to int64, uint8 to uint64) by products, sums, differences, scalar multiples, transposes, and multiply it with a vector of integers. "
  "NumPy integers wrap around silently, but whatever overflows on the way, every entry of the result is the entry of the true product modulo 2^b, where b is the number of bits of the vector. "
  "If the vector's dtype is not narrower than the operator's, entries that fit are exact, and the laws of matrix algebra hold. to_array returns the matrix in the dtype of the operator, exactly if the entries fit. "
  "The dtype of a compound operator is np.result_type of the parts, it does not depend on their order, and the product has the dtype np.result_type of operator and vector; its values are those of that dtype.",
  "all expressions over integer arrays of all shapes and dtypes, all vectors of all integer dtypes, all entries",
  "overflow needs particular entries in particular dtypes; modular exactness is an invariant of all expressions, and the dtype rules involve all pairs of dtypes at every node",
  "pykrylov/tools/types.py", "pykrylov/linop/linop.py: LinearOperator.__mul__, __mul_scalar, __mul_linop, __mul_vector, __add__, __sub__, to_array", "pykrylov/linop/linop.py: linop_from_ndarray")
p("C89", "The attributes that all solvers share tell the outcome of the last call",
  "Every solver object has the attributes converged, bestSolution, x, residNorm, residNorm0, residHistory, nMatvec and nIter of the base class. Before the first call they say that nothing has been computed; after a call that returns "
  "they describe that call: converged tells whether it was successful, bestSolution and x are the solution, nIter the number of iterations, nMatvec the number of products and residNorm the final residual norm.",
  "all solver classes but CG (see C30), all operators, all histories of an object, including calls cut short by exceptions; any arithmetic",
  "a test looks at single attributes after single calls; that an attribute is never set is a statement about all histories",
  "pykrylov/generic/generic.py: KrylovMethod.__init__", "pykrylov/symmlq/symmlq.py: Symmlq.solve", "pykrylov/lls/lsqr.py: LSQRFramework.solve", "pykrylov/lls/lsmr.py: LSMRFramework.solve", "pykrylov/lls/craig.py: CRAIGFramework.solve", "pykrylov/lls/craigmr.py: CRAIGMRFramework.solve")

p("C90", "The reported residual norm is that of the solution, up to rounding errors that are bounded",
  "In floating-point arithmetic the solvers update the residual by a recurrence instead of computing b - A x. If a solve returns finite numbers, then nothing overflowed on the way, and the residNorm it reports "
  "differs from the norm of b - A x, computed without errors from the returned x, by at most a multiple of the unit roundoff u: for a dense array of n rows and k products, at most "
  "u (4 (n+2) residNorm + 2 (k+1) ((8n+20) |A| theta + |b|)) and an underflow term, where |A| is the Frobenius norm and theta the largest norm of an iterate. It does not depend on how ill-conditioned the system is, on the step lengths or on the preconditioner. "
  "For Bi-CGSTAB, whose two corrections per iteration may cancel, the bound contains the condition number and the largest residual norm in place of theta. "
  "If the solve reports convergence, residNorm is at most the threshold. For other operators the same holds with their relative error in place of that of the array.",
  "all operators with a bounded relative error of products, right-hand sides, guesses, preconditioners, tolerances, budgets, dimensions, numbers of products and floating-point formats",
  "rounding errors depend on all bits of all data; the worst case over all systems and all run lengths is not among the cases of a test",
  "pykrylov/cg/cg.py: CG.solve", "pykrylov/cgs/cgs.py: CGS.solve", "pykrylov/bicgstab/bicgstab.py: BiCGSTAB.solve", "pykrylov/linop/linop.py: linop_from_ndarray")

p("C91", "Products with compound operators are accurate to the number of roundings",
  "Build an operator of floating-point dtype from arrays, diagonal, identity and zero operators by scalar multiples, products, sums, differences, transposes and blocks. Every finite entry of A * x is the entry of the true product "
  "up to ((1+u)^r - 1) (|A| |x|)_i, where u is the unit roundoff, |A| is the same expression built from absolute values, and r the number of roundings an entry passes through (n + 1 for an array of n columns, one for each scalar multiple, "
  "sum and block in a row; the numbers of factors add up), and an underflow term. So entries without cancellation have a small relative error; different expressions for the same matrix give the same products up to this error; "
  "(A x)'y and x'(A.T y) agree up to it; to_array returns the matrix up to it; the entries are finite if the vector is and no product with a part of the operator can exceed the range of the format; and the solvers meet the condition of C90 with such operators.",
  "all expressions, shapes, entries, vectors and floating-point formats with real dtypes; results that are not finite excepted",
  "all expressions of all depths and all bit patterns; a test compares with a tolerance in single cases",
  "pykrylov/linop/linop.py: LinearOperator.__mul__, __mul_scalar, __mul_linop, __mul_vector, __add__, __sub__, to_array, DiagonalOperator, IdentityOperator, ZeroOperator, linop_from_ndarray", "pykrylov/linop/blkop.py: BlockLinearOperator, BlockDiagonalLinearOperator")

p("C92", "The symmetry and definiteness checks tolerate rounding errors, except for small products",
  "In floating-point arithmetic, let the products with an operator A have the relative error c and let N bound the norm of A. check_symmetric(A) returns True for symmetric A, unless w = A x is so small for a random x that the rounding errors, "
  "relative to |x| |w| (c + N dim u), exceed its tolerance eps^(1/3) (|w|^2 + eps). It returns False if (A x)'(A x) and x'(A A x) differ by more than about twice the tolerance for one of the vectors. "
  "check_positive_definite(A) returns True if v'A v exceeds the rounding errors (c + N dim u) |v|^2 for every v that is drawn, and False if it is negative by more than that for one of them.",
  "all operators, sizes, random vectors and floating-point formats with real dtypes; overflow excepted",
  "tests try a few matrices and one seed; whether rounding can make the check fail depends on all of them",
  "pykrylov/tools/utils.py: check_symmetric, check_positive_definite")

p("C93", "The Poisson operators of the gallery are accurate in floating-point arithmetic",
  "Poisson1dMatvec(x) and Poisson2dMatvec(x) on a floating-point array return every finite entry of the true product up to three roundings (1D) or five roundings (2D) of the sum of the absolute values of its terms, and underflow: "
  "|y_i - (A x)_i| <= ((1+u)^3 - 1) (|A| |x|)_i + underflow, with exponent 5 in 2D. The entries are finite if x is and these sums do not exceed the range of the format. On float64 arrays of integers up to 2^49 the products are exact. "
  "So the residual norm that CG reports for a Poisson problem is that of the returned solution, up to the bound of C90 with the norms 4 (1D) and 8 (2D).",
  "all sizes, arrays and floating-point formats; for CG all right-hand sides, guesses, options without preconditioner and numbers of products k with 8 (n + k + 2) u <= 1",
  "all bit patterns of all arrays of all sizes; tests compare with a tolerance for a few vectors",
  "pykrylov/gallery/gallery.py: Poisson1dMatvec, Poisson2dMatvec", "pykrylov/cg/cg.py: CG.solve")

p("C94", "roots_quadratic solves quadratic equations in floating-point arithmetic",
  "Every finite number r that roots_quadratic(q2, q1, q0, tol, nitref) returns in floating-point arithmetic solves the equation up to a small multiple of the unit roundoff u and up to tol: "
  "|q2 r^2 + q1 r + q0| <= (tol + 8u) (|q2| r^2 + |q1| |r| + |q0|), unless r is a zero that stands for a root that is small relative to the other one. It returns nothing only if there is no solution or the discriminant "
  "is negative up to rounding, and it neither divides by zero nor takes the square root of a negative number. "
  "FALSE with the default nitref=1 for nearly double roots (the Newton step moves one root of 3x^2 - 25x + 52.0833... by 2), and with coefficients so small that their products underflow; proved without underflow for nitref=0, and for nitref >= 1 (with 9u, and for the small root too) if the roots are not nearly equal: "
  "q1^2 - 4 q0 q2 >= 20000 u (q1^2 + 4 |q0 q2|).",
  "all coefficients, tolerances >= 0, all floating-point formats with u <= 1/100, and all runs in which nothing underflows or overflows",
  "all triples of floating-point numbers; the failures lie on thin sets near double roots and near underflow that examples miss",
  "pykrylov/tools/utils.py: roots_quadratic")

p("C95", "A solve that reports convergence returns a vector near the solution, in floating-point arithmetic",
  "If a solve of A x = b in floating-point arithmetic returns finite numbers, the returned x differs from the exact solution by at most K (residNorm + rounding errors), where K bounds the norm of the inverse of A; "
  "if it reports convergence, by at most K (max(abstol, reltol residNorm0) + rounding errors). The rounding errors are those of C90: a multiple of the unit roundoff that depends on the size, the number of products and the largest iterate only. "
  "For the Poisson operators of the gallery, K can be taken as n (n+1) / 2 in 1D and n (n+1) / 4 on an n by n grid.",
  "all right-hand sides, guesses, tolerances, budgets, dimensions, numbers of products and floating-point formats; CG (no preconditioner), CGS, Bi-CGSTAB (not stopped in mid-iteration)",
  "the exact solution is not available to a test, and rounding errors depend on all bits of the data",
  "pykrylov/cg/cg.py: CG.solve", "pykrylov/cgs/cgs.py: CGS.solve", "pykrylov/bicgstab/bicgstab.py: BiCGSTAB.solve", "pykrylov/gallery/gallery.py: Poisson1dMatvec, Poisson2dMatvec")

p("C96", "The log of SYMMLQ shows the run and says why it ended",
  "Symmlq called with a logger returns or raises what it does without one. If it raises, the log gives no reason for the end of the iterations. If it returns, the log shows the starting point and then, for up to 40 unknowns, one row for every iteration, in order (for more unknowns some of these rows, in order), "
  "and ends with the number of iterations, the anorm, acond, residNorm and xNorm that it reports, and a message that says truly what ended the iterations; in particular it says that the iteration limit was reached exactly if the limit ended them.",
  "every operator, preconditioner, right-hand side, keyword, object with or without the attribute matvec, number of iterations and arithmetic",
  "There are no tests of SYMMLQ; a test would read the log of a few runs, and the message depends on which of the tests in the loop was met last.",
  "pykrylov/symmlq/symmlq.py: Symmlq.solve", "pykrylov/generic/generic.py: KrylovMethod.__init__")

with open(os.path.join(os.path.dirname(__file__), "..", "properties.jsonl"), "w") as f:
    for r in P: f.write(json.dumps(r) + "\n")
print(len(P))
