# Formal model of pykrylov in Lean 4 — design

The source under study is /repo (Python 2, NumPy).  Everything below is about the Lean model in
`lean/Verif`; each definition there cites the file and lines it models.

## Trusted base

* Lean 4.33.0's kernel, and Mathlib (only for mathematics: rings, matrices, reals, inner product spaces).
* Axioms: at most `propext`, `Classical.choice`, `Quot.sound` (checked by `#print axioms`; table at the end).
  No axioms of our own, no `sorry`, no `native_decide`, no `bv_decide`.
* The reading of the Python code.  The code is never run; faithfulness is by inspection only.
* NumPy / Python runtime behaviour that the code calls is modelled by small definitions (listed per module):
  `astype` copies, `reshape(n)` accepts exactly arrays of `n` entries, basic/fancy indexing, slices,
  Python-2 `map(f, *rows)` padding, Python-2 integer division, unbound local variables raising, ...

## Arithmetic

* `linop`, `blkop`: exact arithmetic over an arbitrary commutative star ring `K` (e.g. ℂ, ℤ[i], ℚ), with dtype classes
  int < real < complex and a cast function that is the identity on values of the class.
* solvers: the model is written once over an abstract, *lawless* BLAS interface (scalars `S`, vectors `V`,
  operations and Boolean comparisons).  Control-flow theorems (budgets, counters, status codes, history lengths,
  exceptions) are proved for every such interface, hence also for IEEE floating point with rounding and NaN.
  Numerical theorems are proved for the exact instance: scalars ℝ extended with one absorbing non-finite value
  (division by zero, square root of a negative number), vectors in any real inner product space extended likewise;
  comparisons with the non-finite value are false.  So "converged" theorems do not assume absence of breakdown,
  they derive it.  (IEEE distinguishes ±inf from NaN; the exact instance does not.)
* rounding (C90): the standard model of floating-point arithmetic, as laws of the interface (`Solver/Rounding`), and its instance for
  arrays of numbers in any floating-point format with sums from left to right (`Solver/FloatFormat`; `float64` is IEEE 754 with rounding to
  nearest, ties to even, gradual underflow, and one non-finite value).  BLAS may add in another order: the laws hold, the constants may differ.

## Property by property

| id | what is modelled | how it is proved |
|----|------------------|------------------|
| C01 C02 C04 C05 C07 | object heap: every `LinearOperator` object with shape, flags, dtype, `.T`/`.H` pointers, counter and the *code* of its matvec closure (which names other objects and dereferences their `.T`/`.H` at call time); constructor `__init__` branch by branch; evaluator with recursion limit; every API call as a command | heap invariant "object r denotes matrix D r, T pointer denotes the transpose, H pointer the adjoint" preserved by every command; refinement of arbitrary command sequences to a list of plain matrices |
| C03 | same constructor | case analysis over all flag combinations; the one-sided complex case violates the double-transpose claim: negation proved with a witness, plus the true part |
| C06 C09 C10 | evaluator threads the counters; `Blkop/Counts`: the closures of block operators again, with the products of the blocks counted | cost function by induction; powers by induction on k; the counting closures return what those of `Blkop/Model` return (`Outcome`), increments added up along the loops (`AddsAt`); `Linop/SessionCounts`: each statement of a session of C65 is an event (`Stmt.event`) with a stated effect on the counters (`Counted`) |
| C08 | scalar multiplication, `__div__` with Python-2 semantics | corollaries; classic division by an int is a counterexample |
| C11 C15 | constructor commands | corollaries of the refinement |
| C12 C13 | gather/scatter with NumPy index semantics; accumulation loop | algebra of sums; duplicates in `cols` and inferred sizes are counterexamples |
| C14 | a tiny store model of the caller's array | theorem for unmodified arrays, counterexample for a modified one |
| C16–C20 | lists of lists of block references, caller's lists as mutable cells | list inductions; negations for the cases where the code is wrong |
| C21–C24 | ring buffer state machine, two-loop recursion, outer-product form, compact form over any real inner product space | refinement to "last npairs accepted pairs"; induction on pairs |
| C25 | argument binding of the `super().__init__` call | always raises: negation |
| C26–C33 | solver loops as fuelled while-loops over the abstract BLAS | loop invariants; exact-instance invariants r = b - A x; conjugacy induction for finite termination |
| C34–C42 | same, for MINRES, SYMMLQ, LSQR, LSMR, CRAIG, CRAIG-MR | loop invariants; orthogonality of the Lanczos / Golub-Kahan processes for the residual identities; preconditioned MINRES: `Solver/MinresPrecon` shows it is the unpreconditioned program run in the inner product of the preconditioner (`Solver/Warp`), with the same statements in that norm |
| C43–C47 | straight transcription | algebra, `nlinarith`, sums |
| C48 | keyword dictionaries | lookup lemmas; documented-but-unread keywords are counterexamples |
| C49 | heap of arrays with in-place updates and aliasing; every solver again, statement by statement | frame predicate `Keeps`: the program writes only to arrays allocated after the call |
| C50 C51 | LSQR and LSMR in exact arithmetic | Golub-Kahan vectors are orthonormal; the QR recurrences solve the projected problem |
| C52 C53 | CRAIG and CRAIG-MR in exact arithmetic | same; the recurrences solve the projected problem with damping 1 |
| C54 | heap programs against value programs | simulation `SimE` between the heap program and the value program; negations by running both on a concrete system |
| C55 | CGS, Bi-CGSTAB, TFQMR in exact arithmetic | the residual is a product of formal orthogonal polynomials of the preconditioned operator, applied to r0; n+1 orthogonal polynomials do not exist on a space of dimension n unless one vanishes there |
| C56 | `symmlqSolve` over exact arithmetic, with the attribute `matvec` set | the Lanczos process and the LQ factorisation as an invariant of the state (`SymmlqMath.Inv`): LQ point, CG point, their residuals and errors |
| C57 | MINRES, LSQR, LSMR, CRAIG, CRAIG-MR and SYMMLQ with preconditioners, exact arithmetic | `Solver/Warp`: the space with the inner product of the preconditioner; `Solver/PreconTwo`, `CraigPrecon`, `LSQRPrecon`, `LSMRPrecon`, `SymmlqPrecon`: the preconditioned program is the image of the unpreconditioned program run in these spaces (simulation, step by step), then the theorems above are carried over; LSMR also measures x in the Euclidean norm, so `LSMRNorm` has that norm as a parameter |
| C58 | `Blkop/Index`: `slice.indices`, selection of blocks, the constructors on the selected blocks | membership and order of the selected positions characterised arithmetically; the constructor theorems of C16, C20 on the selection |
| C59 | `Blkop/Index`: assignments return the operator afterwards and the exception | invariants of C19 kept by fitting assignments; for the others the checks inside a product are inverted: a product that returns forces the shapes |
| C60 | `minresEntry`, `symmlqEntry`, `symmlqStart` | case analysis on the verdicts; the rest of the program does not read `check` |
| C61 | `Linop/Wrap`: the closures of `PysparseLinearOperator`; the sparse matrix is a record of functions with a contract | the constructor is one of the calls of a client program (C01, C02), whose hypotheses follow from the contract |
| C62 | `Linop/Wrap`: `CholeskyOperator`; the factorization is a function that solves linear systems | as C61; the inverse of a symmetric matrix is symmetric |
| C63 | `Linop/Dtype`: the `dtype` setter on the heap of operators | the invariant of C01 without its dtype part (`VInv` in `Linop/Sound`) survives every widening; counterexample for `.T` and `.H` |
| C64 | `Link/Bridge`: a product in a solver is `run` of the operator model on the array of the vector | the operator model computes `M x` and `M' y` (C01, C02), so the convergence theorems of the solvers apply with the adjointness proved instead of assumed |
| C65 | `Linop/Session`: dispatch on the types of both operands, aliases, exceptions that the client catches | simulation: every statement keeps the invariant of C01 (`ReachTotal`) and related values; exceptions leave the objects alone |
| C66 | `Link/Gallery`: `LinearOperator(n, n, Poisson1dMatvec, symmetric=True)` and the 2D one as commands of the operator layer | the energy inequality of `Gallery/Energy` (a discrete Poincare inequality) bounds the error by the residual; then C64 |
| C67 | `Link/Lbfgs`: the operator handed to a solver, with the state that products leave behind | replay: products do not change later answers; then C22 to C24 and the convergence theorems; conjugate pairs are all interpolated, and CG makes conjugate steps |
| C68 | `Link/Block`: real block matrices and vectors cut into parts; the objects are those of `Blkop/Model` | C16, C17 and C20 give the matrix of the block operator inside a client program, so the convergence theorems apply; quasi-definite: pairing `(u, v)` with `(u, -v)` bounds the smallest singular value |
| C69 | `Solver/Reuse`: the attributes of a solver object as a dictionary, and the statements of each `solve` that assign to it or append to it, in order, with the values given by the solver models; an object lives through calls that return and calls that raise at any point (leaving anything in the attributes that `solve` changes) | an attribute that is assigned in every call that returns forgets the past; that `status` is always assigned uses the theorems on the stop codes (C37, C41, C42); MINRES: the loop with another history in front is the same loop. Partial: the exceptions are proved to be violations |
| C70 | the heap of C49 records, after every statement that writes to an array or makes one, the contents of all arrays (`Heap.past`); `Solver/HeapMoments` | the frame predicate `Heap.Ext` of C49 also says that every record made since agrees with the heap at the call on the arrays of the caller. An operator that raises is modelled by the moment before its product: the code of the solvers has no `try`, so nothing follows |
| C71 | `Solver/Confined` (specification: a vector lies in an invariant subspace of dimension at most d), `Solver/ConfinedProps` | the convergence proofs of C28, C34, C37, C51-C53, C55, C56 count independent vectors in Krylov spaces; they are stated for an invariant subspace that contains the starting vector, and the dimension n of the space is the special case |
| C72 | `Solver/Rate` (specification: bounds of the spectrum, the rate), `Solver/RateMath` (Chebyshev polynomials of a symmetric map), `Solver/CGOptimal`, `Solver/RateProps`, `Solver/RatePrecon` (preconditioners as changes of inner products), `Link/Rate` | the iterates of CG, MINRES, LSQR, LSMR, CRAIG, CRAIG-MR are optimal in a Krylov space (CG: shown here, by orthogonality of the residuals; the others: C35, C38, C51-C53), and the Krylov space contains a point given by a Chebyshev polynomial that satisfies the bound; the Poisson operators: two-sided bounds for their quadratic forms. |
| C73 | `Solver/Typed`: numbers and arrays with their dtype class, in-place operations that raise, integer division (`floorDiv`); `Solver/TypedMath`, `TypedProps`, `TypedFindings`; the same for the least-squares solvers in `Solver/TypedLs`, `TypedLsSpec`, `TypedLsMath`, `TypedLsProps` and for MINRES in `Solver/TypedMinres`, `TypedMinresMath`, `TypedMinresProps` | simulation: a run with types is a run without them as long as no in-place operation has a result wider than its target (`exceptLoop_sim`); invariants on the classes of the work arrays. |
| C74 | `Threads/Pool`: threads as trees of loads and stores, `Pool.run schedule`; `Threads/Linop` (products and counters of `linop.py`), `Threads/Lbfgs` (products with `self.alpha`, `self.gamma` shared) | refinement: a thread alone is the sequential model (`tree_exec`, `exec_inv`); results do not depend on what is read (`Blind`), or only on a location all threads give the same value (`Guarded`); invariant `Bounded` for counters; concrete schedules for the negations. |
| C75 | `Solver/Complex`: complex numbers and arrays (with `nan`), `np.dot` without conjugation; the same solver models as in the real case. `Solver/ComplexMath`, `ComplexProps`, `ComplexFindings`, `ComplexReal` | invariants as in C27, C31-C33 with `pseudo v = sqrt(abs(v.v))` beside the norm; orthogonality of residuals for a symmetric bilinear form; commutation of each step with the conversion of real to complex arrays. |
| C76 | the solver models over exact arithmetic; `Solver/Scale` (numbers and vectors times a unit), `ScaleKrylov`, `ScaleProps`, `ScaleLSQR`, `ScaleLSQRProps`, `ScaleLSMR`, `ScaleCraig`, `ScaleCraigmr`, `ScaleLSMRSim`, `ScaleSymmlq`, `ScaleMinres`, `ScaleLsProps`, `ScaleMinresFindings` | simulation: each variable of the second run is the converted variable of the first one, with its own unit, step by step; the witness for LSMR is the first iteration on a 3 by 2 operator with a symbolic factor. |
| C77 | the models of CG, CGS, Bi-CGSTAB and TFQMR; `Solver/Warm`, `WarmProps` | each step commutes with adding the guess to `x` and to the stored iterates. |
| C78 | `Solver/Show`: MINRES, LSQR, LSMR, CRAIG and CRAIG-MR with their `print` statements as a writer of lines around the existing models; `ShowLemmas`, `ShowProps`, `ShowRows`, `ShowFindings` | erasing the lines gives the model without output (loop rule `outLoop_rec`); the lines of a silent call are computed by the same rule. |
| C79 | `Solver/InterruptSpec` (`LeftBehind`), `Solver/Interrupt`: for each solver the statements on attributes in the order of execution, produced by the loop of the existing model; an interrupt executes an initial part of them; `InterruptLemmas`, `InterruptLs`, `InterruptSq`, `InterruptProps`, `InterruptSymmlq` | invariant of the loop: the statements so far append exactly the lists of the state, and the lists are in step after every initial part (`AllPre`); the complete trace has the effect of the complete call of C69. |
| C80 | the solver models over exact arithmetic; `Solver/Singular` (`PSD`, `NearestSolution`, `MinimumNormLeastSquares`), `SingularProps` | a semidefinite operator is definite on its range, so the convergence theorems (C28, C34, C55, C56) hold for the range; C76 with the inclusion of the range as the change of coordinates carries them to the space; C77 adds the guess. LSQR and LSMR: the iterates are in the Krylov space of the transpose (C50, C51), which has at most the dimension of the rank. |
| C81 | the model of CG over exact arithmetic; `Solver/CGCurv`, `CGCurvProps` (`objective`, `FallsForever`) | the orthogonality relations of C28 by induction for as long as the curvature is positive; at most as many nonzero orthogonal residuals as the dimension; the loop invariant has one more case, the step that met a direction without positive curvature. |
| C82 | `Tools/Random`: the checks with a generator (any deterministic machine) threaded through, client programs of seeds, draws and checks; `RandomProps` | the loops are those of `Tools/Checks` on the successive vectors of the stream, by induction; the state after the call is a number of draws after `seed 1` (symmetric) or after the state before (definite). |
| C83 | the models of `Tools/Checks` and `Tools/Random`; `PowerProps` (`Drawable`, `frob2`, `Copositive`) | half unit vectors: the quantities the check compares add up to the Frobenius norm of `B - B'`; openness for the volume; a rank one operator orthogonal to the fixed vectors; scaling of nonnegative vectors into the cube. |
| C84 | `Solver/Log`: the loops of the four solvers with the calls of the logger; `LogLemmas` (tables `numbered`, `curved`); `LogProps` | invariant relating the log to the history and the vectors the operator was applied to, any arithmetic; the instrumented loop runs as the plain one (simulation); CGS violated in every run, TFQMR by the system of `C33_converged_nan`. |
| C85 | the solver models over exact arithmetic; `Solver/RateSingular` (`NonzeroSpectrumIn`) | CG and MINRES: C72 for the range of the operator, carried to the space by C76 as in C80. LSQR and LSMR: the Chebyshev argument of C72 in the range of the transpose, which the normal equations map to itself. |
| C86 | the MINRES model over exact arithmetic; `Solver/MinresLeast` (`Exhausted`, `MClip`), `MinresLeastProps` (`LeastSquares`) | `B` stays injective on the Krylov space as long as no pivot is zero, so a precision below the (finitely many) bounds never changes a pivot other than zero; a zero pivot means that the space is exhausted and leaves `x` alone. For the negative: with `rtol = 0` each iteration before that is the same for all small precisions and no test stops it. |
| C87 | the solver models over exact arithmetic; `Solver/Monotone`, `MonotoneProps` (`Approaches`), `MonotonePrecon` (`ApproachesIn`) | Steihaug's argument: the directions of conjugate gradients form acute angles, so every step goes away from the starting point and towards the solution; the minimizers of the residual are conjugate gradient iterates for the inner product `<u, Av>`, whose directions form acute angles in the original one too, from which the same follows for MINRES, LSMR and CRAIG-MR. The minimization theorems of C35, C38, C51, C52, C53 and C72 carry it over to the solvers. |
| C88 | `Linop/Types`: NumPy's numeric dtypes with `np.result_type` (`NpType`), integers that wrap around (`IntT`), expressions of integer operators with the arithmetic of each step in the dtypes NumPy uses (`IExpr.mulVec`), columns of `to_array`; specification `IExpr.matrix` over the integers | induction over expressions: every step is exact modulo `2^b` for the width `b` of the vector, because result dtypes are at least as wide; finite case analysis over all pairs of dtypes for the dtype rules. Partial: narrow vectors and grouping of sums, violated. |
| C89 | the attribute dictionaries of C69 (`Solver/Reuse`); `Solver/Fresh` (`NothingYet`) | invariant over all histories: an attribute no statement of `solve` assigns keeps the value of the constructor. Partial: violations proved. |
| C90 | specification `Solver/Rounding`: laws of rounded vector operations, `Computes` (an operator with a relative error), `drift`; `Solver/FloatFormat`, `FloatDense`: arrays in a floating-point format, products with a dense array | invariant of the loop: the updated residual differs from the residual of the iterate by at most `drift` after so many products; the errors of the steps are bounded by the sizes of the iterates because the step is their difference; finite results imply that all intermediate results were finite. For CGS the iterates are what calls with smaller budgets return. Bi-CGSTAB: the corrections of the half steps are bounded by the residuals and the inverse of the operator. Partial: CG without preconditioner, CGS, Bi-CGSTAB unless it stops in mid-iteration. |
| C91 | `Linop/FloatExpr`: expressions of operators (arrays, diagonal, identity and zero operators, scalar multiples, products, sums, block operators) with the arithmetic of `Solver/FloatFormat` in every step; specification: the matrix (`matrix`), the expression of the absolute values (`size`), the number of roundings (`roundings`), the effect of underflow (`under`) | induction over expressions, entry by entry; an entry that is finite used finite numbers only, or numbers multiplied by the zero operator. `C91_finite` (`Linop/FloatExprFinite`): results are finite if no partial result can leave the range of the format. |
| C92 | `Tools/FloatChecks`: `check_symmetric` and `check_positive_definite` with the arithmetic of `Solver/FloatFormat`; operators as in C90 (`Computes`), so by C91 all compound operators | the computed dot products differ from the exact ones by at most `dotErr |x| |w| + dotTiny`; the computed tolerance is within 7/8 and 5/4 of the exact one. Not true without the restriction on small products: `C92_symmetric_violated` (`Tools/FloatChecksWitness`). |
| C93 | `Gallery/Poisson` (the same definitions as C46, C47: they only need a subtraction and a product) with the numbers of `Solver/FloatFormat`; `Gallery/FloatPoisson`: `underflow`; specification: the matrices `T`, `L` of C46, C47 and their entrywise absolute values | the entries are chains of at most five operations (`triC`, `fiveC`, in the order of the slices); every operation adds a factor `1 + u`; the absolute values have row sums 4 and 8, so by Schur's test norms of at most 4 and 8; then `C90_cg_partial` |
| C94 | `Tools/FloatQuadratic`: `roots_quadratic` line by line with the numbers of `Solver/FloatFormat` and Python's exceptions as values; `Solver/FloatNormal`: `float64` in which an underflowing result counts as not finite; specification: the quadratic and the sum of the absolute values of its terms | real error analysis of the discriminant, of `d² + q1 d + q0 q2` and of the rounded quotients (`FloatQuadraticLemmas`) and of a Newton step at a simple root (`FloatNewtonLemmas`: the step keeps the backward error, an invariant of the loop), case analysis over the program; a simulation between the arithmetic without underflow and `float64`; the two counterexamples are exact double precision runs, every rounding is computed |
| C95 | the models and the specification of C90 and C93 (`Rounding`, `Computes`, `roundoff`, `roundoffBi`); the exact solution is any `xs` with `A xs = b` (for the Poisson matrices it exists and is unique, `poisson_unique`) | the error is the inverse of `A` applied to the residual; C90 bounds the residual by the reported norm; for the Poisson matrices the inverse is bounded by the Poincaré inequalities of C46 and C47 (`Gallery/FloatPoissonError`) |
| C96 | `Solver/LogSymmlq`: SYMMLQ with the calls of its logger, the numbers of each line and the text of the messages; `LogSymmlqLemmas`, `LogSymmlqProps` | invariant of the loop relating the lines to the iteration count, the count of products and the stop code (`SymLog`), any arithmetic; what the messages say about `x` from the invariants of C56, which carry the stop code (`QStop`); the limit as a concrete run on a 2 by 2 system. |

## What is modelled, file by file

Line numbers are those of /repo/pykrylov.  "Not modelled" means that no theorem says anything about it.

| file | modelled in | not modelled |
|------|-------------|--------------|
| `linop/linop.py` | `Linop/Core` (constructor, `.T`, `.H`, products, algebra, powers, `to_array`, conjugate, identity, zero, reduced operators, `linop_from_ndarray`), `Linop/Program` (client programs), `Threads/Linop` (products in threads), `Linop/Div`, `Linop/Coord`, `Linop/Diagonal` (diagonal operators with mutable arrays), `Linop/Wrap` (`PysparseLinearOperator`), `Linop/Dtype` (the `dtype` setter), `Linop/Types` (integers of limited width), `Linop/FloatExpr` (floating-point arithmetic), `Linop/Session` (operand dispatch, `rmatvec`, calls, `full`), `Link/Bridge` (products in solvers) | the PySparse library (a parameter with a contract), logging, `__repr__`, `bool` and `object` dtypes; integer overflow is in `Linop/Types` only, rounding in `Linop/FloatExpr` only (real dtypes) |
| `linop/blkop.py` | `Blkop/Model` (both constructors, products, `__setitem__` with integer indices), `Blkop/Index` (`__getitem__`, `__setitem__`, `__contains__`, `__iter__` with integers and slices, any value); the two preconditioner classes inherit all this, their `solve` is the product; `Link/Block` (in solvers), `Blkop/Counts` (counters of the blocks inside a product) | lists and masks as indices; nested lists assigned to a slice of a `BlockLinearOperator`; counters in products of `.T`, `.H` of flagged complex block operators |
| `linop/lbfgs.py` | `Lbfgs/Model` (all four classes; `store`, `restart`, three products), `Link/Lbfgs` (in solvers), `Threads/Lbfgs` (products in threads) | rounding; `np.linalg.solve` is a parameter that is assumed to solve nonsingular systems |
| `linop/cholesky.py` | `Linop/Wrap` | the factorization itself (`scikits.sparse`), a parameter with a contract |
| `generic/generic.py`, `cg`, `cgs`, `bicgstab`, `tfqmr` | `Solver/CG`, `CGS`, `BiCGSTAB`, `TFQMR`; keyword dictionaries in `Solver/Options`; attributes of used objects in `Solver/Reuse` (all solvers); arrays with identity in `Solver/HeapCG`, `HeapCGS`, `HeapBi`, `HeapTF` (and `Heap.past`, the contents after every statement); dtype classes of arrays in `Solver/Typed`; complex arithmetic in `Solver/Complex`; the calls of the logger in `Solver/Log` | layout of the logged numbers; integer overflow |
| `minres/minres.py` | `Solver/Minres`, `Solver/HeapMinres`, `Solver/Show` (printing), `Solver/TypedMinres` (integer and real arrays) | layout of printed numbers; complex data |
| `symmlq/symmlq.py` | `Solver/Symmlq`, `Solver/HeapSymmlq`, `Solver/SymmlqExact`; the log in `Solver/LogSymmlq` | the layout of the numbers in the log |
| `lls/lsqr.py`, `lsmr.py`, `craig.py`, `craigmr.py` | `Solver/LSQR`, `LSMR`, `Craig`, `CraigMR`; arrays with identity in `Solver/HeapLSQR`, `HeapLSMR`, `HeapCraig`, `HeapCraigMR`; printing in `Solver/Show`; dtype classes of arrays in `Solver/TypedLs` | layout of printed numbers; `OverflowError` of float powers |
| `gallery/gallery.py` | `Gallery/Poisson`, `Gallery/Energy`, `Gallery/FloatPoisson` (rounding), `Link/Gallery` (as operators in solvers) | `sqrt` of the size is the integer square root |
| `tools/utils.py` | `Tools/Quadratic`, `Tools/Checks`, `Tools/Random`, `Tools/FloatChecks` and `Tools/FloatQuadratic` (rounding) | infinities and NaNs are one value; a comparison with it has no result in `Tools/FloatQuadratic` |
| `tools/types.py` | the three dtype classes in `Linop/Core`, the individual dtypes in `Linop/Types` | `bool` and `object`; a Python integer `a` counts as `int64` in the `dtype` of `a * A`, and by its value in the product of `a` with an array, as in NumPy before version 2 |
| tests, examples, doc, setup | - | everything |

Assumptions on what the caller passes in:

* operators and preconditioners passed to solvers are deterministic functions of the contents of their argument, do not raise, return
  arrays of the right length and do not modify their argument.  In the heap models they return either a new array or the argument
  itself; operators that keep and return an array of their own are excluded;
* the numerical theorems assume that the operator is linear (and symmetric, positive definite ... as stated).

## Findings: where the code does not do what its documentation says

Each of the following is a theorem about the model (named) or, where no name is given, was noticed while writing the model.

*Operators.*  A complex operator with one of the two closures has `None` as double transpose on one side (`C03_double_transpose_missing`).
`op / k` with a Python 2 `int` is the zero operator for `k >= 2` (`C08_div_int_wrong`).  Reduced operators are wrong with repeated
indices (`C12_repeated_index`).  `CoordLinearOperator` infers sizes one too small (`C13_omitted_dims_fail`).  `DiagonalOperator` reads
the array of the caller but `diag` shows a copy (`C14_caller_mutation`).  `BlockLinearOperator` completes a symmetric grid in
the list of the caller (`C17_caller_list`); building it twice from the same list raises (`C17_full_grid_fails`).  Widths are
checked in the first block column only (`C18_widths_unchecked`).  Assignments below the diagonal of a flagged operator are ignored, `.H`
or `.T` can be stale (`C19_lower_ignored`, `C19_stale_adjoint`, `C19_stale_transpose`).  What is assigned to a block is not checked: blocks of
the wrong shape are accepted and make every later product raise (`C59_block_misfit`, `C59_diag_misfit`, `C59_diag_resized`), a block with one row is
broadcast silently (`C59_block_broadcast`, `C59_diag_broadcast`), and `op[i] = None` replaces the block before it raises, if it raises at all
(`C59_block_none`, `C59_diag_none`).  `.T` of a block diagonal operator with a rectangular
block raises (`C20_rectangular_transpose`).  `CholeskyOperator` of a complex hermitian matrix is its own transpose (`C62_complex_transpose`), and discards
imaginary parts unless `dtype` is given (`C62_complex_float`).  Assigning `op.dtype` leaves the dtype of `op.T` and `op.H` as it was
(`C63_stale`).

*L-BFGS.*  `LBFGSOperator` ignores `scaling` (`C23_scaling_ignored`).  `StructuredLBFGSOperator` cannot be constructed
(`C25_never_constructed`).  Pairs with non-finite entries are accepted.

*CG, CGS, Bi-CGSTAB, TFQMR.*  The documented keywords `atol` and `rtol` are not read (`C48_documented_tolerances_ignored`).  CG with a
preconditioner updates the direction with the unpreconditioned residual (`C28_preconditioned_fails`, `C29_zero_direction`).
Residual histories accumulate over solves (`C30_stale`); the
residual history of MINRES and the stored iterates of SYMMLQ do too (`C69_minres_history`, `C69_symmlq_iterates`).  `status` of a MINRES object
stays `'direct error small'` when a later call fails (`C69_minres_status_violated`); `ctol` of LSQR and CRAIG is that of an earlier call
(`C69_lsqr_ctol`, `C69_craig_ctol`); LSMR keeps the solution of the last system if the next right-hand side is zero (`C69_lsmr_x`).  CGS does not count the product with the initial guess
(`C31_guess_not_counted`).  MINRES reports `rnorm = 0` and `istop = 1` in a least-squares solution of a system without solution (`C86_minres_violated`).  Bi-CGSTAB can report the residual norm of a vector other than `x` (`C32_wrong_residNorm`).  TFQMR raises on a zero
right-hand side (`C33_zero_rhs_raises`) and can report convergence with a non-finite `x` (`C33_converged_nan`).  `guess=None`
raises `AttributeError` (`C48_guess_none_raises`).  With an operator of the user that returns its argument itself, Bi-CGSTAB and TFQMR can
overwrite their own vectors.

*MINRES.*  A right-hand side that is an eigenvector makes it divide by zero and go on (`C34_beta2_no_stop`, `C34_beta2_nan`); so with the inverse of the
operator as preconditioner it fails for every right-hand side (`C71_minres_perfect_preconditioner`).  Singular values
below the machine precision break the residual recurrence (`C35_clipped`).  Preconditioner and tolerances of the constructor are ignored
(`C48_minres_constructor_ignored`).  With an operator that returns its argument and a nonzero shift the result is wrong
(`C54_minres_violated`).  `window=0` raises `ZeroDivisionError`; `itnlim=0` and the error codes report `rnorm` 0.0; code 5 is never used.

*SYMMLQ.*  `solve` raises for every input (`C36_always_raises`).  Code 5 is never reported.  When the budget
is used up, the new iterate is combined with the pivot and the norms of the iteration before, and the returned `x` can have a
larger residual than the zero vector (`C56_budget_wrong`).  An operator that fails the symmetry test is not reported:
`solve` raises `UnboundLocalError` (`C60_symmlq_rejects`).  With a `matvec` that returns its argument and a nonzero shift the result is
wrong (`C54_symmlq_violated`).

*LSQR.*  `conlim` has no effect (`C37_conlim_ignored`), `nMatvec` undercounts (`C37_nMatvec_undercounts`), `wantvar=True` and
non-finite products raise (`C37_wantvar_raises`, `C37_nan_raises`).  `r1norm` is wrong for nonzero `damp` (`C50_r1norm_wrong`).  A preconditioner that
returns its argument gets it divided twice (`C54_lsqr_violated`).  `window=0` raises; a negative `itnlim` gives the status "solution is
zero"; a zero solution is not `optimal`.

*LSMR.*  `self.x` is not assigned on the early exit (`C40_selfX_stale`).  Raises `ZeroDivisionError` when the residual becomes exactly
zero (`C40_consistent_raises`, `C40_identity_raises`).  An integer `conlim` is divided as an integer in Python 2.

*CRAIG.*  Solves the problem with damping 1 whatever `damp` is (`C41_damp_ignored`, `C41_never_solves`).  A zero right-hand side raises
`UnboundLocalError` (`C41_zero_raises`).  `xnorm` is a squared norm.  It runs to the limit when the system is solved.

*CRAIG-MR.*  `damp`, `atol`, `btol` and `conlim` are ignored (`C42_damp_ignored`); the default limit can be one iteration short
(`C53_default_limit_short`); it prints unconditionally.

*Dtypes.*  CG, CGS and TFQMR raise `TypeError` in the first iteration if the operator (default dtype `float64`) or the
preconditioner has a wider dtype than the right-hand side, for instance for a right-hand side of integers
(`C73_cg_raises`, `C73_cg_narrow_rhs`, `C73_cgs_raises`, `C73_tfqmr_raises`), since residuals are updated in place.  If everything
is integer, CG divides with rounding (Python 2) and does not converge on `2x = 1` (`C73_integers_violated`); TFQMR and
Bi-CGSTAB raise (`C73_bicgstab_integers`).  Bi-CGSTAB raises if the preconditioner is widest (`C73_bicgstab_precon`).
LSQR, LSMR, CRAIG and CRAIG-MR divide a copy of the right-hand side in place and pass inner products to `math.sqrt`: they raise
`TypeError` for every nonzero right-hand side of integers (`C73_lls_integers`) and for complex data (`C73_lls_complex`, `C73_lsqr_raises`,
...).  MINRES raises if operator and right-hand side are both integer (`C73_minres_integers`, `C73_minres_integers_exact`).

*Threads.*  `InverseLBFGSOperator` keeps the multipliers of the two-loop recursion in `self.alpha`; a product that is interrupted by
a product in another thread is wrong (`C74_lbfgs_inverse_violated`).  `_nMatvec += 1` is not atomic and can lose increments
(`C74_counter_violated`).

*Complex systems.*  `np.dot` does not conjugate.  CG, CGS and Bi-CGSTAB declare `x = 0` the solution for every right-hand side with
`b.b = 0`, such as `(1, i)`, and TFQMR raises `UnboundLocalError` (`C75_isotropic`).  CG stops with `definite=False` on a
real positive definite matrix if the right-hand side is `i` times a real vector (`C75_cg_phase`).  TFQMR can set `converged` above
the tolerance (`C75_tfqmr_violated`).

*Units.*  CG takes the residual, not the preconditioned residual, for its search direction and fails on `x = 1` with `M = 2`
(`C76_cg_violated`).  LSMR starts with `rhobar = 1` and takes it for a part of the operator: a well-conditioned operator in a
small unit is declared ill-conditioned after one iteration (`C76_lsmr_violated`).  MINRES replaces singular values below the machine
precision (`C35_clipped`), and `minres.py:256` adds the square of the norm of the right-hand side to its estimate of the norm of the
operator: for a right-hand side of norm 10^13 it declares a system solved after one iteration with a residual of 4/5 of the
right-hand side (`C76_minres_violated`).

*Logs.*  CGS and TFQMR leave their loop before the call of the logger, so the last iteration is never logged (`C84_cgs_violated`); TFQMR logs after the
product of the next iteration, so a line counts a product its residual norm does not use, and the last line can carry the reported number
of products with another residual norm (`C84_tfqmr_violated`).  SYMMLQ tests for the limit inside a loop that
is left when the limit is reached, so code 5 is never set and the log of such a run ends with the message of code 0, "beta1 = 0.  The exact
solution is  x = 0" (`C96_limit_violated`, `C96_limit_message`; `C96_wrong_message`: a 2 by 2 system with a nonzero right-hand side).

*Printing.*  With `show=False` CRAIG-MR prints a line per iteration (`C78_craigmr_noise`) and MINRES a blank line every ten
iterations (`C78_minres_violated`: even for the identity of order 2).  A preconditioner that fails the check turns printing on in
MINRES (`C78_minres_overruled`).  MINRES sets code 4 for a stop because of the condition number, and the message of
code 4 is "x has converged to an eigenvector" (`C78_minres_wrong_message`); the right message is that of code 5, which is never set.
With `show=True` LSQR raises `IndexError` for an operator without columns (`C78_lsqr_no_columns`), and CRAIG prints no log of its
iterations (`C78_craig_no_rows`).

*Interrupts.*  CRAIG-MR resets `x`, `optimal` and the norms when the call begins, so an exception of the operator loses the results of an
earlier solve, but keeps its `bestSolution` (`C79_craigmr_lost`).  In the other solvers the results are assigned one by one at the end; an
interrupt between two assignments leaves the `converged` or `optimal` of the new call with the `x` of the old one (`C79_cg_torn`,
`C79_lsqr_torn`, `C79_symmlq_torn`).  CG, MINRES and SYMMLQ do not empty their lists: the entries of an interrupted call stay (`C79_cg`,
`C79_minres`, `C79_symmlq`).  A call of SYMMLQ that raises by itself leaves all results as they were, but may append to `iterates`
(`C79_symmlq_raises`).

*Tools.*  `check_symmetric` rejects complex symmetric operators (`C44_complex_symmetric_rejected`) and reseeds the global random generator with `np.random.seed(1)`: a caller who calls it, or `CG.solve(check_symmetric=True)` or `Minres` with `check=True`, draws the same numbers afterwards whatever seed they chose (`C82_stream_lost`).  Because the seed is fixed, it uses the same ten vectors in every call, and misses some operators far from symmetric always (`C83_symmetric_blind`).  `check_positive_definite` draws nonnegative vectors only, so it tests copositivity: every operator with positive entries passes, for example [[1, 2], [2, 1]] with eigenvalue -1 (`C83_definite_exact`, `C83_definite_violated`).
`roots_quadratic` with a large `tol` returns non-roots (`C43_large_tol`).
With the default parameters and in double precision `roots_quadratic(3, -25, 52.0833...)` returns 4.1667 and 2.1667, although both roots are 4.1667: at a
nearly double root the Newton step divides two rounding errors (`C94_refine_violated`).  With all coefficients of size `2^-700` it returns -2 and 1 for
`x² + x - 1`, because the test for ill-conditioned quadratics compares products that underflow (`C94_underflow_violated`).
Otherwise, if the discriminant is at least `20000 u (q1² + 4 |q0 q2|)`, the Newton steps keep the roots as good as rounding allows (`C94_newton_partial`).

*Dtypes.*  The product of an operator with a vector of a narrower integer dtype has the dtype of the operator, but the factors are multiplied in
their own dtypes first: `(100 * A) * x` is -56 instead of 200 for 8-bit `A = [1]` and `x = [2]`, with dtype `int64`
(`C88_narrow_violated`).  `(A + B) + C` and `A + (B + C)` can have different dtypes (`C88_order_violated`).

*Attributes of the base class.*  No solver sets `nIter`.  SYMMLQ, LSQR, LSMR, CRAIG and CRAIG-MR never set `converged`: it is `False` after successful
calls (`C89_square_violated`, `C89_lsqr_violated`, `C89_lsmr_violated`, `C89_craig_violated`, `C89_craigmr_violated`).  An LSMR object shows `bestSolution = None`,
`optimal = False` and `nMatvec = 0` after any number of calls (`C89_lsmr_violated`).  CRAIG and CRAIG-MR leave `residNorm = None`.

*Rounding in the symmetry check.*  `check_symmetric` compares `|s - t|` with a tolerance relative to `s = |A x|^2`, but the rounding error of
`t = np.dot(x, A A x)` is relative to `|x| |A| |A x|`: symmetric operators are rejected when `A x` is small compared with `|A| |x|`
(`C92_symmetric_violated`: [[67108854, -67108855], [-67108855, 67108856]] and x = (67108857, 67108856) / 2^27).

**C90: converged with a residual above the threshold.** In float64 the residual CG updates can be smaller than the one of the solution: for
`3 x = -1` with both tolerances 0 it stops after one product with residNorm 0 and converged = True, and the residual of the returned `x` is 2^-54
(`C90_threshold_violated`). The bound of C90 is the part that holds.

## Seeded faults

`seeded/LOG.jsonl` lists the edits made to a scratch copy of the model, one per line: the definition edited, the edit, the claim it breaks and the
theorems that no longer prove.

## Axioms

Generated by `tools/gen_axioms.py` from `#print axioms` on every theorem named in `MANIFEST.json`.

<!-- axioms: begin (tools/gen_axioms.py) -->

**Classical.choice, Quot.sound, propext** (536 theorems): `Blkop.C06_block`, `Blkop.C06_block_count`, `Blkop.C06_diag`, `Blkop.C06_diag_count`, `Blkop.C16_block`, `Blkop.C17_caller_list`, `Blkop.C17_full_grid_fails`, `Blkop.C17_upper_partial`, `Blkop.C18_shape_error_partial`, `Blkop.C18_widths_unchecked`, `Blkop.C19_assign_partial`, `Blkop.C19_diag_partial`, `Blkop.C19_flagged_partial`, `Blkop.C19_lower_ignored`, `Blkop.C19_stale_adjoint`, `Blkop.C19_stale_transpose`, `Blkop.C20_forward_partial`, `Blkop.C20_rectangular_transpose`, `Blkop.C20_square_partial`, `Blkop.C58_block`, `Blkop.C58_diag`, `Blkop.C58_flagged`, `Blkop.C58_slice_all`, `Blkop.C58_slice_between`, `Blkop.C58_slice_down`, `Blkop.C58_slice_reverse`, `Blkop.C58_slice_up`, `Blkop.C59_block_fits_partial`, `Blkop.C59_block_misfit`, `Blkop.C59_block_none`, `Blkop.C59_diag_fits_partial`, `Blkop.C59_diag_misfit`, `Blkop.C59_diag_none`, `Blkop.C59_diag_resized`, `Blkop.Examples.C17_both_flags`, `Blkop.Examples.C18_inconsistent_accepted`, `Blkop.Examples.C19_diag_symmetric_example`, `Blkop.Examples.C19_stale_adjoint_example`, `Blkop.Examples.C59_block_broadcast`, `Blkop.Examples.C59_diag_broadcast`, `Gallery.C46_poincare`, `Gallery.C46_poisson1d`, `Gallery.C46_posDef`, `Gallery.C47_poincare`, `Gallery.C47_poisson2d`, `Gallery.C47_posDef`, `Gallery.C93_cg2_partial`, `Gallery.C93_cg_partial`, `Gallery.C93_computes1`, `Gallery.C93_computes2`, `Gallery.C93_exact`, `Gallery.C93_finite`, `Gallery.C93_poisson1d`, `Gallery.C93_poisson2d`, `Gallery.C95_poisson1d_bicgstab_partial`, `Gallery.C95_poisson1d_cg_partial`, `Gallery.C95_poisson1d_cgs`, `Gallery.C95_poisson2d_bicgstab_partial`, `Gallery.C95_poisson2d_cg_partial`, `Gallery.C95_poisson2d_cgs`, `Lbfgs.C21_memory`, `Lbfgs.C21_rejected`, `Lbfgs.C21_restart`, `Lbfgs.C22_inverse_bfgs`, `Lbfgs.C23_forward_bfgs_partial`, `Lbfgs.C23_scaling_ignored`, `Lbfgs.C24_compact_bfgs`, `Lbfgs.C25_binding`, `Lbfgs.C25_empty_memory_partial`, `Lbfgs.C25_never_constructed`, `Link.C64_bicgstab`, `Link.C64_cg`, `Link.C64_cgs`, `Link.C64_counter`, `Link.C64_craig`, `Link.C64_craigmr`, `Link.C64_lsmr`, `Link.C64_lsqr`, `Link.C64_minres`, `Link.C64_operator`, `Link.C64_programs`, `Link.C64_real_matrix`, `Link.C64_tfqmr`, `Link.C66_bicgstab`, `Link.C66_cg`, `Link.C66_cgs`, `Link.C66_conditioning`, `Link.C66_lsqr`, `Link.C66_meaningful`, `Link.C66_product`, `Link.C66_script`, `Link.C66_tfqmr`, `Link.C67_cg_compact`, `Link.C67_cg_forward`, `Link.C67_cg_steps`, `Link.C67_conjugate`, `Link.C67_from_cg`, `Link.C67_lsqr`, `Link.C67_minres`, `Link.C67_precon`, `Link.C67_replay`, `Link.C68_diagonal`, `Link.C68_preconditioner`, `Link.C68_quasidefinite`, `Link.C68_regularized`, `Link.C72_poisson`, `Link.C72_poisson_spectrum`, `Linop.C01_operator_algebra`, `Linop.C01_operator_algebra_total`, `Linop.C02_transpose_adjoint`, `Linop.C02_transpose_adjoint_total`, `Linop.C03_double_transpose_missing`, `Linop.C03_pointers_partial`, `Linop.C04_real_transpose_adjoint`, `Linop.C05_pow_errors`, `Linop.C05_result_size`, `Linop.C05_right_size`, `Linop.C05_shape_errors`, `Linop.C06_add`, `Linop.C06_mul`, `Linop.C06_own_counter`, `Linop.C06_pow`, `Linop.C06_reduce`, `Linop.C06_sessions`, `Linop.C06_smul`, `Linop.C06_sub`, `Linop.C07_result_dtype`, `Linop.C08_div_int_wrong`, `Linop.C08_neg`, `Linop.C08_scalar`, `Linop.C08_truediv`, `Linop.C08_zero`, `Linop.C09_power`, `Linop.C10_to_array`, `Linop.C10_to_array_returns`, `Linop.C11_conjugate`, `Linop.C11_conjugate_pointers`, `Linop.C12_reduced_partial`, `Linop.C12_symmetrically_reduced_partial`, `Linop.C13_coord`, `Linop.C13_omitted_dims_fail`, `Linop.C14_abs_sqrt`, `Linop.C14_caller_mutation`, `Linop.C14_diagonal_partial`, `Linop.C14_sqrt_squared`, `Linop.C15_from_ndarray`, `Linop.C61_pysparse`, `Linop.C62_cholesky_partial`, `Linop.C62_complex_float`, `Linop.C62_complex_transpose`, `Linop.C63_assign`, `Linop.C63_declared_later`, `Linop.C63_stale`, `Linop.C63_widen_partial`, `Linop.C63_widen_total_partial`, `Linop.C65_reciprocal`, `Linop.C65_sessions`, `Linop.C88_laws`, `Linop.C88_narrow_violated`, `Linop.C88_products_partial`, `Linop.C88_promotion`, `Linop.C88_returns`, `Linop.C88_to_array`, `Linop.C91_finite`, `Linop.C91_float64`, `Linop.C91_laws`, `Linop.C91_products`, `Linop.C91_relative`, `Linop.C91_solvers`, `Linop.C91_to_array`, `Linop.C91_transpose`, `Linop.Examples.C02_composite_without_transpose`, `Linop.Examples.C12_repeated_index`, `Linop.Examples.C62_complex_float_wrong`, `Linop.Examples.C63_stale_wrong`, `Solver.C26_budget`, `Solver.C26_products_complete`, `Solver.C27_converged`, `Solver.C28_preconditioned_fails`, `Solver.C28_terminates_partial`, `Solver.C29_direction`, `Solver.C29_direction_partial`, `Solver.C29_zero_direction`, `Solver.C30_repeated_solve_partial`, `Solver.C30_stale`, `Solver.C31_budget_partial`, `Solver.C31_converged`, `Solver.C31_guess_not_counted`, `Solver.C32_budget`, `Solver.C32_converged_partial`, `Solver.C32_products_complete`, `Solver.C32_wrong_residNorm`, `Solver.C33_budget_partial`, `Solver.C33_converged_nan`, `Solver.C33_converged_partial`, `Solver.C33_zero_rhs_raises`, `Solver.C34_beta2_eigenvector`, `Solver.C34_beta2_nan`, `Solver.C34_beta2_no_stop`, `Solver.C34_codes`, `Solver.C34_converges_generic`, `Solver.C34_converges_partial`, `Solver.C34_preconditioned_generic`, `Solver.C34_preconditioned_partial`, `Solver.C34_status_partial`, `Solver.C35_clipped`, `Solver.C35_preconditioned_partial`, `Solver.C35_residual_partial`, `Solver.C36_always_raises`, `Solver.C36_returned_partial`, `Solver.C36_returns_with_matvec_partial`, `Solver.C37_converges`, `Solver.C37_nMatvec_undercounts`, `Solver.C37_preconditioned_converges`, `Solver.C37_status_partial`, `Solver.C38_preconditioned`, `Solver.C38_true_norms`, `Solver.C39_symOrtho`, `Solver.C40_consistent_raises`, `Solver.C40_identity_raises`, `Solver.C40_selfX_stale`, `Solver.C40_status_partial`, `Solver.C41_never_solves`, `Solver.C41_status_partial`, `Solver.C41_zero_raises`, `Solver.C42_status`, `Solver.C42_zero`, `Solver.C48_budget_partial`, `Solver.C48_constructor_budget_ignored`, `Solver.C48_documented_tolerances_ignored`, `Solver.C48_guess_none_raises`, `Solver.C48_minres_constructor_ignored`, `Solver.C48_minres_options_partial`, `Solver.C48_minres_solve_partial`, `Solver.C48_precon_partial`, `Solver.C48_solve_precon_ignored`, `Solver.C48_tolerances_partial`, `Solver.C49_cg_inputs_unmodified`, `Solver.C49_lsmr_inputs_unmodified`, `Solver.C49_minres_inputs_unmodified`, `Solver.C49_symmlq_inputs_unmodified`, `Solver.C50_minimal_partial`, `Solver.C50_r1norm_wrong`, `Solver.C51_converges`, `Solver.C51_preconditioned`, `Solver.C51_preconditioned_converges`, `Solver.C51_true_norms`, `Solver.C52_converges`, `Solver.C52_preconditioned`, `Solver.C52_preconditioned_converges`, `Solver.C52_true_norms`, `Solver.C53_converges`, `Solver.C53_default_limit_short`, `Solver.C53_minimizes`, `Solver.C53_preconditioned`, `Solver.C53_preconditioned_converges`, `Solver.C54_cg`, `Solver.C54_craig_partial`, `Solver.C54_craigmr_partial`, `Solver.C54_lsmr_partial`, `Solver.C54_lsqr_partial`, `Solver.C54_lsqr_violated`, `Solver.C54_minres_partial`, `Solver.C54_minres_violated`, `Solver.C54_symmlq_partial`, `Solver.C54_symmlq_violated`, `Solver.C54_tfqmr_partial`, `Solver.C55_bicgstab`, `Solver.C55_bicgstab_spd`, `Solver.C55_cgs`, `Solver.C55_cgs_breakdown`, `Solver.C55_cgs_spd`, `Solver.C55_tfqmr`, `Solver.C55_tfqmr_spd`, `Solver.C56_accuracy_partial`, `Solver.C56_budget_wrong`, `Solver.C56_definite_partial`, `Solver.C56_preconditioned_definite_partial`, `Solver.C56_preconditioned_partial`, `Solver.C60_minres_accepts`, `Solver.C60_minres_rejects`, `Solver.C60_symmlq_accepts`, `Solver.C60_symmlq_rejects`, `Solver.C60_symmlq_rotation`, `Solver.C60_symmlq_symmetric`, `Solver.C60_symmlq_test`, `Solver.C69_bicgstab`, `Solver.C69_cgs`, `Solver.C69_craig_ctol`, `Solver.C69_craig_partial`, `Solver.C69_craig_values`, `Solver.C69_craigmr`, `Solver.C69_craigmr_values`, `Solver.C69_krylov_values`, `Solver.C69_lsmr_partial`, `Solver.C69_lsmr_values`, `Solver.C69_lsmr_x`, `Solver.C69_lsqr_ctol`, `Solver.C69_lsqr_partial`, `Solver.C69_lsqr_values`, `Solver.C69_minres_doubles`, `Solver.C69_minres_history`, `Solver.C69_minres_partial`, `Solver.C69_minres_reads_nothing`, `Solver.C69_minres_show`, `Solver.C69_minres_status`, `Solver.C69_minres_status_violated`, `Solver.C69_minres_values`, `Solver.C69_minres_violated`, `Solver.C69_status`, `Solver.C69_symmlq_doubles`, `Solver.C69_symmlq_iterates`, `Solver.C69_symmlq_partial`, `Solver.C69_symmlq_values`, `Solver.C69_symmlq_violated`, `Solver.C69_tfqmr`, `Solver.C70_cg`, `Solver.C70_lsmr`, `Solver.C70_minres`, `Solver.C70_symmlq`, `Solver.C71_bicgstab`, `Solver.C71_bicgstab_spd`, `Solver.C71_cg`, `Solver.C71_cg_eigenvalues`, `Solver.C71_cgs`, `Solver.C71_cgs_spd`, `Solver.C71_craig_partial`, `Solver.C71_craig_preconditioned_partial`, `Solver.C71_craigmr`, `Solver.C71_craigmr_preconditioned`, `Solver.C71_few_eigenvalues`, `Solver.C71_low_rank`, `Solver.C71_low_rank_update`, `Solver.C71_lsmr`, `Solver.C71_lsmr_preconditioned`, `Solver.C71_lsqr`, `Solver.C71_lsqr_preconditioned`, `Solver.C71_minres_partial`, `Solver.C71_minres_perfect_preconditioner`, `Solver.C71_minres_preconditioned_partial`, `Solver.C71_perfect`, `Solver.C71_symmlq_partial`, `Solver.C71_tfqmr`, `Solver.C71_tfqmr_spd`, `Solver.C72_cg`, `Solver.C72_cg_condition`, `Solver.C72_cg_iterations`, `Solver.C72_craig`, `Solver.C72_craig_preconditioned`, `Solver.C72_craigmr`, `Solver.C72_craigmr_preconditioned`, `Solver.C72_lsmr`, `Solver.C72_lsmr_preconditioned`, `Solver.C72_lsqr`, `Solver.C72_lsqr_preconditioned`, `Solver.C72_minres_partial`, `Solver.C72_minres_preconditioned_partial`, `Solver.C73_bicgstab_integers`, `Solver.C73_bicgstab_precon`, `Solver.C73_cg`, `Solver.C73_cg_integers`, `Solver.C73_cg_narrow_rhs`, `Solver.C73_cg_raises`, `Solver.C73_cgs_raises`, `Solver.C73_craig_raises`, `Solver.C73_craigmr_raises`, `Solver.C73_integers_violated`, `Solver.C73_lls_complex`, `Solver.C73_lls_integers`, `Solver.C73_lsmr`, `Solver.C73_lsmr_raises`, `Solver.C73_lsqr`, `Solver.C73_lsqr_raises`, `Solver.C73_minres`, `Solver.C73_minres_integers`, `Solver.C73_minres_integers_exact`, `Solver.C73_tfqmr`, `Solver.C73_tfqmr_raises`, `Solver.C75_bicgstab_partial`, `Solver.C75_cg_partial`, `Solver.C75_cg_phase`, `Solver.C75_cg_symmetric`, `Solver.C75_cgs_partial`, `Solver.C75_isotropic`, `Solver.C75_isotropic_violated`, `Solver.C75_real`, `Solver.C75_tfqmr_partial`, `Solver.C75_tfqmr_violated`, `Solver.C76_bicgstab`, `Solver.C76_cg_partial`, `Solver.C76_cg_violated`, `Solver.C76_cgs`, `Solver.C76_craig`, `Solver.C76_craigmr`, `Solver.C76_lsmr_partial`, `Solver.C76_lsmr_violated`, `Solver.C76_lsqr`, `Solver.C76_minres_partial`, `Solver.C76_minres_violated`, `Solver.C76_symmlq_partial`, `Solver.C76_tfqmr`, `Solver.C77_bicgstab`, `Solver.C77_cg`, `Solver.C77_cgs`, `Solver.C77_tfqmr`, `Solver.C78_craig_no_rows`, `Solver.C78_craig_show`, `Solver.C78_craig_silent`, `Solver.C78_lsmr_rows`, `Solver.C78_lsmr_show`, `Solver.C78_lsmr_silent`, `Solver.C78_lsqr_rows`, `Solver.C78_lsqr_show`, `Solver.C78_lsqr_silent`, `Solver.C78_minres_noise`, `Solver.C78_minres_overruled`, `Solver.C78_minres_rows`, `Solver.C78_minres_show`, `Solver.C78_minres_violated`, `Solver.C78_minres_wrong_message`, `Solver.C79_bicgstab`, `Solver.C79_cg`, `Solver.C79_cg_torn`, `Solver.C79_cg_values`, `Solver.C79_cgs`, `Solver.C79_craig`, `Solver.C79_craigmr_lost`, `Solver.C79_craigmr_partial`, `Solver.C79_lsmr`, `Solver.C79_lsqr`, `Solver.C79_lsqr_solution`, `Solver.C79_lsqr_torn`, `Solver.C79_minres`, `Solver.C79_symmlq`, `Solver.C79_symmlq_raises`, `Solver.C79_symmlq_torn`, `Solver.C79_tfqmr`, `Solver.C80_bicgstab`, `Solver.C80_cg`, `Solver.C80_cgs`, `Solver.C80_lsmr`, `Solver.C80_lsqr`, `Solver.C80_minres`, `Solver.C80_symmlq`, `Solver.C80_tfqmr`, `Solver.C81_cg`, `Solver.C81_consistent`, `Solver.C84_cg`, `Solver.C84_cg_last`, `Solver.C84_cgs_violated`, `Solver.C84_tfqmr_partial`, `Solver.C84_tfqmr_violated`, `Solver.C85_cg`, `Solver.C85_lsmr`, `Solver.C85_lsqr`, `Solver.C85_minres`, `Solver.C86_minres_not_shortest`, `Solver.C86_minres_partial`, `Solver.C86_minres_violated`, `Solver.C87_cg`, `Solver.C87_craig`, `Solver.C87_craig_preconditioned`, `Solver.C87_craigmr`, `Solver.C87_craigmr_preconditioned`, `Solver.C87_lsmr`, `Solver.C87_lsmr_preconditioned`, `Solver.C87_lsqr`, `Solver.C87_lsqr_preconditioned`, `Solver.C87_minres_partial`, `Solver.C87_minres_preconditioned_partial`, `Solver.C89_craig_violated`, `Solver.C89_craigmr_violated`, `Solver.C89_lsmr_violated`, `Solver.C89_lsqr_violated`, `Solver.C89_new_rectangular`, `Solver.C89_new_square`, `Solver.C89_square_violated`, `Solver.C90_bicgstab_partial`, `Solver.C90_cg_partial`, `Solver.C90_cgs`, `Solver.C90_dense_bicgstab_partial`, `Solver.C90_dense_cg_partial`, `Solver.C90_dense_cgs`, `Solver.C95_bicgstab_partial`, `Solver.C95_cg_partial`, `Solver.C95_cgs`, `Solver.C96_limit_message`, `Solver.C96_limit_violated`, `Solver.C96_message_partial`, `Solver.C96_raises`, `Solver.C96_reason_partial`, `Solver.C96_same`, `Solver.C96_table`, `Solver.C96_wrong_message`, `Solver.Float64Example.C90_threshold_violated`, `Threads.C74_alone`, `Threads.C74_counter_partial`, `Threads.C74_counter_violated`, `Threads.C74_lbfgs_compact`, `Threads.C74_lbfgs_inverse_partial`, `Threads.C74_lbfgs_inverse_violated`, `Threads.C74_matrix`, `Tools.C43_exact_roots`, `Tools.C43_ill_conditioned`, `Tools.C43_large_tol`, `Tools.C43_zero_polynomial`, `Tools.C44_check_symmetric_partial`, `Tools.C44_complex_symmetric_rejected`, `Tools.C45_check_positive_definite`, `Tools.C82_definite`, `Tools.C82_keeps_stream_partial`, `Tools.C82_not_square`, `Tools.C82_reproducible`, `Tools.C82_stream_lost`, `Tools.C82_stream_violated`, `Tools.C82_symmetric`, `Tools.C83_definite_exact`, `Tools.C83_definite_violated`, `Tools.C83_symmetric_blind`, `Tools.C83_symmetric_exact`, `Tools.C83_symmetric_exposed`, `Tools.C83_symmetric_likely`, `Tools.C92_definite`, `Tools.C92_exposed`, `Tools.C92_indefinite`, `Tools.C92_operators_partial`, `Tools.C92_symmetric_partial`, `Tools.C92_symmetric_violated`, `Tools.C94_float64_partial`, `Tools.C94_newton_float64_partial`, `Tools.C94_newton_partial`, `Tools.C94_no_exception`, `Tools.C94_normal`, `Tools.C94_refine_violated`, `Tools.C94_roots_partial`, `Tools.C94_underflow_violated`

**Quot.sound, propext** (38 theorems): `Blkop.C20_empty`, `Blkop.C59_block_index_partial`, `Blkop.C59_diag_rejected_partial`, `Linop.C05_wrong_size`, `Linop.C15_flags`, `Linop.C61_no_flag`, `Linop.C88_classes`, `Solver.C31_products_complete`, `Solver.C37_conlim_ignored`, `Solver.C37_nan_raises`, `Solver.C37_wantvar_raises`, `Solver.C41_damp_ignored`, `Solver.C42_damp_ignored`, `Solver.C49_bicgstab_inputs_unmodified`, `Solver.C49_cgs_inputs_unmodified`, `Solver.C49_craig_inputs_unmodified`, `Solver.C49_craigmr_inputs_unmodified`, `Solver.C49_lsqr_inputs_unmodified`, `Solver.C49_tfqmr_inputs_unmodified`, `Solver.C54_bicgstab_partial`, `Solver.C54_cgs`, `Solver.C54_cgs_sharing`, `Solver.C70_bicgstab`, `Solver.C70_cgs`, `Solver.C70_craig`, `Solver.C70_craigmr`, `Solver.C70_lsqr`, `Solver.C70_tfqmr`, `Solver.C73_bicgstab`, `Solver.C73_cgs`, `Solver.C73_craig`, `Solver.C73_craigmr`, `Solver.C78_craigmr_noise`, `Solver.C78_craigmr_show`, `Solver.C78_lsqr_no_columns`, `Solver.C84_bicgstab`, `Solver.C84_cgs_partial`, `Threads.C74_results`

**none** (1 theorems): `Threads.C74_lbfgs_forward`

**propext** (2 theorems): `Linop.C88_commutes`, `Linop.C88_order_violated`

<!-- axioms: end -->
