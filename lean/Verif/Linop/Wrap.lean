import Verif.Linop.Program
import Mathlib.LinearAlgebra.Matrix.Determinant.Basic
import Mathlib.LinearAlgebra.Matrix.NonsingularInverse

/-!
# Models of the operators that wrap external sparse matrices

`PysparseLinearOperator` (`linop.py:688-720`) and `CholeskyOperator` (`cholesky.py:15-44`).  The libraries behind them are
parameters: what the code uses of a PySparse matrix and of a CHOLMOD factor is a record of functions, and the specification
says what these functions are expected to do.
-/

namespace Verif.Linop

section
variable {K : Type} [CommRing K] [StarRing K] [DTypes K]

/-- What the code uses of a PySparse matrix: `shape`, the attribute `issym` if there is one, the result of the method
`isSymmetric` if there is one, `A*x` and `y*A` if these operators are defined, and what `A.matvec(x, Ax)` and
`A.matvec_transp(y, ATy)` write into the float array they are given. -/
structure SparseObj (K : Type) where
  rows : Nat
  cols : Nat
  issym : Option Bool
  isSymmetric : Option Bool
  mul : Option (Fn K)
  rmul : Option (Fn K)
  matvec : Arr K → Except Err (List K)
  matvecTransp : Arr K → Except Err (List K)

/-- The closures, lines 697-706 (`matvec`) and 708-717 (`matvec_transp`): with the operator if it is defined, otherwise with
the method that fills a new float array. -/
def sparseFn (n : Nat) (star : Option (Fn K)) (fill : Arr K → Except Err (List K)) : Fn K := fun x =>
  if x.data.length ≠ n then .error .shapeError
  else match star with
    | some f => f x
    | none => match fill x with
      | .ok y => .ok ⟨.real, y⟩
      | .error e => .error e

/-- `symmetric = A.issym`, or else `A.isSymmetric()`, lines 692-695 -/
def SparseObj.symmetric (A : SparseObj K) : Except Err Bool :=
  match A.issym with
  | some b => .ok b
  | none => match A.isSymmetric with
    | some b => .ok b
    | none => .error .attributeError

/-- `PysparseLinearOperator(A)`, lines 688-720; the dtype is the default one, float. -/
def PysparseLinearOperator (A : SparseObj K) (h : Heap K) : Except Err (Nat × Heap K) := do
  let symmetric ← A.symmetric
  .ok (LinearOperator ⟨A.cols, A.rows, .prim (sparseFn A.cols A.mul A.matvec),
    some (.prim (sparseFn A.rows A.rmul A.matvecTransp)), none, symmetric, false, .real, none, none, none⟩ h)

/-- `CholeskyOperator(A, **kwargs)`, `cholesky.py:23-44`, for a matrix of the given shape; `factor` is the outcome of
`cholesky(A)`, line 35: an exception or the function that solves with the factors; `dtype` and `hermitian` are what `kwargs`
may contain. -/
def CholeskyOperator (rows cols : Nat) (factor : Except Err (Fn K)) (hermitian : Bool) (dtype : DKind) (h : Heap K) :
    Except Err (Nat × Heap K) :=
  if rows ≠ cols then .error .valueError
  else match factor with
    | .error e => .error e
    | .ok f => .ok (LinearOperator ⟨cols, cols, .prim f, none, none, true, hermitian, dtype, none, none, none⟩ h)

/-! ## Specification -/

/-- `A` behaves as the real matrix `M`: the flag is truthful, the products return for arrays of int or float entries of the
right size, and what they return is the product; for complex arrays the operators may raise, and the methods do. -/
structure SparseObj.Holds (A : SparseObj K) (M : Mat K) : Prop where
  rows : A.rows = M.rows
  cols : A.cols = M.cols
  kind : M.kind = .real
  typed : M.Typed
  flag : ∃ b, A.issym.or A.isSymmetric = some b ∧ (b = true → M.Eqv M.T)
  mul : ∀ f, A.mul = some f → Computes M f ∧
    ∀ x : Arr K, x.Typed → x.kind ≠ .complex → x.data.length = M.cols → ∃ y, f x = .ok y
  rmul : ∀ f, A.rmul = some f → Computes M.T f ∧
    ∀ x : Arr K, x.Typed → x.kind ≠ .complex → x.data.length = M.rows → ∃ y, f x = .ok y
  matvec : ∀ x : Arr K, x.Typed → x.data.length = M.cols →
    if x.kind = .complex then ∃ e, A.matvec x = .error e else A.matvec x = .ok (M.app x.data)
  matvecTransp : ∀ x : Arr K, x.Typed → x.data.length = M.rows →
    if x.kind = .complex then ∃ e, A.matvecTransp x = .error e else A.matvecTransp x = .ok (M.T.app x.data)

/-- Every product with an array of int or float entries of the right size returns (if the recursion limit exceeds the number
of operator objects). -/
def TotalReal (h : Heap K) (r : Nat) (A : Mat K) : Prop :=
  ∀ (fuel : Nat) (x : Arr K) (c : Cnt), h.length ≤ fuel → x.Typed → x.kind ≠ .complex → x.data.length = A.cols →
    ∃ c', run h fuel r x c = (.ok ⟨A.kind.join x.kind, A.app x.data⟩, c')

/-- A Mathlib matrix with a dtype class. -/
def Mat.of {m n : Nat} (k : DKind) (N : Matrix (Fin m) (Fin n) K) : Mat K :=
  ⟨m, n, k, fun i j => if h : i < m ∧ j < n then N ⟨i, h.1⟩ ⟨j, h.2⟩ else 0⟩

/-- The function solves linear systems with the matrix `M`, at least for right-hand sides of the dtype classes in `ks`. -/
def Solves {n : Nat} (M : Matrix (Fin n) (Fin n) K) (ks : DKind → Prop) (f : Fn K) : Prop :=
  ∀ x : Arr K, x.Typed → x.data.length = n →
    (∀ y, f x = .ok y → y.data.length = n ∧
      M.mulVec (fun i => y.data.getD i 0) = (fun i : Fin n => x.data.getD i 0)) ∧
    (ks x.kind → ∃ y, f x = .ok y)

end
end Verif.Linop
