import Verif.Linop.Counts
import Verif.Linop.Div

/-!
# Interactive sessions: operand dispatch, aliases, products between constructions

A session is a list of statements; each binds the next variable to a Python value, or raises an exception, which the client
catches and goes on.  `Stmt.exec` models the dispatch on the types of the operands in `linop.py`; `Stmt.spec` is the same
session on plain matrices.

Simplifications: arrays with more than two dimensions, and strings (which NumPy counts as scalars), do not occur; scalars are
Python numbers.  Statements on which the library's code is not called, or is called by NumPy (an array on the left of an
operator), are excluded by `Stmt.WF`.
-/

set_option linter.unusedSectionVars false

namespace Verif.Linop

/-- A Python value. -/
inductive PyVal (K : Type)
  /-- an operator object -/
  | op (r : Nat)
  /-- an array with one dimension -/
  | arr (x : Arr K)
  /-- an array with two dimensions -/
  | arr2 (A : NdArray2 K)
  | num (a : K) (ka : DKind)
  /-- `None` -/
  | none
  /-- an object of any other type: a list, a dictionary, a function, ... -/
  | other

/-- The same with matrices in place of operators. -/
inductive SVal (K : Type)
  | mat (A : Mat K)
  | arr (x : Arr K)
  | arr2 (A : NdArray2 K)
  | num (a : K) (ka : DKind)
  | none
  | other

/-- Statements; operands are variables (by position). -/
inductive Stmt (K : Type)
  /-- a literal, or the result of code outside the library -/
  | array (x : Arr K)
  | array2 (A : NdArray2 K)
  | num (a : K) (ka : DKind)
  | none
  | other
  /-- `LinearOperator(...)`, `IdentityOperator`, `ZeroOperator`, `DiagonalOperator` -/
  | new (A : Mat K) (symmetric hermitian : Bool) (f : Fn K) (ft fa : Option (Fn K))
  | ident (n : Nat) (k : DKind)
  | zero (nargin nargout : Nat) (k : DKind)
  | diag (d : Arr K)
  /-- `linop_from_ndarray(u, symmetric=, hermitian=)` -/
  | fromArray (u : Nat) (symmetric : Bool) (hermitian : Option Bool)
  /-- `u * v`, `u + v`, `u - v`, `u / v` (with true division), `-u` -/
  | mul (u v : Nat)
  | add (u v : Nat)
  | sub (u v : Nat)
  | div (u v : Nat)
  | neg (u : Nat)
  /-- `u ** k` for an `int` -/
  | pow (u : Nat) (k : Int)
  /-- `u ** v` for anything else -/
  | powOther (u v : Nat)
  /-- `u(v)`, `u.rmatvec(v)` -/
  | call (u v : Nat)
  | rmatvec (u v : Nat)
  /-- `u.T`, `u.H`, `u.bar` -/
  | T (u : Nat)
  | H (u : Nat)
  | bar (u : Nat)
  /-- `u.to_array()`, `u.full()` -/
  | full (u : Nat)
  /-- `u.reset_counters()` -/
  | reset (u : Nat)
  | reduce (u : Nat) (rows cols : List Int)
  | symreduce (u : Nat) (idx : List Int)

/-- Operator objects and their counters. -/
structure SessSt (K : Type) where
  heap : Heap K
  cnt : Cnt

/-- A computation of a session: it changes objects and counters, and may raise. -/
def Sess (K α : Type) := SessSt K → Except Err α × SessSt K

namespace Sess
variable {K α β : Type}
def pure (a : α) : Sess K α := fun s => (.ok a, s)
def raise (e : Err) : Sess K α := fun s => (.error e, s)
def bind (x : Sess K α) (f : α → Sess K β) : Sess K β := fun s =>
  match x s with
  | (.ok a, s') => f a s'
  | (.error e, s') => (.error e, s')
instance : Monad (Sess K) where
  pure := Sess.pure
  bind := Sess.bind
/-- code that only changes counters -/
def act (f : Heap K → Act α) : Sess K α := fun s => let p := f s.heap s.cnt; (p.1, ⟨s.heap, p.2⟩)
/-- construction of an operator (new objects start with counter 0, `linop.py:39`) -/
def make (f : Heap K → Except Err (Nat × Heap K)) : Sess K (PyVal K) := fun s =>
  match f s.heap with
  | .ok (r, h) => (.ok (.op r), ⟨h, s.cnt ++ List.replicate (h.length - s.heap.length) 0⟩)
  | .error e => (.error e, s)
end Sess

section
variable {K : Type}

/-- the entries of a two-dimensional array row by row: `x.reshape(n)`, `linop.py:284` -/
def NdArray2.flat (A : NdArray2 K) : Arr K :=
  ⟨A.kind, (List.range A.rows).flatMap fun i => (List.range A.cols).map (A.get i)⟩

variable [Field K] [StarRing K] [DTypes K] [DecidableEq K]

/-- the value of a variable; a variable whose statement raised is not defined -/
def readVar (env : List (Except Err (PyVal K))) (u : Nat) : Sess K (PyVal K) :=
  match env[u]? with
  | some (.ok v) => Sess.pure v
  | _ => Sess.raise .unboundLocal

/-- `__mul_vector`, `linop.py:356-360`; the recursion limit exceeds the number of operator objects by `extra` -/
def mulVector (extra r : Nat) (x : Arr K) : Sess K (PyVal K) := do
  let y ← Sess.act fun h => run h (h.length + extra) r x
  Sess.pure (.arr y)

/-- `op.__mul__(x)`, `linop.py:362-369`, by the type of `x` -/
def dunderMul (extra r : Nat) : PyVal K → Sess K (PyVal K)
  | .num a ka => Sess.make (mulScalar r a ka)
  | .op s => Sess.make (mulLinop r s)
  | .arr x => mulVector extra r x
  | .arr2 A => mulVector extra r A.flat
  | .none => Sess.raise .valueError
  | .other => Sess.raise .valueError

/-- `op.__rmul__(x)`, `linop.py:371-376` -/
def dunderRmul (r : Nat) : PyVal K → Sess K (PyVal K)
  | .num a ka => Sess.make (mulScalar r a ka)
  | .op s => Sess.make (mulLinop s r)
  | _ => Sess.raise .valueError

/-- `u * v` in Python: `type(u).__mul__`, and if there is none for `v`, `type(v).__rmul__`; `TypeError` stands for
expressions in which the library takes no part -/
def pyMul (extra : Nat) : PyVal K → PyVal K → Sess K (PyVal K)
  | .op r, v => dunderMul extra r v
  | u, .op s => dunderRmul s u
  | _, _ => Sess.raise .typeError

/-- `u + v`, `linop.py:378-382`; there is no `__radd__` -/
def pyAdd : PyVal K → PyVal K → Sess K (PyVal K)
  | .op r, .op s => Sess.make (addOp r s)
  | .op _, _ => Sess.raise .valueError
  | _, _ => Sess.raise .typeError

/-- `u - v`, `linop.py:406-410`; there is no `__rsub__` -/
def pySub : PyVal K → PyVal K → Sess K (PyVal K)
  | .op r, .op s => Sess.make (subOp r s)
  | .op _, _ => Sess.raise .valueError
  | _, _ => Sess.raise .typeError

/-- `u / v`, `linop.py:436-439` -/
def pyDiv : PyVal K → PyVal K → Sess K (PyVal K)
  | .op r, .num a ka => Sess.make (trueDiv r a ka)
  | .op _, _ => Sess.raise .valueError
  | _, _ => Sess.raise .typeError

/-- `u.T` / `u.H`, `linop.py:196-204`: an operator or `None` -/
def attrT (r : Nat) : Sess K (PyVal K) := fun s =>
  (.ok (match getT s.heap r with | some t => .op t | none => .none), s)
def attrH (r : Nat) : Sess K (PyVal K) := fun s =>
  (.ok (match getH s.heap r with | some t => .op t | none => .none), s)

/-- `u.rmatvec(v)`, `linop.py:300-305`: `self.__H.__mul__(x)` -/
def pyRmatvec (extra r : Nat) (v : PyVal K) : Sess K (PyVal K) := fun s =>
  match getH s.heap r with
  | some t => dunderMul extra t v s
  | none => (.error .attributeError, s)

/-- `u.full()`, `linop.py:255-269`: the columns as a two-dimensional array -/
def pyFull (extra r : Nat) : Sess K (PyVal K) := do
  let cols ← Sess.act fun h => toArray h (h.length + extra) r
  fun s => match s.heap[r]? with
    | some o => (.ok (.arr2 ⟨o.dtype, o.nargout, o.nargin, fun i j => (cols[j]?.bind (·[i]?)).getD 0⟩), s)
    | none => (.error .attributeError, s)

/-- run `f` on an operator; for other values the statement is not a call of the library -/
def onOp (v : PyVal K) (f : Nat → Sess K (PyVal K)) : Sess K (PyVal K) :=
  match v with
  | .op r => f r
  | _ => Sess.raise .typeError

/-- One statement. -/
def Stmt.exec (extra : Nat) (env : List (Except Err (PyVal K))) : Stmt K → Sess K (PyVal K)
  | .array x => Sess.pure (.arr x)
  | .array2 A => Sess.pure (.arr2 A)
  | .num a ka => Sess.pure (.num a ka)
  | .none => Sess.pure .none
  | .other => Sess.pure .other
  | .new A sy he f ft fa => Sess.make fun h =>
      .ok (LinearOperator ⟨A.cols, A.rows, .prim f, ft.map .prim, fa.map .prim, sy, he, A.kind, Option.none, Option.none, Option.none⟩ h)
  | .ident n k => Sess.make fun h => .ok (IdentityOperator n k h)
  | .zero nin nout k => Sess.make fun h => .ok (ZeroOperator nin nout k h)
  | .diag d => Sess.make fun h => .ok (DiagonalOperator d h)
  | .fromArray u sy he => do
      match ← readVar env u with
      | .arr2 A => Sess.make (linopFromNdarray A sy he)
      | _ => Sess.raise .typeError
  | .mul u v => do pyMul extra (← readVar env u) (← readVar env v)
  | .add u v => do pyAdd (← readVar env u) (← readVar env v)
  | .sub u v => do pySub (← readVar env u) (← readVar env v)
  | .div u v => do pyDiv (← readVar env u) (← readVar env v)
  | .neg u => do onOp (← readVar env u) fun r => Sess.make (negOp r)
  | .pow u k => do onOp (← readVar env u) fun r => Sess.make (powOp r k)
  | .powOther u v => do
      let a ← readVar env u
      let _ ← readVar env v
      onOp a fun _ => Sess.raise .valueError            -- linop.py:442-443
  | .call u v => do
      let a ← readVar env u
      let b ← readVar env v
      onOp a fun r => dunderMul extra r b                -- linop.py:85-87
  | .rmatvec u v => do
      let a ← readVar env u
      let b ← readVar env v
      onOp a fun r => pyRmatvec extra r b
  | .T u => do onOp (← readVar env u) attrT
  | .H u => do onOp (← readVar env u) attrH
  | .bar u => do onOp (← readVar env u) fun r => Sess.make fun h => .ok (conjugate r h)
  | .full u => do onOp (← readVar env u) (pyFull extra)
  | .reset u => do onOp (← readVar env u) fun r s => (.ok .none, { s with cnt := s.cnt.set r 0 })
  | .reduce u rows cols => do onOp (← readVar env u) fun r => Sess.make (ReducedLinearOperator r rows cols)
  | .symreduce u idx => do onOp (← readVar env u) fun r => Sess.make (SymmetricallyReducedLinearOperator r idx)

/-- A session: all values and exceptions, in order. -/
def session (extra : Nat) : List (Stmt K) → List (Except Err (PyVal K)) → SessSt K → List (Except Err (PyVal K)) × SessSt K
  | [], env, s => (env, s)
  | c :: cs, env, s =>
    let p := c.exec extra env s
    session extra cs (env ++ [p.1]) p.2

/-! ## The same on matrices -/

/-- the value of a variable -/
def sread (env : List (Except Err (SVal K))) (u : Nat) : Except Err (SVal K) :=
  match env[u]? with
  | some (.ok v) => .ok v
  | _ => .error .unboundLocal

/-- the entries in C order: number `k` is in row `k / cols` and column `k % cols` -/
def rowMajor (X : NdArray2 K) : List K := (List.range (X.rows * X.cols)).map fun k => X.get (k / X.cols) (k % X.cols)

/-- product of a matrix and a value -/
def smulSpec (A : Mat K) : SVal K → Except Err (SVal K)
  | .num a ka => .ok (.mat (A.smul a ka))
  | .mat B => if A.cols = B.rows then .ok (.mat (A.mul B)) else .error .shapeError
  | .arr x => if x.data.length = A.cols then .ok (.arr ⟨A.kind.join x.kind, A.app x.data⟩) else .error .valueError
  | .arr2 X => if X.rows * X.cols = A.cols then .ok (.arr ⟨A.kind.join X.kind, A.app (rowMajor X)⟩) else .error .valueError
  | .none => .error .valueError
  | .other => .error .valueError

/-- the dense array of a matrix -/
def Mat.dense (A : Mat K) : NdArray2 K :=
  ⟨A.kind, A.rows, A.cols, fun i j => if i < A.rows ∧ j < A.cols then A.e i j else 0⟩

/-- what a statement should do -/
def Stmt.spec (env : List (Except Err (SVal K))) : Stmt K → Except Err (SVal K)
  | .array x => .ok (.arr x)
  | .array2 A => .ok (.arr2 A)
  | .num a ka => .ok (.num a ka)
  | .none => .ok .none
  | .other => .ok .other
  | .new A _ _ _ _ _ => .ok (.mat A)
  | .ident n k => .ok (.mat (Mat.ident n k))
  | .zero nin nout k => .ok (.mat (Mat.zero nout nin k))
  | .diag d => .ok (.mat (Mat.diag d))
  | .fromArray u sy he => do
      match ← sread env u with
      | .arr2 A => if A.kind ≠ .complex ∧ sy ≠ he.getD sy then .error .valueError else .ok (.mat (Mat.ofNd A))
      | _ => .error .typeError
  | .mul u v => do
      match ← sread env u, ← sread env v with
      | .mat A, b => smulSpec A b
      | .num a ka, .mat B => .ok (.mat (B.smul a ka))
      | _, .mat _ => .error .valueError
      | _, _ => .error .typeError
  | .add u v => do
      match ← sread env u, ← sread env v with
      | .mat A, .mat B => if A.rows = B.rows ∧ A.cols = B.cols then .ok (.mat (A.add B)) else .error .shapeError
      | .mat _, _ => .error .valueError
      | _, _ => .error .typeError
  | .sub u v => do
      match ← sread env u, ← sread env v with
      | .mat A, .mat B => if A.rows = B.rows ∧ A.cols = B.cols then .ok (.mat (A.sub B)) else .error .shapeError
      | .mat _, _ => .error .valueError
      | _, _ => .error .typeError
  | .div u v => do
      match ← sread env u, ← sread env v with
      | .mat A, .num a ka => if a = 0 then .error .zeroDivisionError else .ok (.mat (A.smul (1 / a) (DKind.real.join ka)))
      | .mat _, _ => .error .valueError
      | _, _ => .error .typeError
  | .neg u => do
      match ← sread env u with
      | .mat A => .ok (.mat (A.smul (-1) .int))
      | _ => .error .typeError
  | .pow u k => do
      match ← sread env u with
      | .mat A => if k < 0 then .error .valueError else if A.cols ≠ A.rows then .error .shapeError else .ok (.mat (A.pow k.toNat))
      | _ => .error .typeError
  | .powOther u v => do
      match ← sread env u, ← sread env v with
      | .mat _, _ => .error .valueError
      | _, _ => .error .typeError
  | .call u v => do
      match ← sread env u, ← sread env v with
      | .mat A, b => smulSpec A b
      | _, _ => .error .typeError
  | .rmatvec u v => do
      match ← sread env u, ← sread env v with
      | .mat A, b => smulSpec A.H b
      | _, _ => .error .typeError
  | .T u => do
      match ← sread env u with
      | .mat A => .ok (.mat A.T)
      | _ => .error .typeError
  | .H u => do
      match ← sread env u with
      | .mat A => .ok (.mat A.H)
      | _ => .error .typeError
  | .bar u => do
      match ← sread env u with
      | .mat A => .ok (.mat A.conj)
      | _ => .error .typeError
  | .full u => do
      match ← sread env u with
      | .mat A => .ok (.arr2 A.dense)
      | _ => .error .typeError
  | .reset u => do
      match ← sread env u with
      | .mat _ => .ok .none
      | _ => .error .typeError
  | .reduce u rows cols => do
      match ← sread env u with
      | .mat A =>
        match rows.mapM (pyIndex A.rows), cols.mapM (pyIndex A.cols) with
        | some rs, some cs => .ok (.mat (A.submat rs cs))
        | _, _ => .error .indexError
      | _ => .error .typeError
  | .symreduce u idx => do
      match ← sread env u with
      | .mat A =>
        match idx.mapM (pyIndex A.rows), idx.mapM (pyIndex A.cols) with
        | some rs, some cs => .ok (.mat (A.submat rs cs))
        | _, _ => .error .indexError
      | _ => .error .typeError

/-- the session on matrices -/
def sessionSpec : List (Stmt K) → List (Except Err (SVal K)) → List (Except Err (SVal K))
  | [], env => env
  | c :: cs, env => sessionSpec cs (env ++ [c.spec env])

/-- variable `u`, if it is defined, has a value with property `P` -/
def Holds (env : List (Except Err (SVal K))) (u : Nat) (P : SVal K → Prop) : Prop := ∀ v, env[u]? = some (.ok v) → P v

def SVal.isMat : SVal K → Prop
  | .mat _ => True
  | _ => False

def SVal.isArr2 : SVal K → Prop
  | .arr2 _ => True
  | _ => False

def SVal.isArray : SVal K → Prop
  | .arr _ => True
  | .arr2 _ => True
  | _ => False

/-- The statement is a call of the library and its arguments are meaningful: user functions compute what is claimed and
determine transpose and adjoint, flags tell the truth, array entries and scalars belong to their dtype, index lists are in range
and without repetitions.  The operands of `*`, `+`, `-`, `/` are arbitrary, provided one of them is an operator and it is not
the right operand of an array; the reciprocal of a divisor is representable (over the complex numbers it always is, see
`C65_reciprocal`). -/
def Stmt.WF (env : List (Except Err (SVal K))) : Stmt K → Prop
  | .array x => x.Typed
  | .array2 A => (Mat.ofNd A).Typed
  | .num a ka => a ∈ (DTypes.sub ka : Subring K)
  | .none => True
  | .other => True
  | .new A sy he f ft fa => (Cmd.new A sy he f ft fa).WF [] ∧ (Cmd.new A sy he f ft fa).Complete
  | .ident _ _ => True
  | .zero _ _ _ => True
  | .diag d => d.Typed
  | .fromArray u sy he => Holds env u SVal.isArr2 ∧ Holds env u fun v => ∀ A, v = .arr2 A →
      (sy = true → (Mat.ofNd A).Eqv (Mat.ofNd A).T) ∧ (he.getD sy = true → (Mat.ofNd A).Eqv (Mat.ofNd A).H)
  | .mul u v => Holds env u fun a => Holds env v fun b => a.isMat ∨ (b.isMat ∧ ¬ a.isArray)
  | .add u v => Holds env u fun a => Holds env v fun b => a.isMat ∨ (b.isMat ∧ ¬ a.isArray)
  | .sub u v => Holds env u fun a => Holds env v fun b => a.isMat ∨ (b.isMat ∧ ¬ a.isArray)
  | .div u v => Holds env u fun a => Holds env v fun b => (a.isMat ∨ (b.isMat ∧ ¬ a.isArray)) ∧
      ∀ k kk, b = .num k kk → 1 / k ∈ (DTypes.sub (DKind.real.join kk) : Subring K)
  | .powOther u v => Holds env u SVal.isMat ∧ Holds env v fun b => ∀ a, b ≠ .num a .int
  | .call u _ => Holds env u SVal.isMat
  | .rmatvec u _ => Holds env u SVal.isMat
  | .neg u => Holds env u SVal.isMat
  | .pow u _ => Holds env u SVal.isMat
  | .T u => Holds env u SVal.isMat
  | .H u => Holds env u SVal.isMat
  | .bar u => Holds env u SVal.isMat
  | .full u => Holds env u SVal.isMat
  | .reset u => Holds env u SVal.isMat
  | .reduce u rows cols => Holds env u SVal.isMat ∧ Holds env u fun v => ∀ A, v = .mat A →
      ∃ rs cs, rows.mapM (pyIndex A.rows) = some rs ∧ cols.mapM (pyIndex A.cols) = some cs ∧ rs.Nodup ∧ cs.Nodup
  | .symreduce u idx => Holds env u SVal.isMat ∧ Holds env u fun v => ∀ A, v = .mat A →
      ∃ rs cs, idx.mapM (pyIndex A.rows) = some rs ∧ idx.mapM (pyIndex A.cols) = some cs ∧ rs.Nodup ∧ cs.Nodup

/-- all statements of a session, each with the variables defined before it -/
def SessionWF : List (Except Err (SVal K)) → List (Stmt K) → Prop
  | _, [] => True
  | env, c :: cs => c.WF env ∧ SessionWF (env ++ [c.spec env]) cs

/-- What a client observes of a value agrees with the session on matrices: the same exception, the same array or number, or an
operator whose products are the matrix-vector products (every product with an array of the right size returns). -/
def Agree (h : Heap K) : Except Err (PyVal K) → Except Err (SVal K) → Prop
  | .error e, .error e' => e = e'
  | .ok (.op r), .ok (.mat A) => Represents h r A ∧ Total h r A
  | .ok (.arr x), .ok (.arr y) => x = y
  | .ok (.arr2 A), .ok (.arr2 B) => A = B
  | .ok (.num a ka), .ok (.num b kb) => a = b ∧ ka = kb
  | .ok .none, .ok .none => True
  | .ok .other, .ok .other => True
  | _, _ => False

end
end Verif.Linop
