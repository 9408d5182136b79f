import Verif.Linop.Spec

/-!
# Client programs over the operator API

A program is a list of commands; each command builds one operator out of operators built before (by their
position, so operands may be shared freely) and binds it to the next variable.  `exec` runs the model of
`linop.py`; `spec` computes on plain matrices.
-/

namespace Verif.Linop

/-- A user supplied matvec function. -/
abbrev Fn (K : Type) := Arr K → Except Err (Arr K)

inductive Cmd (K : Type)
  /-- `LinearOperator(nargin, nargout, f, matvec_transp=ft, matvec_adj=fa, symmetric=, hermitian=, dtype=)`;
      `A` gives the sizes and the dtype; its entries are what the user claims about `f` (not used by `exec`) -/
  | new (A : Mat K) (symmetric hermitian : Bool) (f : Fn K) (ft fa : Option (Fn K))
  | ident (n : Nat) (k : DKind)
  | zero (nargin nargout : Nat) (k : DKind)
  | diag (d : Arr K)
  | nd (A : NdArray2 K) (symmetric : Bool) (hermitian : Option Bool)
  /-- `v_i * v_j` -/
  | mul (i j : Nat)
  /-- `a * v_i` or `v_i * a`, `a` of dtype class `ka` -/
  | smul (i : Nat) (a : K) (ka : DKind)
  | add (i j : Nat)
  | sub (i j : Nat)
  | neg (i : Nat)
  /-- `v_i ** k` -/
  | pow (i : Nat) (k : Int)
  /-- `v_i.T`, `v_i.H`, `v_i.bar` -/
  | T (i : Nat)
  | H (i : Nat)
  | conj (i : Nat)
  | reduce (i : Nat) (rows cols : List Int)
  | symreduce (i : Nat) (idx : List Int)

section
variable {K : Type} [CommRing K] [StarRing K] [DTypes K]

/-! ## What the code does -/

/-- the object bound to variable `i` -/
def look (env : List Nat) (i : Nat) : Except Err Nat :=
  match env[i]? with
  | some r => .ok r
  | none => .error .unboundLocal

/-- Run one command.  Reading a missing `.T` / `.H` gives `None` in Python, which fails at its next use; here the
command itself fails. -/
def Cmd.exec [DecidableEq K] (env : List Nat) (h : Heap K) : Cmd K → Except Err (Nat × Heap K)
  | .new A sy he f ft fa =>
    .ok (LinearOperator ⟨A.cols, A.rows, .prim f, ft.map .prim, fa.map .prim, sy, he, A.kind, none, none, none⟩ h)
  | .ident n k => .ok (IdentityOperator n k h)
  | .zero nin nout k => .ok (ZeroOperator nin nout k h)
  | .diag d => .ok (DiagonalOperator d h)
  | .nd A sy he => linopFromNdarray A sy he h
  | .mul i j => do let r ← look env i; let s ← look env j; mulLinop r s h
  | .smul i a ka => do let r ← look env i; mulScalar r a ka h
  | .add i j => do let r ← look env i; let s ← look env j; addOp r s h
  | .sub i j => do let r ← look env i; let s ← look env j; subOp r s h
  | .neg i => do let r ← look env i; negOp r h
  | .pow i k => do let r ← look env i; powOp r k h
  | .T i => do
    let r ← look env i
    match getT h r with
    | some t => .ok (t, h)
    | none => .error .typeError
  | .H i => do
    let r ← look env i
    match getH h r with
    | some t => .ok (t, h)
    | none => .error .typeError
  | .conj i => do let r ← look env i; .ok (conjugate r h)
  | .reduce i rows cols => do let r ← look env i; ReducedLinearOperator r rows cols h
  | .symreduce i idx => do let r ← look env i; SymmetricallyReducedLinearOperator r idx h

/-- Run a program; the result is the heap and the variables. -/
def execAll [DecidableEq K] : List (Cmd K) → List Nat × Heap K → Except Err (List Nat × Heap K)
  | [], s => .ok s
  | c :: cs, (env, h) =>
    match c.exec env h with
    | .error e => .error e
    | .ok (r, h') => execAll cs (env ++ [r], h')

/-! ## What it should do, on matrices -/

/-- the matrix of variable `i` -/
def mlook (mats : List (Mat K)) (i : Nat) : Except Err (Mat K) :=
  match mats[i]? with
  | some A => .ok A
  | none => .error .unboundLocal

def Cmd.spec (mats : List (Mat K)) : Cmd K → Except Err (Mat K)
  | .new A _ _ _ _ _ => .ok A
  | .ident n k => .ok (Mat.ident n k)
  | .zero nin nout k => .ok (Mat.zero nout nin k)
  | .diag d => .ok (Mat.diag d)
  | .nd A sy he =>
    if A.kind ≠ .complex ∧ sy ≠ he.getD sy then .error .valueError else .ok (Mat.ofNd A)
  | .mul i j => do
    let A ← mlook mats i
    let B ← mlook mats j
    if A.cols = B.rows then .ok (A.mul B) else .error .shapeError
  | .smul i a ka => do let A ← mlook mats i; .ok (A.smul a ka)
  | .add i j => do
    let A ← mlook mats i
    let B ← mlook mats j
    if A.rows = B.rows ∧ A.cols = B.cols then .ok (A.add B) else .error .shapeError
  | .sub i j => do
    let A ← mlook mats i
    let B ← mlook mats j
    if A.rows = B.rows ∧ A.cols = B.cols then .ok (A.sub B) else .error .shapeError
  | .neg i => do let A ← mlook mats i; .ok (A.smul (-1) .int)
  | .pow i k => do
    let A ← mlook mats i
    if k < 0 then .error .valueError
    else if A.cols ≠ A.rows then .error .shapeError
    else .ok (A.pow k.toNat)
  | .T i => do let A ← mlook mats i; .ok A.T
  | .H i => do let A ← mlook mats i; .ok A.H
  | .conj i => do let A ← mlook mats i; .ok A.conj
  | .reduce i rows cols => do
    let A ← mlook mats i
    match rows.mapM (pyIndex A.rows), cols.mapM (pyIndex A.cols) with
    | some rs, some cs => .ok (A.submat rs cs)
    | _, _ => .error .indexError
  | .symreduce i idx => do
    let A ← mlook mats i
    match idx.mapM (pyIndex A.rows), idx.mapM (pyIndex A.cols) with
    | some rs, some cs => .ok (A.submat rs cs)
    | _, _ => .error .indexError

def specAll : List (Cmd K) → List (Mat K) → Except Err (List (Mat K))
  | [], mats => .ok mats
  | c :: cs, mats =>
    match c.spec mats with
    | .error e => .error e
    | .ok A => specAll cs (mats ++ [A])

/-! ## What the caller has to provide -/

/-- The function computes products with `A` on arrays of the right size (when it returns). -/
def Computes (A : Mat K) (f : Fn K) : Prop :=
  ∀ x : Arr K, x.Typed → x.data.length = A.cols → ∀ y, f x = .ok y → y.data = A.app x.data

/-- The function returns on arrays with `n` entries. -/
def ReturnsOn (n : Nat) (f : Fn K) : Prop :=
  ∀ x : Arr K, x.Typed → x.data.length = n → ∃ y, f x = .ok y

/-- The arguments of a command are meaningful: user functions compute what is claimed, flags tell the truth,
array entries and scalars belong to their dtype, index lists are in range and without repetitions. -/
def Cmd.WF (mats : List (Mat K)) : Cmd K → Prop
  | .new A sy he f ft fa => A.Typed ∧ (sy = true → A.Eqv A.T) ∧ (he = true → A.Eqv A.H) ∧ Computes A f ∧
      (∀ g, ft = some g → Computes A.T g) ∧ (∀ g, fa = some g → Computes A.H g)
  | .diag d => d.Typed
  | .nd A sy he => (Mat.ofNd A).Typed ∧ (sy = true → (Mat.ofNd A).Eqv (Mat.ofNd A).T) ∧
      (he.getD sy = true → (Mat.ofNd A).Eqv (Mat.ofNd A).H)
  | .smul _ a ka => a ∈ (DTypes.sub ka : Subring K)
  | .reduce i rows cols => ∀ A, mats[i]? = some A → ∃ rs cs, rows.mapM (pyIndex A.rows) = some rs ∧
      cols.mapM (pyIndex A.cols) = some cs ∧ rs.Nodup ∧ cs.Nodup
  | .symreduce i idx => ∀ A, mats[i]? = some A → ∃ rs cs, idx.mapM (pyIndex A.rows) = some rs ∧
      idx.mapM (pyIndex A.cols) = some cs ∧ rs.Nodup ∧ cs.Nodup
  | _ => True

def WFAll : List (Mat K) → List (Cmd K) → Prop
  | _, [] => True
  | mats, c :: cs => c.WF mats ∧ ∀ A, c.spec mats = .ok A → WFAll (mats ++ [A]) cs

/-- User-defined operators return on arrays of the right size and come with enough information to determine
transpose and adjoint on both sides. -/
def Cmd.Complete : Cmd K → Prop
  | .new A sy he f ft fa => ReturnsOn A.cols f ∧ (∀ g, ft = some g → ReturnsOn A.rows g) ∧
      (∀ g, fa = some g → ReturnsOn A.rows g) ∧
      (if A.kind = .complex then sy = true ∨ (ft.isSome ∧ (fa.isSome ∨ he = true))
       else sy = true ∨ he = true ∨ ft.isSome ∨ fa.isSome)
  | _ => True

/-! ## When an object represents a matrix -/

/-- Whenever `op * x` returns, `x` had `nargin` entries and the result is the matrix-vector product with the
result dtype; the shape, dtype and flags are those of the matrix. -/
structure Represents (h : Heap K) (r : Nat) (A : Mat K) : Prop where
  shape : ∃ o, h[r]? = some o ∧ o.nargin = A.cols ∧ o.nargout = A.rows ∧ o.dtype = A.kind ∧
    (o.symmetric = true → A.Eqv A.T) ∧ (o.hermitian = true → A.Eqv A.H)
  product : ∀ (fuel : Nat) (x : Arr K) (c : Cnt) (y : Arr K) (c' : Cnt), x.Typed →
    run h fuel r x c = (.ok y, c') → x.data.length = A.cols ∧ y = ⟨A.kind.join x.kind, A.app x.data⟩

/-- Every product with an array of the right size returns (if the recursion limit exceeds the number of
operator objects). -/
def Total (h : Heap K) (r : Nat) (A : Mat K) : Prop :=
  ∀ (fuel : Nat) (x : Arr K) (c : Cnt), h.length ≤ fuel → x.Typed → x.data.length = A.cols →
    ∃ c', run h fuel r x c = (.ok ⟨A.kind.join x.kind, A.app x.data⟩, c')

end
end Verif.Linop
