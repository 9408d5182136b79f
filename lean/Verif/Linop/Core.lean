import Mathlib.Algebra.Star.Basic
import Mathlib.Algebra.Ring.Subring.Basic

/-!
# Model of `pykrylov/linop/linop.py`: objects, constructor, products, operator algebra

Python objects live in a heap (`List Obj`, an object's identity is its index).  A matvec closure is
represented by its *code*: either a user supplied function or one of the closures written in `linop.py`,
which mention other operator objects and dereference their `.T` / `.H` attributes when they are called.
Counters (`_nMatvec`) are kept apart from the objects because products change nothing else.

Simplifications (all of them global):
* arithmetic is exact, over a commutative star ring `K`; arrays are flat lists (an array of any shape with
  `nargin` entries is accepted by `reshape(nargin)` and flattened);
* dtypes are classified as in `tools/types.py` into integer / real / complex; `bool` and `object` dtypes,
  and integer overflow are not modelled; the `dtype` setter is in `Verif.Linop.Dtype`;
* a user function is a pure function of its argument that returns an array or raises;
* logging is dropped.
-/

namespace Verif.Linop

/-- dtype classes of `tools/types.py:3-16` (`integer_types`, `real_types`, `complex_types`). -/
inductive DKind | int | real | complex
  deriving DecidableEq, Repr

/-- `np.result_type` on dtype classes. -/
def DKind.join : DKind → DKind → DKind
  | .complex, _ => .complex
  | _, .complex => .complex
  | .real, _ => .real
  | _, .real => .real
  | .int, .int => .int

/-- Exceptions. -/
inductive Err
  | valueError | shapeError | typeError | attributeError | indexError | zeroDivisionError
  | notImplemented | unboundLocal | recursion
  deriving DecidableEq, Repr

/-- A NumPy array: dtype class and entries. -/
structure Arr (K : Type) where
  kind : DKind
  data : List K
  deriving DecidableEq, Repr

/-- The values representable in a dtype class, and `astype`. -/
class DTypes (K : Type) [CommRing K] [StarRing K] where
  sub : DKind → Subring K
  cast : DKind → K → K
  cast_of_mem : ∀ {k a}, a ∈ sub k → cast k a = a
  int_le_real : sub .int ≤ sub .real
  complex_all : ∀ a, a ∈ sub .complex
  real_star : ∀ {a}, a ∈ sub .real → star a = a

/-- The per-object counters `_nMatvec`, indexed by object. -/
abbrev Cnt := List Nat

/-- An effectful computation: may raise, and keeps the counters in both cases. -/
def Act (α : Type) := Cnt → Except Err α × Cnt

namespace Act
def pure {α} (a : α) : Act α := fun c => (.ok a, c)
def raise {α} (e : Err) : Act α := fun c => (.error e, c)
def bind {α β} (x : Act α) (f : α → Act β) : Act β := fun c =>
  match x c with
  | (.ok a, c') => f a c'
  | (.error e, c') => (.error e, c')
instance : Monad Act where
  pure := Act.pure
  bind := Act.bind
end Act

/-- `self._nMatvec += 1` for object `r`. -/
def bump (r : Nat) : Act Unit := fun c => (.ok (), c.modify r (· + 1))

/-- Which operator a closure applies: the object itself, its `.T` or its `.H` (looked up at call time). -/
inductive Sel | self | T | H
  deriving DecidableEq, Repr

structure Tgt where
  ref : Nat
  sel : Sel
  deriving DecidableEq, Repr

/-- The code of a matvec closure. -/
inductive Code (K : Type)
  /-- a user supplied function, or one of the leaf closures (`lambda x: x`, `diag*x`, `np.dot(A, v)`, ...) -/
  | prim (f : Arr K → Except Err (Arr K))
  /-- `conjugate`, lines 217-220, 230-233, 238-241 -/
  | conj (t : Tgt)
  /-- `__mul_scalar`, lines 315-322: `a * t(y)`; `ka` is the dtype class of the scalar -/
  | scal (a : K) (ka : DKind) (t : Tgt)
  /-- `__mul_linop`, lines 337-344: `outer(inner(x))` -/
  | comp (outer inner : Tgt)
  /-- `__add__`, lines 384-391 -/
  | add (l r : Tgt)
  /-- `__sub__`, lines 412-419 -/
  | sub (l r : Tgt)
  /-- `ReducedLinearOperator` and `SymmetricallyReducedLinearOperator`, lines 569-582, 602-615:
      `z = zeros(n); z[put] = x[:]; y = t * z; return y[take]` -/
  | gather (n : Nat) (put take : List Int) (t : Tgt)

/-- A `LinearOperator` object (`linop.py:27-39, 114-146`). -/
structure Obj (K : Type) where
  nargin : Nat
  nargout : Nat
  symmetric : Bool
  hermitian : Bool
  dtype : DKind
  /-- `self.__matvec` -/
  code : Code K
  /-- `self.__T`, `self.__H` -/
  T : Option Nat
  H : Option Nat

abbrev Heap (K : Type) := List (Obj K)

/-- Dereference a target at call time; calling / multiplying with `None` raises `TypeError`. -/
def resolve {K} (h : Heap K) (t : Tgt) : Except Err Nat :=
  match h[t.ref]? with
  | none => .error .typeError
  | some o =>
    match t.sel with
    | .self => .ok t.ref
    | .T => match o.T with
      | some r => .ok r
      | none => .error .typeError
    | .H => match o.H with
      | some r => .ok r
      | none => .error .typeError

/-- NumPy index normalisation for an axis of length `n`: negative indices wrap once. -/
def pyIndex (n : Nat) (i : Int) : Option Nat :=
  if 0 ≤ i then (if i < n then some i.toNat else none)
  else if 0 ≤ i + n then some (i + n).toNat else none

section
variable {K : Type} [CommRing K] [StarRing K] [DTypes K]

/-- `y.astype(k)` (always a copy). -/
def Arr.astype (k : DKind) (y : Arr K) : Arr K := ⟨k, y.data.map (DTypes.cast k)⟩

/-- `x.conjugate()` -/
def Arr.conj (x : Arr K) : Arr K := ⟨x.kind, x.data.map star⟩

/-- `y1 + y2` and `y1 - y2` on arrays of equal size (broadcasting of size-1 arrays is not modelled:
unequal sizes raise, as NumPy does unless one size is 1). -/
def Arr.add (x y : Arr K) : Except Err (Arr K) :=
  if x.data.length = y.data.length then .ok ⟨x.kind.join y.kind, List.zipWith (· + ·) x.data y.data⟩
  else .error .valueError
def Arr.sub (x y : Arr K) : Except Err (Arr K) :=
  if x.data.length = y.data.length then .ok ⟨x.kind.join y.kind, List.zipWith (· - ·) x.data y.data⟩
  else .error .valueError

/-- `a * y` for a scalar `a` of dtype class `ka`. -/
def Arr.smul (a : K) (ka : DKind) (y : Arr K) : Arr K := ⟨ka.join y.kind, y.data.map (a * ·)⟩

/-- `z = np.zeros(n); z[put] = x[:]` (later duplicates win); out-of-range indices raise `IndexError`. -/
def scatter (n : Nat) (put : List Int) (x : List K) : Except Err (List K) :=
  (put.zip x).foldlM (fun z p => match pyIndex n p.1 with
    | some i => .ok (z.set i p.2)
    | none => .error .indexError) (List.replicate n 0)

/-- `y[take]` -/
def pick (y : List K) (take : List Int) : Except Err (List K) :=
  take.mapM fun i => match pyIndex y.length i with
    | some j => match y[j]? with
      | some a => .ok a
      | none => .error .indexError
    | none => .error .indexError

def liftE {α} (e : Except Err α) : Act α := fun c => (e, c)

/-- Run the code of a closure; `app r x` is the product of object `r` with the array `x`. -/
def evalCode (h : Heap K) (app : Nat → Arr K → Act (Arr K)) : Code K → Arr K → Act (Arr K)
  | .prim f, x => liftE (f x)
  | .conj t, x => do
    let r ← liftE (resolve h t)
    if x.kind = .complex then
      let y ← app r x.conj
      Act.pure y.conj
    else
      let y ← app r x
      Act.pure y.conj
  | .scal a ka t, x => do
    let r ← liftE (resolve h t)
    let y ← app r x
    Act.pure (Arr.smul a ka y)
  | .comp outer inner, x => do
    let ri ← liftE (resolve h inner)
    let y ← app ri x
    let ro ← liftE (resolve h outer)
    app ro y
  | .add l r, x => do
    let rl ← liftE (resolve h l)
    let y ← app rl x
    let rr ← liftE (resolve h r)
    let z ← app rr x
    liftE (y.add z)
  | .sub l r, x => do
    let rl ← liftE (resolve h l)
    let y ← app rl x
    let rr ← liftE (resolve h r)
    let z ← app rr x
    liftE (y.sub z)
  | .gather n put take t, x => do
    let z ← liftE (scatter n put x.data)
    let r ← liftE (resolve h t)
    let y ← app r ⟨x.kind, z⟩
    let w ← liftE (pick y.data take)
    Act.pure ⟨y.kind, w⟩

/-- `op * x` for an array `x`: `__mul_vector` and `_matvec` (lines 356-360, 271-298).
The first argument is Python's recursion limit. -/
def run (h : Heap K) : Nat → Nat → Arr K → Act (Arr K)
  | 0, _, _ => Act.raise .recursion
  | fuel + 1, r, x =>
    match h[r]? with
    | none => Act.raise .typeError
    | some o => do
      bump r
      if x.data.length ≠ o.nargin then Act.raise .valueError
      else
        let y ← evalCode h (run h fuel) o.code x
        if y.data.length ≠ o.nargout then Act.raise .valueError
        else Act.pure (y.astype (o.dtype.join x.kind))

/-! ## The constructor -/

/-- Arguments of `LinearOperator.__init__`. -/
structure Args (K : Type) where
  nargin : Nat
  nargout : Nat
  matvec : Code K
  matvecTransp : Option (Code K) := none
  matvecAdj : Option (Code K) := none
  symmetric : Bool := false
  hermitian : Bool := false
  dtype : DKind := .real
  transposeOf : Option Nat := none
  adjointOf : Option Nat := none
  conjugateOf : Option Nat := none

abbrev Ctor (K : Type) := Args K → Heap K → Nat × Heap K

/-- assignment to `obj.__T` / `obj.__H` -/
def setT (h : Heap K) (r : Nat) (t : Option Nat) : Heap K := h.modify r fun o => { o with T := t }
def setH (h : Heap K) (r : Nat) (t : Option Nat) : Heap K := h.modify r fun o => { o with H := t }
def getT (h : Heap K) (r : Nat) : Option Nat := h[r]?.bind Obj.T
def getH (h : Heap K) (r : Nat) : Option Nat := h[r]?.bind Obj.H

/-- `__set_transpose`, lines 148-170.  (`transpose_of` is always an operator here, so the `ValueError`
of line 170 does not occur.)  The child receives the same flags and dtype through `**kwargs`. -/
def setTranspose (ctor : Ctor K) (self : Nat) (a : Args K) (h : Heap K) : Heap K :=
  if a.symmetric then setT h self (some self)
  else match a.transposeOf with
    | none => match a.matvecTransp with
      | some mt =>
        let (t, h) := ctor { nargin := a.nargout, nargout := a.nargin, matvec := mt,
                             matvecTransp := some a.matvec, transposeOf := some self,
                             symmetric := a.symmetric, hermitian := a.hermitian, dtype := a.dtype } h
        setT h self (some t)
      | none => h
    | some t => setT h self (some t)

/-- `__set_adjoint`, lines 172-194. -/
def setAdjoint (ctor : Ctor K) (self : Nat) (a : Args K) (h : Heap K) : Heap K :=
  if a.hermitian then setH h self (some self)
  else match a.adjointOf with
    | none => match a.matvecAdj with
      | some ma =>
        let (t, h) := ctor { nargin := a.nargout, nargout := a.nargin, matvec := ma,
                             matvecAdj := some a.matvec, adjointOf := some self,
                             symmetric := a.symmetric, hermitian := a.hermitian, dtype := a.dtype } h
        setH h self (some t)
      | none => h
    | some t => setH h self (some t)

/-- `self.X.__matvec` for a pointer `X`. -/
def codeAt (h : Heap K) (r : Nat) : Option (Code K) := h[r]?.map Obj.code

/-- The arguments of the `LinearOperator(...)` call in `conjugate`, lines 217-254. -/
def conjArgs (self : Nat) (h : Heap K) : Args K :=
  let H := getH h self
  let T := getT h self
  let o := h[self]?
  { nargin := (o.map Obj.nargin).getD 0
    nargout := (o.map Obj.nargout).getD 0
    matvec := .conj ⟨self, .self⟩
    matvecTransp := match H, T with
      | some u, _ => codeAt h u
      | none, some _ => some (.conj ⟨self, .T⟩)
      | none, none => none
    matvecAdj := match H, T with
      | some _, some t => codeAt h t
      | some _, none => some (.conj ⟨self, .H⟩)
      | none, some t => codeAt h t
      | none, none => none
    transposeOf := H
    adjointOf := T
    conjugateOf := some self
    dtype := (o.map Obj.dtype).getD .real }

/-- `conjugate`, lines 211-254: the operator itself if it is not complex. -/
def conjugateWith (ctor : Ctor K) (self : Nat) (h : Heap K) : Nat × Heap K :=
  if (h[self]?.map Obj.dtype) = some .complex then ctor (conjArgs self h) h else (self, h)

/-- Lines 137-141: `self.__T.__H = __conj`, and infer `.H` if it is missing. -/
def inferH (c self : Nat) (h : Heap K) : Heap K :=
  match getT h self with
  | some t =>
    let h := setH h t (some c)
    if (getH h self).isNone then setH h self (getT h c) else h
  | none => h

/-- Lines 142-146: `self.__H.__T = __conj`, and infer `.T` if it is missing. -/
def inferT (c self : Nat) (h : Heap K) : Heap K :=
  match getH h self with
  | some u =>
    let h := setT h u (some c)
    if (getT h self).isNone then setT h self (getH h c) else h
  | none => h

/-- Lines 136-146: infer missing operators of a complex operator. -/
def inferComplex (ctor : Ctor K) (self : Nat) (h : Heap K) : Heap K :=
  let (c, h) := conjugateWith ctor self h
  inferT c self (inferH c self h)

/-- Lines 127-131: for non-complex operators, transpose = adjoint. -/
def inferReal (self : Nat) (h : Heap K) : Heap K :=
  match getT h self, getH h self with
  | some t, none => setH h self (some t)
  | none, some u => setT h self (some u)
  | _, _ => h

/-- `LinearOperator.__init__`, lines 114-146; `ctor` stands for the recursive constructor calls. -/
def initWith (ctor : Ctor K) : Ctor K := fun a h =>
  let self := h.length
  let h := h ++ [{ nargin := a.nargin, nargout := a.nargout, symmetric := a.symmetric,
                   hermitian := a.hermitian, dtype := a.dtype, code := a.matvec, T := none, H := none }]
  let h := setTranspose ctor self a h
  let h := setAdjoint ctor self a h
  let h :=
    if a.dtype ≠ .complex then inferReal self h
    else if a.transposeOf = none ∧ a.adjointOf = none ∧ a.conjugateOf = none then inferComplex ctor self h
    else h
  (self, h)

/-- The constructor.  Recursive calls nest at most two deep (operator → conjugate → its transpose), see
`LinearOperator_base_irrelevant`; the innermost level is never reached. -/
def LinearOperator : Ctor K := initWith (initWith (initWith fun _ h => (0, h)))

/-- `op.conjugate()` / `op.bar`, lines 206-254. -/
def conjugate (r : Nat) (h : Heap K) : Nat × Heap K := conjugateWith LinearOperator r h

/-! ## Leaf operators -/

/-- `IdentityOperator`, lines 460-470. -/
def IdentityOperator (n : Nat) (k : DKind := .real) : Heap K → Nat × Heap K :=
  LinearOperator { nargin := n, nargout := n, matvec := .prim fun x => .ok x,
                   symmetric := true, hermitian := true, dtype := k }

/-- The closures of `ZeroOperator`, lines 530-544. -/
def zeroFn (nin nout : Nat) (k : DKind) (x : Arr K) : Except Err (Arr K) :=
  if x.data.length ≠ nin then .error .valueError
  else .ok ⟨k.join x.kind, List.replicate nout 0⟩

/-- `ZeroOperator`, lines 524-551. -/
def ZeroOperator (nargin nargout : Nat) (k : DKind := .real) : Heap K → Nat × Heap K :=
  LinearOperator { nargin := nargin, nargout := nargout, symmetric := nargin = nargout,
                   matvec := .prim (zeroFn nargin nargout k),
                   matvecTransp := some (.prim (zeroFn nargout nargin k)),
                   matvecAdj := some (.prim (zeroFn nargout nargin k)), dtype := k }

/-- `diag * x` on equal sizes (line 500); sizes are equal when the closure is called. -/
def diagFn (d : Arr K) (x : Arr K) : Except Err (Arr K) :=
  if d.data.length = x.data.length then .ok ⟨d.kind.join x.kind, List.zipWith (· * ·) d.data x.data⟩
  else .error .valueError

/-- `DiagonalOperator`, lines 480-503 (1-d input). The aliasing of the caller's array is modelled separately
in `Verif.Linop.Diagonal`. -/
def DiagonalOperator (d : Arr K) : Heap K → Nat × Heap K :=
  LinearOperator { nargin := d.data.length, nargout := d.data.length, symmetric := true,
                   hermitian := d.kind ≠ .complex, matvec := .prim (diagFn d),
                   matvecAdj := some (.prim (diagFn d.conj)), dtype := d.kind }

/-- A 2-d array: dtype class, shape, entries `A[i, j]`. -/
structure NdArray2 (K : Type) where
  kind : DKind
  rows : Nat
  cols : Nat
  get : Nat → Nat → K

def NdArray2.T (A : NdArray2 K) : NdArray2 K := ⟨A.kind, A.cols, A.rows, fun i j => A.get j i⟩
def NdArray2.conj (A : NdArray2 K) : NdArray2 K := ⟨A.kind, A.rows, A.cols, fun i j => star (A.get i j)⟩

/-- dot product of two lists -/
def ldot (x y : List K) : K := (List.zipWith (· * ·) x y).foldl (· + ·) 0

/-- `np.dot(A, v)` -/
def ndDot (A : NdArray2 K) (v : Arr K) : Except Err (Arr K) :=
  if v.data.length = A.cols then
    .ok ⟨A.kind.join v.kind,
      (List.range A.rows).map fun i => ldot ((List.range A.cols).map (A.get i)) v.data⟩
  else .error .valueError

/-- `linop_from_ndarray`, lines 723-745.  `hermitian = none` is an omitted keyword. -/
def linopFromNdarray (A : NdArray2 K) (symmetric : Bool := false) (hermitian : Option Bool := none)
    (h : Heap K) : Except Err (Nat × Heap K) :=
  let herm := hermitian.getD symmetric
  if A.kind = .complex then
    .ok (LinearOperator { nargin := A.cols, nargout := A.rows, matvec := .prim (ndDot A),
                          matvecTransp := some (.prim (ndDot A.T)),
                          matvecAdj := some (.prim (ndDot A.conj.T)),
                          symmetric := symmetric, hermitian := herm, dtype := A.kind } h)
  else if xor symmetric herm then .error .valueError
  else
    .ok (LinearOperator { nargin := A.cols, nargout := A.rows, matvec := .prim (ndDot A),
                          matvecTransp := some (.prim (ndDot A.T)),
                          symmetric := symmetric || herm, hermitian := symmetric || herm,
                          dtype := A.kind } h)

/-! ## Operator algebra -/

/-- `__mul_scalar`, lines 307-330. -/
def mulScalar [DecidableEq K] (r : Nat) (a : K) (ka : DKind) (h : Heap K) : Except Err (Nat × Heap K) :=
  match h[r]? with
  | none => .error .typeError
  | some o =>
    let k := o.dtype.join ka
    if a = 0 then .ok (ZeroOperator o.nargin o.nargout k h)
    else .ok (LinearOperator { nargin := o.nargin, nargout := o.nargout, symmetric := o.symmetric,
                               hermitian := decide (k ≠ .complex) && o.hermitian,
                               matvec := .scal a ka ⟨r, .self⟩,
                               matvecTransp := some (.scal a ka ⟨r, .T⟩),
                               matvecAdj := some (.scal (star a) ka ⟨r, .H⟩), dtype := k } h)

/-- `__mul_linop`, lines 332-354. -/
def mulLinop (r s : Nat) (h : Heap K) : Except Err (Nat × Heap K) :=
  match h[r]?, h[s]? with
  | some o, some p =>
    if o.nargin ≠ p.nargout then .error .shapeError
    else .ok (LinearOperator { nargin := p.nargin, nargout := o.nargout,
                               matvec := .comp ⟨r, .self⟩ ⟨s, .self⟩,
                               matvecTransp := some (.comp ⟨s, .T⟩ ⟨r, .T⟩),
                               matvecAdj := some (.comp ⟨s, .H⟩ ⟨r, .H⟩),
                               dtype := o.dtype.join p.dtype } h)
  | _, _ => .error .typeError

/-- `__add__`, lines 378-401. -/
def addOp (r s : Nat) (h : Heap K) : Except Err (Nat × Heap K) :=
  match h[r]?, h[s]? with
  | some o, some p =>
    if (o.nargout, o.nargin) ≠ (p.nargout, p.nargin) then .error .shapeError
    else .ok (LinearOperator { nargin := o.nargin, nargout := o.nargout,
                               symmetric := o.symmetric && p.symmetric,
                               hermitian := o.hermitian && p.hermitian,
                               matvec := .add ⟨r, .self⟩ ⟨s, .self⟩,
                               matvecTransp := some (.add ⟨r, .T⟩ ⟨s, .T⟩),
                               matvecAdj := some (.add ⟨r, .H⟩ ⟨s, .H⟩),
                               dtype := o.dtype.join p.dtype } h)
  | _, _ => .error .typeError

/-- `__sub__`, lines 406-429. -/
def subOp (r s : Nat) (h : Heap K) : Except Err (Nat × Heap K) :=
  match h[r]?, h[s]? with
  | some o, some p =>
    if (o.nargout, o.nargin) ≠ (p.nargout, p.nargin) then .error .shapeError
    else .ok (LinearOperator { nargin := o.nargin, nargout := o.nargout,
                               symmetric := o.symmetric && p.symmetric,
                               hermitian := o.hermitian && p.hermitian,
                               matvec := .sub ⟨r, .self⟩ ⟨s, .self⟩,
                               matvecTransp := some (.sub ⟨r, .T⟩ ⟨s, .T⟩),
                               matvecAdj := some (.sub ⟨r, .H⟩ ⟨s, .H⟩),
                               dtype := o.dtype.join p.dtype } h)
  | _, _ => .error .typeError

/-- `__neg__`, lines 403-404: `self * (-1)` with a Python int. -/
def negOp [DecidableEq K] (r : Nat) (h : Heap K) : Except Err (Nat × Heap K) := mulScalar r (-1) .int h

/-- `__pow__`, lines 441-452, for an `int` exponent. -/
def powOp (r : Nat) (k : Int) (h : Heap K) : Except Err (Nat × Heap K) :=
  match h[r]? with
  | none => .error .typeError
  | some o =>
    if k < 0 then .error .valueError
    else if o.nargin ≠ o.nargout then .error .shapeError
    else go k.toNat h
where
  /-- the recursion `self * self**(other-1)` (the guards hold again in every recursive call) -/
  go : Nat → Heap K → Except Err (Nat × Heap K)
  | 0, h => .ok (IdentityOperator ((h[r]?.map Obj.nargin).getD 0) .real h)
  | 1, h => .ok (r, h)
  | k + 2, h => do
    let (s, h) ← go (k + 1) h
    mulLinop r s h

/-- `ReducedLinearOperator`, lines 560-590. -/
def ReducedLinearOperator (r : Nat) (rows cols : List Int) (h : Heap K) : Except Err (Nat × Heap K) :=
  match h[r]? with
  | none => .error .attributeError
  | some o =>
    .ok (LinearOperator { nargin := cols.length, nargout := rows.length,
                          matvec := .gather o.nargin cols rows ⟨r, .self⟩,
                          matvecTransp := some (.gather o.nargout rows cols ⟨r, .T⟩),
                          matvecAdj := some (.gather o.nargout rows cols ⟨r, .H⟩), dtype := o.dtype } h)

/-- `SymmetricallyReducedLinearOperator`, lines 593-623. -/
def SymmetricallyReducedLinearOperator (r : Nat) (idx : List Int) (h : Heap K) : Except Err (Nat × Heap K) :=
  match h[r]? with
  | none => .error .attributeError
  | some o =>
    .ok (LinearOperator { nargin := idx.length, nargout := idx.length,
                          symmetric := o.symmetric, hermitian := o.hermitian,
                          matvec := .gather o.nargin idx idx ⟨r, .self⟩,
                          matvecTransp := some (.gather o.nargout idx idx ⟨r, .T⟩),
                          matvecAdj := some (.gather o.nargout idx idx ⟨r, .H⟩), dtype := o.dtype } h)

end
end Verif.Linop
