import Verif.Linop.Program

/-!
# Model of `CoordLinearOperator` (`linop.py:638-683`)

The arrays `vals`, `rows`, `cols` are lists; the loop runs over the entries of `vals`.  Python 2's `xrange` is
`range`.  As everywhere in the operator model, arithmetic is exact and the caller does not modify the arrays
after construction (the closures keep references to them).
-/

namespace Verif.Linop

section
variable {K : Type} [CommRing K] [StarRing K] [DTypes K]

/-- `x[i]` -/
def getAt (x : List K) (i : Int) : Except Err K :=
  match pyIndex x.length i with
  | some k => .ok (x.getD k 0)
  | none => .error .indexError

/-- `y[i] += a` -/
def addAt (y : List K) (i : Int) (a : K) : Except Err (List K) :=
  match pyIndex y.length i with
  | some k => .ok (y.modify k (· + a))
  | none => .error .indexError

/-- The loop of `matvec`, lines 656-663; the loop of `matvec_transp`, lines 674-681, is the same with `rows` and
`cols` exchanged.  Arrays `rows`, `cols` shorter than `vals` raise `IndexError`. -/
def coordLoop (symmetric : Bool) (x : List K) : List K → List Int → List Int → List K → Except Err (List K)
  | [], _, _, y => .ok y
  | v :: vs, row :: rs, col :: cs, y => do
    let a ← getAt x col
    let y ← addAt y row (v * a)
    let y ← if symmetric && row ≠ col then do
        let b ← getAt x row
        addAt y col (v * b)
      else .ok y
    coordLoop symmetric x vs rs cs y
  | _ :: _, _, _, _ => .error .indexError

/-- The closures `matvec` (lines 649-664, with `nin = nargin`, `nout = nargout`) and `matvec_transp` (lines 666-682,
with rows and columns exchanged). -/
def coordFn (vals : Arr K) (rows cols : List Int) (nin nout : Nat) (symmetric : Bool) : Fn K := fun x =>
  if x.data.length ≠ nin then .error .shapeError
  else match coordLoop symmetric x.data vals.data rows cols (List.replicate nout 0) with
    | .ok y => .ok ⟨x.kind.join vals.kind, y⟩
    | .error e => .error e

/-- `a.max()`; raises `ValueError` on an empty array -/
def npMax : List Int → Except Err Int
  | [] => .error .valueError
  | a :: l => .ok (l.foldl max a)

/-- Lines 646-647: a dimension of 0 is inferred.  (A negative result, which `np.zeros` would reject at the first
product, is rejected here at construction.) -/
def inferDim (given : Nat) (idx : List Int) : Except Err Nat :=
  if given = 0 then do
    let m ← npMax idx
    if 0 ≤ m then .ok m.toNat else .error .valueError
  else .ok given

/-- `CoordLinearOperator(vals, rows, cols, nargin, nargout, symmetric)`, lines 638-686. -/
def CoordLinearOperator (vals : Arr K) (rows cols : List Int) (nargin nargout : Nat) (symmetric : Bool)
    (h : Heap K) : Except Err (Nat × Heap K) := do
  let nargin ← inferDim nargin cols
  let nargout ← inferDim nargout rows
  .ok (LinearOperator ⟨nargin, nargout, .prim (coordFn vals rows cols nargin nargout symmetric),
    some (.prim (coordFn vals cols rows nargout nargin symmetric)), none, symmetric, false, vals.kind,
    none, none, none⟩ h)

/-! ## Specification -/

/-- The `(i, j)` entry of the matrix given by triples (value, row, column): the values listed for that position,
added up; with `symmetric`, off-diagonal triples count for the mirrored position as well. -/
def coordEntry (symmetric : Bool) (ts : List (K × Nat × Nat)) (i j : Nat) : K :=
  (ts.map fun t => (if t.2.1 = i ∧ t.2.2 = j then t.1 else 0) +
    (if symmetric = true ∧ t.2.1 ≠ t.2.2 ∧ t.2.1 = j ∧ t.2.2 = i then t.1 else 0)).sum

/-- The sparse matrix in coordinate format. -/
def Mat.coord (nargout nargin : Nat) (kind : DKind) (symmetric : Bool) (ts : List (K × Nat × Nat)) : Mat K :=
  ⟨nargout, nargin, kind, coordEntry symmetric ts⟩

/-- The arrays `vals`, `rows`, `cols` list the triples `ts`, all positions lie inside the matrix, and the values have
the dtype of `vals`.  Negative indices count from the end, as usual in Python, except that a matrix given by one
triangle (`symmetric=True`) has to be square with nonnegative indices. -/
structure CoordInput (vals : Arr K) (rows cols : List Int) (nargin nargout : Nat) (symmetric : Bool)
    (ts : List (K × Nat × Nat)) : Prop where
  typed : vals.Typed
  values : vals.data = ts.map fun t => t.1
  rowIdx : rows.mapM (pyIndex nargout) = some (ts.map fun t => t.2.1)
  colIdx : cols.mapM (pyIndex nargin) = some (ts.map fun t => t.2.2)
  square : symmetric = true → nargin = nargout ∧ (∀ i ∈ rows, 0 ≤ i) ∧ ∀ j ∈ cols, 0 ≤ j

end
end Verif.Linop
