import Verif.Linop.Core
import Verif.Linop.Instances
import Mathlib.Analysis.SpecialFunctions.Pow.Complex
import Mathlib.Analysis.SpecialFunctions.Sqrt

/-!
# Model of `DiagonalOperator` with mutable arrays, `abs` and `sqrt` (`linop.py:474-516, 748-754`)

Arrays are cells of a store that the caller may overwrite in place.  A diagonal operator remembers two cells: the
one its closures read (`diag`, the caller's own array, line 495) and its private copy (`self.__diag`, line 498), of
which the property `diag` hands out a reference.  Entries are complex numbers, with the dtype classes of
`Verif.Linop.Instances`.
-/

namespace Verif.Linop

/-- `np.abs(a)`: a complex array gives a real one. -/
noncomputable def npAbs (a : Arr ℂ) : Arr ℂ :=
  ⟨match a.kind with | .complex => .real | k => k, a.data.map fun z => ((‖z‖ : ℝ) : ℂ)⟩

/-- `np.sqrt(a)`: integer arrays give real ones; the principal root on complex arrays. -/
noncomputable def npSqrt (a : Arr ℂ) : Arr ℂ :=
  match a.kind with
  | .complex => ⟨.complex, a.data.map fun z => z ^ (1 / 2 : ℂ)⟩
  | _ => ⟨.real, a.data.map fun z => ((Real.sqrt z.re : ℝ) : ℂ)⟩

open Classical in
/-- The argument of the new `DiagonalOperator` in `_sqrt`, lines 513-516, given `self.__diag`. -/
noncomputable def sqrtDiag (d : Arr ℂ) : Except Err (Arr ℂ) :=
  if d.kind ≠ .complex ∧ ∃ z ∈ d.data, z.re < 0 then .error .valueError else .ok (npSqrt d)

/-- A diagonal operator: the cell read by the closures, the cell of `self.__diag`, size, dtype. -/
structure DOp where
  src : Nat
  diag : Nat
  n : Nat
  kind : DKind

/-- Arrays, the cells the caller has no reference to, and the operators built so far. -/
structure DState where
  cells : List (Arr ℂ)
  hidden : List Nat
  ops : List DOp

def DState.init : DState := ⟨[], [], []⟩

/-- What a client can do. -/
inductive DCmd
  /-- make an array -/
  | array (a : Arr ℂ)
  /-- `DiagonalOperator(array c)` -/
  | mk (c : Nat)
  /-- overwrite array `c` in place; the size and the dtype of an array cannot change this way -/
  | store (c : Nat) (a : Arr ℂ)
  /-- `abs(op i)` and `sqrt(op i)` -/
  | abs (i : Nat)
  | sqrt (i : Nat)

/-- `DiagonalOperator(diag)` on a fresh array that only the operator refers to (lines 511, 516) -/
def DState.fresh (s : DState) (a : Arr ℂ) : DState :=
  ⟨s.cells ++ [a, a], s.hidden ++ [s.cells.length],
    s.ops ++ [⟨s.cells.length, s.cells.length + 1, a.data.length, a.kind⟩]⟩

/-- Lines 480-503, 510-516. -/
noncomputable def DState.step (s : DState) : DCmd → Except Err DState
  | .array a => .ok { s with cells := s.cells ++ [a] }
  | .mk c =>
    match s.cells[c]? with
    | some a => .ok ⟨s.cells ++ [a], s.hidden, s.ops ++ [⟨c, s.cells.length, a.data.length, a.kind⟩]⟩
    | none => .error .unboundLocal
  | .store c a =>
    match s.cells[c]? with
    | some b =>
      if c ∈ s.hidden then .error .unboundLocal
      else if a.kind = b.kind ∧ a.data.length = b.data.length then .ok { s with cells := s.cells.set c a }
      else .error .valueError
    | none => .error .unboundLocal
  | .abs i =>
    match s.ops[i]?.bind fun o => s.cells[o.diag]? with
    | some d => .ok (s.fresh (npAbs d))
    | none => .error .unboundLocal
  | .sqrt i =>
    match s.ops[i]?.bind fun o => s.cells[o.diag]? with
    | some d => match sqrtDiag d with
      | .ok a => .ok (s.fresh a)
      | .error e => .error e
    | none => .error .unboundLocal

noncomputable def DState.steps : DState → List DCmd → Except Err DState
  | s, [] => .ok s
  | s, c :: cs => match s.step c with
    | .ok s' => DState.steps s' cs
    | .error e => .error e

/-- `op.diag` -/
def DState.diagOf (s : DState) (i : Nat) : Option (Arr ℂ) := s.ops[i]?.bind fun o => s.cells[o.diag]?

/-- `op * x`: `_matvec` around the closure of line 500, then the cast of `__mul_vector`.  The closure reads its cell
when it is called. -/
noncomputable def DState.apply (s : DState) (i : Nat) (x : Arr ℂ) : Except Err (Arr ℂ) :=
  match s.ops[i]? with
  | none => .error .unboundLocal
  | some o =>
    if x.data.length ≠ o.n then .error .valueError
    else match s.cells[o.src]? with
      | none => .error .unboundLocal
      | some d => match diagFn d x with
        | .error e => .error e
        | .ok y => if y.data.length ≠ o.n then .error .valueError else .ok (y.astype (o.kind.join x.kind))

/-- `op.H * x` (line 501 for complex operators, the operator itself otherwise). -/
noncomputable def DState.applyH (s : DState) (i : Nat) (x : Arr ℂ) : Except Err (Arr ℂ) :=
  match s.ops[i]? with
  | none => .error .unboundLocal
  | some o =>
    if o.kind ≠ .complex then s.apply i x
    else if x.data.length ≠ o.n then .error .valueError
    else match s.cells[o.src]? with
      | none => .error .unboundLocal
      | some d => match diagFn d.conj x with
        | .error e => .error e
        | .ok y => if y.data.length ≠ o.n then .error .valueError else .ok (y.astype (o.kind.join x.kind))

end Verif.Linop
