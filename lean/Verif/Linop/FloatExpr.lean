import Verif.Solver.FloatFormat
import Mathlib.Data.Matrix.Mul

/-!
# Operators in floating-point arithmetic

Operators of real floating-point dtype (`linop.py`): arrays, diagonal and identity operators, and what the overloaded operators of Python build from
them, with the arithmetic of `Solver/FloatFormat` in every step.
-/

namespace Verif.Linop
open Verif.Solver Verif.Solver.Scalar Verif.Solver.Vect Matrix

variable {F : FloatFormat}

/-- Operators built with `linop_from_ndarray` (lines 723-745), `DiagonalOperator` (lines 473-503), `IdentityOperator` (lines 455-470), scalar
multiples (`__mul_scalar`, lines 307-330; `__neg__`, line 403, is the multiple by -1), products (`__mul_linop`, lines 332-354), sums and differences
(lines 378-401 and 406-429), `ZeroOperator` (lines 519-557) and block operators (`blkop.py`).  A row of a `BlockLinearOperator` (`blkop.py:87-95`)
starts from zeros and adds the products of the blocks from left to right: `hcat (hcat (zero m 0) B1) B2`; the rows are written below each other:
`vcat (vcat (zero 0 n) row1) row2`.  `BlockDiagonalLinearOperator` (`blkop.py:201-214`) is `bdiag`, with square blocks: the product with `.T` raises
for others (`C20_rectangular_transpose`).  All dtypes are the same, so `astype` (line 360) does nothing. -/
inductive FExpr (F : FloatFormat) : ℕ → ℕ → Type
  | arr {m n : ℕ} (A : Fin m → Fin n → FP F) : FExpr F m n
  | diag {n : ℕ} (d : FV F n) : FExpr F n n
  | ident (n : ℕ) : FExpr F n n
  | scal {m n : ℕ} (a : FP F) (e : FExpr F m n) : FExpr F m n
  | mul {m n p : ℕ} (e : FExpr F m n) (f : FExpr F n p) : FExpr F m p
  | add {m n : ℕ} (e f : FExpr F m n) : FExpr F m n
  | sub {m n : ℕ} (e f : FExpr F m n) : FExpr F m n
  | zero (m n : ℕ) : FExpr F m n
  | hcat {m n p : ℕ} (e : FExpr F m n) (f : FExpr F m p) : FExpr F m (n + p)
  | vcat {m n p : ℕ} (e : FExpr F m n) (f : FExpr F p n) : FExpr F (m + p) n
  | bdiag {m n : ℕ} (e : FExpr F m m) (f : FExpr F n n) : FExpr F (m + n) (m + n)

/-- the first entries of an array, `x[:m]` -/
def _root_.Verif.Solver.FV.fst {m n : ℕ} (x : FV F (m + n)) : FV F m := ⟨fun j => x.data (Fin.castAdd n j)⟩
/-- the last entries of an array, `x[m:]` -/
def _root_.Verif.Solver.FV.snd {m n : ℕ} (x : FV F (m + n)) : FV F n := ⟨fun j => x.data (Fin.natAdd m j)⟩

namespace FExpr

/-- `A * x` (`__mul_vector`, lines 356-360, and the closures of the operators).  Simplification: `np.dot` adds from left to right. -/
noncomputable def mulVec : {m n : ℕ} → FExpr F m n → FV F n → FV F m
  | _, _, .arr A, x => ⟨fun i => dot (⟨A i⟩ : FV F _) x⟩
  | _, _, .diag d, x => ⟨fun i => d.data i * x.data i⟩                                       -- line 499
  | _, _, .ident _, x => x                                                                   -- line 470
  | _, _, .scal a e, x => open Classical in
    if a.val = some 0 then zeros                                                             -- lines 311-313: ZeroOperator
    else ⟨fun i => a * (e.mulVec x).data i⟩                                                  -- lines 315-316
  | _, _, .mul e f, x => e.mulVec (f.mulVec x)                                               -- lines 337-338
  | _, _, .add e f, x => ⟨fun i => (e.mulVec x).data i + (f.mulVec x).data i⟩                -- lines 384-385
  | _, _, .sub e f, x => ⟨fun i => (e.mulVec x).data i - (f.mulVec x).data i⟩                -- lines 412-413
  | _, _, .zero _ _, _ => zeros                                                              -- lines 541-543
  | _, _, .hcat e f, x => ⟨fun i => (e.mulVec x.fst).data i + (f.mulVec x.snd).data i⟩       -- `blkop.py:94`
  | _, _, .vcat e f, x => ⟨Fin.append (e.mulVec x).data (f.mulVec x).data⟩                   -- `blkop.py:89-90, 96`
  | _, _, .bdiag e f, x => ⟨Fin.append (e.mulVec x.fst).data (f.mulVec x.snd).data⟩          -- `blkop.py:203-214`

/-- `.T` (lines 318-319, 340-341, 387-388, 415-416, 742): the transposed closures; diagonal and identity operators are symmetric.  The rows of the
transposed block operator (`blkop.py:66, 110`) add the products of the transposed blocks in the order of the rows. -/
def T : {m n : ℕ} → FExpr F m n → FExpr F n m
  | _, _, .arr A => .arr fun i j => A j i
  | _, _, .diag d => .diag d
  | _, _, .ident n => .ident n
  | _, _, .scal a e => .scal a e.T
  | _, _, .mul e f => .mul f.T e.T
  | _, _, .add e f => .add e.T f.T
  | _, _, .sub e f => .sub e.T f.T
  | _, _, .zero m n => .zero n m
  | _, _, .hcat e f => .vcat e.T f.T
  | _, _, .vcat e f => .hcat e.T f.T
  | _, _, .bdiag e f => .bdiag e.T f.T

/-- column `j` of `to_array` (lines 256-265): the product with a unit vector -/
noncomputable def column {m n : ℕ} (e : FExpr F m n) (j : Fin n) : FV F m :=
  e.mulVec ⟨fun k => ⟨some (if k = j then 1 else 0)⟩⟩

/-- **Specification.**  The matrix an expression stands for, without rounding. -/
noncomputable def matrix : {m n : ℕ} → FExpr F m n → Matrix (Fin m) (Fin n) ℝ
  | _, _, .arr A => Matrix.of fun i j => (A i j).num
  | _, _, .diag d => Matrix.diagonal fun i => (d.data i).num
  | _, _, .ident _ => 1
  | _, _, .scal a e => a.num • e.matrix
  | _, _, .mul e f => e.matrix * f.matrix
  | _, _, .add e f => e.matrix + f.matrix
  | _, _, .sub e f => e.matrix - f.matrix
  | _, _, .zero _ _ => 0
  | _, _, .hcat e f => Matrix.of fun i => Fin.append (e.matrix i) (f.matrix i)
  | _, _, .vcat e f => Matrix.of (Fin.append (fun i => e.matrix i) fun i => f.matrix i)
  | _, _, .bdiag e f => Matrix.of (Fin.append (fun i => Fin.append (e.matrix i) 0) fun i => Fin.append 0 (f.matrix i))

/-- **Specification.**  The expression of the absolute values: what the matrix could be without cancellation. -/
noncomputable def size : {m n : ℕ} → FExpr F m n → Matrix (Fin m) (Fin n) ℝ
  | _, _, .arr A => Matrix.of fun i j => |(A i j).num|
  | _, _, .diag d => Matrix.diagonal fun i => |(d.data i).num|
  | _, _, .ident _ => 1
  | _, _, .scal a e => |a.num| • e.size
  | _, _, .mul e f => e.size * f.size
  | _, _, .add e f => e.size + f.size
  | _, _, .sub e f => e.size + f.size
  | _, _, .zero _ _ => 0
  | _, _, .hcat e f => Matrix.of fun i => Fin.append (e.size i) (f.size i)
  | _, _, .vcat e f => Matrix.of (Fin.append (fun i => e.size i) fun i => f.size i)
  | _, _, .bdiag e f => Matrix.of (Fin.append (fun i => Fin.append (e.size i) 0) fun i => Fin.append 0 (f.size i))

/-- **Specification.**  How many roundings an entry of the result can pass through: the number of columns and one more for an array, one for a
diagonal operator, a scalar multiple, a sum and each block of a row. -/
def roundings : {m n : ℕ} → FExpr F m n → ℕ
  | _, n, .arr _ => n + 1
  | _, _, .diag _ => 1
  | _, _, .ident _ => 0
  | _, _, .scal _ e => e.roundings + 1
  | _, _, .mul e f => e.roundings + f.roundings
  | _, _, .add e f => max e.roundings f.roundings + 1
  | _, _, .sub e f => max e.roundings f.roundings + 1
  | _, _, .zero _ _ => 0
  | _, _, .hcat e f => max e.roundings f.roundings + 1
  | _, _, .vcat e f => max e.roundings f.roundings
  | _, _, .bdiag e f => max e.roundings f.roundings

/-- **Specification.**  The effect of underflow, zero in a format without it. -/
noncomputable def under : {m n : ℕ} → FExpr F m n → Fin m → ℝ
  | _, n, .arr _ => fun _ => 3 * n * (1 + F.u) ^ n * F.tiny
  | _, _, .diag _ => fun _ => F.tiny
  | _, _, .ident _ => fun _ => 0
  | _, _, .scal a e => fun i => (1 + F.u) * (|a.num| * e.under i) + F.tiny
  | _, _, .mul e f => fun i => e.under i + (1 + F.u) ^ e.roundings * (e.size *ᵥ f.under) i
  | _, _, .add e f => fun i => (1 + F.u) * (e.under i + f.under i) + F.tiny
  | _, _, .sub e f => fun i => (1 + F.u) * (e.under i + f.under i) + F.tiny
  | _, _, .zero _ _ => fun _ => 0
  | _, _, .hcat e f => fun i => (1 + F.u) * (e.under i + f.under i) + F.tiny
  | _, _, .vcat e f => Fin.append e.under f.under
  | _, _, .bdiag e f => Fin.append e.under f.under

/-- **Specification.**  The bound of the error of entry `i` of the product with `x`. -/
noncomputable def bound {m n : ℕ} (e : FExpr F m n) (x : Fin n → ℝ) (i : Fin m) : ℝ :=
  ((1 + F.u) ^ e.roundings - 1) * (e.size *ᵥ fun j => |x j|) i + e.under i

end FExpr

end Verif.Linop
