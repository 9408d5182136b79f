import Verif.Linop.Core
import Mathlib.LinearAlgebra.Matrix.Defs
import Mathlib.Data.Matrix.Mul
import Mathlib.Data.Int.ModEq

/-!
# The individual dtypes of `tools/types.py`, and operators of integers of limited width

`Verif.Linop.Core` knows three classes of dtypes and computes with exact numbers. Here the dtypes have their sizes, and integers
wrap around.
-/

namespace Verif.Linop

/-- The dtypes of `tools/types.py:3-16`: `uint8, uint16, uint32, uint64` are `uint 0, ..., uint 3`; `int8, ..., int64` are `int 0, ..., int 3`;
`float16, float32, float64, float128` are `float 0, ..., float 3`; `complex64, complex128, complex256` are `complex 0, ..., complex 2`. The
other names in the lists (`np.uint`, `np.int`, `np.int_`, `np.intc`, `np.intp`, `np.float`, `np.float_`, `np.complex`, `np.complex_`) are aliases of
these. -/
inductive NpType
  | uint (k : Fin 4) | int (k : Fin 4) | float (k : Fin 4) | complex (k : Fin 3)
  deriving DecidableEq, Repr

namespace NpType

/-- the list of `tools/types.py` a dtype belongs to -/
def kind : NpType → DKind
  | uint _ => .int
  | int _ => .int
  | float _ => .real
  | complex _ => .complex

/-- the smallest float NumPy takes for integers of a given size: `float16` for 8 bits, `float32` for 16, `float64` for 32 and 64 -/
def intFloat : Fin 4 → Fin 4
  | 0 => 0 | 1 => 1 | 2 => 2 | 3 => 2

/-- the complex type with parts of a given float type, at least `complex64` -/
def floatComplex : Fin 4 → Fin 3
  | 0 => 0 | 1 => 0 | 2 => 1 | 3 => 2

/-- `np.result_type` of two dtypes (NumPy's promotion table): what `linop.py` writes into the `dtype` of sums and products
(lines 309, 346, 393, 421) and of results (line 359) -/
def resultType : NpType → NpType → NpType
  | uint a, uint b => uint (max a b)
  | int a, int b => int (max a b)
  | uint a, int b => if a < b then int b else if a < 3 then int (a + 1) else float 2
  | int b, uint a => if a < b then int b else if a < 3 then int (a + 1) else float 2
  | float a, float b => float (max a b)
  | uint a, float b => float (max (intFloat a) b)
  | int a, float b => float (max (intFloat a) b)
  | float b, uint a => float (max (intFloat a) b)
  | float b, int a => float (max (intFloat a) b)
  | complex a, complex b => complex (max a b)
  | float a, complex b => complex (max (floatComplex a) b)
  | complex b, float a => complex (max (floatComplex a) b)
  | uint a, complex b => complex (max (floatComplex (intFloat a)) b)
  | int a, complex b => complex (max (floatComplex (intFloat a)) b)
  | complex b, uint a => complex (max (floatComplex (intFloat a)) b)
  | complex b, int a => complex (max (floatComplex (intFloat a)) b)

end NpType

/-- Integer dtypes: `u k` and `s k` have `8 * 2^k` bits. -/
inductive IntT
  | u (k : Fin 4) | s (k : Fin 4)
  deriving DecidableEq, Repr

namespace IntT

def np : IntT → NpType
  | u k => .uint k
  | s k => .int k

def bits : IntT → ℕ
  | u k => 8 * 2 ^ (k : ℕ)
  | s k => 8 * 2 ^ (k : ℕ)

/-- the values of a dtype -/
def Fits (t : IntT) (z : ℤ) : Prop :=
  match t with
  | u k => 0 ≤ z ∧ z < 2 ^ (8 * 2 ^ (k : ℕ))
  | s k => - 2 ^ (8 * 2 ^ (k : ℕ) - 1) ≤ z ∧ z < 2 ^ (8 * 2 ^ (k : ℕ) - 1)

instance (t : IntT) (z : ℤ) : Decidable (t.Fits z) := by
  cases t <;> unfold Fits <;> infer_instance

/-- NumPy's integer arithmetic and `astype`: the value of the dtype that is congruent modulo `2^bits` -/
def wrap (t : IntT) (z : ℤ) : ℤ :=
  match t with
  | u k => z % 2 ^ (8 * 2 ^ (k : ℕ))
  | s k => (z + 2 ^ (8 * 2 ^ (k : ℕ) - 1)) % 2 ^ (8 * 2 ^ (k : ℕ)) - 2 ^ (8 * 2 ^ (k : ℕ) - 1)

/-- `np.result_type` of two integer dtypes; `none` if it is `float64` -/
def join : IntT → IntT → Option IntT
  | u a, u b => some (u (max a b))
  | s a, s b => some (s (max a b))
  | u a, s b => if a < b then some (s b) else if a < 3 then some (s (a + 1)) else none
  | s b, u a => if a < b then some (s b) else if a < 3 then some (s (a + 1)) else none

/-- the dtype of `a * y` for a Python integer `a` and an array `y` of dtype `t`: NumPy looks at the value of `a` and takes the smallest
dtype for both; `none` if there is no such integer dtype -/
def scalJoin (t : IntT) (a : ℤ) : Option IntT :=
  match t with
  | s k => ((List.finRange 4).find? fun j => decide (k ≤ j) && decide ((s j).Fits a)).map s
  | u k =>
    if 0 ≤ a then ((List.finRange 4).find? fun j => decide (k ≤ j) && decide ((u j).Fits a)).map u
    else ((List.finRange 4).find? fun j => decide ((s j).Fits a)).bind fun j => join (u k) (s j)

end IntT

open Matrix

/-- a vector of integers with its dtype -/
structure IVec (n : ℕ) where
  dtype : IntT
  data : Fin n → ℤ

/-- Operators built from arrays of integers (`linop_from_ndarray`, lines 723-745) with the operators of `linop.py`: scalar multiples by Python
integers (`__mul_scalar`, lines 307-330), products (`__mul_linop`, lines 332-354), sums and differences (`__add__`, `__sub__`, lines 378-401 and 406-429). -/
inductive IExpr : ℕ → ℕ → Type
  | arr {m n : ℕ} (t : IntT) (A : Matrix (Fin m) (Fin n) ℤ) : IExpr m n
  | scal {m n : ℕ} (a : ℤ) (e : IExpr m n) : IExpr m n
  | mul {m n p : ℕ} (e : IExpr m n) (f : IExpr n p) : IExpr m p
  | add {m n : ℕ} (e f : IExpr m n) : IExpr m n
  | sub {m n : ℕ} (e f : IExpr m n) : IExpr m n

namespace IExpr

/-- the attribute `dtype` (lines 309, 346, 393, 421, 745); `none` if it is not an integer dtype. A Python integer counts as `int64`. -/
def dtype : {m n : ℕ} → IExpr m n → Option IntT
  | _, _, .arr t _ => some t
  | _, _, .scal _ e => e.dtype.bind fun d => IntT.join d (.s 3)
  | _, _, .mul e f => e.dtype.bind fun d => f.dtype.bind fun d' => IntT.join d d'
  | _, _, .add e f => e.dtype.bind fun d => f.dtype.bind fun d' => IntT.join d d'
  | _, _, .sub e f => e.dtype.bind fun d => f.dtype.bind fun d' => IntT.join d d'

/-- `y.astype(result_type)`, line 360 -/
def cast {m : ℕ} (d : Option IntT) (xt : IntT) (y : Fin m → ℤ) : Option (IVec m) :=
  d.bind fun d => (IntT.join d xt).map fun r => ⟨r, fun i => r.wrap (y i)⟩

/-- `A * x` (`__mul_vector`, lines 356-360, and the closures of the operators). `np.dot` and the sums of arrays compute in the
`result_type` of their arguments and wrap around. `none` means that some dtype is not an integer dtype. Simplification: a product wraps
around once at the end of the sum instead of after each term. -/
def mulVec : {m n : ℕ} → IExpr m n → IVec n → Option (IVec m)
  | _, _, .arr t A, x => (IntT.join t x.dtype).bind fun r => cast (some t) x.dtype fun i => r.wrap ((A *ᵥ x.data) i)
  | _, _, .scal a e, x =>
    if a = 0 then cast ((IExpr.scal a e).dtype) x.dtype fun _ => 0          -- lines 311-313: ZeroOperator
    else (e.mulVec x).bind fun y => (y.dtype.scalJoin a).bind fun r =>      -- lines 315-316
      cast ((IExpr.scal a e).dtype) x.dtype fun i => r.wrap (a * y.data i)
  | _, _, .mul e f, x => (f.mulVec x).bind fun y => (e.mulVec y).bind fun z =>                         -- lines 337-338
      cast ((IExpr.mul e f).dtype) x.dtype z.data
  | _, _, .add e f, x => (e.mulVec x).bind fun y => (f.mulVec x).bind fun z =>                         -- lines 384-385
      (IntT.join y.dtype z.dtype).bind fun r => cast ((IExpr.add e f).dtype) x.dtype fun i => r.wrap (y.data i + z.data i)
  | _, _, .sub e f, x => (e.mulVec x).bind fun y => (f.mulVec x).bind fun z =>                         -- lines 412-413
      (IntT.join y.dtype z.dtype).bind fun r => cast ((IExpr.sub e f).dtype) x.dtype fun i => r.wrap (y.data i - z.data i)

/-- `.T` (lines 318-319, 340-341, 387-388, 415-416, 742): the transposed closures -/
def T : {m n : ℕ} → IExpr m n → IExpr n m
  | _, _, .arr t A => .arr t Aᵀ
  | _, _, .scal a e => .scal a e.T
  | _, _, .mul e f => .mul f.T e.T
  | _, _, .add e f => .add e.T f.T
  | _, _, .sub e f => .sub e.T f.T

/-- column `j` of `to_array` (lines 256-265): `H` and the unit vector have the dtype of the operator -/
def column {m n : ℕ} (e : IExpr m n) (j : Fin n) : Option (IVec m) :=
  e.dtype.bind fun d => (e.mulVec ⟨d, Pi.single j 1⟩).map fun y => ⟨d, fun i => d.wrap (y.data i)⟩

/-- **Specification.** The matrix an expression stands for. -/
def matrix : {m n : ℕ} → IExpr m n → Matrix (Fin m) (Fin n) ℤ
  | _, _, .arr _ A => A
  | _, _, .scal a e => a • e.matrix
  | _, _, .mul e f => e.matrix * f.matrix
  | _, _, .add e f => e.matrix + f.matrix
  | _, _, .sub e f => e.matrix - f.matrix

/-- **Specification.** All arrays have signed dtypes and all scalars are 64-bit integers. -/
def Signed : {m n : ℕ} → IExpr m n → Prop
  | _, _, .arr t _ => ∃ k, t = .s k
  | _, _, .scal a e => (IntT.s 3).Fits a ∧ e.Signed
  | _, _, .mul e f => e.Signed ∧ f.Signed
  | _, _, .add e f => e.Signed ∧ f.Signed
  | _, _, .sub e f => e.Signed ∧ f.Signed

end IExpr
end Verif.Linop
