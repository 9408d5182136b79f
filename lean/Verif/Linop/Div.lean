import Verif.Linop.Core
import Mathlib.Algebra.Field.Basic

/-!
# Model of the quotients `op / k`
-/

namespace Verif.Linop

variable {K : Type} [Field K] [StarRing K] [DTypes K] [DecidableEq K]

/-- `__truediv__`, `linop.py:436-439`: `self * (1. / other)`; division by zero raises. -/
def trueDiv (r : Nat) (k : K) (kk : DKind) (h : Heap K) : Except Err (Nat × Heap K) :=
  if k = 0 then .error .zeroDivisionError else mulScalar r (1 / k) (DKind.real.join kk) h

/-- `__div__`, `linop.py:431-434` with a Python 2 `int` (the `/` operator of Python 2 without
`from __future__ import division`): `self * (1 / other)`, where `1 / other` is floor division. -/
def divInt (r : Nat) (k : Int) (h : Heap K) : Except Err (Nat × Heap K) :=
  if k = 0 then .error .zeroDivisionError else mulScalar r ((Int.fdiv 1 k : Int) : K) .int h

/-- `__div__` with a float or complex `other`: ordinary division. -/
def divFloat (r : Nat) (k : K) (kk : DKind) (h : Heap K) : Except Err (Nat × Heap K) :=
  if k = 0 then .error .zeroDivisionError else mulScalar r (1 / k) kk h

end Verif.Linop
