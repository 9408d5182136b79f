import Mathlib.Data.Rat.Defs

/-!
# Arithmetic interfaces for the solver models

The solver models are written against these interfaces, which carry no laws at all: what is proved about the
generic models (budgets, counters, status codes, stopping logic) holds for every arithmetic, in particular for
floating point with rounding, infinities and NaN.  Exact arithmetic is the instance in `Verif.Solver.Exact`.
-/

namespace Verif.Solver

/-- scalars: Python floats and NumPy scalars -/
class Scalar (S : Type) extends Add S, Sub S, Mul S, Div S, Neg S where
  sqrt : S → S
  abs : S → S
  /-- a decimal literal -/
  lit : ℚ → S
  /-- `a <= b` -/
  le : S → S → Bool
  /-- `a < b` -/
  lt : S → S → Bool
  /-- `np.real(a)`; a real number is its own real part -/
  re : S → S := fun a => a
  /-- `np.imag(a)`; zero for a real number -/
  im : S → S := fun _ => lit 0

/-- vectors: one-dimensional NumPy arrays -/
class Vect (S : outParam Type) (V : Type) extends Add V, Sub V, Neg V where
  /-- `np.zeros(n)` -/
  zeros : V
  /-- `a * v` -/
  smul : S → V → V
  /-- `v / a` -/
  vdiv : V → S → V
  /-- `np.dot(u, v)` -/
  dot : V → V → S
  /-- `np.linalg.norm(v)` -/
  norm : V → S

namespace Scalar
variable {S : Type} [Scalar S]
/-- `a > b`, `a >= b` -/
def gt (a b : S) : Bool := lt b a
def ge (a b : S) : Bool := le b a
/-- Python's `max(a, b)`: the first argument unless the second is greater -/
def pymax (a b : S) : S := if lt a b then b else a
/-- Python's `min(a, b)` -/
def pymin (a b : S) : S := if lt b a then b else a
end Scalar

end Verif.Solver
