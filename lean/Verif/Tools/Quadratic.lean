import Mathlib.Analysis.Real.Sqrt
import Mathlib.Tactic.FieldSimp
import Mathlib.Tactic.LinearCombination
import Mathlib.Tactic.Positivity
import Mathlib.Tactic.Linarith

/-!
# Model of `roots_quadratic`, `pykrylov/tools/utils.py:12-60`

Simplifications: floating-point numbers are real numbers plus, for `q1`, the sign bit of a zero (`copysign`, line 42,
can see it); the conversion by `float` (lines 21-23) is the identity.  Division by zero raises
`ZeroDivisionError`, modelled by the result `none`; so does `math.sqrt` of a negative number (`ValueError`).
-/

namespace Verif.Tools
open Classical

/-- Python's float division: raises if the divisor is zero. -/
noncomputable def pdiv (a b : ℝ) : Option ℝ := if b = 0 then none else some (a / b)

/-- `math.sqrt`: raises if the argument is negative. -/
noncomputable def psqrt (a : ℝ) : Option ℝ := if a < 0 then none else some (Real.sqrt a)

/-- `math.copysign(x, y)`; `negZero` is the sign bit of `y` in case `y` is a zero. -/
noncomputable def copysign (x y : ℝ) (negZero : Bool) : ℝ :=
  if y < 0 ∨ (y = 0 ∧ negZero = true) then -|x| else |x|

/-- One Newton step, `utils.py:52-57`. -/
noncomputable def newton (a2 a1 a0 root : ℝ) : Option ℝ :=
  let val := (a2 * root + a1) * root + a0
  let der := 2 * a2 * root + a1
  if der = 0 then some root
  else do
    let t ← pdiv val der
    return root - t

/-- The inner loop, `utils.py:51-57`. -/
noncomputable def newtons (a2 a1 a0 : ℝ) : Nat → ℝ → Option ℝ
  | 0, root => some root
  | k + 1, root => do
    let root ← newton a2 a1 a0 root
    newtons a2 a1 a0 k root

/-- The starting roots, `utils.py:25-46`.  `.inl l` stands for `return l`, `.inr l` for `roots = l`. -/
noncomputable def startRoots (a2 a1 a0 tol : ℝ) (negZero : Bool) : Option (List ℝ ⊕ List ℝ) :=
  if a2 = 0 then
    if a1 = 0 then
      if a0 = 0 then some (.inl [0]) else some (.inl [])
    else do
      let r ← pdiv (-a0) a1
      return .inr [r]
  else
    let rhs := tol * a1 * a1
    if |a0 * a2| > rhs then
      let rho := a1 * a1 - 4 * a2 * a0
      if rho < 0 then some (.inl [])
      else do
        let s ← psqrt rho
        let d := -(1/2) * (a1 + copysign s a1 negZero)
        let r1 ← pdiv d a2
        let r2 ← pdiv a0 d
        return .inr [r1, r2]
    else do
      let r1 ← pdiv (-a1) a2
      return .inr [r1, 0]

/-- `roots_quadratic(q2, q1, q0, tol, nitref)`, `utils.py:12-60`.  `none`: an exception is raised. -/
noncomputable def rootsQuadratic (q2 q1 q0 tol : ℝ) (nitref : Nat) (negZero : Bool) : Option (List ℝ) := do
  match ← startRoots q2 q1 q0 tol negZero with
  | .inl l => return l
  | .inr l => l.mapM (newtons q2 q1 q0 nitref)

end Verif.Tools
