import Verif.Solver.FloatRange

/-!
# `roots_quadratic` in floating-point arithmetic

`tools/utils.py:12-60` with the arithmetic of `Solver/FloatFormat`.  The format has one non-finite value, so a comparison with, or a square root of, a
number that is not finite is not modelled: the result is the error `notFinite`.  The constants 4.0, -0.5 and 2.0 are exact.  The sign bit of a
zero `q1`, which `copysign` sees, is the parameter `negZero`.
-/

namespace Verif.Tools
open Verif.Solver Verif.Solver.Scalar

/-- why there is no result -/
inductive QErr where
  | zeroDivision
  | mathDomain
  | notFinite
  deriving DecidableEq

variable {F : FloatFormat}

/-- `a < b` -/
noncomputable def ltF (a b : FP F) : Except QErr Bool := open Classical in
  match a.val, b.val with
  | some x, some y => .ok (decide (x < y))
  | _, _ => .error .notFinite

/-- `a == 0.0` -/
noncomputable def isZeroF (a : FP F) : Except QErr Bool := open Classical in
  match a.val with
  | some x => .ok (decide (x = 0))
  | none => .error .notFinite

/-- Python's division of floats: raises if the divisor is zero -/
noncomputable def divF (a b : FP F) : Except QErr (FP F) := do
  if ← isZeroF b then .error .zeroDivision else .ok (a / b)

/-- `math.sqrt`: raises if the argument is negative -/
noncomputable def sqrtF (a : FP F) : Except QErr (FP F) := do
  if ← ltF a ⟨some 0⟩ then .error .mathDomain else .ok (sqrt a)

/-- `math.copysign(x, y)` -/
noncomputable def copysignF (x y : FP F) (negZero : Bool) : Except QErr (FP F) := do
  let neg ← ltF y ⟨some 0⟩
  let zero ← isZeroF y
  if neg || (zero && negZero) then .ok (-Scalar.abs x) else .ok (Scalar.abs x)

/-- One Newton step, `utils.py:52-57`. -/
noncomputable def newtonF (a2 a1 a0 root : FP F) : Except QErr (FP F) := do
  let val := (a2 * root + a1) * root + a0
  let der := (⟨some 2⟩ : FP F) * a2 * root + a1
  if ← isZeroF der then .ok root
  else do
    let t ← divF val der
    .ok (root - t)

/-- The inner loop, `utils.py:51-57`. -/
noncomputable def newtonsF (a2 a1 a0 : FP F) : ℕ → FP F → Except QErr (FP F)
  | 0, root => .ok root
  | k + 1, root => do
    let root ← newtonF a2 a1 a0 root
    newtonsF a2 a1 a0 k root

/-- The starting roots, `utils.py:25-46`.  `.inl l` stands for `return l`, `.inr l` for `roots = l`. -/
noncomputable def startRootsF (a2 a1 a0 tol : FP F) (negZero : Bool) : Except QErr (List (FP F) ⊕ List (FP F)) := do
  if ← isZeroF a2 then
    if ← isZeroF a1 then
      if ← isZeroF a0 then .ok (.inl [⟨some 0⟩]) else .ok (.inl [])
    else do
      let r ← divF (-a0) a1
      .ok (.inr [r])
  else do
    let rhs := tol * a1 * a1
    if ← ltF rhs (Scalar.abs (a0 * a2)) then do
      let rho := a1 * a1 - (⟨some 4⟩ : FP F) * a2 * a0
      if ← ltF rho ⟨some 0⟩ then .ok (.inl [])
      else do
        let s ← sqrtF rho
        let c ← copysignF s a1 negZero
        let d := (⟨some (-(1 / 2))⟩ : FP F) * (a1 + c)
        let r1 ← divF d a2
        let r2 ← divF a0 d
        .ok (.inr [r1, r2])
    else do
      let r1 ← divF (-a1) a2
      .ok (.inr [r1, ⟨some 0⟩])

/-- `for root in roots`, `utils.py:49-58` -/
noncomputable def refineF (a2 a1 a0 : FP F) (nitref : ℕ) : List (FP F) → Except QErr (List (FP F))
  | [] => .ok []
  | r :: rs => do
    let r ← newtonsF a2 a1 a0 nitref r
    let rs ← refineF a2 a1 a0 nitref rs
    .ok (r :: rs)

/-- `roots_quadratic(q2, q1, q0, tol, nitref)`, `utils.py:12-60`. -/
noncomputable def rootsQuadraticF (q2 q1 q0 tol : FP F) (nitref : ℕ) (negZero : Bool) : Except QErr (List (FP F)) := do
  match ← startRootsF q2 q1 q0 tol negZero with
  | .inl l => .ok l
  | .inr l => refineF q2 q1 q0 nitref l

/-- **Specification.**  The quadratic. -/
noncomputable def quadF (q2 q1 q0 : FP F) (r : ℝ) : ℝ := q2.num * r ^ 2 + q1.num * r + q0.num
/-- **Specification.**  The sum of the absolute values of its terms. -/
noncomputable def quadAbsF (q2 q1 q0 : FP F) (r : ℝ) : ℝ := |q2.num| * r ^ 2 + |q1.num| * |r| + |q0.num|

end Verif.Tools
