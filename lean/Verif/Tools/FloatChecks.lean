import Verif.Solver.FloatProps

/-!
# `check_symmetric` and `check_positive_definite` in floating-point arithmetic

`tools/utils.py:63-112` with the arithmetic of `Solver/FloatFormat`, for real operators.  The format has one non-finite value; theorems that depend on
comparisons with infinities therefore assume that the numbers compared are finite.
-/

namespace Verif.Tools
open Verif.Solver Verif.Solver.Scalar Verif.Solver.Vect

variable {F : FloatFormat} {n : ℕ}

/-- One repetition of the symmetry check, `utils.py:76-84`: the test `z > epsa` whose truth makes the check fail.  `eps` is the machine epsilon and
`eps3` its computed cube root. -/
noncomputable def asymmetryFoundF (op : FV F n → FV F n) (eps eps3 : FP F) (x : FV F n) : Bool :=
  let w := op x
  let r := op w
  let s := dot w w
  let t := dot x r
  let z := Scalar.abs (s - t)
  let epsa := (s + eps) * eps3
  lt epsa z

/-- The loop `utils.py:75-85` for a square operator; `draw i` is the vector drawn in repetition `i`. -/
noncomputable def checkSymmetricF (op : FV F n → FV F n) (eps eps3 : FP F) (draw : ℕ → FV F n) (repeats : ℕ) : Bool :=
  (List.range repeats).all fun i => !asymmetryFoundF op eps eps3 (draw i)

/-- One repetition of the definiteness check for a real operator, `utils.py:99-111`: whether the check fails on `v`.  The imaginary part of a real
number is zero and never larger than `sqrt(eps) * abs(vw)`. -/
noncomputable def negativeFoundF (op : FV F n → FV F n) (semi : Bool) (v : FV F n) : Bool :=
  let vw := dot v (op v)
  if semi then lt vw ⟨some 0⟩ else le vw ⟨some 0⟩

/-- The loop `utils.py:98-112` for a square operator. -/
noncomputable def checkDefiniteF (op : FV F n → FV F n) (semi : Bool) (draw : ℕ → FV F n) (repeats : ℕ) : Bool :=
  (List.range repeats).all fun i => !negativeFoundF op semi (draw i)

/-- **Specification.**  The relative error of a dot product. -/
noncomputable def dotErr (F : FloatFormat) (n : ℕ) : ℝ := (1 + F.u) ^ (n + 1) - 1
/-- **Specification.**  The effect of underflow in a dot product. -/
noncomputable def dotTiny (F : FloatFormat) (n : ℕ) : ℝ := 3 * n * (1 + F.u) ^ n * F.tiny

end Verif.Tools
