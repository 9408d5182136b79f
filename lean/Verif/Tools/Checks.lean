import Mathlib.Data.Complex.Basic
import Mathlib.Analysis.Complex.Norm
import Mathlib.Data.Matrix.Mul
import Mathlib.LinearAlgebra.Matrix.Symmetric

/-!
# Model of `check_symmetric` and `check_positive_definite`, `pykrylov/tools/utils.py:63-112`

Simplifications: exact complex arithmetic; the operator is represented by its matrix (see `Verif.Linop` for why products
with an operator are products with a matrix); the random stream is an arbitrary sequence of real vectors; `eps` and
`eps**(1.0/3)`, `sqrt(eps)` are parameters.  The global generator, which line 74 reseeds, is in `Tools/Random`.
-/

namespace Verif.Tools
open Classical Matrix

/-- The order NumPy uses for `>` between complex scalars: lexicographic. -/
def clt (a b : ℂ) : Prop := a.re < b.re ∨ (a.re = b.re ∧ a.im < b.im)

/-- A real vector as a complex one. -/
def cvec {n : Nat} (x : Fin n → ℝ) : Fin n → ℂ := fun i => (x i : ℂ)

/-- One repetition of the symmetry check, `utils.py:76-84`: the test `z > epsa` whose truth makes the check fail. -/
def asymmetryFound {n : Nat} (A : Matrix (Fin n) (Fin n) ℂ) (eps eps3 : ℝ) (x : Fin n → ℝ) : Prop :=
  let w := A *ᵥ cvec x
  let r := A *ᵥ w
  let s := w ⬝ᵥ w
  let t := cvec x ⬝ᵥ r
  let z : ℂ := (‖s - t‖ : ℝ)
  let epsa := (s + (eps : ℂ)) * (eps3 : ℂ)
  clt epsa z

/-- The loop `utils.py:75-85`; `k` repetitions remain, the next vector drawn is `draw i`. -/
noncomputable def symmetricLoop {n : Nat} (A : Matrix (Fin n) (Fin n) ℂ) (eps eps3 : ℝ) (draw : Nat → Fin n → ℝ) :
    Nat → Nat → Bool
  | 0, _ => true
  | k + 1, i => if asymmetryFound A eps eps3 (draw i) then false else symmetricLoop A eps eps3 draw k (i + 1)

/-- `check_symmetric(op, repeats)`, `utils.py:63-85`. -/
noncomputable def checkSymmetric {m n : Nat} (A : Matrix (Fin m) (Fin n) ℂ) (repeats : Nat) (eps eps3 : ℝ)
    (draw : Nat → Fin n → ℝ) : Bool :=
  if h : m = n then symmetricLoop (A.submatrix (Fin.cast h.symm) id) eps eps3 draw repeats 0 else false

/-- One repetition of the definiteness check, `utils.py:99-111`: whether the check fails on `v`. -/
def negativeFound {n : Nat} (A : Matrix (Fin n) (Fin n) ℂ) (sqrteps : ℝ) (semi : Bool) (v : Fin n → ℝ) : Prop :=
  let vw := cvec v ⬝ᵥ (A *ᵥ cvec v)
  vw.im > sqrteps * ‖vw‖ ∨ (if semi then vw.re < 0 else vw.re ≤ 0)

/-- The loop `utils.py:98-112`. -/
noncomputable def definiteLoop {n : Nat} (A : Matrix (Fin n) (Fin n) ℂ) (sqrteps : ℝ) (semi : Bool)
    (draw : Nat → Fin n → ℝ) : Nat → Nat → Bool
  | 0, _ => true
  | k + 1, i => if negativeFound A sqrteps semi (draw i) then false else definiteLoop A sqrteps semi draw k (i + 1)

/-- `check_positive_definite(op, repeats, semi)`, `utils.py:88-112`. -/
noncomputable def checkPositiveDefinite {m n : Nat} (A : Matrix (Fin m) (Fin n) ℂ) (repeats : Nat) (semi : Bool)
    (sqrteps : ℝ) (draw : Nat → Fin n → ℝ) : Bool :=
  if h : m = n then definiteLoop (A.submatrix (Fin.cast h.symm) id) sqrteps semi draw repeats 0 else false

end Verif.Tools
