import Mathlib.Analysis.InnerProductSpace.Basic
import Mathlib.Analysis.SpecialFunctions.Pow.NNReal

/-!
# Specification for C72: the spectrum and the rate of convergence
-/

namespace Verif.Solver
open scoped RealInnerProductSpace

variable {E : Type} [NormedAddCommGroup E] [InnerProductSpace ℝ E]

/-- all eigenvalues of the symmetric map `G` lie between `lo` and `hi` -/
def SpectrumIn (G : E →ₗ[ℝ] E) (lo hi : ℝ) : Prop := ∀ z : E, lo * ‖z‖ ^ 2 ≤ ⟪z, G z⟫ ∧ (⟪z, G z⟫ : ℝ) ≤ hi * ‖z‖ ^ 2

/-- `(sqrt(hi) - sqrt(lo)) / (sqrt(hi) + sqrt(lo))`, that is `(sqrt(κ) - 1) / (sqrt(κ) + 1)` for the condition number
`κ = hi / lo` -/
noncomputable def rate (lo hi : ℝ) : ℝ := (Real.sqrt hi - Real.sqrt lo) / (Real.sqrt hi + Real.sqrt lo)

end Verif.Solver
