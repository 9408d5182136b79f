import Verif.Solver.ScaleProps
import Verif.Solver.ScaleLsProps
import Verif.Solver.WarmProps
import Verif.Solver.KrylovConvProps
import Verif.Solver.SymmlqConvProps
import Verif.Solver.LSMRConv

/-!
# C80: singular systems, specification and lemmas

On a consistent system with a symmetric operator everything happens in the range of the operator, where the operator is
nonsingular.  So the theorems on nonsingular operators, used for the range, and `C76`, used for the inclusion of the range in the
space, give theorems on singular operators.
-/

namespace Verif.Solver
open Scalar Vect
open scoped RealInnerProductSpace

variable {E F : Type} [NormedAddCommGroup E] [InnerProductSpace ℝ E] [NormedAddCommGroup F] [InnerProductSpace ℝ F]

/-- **Specification.** `A` is symmetric and positive semidefinite. -/
def PSD (A : E →ₗ[ℝ] E) : Prop := (∀ u v : E, ⟪A u, v⟫ = ⟪u, A v⟫) ∧ ∀ u : E, 0 ≤ ⟪u, A u⟫

/-- **Specification.** `x` is the solution of `A x = b` that is nearest to `g`: all others are farther away. -/
def NearestSolution (A : E →ₗ[ℝ] F) (b : F) (g x : E) : Prop := A x = b ∧ ∀ y, A y = b → y ≠ x → ‖x - g‖ < ‖y - g‖

/-- **Specification.** `x` minimizes `‖b - A x‖`, and all other minimizers have larger norms. -/
def MinimumNormLeastSquares (A : E →ₗ[ℝ] F) (b : F) (x : E) : Prop :=
  (∀ y, ‖b - A x‖ ≤ ‖b - A y‖) ∧ ∀ y, ‖b - A y‖ = ‖b - A x‖ → y ≠ x → ‖x‖ < ‖y‖

theorem norm_lt_of_orthogonal {x z : E} (h : ⟪x, z⟫ = 0) (hz : z ≠ 0) : ‖x‖ < ‖x + z‖ := by
  have h1 : ‖x + z‖ * ‖x + z‖ = ‖x‖ * ‖x‖ + ‖z‖ * ‖z‖ := norm_add_sq_eq_norm_sq_add_norm_sq_real h
  have h2 : 0 < ‖z‖ := norm_pos_iff.2 hz
  nlinarith [norm_nonneg x, norm_nonneg (x + z)]

theorem nearest_of_range {A : E →ₗ[ℝ] F} {B : F →ₗ[ℝ] E} (hA : ∀ u v, ⟪A u, v⟫ = ⟪u, B v⟫) {b : F} {g x : E} (hx : A x = b)
    (h : x - g ∈ LinearMap.range B) : NearestSolution A b g x := by
  refine ⟨hx, fun y hy hne => ?_⟩
  obtain ⟨z, hz⟩ := h
  have h0 : ⟪x - g, y - x⟫ = 0 := by
    rw [← hz, real_inner_comm, ← hA, map_sub, hx, hy, sub_self, inner_zero_left]
  have := norm_lt_of_orthogonal h0 (sub_ne_zero.2 hne)
  rwa [show x - g + (y - x) = y - g by abel] at this

theorem minimumNorm_of_range {A : E →ₗ[ℝ] F} {B : F →ₗ[ℝ] E} (hA : ∀ u v, ⟪A u, v⟫ = ⟪u, B v⟫) {b : F} {x : E}
    (hx : B (b - A x) = 0) (h : x ∈ LinearMap.range B) : MinimumNormLeastSquares A b x := by
  have key : ∀ y, ‖b - A y‖ * ‖b - A y‖ = ‖b - A x‖ * ‖b - A x‖ + ‖A (x - y)‖ * ‖A (x - y)‖ := by
    intro y
    have h0 : ⟪b - A x, A (x - y)⟫ = 0 := by rw [real_inner_comm, hA, hx, inner_zero_right]
    rw [← norm_add_sq_eq_norm_sq_add_norm_sq_real h0, map_sub]
    rw [show b - A x + (A x - A y) = b - A y by abel]
  refine ⟨fun y => ?_, fun y hy hne => ?_⟩
  · have := key y
    nlinarith [norm_nonneg (b - A x), norm_nonneg (b - A y), mul_self_nonneg ‖A (x - y)‖]
  · have h1 := key y
    rw [hy] at h1
    have h2 : A (x - y) = 0 := norm_eq_zero.1 (mul_self_eq_zero.1 (by linarith))
    rw [map_sub, sub_eq_zero] at h2
    have := nearest_of_range (g := 0) hA (rfl : A x = A x) (by simpa using h)
    simpa using this.2 y h2.symm hne

theorem PSD.kernel {A : E →ₗ[ℝ] E} (hA : PSD A) {u : E} (h : ⟪u, A u⟫ = 0) : A u = 0 := by
  obtain ⟨hs, hp⟩ := hA
  have e : ∀ t : ℝ, ⟪u + t • A u, A (u + t • A u)⟫ = 2 * t * ⟪A u, A u⟫ + t * t * ⟪A u, A (A u)⟫ := by
    intro t
    have h1 : ⟪u, A (A u)⟫ = ⟪A u, A u⟫ := (hs u (A u)).symm
    simp only [map_add, map_smul, inner_add_left, inner_add_right, inner_smul_left, inner_smul_right, h, h1, conj_trivial]
    ring
  have h1 := hp (u + (-(⟪A u, A u⟫ / (⟪A u, A (A u)⟫ + 1))) • A u)
  rw [e] at h1
  have hc : 0 ≤ ⟪A u, A (A u)⟫ := hp (A u)
  generalize ⟪A u, A (A u)⟫ = c at h1 hc
  have hm : 0 ≤ ⟪A u, A u⟫ := real_inner_self_nonneg
  rw [← inner_self_eq_zero (𝕜 := ℝ)]
  generalize ⟪A u, A u⟫ = m at h1 hm ⊢
  have h2 : 2 * -(m / (c + 1)) * m + -(m / (c + 1)) * -(m / (c + 1)) * c = -(m ^ 2 * (c + 2)) / (c + 1) ^ 2 := by
    field_simp
    ring
  rw [h2] at h1
  have h3 : 0 ≤ -(m ^ 2 * (c + 2)) := by
    have := mul_nonneg h1 (sq_nonneg (c + 1))
    rwa [div_mul_cancel₀ _ (by positivity)] at this
  have h4 : m ^ 2 = 0 := by nlinarith [sq_nonneg m, mul_nonneg (sq_nonneg m) hc]
  exact pow_eq_zero_iff (two_ne_zero) |>.1 h4

/-! ### Restriction to the range -/

/-- `A` on its range -/
noncomputable def onRange (A : E →ₗ[ℝ] E) : LinearMap.range A →ₗ[ℝ] LinearMap.range A := A.restrict fun v _ => ⟨v, rfl⟩

@[simp] theorem onRange_coe (A : E →ₗ[ℝ] E) (u : LinearMap.range A) : (onRange A u : E) = A u := rfl

theorem PSD.onRange {A : E →ₗ[ℝ] E} (hA : PSD A) : SPD (onRange A) := by
  refine ⟨fun u v => hA.1 u v, fun u hu => ?_⟩
  have h1 : 0 ≤ ⟪(u : E), A u⟫ := hA.2 u
  refine lt_of_le_of_ne h1 fun h0 => hu ?_
  have h2 : A (u : E) = 0 := hA.kernel h0.symm
  obtain ⟨z, hz⟩ := u.2
  have : ⟪(u : E), (u : E)⟫ = 0 := by
    conv_lhs => rw [← hz]
    rw [hA.1, hz, h2, inner_zero_right]
  exact Subtype.ext (inner_self_eq_zero.1 this)

/-- the system on the range -/
noncomputable def rangeProblem (A : E →ₗ[ℝ] E) (b : LinearMap.range A) (abstol reltol : ℝ) : UnitProblem (LinearMap.range A) :=
  { A := onRange A, b := b, abstol := abstol, reltol := reltol }

theorem rangeProblem_same {q : UnitProblem E} (hp : q.precon = none) (hg : q.guess = none) (b : LinearMap.range q.A) (hb : q.b = b) :
    SameSystem (LinearMap.range q.A).subtypeₗᵢ 1 1 1 (rangeProblem q.A b q.abstol q.reltol) q where
  A v := by simp [rangeProblem]
  b := by simp [rangeProblem, hb]
  guess := by simp [rangeProblem, hg]
  precon v := by simp [rangeProblem, hp]
  abstol := by simp [rangeProblem]
  reltol := rfl

/-- the problem for the correction of the guess -/
noncomputable def UnitProblem.cold (q : UnitProblem E) : UnitProblem E := { q with b := q.b - q.A (q.guess.getD 0), guess := none }

theorem UnitProblem.cold_b {q : UnitProblem E} (hb : q.b ∈ LinearMap.range q.A) : q.cold.b ∈ LinearMap.range q.A :=
  Submodule.sub_mem _ hb ⟨_, rfl⟩

end Verif.Solver
