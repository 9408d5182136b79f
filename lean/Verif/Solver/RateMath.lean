import Verif.Solver.MinresMath
import Verif.Solver.Rate
import Mathlib.Analysis.InnerProductSpace.Spectrum
import Mathlib.Analysis.SpecialFunctions.Trigonometric.Chebyshev.RootsExtrema
import Mathlib.LinearAlgebra.Eigenspace.Minpoly

/-!
# Chebyshev polynomials of symmetric maps

Helper for C72: no code is modelled here.
-/

namespace Verif.Solver
open scoped RealInnerProductSpace
open Polynomial
open MinresMath (krylov)

variable {E : Type} [NormedAddCommGroup E] [InnerProductSpace ℝ E]

theorem rate_nonneg {lo hi : ℝ} (h : lo ≤ hi) : 0 ≤ rate lo hi :=
  div_nonneg (sub_nonneg.2 (Real.sqrt_le_sqrt h)) (add_nonneg (Real.sqrt_nonneg _) (Real.sqrt_nonneg _))

theorem rate_lt_one {lo hi : ℝ} (h0 : 0 < lo) : rate lo hi < 1 := by
  have h1 := Real.sqrt_pos.2 h0
  have h2 := Real.sqrt_nonneg hi
  unfold rate
  rw [div_lt_one (by linarith)]; linarith

/-- a simple bound for the rate -/
theorem rate_le_exp {lo hi : ℝ} (h0 : 0 < lo) (h : lo ≤ hi) : rate lo hi ≤ Real.exp (-(2 / (Real.sqrt (hi / lo) + 1))) := by
  have h1 := Real.sqrt_pos.2 h0
  have h2 := Real.sqrt_pos.2 (h0.trans_le h)
  have e : rate lo hi = 1 - 2 / (Real.sqrt (hi / lo) + 1) := by
    unfold rate
    rw [Real.sqrt_div (h0.le.trans h)]
    field_simp; ring
  rw [e]; exact Real.one_sub_le_exp_neg _

/-- the Chebyshev bound: a polynomial of degree at most `k` that is `1` at `0` and small on `[lo, hi]` -/
theorem exists_cheb {lo hi : ℝ} (h0 : 0 < lo) (h : lo ≤ hi) (k : ℕ) :
    ∃ p : ℝ[X], p.natDegree ≤ k ∧ p.eval 0 = 1 ∧ ∀ t, lo ≤ t → t ≤ hi → |p.eval t| ≤ 2 * rate lo hi ^ k := by
  rcases h.eq_or_lt with rfl | hlt
  · refine ⟨(1 - C (lo⁻¹) * X) ^ k, ?_, by simp, fun t h1 h2 => ?_⟩
    · refine (natDegree_pow_le).trans ?_
      have : (1 - C (lo⁻¹) * X : ℝ[X]).natDegree ≤ 1 := by
        refine (natDegree_sub_le _ _).trans ?_
        simp only [natDegree_one, zero_le, sup_of_le_right]
        exact (natDegree_C_mul_le _ _).trans natDegree_X_le
      calc k * (1 - C (lo⁻¹) * X : ℝ[X]).natDegree ≤ k * 1 := Nat.mul_le_mul_left _ this
        _ = k := mul_one k
    · obtain rfl : t = lo := le_antisymm h2 h1
      have : (1 - t⁻¹ * t : ℝ) = 0 := by rw [inv_mul_cancel₀ h0.ne', sub_self]
      simp only [eval_pow, eval_sub, eval_one, eval_mul, eval_C, eval_X, this, rate, sub_self, zero_div]
      rw [abs_of_nonneg (pow_nonneg le_rfl _)]
      have : (0:ℝ) ≤ 0 ^ k := pow_nonneg le_rfl _
      linarith
  · have hd : 0 < hi - lo := by linarith
    set σ := (hi + lo) / (hi - lo) with hσ
    have hl := Real.sqrt_pos.2 h0
    have hh : Real.sqrt lo < Real.sqrt hi := Real.sqrt_lt_sqrt h0.le hlt
    have hr : 0 < rate lo hi := div_pos (by linarith) (by linarith)
    -- `σ` is a hyperbolic cosine
    set θ := -Real.log (rate lo hi) with hθ
    have e1 : Real.exp θ = (rate lo hi)⁻¹ := by rw [hθ, Real.exp_neg, Real.exp_log hr]
    have e2 : Real.exp (-θ) = rate lo hi := by rw [hθ, neg_neg, Real.exp_log hr]
    have ec : Real.cosh θ = σ := by
      rw [Real.cosh_eq, e1, e2, rate, hσ]
      have s1 : Real.sqrt hi ^ 2 = hi := Real.sq_sqrt (by linarith)
      have s2 : Real.sqrt lo ^ 2 = lo := Real.sq_sqrt h0.le
      have d1 : Real.sqrt hi - Real.sqrt lo ≠ 0 := by linarith
      have d2 : Real.sqrt hi + Real.sqrt lo ≠ 0 := by linarith
      have d3 : Real.sqrt hi ^ 2 - Real.sqrt lo ^ 2 ≠ 0 := by rw [s1, s2]; exact hd.ne'
      generalize Real.sqrt hi = a at *
      generalize Real.sqrt lo = b at *
      subst s1 s2
      rw [inv_div, div_add_div _ _ d1 d2, div_div, div_eq_div_iff (mul_ne_zero (mul_ne_zero d1 d2) two_ne_zero) d3]
      ring
    have eT : (Chebyshev.T ℝ k).eval σ = Real.cosh (k * θ) := by
      rw [← ec]; exact_mod_cast Chebyshev.T_real_cosh θ k
    have hT : (rate lo hi ^ k)⁻¹ / 2 ≤ (Chebyshev.T ℝ k).eval σ := by
      rw [eT, Real.cosh_eq, Real.exp_nat_mul, e1, inv_pow]
      have := (Real.exp_pos (-(k * θ))).le
      linarith
    have hp : 0 < rate lo hi ^ k := pow_pos hr k
    have hTp : 0 < (Chebyshev.T ℝ k).eval σ := lt_of_lt_of_le (by positivity) hT
    refine ⟨C ((Chebyshev.T ℝ k).eval σ)⁻¹ * (Chebyshev.T ℝ k).comp (C σ - C (2 / (hi - lo)) * X), ?_, ?_, fun t h1 h2 => ?_⟩
    · refine natDegree_C_mul_le _ _ |>.trans ?_
      refine natDegree_comp_le.trans ?_
      have a1 : (Chebyshev.T ℝ k).natDegree ≤ k := by simp
      have a2 : (C σ - C (2 / (hi - lo)) * X : ℝ[X]).natDegree ≤ 1 := by
        refine (natDegree_sub_le _ _).trans ?_
        simp only [natDegree_C, zero_le, sup_of_le_right]
        exact (natDegree_C_mul_le _ _).trans natDegree_X_le
      calc _ ≤ k * 1 := Nat.mul_le_mul a1 a2
        _ = k := mul_one k
    · simp only [eval_mul, eval_C, eval_comp, eval_sub, eval_X, mul_zero, sub_zero]
      exact inv_mul_cancel₀ hTp.ne'
    · simp only [eval_mul, eval_C, eval_comp, eval_sub, eval_X]
      have hx : |σ - 2 / (hi - lo) * t| ≤ 1 := by
        rw [hσ, abs_le]
        constructor
        · rw [div_mul_eq_mul_div, ← sub_div, le_div_iff₀ hd]; linarith
        · rw [div_mul_eq_mul_div, ← sub_div, div_le_one hd]; linarith
      have hb := Chebyshev.abs_eval_T_real_le_one (k : ℤ) hx
      rw [abs_mul, abs_inv, abs_of_pos hTp]
      calc _ ≤ ((Chebyshev.T ℝ k).eval σ)⁻¹ * 1 := mul_le_mul_of_nonneg_left hb (inv_nonneg.2 hTp.le)
        _ ≤ ((rate lo hi ^ k)⁻¹ / 2)⁻¹ := by rw [mul_one]; exact inv_anti₀ (by positivity) hT
        _ = 2 * rate lo hi ^ k := by field_simp

/-! ### Polynomials of a symmetric map -/

section
variable [FiniteDimensional ℝ E] {G : E →ₗ[ℝ] E} (hG : ∀ u v : E, ⟪G u, v⟫ = ⟪u, G v⟫)
include hG

/-- norms of `p(G) z`, plain and in the energy norm of `G` -/
theorem aeval_norm_le {lo hi M : ℝ} (hs : SpectrumIn G lo hi) (p : ℝ[X]) (hM0 : 0 ≤ M)
    (hM : ∀ t, lo ≤ t → t ≤ hi → |p.eval t| ≤ M) (z : E) :
    ‖aeval (R := ℝ) (A := Module.End ℝ E) G p z‖ ≤ M * ‖z‖ ∧
    (0 ≤ lo → (⟪aeval (R := ℝ) (A := Module.End ℝ E) G p z, G (aeval (R := ℝ) (A := Module.End ℝ E) G p z)⟫ : ℝ) ≤
      M ^ 2 * ⟪z, G z⟫) := by
  have hsym : G.IsSymmetric := hG
  let e := hsym.eigenvectorBasis rfl
  let l : Fin (Module.finrank ℝ E) → ℝ := hsym.eigenvalues rfl
  have he : ∀ i, G (e i) = l i • e i := fun i => hsym.apply_eigenvectorBasis rfl i
  have hn : ∀ i, ‖e i‖ = 1 := fun i => e.norm_eq_one i
  have hl : ∀ i, lo ≤ l i ∧ l i ≤ hi := by
    intro i
    have := hs (e i)
    rw [he, real_inner_smul_right, real_inner_self_eq_norm_sq, hn] at this
    constructor <;> linarith [this.1, this.2]
  have hpe : ∀ i, aeval (R := ℝ) (A := Module.End ℝ E) G p (e i) = p.eval (l i) • e i := by
    intro i
    have hev : Module.End.HasEigenvector G (l i) (e i) :=
      ⟨Module.End.mem_eigenspace_iff.2 (he i), fun h => by have := hn i; rw [h, norm_zero] at this; exact zero_ne_one this⟩
    exact Module.End.aeval_apply_of_hasEigenvector hev
  set f := aeval (R := ℝ) (A := Module.End ℝ E) G p with hf
  have hz : z = ∑ i, (⟪e i, z⟫ : ℝ) • e i := (e.sum_repr' z).symm
  have hfz : f z = ∑ i, (p.eval (l i) * ⟪e i, z⟫ : ℝ) • e i := by
    conv_lhs => rw [hz]
    rw [map_sum]
    refine Finset.sum_congr rfl fun i _ => ?_
    rw [map_smul, hpe, smul_smul, mul_comm]
  have hcoef : ∀ i, (⟪e i, f z⟫ : ℝ) = p.eval (l i) * ⟪e i, z⟫ := by
    intro i
    rw [hfz]
    exact e.orthonormal.inner_right_fintype (fun i => p.eval (l i) * ⟪e i, z⟫) i
  have hnorm : ∀ y : E, ‖y‖ ^ 2 = ∑ i, (⟪e i, y⟫ : ℝ) ^ 2 := by
    intro y
    rw [← e.sum_sq_norm_inner_right y]
    refine Finset.sum_congr rfl fun i _ => ?_
    rw [Real.norm_eq_abs, sq_abs]
  have henergy : ∀ y : E, (⟪y, G y⟫ : ℝ) = ∑ i, l i * (⟪e i, y⟫ : ℝ) ^ 2 := by
    intro y
    rw [← e.sum_inner_mul_inner]
    refine Finset.sum_congr rfl fun i _ => ?_
    rw [← hG, he, real_inner_smul_left, real_inner_comm y]; ring
  have hterm : ∀ i, (p.eval (l i) * (⟪e i, z⟫ : ℝ)) ^ 2 ≤ M ^ 2 * ⟪e i, z⟫ ^ 2 := by
    intro i
    rw [mul_pow]
    refine mul_le_mul_of_nonneg_right ?_ (sq_nonneg _)
    exact sq_le_sq.2 (by rw [abs_of_nonneg hM0]; exact hM _ (hl i).1 (hl i).2)
  constructor
  · refine abs_le_of_sq_le_sq' ?_ (mul_nonneg hM0 (norm_nonneg _)) |>.2
    rw [mul_pow, hnorm, hnorm z, Finset.mul_sum]
    refine Finset.sum_le_sum fun i _ => ?_
    rw [hcoef]; exact hterm i
  · intro hlo
    rw [henergy, henergy z, Finset.mul_sum]
    refine Finset.sum_le_sum fun i _ => ?_
    rw [hcoef]
    have := mul_le_mul_of_nonneg_left (hterm i) (hlo.trans (hl i).1)
    linarith

omit [FiniteDimensional ℝ E] hG in
theorem aeval_krylov (p : ℝ[X]) (c : E) {k : ℕ} (hp : p.natDegree < k) :
    aeval (R := ℝ) (A := Module.End ℝ E) G p c ∈ krylov G c k := by
  rw [aeval_eq_sum_range, LinearMap.sum_apply]
  refine Submodule.sum_mem _ fun j hj => ?_
  rw [LinearMap.smul_apply]
  exact Submodule.smul_mem _ _ (Submodule.subset_span ⟨j, by have := Finset.mem_range.1 hj; omega, rfl⟩)

/-- In the Krylov space of dimension `k` there is a point whose residual is smaller by the factor `2 rate^k`, and whose error, in
the energy norm, is smaller by the same factor. -/
theorem exists_krylov_point {lo hi : ℝ} (h0 : 0 < lo) (h : lo ≤ hi) (hs : SpectrumIn G lo hi) (c : E) (k : ℕ) :
    ∃ y ∈ krylov G c k, ‖c - G y‖ ≤ 2 * rate lo hi ^ k * ‖c‖ ∧
      ∀ x, G x = c → (⟪x - y, G (x - y)⟫ : ℝ) ≤ (2 * rate lo hi ^ k) ^ 2 * ⟪x, G x⟫ := by
  have hM0 : 0 ≤ 2 * rate lo hi ^ k := mul_nonneg two_pos.le (pow_nonneg (rate_nonneg h) k)
  rcases Nat.eq_zero_or_pos k with rfl | hk
  · refine ⟨0, Submodule.zero_mem _, ?_, fun x hx => ?_⟩
    · rw [map_zero, sub_zero, pow_zero]; linarith [norm_nonneg c]
    · rw [sub_zero, pow_zero]
      have := (hs x).1
      nlinarith [mul_nonneg h0.le (sq_nonneg ‖x‖)]
  obtain ⟨p, hp, hp0, hpb⟩ := exists_cheb h0 h k
  obtain ⟨s, hs'⟩ : X ∣ (1 - p) := X_dvd_iff.2 (by rw [coeff_zero_eq_eval_zero]; simp [hp0])
  have hdeg : s.natDegree < k := by
    by_cases hs0 : s = 0
    · rw [hs0, natDegree_zero]; exact hk
    · have h1 : (1 - p).natDegree ≤ k := (natDegree_sub_le _ _).trans (by simpa using hp)
      rw [hs', natDegree_X_mul hs0] at h1; omega
  have hp' : p = 1 - X * s := by rw [← hs']; ring
  have hres : ∀ z, aeval (R := ℝ) (A := Module.End ℝ E) G p z = z - G (aeval (R := ℝ) (A := Module.End ℝ E) G s z) := by
    intro z
    rw [hp', map_sub, map_one, map_mul, aeval_X]; rfl
  refine ⟨aeval (R := ℝ) (A := Module.End ℝ E) G s c, aeval_krylov s c hdeg, ?_, fun x hx => ?_⟩
  · rw [← hres]; exact (aeval_norm_le hG hs p hM0 hpb c).1
  · have hcomm : aeval (R := ℝ) (A := Module.End ℝ E) G s c = G (aeval (R := ℝ) (A := Module.End ℝ E) G s x) := by
      have e1 : aeval (R := ℝ) (A := Module.End ℝ E) G (s * X) x = aeval (R := ℝ) (A := Module.End ℝ E) G s c := by
        rw [map_mul, aeval_X, Module.End.mul_apply, hx]
      rw [← e1, mul_comm, map_mul, aeval_X]; rfl
    rw [hcomm, ← hres]
    exact (aeval_norm_le hG hs p hM0 hpb x).2 h0.le

end

end Verif.Solver
