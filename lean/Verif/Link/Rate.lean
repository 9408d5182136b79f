import Verif.Link.Gallery
import Verif.Solver.RateProps

/-!
# C72 for the Poisson operators of the gallery

The condition number of the 1D and 2D Poisson operators with `n` points per side is at most `2 n (n+1)`, so CG needs a number of
products that grows like `n log n`, although the 2D operator has `n^2` unknowns.
-/

namespace Verif.Link
open Verif.Linop Verif.Solver

/-- number of grid points per side -/
def Poisson.side : Poisson → ℕ
  | .one n => n
  | .two n => n

/-- bounds for the eigenvalues: `2 / (n (n+1))` and 4 in one dimension, `4 / (n (n+1))` and 8 in two -/
noncomputable def Poisson.lo : Poisson → ℝ
  | .one n => 2 / (n * (n + 1))
  | .two n => 4 / (n * (n + 1))

def Poisson.hi : Poisson → ℝ
  | .one _ => 4
  | .two _ => 8

theorem dot_norm {n : ℕ} (M : Matrix (Fin n) (Fin n) ℝ) (x : RVec n) :
    x.ofLp ⬝ᵥ x.ofLp = ‖x‖ ^ 2 ∧ x.ofLp ⬝ᵥ M.mulVec x.ofLp = inner ℝ x (lin M x) := by
  constructor
  · rw [EuclideanSpace.norm_sq_eq]; exact Finset.sum_congr rfl fun i _ => by rw [Real.norm_eq_abs, sq_abs, sq]
  · simp only [lin_apply, PiLp.inner_apply, RCLike.inner_apply, conj_trivial, dotProduct]
    exact Finset.sum_congr rfl fun i _ => mul_comm _ _

/-- **C72, the spectrum of the Poisson operators.** All eigenvalues lie between `lo` and `hi`, and `hi / lo = 2 n (n+1)`. -/
theorem C72_poisson_spectrum (p : Poisson) (hn : 0 < p.side) :
    0 < p.lo ∧ p.lo ≤ p.hi ∧ SpectrumIn (lin p.matrix) p.lo p.hi ∧ p.hi / p.lo = 2 * p.side * (p.side + 1) := by
  cases p with
  | one n =>
    have hn : 0 < n := hn
    have h1 : (1:ℝ) ≤ n := by exact_mod_cast hn
    have h2 : (2:ℝ) ≤ n * (n + 1) := by nlinarith
    refine ⟨by simp only [Poisson.lo]; positivity, ?_, fun x => ?_, ?_⟩
    · simp only [Poisson.lo, Poisson.hi]
      rw [div_le_iff₀ (by linarith)]; linarith
    · obtain ⟨e1, e2⟩ := dot_norm (Gallery.T ℝ n) x
      have l := Gallery.C46_poincare n x.ofLp
      have u := Gallery.C46_upper n x.ofLp
      rw [e1, e2] at l u
      refine ⟨?_, u⟩
      simp only [Poisson.lo]
      rw [div_mul_eq_mul_div, div_le_iff₀ (by linarith), mul_comm (inner ℝ _ _)]; exact l
    · simp only [Poisson.lo, Poisson.hi, Poisson.side]; field_simp; norm_num
  | two n =>
    have hn : 0 < n := hn
    have h1 : (1:ℝ) ≤ n := by exact_mod_cast hn
    have h2 : (2:ℝ) ≤ n * (n + 1) := by nlinarith
    refine ⟨by simp only [Poisson.lo]; positivity, ?_, fun x => ?_, ?_⟩
    · simp only [Poisson.lo, Poisson.hi]
      rw [div_le_iff₀ (by linarith)]; linarith
    · obtain ⟨e1, e2⟩ := dot_norm (lap n) x
      have l := lap_dot n x.ofLp
      have u := lap_upper n x.ofLp
      rw [e1, e2] at l u
      refine ⟨?_, u⟩
      simp only [Poisson.lo]
      rw [div_mul_eq_mul_div, div_le_iff₀ (by linarith), mul_comm (inner ℝ _ _)]; exact l
    · simp only [Poisson.lo, Poisson.hi, Poisson.side]; field_simp; norm_num

variable {env : List Nat} {h : Heap ℂ} {mats : List (Mat ℂ)}

/-- **C72, CG on the Poisson problems.** In any program that builds a Poisson operator with `n` points per side, in exact arithmetic,
for every `e`, guess, `abstol ≥ 0` and `reltol > 0`: `cg.solve(A * e)` converges within `k` products (plus one with a guess) for every
`k` that is at least `(n + 1) log(3 (n + 1) / reltol)`, if the budget allows `k` iterations. -/
theorem C72_poisson (p : Poisson) (R : ReachTotal env h mats) {i r : ℕ} (hr : env[i]? = some r) (hA : mats[i]? = some p.mat)
    {fuel : ℕ} (hf : h.length ≤ fuel) (hn : 0 < p.side) (e : RVec p.size) (guess : Option (RVec p.size)) (abstol reltol : ℝ)
    (hat : 0 ≤ abstol) (hrt : 0 < reltol) (self : CGObj Fl (Vec (RVec p.size))) (kw : CGKw (Vec (RVec p.size))) (hk : kw.Runs)
    (hg : kw.guess = guess.map Vec.fin) (k : ℕ)
    (hkn : (p.side + 1) * Real.log (3 * (p.side + 1) / reltol) ≤ k)
    (hm : k + (if guess.isSome then 1 else 0) ≤ kw.matvecMax.getD (2 * p.size)) :
    let A := apply h fuel r p.size p.size
    let out := cgSolve A { abstol := .fin abstol, reltol := .fin reltol } p.size self (A (.fin e)) kw
    out.1.converged = true ∧ out.1.nMatvec ≤ k + (if guess.isSome then 1 else 0) ∧
    ∃ x, out.1.x = some (.fin x) ∧ ‖e - x‖ ≤ p.bound * max abstol (reltol * ‖lin p.matrix (e - guess.getD 0)‖) := by
  have hop := (api_ops R hr hA p.isReal hf).1
  intro A out
  obtain ⟨s1, s2, s3, s4⟩ := C72_poisson_spectrum p hn
  have h1 : (1:ℝ) ≤ p.side := by exact_mod_cast hn
  have hsq : Real.sqrt (p.hi / p.lo) ≤ 3 / 2 * (p.side + 1) := by
    rw [s4]
    refine Real.sqrt_le_iff.2 ⟨by positivity, ?_⟩
    nlinarith
  have hsq1 : 1 ≤ Real.sqrt (p.hi / p.lo) := by
    rw [s4]
    refine Real.le_sqrt_of_sq_le ?_
    nlinarith
  have hsq2 : (Real.sqrt (p.hi / p.lo) + 1) / 2 ≤ p.side + 1 := by linarith
  have hbound : (Real.sqrt (p.hi / p.lo) + 1) / 2 * Real.log (2 * Real.sqrt (p.hi / p.lo) / reltol) ≤ k := by
    rcases le_total (Real.log (2 * Real.sqrt (p.hi / p.lo) / reltol)) 0 with hneg | hpos
    · exact (mul_nonpos_of_nonneg_of_nonpos (by positivity) hneg).trans (Nat.cast_nonneg k)
    · refine le_trans ?_ hkn
      refine mul_le_mul hsq2 ?_ hpos (by positivity)
      refine Real.log_le_log (by positivity) ?_
      exact div_le_div_of_nonneg_right (by linarith) hrt.le
  have hT := C72_cg_condition
    { A := lin p.matrix, b := lin p.matrix e, guess := guess, abstol := abstol, reltol := reltol }
    (spd_lin p.posDef).1 s1 s2 s3 p.size self kw hk hg hat hrt k hbound (by rw [hg, Option.isSome_map]; exact hm)
  simp only [hg, CGProblem.opts, Option.isSome_map] at hT
  have hb : A (.fin e) = .fin (lin p.matrix e) := by rw [show A = _ from hop]; rfl
  rw [← hop] at hT
  simp only [out, hb]
  obtain ⟨h1, h2, x, h3, h4⟩ := hT
  refine ⟨h1, h2, x, h3, ?_⟩
  rw [map_sub]; exact poisson_error p e x h4

/-- the script of `test_diagdom.py:64-85` for every `n` and every `e`, with `reltol = 1e-6` and the default budget `2 n^2` -/
example (n : ℕ) (hn : 0 < n) (e : RVec (Poisson.two n).size) (k : ℕ) (hk : ((n : ℝ) + 1) * Real.log (3 * (n + 1) / 10⁻¹ ^ 6) ≤ k)
    (hk2 : k ≤ 2 * (n * n)) :
    ∃ h r, execAll [newPoisson2 n] ([], []) = .ok ([r], h) ∧
      let A := apply h h.length r (Poisson.two n).size (Poisson.two n).size
      let out := cgSolve A { abstol := .fin 0, reltol := .fin (10⁻¹ ^ 6) } (Poisson.two n).size {} (A (.fin e)) {}
      out.1.converged = true ∧ out.1.nMatvec ≤ k := by
  obtain ⟨h, r, h1, h2⟩ := C66_script (.two n)
  obtain ⟨k1, k2, -⟩ := C72_poisson (.two n) h2 (i := 0) rfl rfl le_rfl hn e none 0 (10⁻¹ ^ 6) le_rfl (by positivity) {} {} rfl rfl k
    hk hk2
  exact ⟨h, r, h1, k1, k2⟩

end Verif.Link
