import Verif.Solver.FloatBi
import Verif.Gallery.FloatPoissonSolvers
import Verif.Gallery.Energy

/-! # C95: how far the returned solutions are from the solution, in floating-point arithmetic -/

namespace Verif.Solver
open Scalar Vect

/-- errors and residuals -/
theorem forward_error {E : Type} [NormedAddCommGroup E] [InnerProductSpace ℝ E] {A : E →ₗ[ℝ] E} {K : ℝ} (hK : 0 ≤ K) (hA : ∀ x, ‖x‖ ≤ K * ‖A x‖)
    {b x xs : E} {rho δ : ℝ} (hxs : A xs = b) (h : |rho - ‖b - A x‖| ≤ δ) : ‖x - xs‖ ≤ K * (rho + δ) := by
  have h1 := hA (x - xs)
  rw [map_sub, hxs, norm_sub_rev (A x)] at h1
  refine h1.trans (mul_le_mul_of_nonneg_left ?_ hK)
  have := (abs_le.1 h).1
  linarith

variable {F : FloatFormat} {n : ℕ}

theorem roundoff_of {k : ℕ} (hk : 8 * (n + k + 2) * F.u ≤ 1) {N theta beta a d : ℝ} (hN : 0 ≤ N) (ht : 0 ≤ theta) (hb : 0 ≤ beta)
    (h : d ≤ (F.rounding n (pow_of_small F hk)).uNorm * a + (F.rounding n (pow_of_small F hk)).tinyNorm +
      (F.rounding n (pow_of_small F hk)).drift N (((1 + F.u) ^ (n + 1) - 1) * N + F.u * N) theta beta k) :
    d ≤ roundoff F n k N theta beta |a| := by
  refine h.trans (le_trans ?_ (roundoff_le hk hN ht hb (abs_nonneg _)))
  gcongr
  · exact (norm_constants hk).1
  · exact le_abs_self _

/-- **C95 for CG (partial).**  Let CG be run without preconditioner on an operator that computes products with `A` up to `n + 1` roundings, where `N` bounds `A` and `K` its
inverse.  If it returns finite numbers, the returned `x` differs from the exact solution `xs` by at most `K` times the reported residual norm and the rounding errors
of C90; if it reports convergence, by at most `K` times the threshold and these errors. -/
theorem C95_cg_partial {op : FV F n → FV F n} {A : EuclideanSpace ℝ (Fin n) →ₗ[ℝ] EuclideanSpace ℝ (Fin n)} {N K : ℝ} (hK : 0 ≤ K)
    (hA : ∀ x, ‖x‖ ≤ K * ‖A x‖) (o : KrylovOpts (FP F) (FV F n)) (hpre : o.precon = none)
    (self : CGObj (FP F) (FV F n)) (rhs : FV F n) (kw : CGKw (FV F n)) (hsym : kw.checkSymmetric = true → kw.symOK = true)
    (hst : kw.storeIterates = true) :
    let out := cgSolve op o n self rhs kw
    ∀ hk : 8 * (n + out.1.nMatvec + 2) * F.u ≤ 1,
    (F.rounding n (pow_of_small F hk)).Computes op A N (((1 + F.u) ^ (n + 1) - 1) * N + F.u * N) out.2 →
    ∃ x rho, out.1.x = some x ∧ out.1.residNorm = some rho ∧
      (x.Finite → rho.Finite → ∀ theta, (∀ y ∈ out.1.iterates.drop self.iterates.length, ‖y.vec‖ ≤ theta) → ∀ xs, A xs = rhs.vec →
        ‖x.vec - xs‖ ≤ K * (rho.num + roundoff F n out.1.nMatvec N theta ‖rhs.vec‖ |rho.num|) ∧
        (out.1.converged = true → (pymax o.abstol (o.reltol * out.1.residNorm0.getD rho)).Finite →
          ‖x.vec - xs‖ ≤ K * ((pymax o.abstol (o.reltol * out.1.residNorm0.getD rho)).num + roundoff F n out.1.nMatvec N theta ‖rhs.vec‖ |rho.num|))) := by
  intro out hk hcomp
  obtain ⟨x, rho, e1, e2, e3, e4⟩ := C90_cg_partial (F.rounding n (pow_of_small F hk)) op A N (((1 + F.u) ^ (n + 1) - 1) * N + F.u * N) o hpre n self rhs kw hsym hst
  refine ⟨x, rho, e1, e2, fun hx hr theta hth xs hxs => ?_⟩
  obtain ⟨g1, g2, g3⟩ := e3 hcomp hx hr theta hth
  have h1 := roundoff_of hk hcomp.N_nonneg ((norm_nonneg _).trans g2) (norm_nonneg _) g3
  have h2 := forward_error hK hA hxs h1
  refine ⟨h2, fun hc ht => h2.trans (mul_le_mul_of_nonneg_left (add_le_add_left ?_ _) hK)⟩
  exact e4 hc hr ht

/-- **C95 for CGS.**  With or without preconditioner. -/
theorem C95_cgs {op : FV F n → FV F n} {A : EuclideanSpace ℝ (Fin n) →ₗ[ℝ] EuclideanSpace ℝ (Fin n)} {N K : ℝ} (hK : 0 ≤ K)
    (hA : ∀ x, ‖x‖ ≤ K * ‖A x‖) (o : KrylovOpts (FP F) (FV F n)) (rhs : FV F n) (kw : KrylovKw (FV F n)) :
    let out := cgsSolve op o n rhs kw
    ∀ hk : 8 * (n + out.1.nMatvec + 2) * F.u ≤ 1,
    (F.rounding n (pow_of_small F hk)).Computes op A N (((1 + F.u) ^ (n + 1) - 1) * N + F.u * N) out.2 →
      out.1.x.Finite → out.1.residNorm.Finite →
      ∀ theta, (∀ m ≤ kw.matvecMax.getD (2 * n), ‖(cgsSolve op o n rhs { kw with matvecMax := some m }).1.x.vec‖ ≤ theta) → ∀ xs, A xs = rhs.vec →
        ‖out.1.x.vec - xs‖ ≤ K * (out.1.residNorm.num + roundoff F n out.1.nMatvec N theta ‖rhs.vec‖ |out.1.residNorm.num|) ∧
        (out.1.converged = true → (pymax o.abstol (o.reltol * out.1.residNorm0)).Finite →
          ‖out.1.x.vec - xs‖ ≤ K * ((pymax o.abstol (o.reltol * out.1.residNorm0)).num + roundoff F n out.1.nMatvec N theta ‖rhs.vec‖ |out.1.residNorm.num|)) := by
  intro out hk hcomp hx hr theta hth xs hxs
  obtain ⟨e3, e4⟩ := C90_cgs (F.rounding n (pow_of_small F hk)) op A N (((1 + F.u) ^ (n + 1) - 1) * N + F.u * N) o n rhs kw
  obtain ⟨g1, g2, g3⟩ := e3 hcomp hx hr theta hth
  have h1 := roundoff_of hk hcomp.N_nonneg ((norm_nonneg _).trans g2) (norm_nonneg _) g3
  have h2 := forward_error hK hA hxs h1
  refine ⟨h2, fun hc ht => h2.trans (mul_le_mul_of_nonneg_left (add_le_add_left ?_ _) hK)⟩
  exact e4 hc hr ht

/-- **C95 for Bi-CGSTAB (partial).**  With or without preconditioner; unless the budget ends in the middle of an iteration. -/
theorem C95_bicgstab_partial {op : FV F n → FV F n} {A : EuclideanSpace ℝ (Fin n) →ₗ[ℝ] EuclideanSpace ℝ (Fin n)} {N K : ℝ} (hK : 0 ≤ K)
    (hA : ∀ x, ‖x‖ ≤ K * ‖A x‖) (hcond : 2 * (2 * n + 3) * F.u * (K * N) ≤ 1) (o : KrylovOpts (FP F) (FV F n)) (rhs : FV F n) (kw : KrylovKw (FV F n)) :
    let out := biSolve op o n rhs kw
    ∀ hk : 8 * (n + out.1.nMatvec + 2) * F.u ≤ 1,
    (F.rounding n (pow_of_small F hk)).Computes op A N (((1 + F.u) ^ (n + 1) - 1) * N + F.u * N) out.2 →
      out.1.x.Finite → out.1.residNorm.Finite → (out.1.converged = true ∨ Even (out.1.nMatvec + kw.guess.toList.length)) →
      ∀ theta R, (∀ m ≤ kw.matvecMax.getD (2 * n), ‖(biSolve op o n rhs { kw with matvecMax := some m }).1.x.vec‖ ≤ theta ∧
          (biSolve op o n rhs { kw with matvecMax := some m }).1.residNorm.Finite ∧
          2 * |(biSolve op o n rhs { kw with matvecMax := some m }).1.residNorm.num| + (6 * Real.sqrt (n * F.tiny) + 2 * F.tiny) ≤ R) →
      ∀ xs, A xs = rhs.vec →
        ‖out.1.x.vec - xs‖ ≤ K * (out.1.residNorm.num + roundoffBi F n out.1.nMatvec N K theta R |out.1.residNorm.num|) ∧
        (out.1.converged = true → (pymax o.abstol (o.reltol * out.1.residNorm0)).Finite →
          ‖out.1.x.vec - xs‖ ≤ K * ((pymax o.abstol (o.reltol * out.1.residNorm0)).num + roundoffBi F n out.1.nMatvec N K theta R |out.1.residNorm.num|)) := by
  intro out hk hcomp hx hr hp theta R hsm xs hxs
  obtain ⟨-, h1⟩ := float_bicgstab hK hA hcond o rhs kw hx hp hk hcomp theta R hsm
  have h2 := forward_error hK hA hxs h1
  refine ⟨h2, fun hc ht => h2.trans (mul_le_mul_of_nonneg_left (add_le_add_left ?_ _) hK)⟩
  exact (F.rounding n (pow_of_small F hk)).le_num _ _ hr ht (by
    have : out.1.converged = le out.1.residNorm (pymax o.abstol (o.reltol * out.1.residNorm0)) := by
      show (biSolve op o n rhs kw).1.converged = le (biSolve op o n rhs kw).1.residNorm (pymax o.abstol (o.reltol * (biSolve op o n rhs kw).1.residNorm0))
      rw [biSolve_start]
      rfl
    rw [← this]
    exact hc)

end Verif.Solver

namespace Verif.Gallery
open Verif.Solver Scalar Vect
open scoped Matrix

variable {F : FloatFormat}

/-- from a bound for the quadratic form to a bound for the inverse -/
theorem inverse_bound {n : ℕ} {M : Matrix (Fin n) (Fin n) ℝ} {c : ℝ} (hc : 0 ≤ c) (h : ∀ x : Fin n → ℝ, x ⬝ᵥ x ≤ c * (x ⬝ᵥ (M *ᵥ x))) (x : EuclideanSpace ℝ (Fin n)) :
    ‖x‖ ≤ c * ‖denseLin M x‖ := by
  have h1 := h x.ofLp
  have e1 : x.ofLp ⬝ᵥ x.ofLp = ‖x‖ ^ 2 := by
    rw [EuclideanSpace.norm_sq_eq]
    simp [dotProduct, ← sq]
  have e2 : x.ofLp ⬝ᵥ (M *ᵥ x.ofLp) = inner ℝ x (denseLin M x) := by
    rw [PiLp.inner_apply]
    refine Finset.sum_congr rfl fun i _ => ?_
    simp only [RCLike.inner_apply, conj_trivial]
    rw [mul_comm]
    rfl
  rw [e1, e2] at h1
  have h2 := real_inner_le_norm x (denseLin M x)
  rcases eq_or_ne ‖x‖ 0 with h0 | h0
  · rw [h0]; positivity
  have h3 : 0 < ‖x‖ := lt_of_le_of_ne (norm_nonneg _) (Ne.symm h0)
  have h4 : ‖x‖ * ‖x‖ ≤ c * ‖denseLin M x‖ * ‖x‖ := by
    have := mul_le_mul_of_nonneg_left h2 hc
    rw [← sq]
    linarith
  exact le_of_mul_le_mul_right h4 h3

theorem inverse1 (n : ℕ) (x : EuclideanSpace ℝ (Fin n)) : ‖x‖ ≤ (n * (n + 1) / 2 : ℝ) * ‖denseLin (T ℝ n) x‖ :=
  inverse_bound (by positivity) (fun x => by
    have := C46_poincare n x
    linarith) x

theorem inverse2 (n : ℕ) (x : EuclideanSpace ℝ (Fin (n * n))) : ‖x‖ ≤ (n * (n + 1) / 4 : ℝ) * ‖denseLin (grid n) x‖ :=
  inverse_bound (by positivity) (fun x => by
    have := C47_poincare n (x ∘ finProdFinEquiv)
    have e1 : (x ∘ finProdFinEquiv) ⬝ᵥ (x ∘ finProdFinEquiv) = x ⬝ᵥ x := by
      simp only [dotProduct, Function.comp]
      exact finProdFinEquiv.sum_comp fun i => x i * x i
    have e2 : (x ∘ finProdFinEquiv) ⬝ᵥ (L ℝ n *ᵥ (x ∘ finProdFinEquiv)) = x ⬝ᵥ (grid n *ᵥ x) := by
      simp only [dotProduct, Matrix.mulVec, Function.comp]
      rw [← finProdFinEquiv.sum_comp fun i => x i * ∑ j, grid n i j * x j]
      refine Finset.sum_congr rfl fun i _ => ?_
      rw [← finProdFinEquiv.sum_comp fun j => grid n (finProdFinEquiv i) j * x j]
      simp only [grid, Matrix.submatrix_apply, Equiv.symm_apply_apply]
    rw [e1, e2] at this
    linarith) x

/-- **C95, CG on the 1D Poisson problem.**  With `n` unknowns the error is at most `n (n+1) / 2` times the residual norm and the rounding errors. -/
theorem C95_poisson1d_cg_partial {n : ℕ} (h2 : 2 ≤ n) (o : KrylovOpts (FP F) (FV F n)) (hpre : o.precon = none)
    (self : CGObj (FP F) (FV F n)) (rhs : FV F n) (kw : CGKw (FV F n)) (hsym : kw.checkSymmetric = true → kw.symOK = true)
    (hst : kw.storeIterates = true) :
    let out := cgSolve (galleryOp poisson1d) o n self rhs kw
    8 * (n + out.1.nMatvec + 2) * F.u ≤ 1 → (∀ v ∈ out.2, Real.sqrt n * underflow F 2 ≤ F.u * 4 * ‖v.vec‖) →
    ∃ x rho, out.1.x = some x ∧ out.1.residNorm = some rho ∧
      (x.Finite → rho.Finite → ∀ theta, (∀ y ∈ out.1.iterates.drop self.iterates.length, ‖y.vec‖ ≤ theta) → ∀ xs, denseLin (T ℝ n) xs = rhs.vec →
        ‖x.vec - xs‖ ≤ n * (n + 1) / 2 * (rho.num + roundoff F n out.1.nMatvec 4 theta ‖rhs.vec‖ |rho.num|) ∧
        (out.1.converged = true → (pymax o.abstol (o.reltol * out.1.residNorm0.getD rho)).Finite →
          ‖x.vec - xs‖ ≤ n * (n + 1) / 2 * ((pymax o.abstol (o.reltol * out.1.residNorm0.getD rho)).num + roundoff F n out.1.nMatvec 4 theta ‖rhs.vec‖ |rho.num|))) := by
  intro out hk hL
  exact C95_cg_partial (by positivity) (inverse1 n) o hpre self rhs kw hsym hst hk (C93_computes1 h2 _ _ hL)

/-- **C95, CG on the 2D Poisson problem.**  With `n * n` unknowns the error is at most `n (n+1) / 4` times the residual norm and the rounding errors. -/
theorem C95_poisson2d_cg_partial {n : ℕ} (h2 : 2 ≤ n) (o : KrylovOpts (FP F) (FV F (n * n))) (hpre : o.precon = none)
    (self : CGObj (FP F) (FV F (n * n))) (rhs : FV F (n * n)) (kw : CGKw (FV F (n * n))) (hsym : kw.checkSymmetric = true → kw.symOK = true)
    (hst : kw.storeIterates = true) :
    let out := cgSolve (galleryOp poisson2d) o (n * n) self rhs kw
    8 * ((n * n : ℕ) + out.1.nMatvec + 2) * F.u ≤ 1 → (∀ v ∈ out.2, Real.sqrt (n * n : ℕ) * underflow F 4 ≤ F.u * 8 * ‖v.vec‖) →
    ∃ x rho, out.1.x = some x ∧ out.1.residNorm = some rho ∧
      (x.Finite → rho.Finite → ∀ theta, (∀ y ∈ out.1.iterates.drop self.iterates.length, ‖y.vec‖ ≤ theta) → ∀ xs, denseLin (grid n) xs = rhs.vec →
        ‖x.vec - xs‖ ≤ n * (n + 1) / 4 * (rho.num + roundoff F (n * n) out.1.nMatvec 8 theta ‖rhs.vec‖ |rho.num|) ∧
        (out.1.converged = true → (pymax o.abstol (o.reltol * out.1.residNorm0.getD rho)).Finite →
          ‖x.vec - xs‖ ≤ n * (n + 1) / 4 * ((pymax o.abstol (o.reltol * out.1.residNorm0.getD rho)).num + roundoff F (n * n) out.1.nMatvec 8 theta ‖rhs.vec‖ |rho.num|))) := by
  intro out hk hL
  exact C95_cg_partial (by positivity) (inverse2 n) o hpre self rhs kw hsym hst hk (C93_computes2 h2 _ _ hL)

/-- **C95, CGS on the 1D Poisson problem.** -/
theorem C95_poisson1d_cgs {n : ℕ} (h2 : 2 ≤ n) (o : KrylovOpts (FP F) (FV F n)) (rhs : FV F n) (kw : KrylovKw (FV F n)) :
    let out := cgsSolve (galleryOp poisson1d) o n rhs kw
    8 * (n + out.1.nMatvec + 2) * F.u ≤ 1 → (∀ v ∈ out.2, Real.sqrt n * underflow F 2 ≤ F.u * 4 * ‖v.vec‖) →
      out.1.x.Finite → out.1.residNorm.Finite →
      ∀ theta, (∀ m ≤ kw.matvecMax.getD (2 * n), ‖(cgsSolve (galleryOp poisson1d) o n rhs { kw with matvecMax := some m }).1.x.vec‖ ≤ theta) →
      ∀ xs, denseLin (T ℝ n) xs = rhs.vec →
        ‖out.1.x.vec - xs‖ ≤ n * (n + 1) / 2 * (out.1.residNorm.num + roundoff F n out.1.nMatvec 4 theta ‖rhs.vec‖ |out.1.residNorm.num|) ∧
        (out.1.converged = true → (pymax o.abstol (o.reltol * out.1.residNorm0)).Finite →
          ‖out.1.x.vec - xs‖ ≤ n * (n + 1) / 2 * ((pymax o.abstol (o.reltol * out.1.residNorm0)).num + roundoff F n out.1.nMatvec 4 theta ‖rhs.vec‖ |out.1.residNorm.num|)) := by
  intro out hk hL
  exact C95_cgs (by positivity) (inverse1 n) o rhs kw hk (C93_computes1 h2 _ _ hL)

/-- **C95, CGS on the 2D Poisson problem.** -/
theorem C95_poisson2d_cgs {n : ℕ} (h2 : 2 ≤ n) (o : KrylovOpts (FP F) (FV F (n * n))) (rhs : FV F (n * n)) (kw : KrylovKw (FV F (n * n))) :
    let out := cgsSolve (galleryOp poisson2d) o (n * n) rhs kw
    8 * ((n * n : ℕ) + out.1.nMatvec + 2) * F.u ≤ 1 → (∀ v ∈ out.2, Real.sqrt (n * n : ℕ) * underflow F 4 ≤ F.u * 8 * ‖v.vec‖) →
      out.1.x.Finite → out.1.residNorm.Finite →
      ∀ theta, (∀ m ≤ kw.matvecMax.getD (2 * (n * n)), ‖(cgsSolve (galleryOp poisson2d) o (n * n) rhs { kw with matvecMax := some m }).1.x.vec‖ ≤ theta) →
      ∀ xs, denseLin (grid n) xs = rhs.vec →
        ‖out.1.x.vec - xs‖ ≤ n * (n + 1) / 4 * (out.1.residNorm.num + roundoff F (n * n) out.1.nMatvec 8 theta ‖rhs.vec‖ |out.1.residNorm.num|) ∧
        (out.1.converged = true → (pymax o.abstol (o.reltol * out.1.residNorm0)).Finite →
          ‖out.1.x.vec - xs‖ ≤ n * (n + 1) / 4 * ((pymax o.abstol (o.reltol * out.1.residNorm0)).num + roundoff F (n * n) out.1.nMatvec 8 theta ‖rhs.vec‖ |out.1.residNorm.num|)) := by
  intro out hk hL
  exact C95_cgs (by positivity) (inverse2 n) o rhs kw hk (C93_computes2 h2 _ _ hL)

/-- **C95, Bi-CGSTAB on the 1D Poisson problem (partial).**  With `8 (2n+3) n (n+1) u <= 2`, and unless the budget ends in the middle of an iteration. -/
theorem C95_poisson1d_bicgstab_partial {n : ℕ} (h2 : 2 ≤ n) (hcond : 2 * (2 * n + 3) * F.u * (n * (n + 1) / 2 * 4) ≤ 1)
    (o : KrylovOpts (FP F) (FV F n)) (rhs : FV F n) (kw : KrylovKw (FV F n)) :
    let out := biSolve (galleryOp poisson1d) o n rhs kw
    8 * (n + out.1.nMatvec + 2) * F.u ≤ 1 → (∀ v ∈ out.2, Real.sqrt n * underflow F 2 ≤ F.u * 4 * ‖v.vec‖) →
      out.1.x.Finite → out.1.residNorm.Finite → (out.1.converged = true ∨ Even (out.1.nMatvec + kw.guess.toList.length)) →
      ∀ theta R, (∀ m ≤ kw.matvecMax.getD (2 * n), ‖(biSolve (galleryOp poisson1d) o n rhs { kw with matvecMax := some m }).1.x.vec‖ ≤ theta ∧
          (biSolve (galleryOp poisson1d) o n rhs { kw with matvecMax := some m }).1.residNorm.Finite ∧
          2 * |(biSolve (galleryOp poisson1d) o n rhs { kw with matvecMax := some m }).1.residNorm.num| + (6 * Real.sqrt (n * F.tiny) + 2 * F.tiny) ≤ R) →
      ∀ xs, denseLin (T ℝ n) xs = rhs.vec →
        ‖out.1.x.vec - xs‖ ≤ n * (n + 1) / 2 * (out.1.residNorm.num + roundoffBi F n out.1.nMatvec 4 (n * (n + 1) / 2) theta R |out.1.residNorm.num|) ∧
        (out.1.converged = true → (pymax o.abstol (o.reltol * out.1.residNorm0)).Finite →
          ‖out.1.x.vec - xs‖ ≤ n * (n + 1) / 2 * ((pymax o.abstol (o.reltol * out.1.residNorm0)).num + roundoffBi F n out.1.nMatvec 4 (n * (n + 1) / 2) theta R |out.1.residNorm.num|)) := by
  intro out hk hL
  exact C95_bicgstab_partial (by positivity) (inverse1 n) hcond o rhs kw hk (C93_computes1 h2 _ _ hL)

/-- **C95, Bi-CGSTAB on the 2D Poisson problem (partial).**  With `4 (2n²+3) n (n+1) u <= 1`, and unless the budget ends in the middle of an iteration. -/
theorem C95_poisson2d_bicgstab_partial {n : ℕ} (h2 : 2 ≤ n) (hcond : 2 * (2 * (n * n : ℕ) + 3) * F.u * (n * (n + 1) / 4 * 8) ≤ 1)
    (o : KrylovOpts (FP F) (FV F (n * n))) (rhs : FV F (n * n)) (kw : KrylovKw (FV F (n * n))) :
    let out := biSolve (galleryOp poisson2d) o (n * n) rhs kw
    8 * ((n * n : ℕ) + out.1.nMatvec + 2) * F.u ≤ 1 → (∀ v ∈ out.2, Real.sqrt (n * n : ℕ) * underflow F 4 ≤ F.u * 8 * ‖v.vec‖) →
      out.1.x.Finite → out.1.residNorm.Finite → (out.1.converged = true ∨ Even (out.1.nMatvec + kw.guess.toList.length)) →
      ∀ theta R, (∀ m ≤ kw.matvecMax.getD (2 * (n * n)), ‖(biSolve (galleryOp poisson2d) o (n * n) rhs { kw with matvecMax := some m }).1.x.vec‖ ≤ theta ∧
          (biSolve (galleryOp poisson2d) o (n * n) rhs { kw with matvecMax := some m }).1.residNorm.Finite ∧
          2 * |(biSolve (galleryOp poisson2d) o (n * n) rhs { kw with matvecMax := some m }).1.residNorm.num| + (6 * Real.sqrt ((n * n : ℕ) * F.tiny) + 2 * F.tiny) ≤ R) →
      ∀ xs, denseLin (grid n) xs = rhs.vec →
        ‖out.1.x.vec - xs‖ ≤ n * (n + 1) / 4 * (out.1.residNorm.num + roundoffBi F (n * n) out.1.nMatvec 8 (n * (n + 1) / 4) theta R |out.1.residNorm.num|) ∧
        (out.1.converged = true → (pymax o.abstol (o.reltol * out.1.residNorm0)).Finite →
          ‖out.1.x.vec - xs‖ ≤ n * (n + 1) / 4 * ((pymax o.abstol (o.reltol * out.1.residNorm0)).num + roundoffBi F (n * n) out.1.nMatvec 8 (n * (n + 1) / 4) theta R |out.1.residNorm.num|)) := by
  intro out hk hL
  exact C95_bicgstab_partial (by positivity) (inverse2 n) hcond o rhs kw hk (C93_computes2 h2 _ _ hL)

/-! ### Examples -/

/-- there is exactly one solution -/
theorem poisson_unique (n : ℕ) (b : EuclideanSpace ℝ (Fin n)) (b2 : EuclideanSpace ℝ (Fin (n * n))) :
    (∃! xs, denseLin (T ℝ n) xs = b) ∧ ∃! xs, denseLin (grid n) xs = b2 := by
  have key : ∀ {m : ℕ} (A : EuclideanSpace ℝ (Fin m) →ₗ[ℝ] EuclideanSpace ℝ (Fin m)) (K : ℝ), (∀ x, ‖x‖ ≤ K * ‖A x‖) → ∀ b, ∃! xs, A xs = b := by
    intro m A K h b
    have hi : Function.Injective A := by
      refine (injective_iff_map_eq_zero A).2 fun x hx => ?_
      have := h x
      rw [hx, norm_zero, mul_zero] at this
      exact norm_le_zero_iff.1 this
    obtain ⟨xs, hxs⟩ := LinearMap.injective_iff_surjective.1 hi b
    exact ⟨xs, hxs, fun y hy => hi (hy.trans hxs.symm)⟩
  exact ⟨key _ _ (inverse1 n) b, key _ _ (inverse2 n) b2⟩

section
open Float64Example

theorem two_zero : (dot (two 0 0) (two 0 0) : FP float64) = I 0 := by
  have h0 : (⟨some 0⟩ : FP float64) = I 0 := by simp [I]
  show FV.sum (two 0 0) (two 0 0) (List.finRange 2) ⟨some 0⟩ = _
  rw [h0, show List.finRange 2 = [0, 1] from rfl]
  simp only [FV.sum, List.foldl_cons, List.foldl_nil, two, Matrix.cons_val_zero, Matrix.cons_val_one]
  rw [I_mul 0 0 (by norm_num), I_add _ _ (by norm_num), I_add _ _ (by norm_num)]
  norm_num

/-- CGS and Bi-CGSTAB on the 1D problem with two unknowns, started at the solution, with any budget -/
theorem two_runs (m : ℕ) :
    cgsSolve (galleryOp poisson1d) { abstol := I 1, reltol := I 0 } 2 (two 1 1) { matvecMax := some m, guess := some (two 1 1) } =
      ({ residNorm0 := I 0, converged := true, nMatvec := 0, x := two 1 1, residNorm := I 0 }, [two 1 1]) ∧
    biSolve (galleryOp poisson1d) { abstol := I 1, reltol := I 0 } 2 (two 1 1) { matvecMax := some m, guess := some (two 1 1) } =
      ({ residNorm0 := I 0, converged := true, nMatvec := 1, x := two 1 1, residNorm := I 0 }, [two 1 1]) := by
  have hop : galleryOp poisson1d (two 1 1) = two 1 1 := two_op 1 1 (by norm_num) (by norm_num)
  have hr : two 1 1 - two 1 1 = two 0 0 := by
    show (⟨_⟩ : FV float64 2) = ⟨_⟩
    congr 1
    funext i
    fin_cases i
    · exact I_sub 1 1 (by norm_num)
    · exact I_sub 1 1 (by norm_num)
  have hs : sqrt (I 0) = I 0 := I_sqrt 0 (by norm_num) (by norm_num)
  constructor
  · simp only [cgsSolve, Option.getD_some, hop, hr, two_zero, hs, I_abs 0 le_rfl, I_mul 0 0 (by norm_num), pymax, I_lt]
    rw [cgsLoop, whileLoop_of_not (by simp [I_le])]
    simp [I_le]
  · simp only [biSolve, Option.getD_some, hop, hr, two_zero, hs, I_abs 0 le_rfl, I_mul 0 0 (by norm_num), pymax, I_lt]
    rw [biLoop, whileLoop_of_not (by simp [I_le])]
    simp [I_le]

theorem two_underflow : Real.sqrt (2 : ℕ) * underflow float64 2 ≤ float64.u * 4 * ‖(two 1 1).vec‖ := by
  have hu : float64.u = 2⁻¹ ^ 53 := rfl
  have ht : float64.tiny = 2 ^ (-1075 : ℤ) := rfl
  have h1 : (1:ℝ) ≤ ‖(two 1 1).vec‖ := by
    rw [EuclideanSpace.norm_eq, Fin.sum_univ_two]
    refine Real.le_sqrt_of_sq_le ?_
    simp [FV.vec, two, I, FP.num]
  have h2 : Real.sqrt (2 : ℕ) ≤ 2 := by
    rw [Real.sqrt_le_iff]; norm_num
  have h3 : underflow float64 2 ≤ 2 ^ (-60 : ℤ) := by
    have h4 : (2:ℝ) ^ (-1075 : ℤ) ≤ 2 ^ (-70 : ℤ) := zpow_le_zpow_right₀ (by norm_num) (by norm_num)
    simp only [underflow]
    rw [hu, ht]
    generalize (2:ℝ) ^ (-1075 : ℤ) = t at *
    norm_num at h4 ⊢
    linarith
  have h5 := underflow_nonneg float64 2
  have h6 : Real.sqrt (2 : ℕ) * underflow float64 2 ≤ 2 * 2 ^ (-60 : ℤ) := mul_le_mul h2 h3 h5 (by norm_num)
  rw [hu]
  norm_num at h6 ⊢
  linarith

/-- the hypotheses of `C95_poisson1d_cgs` -/
example :
    let out := cgsSolve (galleryOp poisson1d) { abstol := I 1, reltol := I 0 } 2 (two 1 1) { matvecMax := some 4, guess := some (two 1 1) }
    8 * (((2 : ℕ) : ℝ) + out.1.nMatvec + 2) * float64.u ≤ 1 ∧ (∀ v ∈ out.2, Real.sqrt (2 : ℕ) * underflow float64 2 ≤ float64.u * 4 * ‖v.vec‖) ∧ out.1.x.Finite ∧ out.1.residNorm.Finite ∧ out.1.converged = true ∧
      (∀ m ≤ 4, ‖(cgsSolve (galleryOp poisson1d) { abstol := I 1, reltol := I 0 } 2 (two 1 1) { matvecMax := some m, guess := some (two 1 1) }).1.x.vec‖ ≤ ‖(two 1 1).vec‖) ∧
      ∃ xs, denseLin (T ℝ 2) xs = (two 1 1).vec := by
  intro out
  have ho : out = _ := (two_runs 4).1
  rw [ho]
  have hu : float64.u = 2⁻¹ ^ 53 := rfl
  refine ⟨by rw [hu]; norm_num, fun v hv => by rw [List.mem_singleton.1 hv]; exact two_underflow, fun i => by fin_cases i <;> rfl, rfl, rfl, fun m _ => by rw [(two_runs m).1], ?_⟩
  exact (poisson_unique 2 _ 0).1.exists

/-- the hypotheses of `C95_poisson1d_bicgstab_partial` -/
example :
    let out := biSolve (galleryOp poisson1d) { abstol := I 1, reltol := I 0 } 2 (two 1 1) { matvecMax := some 4, guess := some (two 1 1) }
    2 * (2 * ((2 : ℕ) : ℝ) + 3) * float64.u * (((2 : ℕ) : ℝ) * ((2 : ℕ) + 1) / 2 * 4) ≤ 1 ∧
      8 * (((2 : ℕ) : ℝ) + out.1.nMatvec + 2) * float64.u ≤ 1 ∧ (∀ v ∈ out.2, Real.sqrt (2 : ℕ) * underflow float64 2 ≤ float64.u * 4 * ‖v.vec‖) ∧
      out.1.x.Finite ∧ out.1.residNorm.Finite ∧ out.1.converged = true ∧
      (∀ m ≤ 4, ‖(biSolve (galleryOp poisson1d) { abstol := I 1, reltol := I 0 } 2 (two 1 1) { matvecMax := some m, guess := some (two 1 1) }).1.x.vec‖ ≤ ‖(two 1 1).vec‖ ∧
        (biSolve (galleryOp poisson1d) { abstol := I 1, reltol := I 0 } 2 (two 1 1) { matvecMax := some m, guess := some (two 1 1) }).1.residNorm.Finite ∧
        2 * |(biSolve (galleryOp poisson1d) { abstol := I 1, reltol := I 0 } 2 (two 1 1) { matvecMax := some m, guess := some (two 1 1) }).1.residNorm.num| +
          (6 * Real.sqrt (((2 : ℕ) : ℝ) * float64.tiny) + 2 * float64.tiny) ≤ 6 * Real.sqrt (((2 : ℕ) : ℝ) * float64.tiny) + 2 * float64.tiny) ∧
      ∃ xs, denseLin (T ℝ 2) xs = (two 1 1).vec := by
  intro out
  have ho : out = _ := (two_runs 4).2
  rw [ho]
  have hu : float64.u = 2⁻¹ ^ 53 := rfl
  refine ⟨by rw [hu]; norm_num, by rw [hu]; norm_num, fun v hv => by rw [List.mem_singleton.1 hv]; exact two_underflow, fun i => by fin_cases i <;> rfl, rfl, rfl,
    fun m _ => by rw [(two_runs m).2]; exact ⟨le_rfl, rfl, by simp [I, FP.num]⟩, ?_⟩
  exact (poisson_unique 2 _ 0).1.exists

end

end Verif.Gallery
