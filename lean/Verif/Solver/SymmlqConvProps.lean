import Verif.Solver.SymmlqExact
import Mathlib.Analysis.Complex.Basic
import Mathlib.LinearAlgebra.Complex.FiniteDimensional

/-!
# Properties of SYMMLQ in exact arithmetic: C56

`krylov B b k` is the span of `b, B b, ..., B^(k-1) b`.
-/

namespace Verif.Solver
open Scalar Vect
open scoped RealInnerProductSpace
open MinresMath (krylov)

variable {E : Type} [NormedAddCommGroup E] [InnerProductSpace ℝ E]

/-- `x` is the Galerkin point of the `k`-th Krylov space: the residual is orthogonal to the space (the point of the
conjugate gradient method). -/
def GalerkinPoint (B : E →ₗ[ℝ] E) (b : E) (k : ℕ) (x : E) : Prop :=
  x ∈ krylov B b k ∧ ∀ z ∈ krylov B b k, ⟪b - B x, z⟫ = 0

/-- `x` is the point of `B K`, `K` the Krylov space of dimension `k - 1`, closest to the solution (the point of SYMMLQ). -/
def LeastErrorPoint (B : E →ₗ[ℝ] E) (b : E) (k : ℕ) (x : E) : Prop :=
  x ∈ (krylov B b (k-1)).map B ∧ ∀ xs, B xs = b → ∀ z ∈ (krylov B b (k-1)).map B, ‖xs - x‖ ≤ ‖xs - z‖

/-- C56 and C71: `b` is confined to `d` dimensions -/
theorem symmlq_confined [FiniteDimensional ℝ E] (q : SymmlqProblem E) (n : ℕ) (hn : n ≠ 0)
    (hA : ∀ u v, ⟪q.A u, v⟫ = ⟪u, q.A v⟫) (hb : q.b ≠ 0) (hrt : 0 ≤ q.rtol) (he : 0 < q.eps) (he3 : 0 ≤ q.eps3)
    {d : ℕ} (hd : Confined q.B q.b d) (hlim : d < q.matvecMax.getD (2 * n + 2)) :
    ∃ res products, symmlqSolve q.obj n (.fin q.b) q.kw = .ok (res, products) ∧ ∃ (x : E) (a : ℝ) (k : ℕ),
      res.x = .fin x ∧ res.residNorm = .fin ‖q.b - q.B x‖ ∧ res.xNorm = .fin ‖x‖ ∧ res.anorm = .fin a ∧
      res.nMatvec = k + 1 ∧ 0 < k ∧ k ≤ d ∧
      0 ≤ a ∧ (∀ C, (∀ z, ‖q.B z‖ ≤ C * ‖z‖) → a ^ 2 ≤ k * C ^ 2) ∧
      ((∃ u ∈ krylov q.B q.b k, u ≠ 0 ∧ ∀ z ∈ krylov q.B q.b k, ⟪q.B u, z⟫ = 0) ∨
       (GalerkinPoint q.B q.b k x ∨ LeastErrorPoint q.B q.b k x) ∧
       (‖q.b - q.B x‖ ≤ q.rtol * a * ‖x‖ ∨ ‖q.b - q.B x‖ ≤ q.eps * a * ‖x‖ ∨ ‖q.b‖ ≤ q.eps * a * ‖x‖ ∨
        (∃ c, res.acond = .fin c ∧ 1 / 10 / q.eps ≤ c) ∨ ‖q.b - q.B x‖ * |⟪q.b, q.B q.b⟫| ≤ q.eps * ‖q.b‖ ^ 3)) := by
  have hpos : 0 < (⟪q.b, q.b⟫ : ℝ) := by
    rw [real_inner_self_eq_norm_mul_norm]; exact mul_self_pos.2 (norm_ne_zero_iff.2 hb)
  have hg : gt (dot (Vec.fin q.b) (applyPrecon q.obj.precon (Vec.fin q.b))) (lit 0) = true := by
    change lt (lit 0) (Fl.fin ⟪q.b, q.b⟫) = true
    rw [Fl.lit_eq, Fl.fin_lt]; simpa using hpos
  obtain ⟨h1, h2, -⟩ := symmlqStart_exact q hA hb he he3
  have hm : q.kw.matvecMax = q.matvecMax := rfl
  have hmv : q.obj.matvec = some (Vec.op q.A) := rfl
  have hloop := symmlqLoop_inv q.obj q.kw (q.matvecMax.getD (2 * n + 2)) (.fin ‖q.b‖) (fun s => QGood q s ∨ QEnd q s)
    (fun s hs hc => by
      rcases hs with hs | hs
      · exact symmlqStep_exact q hA he _ s hs hc
      · simp [symmlqCont, hs.broke] at hc) _ (Or.inl h2)
  unfold symmlqSolve
  simp only [hn, if_false, hg, if_true, hm]
  split
  · rename_i h; rw [hmv] at h; cases h
  · rename_i mv h
    rw [hmv] at h
    cases h
    obtain ⟨s0, hs0⟩ : ∃ s0, symmlqStart q.obj q.kw (Vec.op q.A) (Vec.fin q.b) = (s0, .fin ‖q.b‖, false) :=
      ⟨_, Prod.ext rfl h1⟩
    rw [hs0] at hloop ⊢
    simp only [Bool.false_eq_true, if_false]
    simp only at hloop
    generalize symmlqLoop q.obj q.kw (q.matvecMax.getD (2 * n + 2)) (.fin ‖q.b‖) s0 = s at hloop ⊢
    obtain ⟨hs | hs, hc⟩ := hloop
    · exfalso
      obtain ⟨k, t, S, Sp, hr, hi, -⟩ := hs.ex
      have := hi.le_confined hd
      simp only [symmlqCont, hs.broke, hr.nMatvec, Bool.not_false, Bool.true_and, decide_eq_false_iff_not] at hc
      omega
    · obtain ⟨l, d', hl, x, a, k, e1, e2, e3, e4, e5, e6, e7, e8, e9, e10⟩ := symmlqFinish_exact q hA hb hrt he s hs
      rw [hl]
      exact ⟨_, _, rfl, x, a, k, e1, e2, e3, e4, e5, e6, e7 inferInstance _ hd, e8, e9,
        e10.imp_right (And.imp_right fun h => by
          rcases h with h | h | h | h | h
          · exact .inl h.2
          · exact .inr (.inl h.2)
          · exact .inr (.inr (.inl h.2))
          · exact .inr (.inr (.inr (.inl h.2)))
          · exact .inr (.inr (.inr (.inr h.2))))⟩

/-- **C56 (partial).** In exact arithmetic, let `A` be symmetric and `b` nonzero, without preconditioner, with a budget larger
than the dimension (the default is), and let the client have given the solver object the missing attribute `matvec`.  Then
`solve` returns after at most one product more than the dimension.  `x` is finite, `residNorm` and `xNorm` are the norms of
`b - Bx` and `x`, where `B = A - shift I`, and `anorm` is at most `√k ‖B‖`.  Either the compression of `B` to the Krylov space is
singular, or `x` is the Galerkin point or the least-error point, and one of these holds: the residual norm is at most
`rtol anorm xNorm` or `eps anorm xNorm`; `‖b‖` is at most `eps anorm xNorm` (the problem is singular to working precision);
the estimate `acond` is at least `0.1/eps`; `b` is nearly an eigenvector and the residual norm at most `eps ‖b‖³ / |b'Bb|`.
Missing: the case of a smaller budget, in which the code violates the property (`C56_budget_wrong`).  With a preconditioner:
`C56_preconditioned_partial`. -/
theorem C56_accuracy_partial [FiniteDimensional ℝ E] (q : SymmlqProblem E) (n : ℕ) (hn : n ≠ 0)
    (hA : ∀ u v, ⟪q.A u, v⟫ = ⟪u, q.A v⟫) (hb : q.b ≠ 0) (hrt : 0 ≤ q.rtol) (he : 0 < q.eps) (he3 : 0 ≤ q.eps3)
    (hlim : Module.finrank ℝ E < q.matvecMax.getD (2 * n + 2)) :
    ∃ res products, symmlqSolve q.obj n (.fin q.b) q.kw = .ok (res, products) ∧ ∃ (x : E) (a : ℝ) (k : ℕ),
      res.x = .fin x ∧ res.residNorm = .fin ‖q.b - q.B x‖ ∧ res.xNorm = .fin ‖x‖ ∧ res.anorm = .fin a ∧
      res.nMatvec = k + 1 ∧ 0 < k ∧ k ≤ Module.finrank ℝ E ∧
      0 ≤ a ∧ (∀ C, (∀ z, ‖q.B z‖ ≤ C * ‖z‖) → a ^ 2 ≤ k * C ^ 2) ∧
      ((∃ u ∈ krylov q.B q.b k, u ≠ 0 ∧ ∀ z ∈ krylov q.B q.b k, ⟪q.B u, z⟫ = 0) ∨
       (GalerkinPoint q.B q.b k x ∨ LeastErrorPoint q.B q.b k x) ∧
       (‖q.b - q.B x‖ ≤ q.rtol * a * ‖x‖ ∨ ‖q.b - q.B x‖ ≤ q.eps * a * ‖x‖ ∨ ‖q.b‖ ≤ q.eps * a * ‖x‖ ∨
        (∃ c, res.acond = .fin c ∧ 1 / 10 / q.eps ≤ c) ∨ ‖q.b - q.B x‖ * |⟪q.b, q.B q.b⟫| ≤ q.eps * ‖q.b‖ ^ 3)) := by
  exact symmlq_confined q n hn hA hb hrt he he3 (confined_of_finrank le_rfl) hlim

/-- **C56 (partial).** The same for a positive or negative definite `B = A - shift I`, where the compressions are never
singular. -/
theorem C56_definite_partial [FiniteDimensional ℝ E] (q : SymmlqProblem E) (n : ℕ) (hn : n ≠ 0)
    (hA : ∀ u v, ⟪q.A u, v⟫ = ⟪u, q.A v⟫) (hdef : ∀ u, u ≠ 0 → ⟪q.B u, u⟫ ≠ 0) (hb : q.b ≠ 0) (hrt : 0 ≤ q.rtol)
    (he : 0 < q.eps) (he3 : 0 ≤ q.eps3) (hlim : Module.finrank ℝ E < q.matvecMax.getD (2 * n + 2)) :
    ∃ res products, symmlqSolve q.obj n (.fin q.b) q.kw = .ok (res, products) ∧ ∃ (x : E) (a : ℝ) (k : ℕ),
      res.x = .fin x ∧ res.residNorm = .fin ‖q.b - q.B x‖ ∧ res.xNorm = .fin ‖x‖ ∧ res.anorm = .fin a ∧
      res.nMatvec = k + 1 ∧ k ≤ Module.finrank ℝ E ∧ (∀ C, (∀ z, ‖q.B z‖ ≤ C * ‖z‖) → a ^ 2 ≤ k * C ^ 2) ∧
      (GalerkinPoint q.B q.b k x ∨ LeastErrorPoint q.B q.b k x) ∧
      (‖q.b - q.B x‖ ≤ q.rtol * a * ‖x‖ ∨ ‖q.b - q.B x‖ ≤ q.eps * a * ‖x‖ ∨ ‖q.b‖ ≤ q.eps * a * ‖x‖ ∨
       (∃ c, res.acond = .fin c ∧ 1 / 10 / q.eps ≤ c) ∨ ‖q.b - q.B x‖ * |⟪q.b, q.B q.b⟫| ≤ q.eps * ‖q.b‖ ^ 3) := by
  obtain ⟨res, products, h, x, a, k, e1, e2, e3, e4, e5, e6, e7, e8, e9, e10⟩ :=
    C56_accuracy_partial q n hn hA hb hrt he he3 hlim
  refine ⟨res, products, h, x, a, k, e1, e2, e3, e4, e5, e7, e9, ?_⟩
  rcases e10 with ⟨u, hu, hu0, hz⟩ | h
  · exact absurd (hz u hu) (hdef u hu0)
  · exact h

/-! ### The budget -/

/-- a symmetric positive definite map on the plane: the matrix `[[2, 1], [1, 2]]` -/
noncomputable def planeTwoOne : ℂ →ₗ[ℝ] ℂ where
  toFun z := ⟨2 * z.re + z.im, z.re + 2 * z.im⟩
  map_add' u v := by apply Complex.ext <;> simp <;> ring
  map_smul' a u := by apply Complex.ext <;> simp <;> ring

theorem planeTwoOne_symm (u v : ℂ) : ⟪planeTwoOne u, v⟫ = ⟪u, planeTwoOne v⟫ := by
  simp [planeTwoOne, Complex.inner]; ring

theorem planeTwoOne_pos (u : ℂ) (hu : u ≠ 0) : 0 < (⟪planeTwoOne u, u⟫ : ℝ) := by
  have : u.re ≠ 0 ∨ u.im ≠ 0 := by
    by_contra h
    push Not at h
    exact hu (Complex.ext h.1 h.2)
  simp [planeTwoOne, Complex.inner]
  rcases this with h | h <;> have := mul_self_pos.2 h <;> nlinarith [sq_nonneg (u.re + u.im)]

/-- the first column as right-hand side -/
noncomputable def planeProblem (eps rtol : ℝ) (lim : Option ℕ) : SymmlqProblem ℂ :=
  { A := planeTwoOne, b := 1, shift := none, rtol := rtol, eps := eps, eps3 := 0, check := false, matvecMax := lim,
    storeIterates := false }

theorem planeProblem_B (eps rtol : ℝ) (lim : Option ℕ) : (planeProblem eps rtol lim).B = planeTwoOne := by
  simp [SymmlqProblem.B, planeProblem]

/-- the hypotheses of `C56_accuracy_partial` and `C56_definite_partial` are met -/
example : ∃ res products, symmlqSolve (planeProblem (1/1000) (1/10) none).obj 2 (.fin 1) (planeProblem (1/1000) (1/10) none).kw =
    .ok (res, products) ∧ res.nMatvec ≤ 3 := by
  obtain ⟨res, products, h, x, a, k, -, -, -, -, h1, h2, -⟩ := C56_definite_partial (planeProblem (1/1000) (1/10) none) 2
    (by decide) planeTwoOne_symm (fun u hu => by rw [planeProblem_B]; exact (planeTwoOne_pos u hu).ne') one_ne_zero
    (by norm_num [planeProblem]) (by norm_num [planeProblem]) (le_refl _)
    (by rw [Complex.finrank_real_complex]; decide)
  rw [Complex.finrank_real_complex] at h2
  exact ⟨res, products, h, by omega⟩

/-- the state after the first product -/
theorem plane_init : SymmlqMath.init planeTwoOne (1 : ℂ) =
    { xL := 0, wb := 1, v := 1, r2 := Complex.I, beta := 1, rhs1 := 1, rc := 0, gbar := 2, dc := 1, snprod := 1, ynorm2 := 0,
      tnorm := 5 } := by
  have hB : planeTwoOne 1 = ⟨2, 1⟩ := by simp [planeTwoOne]
  have h1 : (⟪(1 : ℂ), planeTwoOne 1⟫ : ℝ) = 2 := by rw [hB]; simp [Complex.inner]
  have h2 : SymmlqMath.q0 planeTwoOne (1 : ℂ) = Complex.I := by
    unfold SymmlqMath.q0
    rw [norm_one, div_one, one_smul, h1, hB]
    apply Complex.ext <;> simp
  have h3 : (⟪Complex.I, Complex.I⟫ : ℝ) = 1 := by simp [Complex.inner]
  unfold SymmlqMath.init
  rw [norm_one, div_one, one_smul, h1, h2, h3, Real.sqrt_one]
  norm_num

/-- the point computed when the budget is two products -/
noncomputable def planePoint : ℂ := ⟨2 / 5 - 2 / 5 / Real.sqrt 5, 1 / 5 + 4 / 5 / Real.sqrt 5⟩

theorem plane_step : (SymmlqMath.step planeTwoOne (SymmlqMath.init planeTwoOne (1 : ℂ))).xL +
    ((SymmlqMath.step planeTwoOne (SymmlqMath.init planeTwoOne (1 : ℂ))).rhs1 / 2) •
    (SymmlqMath.step planeTwoOne (SymmlqMath.init planeTwoOne (1 : ℂ))).wb = planePoint := by
  have h5 : (0 : ℝ) < Real.sqrt 5 := Real.sqrt_pos.2 (by norm_num)
  have h5' : Real.sqrt 5 * Real.sqrt 5 = 5 := Real.mul_self_sqrt (by norm_num)
  rw [plane_init]
  have hI : planeTwoOne Complex.I = ⟨1, 2⟩ := by simp [planeTwoOne]
  have hal : SymmlqMath.alfa planeTwoOne ⟨0, 1, 1, Complex.I, 1, 1, 0, 2, 1, 1, 0, 5⟩ = 2 := by
    simp [SymmlqMath.alfa, SymmlqMath.St.vn, hI, Complex.inner]
  have hga : SymmlqMath.gam (⟨0, 1, 1, Complex.I, 1, 1, 0, 2, 1, 1, 0, 5⟩ : SymmlqMath.St ℂ) = Real.sqrt 5 := by
    simp only [SymmlqMath.gam]; norm_num
  have hz : (1 : ℝ) / Real.sqrt 5 * (2 / Real.sqrt 5) = 2 / 5 := by rw [div_mul_div_comm, h5']; norm_num
  have hz' : (1 : ℝ) / Real.sqrt 5 * (1 / Real.sqrt 5) = 1 / 5 := by rw [div_mul_div_comm, h5']; norm_num
  have hr : (0 : ℝ) * 1 - (2 / Real.sqrt 5 * (1 * 1) + 1 / Real.sqrt 5 * 2) * (1 / Real.sqrt 5) = -(4 / 5) := by
    linear_combination -(2 : ℝ) * hz
  simp only [SymmlqMath.step, hal, hga, hz, hz', hr]
  have hi : (1 : ℝ) / Real.sqrt 5 = (Real.sqrt 5) / 5 := by rw [div_eq_div_iff h5.ne' (by norm_num), one_mul, h5']
  have hx : ∀ y : ℝ, y / Real.sqrt 5 = y * (Real.sqrt 5 / 5) := fun y => by rw [← hi, mul_one_div]
  unfold planePoint
  simp only [hx]
  apply Complex.ext
  · simp [SymmlqMath.St.vn]; ring
  · simp [SymmlqMath.St.vn]; ring

/-- **C56, negative.** When the budget is used up, the code combines the new iterate with the pivot of the iteration before.
The returned `x` can then be worse than the zero vector, from which the iteration starts: for the positive definite matrix
`[[2, 1], [1, 2]]`, the right-hand side `(1, 0)` and `matvec_max=2` its residual norm is larger than `‖b‖`. -/
theorem C56_budget_wrong (eps rtol : ℝ) (he : 0 < eps) (he' : eps ≤ 1 / 100) :
    ∃ res products x, symmlqSolve (planeProblem eps rtol (some 2)).obj 2 (.fin 1) (planeProblem eps rtol (some 2)).kw =
      .ok (res, products) ∧ res.x = .fin x ∧ res.residNorm = .fin ‖(1 : ℂ) - planeTwoOne x‖ ∧
      ‖(1 : ℂ)‖ < ‖(1 : ℂ) - planeTwoOne x‖ ∧ res.nMatvec = 3 := by
  have h5 : (0 : ℝ) < Real.sqrt 5 := Real.sqrt_pos.2 (by norm_num)
  obtain ⟨q, hq⟩ : ∃ q, q = planeProblem eps rtol (some 2) := ⟨_, rfl⟩
  have hqb : q.b = 1 := by rw [hq]; rfl
  have hqe : q.eps = eps := by rw [hq]; rfl
  have hqB : q.B = planeTwoOne := by rw [hq, planeProblem_B]
  have hv1 : q.v1 = 1 := by rw [SymmlqProblem.v1, hqb]; simp
  have hg1 : (⟪(1 : ℂ), planeTwoOne 1⟫ : ℝ) = 2 := by simp [planeTwoOne, Complex.inner]
  obtain ⟨h1, -, hr, hmx, hmn, hi0⟩ := symmlqStart_exact q (by rw [hq]; exact planeTwoOne_symm) (by rw [hqb]; exact one_ne_zero)
    (by rw [hqe]; exact he) (by rw [hq]; exact le_refl _)
  have hinv := SymmlqMath.inv_init q.B q.b (by rw [hqb]; exact one_ne_zero)
  obtain ⟨s0, hs0⟩ : ∃ s0, symmlqStart q.obj q.kw (Vec.op q.A) (Vec.fin q.b) = (s0, .fin ‖q.b‖, false) := ⟨_, Prod.ext rfl h1⟩
  have hbr0 : s0.broke = false := by
    have : (symmlqStart q.obj q.kw (Vec.op q.A) (Vec.fin q.b)).1.broke = false := rfl
    rwa [hs0] at this
  rw [hs0] at hr hmx hmn hi0
  simp only at hr hmx hmn hi0
  rw [hv1, hqB, hg1, hqe] at hmx hmn
  obtain ⟨t, ht⟩ : ∃ t, t = SymmlqMath.init q.B q.b := ⟨_, rfl⟩
  rw [← ht] at hr hinv hi0
  have htv : t = ⟨0, 1, 1, Complex.I, 1, 1, 0, 2, 1, 1, 0, 5⟩ := by rw [ht, hqB, hqb]; exact plane_init
  have hbeta : t.beta = 1 := by rw [htv]
  obtain ⟨d, cg, c, hT, hI, hc⟩ := symmlqTest_exact q (by rw [hqe]; exact he) 2 hr hinv (by rw [htv]; norm_num)
  have hd : d = 2 := by rw [hT.deq (by rw [htv]; norm_num), htv]
  have hcg : cg = 1 / 2 := by rw [hT.cgd, hd, htv, hqb]; norm_num
  have hxL : t.xL = 0 := by rw [htv]
  have hlq : ‖q.b - q.B t.xL‖ = 1 := by rw [hxL, map_zero, sub_zero, hqb]; exact norm_one
  have hcv : c < 1 / 10 / eps := by
    rw [hc _ _ hmx hmn, hlq, hcg, if_neg (by norm_num), hd, lt_div_iff₀ he]
    have : min (|(2 : ℝ)| + eps) |2| = 2 := by
      rw [min_eq_right (by linarith)]; norm_num
    rw [this]
    have : |(2 : ℝ)| = 2 := by norm_num
    rw [this]
    nlinarith
  have hi0' : s0.istop = 0 := hi0 (by rw [hqe, hbeta]; linarith)
  have hstop : (symmlqTest q.kw 2 (.fin ‖q.b‖) s0).istop = 0 := by
    by_contra hne
    rw [hI] at hne
    have := symmlqTests_stop q (by norm_num) hi0' (by rw [hqe]; exact he) hne
    rw [hxL, hcg, hqb, hqe] at this
    simp only [norm_zero, mul_zero, zero_mul, norm_one] at this
    rcases this with ⟨-, h⟩ | ⟨-, h⟩ | ⟨-, h⟩ | ⟨-, h⟩
    · norm_num at h
    · norm_num at h
    · norm_num at h
    · linarith
  have hr' : QRel q 1 (symmlqTest q.kw 2 (.fin ‖q.b‖) s0) t :=
    ⟨hr.xb, hr.w, hr.y, hr.r2, hr.ob, hr.beta, hr.rhs1, hr.rhs2, hr.tnorm, hr.gbar, hr.dbar, hr.snprod, hr.ynorm2, hr.gmm,
      hr.nMatvec⟩
  have hbr : (symmlqTest q.kw 2 (.fin ‖q.b‖) s0).broke = false := by
    change decide ((symmlqTest q.kw 2 (.fin ‖q.b‖) s0).istop ≠ 0) = false
    rw [hstop]; rfl
  obtain ⟨hu, -, hub⟩ := symmlqUpdate_exact q hr' hinv (by rw [hbeta]; exact one_ne_zero)
  have hstep : symmlqStep q.obj q.kw 2 (.fin ‖q.b‖) s0 = symmlqUpdate q.obj q.kw (symmlqTest q.kw 2 (.fin ‖q.b‖) s0) := by
    unfold symmlqStep
    simp only [hbr, Bool.false_eq_true, if_false]
  have hkeep : ∀ s : SymmlqLoop Fl (Vec ℂ), (symmlqUpdate q.obj q.kw s).lqDiag = s.lqDiag ∧
      (symmlqUpdate q.obj q.kw s).cgnorm = s.cgnorm := by
    intro s
    unfold symmlqUpdate
    simp only
    split <;> exact ⟨rfl, rfl⟩
  have hloop : symmlqLoop q.obj q.kw 2 (.fin ‖q.b‖) s0 = symmlqUpdate q.obj q.kw (symmlqTest q.kw 2 (.fin ‖q.b‖) s0) := by
    have hc0 : symmlqCont 2 s0 = true := by simp [symmlqCont, hbr0, hr.nMatvec]
    unfold symmlqLoop
    rw [whileLoop_of_cont hc0, hstep, whileLoop_of_not]
    simp [symmlqCont, hu.nMatvec]
  generalize symmlqTest q.kw 2 (.fin ‖q.b‖) s0 = s1 at *
  obtain ⟨hk1, hk2⟩ := hkeep s1
  generalize symmlqUpdate q.obj q.kw s1 = s2 at *
  rw [hT.lq, hlq, hd] at hk1
  rw [hT.cgnorm, hcg] at hk2
  obtain ⟨bs, hbs, hx⟩ := hu.xb
  have hpoint : (SymmlqMath.step q.B t).xL + ((SymmlqMath.step q.B t).rhs1 / 2) • (SymmlqMath.step q.B t).wb = planePoint := by
    rw [ht, hqB, hqb]; exact plane_step
  have hlt : lt s2.cgnorm (Fl.fin 1) = true := by rw [hk2, Fl.fin_lt]; norm_num
  have hfx : (if lt s2.cgnorm (Fl.fin 1) then s2.x + smul (s2.rhs1 / Fl.fin 2) s2.w else s2.x) +
      smul ((if lt s2.cgnorm (Fl.fin 1) then s2.snprod * (s2.rhs1 / Fl.fin 2) + s2.bstep else s2.bstep) / Fl.fin ‖q.b‖)
        (Vec.fin q.b) = .fin planePoint := by
    rw [if_pos hlt, if_pos hlt, hx, hbs, hu.rhs1, hu.w, hu.snprod, Fl.fin_div _ two_ne_zero, Fl.fin_mul, Fl.fin_add, hqb, norm_one,
      Fl.fin_div _ one_ne_zero, Vec.fin_smul, Vec.fin_smul, Vec.fin_add, Vec.fin_add, ← hpoint, hv1]
    congr 1
    module
  have hres : symmlqSolve q.obj 2 (.fin 1) q.kw = .ok (symmlqFinish q.obj q.kw (.fin ‖q.b‖) (.fin q.b) s2 (.fin 1) (.fin 2)) := by
    have hg : gt (dot (Vec.fin (1 : ℂ)) (applyPrecon q.obj.precon (Vec.fin (1 : ℂ)))) (lit 0) = true := by
      change lt (lit 0) (Fl.fin ⟪(1 : ℂ), 1⟫) = true
      rw [Fl.lit_eq, Fl.fin_lt]; simp
    have hm : q.kw.matvecMax.getD (2 * 2 + 2) = 2 := by rw [hq]; rfl
    have hmv : q.obj.matvec = some (Vec.op q.A) := rfl
    unfold symmlqSolve
    simp only [hg, if_true, hm]
    rw [if_neg (by decide)]
    split
    · rename_i h; rw [hmv] at h; cases h
    · rename_i mv h
      rw [hmv] at h
      cases h
      rw [← hqb, hs0]
      simp only [Bool.false_eq_true, if_false, hloop, hk1]
  rw [← hq, hres]
  refine ⟨_, _, planePoint, rfl, ?_, ?_, ?_, by simp only [symmlqFinish, hu.nMatvec]⟩
  · exact hfx
  · have hpr : ∀ z, applyPrecon q.obj.precon z = z := fun _ => rfl
    have hop : q.obj.op = Vec.op q.A := rfl
    simp only [hpr, hfx]
    simp only [hop, q.shift_exact, hqb, hqB, Vec.fin_sub, Vec.fin_norm]
  · have : (1 : ℂ) - planeTwoOne planePoint = ⟨0, -(4 / 5 + 6 / 5 / Real.sqrt 5)⟩ := by
      apply Complex.ext
      · simp [planeTwoOne, planePoint]; ring
      · simp [planeTwoOne, planePoint]; ring
    rw [this, norm_one]
    have hle := Complex.abs_im_le_norm (⟨0, -(4 / 5 + 6 / 5 / Real.sqrt 5)⟩ : ℂ)
    simp only [abs_neg] at hle
    have h6 : 1 / 5 < 6 / 5 / Real.sqrt 5 := by
      rw [lt_div_iff₀ h5]
      have : Real.sqrt 5 < 6 := by rw [Real.sqrt_lt' (by norm_num)]; norm_num
      linarith
    rw [abs_of_pos (by linarith)] at hle
    linarith

end Verif.Solver
