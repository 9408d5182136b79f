import Verif.Solver.KrylovConv
import Mathlib.Analysis.Complex.Basic
import Mathlib.LinearAlgebra.Complex.FiniteDimensional

/-!
# C55: finite termination of CGS, Bi-CGSTAB and TFQMR in exact arithmetic

The operator is any linear map on a real inner product space of dimension at most `n`, the preconditioner any linear map
or none, and the budget at least `2 n`, which is the default.
-/

namespace Verif.Solver
open Scalar Vect
open scoped RealInnerProductSpace

variable {E : Type} [NormedAddCommGroup E] [InnerProductSpace ℝ E]

/-- the problem has a linear preconditioner, or none -/
def LinProblem.LinearPrecon (q : LinProblem E) : Prop :=
  q.precon = none ∨ ∃ k : E →ₗ[ℝ] E, q.precon = some (Vec.op k)

/-- symmetric positive definite -/
def SPD (A : E →ₗ[ℝ] E) : Prop := (∀ u v : E, ⟪A u, v⟫ = ⟪u, A v⟫) ∧ ∀ u : E, u ≠ 0 → 0 < ⟪u, A u⟫

theorem LinProblem.LinearPrecon.exists {q : LinProblem E} (h : q.LinearPrecon) : ∃ K, q.precon = linPrecon K := by
  rcases h with h | ⟨k, h⟩
  · exact ⟨none, h⟩
  · exact ⟨some k, h⟩

theorem cgs_end [FiniteDimensional ℝ E] (q : LinProblem E) (n d : ℕ) (kw : KrylovKw (Vec E))
    (hg : kw.guess = q.guess.map Vec.fin) (K : Option (E →ₗ[ℝ] E))
    (hn : Confined (rightPrecon q.A K) (q.b - q.A q.start) d) (hK : q.precon = linPrecon K)
    (ht : 0 ≤ q.threshold) (hm : 2 * d ≤ kw.matvecMax.getD (2 * n)) :
    let res := (cgsSolve (Vec.op q.A) q.opts n (.fin q.b) kw).1
    (res.converged = true ∧ res.nMatvec ≤ 2 * d) ∨
      (CgsBreakdown (rightPrecon q.A K) (q.b - q.A q.start) ∧ res.residNorm = .nan) := by
  unfold LinProblem.threshold at ht
  unfold cgsSolve
  cases hq : q.guess with
  | none =>
    rw [hq] at hg
    simp only [hg, Option.map_none, Option.getD_none, LinProblem.opts, LinProblem.start, hq, Vec.fin_dot, abs_sqrt_inner,
      Fl.fin_mul, Fl.fin_pymax, map_zero, sub_zero, Vec.zeros_eq, hK] at ht hn ⊢
    exact cgsLoop_end hn ht hm _ _
  | some g =>
    rw [hq] at hg
    simp only [hg, Option.map_some, Option.getD_some, LinProblem.opts, LinProblem.start, hq, Vec.op_fin, Vec.fin_sub, Vec.fin_dot,
      abs_sqrt_inner, Fl.fin_mul, Fl.fin_pymax, hK] at ht hn ⊢
    exact cgsLoop_end hn ht hm _ _

theorem bi_end [FiniteDimensional ℝ E] (q : LinProblem E) (n d : ℕ) (kw : KrylovKw (Vec E))
    (hg : kw.guess = q.guess.map Vec.fin) (K : Option (E →ₗ[ℝ] E))
    (hn : Confined (rightPrecon q.A K) (q.b - q.A q.start) d) (hn0 : 0 < d)
    (hK : q.precon = linPrecon K) (ht : 0 ≤ q.threshold) (hm : 2 * d ≤ kw.matvecMax.getD (2 * n)) :
    let res := (biSolve (Vec.op q.A) q.opts n (.fin q.b) kw).1
    (res.converged = true ∧ res.nMatvec ≤ 2 * d) ∨
      (BiBreakdown (rightPrecon q.A K) (q.b - q.A q.start) ∧ res.residNorm = .nan) := by
  unfold LinProblem.threshold at ht
  unfold biSolve
  cases hq : q.guess with
  | none =>
    rw [hq] at hg
    simp only [hg, Option.map_none, Option.getD_none, LinProblem.opts, LinProblem.start, hq, Vec.fin_dot, abs_sqrt_inner,
      Fl.fin_mul, Fl.fin_pymax, map_zero, sub_zero, Vec.zeros_eq, hK, Fl.lit_eq, Rat.cast_one] at ht hn ⊢
    exact biLoop_end hn ht hm _ _ _ (by omega) (by omega)
  | some g =>
    rw [hq] at hg
    simp only [hg, Option.map_some, Option.getD_some, LinProblem.opts, LinProblem.start, hq, Vec.op_fin, Vec.fin_sub, Vec.fin_dot,
      abs_sqrt_inner, Fl.fin_mul, Fl.fin_pymax, hK, Vec.zeros_eq, Fl.lit_eq, Rat.cast_one] at ht hn ⊢
    exact biLoop_end hn ht hm _ _ _ (by omega) (by omega)

theorem tf_end [FiniteDimensional ℝ E] (q : LinProblem E) (n d : ℕ) (kw : KrylovKw (Vec E))
    (hg : kw.guess = q.guess.map Vec.fin) (K : Option (E →ₗ[ℝ] E))
    (hn : Confined (rightPrecon q.A K) (q.b - q.A q.start) d)
    (hK : q.precon = linPrecon K) (ht : 0 < q.threshold) (hm : 2 * d ≤ kw.matvecMax.getD (2 * n))
    (hs : q.threshold < ‖q.b - q.A q.start‖) :
    ∃ res products, tfSolve (Vec.op q.A) q.opts n (.fin q.b) kw = .ok (res, products) ∧
    ((res.converged = true ∧ res.nMatvec ≤ 2 * d ∧
      ((∃ x, res.x = .fin x) ∨ CgsBreakdown (rightPrecon q.A K) (q.b - q.A q.start))) ∨
      (CgsBreakdown (rightPrecon q.A K) (q.b - q.A q.start) ∧ res.residNorm = .nan)) := by
  have hc : q.b - q.A q.start ≠ 0 := by
    intro h; rw [h, norm_zero] at hs; linarith
  have hpos : 0 < d := hn.pos hc
  obtain ⟨res, products, hok, -⟩ := (C33_budget_partial (Vec.op q.A) q.opts n (.fin q.b) kw).2 (by
    rw [LinProblem.threshold] at hs
    cases hq : q.guess <;>
    · rw [hq] at hg
      simp only [LinProblem.start, hq, Option.getD_none, Option.getD_some, map_zero, sub_zero] at hs
      simp only [hg, Option.map_none, Option.map_some, LinProblem.opts, Vec.op_fin, Vec.fin_sub, Vec.fin_dot, abs_sqrt_inner,
        Fl.fin_mul, Fl.fin_pymax, Fl.fin_le, not_or, not_le]
      exact ⟨hs, by omega⟩)
  refine ⟨res, products, hok, ?_⟩
  have key : ∀ (T : ℝ) (s : TFLoop Fl (Vec E)) (r : Fl) (c : E), tfResult (Fl.fin T) r s = .ok (res, products) →
      ((TfConv T s ∧ s.nMatvec ≤ 2 * d ∧ ((∃ x, s.x = .fin x) ∨ CgsBreakdown (rightPrecon q.A K) c)) ∨
        (CgsBreakdown (rightPrecon q.A K) c ∧ s.residNorm = .nan)) →
      ((res.converged = true ∧ res.nMatvec ≤ 2 * d ∧ ((∃ x, res.x = .fin x) ∨ CgsBreakdown (rightPrecon q.A K) c)) ∨
        (CgsBreakdown (rightPrecon q.A K) c ∧ res.residNorm = .nan)) := by
    intro T s r c h1 h2
    unfold tfResult at h1
    cases hm : s.m with
    | none => rw [hm] at h1; cases h1
    | some m =>
      rw [hm] at h1
      cases h1
      rcases h2 with ⟨⟨m', e, h⟩, h3⟩ | h
      · rw [hm] at e; cases e
        exact Or.inl ⟨h, h3⟩
      · exact Or.inr h
  unfold LinProblem.threshold at ht hs
  unfold tfSolve at hok
  cases hq : q.guess with
  | none =>
    rw [hq] at hg
    have hf : (le (Fl.fin ‖q.b‖) (Fl.fin (max q.abstol (q.reltol * ‖q.b‖))) || decide (0 ≥ kw.matvecMax.getD (2 * n))) = false := by
      have : le (Fl.fin ‖q.b‖) (Fl.fin (max q.abstol (q.reltol * ‖q.b‖))) = false := by
        rw [← Bool.not_eq_true, Fl.fin_le, not_le]
        simpa [LinProblem.start, hq] using hs
      simp only [this, Bool.false_or, decide_eq_false_iff_not]; omega
    simp only [hg, Option.map_none, Option.getD_none, LinProblem.opts, LinProblem.start, hq, Vec.fin_dot, abs_sqrt_inner,
      Fl.fin_mul, Fl.fin_pymax, map_zero, sub_zero, Vec.zeros_eq, hK, hf, Bool.false_eq_true, if_false, Fl.lit_eq,
      Rat.cast_zero] at ht hok hc hn ⊢
    exact key _ _ _ _ hok (tfLoop_end hn ht hm hc _ _ _ _ _ rfl rfl rfl)
  | some g =>
    rw [hq] at hg
    have hf : (le (Fl.fin ‖q.b - q.A g‖) (Fl.fin (max q.abstol (q.reltol * ‖q.b - q.A g‖))) ||
        decide (0 ≥ kw.matvecMax.getD (2 * n))) = false := by
      have : le (Fl.fin ‖q.b - q.A g‖) (Fl.fin (max q.abstol (q.reltol * ‖q.b - q.A g‖))) = false := by
        rw [← Bool.not_eq_true, Fl.fin_le, not_le]
        simpa [LinProblem.start, hq] using hs
      simp only [this, Bool.false_or, decide_eq_false_iff_not]; omega
    simp only [hg, Option.map_some, Option.getD_some, LinProblem.opts, LinProblem.start, hq, Vec.op_fin, Vec.fin_sub, Vec.fin_dot,
      abs_sqrt_inner, Fl.fin_mul, Fl.fin_pymax, hK, hf, Bool.false_eq_true, if_false, Fl.lit_eq, Vec.zeros_eq,
      Rat.cast_zero] at ht hok hc hn ⊢
    exact key _ _ _ _ hok (tfLoop_end hn ht hm hc _ _ _ _ _ rfl rfl rfl)

/-! ## C55 -/

/-- **C55 (CGS).** In exact arithmetic, for every linear operator on a space of dimension at most `n` (singular or not),
linear preconditioner, right-hand side, guess and options with a nonnegative threshold, if the budget is at least `2 n`
(the default): CGS converges, spending at most `2 n` products, or breaks down with a `residNorm` that is not finite.  It
never stops with a finite residual above the threshold. -/
theorem C55_cgs [FiniteDimensional ℝ E] (q : LinProblem E) (hK : q.LinearPrecon) (n : ℕ) (hn : Module.finrank ℝ E ≤ n)
    (kw : KrylovKw (Vec E)) (hg : kw.guess = q.guess.map Vec.fin)
    (ht : 0 ≤ max q.abstol (q.reltol * ‖q.b - q.A q.start‖)) (hm : 2 * n ≤ kw.matvecMax.getD (2 * n)) :
    let res := (cgsSolve (Vec.op q.A) q.opts n (.fin q.b) kw).1
    (res.converged = true ∧ res.nMatvec ≤ 2 * n) ∨ res.residNorm = .nan := by
  obtain ⟨K, hK⟩ := hK.exists
  exact (cgs_end q n n kw hg K (confined_of_finrank hn) hK ht hm).imp id fun h => h.2

/-- **C55 (CGS, positive definite).** In exact arithmetic, if the operator is symmetric positive definite and there is no
preconditioner, CGS returns, for every right-hand side, guess and options, a finite `x` whose residual norm is within the
threshold, spending at most `2 n` products. -/
theorem C55_cgs_spd [FiniteDimensional ℝ E] (q : LinProblem E) (hK : q.precon = none) (hA : SPD q.A) (n : ℕ)
    (hn : Module.finrank ℝ E ≤ n) (kw : KrylovKw (Vec E)) (hg : kw.guess = q.guess.map Vec.fin)
    (ht : 0 ≤ max q.abstol (q.reltol * ‖q.b - q.A q.start‖)) (hm : 2 * n ≤ kw.matvecMax.getD (2 * n)) :
    let res := (cgsSolve (Vec.op q.A) q.opts n (.fin q.b) kw).1
    res.converged = true ∧ res.nMatvec ≤ 2 * n ∧
    ∃ x, res.x = .fin x ∧ ‖q.b - q.A x‖ ≤ max q.abstol (q.reltol * ‖q.b - q.A q.start‖) := by
  rcases cgs_end q n n kw hg none (confined_of_finrank hn) hK ht hm with ⟨h1, h2⟩ | ⟨h, -⟩
  · obtain ⟨x, hx, -, hx2⟩ := ((C31_converged q n kw hg).2).1 h1
    exact ⟨h1, h2, x, hx, hx2⟩
  · exact absurd h (cgs_no_breakdown hA.1 hA.2)

/-- **C55 (Bi-CGSTAB).** As for CGS. -/
theorem C55_bicgstab [FiniteDimensional ℝ E] (q : LinProblem E) (hK : q.LinearPrecon) (n : ℕ) (hn : Module.finrank ℝ E ≤ n)
    (hn0 : 0 < n) (kw : KrylovKw (Vec E)) (hg : kw.guess = q.guess.map Vec.fin)
    (ht : 0 ≤ max q.abstol (q.reltol * ‖q.b - q.A q.start‖)) (hm : 2 * n ≤ kw.matvecMax.getD (2 * n)) :
    let res := (biSolve (Vec.op q.A) q.opts n (.fin q.b) kw).1
    (res.converged = true ∧ res.nMatvec ≤ 2 * n) ∨ res.residNorm = .nan := by
  obtain ⟨K, hK⟩ := hK.exists
  exact (bi_end q n n kw hg K (confined_of_finrank hn) hn0 hK ht hm).imp id fun h => h.2

/-- **C55 (Bi-CGSTAB, positive definite).** As for CGS. -/
theorem C55_bicgstab_spd [FiniteDimensional ℝ E] (q : LinProblem E) (hK : q.precon = none) (hA : SPD q.A) (n : ℕ)
    (hn : Module.finrank ℝ E ≤ n) (hn0 : 0 < n) (kw : KrylovKw (Vec E)) (hg : kw.guess = q.guess.map Vec.fin)
    (ht : 0 ≤ max q.abstol (q.reltol * ‖q.b - q.A q.start‖)) (hm : 2 * n ≤ kw.matvecMax.getD (2 * n)) :
    let res := (biSolve (Vec.op q.A) q.opts n (.fin q.b) kw).1
    res.converged = true ∧ res.nMatvec ≤ 2 * n ∧
    ∃ x, res.x = .fin x ∧ ‖q.b - q.A x‖ ≤ max q.abstol (q.reltol * ‖q.b - q.A q.start‖) := by
  rcases bi_end q n n kw hg none (confined_of_finrank hn) hn0 hK ht hm with ⟨h1, h2⟩ | ⟨h, -⟩
  · obtain ⟨x, hx, -, hx2⟩ := (C32_converged_partial q n kw hg).1 h1
    exact ⟨h1, h2, x, hx, hx2⟩
  · exact absurd h (bi_no_breakdown hA.1 hA.2)

/-- **C55 (TFQMR).** As for CGS, for a positive threshold and an initial residual above it (otherwise TFQMR raises
`UnboundLocalError`, see C33). -/
theorem C55_tfqmr [FiniteDimensional ℝ E] (q : LinProblem E) (hK : q.LinearPrecon) (n : ℕ) (hn : Module.finrank ℝ E ≤ n)
    (kw : KrylovKw (Vec E)) (hg : kw.guess = q.guess.map Vec.fin)
    (ht : 0 < max q.abstol (q.reltol * ‖q.b - q.A q.start‖))
    (hs : max q.abstol (q.reltol * ‖q.b - q.A q.start‖) < ‖q.b - q.A q.start‖)
    (hm : 2 * n ≤ kw.matvecMax.getD (2 * n)) :
    ∃ res products, tfSolve (Vec.op q.A) q.opts n (.fin q.b) kw = .ok (res, products) ∧
      ((res.converged = true ∧ res.nMatvec ≤ 2 * n) ∨ res.residNorm = .nan) := by
  obtain ⟨K, hK⟩ := hK.exists
  obtain ⟨res, products, h, h2⟩ := tf_end q n n kw hg K (confined_of_finrank hn) hK ht hm hs
  exact ⟨res, products, h, h2.imp (fun h => ⟨h.1, h.2.1⟩) fun h => h.2⟩

/-- **C55 (TFQMR, positive definite).** As for CGS. -/
theorem C55_tfqmr_spd [FiniteDimensional ℝ E] (q : LinProblem E) (hK : q.precon = none) (hA : SPD q.A) (n : ℕ)
    (hn : Module.finrank ℝ E ≤ n) (kw : KrylovKw (Vec E)) (hg : kw.guess = q.guess.map Vec.fin)
    (ht : 0 < max q.abstol (q.reltol * ‖q.b - q.A q.start‖))
    (hs : max q.abstol (q.reltol * ‖q.b - q.A q.start‖) < ‖q.b - q.A q.start‖)
    (hm : 2 * n ≤ kw.matvecMax.getD (2 * n)) :
    ∃ res products, tfSolve (Vec.op q.A) q.opts n (.fin q.b) kw = .ok (res, products) ∧
      res.converged = true ∧ res.nMatvec ≤ 2 * n ∧
      ∃ x, res.x = .fin x ∧ ‖q.b - q.A x‖ < max q.abstol (q.reltol * ‖q.b - q.A q.start‖) := by
  obtain ⟨res, products, h, h2⟩ := tf_end q n n kw hg none (confined_of_finrank hn) hK ht hm hs
  have hb := cgs_no_breakdown (c := q.b - q.A q.start) hA.1 hA.2
  rcases h2 with ⟨h3, h4, hx | h5⟩ | ⟨h3, -⟩
  · obtain ⟨x, hx⟩ := hx
    exact ⟨res, products, h, h3, h4, x, hx, C33_converged_partial q n kw hg res products h x hx h3⟩
  · exact absurd h5 hb
  · exact absurd h3 hb

/-! ## Concrete cases -/

/-- a symmetric positive definite map on the plane: `diag(3, 1)` -/
noncomputable def planeSpd : ℂ →ₗ[ℝ] ℂ where
  toFun z := ⟨3 * z.re, z.im⟩
  map_add' u v := by apply Complex.ext <;> simp; ring
  map_smul' a u := by apply Complex.ext <;> simp; ring

theorem planeSpd_spd : SPD planeSpd := by
  constructor
  · intro u v
    simp [planeSpd, Complex.inner]; ring
  · intro u hu
    have : u.re ≠ 0 ∨ u.im ≠ 0 := by
      by_contra h
      push Not at h
      exact hu (Complex.ext h.1 h.2)
    simp [planeSpd, Complex.inner]
    rcases this with h | h <;> have := mul_self_pos.2 h <;> nlinarith [mul_self_nonneg u.re, mul_self_nonneg u.im]

/-- the quarter turn: orthogonal, hence invertible -/
noncomputable def quarterTurn : ℂ →ₗ[ℝ] ℂ where
  toFun z := ⟨-z.im, z.re⟩
  map_add' u v := by apply Complex.ext <;> simp; ring
  map_smul' a u := by apply Complex.ext <;> simp

/-- the hypotheses of the theorems are met: a plane problem that is not solved by the starting point -/
example :
    let q : LinProblem ℂ := ⟨planeSpd, ⟨1, 1⟩, none, 0, 1 / 2, none⟩
    q.LinearPrecon ∧ SPD q.A ∧ Module.finrank ℝ ℂ ≤ 2 ∧ 0 < max q.abstol (q.reltol * ‖q.b - q.A q.start‖) ∧
    max q.abstol (q.reltol * ‖q.b - q.A q.start‖) < ‖q.b - q.A q.start‖ := by
  have hb : 0 < ‖(⟨1, 1⟩ : ℂ)‖ := norm_pos_iff.2 (by intro h; simpa using congrArg Complex.re h)
  refine ⟨Or.inl rfl, planeSpd_spd, Complex.finrank_real_complex.le, ?_, ?_⟩
  · simp only [LinProblem.start, Option.getD_none, map_zero, sub_zero, lt_max_iff]
    right; positivity
  · simp only [LinProblem.start, Option.getD_none, map_zero, sub_zero, max_lt_iff]
    exact ⟨hb, by linarith⟩

theorem quarterTurn_inner (b : ℂ) : ⟪b, quarterTurn b⟫ = 0 := by
  simp [quarterTurn, Complex.inner]; ring

/-- The breakdown in the alternative does happen, for invertible operators too: for the quarter turn and any right-hand
side but zero, CGS breaks down in its first iteration. -/
theorem C55_cgs_breakdown (b : ℂ) (hb : b ≠ 0) :
    (cgsSolve (Vec.op quarterTurn) { abstol := .fin 0, reltol := .fin 0, precon := none } 2 (.fin b) {}).1.residNorm = .nan := by
  have hf : le (Fl.fin ‖b‖) (Fl.fin (max 0 (0 * ‖b‖))) = false := by
    rw [← Bool.not_eq_true, Fl.fin_le, not_le]; simpa using hb
  unfold cgsSolve
  simp only [Option.getD_none, Vec.fin_dot, abs_sqrt_inner, Fl.fin_mul, Fl.fin_pymax, hf, Vec.zeros_eq]
  have := whileLoop_inv (cont := fun s : CGSLoop Fl (Vec ℂ) => !s.finished)
    (step := cgsStep (Vec.op quarterTurn) (linPrecon none) (.fin (max 0 (0 * ‖b‖))) (2 * 2) (.fin b))
    (μ := fun s => 2 * 2 - s.nMatvec) (h := by
        intro s _ h
        have h1 := cgsStep_nMatvec (Vec.op quarterTurn) (linPrecon none) (Fl.fin (max 0 (0 * ‖b‖))) (2 * 2) (.fin b) s
        have h2 := h1.2 (by simpa using h)
        omega)
    (fun s => (s.finished = false ∧ s.rho / dot (.fin b) (Vec.op quarterTurn (applyPrecon (linPrecon none) s.p)) = .nan) ∨
      (s.finished = true ∧ s.residNorm = .nan))
    (fun s hs hc => by
      rcases hs with ⟨-, h⟩ | ⟨h, -⟩
      · rcases cgsStep_broken (mm := 2 * 2) s (.fin (max 0 (0 * ‖b‖))) h with h | h
        · exact Or.inl ⟨h.1, by rw [h.2, op_precon_nan, Vec.dot_nan, Fl.div_nan]⟩
        · exact Or.inr h
      · simp [h] at hc)
    { x := .fin 0, r := .fin b, u := .fin b, p := .fin b, rho := .fin ⟪b, b⟫, residNorm := .fin ‖b‖, nMatvec := 0,
      finished := false, calls := [] }
    (Or.inl ⟨rfl, by
      rw [op_precon_fin, Vec.fin_dot, rightPrecon, quarterTurn_inner, Fl.fin_div_zero]⟩)
  obtain ⟨h1, h2⟩ := this
  simp only [Bool.not_eq_false'] at h2
  rcases h1 with ⟨h, -⟩ | ⟨-, h⟩
  · rw [h] at h2; cases h2
  · exact h

end Verif.Solver
