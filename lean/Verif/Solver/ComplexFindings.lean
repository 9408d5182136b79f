import Verif.Solver.ComplexProps
import Mathlib.Tactic.NormNum
import Mathlib.Tactic.Positivity

/-!
# C75: violations, and instances of the theorems
-/

namespace Verif.Solver
open Scalar Vect

variable {ι : Type} [Fintype ι]

theorem cle_thr {q : CxProblem ι} (hg : q.guess = none) (hb : cdot q.b q.b = 0) (ha : 0 ≤ q.abstol) :
    pseudo q.b ≤ max q.abstol (q.reltol * pseudo q.b) := by
  have : pseudo q.b = 0 := by rw [pseudo, hb]; simp
  rw [this]; exact le_max_of_le_left ha

/-- **C75 is violated (no work for isotropic right-hand sides).** For every operator, all tolerances and budgets, and every right-hand
side with `b'b = 0` (without conjugation) such as `(1, i)`: CG, CGS and Bi-CGSTAB set `converged` and return the zero vector without a
product; TFQMR raises `UnboundLocalError`. -/
theorem C75_isotropic (q : CxProblem ι) (hg : q.guess = none) (hp : q.precon = none) (hb : cdot q.b q.b = 0) (ha : 0 ≤ q.abstol)
    (n : Nat) (self : CGObj Cx (CVec ι)) (kc : CGKw (CVec ι)) (hk : kc.Runs) (hkc : kc.guess = none) (kw : KrylovKw (CVec ι))
    (hkw : kw.guess = none) :
    (let res := cgSolve (CVec.op q.A) q.opts n self (.fin q.b) kc
     res.1.converged = true ∧ res.1.x = some (.fin 0) ∧ res.2 = []) ∧
    (let res := cgsSolve (CVec.op q.A) q.opts n (.fin q.b) kw
     res.1.converged = true ∧ res.1.x = .fin 0 ∧ res.2 = []) ∧
    (let res := biSolve (CVec.op q.A) q.opts n (.fin q.b) kw
     res.1.converged = true ∧ res.1.x = .fin 0 ∧ res.2 = []) ∧
    tfSolve (CVec.op q.A) q.opts n (.fin q.b) kw = .error (.unboundLocal "m") := by
  have hle := (Cx.fin_le _ _).2 (cle_thr hg hb ha)
  have e : q.resid0 = q.b := by simp [CxProblem.resid0, CxProblem.start, hg]
  refine ⟨?_, ?_, ?_, ?_⟩
  · rw [cgSolve_eq hk]
    obtain ⟨hx, -, -, -, hrn, -, -, ht⟩ := cgInit_C q hp kc self (by rw [hkc, hg]; rfl)
    rw [e] at hrn ht
    have hc : (cgInit (CVec.op q.A) q.opts kc self (.fin q.b)).1.calls = [] := by simp [cgInit, hkc]
    have hgt : gt (Cx.fin (pseudo q.b : ℂ)) (Cx.fin ((max q.abstol (q.reltol * pseudo q.b) : ℝ) : ℂ)) = false := by
      rw [← Bool.not_eq_true, gt, Cx.fin_lt, not_lt]; exact cle_thr hg hb ha
    rw [cgLoop, dif_neg (by simp [cgCont, hrn, ht, hgt])]
    refine ⟨?_, ?_, hc⟩
    · simp only [hrn, ht]; exact hle
    · simp only [hx]; simp [CxProblem.start, hg]
  · unfold cgsSolve cgsLoop
    simp only [hkw, Option.getD_none, CxProblem.opts, abs_sqrt_dot, CVec.zeros_eq, Cx.fin_mul, ← Complex.ofReal_mul,
      Cx.fin_pymax, hle, Bool.true_or]
    rw [whileLoop_of_not rfl]
    exact ⟨hle, rfl, rfl⟩
  · unfold biSolve biLoop
    simp only [hkw, Option.getD_none, CxProblem.opts, abs_sqrt_dot, CVec.zeros_eq, Cx.fin_mul, ← Complex.ofReal_mul,
      Cx.fin_pymax, hle, Bool.true_or]
    rw [whileLoop_of_not rfl]
    exact ⟨hle, rfl, rfl⟩
  · unfold tfSolve tfLoop
    simp only [hkw, Option.getD_none, CxProblem.opts, abs_sqrt_dot, CVec.zeros_eq, Cx.fin_mul, ← Complex.ofReal_mul,
      Cx.fin_pymax, hle, Bool.true_or, if_true]
    rw [whileLoop_of_not rfl]
    rfl

/-- the system with the identity and right-hand side `(1, i)` -/
noncomputable def isoProblem : CxProblem (Fin 2) where
  A := LinearMap.id
  b := !₂[1, Complex.I]
  guess := none
  abstol := 0
  reltol := 1 / 1000000
  precon := none

theorem iso_norm : ‖isoProblem.b‖ = Real.sqrt 2 := by
  simp [isoProblem, EuclideanSpace.norm_eq]; norm_num

/-- The hypotheses of `C75_isotropic` are met by the identity and `(1, i)`, whose norm is not below the threshold: the returned zero
vector does not solve the system to the tolerance. -/
theorem C75_isotropic_violated : isoProblem.guess = none ∧ isoProblem.precon = none ∧ cdot isoProblem.b isoProblem.b = 0 ∧
    0 ≤ isoProblem.abstol ∧ ¬ ‖isoProblem.b - isoProblem.A 0‖ ≤ isoProblem.threshold := by
  refine ⟨rfl, rfl, ?_, le_refl _, ?_⟩
  · simp [cdot, isoProblem, Fin.sum_univ_two]
  · rw [map_zero, sub_zero, iso_norm]
    have : isoProblem.threshold = max 0 (1 / 1000000 * Real.sqrt 2) := by
      simp only [CxProblem.threshold, CxProblem.resid0, CxProblem.start]
      rw [show isoProblem.guess = none from rfl, Option.getD_none, map_zero, sub_zero, iso_norm]; rfl
    rw [this]
    have h2 : 0 < Real.sqrt 2 := by positivity
    rw [max_eq_right (by positivity)]
    linarith

/-- **C75 is violated (CG and the phase of the right-hand side).** For every operator and every `b` along which its curvature is nonnegative
(for instance a real positive definite matrix and a real vector): with the right-hand side `i b` and the default options, CG stops
after its first product with `definite=False` and returns the zero vector. -/
theorem C75_cg_phase (q : CxProblem ι) (b : EuclideanSpace ℂ ι) (hqb : q.b = Complex.I • b) (hcurv : 0 ≤ (cdot b (q.A b)).re)
    (hg : q.guess = none) (hp : q.precon = none) (hthr : max q.abstol (q.reltol * pseudo b) < pseudo b) (n : Nat) (hn : 0 < n)
    (self : CGObj Cx (CVec ι)) :
    let res := cgSolve (CVec.op q.A) q.opts n self (.fin q.b) {}
    res.1.definite = some false ∧ res.1.converged = false ∧ res.1.x = some (.fin 0) ∧ res.2 = [.fin q.b] := by
  have e : q.resid0 = q.b := by simp [CxProblem.resid0, CxProblem.start, hg]
  have hps : pseudo q.b = pseudo b := by
    rw [hqb, pseudo, pseudo]
    have : cdot (Complex.I • b) (Complex.I • b) = -cdot b b := by
      simp only [cdot, PiLp.smul_apply, smul_eq_mul, ← Finset.sum_neg_distrib]
      exact Finset.sum_congr rfl fun i _ => by linear_combination (b i * b i) * Complex.I_mul_I
    rw [this, norm_neg]
  have hcu : (cdot q.b (q.A q.b)).re ≤ 0 := by
    have : cdot q.b (q.A q.b) = -cdot b (q.A b) := by
      rw [hqb, map_smul]
      simp only [cdot, PiLp.smul_apply, smul_eq_mul, ← Finset.sum_neg_distrib]
      exact Finset.sum_congr rfl fun i _ => by linear_combination (b i * q.A b i) * Complex.I_mul_I
    rw [this]; simpa using hcurv
  rw [cgSolve_eq rfl]
  obtain ⟨hx, -, hpp, -, hrn, hnm, hd, ht⟩ := cgInit_C q hp {} self (by rw [hg]; rfl)
  rw [e, hps] at hrn ht
  rw [e] at hpp
  have hc : (cgInit (CVec.op q.A) q.opts {} self (.fin q.b)).1.calls = [] := by simp [cgInit]
  have hle : le (Cx.fin (pseudo b : ℂ)) (Cx.fin ((max q.abstol (q.reltol * pseudo b) : ℝ) : ℂ)) = false := by
    rw [← Bool.not_eq_true, Cx.fin_le, not_le]; exact hthr
  have hgo : cgCont (cgInit (CVec.op q.A) q.opts {} self (.fin q.b)).2 (2 * n)
      (cgInit (CVec.op q.A) q.opts {} self (.fin q.b)).1 = true := by
    simp only [cgCont, gt, hrn, ht, (Cx.fin_lt _ _).2 hthr, hnm, hd, CGKw.guessCost, Bool.and_true, Bool.true_and, decide_eq_true_eq]
    simp; omega
  have hst := cgStep_indef (op := CVec.op q.A) (precon := q.opts.precon) (kw := {})
    (s := (cgInit (CVec.op q.A) q.opts {} self (.fin q.b)).1) (by
      rw [hpp, CVec.op_fin, CVec.fin_dot]
      simp only [Bool.true_and, notPositive, Bool.or_eq_true]
      right
      rw [Cx.fin_re, Cx.lit_eq, Rat.cast_zero, ← Complex.ofReal_zero, Cx.fin_le]
      exact hcu)
  simp only [Option.getD_none]
  rw [cgLoop, dif_pos hgo, hst, cgLoop, dif_neg (by simp [cgCont])]
  refine ⟨rfl, ?_, ?_, ?_⟩
  · simp only [hrn, ht]; exact hle
  · simp only [hx]; simp [CxProblem.start, hg]
  · simp only [hc, hpp]; rfl

/-- The hypotheses of `C75_cg_phase` are met by the identity and a right-hand side `i (1, 2)`. -/
example : ∃ (q : CxProblem (Fin 2)) (b : EuclideanSpace ℂ (Fin 2)), q.b = Complex.I • b ∧ 0 ≤ (cdot b (q.A b)).re ∧ q.guess = none ∧
    q.precon = none ∧ max q.abstol (q.reltol * pseudo b) < pseudo b := by
  refine ⟨⟨LinearMap.id, Complex.I • !₂[1, 2], none, 1/100, 1/1000000, none⟩, !₂[1, 2], rfl, ?_, rfl, rfl, ?_⟩
  · simp [cdot, Fin.sum_univ_two]; norm_num
  · have : pseudo (!₂[1, 2] : EuclideanSpace ℂ (Fin 2)) = Real.sqrt 5 := by
      simp only [pseudo, cdot, Fin.sum_univ_two]; norm_num
    rw [this]
    have h2 : 1 < Real.sqrt 5 := by rw [Real.lt_sqrt (by norm_num)]; norm_num
    rw [max_lt_iff]; constructor <;> linarith

/-! ## TFQMR -/

/-- a diagonal operator of order 2 -/
noncomputable def cdiag2 (a b : ℂ) : EuclideanSpace ℂ (Fin 2) →ₗ[ℂ] EuclideanSpace ℂ (Fin 2) where
  toFun v := !₂[a * v 0, b * v 1]
  map_add' u v := by ext i; fin_cases i <;> simp [mul_add]
  map_smul' c v := by ext i; fin_cases i <;> simp [mul_left_comm]

theorem cdiag2_apply (a b x y : ℂ) : cdiag2 a b !₂[x, y] = !₂[a * x, b * y] := rfl

/-- `diag(1 - 8i/25, 1 - i/2)` and `(5, 4i)` with an absolute tolerance of 2.9 -/
noncomputable def tfProblem : CxProblem (Fin 2) where
  A := cdiag2 (1 - 8 / 25 * Complex.I) (1 - Complex.I / 2)
  b := !₂[5, 4 * Complex.I]
  guess := none
  abstol := 29 / 10
  reltol := 0
  precon := none

theorem I_sq' : Complex.I ^ 2 = -1 := Complex.I_sq

theorem cadd2 (a b c d : ℂ) : (!₂[a, b] : EuclideanSpace ℂ (Fin 2)) + !₂[c, d] = !₂[a + c, b + d] := by
  ext i; fin_cases i <;> simp
theorem csub2 (a b c d : ℂ) : (!₂[a, b] : EuclideanSpace ℂ (Fin 2)) - !₂[c, d] = !₂[a - c, b - d] := by
  ext i; fin_cases i <;> simp
theorem csmul2 (a c d : ℂ) : a • (!₂[c, d] : EuclideanSpace ℂ (Fin 2)) = !₂[a * c, a * d] := by
  ext i; fin_cases i <;> simp
theorem cdot2 (a b c d : ℂ) : dot (CVec.fin (!₂[a, b] : EuclideanSpace ℂ (Fin 2))) (CVec.fin !₂[c, d]) = Cx.fin (a * c + b * d) := by
  rw [CVec.fin_dot, Fin.sum_univ_two]; rfl
theorem cnorm2 (a b : ℂ) : ‖(!₂[a, b] : EuclideanSpace ℂ (Fin 2))‖ = Real.sqrt (‖a‖ ^ 2 + ‖b‖ ^ 2) := by
  rw [EuclideanSpace.norm_eq, Fin.sum_univ_two]; rfl

/-- **C75 is violated (TFQMR).** On this nonsingular diagonal system TFQMR returns a finite `x` with `converged` set although the
norm of the residual of `x` is above `max(abstol, reltol * initial residual norm)`. -/
theorem C75_tfqmr_violated : ∃ res products x, tfSolve (CVec.op tfProblem.A) tfProblem.opts 2 (.fin tfProblem.b) {} = .ok (res, products) ∧
    res.converged = true ∧ res.x = .fin x ∧ tfProblem.threshold < ‖tfProblem.b - tfProblem.A x‖ := by
  have hAb : tfProblem.A !₂[5, 4 * Complex.I] = !₂[5 - 8 / 5 * Complex.I, 2 + 4 * Complex.I] := by
    change cdiag2 _ _ _ = _
    rw [cdiag2_apply]
    congr 2
    · ring
    · congr 1
      linear_combination (-2 : ℂ) * I_sq'
  have hrho : dot (CVec.fin (!₂[5, 4 * Complex.I] : EuclideanSpace ℂ (Fin 2))) (CVec.fin !₂[5, 4 * Complex.I]) = Cx.fin ((9 : ℝ) : ℂ) := by
    rw [cdot2]; congr 1; push_cast; linear_combination 16 * I_sq'
  have hn : Scalar.abs (sqrt (Cx.fin ((9 : ℝ) : ℂ))) = Cx.fin ((3 : ℝ) : ℂ) := by
    rw [Cx.abs_sqrt, Complex.norm_real]
    congr 2
    rw [show ‖(9:ℝ)‖ = 3 ^ 2 by norm_num, Real.sqrt_sq (by norm_num)]
  have hsig : dot (CVec.fin (!₂[5, 4 * Complex.I] : EuclideanSpace ℂ (Fin 2)))
      (CVec.fin !₂[5 - 8 / 5 * Complex.I, 2 + 4 * Complex.I]) = Cx.fin ((9 : ℝ) : ℂ) := by
    rw [cdot2]; congr 1; push_cast; linear_combination 16 * I_sq'
  have hal : Cx.fin ((9 : ℝ) : ℂ) / Cx.fin ((9 : ℝ) : ℂ) = Cx.fin 1 := by
    rw [Cx.fin_div _ (by norm_num)]; norm_num
  have ht : pymax (Cx.fin ((29 / 10 : ℝ) : ℂ)) (Cx.fin ((0 : ℝ) : ℂ) * Cx.fin ((3 : ℝ) : ℂ)) = Cx.fin ((29 / 10 : ℝ) : ℂ) := by
    rw [Cx.fin_mul, ← Complex.ofReal_mul, Cx.fin_pymax]; norm_num
  have hle : le (Cx.fin ((3 : ℝ) : ℂ)) (Cx.fin ((29 / 10 : ℝ) : ℂ)) = false := by
    rw [← Bool.not_eq_true, Cx.fin_le]; norm_num
  have hw : CVec.fin (!₂[5, 4 * Complex.I] : EuclideanSpace ℂ (Fin 2)) -
      smul (Cx.fin 1) (CVec.fin !₂[5 - 8 / 5 * Complex.I, 2 + 4 * Complex.I]) = CVec.fin !₂[8 / 5 * Complex.I, -2] := by
    rw [CVec.fin_smul, CVec.fin_sub, one_smul, csub2]; congr 3
    · ring
    · congr 1; ring
  have hnw : norm (CVec.fin (!₂[8 / 5 * Complex.I, -2] : EuclideanSpace ℂ (Fin 2))) = Cx.fin ((Real.sqrt (164 / 25) : ℝ) : ℂ) := by
    rw [CVec.fin_norm, cnorm2]; congr 3; simp; norm_num
  have hth : Cx.fin ((Real.sqrt (164 / 25) : ℝ) : ℂ) / Cx.fin ((3 : ℝ) : ℂ) = Cx.fin ((Real.sqrt (164 / 25) / 3 : ℝ) : ℂ) := by
    rw [Cx.fin_div _ (by norm_num), Complex.ofReal_div]
  have h389 : 1 + Real.sqrt (164 / 25) / 3 * (Real.sqrt (164 / 25) / 3) = 389 / 225 := by
    have := Real.mul_self_sqrt (show (0:ℝ) ≤ 164 / 25 by norm_num)
    nlinarith
  have hR : 0 < Real.sqrt (389 / 225) := by positivity
  have hRR := Real.mul_self_sqrt (show (0:ℝ) ≤ 389 / 225 by norm_num)
  have hc : lit 1 / sqrt (lit 1 + Cx.fin ((Real.sqrt (164 / 25) / 3 : ℝ) : ℂ) * Cx.fin ((Real.sqrt (164 / 25) / 3 : ℝ) : ℂ)) =
      Cx.fin ((1 / Real.sqrt (389 / 225) : ℝ) : ℂ) := by
    rw [Cx.lit_eq, Cx.fin_mul, Cx.fin_add, Rat.cast_one, ← Complex.ofReal_mul, ← Complex.ofReal_one, ← Complex.ofReal_add, h389,
      Cx.sqrt_real (by norm_num), Cx.fin_div _ (by exact_mod_cast hR.ne'), ← Complex.ofReal_div]
  have heta : Cx.fin ((1 / Real.sqrt (389 / 225) : ℝ) : ℂ) * Cx.fin ((1 / Real.sqrt (389 / 225) : ℝ) : ℂ) * Cx.fin 1 =
      Cx.fin (225 / 389) := by
    rw [Cx.fin_mul, Cx.fin_mul, mul_one, ← Complex.ofReal_mul]
    congr 1
    have : 1 / Real.sqrt (389 / 225) * (1 / Real.sqrt (389 / 225)) = 225 / 389 := by
      rw [div_mul_div_comm, hRR]; norm_num
    rw [this]; push_cast; rfl
  have hd : smul (lit 0 * lit 0 * lit 0 / Cx.fin 1) (CVec.fin (0 : EuclideanSpace ℂ (Fin 2))) + CVec.fin !₂[5, 4 * Complex.I] =
      CVec.fin !₂[5, 4 * Complex.I] := by
    rw [Cx.lit_eq, Cx.fin_mul, Cx.fin_mul, Cx.fin_div _ one_ne_zero, CVec.fin_smul, CVec.fin_add, smul_zero, zero_add]
  have hm : lit 2 * lit ((0 + 1 : Nat) : ℚ) - lit 1 = Cx.fin ((1 : ℝ) : ℂ) := by
    simp only [Cx.lit_eq, Cx.fin_mul, Cx.fin_sub]; norm_num
  have hs2 : sqrt (Cx.fin ((1 : ℝ) : ℂ) + lit 1) = Cx.fin ((Real.sqrt 2 : ℝ) : ℂ) := by
    rw [Cx.lit_eq, Cx.fin_add, ← Cx.sqrt_real (by norm_num)]; norm_num
  have htest : lt (Cx.fin ((3 : ℝ) : ℂ) * (Cx.fin ((Real.sqrt (164 / 25) / 3 : ℝ) : ℂ) * Cx.fin ((1 / Real.sqrt (389 / 225) : ℝ) : ℂ)) *
      sqrt (Cx.fin ((1 : ℝ) : ℂ) + lit 1)) (Cx.fin ((29 / 10 : ℝ) : ℂ)) = true := by
    rw [hs2]
    simp only [Cx.fin_mul, ← Complex.ofReal_mul]
    rw [Cx.fin_lt]
    have e1 : 3 * (Real.sqrt (164 / 25) / 3 * (1 / Real.sqrt (389 / 225))) * Real.sqrt 2 =
        Real.sqrt (164 / 25) * Real.sqrt 2 / Real.sqrt (389 / 225) := by ring
    rw [e1, ← Real.sqrt_mul (by norm_num), ← Real.sqrt_div (by norm_num), Real.sqrt_lt' (by norm_num)]
    norm_num
  have hs : tfSolve (CVec.op tfProblem.A) tfProblem.opts 2 (.fin tfProblem.b) {} =
      .ok ({ residNorm0 := Cx.fin ((3 : ℝ) : ℂ), converged := true, nMatvec := 1, x := .fin ((225 / 389 : ℂ) • !₂[5, 4 * Complex.I]),
             residNorm := Cx.fin ((3 : ℝ) : ℂ) * (Cx.fin ((Real.sqrt (164 / 25) / 3 : ℝ) : ℂ) * Cx.fin ((1 / Real.sqrt (389 / 225) : ℝ) : ℂ)) },
           [.fin !₂[5, 4 * Complex.I]]) := by
    have ho : tfProblem.opts = { abstol := Cx.fin ((29 / 10 : ℝ) : ℂ), reltol := Cx.fin ((0 : ℝ) : ℂ), precon := none } := rfl
    have hb : tfProblem.b = !₂[5, 4 * Complex.I] := rfl
    unfold tfSolve tfLoop
    simp only [ho, hb, hrho, hn, ht, hle, Option.getD_none, applyPrecon, CVec.op_fin, hAb, CVec.zeros_eq]
    rw [if_neg (by decide), whileLoop_of_cont rfl]
    have hstep : tfStep (CVec.op tfProblem.A) none (Cx.fin ((29 / 10 : ℝ) : ℂ)) (2 * 2) (CVec.fin !₂[5, 4 * Complex.I])
        { x := CVec.fin (0 : EuclideanSpace ℂ (Fin 2)), y := .fin !₂[5, 4 * Complex.I], w := .fin !₂[5, 4 * Complex.I], d := .fin 0,
          z := .fin !₂[5, 4 * Complex.I], u := .fin !₂[5 - 8 / 5 * Complex.I, 2 + 4 * Complex.I],
          v := .fin !₂[5 - 8 / 5 * Complex.I, 2 + 4 * Complex.I], rho := Cx.fin ((9 : ℝ) : ℂ), theta := lit 0, eta := lit 0,
          residNorm := Cx.fin ((3 : ℝ) : ℂ), k := 0, m := none, nMatvec := 1, finished := false,
          calls := [] ++ [.fin !₂[5, 4 * Complex.I]] } =
        { x := CVec.fin ((225 / 389 : ℂ) • !₂[5, 4 * Complex.I]), y := .fin !₂[5, 4 * Complex.I],
          w := .fin !₂[8 / 5 * Complex.I, -2], d := .fin !₂[5, 4 * Complex.I],
          z := .fin !₂[5, 4 * Complex.I], u := .fin !₂[5 - 8 / 5 * Complex.I, 2 + 4 * Complex.I],
          v := .fin !₂[5 - 8 / 5 * Complex.I, 2 + 4 * Complex.I], rho := Cx.fin ((9 : ℝ) : ℂ),
          theta := Cx.fin ((Real.sqrt (164 / 25) / 3 : ℝ) : ℂ), eta := Cx.fin (225 / 389),
          residNorm := Cx.fin ((3 : ℝ) : ℂ) * (Cx.fin ((Real.sqrt (164 / 25) / 3 : ℝ) : ℂ) * Cx.fin ((1 / Real.sqrt (389 / 225) : ℝ) : ℂ)),
          k := 1, m := some (Cx.fin ((1 : ℝ) : ℂ)), nMatvec := 1, finished := true,
          calls := [.fin !₂[5, 4 * Complex.I]] } := by
      unfold tfStep tfPass
      simp only [hsig, hal, hw, hnw, hth, hc, heta, hd, hm, tfTest, htest, Bool.true_or, if_true, List.nil_append]
      simp only [CVec.fin_smul, CVec.fin_add, zero_add]
    rw [hstep, whileLoop_of_not rfl]
    simp only [tfResult, htest]
  refine ⟨_, _, _, hs, rfl, rfl, ?_⟩
  have h0 : tfProblem.threshold = 29 / 10 := by
    simp only [CxProblem.threshold]
    rw [show tfProblem.reltol = 0 from rfl, zero_mul, show tfProblem.abstol = 29 / 10 from rfl]; norm_num
  rw [h0, map_smul, hAb, csmul2, show tfProblem.b = !₂[5, 4 * Complex.I] from rfl, csub2, cnorm2]
  have e1 : (5 - 225 / 389 * (5 - 8 / 5 * Complex.I) : ℂ) = ⟨820 / 389, 360 / 389⟩ := by
    apply Complex.ext <;> simp <;> norm_num
  have e2 : (4 * Complex.I - 225 / 389 * (2 + 4 * Complex.I) : ℂ) = ⟨-450 / 389, 656 / 389⟩ := by
    apply Complex.ext <;> simp <;> norm_num
  rw [e1, e2, Complex.sq_norm, Complex.sq_norm, Complex.normSq_mk, Complex.normSq_mk, Real.lt_sqrt (by norm_num)]
  norm_num

/-! ## Instances -/

/-- `C75_cgs_partial` is not vacuous: for the operator `c` times the identity and every `b` with `b'b ≠ 0` (not below the tolerance), CGS
converges after two products to the solution. -/
example (c : ℂ) (hc : c ≠ 0) (b : EuclideanSpace ℂ ι) (hb : 1 < pseudo b) :
    let q : CxProblem ι := ⟨c • LinearMap.id, b, none, 1, 0, none⟩
    (cgsSolve (CVec.op q.A) q.opts 1 (.fin b) {}).1.converged = true ∧ (cgsSolve (CVec.op q.A) q.opts 1 (.fin b) {}).1.x = .fin (c⁻¹ • b) ∧
    (cgsSolve (CVec.op q.A) q.opts 1 (.fin b) {}).1.nMatvec = 2 := by
  intro q
  have hbb : cdot b b ≠ 0 := by intro h; rw [pseudo, h] at hb; simp at hb; linarith
  have hA : ∀ v, q.A v = c • v := fun v => rfl
  have ht : pymax (Cx.fin ((1 : ℝ) : ℂ)) (Cx.fin ((0 : ℝ) : ℂ) * Cx.fin (pseudo b : ℂ)) = Cx.fin ((1 : ℝ) : ℂ) := by
    rw [Cx.fin_mul, ← Complex.ofReal_mul, Cx.fin_pymax]; norm_num
  have hle : le (Cx.fin (pseudo b : ℂ)) (Cx.fin ((1 : ℝ) : ℂ)) = false := by
    rw [← Bool.not_eq_true, Cx.fin_le, not_le]; exact hb
  have hd : dot (CVec.fin b) (CVec.fin b) = Cx.fin (cdot b b) := rfl
  have hsig : dot (CVec.fin b) (CVec.fin (c • b)) = Cx.fin (c * cdot b b) := by
    rw [CVec.fin_dot, cdot, Finset.mul_sum]; congr 1; exact Finset.sum_congr rfl fun i _ => by
      simp only [PiLp.smul_apply, smul_eq_mul]; ring
  have hal : Cx.fin (cdot b b) / Cx.fin (c * cdot b b) = Cx.fin c⁻¹ := by
    rw [Cx.fin_div _ (mul_ne_zero hc hbb)]; congr 1; field_simp
  have h0 : b - c⁻¹ • c • b = 0 := by rw [smul_smul, inv_mul_cancel₀ hc, one_smul, sub_self]
  have hle0 : le (Cx.fin ((0 : ℝ) : ℂ)) (Cx.fin ((1 : ℝ) : ℂ)) = true := by rw [Cx.fin_le]; norm_num
  have key : cgsSolve (CVec.op q.A) q.opts 1 (.fin b) {} =
      ({ residNorm0 := Cx.fin (pseudo b : ℂ), converged := true, nMatvec := 2, x := .fin (c⁻¹ • b), residNorm := .fin ((0 : ℝ) : ℂ) },
        [.fin b, .fin b]) := by
    have ho : q.opts = { abstol := Cx.fin ((1 : ℝ) : ℂ), reltol := Cx.fin ((0 : ℝ) : ℂ), precon := none } := rfl
    unfold cgsSolve cgsLoop
    simp only [ho, Option.getD_none, abs_sqrt_dot, ht, hle, CVec.zeros_eq]
    rw [whileLoop_of_cont rfl]
    have hst : cgsStep (CVec.op q.A) none (Cx.fin ((1 : ℝ) : ℂ)) (2 * 1) (CVec.fin b)
        { x := .fin 0, r := .fin b, u := .fin b, p := .fin b, rho := dot (CVec.fin b) (CVec.fin b), residNorm := .fin (pseudo b : ℂ),
          nMatvec := 0, finished := false || decide (0 ≥ 2 * 1), calls := [] } =
        { x := .fin (c⁻¹ • b), r := .fin 0, u := .fin b, p := .fin b, rho := Cx.fin (cdot b b), residNorm := .fin ((0 : ℝ) : ℂ),
          nMatvec := 2, finished := true, calls := [.fin b, .fin b] } := by
      unfold cgsStep
      simp only [applyPrecon, CVec.op_fin, hA, hsig, hd, hal, CVec.fin_smul, CVec.fin_sub, h0, CVec.fin_add, add_zero, zero_add,
        CVec.fin_norm, norm_zero, hle0, Bool.true_or, if_true, List.nil_append]
    rw [hst, whileLoop_of_not rfl]
    simp only [hle0]
  rw [key]
  exact ⟨rfl, rfl, rfl⟩

/-- `C75_cg_symmetric` applies to a complex symmetric operator that is not Hermitian, `diag(i, 1 + i)`, and to every right-hand side. -/
example (b : EuclideanSpace ℂ (Fin 2)) :
    let q : CxProblem (Fin 2) := ⟨cdiag2 Complex.I (1 + Complex.I), b, none, 1 / 100000000, 1 / 1000000, none⟩
    let res := (cgSolve (CVec.op q.A) q.opts 2 {} (.fin q.b) { checkCurvature := false }).1
    res.nMatvec ≤ 0 + Fintype.card (Fin 2) ∧ (res.converged = true ∨ res.residNorm = some .nan) := by
  intro q
  refine C75_cg_symmetric q ?_ rfl (by change (0:ℝ) ≤ 1 / 100000000; norm_num) 2 {} { checkCurvature := false } rfl rfl rfl
    (by simp [CGKw.guessCost])
  intro u v
  change cdot (cdiag2 _ _ u) v = cdot u (cdiag2 _ _ v)
  simp only [cdot, Fin.sum_univ_two, cdiag2, LinearMap.coe_mk, AddHom.coe_mk]
  simp; ring

end Verif.Solver
