import Verif.Solver.ShowRows
import Verif.Solver.LSQRConv
import Verif.Solver.LSMRConv
import Verif.Solver.CraigConv
import Verif.Solver.CraigmrProps

/-!
# Printing: witnesses and examples for C78
-/

namespace Verif.Solver
open Scalar Vect
open scoped RealInnerProductSpace

/-! ### MINRES on an eigenvector -/

/-- the identity of the plane, right-hand side `(1, 0)`, default options -/
noncomputable def eyeProblem : MinresProblem (EuclideanSpace ℝ (Fin 2)) :=
  { A := LinearMap.id, b := !₂[1, 0], shift := 0, check := true, itnlim := none, rtol := 1 / 10 ^ 12, etol := 1 / 10 ^ 6,
    storeIterates := false, window := 5 }

/-- **C78, MINRES, `show=False`, violated.** With `show=False` and otherwise default options, for the identity operator of order 2 and
the right-hand side `(1, 0)`: a line is printed. -/
theorem C78_minres_violated (other : MinresLoop Fl (Vec (EuclideanSpace ℝ (Fin 2))) → Bool) (ε : ℝ) (hε : 0 ≤ ε)
    (self : MinresObj Fl (Vec (EuclideanSpace ℝ (Fin 2)))) :
    (minresSolveO false other (Vec.op eyeProblem.A) (.fin ε) 2 self (.fin eyeProblem.b) eyeProblem.kw).lines = [.blank] := by
  have hb : eyeProblem.b ≠ 0 := by
    intro h
    have := congrArg (fun v => v 0) h
    simp [eyeProblem] at this
  obtain ⟨res, products, h, -, h1, -, h2⟩ := C34_beta2_nan eyeProblem hb 1 (by simp [eyeProblem]) (by simp [eyeProblem]) ε hε 2
    (by simp [eyeProblem]) self
  rw [C78_minres_noise other _ _ _ self _ _ (Or.inl rfl) res products h, h1]
  rw [C34_beta2_no_stop _ _ _ self _ _ (by simp [eyeProblem, MinresProblem.kw]) res products h h1]
  rfl

/-! ### MINRES and an ill-conditioned operator -/

/-- the operator `(x, y) -> (ε x + y, x)` -/
noncomputable def illOp (ε : ℝ) : EuclideanSpace ℝ (Fin 2) →ₗ[ℝ] EuclideanSpace ℝ (Fin 2) where
  toFun x := !₂[ε * x 0 + x 1, x 0]
  map_add' x y := by ext i; fin_cases i <;> simp; ring
  map_smul' c x := by ext i; fin_cases i <;> simp; ring

/-- this operator, right-hand side `(1, 0)`, default options -/
noncomputable def illProblem (ε : ℝ) : MinresProblem (EuclideanSpace ℝ (Fin 2)) :=
  { A := illOp ε, b := !₂[1, 0], shift := 0, check := true, itnlim := none, rtol := 1 / 10 ^ 12, etol := 1 / 10 ^ 6,
    storeIterates := false, window := 5 }

theorem illProblem_b (ε : ℝ) : (illProblem ε).b ≠ 0 ∧ ‖(illProblem ε).b‖ = 1 := by
  constructor
  · intro h
    have := congrArg (fun v => v 0) h
    simp [illProblem] at this
  · simp [illProblem, EuclideanSpace.norm_eq, Fin.sum_univ_two]

theorem illProblem_lanczos (ε : ℝ) (old : MinresObj Fl (Vec (EuclideanSpace ℝ (Fin 2)))) :
    minresLanczos (Vec.op (illProblem ε).A) (illProblem ε).kw 1 (minresInit (illProblem ε).kw old (.fin (illProblem ε).b)) =
      (.fin !₂[1, 0], .fin ε, .fin !₂[0, 1], .fin !₂[0, 1], .fin 1) := by
  obtain ⟨h1, h2⟩ := minresStart_exact (illProblem ε) (illProblem_b ε).1
  unfold minresLanczos minresInit
  simp only [h1, (illProblem_b ε).2]
  have hd : (lit 1 / Fl.fin 1 : Fl) = .fin 1 := by rw [Fl.lit_eq, Fl.fin_div _ one_ne_zero]; simp
  have hr : smul (Fl.fin 1) (Vec.fin (illProblem ε).b) = .fin !₂[1, 0] := by simp [illProblem]
  have hy : Vec.op (illProblem ε).A (.fin !₂[1, 0]) - smul (illProblem ε).kw.shift (Vec.fin !₂[1, 0]) = .fin !₂[ε, 1] := by
    simp only [Vec.op_fin, MinresProblem.kw, Vec.fin_smul, Vec.fin_sub]
    congr 1
    ext i
    fin_cases i <;> simp [illProblem, illOp]
  simp only [hd, hr, hy, show ¬ (1 : Nat) ≥ 2 by omega, if_false, Vec.fin_dot, Fl.fin_neg]
  have ha : ⟪(!₂[1, 0] : EuclideanSpace ℝ (Fin 2)), !₂[ε, 1]⟫ = ε := by
    simp [PiLp.inner_apply, Fin.sum_univ_two]
  have hq : smul (-Fl.fin ε / Fl.fin 1) (Vec.fin (illProblem ε).b) + Vec.fin !₂[ε, 1] = .fin !₂[0, 1] := by
    rw [Fl.fin_neg, Fl.fin_div _ one_ne_zero]
    simp only [Vec.fin_smul, Vec.fin_add, illProblem]
    congr 1
    ext i
    fin_cases i <;> simp
  rw [ha]
  rw [Fl.fin_neg] at hq
  simp only [hq]
  have hn : ⟪(!₂[0, 1] : EuclideanSpace ℝ (Fin 2)), !₂[0, 1]⟫ = 1 := by
    rw [PiLp.inner_apply, Fin.sum_univ_two]
    simp
  simp only [applyPrecon, MinresProblem.kw, Vec.fin_dot, hn]

/-- the first iteration stops with code 4 -/
theorem illProblem_step (ε : ℝ) (h0 : 0 < ε) (h1 : ε ≤ 1 / 100) (old : MinresObj Fl (Vec (EuclideanSpace ℝ (Fin 2)))) :
    ∃ s, minresStep (Vec.op (illProblem ε).A) (.fin ε) (illProblem ε).kw 10 (.fin 1)
      (minresInit (illProblem ε).kw old (.fin (illProblem ε).b)) = s ∧ s.istop = 4 ∧ s.broke = true ∧ s.itn = 1 ∧
      s.Acond = .fin (Real.sqrt (ε * ε + 1) / ε) := by
  refine ⟨_, rfl, ?_⟩
  obtain ⟨hb1, hb2⟩ := minresStart_exact (illProblem ε) (illProblem_b ε).1
  rw [(illProblem_b ε).2] at hb1
  have hL := illProblem_lanczos ε old
  unfold minresStep
  simp only [show (minresInit (illProblem ε).kw old (.fin (illProblem ε).b)).itn = 0 from rfl, Nat.zero_add, hL]
  have hlt : lt (Fl.fin 1) (lit 0) = false := by rw [← Bool.not_eq_true, Fl.lit_eq, Fl.fin_lt]; norm_num
  simp only [hlt, Bool.false_eq_true, if_false, if_true]
  simp only [minresInit, hb1, hb2]
  have e1 : Scalar.sqrt (Fl.fin 1) = .fin 1 := by rw [Fl.fin_sqrt zero_le_one, Real.sqrt_one]
  have e2 : (lit 0 * lit 0 - lit (-1) * Fl.fin ε : Fl) = .fin ε := by simp
  have e3 : (-lit (-1) * Fl.fin 1 : Fl) = .fin 1 := by simp
  have hg1 : 1 < Real.sqrt (ε * ε + 1) := by
    rw [Real.lt_sqrt (by norm_num)]; nlinarith
  have hg2 : Real.sqrt (ε * ε + 1) ≠ 0 := by linarith
  have e4 : normof2 (Fl.fin ε) (Fl.fin 1) = .fin (Real.sqrt (ε * ε + 1)) := by rw [normof2_fin]; norm_num
  have hA1 : 1 < Real.sqrt (ε * ε + 2) := by
    rw [Real.lt_sqrt (by norm_num)]; nlinarith
  have hA2 : Real.sqrt (ε * ε + 2) < 2 := by
    rw [Real.sqrt_lt' (by norm_num)]; nlinarith
  have e5 : pymax (Fl.fin (Real.sqrt (ε * ε + 1))) (Fl.fin ε) = .fin (Real.sqrt (ε * ε + 1)) := by
    rw [Fl.fin_pymax, max_eq_left (by linarith)]
  have e6 : pymax (Scalar.abs (Fl.fin ε)) (Fl.fin (Real.sqrt (ε * ε + 1))) = .fin (Real.sqrt (ε * ε + 1)) := by
    rw [Fl.fin_abs, abs_of_pos h0, Fl.fin_pymax, max_eq_right (by linarith)]
  have e7 : pymin (Scalar.abs (Fl.fin ε)) (Fl.fin (Real.sqrt (ε * ε + 1))) = .fin ε := by
    rw [Fl.fin_abs, abs_of_pos h0, pymin, if_neg]
    rw [Fl.fin_lt]; linarith
  have e8 : (Fl.fin 1 / Fl.fin (Real.sqrt (ε * ε + 1)) : Fl) = .fin (1 / Real.sqrt (ε * ε + 1)) := Fl.fin_div _ hg2
  have e9 : Scalar.sqrt (lit 0 + Fl.fin ε * Fl.fin ε + Fl.fin 1 * Fl.fin 1 + Fl.fin 1 * Fl.fin 1 : Fl) =
      .fin (Real.sqrt (ε * ε + 2)) := by
    simp only [Fl.lit_eq, Fl.fin_mul, Fl.fin_add, Rat.cast_zero, zero_add, mul_one]
    rw [add_assoc, one_add_one_eq_two, Fl.fin_sqrt (by positivity)]
  have e10 : Scalar.sqrt (Fl.fin (1 / Real.sqrt (ε * ε + 1)) * Fl.fin (1 / Real.sqrt (ε * ε + 1)) + lit 0 : Fl) =
      .fin (1 / Real.sqrt (ε * ε + 1)) := by
    simp only [Fl.lit_eq, Fl.fin_mul, Fl.fin_add, Rat.cast_zero, add_zero]
    rw [Fl.fin_sqrt (by positivity), Real.sqrt_mul_self (by positivity)]
  have e11 : (Fl.fin (1 / Real.sqrt (ε * ε + 1)) * Fl.fin 1 : Fl) = .fin (1 / Real.sqrt (ε * ε + 1)) := by simp
  simp only [e1, e2, e3, e4, e5, e6, e7, e8, e9, e10, e11]
  have hz : 0 < 1 / Real.sqrt (ε * ε + 1) := by positivity
  have hz1 : 1 / Real.sqrt (ε * ε + 1) < 1 := by rw [div_lt_one (by linarith)]; exact hg1
  have hbeta : minresBeta2 (Fl.fin ε) (Fl.fin 1) (Fl.fin 1) 1 0 = 0 := by
    unfold minresBeta2
    rw [if_neg]
    rintro ⟨-, h⟩
    rw [Fl.fin_div _ one_ne_zero, Fl.lit_eq, Fl.fin_mul, Fl.fin_le] at h
    norm_num at h
    linarith
  have hdir : ∀ a b : Fl, minresDirErr (illProblem ε).kw.etol a b (illProblem ε).kw.window 1 0 = 0 := by
    intro a b
    unfold minresDirErr
    rw [if_neg]
    rintro ⟨h, -⟩
    simp [illProblem, MinresProblem.kw] at h
  have ht1 : (Fl.fin (1 / Real.sqrt (ε * ε + 1)) / (Fl.fin (Real.sqrt (ε * ε + 2)) * Fl.fin (1 / Real.sqrt (ε * ε + 1))) : Fl) =
      .fin (1 / Real.sqrt (ε * ε + 2)) := by
    rw [Fl.fin_mul, Fl.fin_div _ (by positivity)]
    congr 1
    field_simp
  have ht2 : (Fl.fin (Real.sqrt (ε * ε + 1)) / Fl.fin (Real.sqrt (ε * ε + 2)) : Fl) =
      .fin (Real.sqrt (ε * ε + 1) / Real.sqrt (ε * ε + 2)) := Fl.fin_div _ (by linarith)
  have hc : (Fl.fin (Real.sqrt (ε * ε + 1)) / Fl.fin ε : Fl) = .fin (Real.sqrt (ε * ε + 1) / ε) := Fl.fin_div _ h0.ne'
  simp only [hbeta, hdir, ht1, ht2, hc]
  have htests : minresTests (Fl.fin ε) (illProblem ε).kw.rtol (Fl.fin 1) 10 1 (.fin (1 / Real.sqrt (ε * ε + 2)))
      (.fin (Real.sqrt (ε * ε + 1) / Real.sqrt (ε * ε + 2))) (.fin (Real.sqrt (ε * ε + 1) / ε))
      (Fl.fin (Real.sqrt (ε * ε + 2)) * Fl.fin (1 / Real.sqrt (ε * ε + 1)) * Fl.fin ε) 0 = 4 := by
    unfold minresTests
    have hq : (1 / 2 : ℝ) ≤ 1 / Real.sqrt (ε * ε + 2) := by
      rw [div_le_div_iff₀ (by norm_num) (by linarith)]; linarith
    have c1 : le (Fl.fin (1 / Real.sqrt (ε * ε + 2))) (illProblem ε).kw.rtol = false := by
      rw [← Bool.not_eq_true, MinresProblem.kw, Fl.fin_le]
      simp only [illProblem]
      norm_num at hq ⊢
      linarith
    have c2 : le (Fl.fin (Real.sqrt (ε * ε + 1) / Real.sqrt (ε * ε + 2))) (illProblem ε).kw.rtol = false := by
      rw [← Bool.not_eq_true, MinresProblem.kw, Fl.fin_le]
      simp only [illProblem]
      have : 1 / Real.sqrt (ε * ε + 2) ≤ Real.sqrt (ε * ε + 1) / Real.sqrt (ε * ε + 2) := by
        apply div_le_div_of_nonneg_right hg1.le; positivity
      norm_num at hq this ⊢
      linarith
    have c3 : ge (Fl.fin (Real.sqrt (ε * ε + 2)) * Fl.fin (1 / Real.sqrt (ε * ε + 1)) * Fl.fin ε) (Fl.fin 1) = false := by
      rw [← Bool.not_eq_true, Fl.fin_mul, Fl.fin_mul, ge, Fl.fin_le, not_le]
      have : Real.sqrt (ε * ε + 2) * (1 / Real.sqrt (ε * ε + 1)) < 2 := by nlinarith
      nlinarith
    have c4 : ge (Fl.fin (Real.sqrt (ε * ε + 1) / ε)) (lit (1 / 10) / Fl.fin ε) = true := by
      rw [Fl.lit_eq, Fl.fin_div _ h0.ne', ge, Fl.fin_le]
      apply div_le_div_of_nonneg_right _ h0.le
      norm_num
      linarith
    simp only [c1, c2, c3, c4, if_true, Bool.false_eq_true, if_false]
  rw [htests]
  refine ⟨rfl, ?_, ?_, ?_⟩ <;> first | rfl | trivial

/-- **C78, MINRES, the message for code 4.** For every machine precision `0 < ε ≤ 1/100`: for the operator `(x, y) -> (ε x + y, x)` and the
right-hand side `(1, 0)`, MINRES with default options (`show=True` among them) stops because the estimate of the condition number has
exceeded `0.1/ε`, and the message that it prints is "x has converged to an eigenvector". (The message "acond has exceeded 0.1/eps" is
the next one.) -/
theorem C78_minres_wrong_message (other : MinresLoop Fl (Vec (EuclideanSpace ℝ (Fin 2))) → Bool) (ε : ℝ) (h0 : 0 < ε)
    (h1 : ε ≤ 1 / 100) (self : MinresObj Fl (Vec (EuclideanSpace ℝ (Fin 2)))) :
    ∃ res products, (minresSolveO true other (Vec.op (illProblem ε).A) (.fin ε) 2 self (.fin (illProblem ε).b) (illProblem ε).kw).val =
        .ok (res, products) ∧ res.istop = 4 ∧ ge res.Acond (lit (1 / 10) / Fl.fin ε) = true ∧
      (lastMessage (minresSolveO true other (Vec.op (illProblem ε).A) (.fin ε) 2 self (.fin (illProblem ε).b) (illProblem ε).kw).lines).bind
        (minresMsg[·]?) = some "x has converged to an eigenvector" := by
  obtain ⟨s, hs, h4, hbr, hi, hc⟩ := illProblem_step ε h0 h1 self
  obtain ⟨hb1, hb2⟩ := minresStart_exact (illProblem ε) (illProblem_b ε).1
  rw [(illProblem_b ε).2] at hb1
  have hsol : minresSolve (Vec.op (illProblem ε).A) (.fin ε) 2 self (.fin (illProblem ε).b) (illProblem ε).kw =
      .ok (minresResult (.fin 1) s, s.calls) := by
    unfold minresSolve
    simp only [hb1, hb2, Bool.false_eq_true, if_false]
    rw [if_neg (by rintro ⟨h, -⟩; simp [illProblem, MinresProblem.kw] at h)]
    have hlim : (illProblem ε).kw.itnlim.getD (5 * 2) = 10 := rfl
    have hloop : minresLoop (Vec.op (illProblem ε).A) (.fin ε) (illProblem ε).kw 10 (.fin 1)
        (minresInit (illProblem ε).kw self (.fin (illProblem ε).b)) = s := by
      unfold minresLoop
      rw [whileLoop_of_cont (by rfl), hs, whileLoop_of_not (by simp [minresCont, hbr])]
    rw [hlim, hloop]
  obtain ⟨hv, hm⟩ := C78_minres_show other (Vec.op (illProblem ε).A) (.fin ε) 2 (by norm_num) self (.fin (illProblem ε).b)
    (illProblem ε).kw true
  refine ⟨_, _, hv.trans hsol, h4, ?_, ?_⟩
  · show ge s.Acond _ = true
    rw [hc, Fl.lit_eq, Fl.fin_div _ h0.ne', ge, Fl.fin_le]
    apply div_le_div_of_nonneg_right _ h0.le
    have : 1 ≤ Real.sqrt (ε * ε + 1) := by
      rw [Real.le_sqrt' (by norm_num)]; nlinarith
    norm_num
    linarith
  · rw [(hm _ _ hsol).1, show (minresResult (Fl.fin 1) s).istop = 4 from h4]
    rfl

/-! ### Examples -/

/-- an LSQR call with `show=True` that returns -/
example (other : _ → Bool) : ∃ res s, (lsqrSolveO true other (Vec.op (lsqrDemo 3 0).A) (Vec.op (lsqrDemo 3 0).B) 2 (.fin (lsqrDemo 3 0).b)
    (lsqrDemo 3 0).kw).val = .ok (res, s) := by
  obtain ⟨res, s, h, ho, -⟩ := C37_converges (lsqrDemo 3 0) (lsqrDemo_valid _ _)
    (by
      intro h
      have h0 := congrArg (fun x => x 0) h
      simp [lsqrDemo, Matrix.mulVec, dotProduct, Fin.sum_univ_two] at h0)
    (by simp [lsqrDemo]) (by simp [lsqrDemo])
  exact ⟨res, s, (C78_lsqr_show printLaws_exact other _ _ 2 (by norm_num) _ _).1.trans h⟩

/-- an LSMR call with `show=True` that returns -/
example (other more : _ → Bool) : ∃ res s, (lsmrSolveO true other more (Vec.op (lsmrDemo 2 1 1 1 none).A)
    (Vec.op (lsmrDemo 2 1 1 1 none).B) 2 2 (.fin (lsmrDemo 2 1 1 1 none).b) (lsmrDemo 2 1 1 1 none).kw none).val = .ok (res, s) := by
  suffices hyp : _ ∧ _ ∧ _ by
    obtain ⟨res, s, h, h1, -⟩ := C51_converges (lsmrDemo 2 1 1 1 none) (lsmrDemo_valid _ _ _ _ _) none hyp.1 hyp.2.1 hyp.2.2
    exact ⟨res, s, (C78_lsmr_show printLaws_exact other more _ _ 2 2 (by norm_num) _ _ none).1.trans h⟩
  refine ⟨?_, ?_, ?_⟩
  · intro h
    have h0 := congrArg (fun x => x 0) h
    simp [lsmrDemo] at h0
  · simp [lsmrDemo]
  · rintro x ⟨h1, h2⟩
    have h2' : x = 0 := by simpa [lsmrDemo] using h2
    rw [h2', map_zero] at h1
    have h0 := congrArg (fun x => x 0) h1
    simp [lsmrDemo] at h0

/-- a CRAIG call with `show=True` that returns -/
example (other : _ → Bool) : ∃ res s, (craigSolveO true other (Vec.op craigExample.A) (Vec.op craigExample.B) 1 (.fin (2:ℝ))
    craigExample.kw).val = .ok (res, s) := by
  obtain ⟨res, s, x, r, hs, -⟩ := C52_converges craigExample craigExample_valid
    (by norm_num [craigExample]) (by norm_num [craigExample, CraigProblem.limit]) (by norm_num [craigExample, CraigProblem.limit])
    (by norm_num [craigExample]) (by norm_num [craigExample])
  exact ⟨res, s, (C78_craig_show other _ _ 1 (by norm_num) _ _).1.trans hs⟩

/-- a MINRES call whose preconditioner fails the check -/
example : ∃ kw : MinresKw Fl (Vec ℝ), kw.precon.isSome = true ∧ kw.check = true ∧ kw.preconSymOK = false :=
  ⟨{ (⟨LinearMap.id, 1, 0, true, none, 0, 0, false, 5⟩ : MinresProblem ℝ).kw with precon := some id, check := true, preconSymOK := false }, rfl, rfl, rfl⟩

/-- an LSQR call that returns for an operator with no columns when `show=False`, and does not when `show=True` -/
example (other : _ → Bool) : ∃ (q : LsqrProblem (EuclideanSpace ℝ (Fin 0)) ℝ) (r : _), q.n = 0 ∧
    (lsqrSolveO false other (Vec.op q.A) (Vec.op q.B) 0 (.fin q.b) q.kw).val = .ok r ∧
    ∀ r', (lsqrSolveO true other (Vec.op q.A) (Vec.op q.B) 0 (.fin q.b) q.kw).val ≠ .ok r' := by
  let q : LsqrProblem (EuclideanSpace ℝ (Fin 0)) ℝ :=
    { A := 0, B := 0, b := 1, n := 0, damp := 0, itnlim := 0, atol := 0, btol := 0, etol := 0, conlim := 1, storeResids := true,
      storeIterates := true, window := 5 }
  obtain ⟨res, s, h, -⟩ := C37_nMatvec_undercounts q one_ne_zero rfl
  exact ⟨q, (res, s), rfl, (C78_lsqr_silent other _ _ 0 _ _).2.trans h, fun r' => C78_lsqr_no_columns other _ _ _ _ r'⟩

/-- a CRAIG-MR call with `show=False` prints as many lines as it makes iterations -/
example : ∃ res s, craigmrSolve (Vec.op craigmrExample.A) (Vec.op craigmrExample.B) 1 1 (.fin (2:ℝ)) craigmrExample.kw = .ok (res, s) ∧
    (craigmrSolveO false (Vec.op craigmrExample.A) (Vec.op craigmrExample.B) 1 1 (.fin (2:ℝ)) craigmrExample.kw).lines.length = res.itn := by
  obtain ⟨res, s, x, hs, -⟩ := C53_converges craigmrExample craigmrExample_valid
    (by norm_num [craigmrExample]) (Or.inl ⟨inferInstance, by norm_num [craigmrExample]⟩)
  refine ⟨res, s, hs, ?_⟩
  have := congrArg List.length (C78_craigmr_noise _ _ 1 1 _ _ res s hs)
  rw [List.length_map, List.length_map, List.length_range'] at this
  exact this

/-- the log of an LSQR call -/
example (other : _ → Bool) : ∃ res s, lsqrSolve (Vec.op (lsqrDemo 3 0).A) (Vec.op (lsqrDemo 3 0).B) 2 (.fin (lsqrDemo 3 0).b)
    (lsqrDemo 3 0).kw = .ok (res, s) ∧ 0 < res.itn ∧
    rows (lsqrSolveO true other (Vec.op (lsqrDemo 3 0).A) (Vec.op (lsqrDemo 3 0).B) 2 (.fin (lsqrDemo 3 0).b) (lsqrDemo 3 0).kw).lines =
      List.range (res.itn + 1) := by
  obtain ⟨res, s, h, ho, -⟩ := C37_converges (lsqrDemo 3 0) (lsqrDemo_valid _ _)
    (by
      intro h
      have h0 := congrArg (fun x => x 0) h
      simp [lsqrDemo, Matrix.mulVec, dotProduct, Fin.sum_univ_two] at h0)
    (by simp [lsqrDemo]) (by simp [lsqrDemo])
  refine ⟨res, s, h, ?_, C78_lsqr_rows printLaws_exact other _ _ 2 (by norm_num) (by norm_num) _ _ res s h⟩
  obtain ⟨-, -, h0, -, -, -, h1, -⟩ := C37_status_partial _ _ _ _ _ res s h
  have h1 := h1.1 ho
  omega

end Verif.Solver
