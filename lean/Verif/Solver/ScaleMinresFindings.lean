import Verif.Solver.ScaleMinres
import Verif.Solver.MinresFindings

/-!
# C76 is violated by MINRES

`minres.py:256` adds `oldb**2` to the estimate of the norm of the operator; in the first iteration `oldb` is the norm of the right-hand
side.  The stopping tests of lines 327-361 divide by this estimate, so that they are passed at once if the right-hand side is large.
-/

namespace Verif.Solver
open Scalar Vect
open scoped RealInnerProductSpace

/-- the operator `(x, y) -> (3 x + 4 y, 4 x)` -/
noncomputable def bigOp : EuclideanSpace ℝ (Fin 2) →ₗ[ℝ] EuclideanSpace ℝ (Fin 2) where
  toFun x := !₂[3 * x 0 + 4 * x 1, 4 * x 0]
  map_add' x y := by ext i; fin_cases i <;> simp <;> ring
  map_smul' c x := by ext i; fin_cases i <;> simp <;> ring

/-- this operator, right-hand side `(τ, 0)`, default options -/
noncomputable def bigProblem (τ : ℝ) : MinresProblem (EuclideanSpace ℝ (Fin 2)) :=
  { A := bigOp, b := !₂[τ, 0], shift := 0, check := true, itnlim := none, rtol := 1 / 10 ^ 12, etol := 1 / 10 ^ 6,
    storeIterates := false, window := 5 }

variable {τ ε : ℝ}

theorem bigProblem_b (hτ : 0 < τ) : (bigProblem τ).b ≠ 0 ∧ ‖(bigProblem τ).b‖ = τ := by
  constructor
  · intro h
    have := congrArg (fun v => v 0) h
    simp [bigProblem] at this
    exact hτ.ne' this
  · simp [bigProblem, EuclideanSpace.norm_eq, Fin.sum_univ_two, Real.sqrt_sq hτ.le]

theorem bigProblem_lanczos (hτ : 0 < τ) (old : MinresObj Fl (Vec (EuclideanSpace ℝ (Fin 2)))) :
    minresLanczos (Vec.op (bigProblem τ).A) (bigProblem τ).kw 1 (minresInit (bigProblem τ).kw old (.fin (bigProblem τ).b)) =
      (.fin !₂[1, 0], .fin 3, .fin !₂[0, 4], .fin !₂[0, 4], .fin 16) := by
  obtain ⟨h1, h2⟩ := minresStart_exact (bigProblem τ) (bigProblem_b hτ).1
  unfold minresLanczos minresInit
  simp only [h1, (bigProblem_b hτ).2]
  have hr : smul (lit 1 / Fl.fin τ) (Vec.fin (bigProblem τ).b) = .fin !₂[1, 0] := by
    rw [Fl.lit_eq, Fl.fin_div _ hτ.ne', Vec.fin_smul]
    congr 1
    ext i
    fin_cases i <;> simp [bigProblem, hτ.ne']
  have hy : Vec.op (bigProblem τ).A (.fin !₂[1, 0]) - smul (bigProblem τ).kw.shift (Vec.fin !₂[1, 0]) = .fin !₂[3, 4] := by
    simp only [Vec.op_fin, MinresProblem.kw, Vec.fin_smul, Vec.fin_sub]
    congr 1
    ext i
    fin_cases i <;> simp [bigProblem, bigOp]
  simp only [hr, hy, show ¬ (1 : Nat) ≥ 2 by omega, if_false, Vec.fin_dot, Fl.fin_neg]
  have ha : ⟪(!₂[1, 0] : EuclideanSpace ℝ (Fin 2)), !₂[3, 4]⟫ = 3 := by
    simp [PiLp.inner_apply, Fin.sum_univ_two]
  have hq : smul (Fl.fin (-3) / Fl.fin τ) (Vec.fin (bigProblem τ).b) + Vec.fin !₂[3, 4] = .fin !₂[0, 4] := by
    rw [Fl.fin_div _ hτ.ne']
    simp only [Vec.fin_smul, Vec.fin_add, bigProblem]
    congr 1
    ext i
    fin_cases i <;> simp [hτ.ne']
  simp only [ha, hq]
  have hn : ⟪(!₂[0, 4] : EuclideanSpace ℝ (Fin 2)), !₂[0, 4]⟫ = 16 := by
    rw [PiLp.inner_apply, Fin.sum_univ_two]
    norm_num
  simp only [applyPrecon, MinresProblem.kw, Vec.fin_dot, hn]

/-- the estimate of the norm of the operator after the first iteration -/
noncomputable def bigAnorm (τ : ℝ) : ℝ := Real.sqrt (25 + τ * τ)

/-- the first iteration -/
theorem bigProblem_step (hτ : 0 < τ) (h0 : 0 < ε) (h1 : ε ≤ 1 / 100) (h2 : 10 * ε * τ < 4)
    (old : MinresObj Fl (Vec (EuclideanSpace ℝ (Fin 2)))) :
    ∃ s, minresStep (Vec.op (bigProblem τ).A) (.fin ε) (bigProblem τ).kw 10 (.fin τ)
      (minresInit (bigProblem τ).kw old (.fin (bigProblem τ).b)) = s ∧ s.itn = 1 ∧ s.x = .fin !₂[3 / 25 * τ, 0] ∧
      s.istop = minresTests (.fin ε) (bigProblem τ).kw.rtol (.fin τ) 10 1 (.fin (4 / bigAnorm τ)) (.fin (5 / bigAnorm τ)) (.fin (5 / 3))
        (.fin (bigAnorm τ * (τ / 5) * ε)) 0 ∧ s.broke = decide (s.istop > 0) := by
  refine ⟨_, rfl, ?_⟩
  obtain ⟨hb1, hb2⟩ := minresStart_exact (bigProblem τ) (bigProblem_b hτ).1
  rw [(bigProblem_b hτ).2] at hb1
  have hL := bigProblem_lanczos hτ old
  unfold minresStep
  simp only [show (minresInit (bigProblem τ).kw old (.fin (bigProblem τ).b)).itn = 0 from rfl, Nat.zero_add, hL]
  have hlt : lt (Fl.fin 16) (lit 0) = false := by rw [← Bool.not_eq_true, Fl.lit_eq, Fl.fin_lt]; norm_num
  simp only [hlt, Bool.false_eq_true, if_false, if_true]
  simp only [minresInit, hb1, hb2]
  have hA : 0 < bigAnorm τ := Real.sqrt_pos.2 (by positivity)
  have e1 : Scalar.sqrt (Fl.fin 16) = .fin 4 := by
    rw [Fl.fin_sqrt (by norm_num), show (16 : ℝ) = 4 * 4 by norm_num, Real.sqrt_mul_self (by norm_num)]
  have e2 : (lit 0 * lit 0 - lit (-1) * Fl.fin 3 : Fl) = .fin 3 := by simp
  have e3 : (-lit (-1) * Fl.fin 4 : Fl) = .fin 4 := by simp
  have e4 : normof2 (Fl.fin 3) (Fl.fin 4) = .fin 5 := by
    rw [normof2_fin, show (3 * 3 + 4 * 4 : ℝ) = 5 * 5 by norm_num, Real.sqrt_mul_self (by norm_num)]
  have e5 : pymax (Fl.fin 5) (Fl.fin ε) = .fin 5 := by rw [Fl.fin_pymax, max_eq_left (by linarith)]
  have e6 : pymax (Scalar.abs (Fl.fin 3)) (Fl.fin 5) = .fin 5 := by
    rw [Fl.fin_abs, abs_of_pos (by norm_num), Fl.fin_pymax, max_eq_right (by norm_num)]
  have e7 : pymin (Scalar.abs (Fl.fin 3)) (Fl.fin 5) = .fin 3 := by
    rw [Fl.fin_abs, abs_of_pos (by norm_num), pymin, if_neg]
    rw [Fl.fin_lt]; norm_num
  have e8 : (Fl.fin 3 / Fl.fin 5 : Fl) = .fin (3 / 5) := Fl.fin_div _ (by norm_num)
  have e9 : (Fl.fin 4 / Fl.fin 5 : Fl) = .fin (4 / 5) := Fl.fin_div _ (by norm_num)
  have e10 : Scalar.sqrt (lit 0 + Fl.fin 3 * Fl.fin 3 + Fl.fin τ * Fl.fin τ + Fl.fin 4 * Fl.fin 4 : Fl) = .fin (bigAnorm τ) := by
    simp only [Fl.lit_eq, Fl.fin_mul, Fl.fin_add, Rat.cast_zero, zero_add]
    rw [Fl.fin_sqrt (by positivity), bigAnorm]
    congr 2
    ring
  have e11 : (Fl.fin τ / Fl.fin 5 : Fl) = .fin (τ / 5) := Fl.fin_div _ (by norm_num)
  have e12 : Scalar.sqrt (Fl.fin (τ / 5) * Fl.fin (τ / 5) + lit 0 : Fl) = .fin (τ / 5) := by
    simp only [Fl.lit_eq, Fl.fin_mul, Fl.fin_add, Rat.cast_zero, add_zero]
    rw [Fl.fin_sqrt (by positivity), Real.sqrt_mul_self (by positivity)]
  have e13 : (lit 1 / Fl.fin 5 : Fl) = .fin (1 / 5) := by rw [Fl.lit_eq, Fl.fin_div _ (by norm_num)]; norm_num
  have hw : (zeros : Vec (EuclideanSpace ℝ (Fin 2))) + smul (Fl.fin (3 / 5) * Fl.fin τ)
      (smul (Fl.fin (1 / 5)) (Vec.fin !₂[1, 0] - smul (lit 0) zeros - smul (lit (-1) * lit 0 + lit 0 * Fl.fin 3) zeros)) =
      .fin !₂[3 / 25 * τ, 0] := by
    change Vec.fin 0 + smul _ (smul _ (_ - smul _ (Vec.fin 0) - smul _ (Vec.fin 0))) = _
    simp only [Fl.lit_eq, Fl.fin_mul, Fl.fin_add, Vec.fin_smul, Vec.fin_sub, Vec.fin_add]
    congr 1
    ext i
    fin_cases i <;> simp
    ring
  simp only [e1, e2, e3, e4, e5, e6, e7, e8, e9, e10, e11, e12, e13, hw]
  have hbeta : minresBeta2 (Fl.fin ε) (Fl.fin τ) (Fl.fin 4) 1 0 = 0 := by
    unfold minresBeta2
    rw [if_neg]
    rintro ⟨-, h⟩
    rw [Fl.fin_div _ hτ.ne', Fl.lit_eq, Fl.fin_mul, Fl.fin_le, div_le_iff₀ hτ] at h
    norm_num at h
    linarith
  have hdir : ∀ a b : Fl, minresDirErr (bigProblem τ).kw.etol a b (bigProblem τ).kw.window 1 0 = 0 := by
    intro a b
    unfold minresDirErr
    rw [if_neg]
    rintro ⟨h, -⟩
    simp [bigProblem, MinresProblem.kw] at h
  have ht1 : (Fl.fin (4 / 5) * Fl.fin τ / (Fl.fin (bigAnorm τ) * Fl.fin (τ / 5)) : Fl) = .fin (4 / bigAnorm τ) := by
    rw [Fl.fin_mul, Fl.fin_mul, Fl.fin_div _ (by positivity)]
    congr 1
    field_simp
  have ht2 : (Fl.fin 5 / Fl.fin (bigAnorm τ) : Fl) = .fin (5 / bigAnorm τ) := Fl.fin_div _ hA.ne'
  have hc : (Fl.fin 5 / Fl.fin 3 : Fl) = .fin (5 / 3) := Fl.fin_div _ (by norm_num)
  simp only [hbeta, hdir, ht1, ht2, hc]
  simp only [Fl.fin_mul]
  exact ⟨trivial, trivial, trivial, trivial⟩

/-- with a large right-hand side the first iteration passes the tests -/
theorem bigTests_large (h2 : 5 * 10 ^ 12 ≤ τ) (c d : Fl) :
    minresTests (.fin ε) (bigProblem τ).kw.rtol (.fin τ) 10 1 (.fin (4 / bigAnorm τ)) (.fin (5 / bigAnorm τ)) c d 0 = 1 := by
  have hA : 5 * 10 ^ 12 ≤ bigAnorm τ := by
    refine h2.trans (Real.le_sqrt_of_sq_le ?_)
    nlinarith
  have h : le (Fl.fin (4 / bigAnorm τ)) (bigProblem τ).kw.rtol = true := by
    rw [MinresProblem.kw, Fl.fin_le]
    simp only [bigProblem]
    rw [div_le_div_iff₀ (by linarith) (by norm_num)]
    linarith
  unfold minresTests
  simp only [h, if_true]

/-- with the right-hand side `(1, 0)` it does not -/
theorem bigTests_one (h0 : 0 < ε) (h1 : ε ≤ 1 / 100) :
    minresTests (.fin ε) (bigProblem 1).kw.rtol (.fin 1) 10 1 (.fin (4 / bigAnorm 1)) (.fin (5 / bigAnorm 1)) (.fin (5 / 3))
      (.fin (bigAnorm 1 * (1 / 5) * ε)) 0 = 0 := by
  have hA : bigAnorm 1 < 6 := by
    unfold bigAnorm
    rw [Real.sqrt_lt' (by norm_num)]
    norm_num
  have hA0 : 0 < bigAnorm 1 := Real.sqrt_pos.2 (by norm_num)
  have q1 : 1 / 2 < 4 / bigAnorm 1 := by rw [div_lt_div_iff₀ (by norm_num) hA0]; linarith
  have q2 : 1 / 2 < 5 / bigAnorm 1 := by rw [div_lt_div_iff₀ (by norm_num) hA0]; linarith
  have c1 : le (Fl.fin (4 / bigAnorm 1)) (bigProblem 1).kw.rtol = false := by
    rw [← Bool.not_eq_true, MinresProblem.kw, Fl.fin_le, not_le]
    simp only [bigProblem]
    norm_num at q1 ⊢
    linarith
  have c2 : le (Fl.fin (5 / bigAnorm 1)) (bigProblem 1).kw.rtol = false := by
    rw [← Bool.not_eq_true, MinresProblem.kw, Fl.fin_le, not_le]
    simp only [bigProblem]
    norm_num at q2 ⊢
    linarith
  have c3 : ge (Fl.fin (bigAnorm 1 * (1 / 5) * ε)) (Fl.fin 1) = false := by
    rw [← Bool.not_eq_true, ge, Fl.fin_le, not_le]
    nlinarith
  have c4 : ge (Fl.fin (5 / 3)) (lit (1 / 10) / Fl.fin ε) = false := by
    rw [← Bool.not_eq_true, ge, Fl.lit_eq, Fl.fin_div _ h0.ne', Fl.fin_le, not_le, lt_div_iff₀ h0]
    norm_num
    linarith
  have c5 : le (lit 1 + Fl.fin (4 / bigAnorm 1)) (lit 1) = false := by
    rw [← Bool.not_eq_true, Fl.lit_eq, Fl.fin_add, Fl.fin_le, not_le]
    norm_num
    exact hA0
  have c6 : le (lit 1 + Fl.fin (5 / bigAnorm 1)) (lit 1) = false := by
    rw [← Bool.not_eq_true, Fl.lit_eq, Fl.fin_add, Fl.fin_le, not_le]
    norm_num
    exact hA0
  unfold minresTests
  simp only [c1, c2, c3, c4, c5, c6, if_true, Bool.false_eq_true, if_false, show ¬ 1 ≥ 10 by omega]

/-- **C76, MINRES, violated.** The symmetric operator `(x, y) -> (3 x + 4 y, 4 x)`, default options, exact arithmetic, a machine precision
`ε`.  For a right-hand side `(τ, 0)` with `5·10¹² ≤ τ < 2 / (5 ε)` MINRES stops after one iteration and reports convergence (code 1) with
a residual that has four fifths of the norm of the right-hand side.  For the right-hand side `(1, 0)`, the same problem in another unit, it
does not stop after one iteration. -/
theorem C76_minres_violated (h0 : 0 < ε) (h1 : ε ≤ 1 / 100) (h2 : 5 * 10 ^ 12 ≤ τ) (h3 : 10 * ε * τ < 4)
    (old old' : MinresObj Fl (Vec (EuclideanSpace ℝ (Fin 2)))) :
    (∃ res products x, minresSolve (Vec.op (bigProblem τ).A) (.fin ε) 2 old (.fin (bigProblem τ).b) (bigProblem τ).kw = .ok (res, products) ∧
      res.converged = true ∧ res.istop = 1 ∧ res.itn = 1 ∧ res.x = .fin x ∧
      ‖(bigProblem τ).b - (bigProblem τ).A x‖ = 4 / 5 * ‖(bigProblem τ).b‖) ∧
    ∃ res products, minresSolve (Vec.op (bigProblem 1).A) (.fin ε) 2 old' (.fin (bigProblem 1).b) (bigProblem 1).kw = .ok (res, products) ∧
      2 ≤ res.itn := by
  have hτ : 0 < τ := by linarith [show (0 : ℝ) < 5 * 10 ^ 12 by norm_num]
  constructor
  · obtain ⟨hb1, hb2⟩ := minresStart_exact (bigProblem τ) (bigProblem_b hτ).1
    obtain ⟨s, hs, hi, hx, hst, hbr⟩ := bigProblem_step hτ h0 h1 h3 old
    rw [bigTests_large h2] at hst
    have hlim : (bigProblem τ).kw.itnlim.getD (5 * 2) = 10 := rfl
    unfold minresSolve
    simp only [hb2, hb1, hlim, Bool.false_eq_true, if_false, (bigProblem_b hτ).2]
    rw [if_neg (by rintro ⟨h, -⟩; simp [bigProblem, MinresProblem.kw] at h)]
    have hc : minresCont 10 (minresInit (bigProblem τ).kw old (Vec.fin (bigProblem τ).b)) = true := by
      simp [minresCont, minresInit]
    have hloop : minresLoop (Vec.op (bigProblem τ).A) (.fin ε) (bigProblem τ).kw 10 (.fin τ)
        (minresInit (bigProblem τ).kw old (Vec.fin (bigProblem τ).b)) = s := by
      unfold minresLoop
      rw [whileLoop_of_cont hc, hs, whileLoop_of_not]
      simp [minresCont, hbr, hst]
    rw [hloop]
    refine ⟨_, _, !₂[3 / 25 * τ, 0], rfl, ?_, hst, hi, hx, ?_⟩
    · simp only [minresResult, hst]; decide
    · have : (bigProblem τ).b - (bigProblem τ).A !₂[3 / 25 * τ, 0] = (τ / 25) • !₂[16, -12] := by
        ext i
        fin_cases i <;> simp [bigProblem, bigOp] <;> ring
      rw [this, norm_smul, Real.norm_eq_abs, abs_of_pos (by positivity), EuclideanSpace.norm_eq, Fin.sum_univ_two]
      have : Real.sqrt (‖(!₂[16, -12] : EuclideanSpace ℝ (Fin 2)) 0‖ ^ 2 + ‖(!₂[16, -12] : EuclideanSpace ℝ (Fin 2)) 1‖ ^ 2) = 20 := by
        rw [show (20 : ℝ) = Real.sqrt (20 * 20) from (Real.sqrt_mul_self (by norm_num)).symm]
        congr 1
        simp
        norm_num
      rw [this]
      ring
  · obtain ⟨hb1, hb2⟩ := minresStart_exact (bigProblem 1) (bigProblem_b one_pos).1
    obtain ⟨s, hs, hi, -, hst, hbr⟩ := bigProblem_step one_pos h0 h1 (by linarith) old'
    rw [bigTests_one h0 h1] at hst
    have hlim : (bigProblem 1).kw.itnlim.getD (5 * 2) = 10 := rfl
    unfold minresSolve
    simp only [hb2, hb1, hlim, Bool.false_eq_true, if_false, (bigProblem_b one_pos).2]
    rw [if_neg (by rintro ⟨h, -⟩; simp [bigProblem, MinresProblem.kw] at h)]
    have hc : minresCont 10 (minresInit (bigProblem 1).kw old' (Vec.fin (bigProblem 1).b)) = true := by
      simp [minresCont, minresInit]
    have hc' : minresCont 10 s = true := by simp [minresCont, hbr, hst, hi]
    refine ⟨_, _, rfl, ?_⟩
    change 2 ≤ (minresLoop _ _ _ _ _ _).itn
    unfold minresLoop
    rw [whileLoop_of_cont hc, hs, whileLoop_of_cont hc']
    refine (whileLoop_inv (fun s : MinresLoop Fl (Vec (EuclideanSpace ℝ (Fin 2))) => 2 ≤ s.itn) (fun s h _ => ?_) _ ?_).1
    · rw [minresStep_itn]; omega
    · rw [minresStep_itn, hi]

/-- `C76_minres_violated` with double precision and a right-hand side of norm `10¹³` -/
example : (0 : ℝ) < 1 / 2 ^ 52 ∧ (1 / 2 ^ 52 : ℝ) ≤ 1 / 100 ∧ (5 * 10 ^ 12 : ℝ) ≤ 10 ^ 13 ∧ (10 * (1 / 2 ^ 52) * 10 ^ 13 : ℝ) < 4 := by
  norm_num

end Verif.Solver
