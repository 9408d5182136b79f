import Verif.Solver.FloatRange

/-! # C90: in `float64`, CG reports a residual below the threshold that is not -/

namespace Verif.Solver
open Scalar Vect

namespace Float64Example

/-- `1 / 3`, rounded -/
noncomputable def third : FP float64 := ⟨some (((6004799503160661 : ℤ) : ℝ) * 2 ^ (-54 : ℤ))⟩
/-- minus `1 / 3`, rounded -/
noncomputable def minusThird : FP float64 := ⟨some (((-6004799503160661 : ℤ) : ℝ) * 2 ^ (-54 : ℤ))⟩

theorem I_third : I 1 / I 3 = third := by
  show FP.op2 _ _ _ = _
  have h3 : ((3 : ℤ) : ℝ) ≠ 0 := by norm_num
  simp only [FP.op2, I, Option.bind_some, if_neg h3, third]
  congr 1
  show ieeeRound 52 (-1074) 1024 _ = some _
  have hp : (0:ℝ) < |((1 : ℤ) : ℝ) / ((3 : ℤ) : ℝ)| := by norm_num
  have hs : spacing 52 (-1074) (((1 : ℤ) : ℝ) / ((3 : ℤ) : ℝ)) = 2 ^ (-54 : ℤ) := by
    rw [spacing]
    congr 1
    have e1 := (Int.lt_zpow_iff_log_lt (b := 2) (x := -1) (by norm_num) hp).1 (by norm_num)
    have e2 := (Int.zpow_le_iff_le_log (b := 2) (x := -2) (by norm_num) hp).1 (by norm_num)
    push_cast at e1 e2 ⊢
    omega
  have hr : roundEven (((1 : ℤ) : ℝ) / ((3 : ℤ) : ℝ) / 2 ^ (-54 : ℤ)) = 6004799503160661 := by
    have e : ((1 : ℤ) : ℝ) / ((3 : ℤ) : ℝ) / 2 ^ (-54 : ℤ) = ((6004799503160661 : ℤ) : ℝ) + 1 / 3 := by norm_num
    have hfl : ⌊((6004799503160661 : ℤ) : ℝ) + 1 / 3⌋ = 6004799503160661 := by
      rw [Int.floor_intCast_add]
      norm_num
    have hfr : Int.fract (((6004799503160661 : ℤ) : ℝ) + 1 / 3) = 1 / 3 := by
      rw [Int.fract, hfl]; ring
    rw [e, roundEven, if_neg (by rw [hfr]; norm_num), round_eq, add_assoc, Int.floor_intCast_add]
    norm_num
  simp only [ieeeRound, hs, hr]
  rw [if_pos]
  have k1 : (2:ℝ) ^ (0 : ℤ) ≤ 2 ^ (1024 : ℤ) := zpow_le_zpow_right₀ (by norm_num) (by norm_num)
  refine lt_of_lt_of_le ?_ k1
  norm_num

theorem third_neg : third * I (-1) = minusThird := by
  show FP.op2 _ _ _ = _
  simp only [FP.op2, I, third, minusThird, Option.bind_some]
  congr 1
  rw [show ((6004799503160661 : ℤ) : ℝ) * 2 ^ (-54 : ℤ) * ((-1 : ℤ) : ℝ) = ((-6004799503160661 : ℤ) : ℝ) * 2 ^ (-54 : ℤ) by norm_num]
  exact float64_dyadic _ _ (by norm_num) (by norm_num) (by norm_num)

theorem third_three : third * I (-3) = I (-1) := by
  show FP.op2 _ _ _ = _
  simp only [FP.op2, I, third, Option.bind_some]
  congr 1
  rw [show ((6004799503160661 : ℤ) : ℝ) * 2 ^ (-54 : ℤ) * ((-3 : ℤ) : ℝ) = ((4 * (-4503599627370496) + 1 : ℤ) : ℝ) * 2 ^ (-54 : ℤ) by norm_num,
    float64_tie _ _ (by norm_num) (by norm_num) (by norm_num) (by norm_num)]
  norm_num

theorem zero_minusThird : I 0 + minusThird = minusThird := by
  show FP.op2 _ _ _ = _
  simp only [FP.op2, I, minusThird, Option.bind_some, Int.cast_zero, zero_add]
  congr 1
  exact float64_dyadic _ _ (by norm_num) (by norm_num) (by norm_num)

theorem float64_nonneg {z y : ℝ} (hz : 0 ≤ z) (h : float64.fl z = some y) : 0 ≤ y := by
  change ieeeRound 52 (-1074) 1024 z = some y at h
  simp only [ieeeRound] at h
  split at h
  · obtain rfl := Option.some.inj h
    have ha : 0 < spacing 52 (-1074) z := by rw [spacing]; positivity
    have h1 := abs_le.1 (roundEven_err (z / spacing 52 (-1074) z))
    have h2 : (0:ℝ) ≤ z / spacing 52 (-1074) z := by positivity
    have h3 : (-1 : ℝ) < (roundEven (z / spacing 52 (-1074) z) : ℝ) := by linarith
    have h4 : -1 < roundEven (z / spacing 52 (-1074) z) := by exact_mod_cast h3
    have h5 : (0:ℝ) ≤ (roundEven (z / spacing 52 (-1074) z) : ℝ) := by
      have h6 : 0 ≤ roundEven (z / spacing 52 (-1074) z) := by omega
      exact_mod_cast h6
    positivity
  · cases h

/-- the curvature test accepts 3 -/
theorem three_positive : notPositive (I 3) = false := by
  have hz : (lit 0 : FP float64) = I 0 := by
    show (⟨float64.fl ((0 : ℚ) : ℝ)⟩ : FP float64) = _
    have := float64_int 0 (by norm_num)
    rw [Int.cast_zero] at this
    rw [Rat.cast_zero, this, I, Int.cast_zero]
  have hg : ∀ q : ℚ, 0 ≤ q → lt ((lit q : FP float64) * Scalar.abs (I 3)) (I 0) = false := by
    intro q hq
    rw [I_abs 3 (by norm_num)]
    show (match (FP.op2 _ (⟨float64.fl q⟩ : FP float64) (I 3)).val, (I 0).val with
      | some x, some y => _
      | _, _ => false) = false
    have hq' : (0:ℝ) ≤ (q : ℝ) := by exact_mod_cast hq
    rcases h1 : float64.fl (q : ℝ) with _ | y
    · simp [FP.op2]
    · have h2 := float64_nonneg hq' h1
      rcases h3 : float64.fl (y * ((3 : ℤ) : ℝ)) with _ | w
      · simp [FP.op2, I] at h3 ⊢
        rw [h3]
      · have h4 := float64_nonneg (by push_cast; positivity) h3
        simp [FP.op2, I] at h3 ⊢
        rw [h3]
        simpa using h4
  have hr : le (re (I 3)) (I 0) = false := by
    show le (I 3) (I 0) = false
    simp [I_le]
  have hi : im (I 3) = I 0 := by
    show (lit 0 : FP float64) = I 0
    exact hz
  simp only [notPositive, hi, gt, hz, hr, Bool.or_false]
  exact hg _ (by norm_num)

/-- **C90: the exact claim is violated.**  CG on the system `3 x = -1` in `float64`, with both tolerances 0: after one product it reports
convergence with residual norm 0, but the solution it returns is not exact, its residual is `2^-54`. -/
theorem C90_threshold_violated :
    let rows : Fin 1 → FV float64 1 := fun _ => J 3
    let out := (cgSolve (FV.dense rows) { abstol := I 0, reltol := I 0 } 1 {} (J (-1)) {}).1
    ∃ x, out.x = some x ∧ x.Finite ∧ out.nMatvec = 1 ∧ out.converged = true ∧ out.residNorm = some (I 0) ∧
      ‖(J (-1)).vec - denseLin (FV.entries rows) x.vec‖ = 2 ^ (-54 : ℤ) := by
  intro rows out
  have hi : cgInit (FV.dense rows) { abstol := I 0, reltol := I 0 } {} ({} : CGObj _ _) (J (-1)) =
      ({ x := J 0, r := J 1, p := J (-1), ry := I 1, residNorm := I 1, nMatvec := 0, definite := true, infiniteDescent := none,
         residHistory := [I 1], resids := [], iterates := [], calls := [] }, I 0) := by
    have hs : sqrt (I 1) = I 1 := I_sqrt 1 (by norm_num) (by norm_num)
    simp [cgInit, applyPrecon, J_neg, J_zeros, J_dot, hs, I_abs, I_mul, pymax, I_lt]
  have hs : cgStep (FV.dense rows) none {}
      { x := J 0, r := J 1, p := J (-1), ry := I 1, residNorm := I 1, nMatvec := 0, definite := true, infiniteDescent := none,
         residHistory := [I 1], resids := [], iterates := [], calls := [] } =
      { x := ⟨fun _ => minusThird⟩, r := J 0, p := J 0, ry := I 0, residNorm := I 0, nMatvec := 1, definite := true, infiniteDescent := none,
        residHistory := [I 1, I 0], resids := [], iterates := [], calls := [J (-1)] } := by
    have h0 : sqrt (I 0) = I 0 := I_sqrt 0 (by norm_num) (by norm_num)
    have d2 : I 0 / I 1 = I 0 := I_div 0 1 (by norm_num) (by norm_num)
    have hd : FV.dense rows (J (-1)) = J (-3) := J_dense 3 (-1) (by norm_num)
    have e1 : smul third (J (-1)) = (⟨fun _ => minusThird⟩ : FV float64 1) := by
      show (⟨fun i => third * _⟩ : FV float64 1) = _
      simp only [J, third_neg]
    have e2 : smul third (J (-3)) = J (-1) := by
      show (⟨fun i => third * _⟩ : FV float64 1) = _
      simp only [J, third_three]
    have e3 : J 0 + (⟨fun _ => minusThird⟩ : FV float64 1) = ⟨fun _ => minusThird⟩ := by
      show (⟨fun i => I 0 + minusThird⟩ : FV float64 1) = _
      simp only [zero_minusThird]
    simp [cgStep, applyPrecon, hd, J_dot, three_positive, I_third, e1, e2, e3, d2, J_smul, J_add, J_sub, h0, I_abs]
  have ho : out = (cgSolve (FV.dense rows) { abstol := I 0, reltol := I 0 } 1 {} (J (-1)) {}).1 := rfl
  rw [cgSolve_eq rfl, hi] at ho
  simp only at ho
  rw [cgLoop, dif_pos (by simp [cgCont, gt, I_lt]), hs, cgLoop, dif_neg (by simp [cgCont, gt, I_lt])] at ho
  rw [ho]
  refine ⟨_, rfl, fun _ => rfl, rfl, ?_, rfl, ?_⟩
  · simp [I_le]
  · rw [EuclideanSpace.norm_eq, Fin.sum_univ_one]
    have e : ((J (-1)).vec - denseLin (FV.entries rows) (⟨fun _ => minusThird⟩ : FV float64 1).vec) 0 = -2 ^ (-54 : ℤ) := by
      show ((I (-1)).num) - ∑ l, FV.entries rows 0 l * minusThird.num = _
      rw [Fin.sum_univ_one]
      simp only [FV.entries, rows, J, I, minusThird, FP.num, Option.getD_some]
      norm_num
    rw [e, norm_neg, Real.norm_of_nonneg (by positivity), Real.sqrt_sq (by positivity)]

end Float64Example
end Verif.Solver
