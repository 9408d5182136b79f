import Verif.Solver.FloatProps
import Verif.Solver.RoundingBi

/-! # C90: Bi-CGSTAB on dense arrays of floating-point numbers -/

namespace Verif.Solver
open Scalar Vect

/-- **Specification.**  The bound for Bi-CGSTAB on an array with `n` rows after `k` products: `N` and `K` bound the array and its inverse, `theta` the
iterates, `R` the residuals, `rho` is the reported residual norm. -/
noncomputable def roundoffBi (F : FloatFormat) (n k : ℕ) (N K theta R rho : ℝ) : ℝ :=
  F.u * (4 * (n + 2) * rho + (k + 1) * (7 * (R + Real.sqrt n * F.tiny) + N * (3 * theta + 20 * K * (R + Real.sqrt n * F.tiny)) +
      (2 * n + 3) * N * (12 * K * (R + Real.sqrt n * F.tiny) + theta))) +
    (6 * Real.sqrt (n * F.tiny) + 2 * F.tiny + (k + 1) * (4 + 5 * N) * (Real.sqrt n * F.tiny))

variable {F : FloatFormat} {n : ℕ}

theorem norm_constants {k : ℕ} (h : 8 * (n + k + 2) * F.u ≤ 1) :
    let R := F.rounding n (pow_of_small F h)
    0 ≤ R.uNorm ∧ R.uNorm ≤ 4 * (n + 2) * F.u ∧ R.uNorm ≤ 1 ∧ R.tinyNorm ≤ 6 * Real.sqrt (n * F.tiny) + 2 * F.tiny ∧
      (1 + F.u) ^ (n + 1) - 1 + F.u ≤ (2 * n + 3) * F.u := by
  intro R
  have hu := F.u_nonneg
  have hti := F.tiny_nonneg
  have hk : 0 ≤ (k : ℝ) * F.u := by positivity
  have hn : 0 ≤ (n : ℝ) * F.u := by positivity
  have p1 := pow_one_add_le hu (n + 2) (by push_cast; nlinarith)
  have p2 := pow_one_add_le hu (n + 1) (by push_cast; nlinarith)
  have p3 := pow_one_add_le hu n (by nlinarith)
  push_cast at p1 p2 p3
  have e1 : R.uNorm ≤ 4 * (n + 2) * F.u := by
    show 2 * ((1 + F.u) ^ (n + 2) - 1) ≤ _
    nlinarith
  refine ⟨?_, e1, by nlinarith, ?_, by nlinarith⟩
  · have := one_le_pow₀ (M₀ := ℝ) (a := 1 + F.u) (n := n + 2) (by linarith)
    show 0 ≤ 2 * ((1 + F.u) ^ (n + 2) - 1)
    linarith
  · show 2 * ((1 + F.u) * Real.sqrt (3 * n * (1 + F.u) ^ n * F.tiny) + F.tiny) ≤ _
    have h1 : Real.sqrt (3 * n * (1 + F.u) ^ n * F.tiny) ≤ Real.sqrt (2 ^ 2 * (n * F.tiny)) := by
      refine Real.sqrt_le_sqrt ?_
      have : 0 ≤ n * F.tiny := by positivity
      have : (1 + F.u) ^ n ≤ 4 / 3 := by nlinarith
      nlinarith
    rw [Real.sqrt_mul (x := (2:ℝ) ^ 2) (by norm_num), Real.sqrt_sq (by norm_num)] at h1
    have h2 := Real.sqrt_nonneg (n * F.tiny)
    have h3 : F.u ≤ 1 / 16 := by nlinarith
    nlinarith [Real.sqrt_nonneg (3 * n * (1 + F.u) ^ n * F.tiny)]

/-- Bi-CGSTAB with any operator whose relative error is that of a dense array -/
theorem float_bicgstab {op : FV F n → FV F n} {A : EuclideanSpace ℝ (Fin n) →ₗ[ℝ] EuclideanSpace ℝ (Fin n)} {N K : ℝ} (hK : 0 ≤ K)
    (hA : ∀ x, ‖x‖ ≤ K * ‖A x‖) (hcond : 2 * (2 * n + 3) * F.u * (K * N) ≤ 1)
    (o : KrylovOpts (FP F) (FV F n)) (rhs : FV F n) (kw : KrylovKw (FV F n)) :
    let out := biSolve op o n rhs kw
    out.1.x.Finite → (out.1.converged = true ∨ Even (out.1.nMatvec + kw.guess.toList.length)) →
      ∀ hk : 8 * (n + out.1.nMatvec + 2) * F.u ≤ 1,
      (F.rounding n (pow_of_small F hk)).Computes op A N (((1 + F.u) ^ (n + 1) - 1) * N + F.u * N) out.2 →
      ∀ theta R, (∀ m ≤ kw.matvecMax.getD (2 * n), ‖(biSolve op o n rhs { kw with matvecMax := some m }).1.x.vec‖ ≤ theta ∧
          (biSolve op o n rhs { kw with matvecMax := some m }).1.residNorm.Finite ∧
          2 * |(biSolve op o n rhs { kw with matvecMax := some m }).1.residNorm.num| + (6 * Real.sqrt (n * F.tiny) + 2 * F.tiny) ≤ R) →
        rhs.Finite ∧ |out.1.residNorm.num - ‖rhs.vec - A out.1.x.vec‖| ≤
          roundoffBi F n out.1.nMatvec N K theta R |out.1.residNorm.num| := by
  intro out hx hp hk hcomp theta R hsm
  obtain ⟨c1, c2, c3, c4, c5⟩ := norm_constants (n := n) hk
  have hN : 0 ≤ N := hcomp.N_nonneg
  have hu := F.u_nonneg
  have ht := F.tiny_nonneg
  have hcomp' : (F.rounding n (pow_of_small F hk)).Computes op A N ((2 * n + 3) * F.u * N) out.2 := by
    refine ⟨hcomp.N_nonneg, by positivity, hcomp.bound, fun v hv h1 h2 => (hcomp.err v hv h1 h2).trans ?_⟩
    refine mul_le_mul_of_nonneg_right ?_ (norm_nonneg _)
    rw [← add_mul]
    exact mul_le_mul_of_nonneg_right c5 hN
  have habs : ∀ a : ℝ, a + ((F.rounding n (pow_of_small F hk)).uNorm * a + (F.rounding n (pow_of_small F hk)).tinyNorm) ≤
      2 * |a| + (6 * Real.sqrt (n * F.tiny) + 2 * F.tiny) := by
    intro a
    have e1 := le_abs_self a
    have e2 : (F.rounding n (pow_of_small F hk)).uNorm * a ≤ 1 * |a| := (mul_le_mul_of_nonneg_left e1 c1).trans (mul_le_mul_of_nonneg_right c3 (abs_nonneg _))
    linarith
  obtain ⟨g1, g2, g3⟩ := (C90_bicgstab_partial (F.rounding n (pow_of_small F hk)) op A N K ((2 * n + 3) * F.u * N) hK (by linarith) hA o n rhs kw).1
      hcomp' hx hp theta R (fun m hm => ⟨(hsm m hm).1, (hsm m hm).2.1, (habs _).trans (hsm m hm).2.2⟩)
  refine ⟨g1, le_trans g3 ?_⟩
  have e1 : (F.rounding n (pow_of_small F hk)).uNorm * (F.rounding n (pow_of_small F hk)).num out.1.residNorm ≤ 4 * (n + 2) * F.u * |out.1.residNorm.num| :=
    (mul_le_mul_of_nonneg_left (le_abs_self _) c1).trans (mul_le_mul_of_nonneg_right c2 (abs_nonneg _))
  refine (add_le_add (add_le_add e1 c4) le_rfl).trans (le_of_eq ?_)
  show _ + (_ + 1) * (F.u * (7 * (R + Real.sqrt n * F.tiny) + N * (3 * theta + 20 * K * (R + Real.sqrt n * F.tiny))) +
      (2 * n + 3) * F.u * N * (12 * K * (R + Real.sqrt n * F.tiny) + theta) + (4 + 5 * N) * (Real.sqrt n * F.tiny)) = _
  unfold roundoffBi
  ring

/-- **C90, Bi-CGSTAB on a dense array (partial).**  For an array whose inverse is bounded by `K` and with a condition number well below `1 / u`; not if
the budget ends in the middle of an iteration (`C32_wrong_residNorm`). -/
theorem C90_dense_bicgstab_partial (rows : Fin n → FV F n) (K : ℝ) (hK : 0 ≤ K) (hA : ∀ x, ‖x‖ ≤ K * ‖denseLin (FV.entries rows) x‖)
    (hcond : 2 * (2 * n + 3) * F.u * (K * frobenius (FV.entries rows)) ≤ 1)
    (o : KrylovOpts (FP F) (FV F n)) (rhs : FV F n) (kw : KrylovKw (FV F n)) :
    let res := (biSolve (FV.dense rows) o n rhs kw).1
    res.x.Finite → (res.converged = true ∨ Even (res.nMatvec + kw.guess.toList.length)) → 8 * (n + res.nMatvec + 2) * F.u ≤ 1 →
      (∀ v ∈ (biSolve (FV.dense rows) o n rhs kw).2, NoUnderflow F rows v) →
      ∀ theta R, (∀ m ≤ kw.matvecMax.getD (2 * n), ‖(biSolve (FV.dense rows) o n rhs { kw with matvecMax := some m }).1.x.vec‖ ≤ theta ∧
          (biSolve (FV.dense rows) o n rhs { kw with matvecMax := some m }).1.residNorm.Finite ∧
          2 * |(biSolve (FV.dense rows) o n rhs { kw with matvecMax := some m }).1.residNorm.num| + (6 * Real.sqrt (n * F.tiny) + 2 * F.tiny) ≤ R) →
        rhs.Finite ∧ |res.residNorm.num - ‖rhs.vec - denseLin (FV.entries rows) res.x.vec‖| ≤
          roundoffBi F n res.nMatvec (frobenius (FV.entries rows)) K theta R |res.residNorm.num| := by
  intro res hx hp hk hL theta R hsm
  exact float_bicgstab hK hA hcond o rhs kw hx hp hk (dense_computes_of hk rows _ hL) theta R hsm

namespace Float64Example

/-- Bi-CGSTAB on `1 x = 3` in `float64`, with any budget. -/
theorem bi_run (m : ℕ) : biSolve (FV.dense fun _ => J 1) { abstol := I 1, reltol := I 0 } 1 (J 3) { matvecMax := some m } =
    if m = 0 then ({ residNorm0 := I 3, converged := false, nMatvec := 0, x := J 0, residNorm := I 3 }, [])
    else ({ residNorm0 := I 3, converged := true, nMatvec := 1, x := J 3, residNorm := I 0 }, [J 3]) := by
  have hs : sqrt (I 9) = I 3 := I_sqrt 3 (by norm_num) (by norm_num)
  have h0 : Vect.norm (J 0) = I 0 := by
    show sqrt (dot (J 0) (J 0)) = _
    rw [J_dot _ _ (by norm_num)]
    exact I_sqrt 0 (by norm_num) (by norm_num)
  have d1 : I 9 / I 9 = I 1 := I_div 1 9 (by norm_num) (by norm_num)
  have d2 : I 9 / I 1 = I 9 := I_div 9 1 (by norm_num) (by norm_num)
  have l1 : (lit 1 : FP float64) = I 1 := by
    show (⟨_⟩ : FP float64) = _
    have := float64_int 1 (by norm_num)
    simp_all [I]
  have hd : FV.dense (fun _ => J 1) (J 3) = J 3 := J_dense 1 3 (by norm_num)
  have hstep : ∀ m, biStep (FV.dense fun _ => J 1) none (I 1) m (J 3)
      { x := J 0, r := J 3, p := J 0, v := J 0, rho := I 1, rhoNext := I 9, alpha := I 1, omega := I 1, residNorm := I 3, nMatvec := 0, finished := false, calls := [] } =
      { x := J 3, r := J 3, p := J 3, v := J 3, rho := I 9, rhoNext := I 9, alpha := I 1, omega := I 1, residNorm := I 0, nMatvec := 1, finished := true, calls := [J 3] } := by
    intro m
    simp [biStep, applyPrecon, hd, J_dot, d1, d2, I_mul, J_smul, J_add, J_sub, h0, I_le]
  simp only [biSolve, Option.getD_some, Option.getD_none, J_zeros, J_dot 3 3 (by norm_num), I_mul 0 3 (by norm_num), hs, I_abs 3 (by norm_num), l1,
    pymax, I_lt, show (3 * 3 : ℤ) = 9 by norm_num, show (0 * 3 : ℤ) = 0 by norm_num]
  rcases Nat.eq_zero_or_pos m with rfl | hm
  · rw [biLoop, whileLoop_of_not (by simp)]
    simp [I_le]
  · have hf : (decide (0 ≥ m)) = false := by simp; omega
    rw [if_neg (show ¬ m = 0 by omega), hf, biLoop]
    simp only [show decide ((1:ℤ) < 0) = false by decide, I_le, show decide ((3:ℤ) ≤ 1) = false by decide, Bool.or_false, Bool.false_eq_true,
      if_false]
    rw [whileLoop_of_cont (by simp), hstep, whileLoop_of_not (by simp)]
    simp [I_le]

/-- the hypotheses of `C90_dense_bicgstab_partial` -/
example :
    let rows : Fin 1 → FV float64 1 := fun _ => J 1
    let out := biSolve (FV.dense rows) { abstol := I 1, reltol := I 0 } 1 (J 3) { matvecMax := some 2 }
    out.1.x.Finite ∧ out.1.converged = true ∧ 8 * (((1 : ℕ) : ℝ) + out.1.nMatvec + 2) * float64.u ≤ 1 ∧
      (∀ v ∈ out.2, NoUnderflow float64 rows v) ∧ (∀ x, ‖x‖ ≤ 1 * ‖denseLin (FV.entries rows) x‖) ∧
      2 * (2 * ((1 : ℕ) : ℝ) + 3) * float64.u * (1 * frobenius (FV.entries rows)) ≤ 1 ∧
      (∀ m ≤ 2, ‖(biSolve (FV.dense rows) { abstol := I 1, reltol := I 0 } 1 (J 3) { matvecMax := some m }).1.x.vec‖ ≤ 3 ∧
        (biSolve (FV.dense rows) { abstol := I 1, reltol := I 0 } 1 (J 3) { matvecMax := some m }).1.residNorm.Finite ∧
        2 * |(biSolve (FV.dense rows) { abstol := I 1, reltol := I 0 } 1 (J 3) { matvecMax := some m }).1.residNorm.num| +
          (6 * Real.sqrt (((1 : ℕ) : ℝ) * float64.tiny) + 2 * float64.tiny) ≤ 14) := by
  intro rows out
  have ho : out = biSolve (FV.dense rows) { abstol := I 1, reltol := I 0 } 1 (J 3) { matvecMax := some 2 } := rfl
  rw [bi_run, if_neg (by norm_num)] at ho
  have hu : float64.u = 2⁻¹ ^ 53 := rfl
  have ht : float64.tiny = 2 ^ (-1075 : ℤ) := rfl
  have ht1 : (2:ℝ) ^ (-1075 : ℤ) ≤ 2 ^ (-60 : ℤ) := zpow_le_zpow_right₀ (by norm_num) (by norm_num)
  have hn : ∀ a : ℤ, ‖(J a).vec‖ = |(a : ℝ)| := by
    intro a
    rw [EuclideanSpace.norm_eq]
    simp [J, I, FP.num, Real.sqrt_sq_eq_abs]
  have hf : frobenius (FV.entries rows) = 1 := by
    simp [frobenius, FV.entries, rows, J, I, FP.num]
  rw [ho]
  refine ⟨fun _ => rfl, rfl, ?_, ?_, ?_, ?_, ?_⟩
  · rw [hu]; norm_num
  · intro v hv
    have hv' : v = J 3 := by simpa using hv
    rw [hv']
    show 5 * ((1 : ℕ) : ℝ) * Real.sqrt ((1 : ℕ) : ℝ) * float64.tiny ≤ float64.u * frobenius (FV.entries rows) * ‖(J 3).vec‖
    rw [hf, hn, hu, ht]
    norm_num at ht1 ⊢
    linarith
  · intro x
    rw [one_mul, EuclideanSpace.norm_eq, EuclideanSpace.norm_eq]
    simp [denseLin, FV.entries, rows, J, I, FP.num]
  · rw [hf, hu]; norm_num
  · intro m _
    have h1 : Real.sqrt (((1 : ℕ) : ℝ) * float64.tiny) ≤ 1 := by
      rw [ht]
      refine Real.sqrt_le_iff.2 ⟨by norm_num, ?_⟩
      norm_num at ht1 ⊢
      linarith
    have h2 : float64.tiny ≤ 1 := by
      rw [ht]
      norm_num at ht1 ⊢
      linarith
    have hI : ∀ a : ℤ, (I a).num = a := fun _ => rfl
    have hF : ∀ a : ℤ, (I a).Finite := fun _ => rfl
    rw [bi_run]
    generalize Real.sqrt (((1 : ℕ) : ℝ) * float64.tiny) = t1 at *
    generalize float64.tiny = t2 at *
    split
    · refine ⟨by rw [hn]; norm_num, hF 3, ?_⟩
      rw [hI]
      norm_num
      linarith
    · refine ⟨by rw [hn]; norm_num, hF 0, ?_⟩
      rw [hI]
      norm_num
      linarith

end Float64Example

end Verif.Solver
