import Verif.Solver.FloatDense
import Verif.Solver.RoundingCGS

/-!
# C90 for dense operators in floating-point arithmetic

The bounds of `RoundingProps` and `RoundingCGS` in terms of the number of rows, the Frobenius norm and the number of products.
-/

namespace Verif.Solver
open Scalar Vect

/-- **Specification.**  The bound: `n` rows, `k` products, `N` the Frobenius norm, `theta` a bound of the norms of the iterates, `beta` the norm of
the right-hand side, `rho` the reported residual norm. -/
noncomputable def roundoff (F : FloatFormat) (n k : ℕ) (N theta beta rho : ℝ) : ℝ :=
  F.u * (4 * (n + 2) * rho + 2 * (k + 1) * ((8 * n + 20) * N * theta + beta)) +
    (6 * Real.sqrt (n * F.tiny) + 2 * F.tiny + 2 * (k + 1) * (2 + 8 * N) * (Real.sqrt n * F.tiny))

/-- **Specification.**  The products of the array with this vector do not underflow. -/
def NoUnderflow (F : FloatFormat) {n : ℕ} (rows : Fin n → FV F n) (v : FV F n) : Prop :=
  5 * n * Real.sqrt n * F.tiny ≤ F.u * frobenius (FV.entries rows) * ‖v.vec‖

/-- powers of `1 + u` -/
theorem pow_one_add_le {u : ℝ} (hu : 0 ≤ u) (m : ℕ) (h : m * u ≤ 1 / 4) : (1 + u) ^ m ≤ 1 + 4 / 3 * (m * u) := by
  rcases Nat.eq_zero_or_pos m with rfl | hm
  · simp
  have h0 : u ≤ 1 / 4 := by
    have : (1:ℝ) ≤ m := by exact_mod_cast hm
    nlinarith
  have h1 := one_add_mul_le_pow (a := -u) (by linarith) m
  have h2 : (1 + u) ^ m * (1 + -u) ^ m ≤ 1 := by
    rw [← mul_pow]
    exact pow_le_one₀ (by nlinarith) (by nlinarith)
  have h3 : 0 < (1 + u) ^ m := by positivity
  have h4 : (1 + u) ^ m * (1 + m * -u) ≤ 1 := (mul_le_mul_of_nonneg_left h1 h3.le).trans h2
  have h5 : 0 ≤ (m : ℝ) * u := by positivity
  nlinarith

theorem pow_of_small (F : FloatFormat) {n k : ℕ} (h : 8 * (n + k + 2) * F.u ≤ 1) : (1 + F.u) ^ (n + 2) ≤ 3 / 2 := by
  have hu := F.u_nonneg
  have hk : 0 ≤ (k : ℝ) * F.u := by positivity
  have := pow_one_add_le hu (n + 2) (by push_cast; nlinarith)
  push_cast at this
  nlinarith

variable {F : FloatFormat} {n : ℕ}

/-- the array meets the condition on operators -/
theorem dense_computes_of {k : ℕ} (h : 8 * (n + k + 2) * F.u ≤ 1) (rows : Fin n → FV F n) (L : List (FV F n))
    (hL : ∀ v ∈ L, NoUnderflow F rows v) :
    (F.rounding n (pow_of_small F h)).Computes (FV.dense rows) (denseLin (FV.entries rows)) (frobenius (FV.entries rows))
      (((1 + F.u) ^ (n + 1) - 1) * frobenius (FV.entries rows) + F.u * frobenius (FV.entries rows)) L := by
  have hu := F.u_nonneg
  have ht := F.tiny_nonneg
  have hk : 0 ≤ (k : ℝ) * F.u := by positivity
  refine FV.dense_computes _ rows L (mul_nonneg hu (Real.sqrt_nonneg _)) fun v hv => ?_
  refine le_trans ?_ (hL v hv)
  have h1 := pow_one_add_le hu n (by nlinarith)
  have h2 : (1 + F.u) ^ n ≤ 5 / 3 := by nlinarith
  have h3 : 0 ≤ n * Real.sqrt n * F.tiny := by positivity
  calc _ = 3 * (n * Real.sqrt n * F.tiny) * (1 + F.u) ^ n := by ring
    _ ≤ 3 * (n * Real.sqrt n * F.tiny) * (5 / 3) := by gcongr
    _ = _ := by ring

/-- the general bound is at most the explicit one -/
theorem roundoff_le {k : ℕ} (h : 8 * (n + k + 2) * F.u ≤ 1) {N theta beta rho : ℝ} (hN : 0 ≤ N) (ht : 0 ≤ theta) (hb : 0 ≤ beta)
    (hr : 0 ≤ rho) :
    let R := F.rounding n (pow_of_small F h)
    R.uNorm * rho + R.tinyNorm + R.drift N (((1 + F.u) ^ (n + 1) - 1) * N + F.u * N) theta beta k ≤ roundoff F n k N theta beta rho := by
  intro R
  have hu := F.u_nonneg
  have hti := F.tiny_nonneg
  have hk : 0 ≤ (k : ℝ) * F.u := by positivity
  have hn : 0 ≤ (n : ℝ) * F.u := by positivity
  have p1 := pow_one_add_le hu (n + 2) (by push_cast; nlinarith)
  have p2 := pow_one_add_le hu (n + 1) (by push_cast; nlinarith)
  have p3 := pow_one_add_le hu n (by nlinarith)
  have p4 := pow_one_add_le (u := 2 * F.u) (by linarith) (k + 1) (by push_cast; nlinarith)
  push_cast at p1 p2 p3 p4
  have q4 : (1 + 2 * F.u) ^ (k + 1) ≤ 2 := by nlinarith
  have c1 : ((1 + F.u) ^ (n + 1) - 1) * N + F.u * N ≤ (2 * n + 3) * F.u * N := by nlinarith [mul_nonneg hn hN, mul_nonneg hu hN]
  have c2 : (2 * n + 3) * F.u * N ≤ N := by nlinarith
  have c0 : 0 ≤ ((1 + F.u) ^ (n + 1) - 1) * N + F.u * N := by
    have : 1 ≤ (1 + F.u) ^ (n + 1) := one_le_pow₀ (by linarith)
    nlinarith [mul_nonneg hu hN]
  have e1 : R.uNorm * rho ≤ F.u * (4 * (n + 2) * rho) := by
    have : R.uNorm ≤ 4 * (n + 2) * F.u := by
      show 2 * ((1 + F.u) ^ (n + 2) - 1) ≤ _
      nlinarith
    calc _ ≤ 4 * (n + 2) * F.u * rho := mul_le_mul_of_nonneg_right this hr
      _ = _ := by ring
  have e2 : R.tinyNorm ≤ 6 * Real.sqrt (n * F.tiny) + 2 * F.tiny := by
    show 2 * ((1 + F.u) * Real.sqrt (3 * n * (1 + F.u) ^ n * F.tiny) + F.tiny) ≤ _
    have h1 : Real.sqrt (3 * n * (1 + F.u) ^ n * F.tiny) ≤ Real.sqrt (2 ^ 2 * (n * F.tiny)) := by
      refine Real.sqrt_le_sqrt ?_
      have : 0 ≤ n * F.tiny := by positivity
      have : (1 + F.u) ^ n ≤ 4 / 3 := by nlinarith
      nlinarith
    rw [Real.sqrt_mul (x := (2:ℝ) ^ 2) (by norm_num), Real.sqrt_sq (by norm_num)] at h1
    have h2 := Real.sqrt_nonneg (n * F.tiny)
    have h3 : F.u ≤ 1 / 16 := by nlinarith
    nlinarith [Real.sqrt_nonneg (3 * n * (1 + F.u) ^ n * F.tiny)]
  have e3 : R.local N (((1 + F.u) ^ (n + 1) - 1) * N + F.u * N) theta beta ≤
      F.u * ((8 * n + 20) * N * theta + beta) + (2 + 8 * N) * (Real.sqrt n * F.tiny) := by
    show F.u * (8 * N * theta + beta) + 4 * (((1 + F.u) ^ (n + 1) - 1) * N + F.u * N) * theta +
      (2 + 4 * N + 4 * (((1 + F.u) ^ (n + 1) - 1) * N + F.u * N)) * (Real.sqrt n * F.tiny) ≤ _
    have t0 : 0 ≤ Real.sqrt n * F.tiny := by positivity
    have t1 := mul_le_mul_of_nonneg_right c1 ht
    have t2 := mul_le_mul_of_nonneg_right (c1.trans c2) t0
    nlinarith
  have e4 : R.drift N (((1 + F.u) ^ (n + 1) - 1) * N + F.u * N) theta beta k ≤
      (k + 1) * 2 * (F.u * ((8 * n + 20) * N * theta + beta) + (2 + 8 * N) * (Real.sqrt n * F.tiny)) := by
    have hl := R.local_nonneg hN c0 ht hb
    have q4' : (1 + 2 * R.u) ^ (k + 1) ≤ 2 := q4
    have hu' : 0 ≤ R.u := hu
    unfold Rounding.drift
    gcongr
  unfold roundoff
  calc _ ≤ _ := add_le_add (add_le_add e1 e2) e4
    _ = _ := by ring

/-- **C90, CG on a dense array.**  In every floating-point format with unit roundoff `u`, as long as `8 (n + k + 2) u <= 1` for `n` rows and `k`
products. -/
theorem C90_dense_cg_partial (rows : Fin n → FV F n) (o : KrylovOpts (FP F) (FV F n)) (hpre : o.precon = none)
    (self : CGObj (FP F) (FV F n)) (rhs : FV F n) (kw : CGKw (FV F n)) (hsym : kw.checkSymmetric = true → kw.symOK = true)
    (hst : kw.storeIterates = true) :
    let res := (cgSolve (FV.dense rows) o n self rhs kw).1
    ∃ x rho, res.x = some x ∧ res.residNorm = some rho ∧
      (x.Finite → rho.Finite → 8 * (n + res.nMatvec + 2) * F.u ≤ 1 →
        (∀ v ∈ (cgSolve (FV.dense rows) o n self rhs kw).2, NoUnderflow F rows v) →
        ∀ theta, (∀ y ∈ res.iterates.drop self.iterates.length, ‖y.vec‖ ≤ theta) →
          rhs.Finite ∧ |rho.num - ‖rhs.vec - denseLin (FV.entries rows) x.vec‖| ≤
            roundoff F n res.nMatvec (frobenius (FV.entries rows)) theta ‖rhs.vec‖ |rho.num|) := by
  intro res
  by_cases hk : 8 * (n + res.nMatvec + 2) * F.u ≤ 1
  · obtain ⟨x, rho, h1, h2, h3, -⟩ := C90_cg_partial (F.rounding n (pow_of_small F hk)) (FV.dense rows) (denseLin (FV.entries rows))
      (frobenius (FV.entries rows)) (((1 + F.u) ^ (n + 1) - 1) * frobenius (FV.entries rows) + F.u * frobenius (FV.entries rows)) o hpre n self
      rhs kw hsym hst
    refine ⟨x, rho, h1, h2, fun hx hr _ hL theta hth => ?_⟩
    obtain ⟨g1, g2, g3⟩ := h3 (dense_computes_of hk rows _ hL) hx hr theta hth
    refine ⟨g1, le_trans g3 (le_trans ?_ (roundoff_le hk (Real.sqrt_nonneg _) ((norm_nonneg _).trans g2) (norm_nonneg _) (abs_nonneg _)))⟩
    gcongr
    · have := one_le_pow₀ (M₀ := ℝ) (a := 1 + F.u) (n := n + 2) (by linarith [F.u_nonneg])
      show 0 ≤ 2 * ((1 + F.u) ^ (n + 2) - 1)
      linarith
    · exact le_abs_self _
    · exact le_rfl
  · have hs : (kw.checkSymmetric && !kw.symOK) = false := by
      cases h1 : kw.checkSymmetric
      · rfl
      · simp [hsym h1]
    have hres : res = (cgSolve (FV.dense rows) o n self rhs kw).1 := rfl
    rw [cgSolve_eq hs] at hres
    rw [hres] at hk
    rw [hres]
    exact ⟨_, _, rfl, rfl, fun _ _ h => absurd h hk⟩

/-- **C90, CGS on a dense array.** -/
theorem C90_dense_cgs (rows : Fin n → FV F n) (o : KrylovOpts (FP F) (FV F n)) (rhs : FV F n) (kw : KrylovKw (FV F n)) :
    let res := (cgsSolve (FV.dense rows) o n rhs kw).1
    res.x.Finite → res.residNorm.Finite → 8 * (n + res.nMatvec + 2) * F.u ≤ 1 →
      (∀ v ∈ (cgsSolve (FV.dense rows) o n rhs kw).2, NoUnderflow F rows v) →
      ∀ theta, (∀ m ≤ kw.matvecMax.getD (2 * n), ‖(cgsSolve (FV.dense rows) o n rhs { kw with matvecMax := some m }).1.x.vec‖ ≤ theta) →
        rhs.Finite ∧ |res.residNorm.num - ‖rhs.vec - denseLin (FV.entries rows) res.x.vec‖| ≤
          roundoff F n res.nMatvec (frobenius (FV.entries rows)) theta ‖rhs.vec‖ |res.residNorm.num| := by
  intro res hx hr hk hL theta hth
  obtain ⟨g1, g2, g3⟩ := (C90_cgs (F.rounding n (pow_of_small F hk)) (FV.dense rows) (denseLin (FV.entries rows))
      (frobenius (FV.entries rows)) (((1 + F.u) ^ (n + 1) - 1) * frobenius (FV.entries rows) + F.u * frobenius (FV.entries rows)) o n
      rhs kw).1 (dense_computes_of hk rows _ hL) hx hr theta hth
  refine ⟨g1, le_trans g3 (le_trans ?_ (roundoff_le hk (Real.sqrt_nonneg _) ((norm_nonneg _).trans g2) (norm_nonneg _) (abs_nonneg _)))⟩
  gcongr
  · have := one_le_pow₀ (M₀ := ℝ) (a := 1 + F.u) (n := n + 2) (by linarith [F.u_nonneg])
    show 0 ≤ 2 * ((1 + F.u) ^ (n + 2) - 1)
    linarith
  · exact le_abs_self _
  · exact le_rfl

/-! ## A concrete case

NumPy's `float64`; the numbers of the run are integers, which `float64` represents exactly. -/

/-- integers of less than 54 bits are `float64` numbers -/
theorem float64_int (m : ℤ) (h : |m| < 2 ^ 53) : float64.fl m = some (m : ℝ) := by
  show ieeeRound 52 (-1074) 1024 m = some (m : ℝ)
  have hm : |(m : ℝ)| < 2 ^ 53 := by
    have : ((|m| : ℤ) : ℝ) < ((2 ^ 53 : ℤ) : ℝ) := by exact_mod_cast h
    rw [Int.cast_abs, Int.cast_pow] at this
    exact this
  obtain ⟨e, he⟩ : ∃ e : ℕ, max (Int.log 2 |(m : ℝ)| - 52) (-1074) = -(e : ℤ) := by
    have hl : Int.log 2 |(m : ℝ)| ≤ 52 := by
      rcases eq_or_ne m 0 with rfl | h0
      · simp
      have hp : 0 < |(m : ℝ)| := abs_pos.2 (by exact_mod_cast h0)
      have : Int.log 2 |(m : ℝ)| < 53 := (Int.lt_zpow_iff_log_lt (b := 2) (by norm_num) hp).1 (by exact_mod_cast hm)
      omega
    exact ⟨(-max (Int.log 2 |(m : ℝ)| - 52) (-1074)).toNat, by omega⟩
  have hs : spacing 52 (-1074) (m : ℝ) = (2 ^ e)⁻¹ := by
    rw [spacing]
    push_cast
    rw [he, zpow_neg, zpow_natCast]
  have hr : roundEven ((m : ℝ) / (2 ^ e)⁻¹) = m * 2 ^ e := by
    have : (m : ℝ) / (2 ^ e)⁻¹ = ((m * 2 ^ e : ℤ) : ℝ) := by push_cast; rw [div_inv_eq_mul]
    rw [this, roundEven, Int.fract_intCast, if_neg (by norm_num), round_intCast]
  simp only [ieeeRound, hs, hr]
  have hy : ((m * 2 ^ e : ℤ) : ℝ) * (2 ^ e)⁻¹ = m := by push_cast; field_simp
  rw [hy, if_pos]
  calc |(m : ℝ)| < 2 ^ 53 := hm
    _ = 2 ^ (53 : ℤ) := (zpow_natCast 2 53).symm
    _ ≤ 2 ^ (1024 : ℤ) := zpow_le_zpow_right₀ (by norm_num) (by norm_num)

namespace Float64Example

/-- an integer as a `float64` number -/
noncomputable def I (m : ℤ) : FP float64 := ⟨some m⟩
/-- an array with one entry -/
noncomputable def J (m : ℤ) : FV float64 1 := ⟨fun _ => I m⟩

theorem I_add (a b : ℤ) (h : |a + b| < 2 ^ 53) : I a + I b = I (a + b) := by
  show FP.op2 _ _ _ = _
  simp only [FP.op2, I, Option.bind_some]
  rw [← Int.cast_add, float64_int _ h]

theorem I_mul (a b : ℤ) (h : |a * b| < 2 ^ 53) : I a * I b = I (a * b) := by
  show FP.op2 _ _ _ = _
  simp only [FP.op2, I, Option.bind_some]
  rw [← Int.cast_mul, float64_int _ h]

theorem I_sub (a b : ℤ) (h : |a - b| < 2 ^ 53) : I a - I b = I (a - b) := by
  show FP.op2 _ _ _ = _
  simp only [FP.op2, I, Option.bind_some]
  rw [← Int.cast_sub, float64_int _ h]

theorem I_neg (a : ℤ) : -I a = I (-a) := by
  show (⟨_⟩ : FP float64) = _
  simp [I]

theorem I_div (a b : ℤ) (hb : b ≠ 0) (h : |a| < 2 ^ 53) : I (a * b) / I b = I a := by
  show FP.op2 _ _ _ = _
  have : (b : ℝ) ≠ 0 := by exact_mod_cast hb
  simp only [FP.op2, I, Option.bind_some, if_neg this]
  rw [show ((a * b : ℤ) : ℝ) / b = a by push_cast; field_simp, float64_int _ h]

theorem I_sqrt (a : ℤ) (h0 : 0 ≤ a) (h : |a| < 2 ^ 53) : sqrt (I (a * a)) = I a := by
  show (⟨_⟩ : FP float64) = _
  have h1 : (0:ℝ) ≤ a := by exact_mod_cast h0
  have h2 : ¬ ((a * a : ℤ) : ℝ) < 0 := by push_cast; nlinarith
  simp only [I, Option.bind_some, if_neg h2]
  rw [show ((a * a : ℤ) : ℝ) = (a : ℝ) ^ 2 by push_cast; ring, Real.sqrt_sq h1, float64_int _ h]

theorem I_abs (a : ℤ) (h : 0 ≤ a) : Scalar.abs (I a) = I a := by
  show (⟨_⟩ : FP float64) = _
  have h1 : (0:ℝ) ≤ a := by exact_mod_cast h
  simp [I, abs_of_nonneg h1]

theorem I_le (a b : ℤ) : le (I a) (I b) = decide (a ≤ b) := by
  show decide ((a : ℝ) ≤ b) = _
  simp

theorem I_lt (a b : ℤ) : lt (I a) (I b) = decide (a < b) := by
  show decide ((a : ℝ) < b) = _
  simp

theorem J_add (a b : ℤ) (h : |a + b| < 2 ^ 53) : J a + J b = J (a + b) := by
  show (⟨_⟩ : FV float64 1) = _
  simp only [J, I_add a b h]

theorem J_sub (a b : ℤ) (h : |a - b| < 2 ^ 53) : J a - J b = J (a - b) := by
  show (⟨_⟩ : FV float64 1) = _
  simp only [J, I_sub a b h]

theorem J_neg (a : ℤ) : -J a = J (-a) := by
  show (⟨_⟩ : FV float64 1) = _
  simp only [J, I_neg]

theorem J_smul (a b : ℤ) (h : |a * b| < 2 ^ 53) : smul (I a) (J b) = J (a * b) := by
  show (⟨_⟩ : FV float64 1) = _
  simp only [J, I_mul a b h]

theorem J_zeros : (zeros : FV float64 1) = J 0 := by
  show (⟨_⟩ : FV float64 1) = _
  simp [J, I]

theorem J_dot (a b : ℤ) (h : |a * b| < 2 ^ 53) : dot (J a) (J b) = I (a * b) := by
  have h0 : (⟨some 0⟩ : FP float64) = I 0 := by simp [I]
  show FV.sum (J a) (J b) (List.finRange 1) ⟨some 0⟩ = _
  rw [h0, show List.finRange 1 = [0] from rfl]
  simp only [FV.sum, List.foldl_cons, List.foldl_nil, J, I_mul a b h]
  rw [I_add 0 (a * b) (by simpa using h), zero_add]

theorem J_dense (a b : ℤ) (h : |a * b| < 2 ^ 53) : FV.dense (fun _ => J a) (J b) = J (a * b) := by
  simp only [FV.dense, J_dot a b h]
  rfl

/-- CG on `1 x = 3` in `float64`: one iteration, solution `3`, residual norm `0`; the bound holds with `theta = 3`. -/
example :
    let rows : Fin 1 → FV float64 1 := fun _ => J 1
    let out := cgSolve (FV.dense rows) { abstol := I 1, reltol := I 0 } 1 {} (J 3) { storeIterates := true, checkCurvature := false }
    out.1.x = some (J 3) ∧ out.1.residNorm = some (I 0) ∧ out.1.nMatvec = 1 ∧ (J 3).Finite ∧ (I 0).Finite ∧
      8 * (((1 : ℕ) : ℝ) + ((1 : ℕ) : ℝ) + 2) * float64.u ≤ 1 ∧ (∀ v ∈ out.2, NoUnderflow float64 rows v) ∧
      (∀ y ∈ out.1.iterates, ‖y.vec‖ ≤ 3) := by
  intro rows out
  have hi : cgInit (FV.dense rows) { abstol := I 1, reltol := I 0 } { storeIterates := true, checkCurvature := false } ({} : CGObj _ _) (J 3) =
      ({ x := J 0, r := J (-3), p := J 3, ry := I 9, residNorm := I 3, nMatvec := 0, definite := true, infiniteDescent := none,
         residHistory := [I 3], resids := [], iterates := [J 0], calls := [] }, I 1) := by
    have hs : sqrt (I 9) = I 3 := I_sqrt 3 (by norm_num) (by norm_num)
    simp [cgInit, applyPrecon, J_neg, J_zeros, J_dot, hs, I_abs, I_mul, pymax, I_lt]
  have hs : cgStep (FV.dense rows) none { storeIterates := true, checkCurvature := false }
      { x := J 0, r := J (-3), p := J 3, ry := I 9, residNorm := I 3, nMatvec := 0, definite := true, infiniteDescent := none,
        residHistory := [I 3], resids := [], iterates := [J 0], calls := [] } =
      { x := J 3, r := J 0, p := J 0, ry := I 0, residNorm := I 0, nMatvec := 1, definite := true, infiniteDescent := none,
        residHistory := [I 3, I 0], resids := [], iterates := [J 0, J 3], calls := [J 3] } := by
    have h0 : sqrt (I 0) = I 0 := I_sqrt 0 (by norm_num) (by norm_num)
    have d1 : I 9 / I 9 = I 1 := I_div 1 9 (by norm_num) (by norm_num)
    have d2 : I 0 / I 9 = I 0 := I_div 0 9 (by norm_num) (by norm_num)
    have hd : FV.dense rows (J 3) = J 3 := J_dense 1 3 (by norm_num)
    simp [cgStep, applyPrecon, hd, J_dot, d1, d2, J_smul, J_add, J_sub, h0, I_abs]
  have ho : out = cgSolve (FV.dense rows) { abstol := I 1, reltol := I 0 } 1 {} (J 3) { storeIterates := true, checkCurvature := false } := rfl
  rw [cgSolve_eq rfl, hi] at ho
  simp only at ho
  rw [cgLoop, dif_pos (by simp [cgCont, gt, I_lt]), hs, cgLoop, dif_neg (by simp [cgCont, gt, I_lt])] at ho
  have hn : ∀ a : ℤ, ‖(J a).vec‖ = |(a : ℝ)| := by
    intro a
    rw [EuclideanSpace.norm_eq]
    simp [J, I, FP.num, Real.sqrt_sq_eq_abs]
  have hu : float64.u = 2⁻¹ ^ 53 := rfl
  have ht : float64.tiny = 2 ^ (-1075 : ℤ) := rfl
  rw [ho]
  refine ⟨rfl, rfl, rfl, fun _ => rfl, rfl, ?_, ?_, ?_⟩
  · rw [hu]; norm_num
  · intro v hv
    rw [List.mem_singleton.1 hv]
    have hf : frobenius (FV.entries rows) = 1 := by
      simp [frobenius, FV.entries, rows, J, I, FP.num]
    show 5 * ((1 : ℕ) : ℝ) * Real.sqrt ((1 : ℕ) : ℝ) * float64.tiny ≤ float64.u * frobenius (FV.entries rows) * ‖(J 3).vec‖
    rw [hf, hn, hu, ht]
    have : (2:ℝ) ^ (-1075 : ℤ) ≤ 2 ^ (-60 : ℤ) := zpow_le_zpow_right₀ (by norm_num) (by norm_num)
    norm_num at this ⊢
    linarith
  · intro y hy
    simp only [List.mem_cons, List.not_mem_nil, or_false] at hy
    rcases hy with rfl | rfl <;> rw [hn] <;> norm_num

/-- CGS on `1 x = 3` in `float64`, with any budget. -/
theorem cgs_run (m : ℕ) : cgsSolve (FV.dense fun _ => J 1) { abstol := I 1, reltol := I 0 } 1 (J 3) { matvecMax := some m } =
    if m = 0 then ({ residNorm0 := I 3, converged := false, nMatvec := 0, x := J 0, residNorm := I 3 }, [])
    else ({ residNorm0 := I 3, converged := true, nMatvec := 2, x := J 3, residNorm := I 0 }, [J 3, J 3]) := by
  have hs : sqrt (I 9) = I 3 := I_sqrt 3 (by norm_num) (by norm_num)
  have h0 : Vect.norm (J 0) = I 0 := by
    show sqrt (dot (J 0) (J 0)) = _
    rw [J_dot _ _ (by norm_num)]
    exact I_sqrt 0 (by norm_num) (by norm_num)
  have d1 : I 9 / I 9 = I 1 := I_div 1 9 (by norm_num) (by norm_num)
  have hd : FV.dense (fun _ => J 1) (J 3) = J 3 := J_dense 1 3 (by norm_num)
  have hstep : ∀ m, cgsStep (FV.dense fun _ => J 1) none (I 1) m (J 3)
      { x := J 0, r := J 3, u := J 3, p := J 3, rho := I 9, residNorm := I 3, nMatvec := 0, finished := false, calls := [] } =
      { x := J 3, r := J 0, u := J 3, p := J 3, rho := I 9, residNorm := I 0, nMatvec := 2, finished := true, calls := [J 3, J 3] } := by
    intro m
    simp [cgsStep, applyPrecon, hd, J_dot, d1, J_smul, J_add, J_sub, h0, I_le]
  simp only [cgsSolve, Option.getD_some, Option.getD_none, J_zeros, J_dot 3 3 (by norm_num), I_mul 0 3 (by norm_num), hs, I_abs 3 (by norm_num),
    pymax, I_lt, show (3 * 3 : ℤ) = 9 by norm_num, show (0 * 3 : ℤ) = 0 by norm_num]
  rcases Nat.eq_zero_or_pos m with rfl | hm
  · rw [cgsLoop, whileLoop_of_not (by simp)]
    simp [I_le]
  · have hf : (decide (0 ≥ m)) = false := by simp; omega
    rw [if_neg (show ¬ m = 0 by omega), hf, cgsLoop]
    simp only [show decide ((1:ℤ) < 0) = false by decide, I_le, show decide ((3:ℤ) ≤ 1) = false by decide, Bool.or_false, Bool.false_eq_true,
      if_false]
    rw [whileLoop_of_cont (by simp), hstep, whileLoop_of_not (by simp)]
    simp [I_le]

/-- the hypotheses of `C90_dense_cgs` -/
example :
    let rows : Fin 1 → FV float64 1 := fun _ => J 1
    let out := cgsSolve (FV.dense rows) { abstol := I 1, reltol := I 0 } 1 (J 3) { matvecMax := some 2 }
    out.1.x.Finite ∧ out.1.residNorm.Finite ∧ 8 * (((1 : ℕ) : ℝ) + out.1.nMatvec + 2) * float64.u ≤ 1 ∧
      (∀ v ∈ out.2, NoUnderflow float64 rows v) ∧
      (∀ m ≤ 2, ‖(cgsSolve (FV.dense rows) { abstol := I 1, reltol := I 0 } 1 (J 3) { matvecMax := some m }).1.x.vec‖ ≤ 3) := by
  intro rows out
  have ho : out = cgsSolve (FV.dense rows) { abstol := I 1, reltol := I 0 } 1 (J 3) { matvecMax := some 2 } := rfl
  rw [cgs_run, if_neg (by norm_num)] at ho
  have hu : float64.u = 2⁻¹ ^ 53 := rfl
  have ht : float64.tiny = 2 ^ (-1075 : ℤ) := rfl
  have hn : ∀ a : ℤ, ‖(J a).vec‖ = |(a : ℝ)| := by
    intro a
    rw [EuclideanSpace.norm_eq]
    simp [J, I, FP.num, Real.sqrt_sq_eq_abs]
  rw [ho]
  refine ⟨fun _ => rfl, rfl, ?_, ?_, ?_⟩
  · rw [hu]; norm_num
  · intro v hv
    have hv' : v = J 3 := by simpa using hv
    rw [hv']
    have hf : frobenius (FV.entries rows) = 1 := by
      simp [frobenius, FV.entries, rows, J, I, FP.num]
    show 5 * ((1 : ℕ) : ℝ) * Real.sqrt ((1 : ℕ) : ℝ) * float64.tiny ≤ float64.u * frobenius (FV.entries rows) * ‖(J 3).vec‖
    rw [hf, hn, hu, ht]
    have : (2:ℝ) ^ (-1075 : ℤ) ≤ 2 ^ (-60 : ℤ) := zpow_le_zpow_right₀ (by norm_num) (by norm_num)
    norm_num at this ⊢
    linarith
  · intro m _
    rw [cgs_run]
    split <;> simp only [hn] <;> norm_num

end Float64Example

end Verif.Solver
