import Verif.Solver.TFQMRProps
import Mathlib.Analysis.InnerProductSpace.PiL2
import Mathlib.Analysis.Complex.Basic
import Mathlib.Tactic.NormNum

/-!
# CGS, Bi-CGSTAB, TFQMR: violated properties and instances
-/

namespace Verif.Solver
open Scalar Vect
open scoped RealInnerProductSpace

/-! ## CGS -/

/-- **C31 is violated**: whenever a guess is given, `nMatvec` is not the number of products with the operator (it is
one too small). -/
theorem C31_guess_not_counted {S V : Type} [Scalar S] [Vect S V] (op : V → V) (o : KrylovOpts S V) (n : Nat) (rhs g : V)
    (mm : Option Nat) :
    (cgsSolve op o n rhs { guess := some g, matvecMax := mm }).1.nMatvec + 1 =
      (cgsSolve op o n rhs { guess := some g, matvecMax := mm }).2.length := by
  have := (C31_budget_partial op o n rhs { guess := some g, matvecMax := mm }).1
  simpa using this.symm

theorem inner1' (a b : ℝ) : ⟪a, b⟫ = a * b := by simp [mul_comm]

/-- a one-dimensional system `2 x = 6` with guess `1` -/
noncomputable def lin1 : LinProblem ℝ :=
  { A := (2:ℝ) • LinearMap.id, b := 6, guess := some 1, abstol := 0, reltol := 0, precon := none }

/-- CGS solves it in one iteration, so `C31_converged` applies with `converged` set -/
example : (cgsSolve (Vec.op lin1.A) lin1.opts 1 (.fin lin1.b) { guess := some (.fin 1) }).1.converged = true := by
  have hA : ∀ v, lin1.A v = 2 * v := fun v => rfl
  have e1 : (6 - 2 * 1 : ℝ) = 4 := by norm_num
  have e2 : (Fl.fin (4 * 4) / Fl.fin (4 * (2 * 4)) : Fl) = .fin (1/2) := by
    rw [Fl.fin_div _ (by norm_num)]; norm_num
  have e3 : (4 - 1/2 * (2 * (4 + (4 - 1/2 * (2 * 4)))) : ℝ) = 0 := by norm_num
  have e4 : (4 - 1/2 * (2 * 4) : ℝ) = 0 := by norm_num
  have e5 : (4 + 0 : ℝ) = 4 := by norm_num
  have hn : Scalar.abs (sqrt (Fl.fin (4 * 4))) = Fl.fin 4 := by
    rw [Fl.fin_sqrt (by norm_num), Real.sqrt_mul_self (by norm_num), Fl.fin_abs]; norm_num
  have hle : le (Fl.fin 4) (Fl.fin (max 0 (0 * 4))) = false := by rw [← Bool.not_eq_true, Fl.fin_le]; norm_num
  simp only [cgsSolve, LinProblem.opts, lin1] at *
  simp only [Vec.op_fin, hA, Vec.fin_sub, e1, Vec.fin_dot, inner1', hn, Fl.fin_mul, Fl.fin_pymax, hle, Option.getD_some]
  unfold cgsLoop
  rw [whileLoop_of_cont (by simp), whileLoop_of_not]
  · simp only [cgsStep, applyPrecon, Vec.op_fin, hA, Vec.fin_dot, inner1', e2, Vec.fin_smul, smul_eq_mul, Vec.fin_sub, Vec.fin_add, e4, e5, Vec.fin_norm]
    norm_num
  · simp only [cgsStep, applyPrecon, Vec.op_fin, hA, Vec.fin_dot, inner1', e2, Vec.fin_smul, smul_eq_mul, Vec.fin_sub, Vec.fin_add, e4, e5, Vec.fin_norm]
    norm_num

/-! ## Bi-CGSTAB -/

/-- multiplication by `1 + 2i`, as a real linear operator of order 2 -/
noncomputable def rot : ℂ →ₗ[ℝ] ℂ := LinearMap.mulLeft ℝ (1 + 2 * Complex.I)

noncomputable def bi1 : LinProblem ℂ :=
  { A := rot, b := 1, guess := none, abstol := 0, reltol := 0, precon := none }

theorem bi1_solve : (biSolve (Vec.op rot) bi1.opts 2 (.fin 1) { matvecMax := some 1 }).1 =
    { residNorm0 := .fin 1, converged := false, nMatvec := 1, x := .fin 0, residNorm := .fin 2 } := by
  have hrot : rot 1 = 1 + 2 * Complex.I := by simp [rot]
  have h11 : ⟪(1:ℂ), 1⟫ = 1 := by simp
  have h1r : ⟪(1:ℂ), 1 + 2 * Complex.I⟫ = 1 := by simp [Complex.inner]
  have hn : Scalar.abs (sqrt (Fl.fin 1)) = Fl.fin 1 := by rw [Fl.fin_sqrt (by norm_num)]; simp
  have hs : ‖(1:ℂ) - (1 + 2 * Complex.I)‖ = 2 := by
    rw [sub_add_cancel_left, norm_neg, norm_mul, Complex.norm_I]; simp
  have d1 : (Fl.fin 1 / Fl.fin 1 : Fl) = .fin 1 := by rw [Fl.fin_div _ one_ne_zero]; norm_num
  have hl : (Scalar.lit 1 : Fl) = Fl.fin 1 := by simp
  have hle : le (Fl.fin 1) (Fl.fin 0) = false := by rw [← Bool.not_eq_true, Fl.fin_le]; norm_num
  have hle2 : le (Fl.fin 2) (Fl.fin 0) = false := by rw [← Bool.not_eq_true, Fl.fin_le]; norm_num
  have hstep : biStep (Vec.op rot) none (Fl.fin 0) 1 (.fin 1)
      { x := .fin 0, r := .fin 1, p := .fin 0, v := .fin 0, rho := .fin 1, rhoNext := .fin 1, alpha := .fin 1,
        omega := .fin 1, residNorm := .fin 1, nMatvec := 0, finished := false, calls := [] } =
      { x := .fin 0, r := .fin 1, p := .fin 1, v := .fin (1 + 2 * Complex.I), rho := .fin 1, rhoNext := .fin 1,
        alpha := .fin 1, omega := .fin 1, residNorm := .fin 2, nMatvec := 1, finished := true, calls := [.fin 1] } := by
    simp only [biStep, d1, Fl.fin_mul, mul_one, Vec.fin_smul, smul_zero, Vec.fin_sub, sub_zero, Vec.fin_add, zero_add,
      applyPrecon, Vec.op_fin, hrot, Vec.fin_dot, h1r, one_smul, Vec.fin_norm, hs, hle2]
    simp
  simp only [biSolve, bi1, LinProblem.opts, Vec.fin_dot, h11, hn, Fl.fin_mul, Fl.fin_pymax, zero_mul, max_self, hle, hl,
    Option.getD_none, Option.getD_some, Vec.zeros_eq]
  unfold biLoop
  rw [whileLoop_of_cont (by simp)]
  simp only [ge_iff_le, Nat.le_zero_eq, one_ne_zero, decide_false, Bool.or_false]
  rw [hstep, whileLoop_of_not rfl]
  simp only [hle2]

/-- **C32 is violated**: on this operator of order 2 with a budget of one product, the reported `residNorm` is 2 although
the returned `x` is 0, whose residual norm is 1. -/
theorem C32_wrong_residNorm :
    ∃ (A : ℂ →ₗ[ℝ] ℂ) (o : KrylovOpts Fl (Vec ℂ)) (b x : ℂ) (ρ : ℝ),
      let res := (biSolve (Vec.op A) o 2 (.fin b) { matvecMax := some 1 }).1
      res.residNorm = .fin ρ ∧ res.x = .fin x ∧ ρ ≠ ‖b - A x‖ := by
  refine ⟨rot, bi1.opts, 1, 0, 2, ?_⟩
  simp only [bi1_solve]
  exact ⟨trivial, trivial, by simp⟩

/-- with the default budget Bi-CGSTAB converges on a scaled identity, and `C32_converged_partial` applies -/
example : (biSolve (Vec.op lin1.A) lin1.opts 1 (.fin lin1.b) { guess := some (.fin 1) }).1.converged = true := by
  have hA : ∀ v, lin1.A v = 2 * v := fun v => rfl
  have e1 : (6 - 2 * 1 : ℝ) = 4 := by norm_num
  have hn : Scalar.abs (sqrt (Fl.fin (4 * 4))) = Fl.fin 4 := by
    rw [Fl.fin_sqrt (by norm_num), Real.sqrt_mul_self (by norm_num), Fl.fin_abs]; norm_num
  have hl : (Scalar.lit 1 : Fl) = Fl.fin 1 := by simp
  have d1 : (Fl.fin (4 * 4) / Fl.fin 1 : Fl) = .fin 16 := by rw [Fl.fin_div _ one_ne_zero]; norm_num
  have d2 : (Fl.fin (16 * 1) / Fl.fin 1 : Fl) = .fin 16 := by rw [Fl.fin_div _ one_ne_zero]; norm_num
  have d3 : (Fl.fin (4 * 4) / Fl.fin (4 * (2 * 4)) : Fl) = .fin (1/2) := by rw [Fl.fin_div _ (by norm_num)]; norm_num
  have e3 : (16 * 0 - 16 * 1 * 0 + 4 : ℝ) = 4 := by norm_num
  have e4 : (4 - 1/2 * (2 * 4) : ℝ) = 0 := by norm_num
  have hle : le (Fl.fin 4) (Fl.fin (max 0 (0 * 4))) = false := by rw [← Bool.not_eq_true, Fl.fin_le]; norm_num
  simp only [biSolve, LinProblem.opts, lin1] at *
  simp only [Vec.op_fin, hA, Vec.fin_sub, e1, Vec.fin_dot, inner1', hn, Fl.fin_mul, Fl.fin_pymax, hle, Option.getD_some,
    Option.getD_none, Vec.zeros_eq, hl]
  unfold biLoop
  rw [whileLoop_of_cont (by simp), whileLoop_of_not]
  · simp only [biStep, applyPrecon, d1, d2, Vec.op_fin, hA, Vec.fin_dot, inner1', Fl.fin_mul, Vec.fin_smul, smul_eq_mul,
      Vec.fin_sub, Vec.fin_add, e3, d3, e4, Vec.fin_norm]
    norm_num
  · simp only [biStep, applyPrecon, d1, d2, Vec.op_fin, hA, Vec.fin_dot, inner1', Fl.fin_mul, Vec.fin_smul, smul_eq_mul,
      Vec.fin_sub, Vec.fin_add, e3, d3, e4, Vec.fin_norm]
    norm_num

/-! ## TFQMR -/

/-- **C33 is violated**: `solve` raises `UnboundLocalError` for a zero right-hand side, for every operator, every order and
every nonnegative absolute tolerance. -/
theorem C33_zero_rhs_raises {E : Type} [NormedAddCommGroup E] [InnerProductSpace ℝ E] (op : Vec E → Vec E)
    (precon : Option (Vec E → Vec E)) (abstol reltol : ℝ) (h : 0 ≤ abstol) (n : Nat) (mm : Option Nat) :
    tfSolve op { abstol := .fin abstol, reltol := .fin reltol, precon := precon } n (.fin 0) { matvecMax := mm } =
      .error (.unboundLocal "m") := by
  refine (C33_budget_partial op { abstol := .fin abstol, reltol := .fin reltol, precon := precon } n (.fin 0)
    { matvecMax := mm }).1 (Or.inl ?_)
  simp only [Vec.fin_dot, abs_sqrt_inner, norm_zero, Fl.fin_mul, mul_zero, Fl.fin_pymax, Fl.fin_le]
  exact le_max_of_le_left h

/-- the one-dimensional system `2 x = 6` with tolerance 1: TFQMR converges after one pass to the finite `x = 3`, so the
hypotheses of `C33_converged_partial` are met -/
example : ∃ res products, tfSolve (Vec.op ((2:ℝ) • LinearMap.id : ℝ →ₗ[ℝ] ℝ)) { abstol := .fin 1, reltol := .fin 0 } 1 (.fin (6:ℝ)) {} =
    .ok (res, products) ∧ res.converged = true ∧ res.x = .fin 3 := by
  have hA : ∀ v : ℝ, ((2:ℝ) • LinearMap.id : ℝ →ₗ[ℝ] ℝ) v = 2 * v := fun v => rfl
  have hn : Scalar.abs (sqrt (Fl.fin (6 * 6))) = Fl.fin 6 := by
    rw [Fl.fin_sqrt (by norm_num), Real.sqrt_mul_self (by norm_num), Fl.fin_abs]; norm_num
  have hle : le (Fl.fin 6) (Fl.fin (max 1 (0 * 6))) = false := by rw [← Bool.not_eq_true, Fl.fin_le]; norm_num
  have ha : (Fl.fin (6 * 6) / Fl.fin (6 * (2 * 6)) : Fl) = .fin (1/2) := by rw [Fl.fin_div _ (by norm_num)]; norm_num
  have e0 : (6 - 1/2 * (2 * 6) : ℝ) = 0 := by norm_num
  have d0 : (Fl.fin 0 / Fl.fin (1/2) : Fl) = .fin 0 := by rw [Fl.fin_div _ (by norm_num)]; norm_num
  have d1 : (Fl.fin 0 / Fl.fin 6 : Fl) = .fin 0 := by rw [Fl.fin_div _ (by norm_num)]; norm_num
  have c1 : (Fl.fin 1 / sqrt (Fl.fin (1 + 0)) : Fl) = .fin 1 := by
    rw [Fl.fin_sqrt (by norm_num)]; norm_num [Fl.fin_div]
  have hm : (Fl.fin (2 * 1) - Fl.fin 1 : Fl) = .fin 1 := by rw [Fl.fin_sub]; norm_num
  have hs : sqrt (Fl.fin (1 + 1)) = Fl.fin (Real.sqrt 2) := by rw [Fl.fin_sqrt (by norm_num)]; norm_num
  have ht : lt (Fl.fin 0) (Fl.fin (max 1 0)) = true := by rw [Fl.fin_lt]; norm_num
  have l0 : (lit 0 : Fl) = .fin 0 := by simp
  have l1 : (lit 1 : Fl) = .fin 1 := by simp
  have l2 : (lit 2 : Fl) = .fin 2 := by simp
  have lk : (lit ((0 + 1 : Nat) : ℚ) : Fl) = .fin 1 := by simp
  unfold tfSolve
  simp only [Option.getD_none, applyPrecon, Vec.op_fin, hA, Vec.fin_dot, inner1', hn, Fl.fin_mul, Fl.fin_pymax, hle,
    Vec.zeros_eq, l0, ge_iff_le, Nat.le_zero_eq, Bool.false_or, decide_eq_true_eq]
  rw [if_neg (by norm_num)]
  unfold tfLoop
  rw [whileLoop_of_cont rfl, whileLoop_of_not]
  · simp only [tfStep, tfPass, Vec.fin_dot, inner1', ha, Vec.fin_smul, smul_eq_mul, Vec.fin_sub, e0, Fl.fin_mul, d0,
      Vec.fin_norm, norm_zero, d1, l1, Fl.fin_add, c1, Vec.fin_add, l2, lk, hm, hs, tfTest, zero_mul, mul_zero, ht,
      Bool.true_or, if_true, tfResult]
    exact ⟨_, _, rfl, rfl, by norm_num⟩
  · simp only [tfStep, tfPass, Vec.fin_dot, inner1', ha, Vec.fin_smul, smul_eq_mul, Vec.fin_sub, e0, Fl.fin_mul, d0,
      Vec.fin_norm, norm_zero, d1, l1, Fl.fin_add, c1, Vec.fin_add, l2, lk, hm, hs, tfTest, zero_mul, mul_zero, ht,
      Bool.true_or, if_true, Bool.not_true]

abbrev E3 := EuclideanSpace ℝ (Fin 3)

theorem v3_add (a b c a' b' c' : ℝ) : (!₂[a, b, c] + !₂[a', b', c'] : E3) = !₂[a + a', b + b', c + c'] := by
  ext i; fin_cases i <;> simp
theorem v3_sub (a b c a' b' c' : ℝ) : (!₂[a, b, c] - !₂[a', b', c'] : E3) = !₂[a - a', b - b', c - c'] := by
  ext i; fin_cases i <;> simp
theorem v3_smul (k a b c : ℝ) : (k • !₂[a, b, c] : E3) = !₂[k * a, k * b, k * c] := by
  ext i; fin_cases i <;> simp
theorem v3_zero : (0 : E3) = !₂[0, 0, 0] := by
  ext i; fin_cases i <;> simp
theorem v3_inner (a b c a' b' c' : ℝ) : ⟪(!₂[a, b, c] : E3), !₂[a', b', c']⟫ = a * a' + b * b' + c * c' := by
  simp [PiLp.inner_apply, Fin.sum_univ_three, mul_comm]
theorem v3_norm (a b c : ℝ) : ‖(!₂[a, b, c] : E3)‖ = Real.sqrt (a ^ 2 + b ^ 2 + c ^ 2) := by
  simp [EuclideanSpace.norm_eq, Fin.sum_univ_three]

/-- an operator of order 3: `(a, b, c) ↦ (a - b, b - c/2, c - a)` -/
noncomputable def A3 : E3 →ₗ[ℝ] E3 where
  toFun v := !₂[v 0 - v 1, v 1 - v 2 / 2, v 2 - v 0]
  map_add' u v := by ext i; fin_cases i <;> simp <;> ring
  map_smul' k v := by ext i; fin_cases i <;> simp <;> ring

theorem A3_apply (a b c : ℝ) : A3 !₂[a, b, c] = !₂[a - b, b - c / 2, c - a] := by
  ext i; fin_cases i <;> simp [A3]

/-- `√a` as a scalar -/
noncomputable def R (a : ℝ) : Fl := .fin (Real.sqrt a)
theorem R_mul (a b : ℝ) (ha : 0 ≤ a) : R a * R b = R (a * b) := by
  simp only [R, Fl.fin_mul]; rw [Real.sqrt_mul ha]
theorem R_div (a b : ℝ) (ha : 0 ≤ a) (hb : 0 < b) : R a / R b = R (a / b) := by
  simp only [R]; rw [Fl.fin_div _ (Real.sqrt_ne_zero'.2 hb), Real.sqrt_div ha]
theorem R_sqrt (a : ℝ) (ha : 0 ≤ a) : Scalar.sqrt (.fin a) = R a := Fl.fin_sqrt ha
theorem R_one : R 1 = .fin 1 := by simp [R]
theorem R_self (a : ℝ) (ha : 0 ≤ a) : R a * R a = .fin a := by
  simp only [R, Fl.fin_mul]; rw [Real.mul_self_sqrt ha]

/-- options: absolute tolerance 2/3 -/
noncomputable def tfOpts : KrylovOpts Fl (Vec E3) := { abstol := .fin (2/3), reltol := .fin 0 }

noncomputable def tf0 : TFLoop Fl (Vec E3) :=
  { x := .fin !₂[0, 0, 0], y := .fin !₂[1, 0, 0], w := .fin !₂[1, 0, 0], d := .fin !₂[0, 0, 0], z := .fin !₂[1, 0, 0],
    u := .fin !₂[1, 0, -1], v := .fin !₂[1, 0, -1], rho := .fin 1, theta := .fin 0, eta := .fin 0, residNorm := R 1,
    k := 0, m := none, nMatvec := 1, finished := false, calls := [.fin !₂[1, 0, 0]] }
noncomputable def tf1 : TFLoop Fl (Vec E3) :=
  { x := .fin !₂[1/2, 0, 0], y := .fin !₂[1, 0, 0], w := .fin !₂[0, 0, 1], d := .fin !₂[1, 0, 0], z := .fin !₂[1, 0, 0],
    u := .fin !₂[1, 0, -1], v := .fin !₂[1, 0, -1], rho := .fin 1, theta := R 1, eta := .fin (1/2), residNorm := R (1/2),
    k := 0, m := none, nMatvec := 1, finished := false, calls := [.fin !₂[1, 0, 0]] }

theorem pass_theta {s : TFLoop Fl (Vec E3)} {α : Fl} {a n2 t2 : ℝ} {w d : Vec E3} (ha : α = .fin a)
    (hw : s.w - smul α s.u = w) (hn : norm w = R n2) (ht : s.residNorm = R t2) (hn0 : 0 ≤ n2) (ht0 : 0 < t2)
    (hd : smul (s.theta * s.theta * s.eta / α) s.d + s.z = d) :
    tfPass α s = { s with
      w := w, d := d, theta := R (n2 / t2), residNorm := R (n2 / (1 + n2 / t2)), eta := .fin (1 / (1 + n2 / t2) * a),
      x := s.x + smul (.fin (1 / (1 + n2 / t2) * a)) d } := by
  have h0 : 0 ≤ n2 / t2 := by positivity
  have hθ : norm w / s.residNorm = R (n2 / t2) := by rw [hn, ht, R_div _ _ hn0 ht0]
  have hc : (lit 1 / sqrt (lit 1 + R (n2 / t2) * R (n2 / t2)) : Fl) = R (1 / (1 + n2 / t2)) := by
    rw [R_self _ h0, Fl.lit_eq]
    simp only [Rat.cast_one, Fl.fin_add]
    rw [R_sqrt _ (by positivity), ← R_one, R_div _ _ (by norm_num) (by positivity)]
  have hη : (R (1 / (1 + n2 / t2)) * R (1 / (1 + n2 / t2)) * α : Fl) = .fin (1 / (1 + n2 / t2) * a) := by
    rw [R_self _ (by positivity), ha, Fl.fin_mul]
  unfold tfPass
  simp only [hw, hd, hθ, hc, hη]
  have : s.residNorm * (R (n2 / t2) * R (1 / (1 + n2 / t2))) = R (n2 / (1 + n2 / t2)) := by
    rw [ht, R_mul _ _ h0, R_mul _ _ ht0.le]
    congr 1
    field_simp
  rw [this]

theorem tf_pass1 : tfPass (.fin 1) tf0 = tf1 := by
  have hn : norm (Vec.fin (!₂[0, 0, 1] : E3)) = R 1 := by
    rw [Vec.fin_norm, v3_norm, R]; norm_num
  have h0 : (Fl.fin (0 * 0 * 0) / Fl.fin 1 : Fl) = .fin 0 := by rw [Fl.fin_div _ one_ne_zero]; norm_num
  rw [pass_theta (s := tf0) (α := .fin 1) (a := 1) (n2 := 1) (t2 := 1) (w := .fin !₂[0, 0, 1]) (d := .fin !₂[1, 0, 0]) rfl
    (by simp only [tf0, Vec.fin_smul, Vec.fin_sub, v3_smul, v3_sub]; norm_num) hn rfl (by norm_num) (by norm_num)
    (by simp only [tf0, Fl.fin_mul, h0, Vec.fin_smul, Vec.fin_add, v3_smul, v3_add]; norm_num)]
  simp only [tf0, tf1, Vec.fin_smul, Vec.fin_add, v3_smul, v3_add]
  norm_num

noncomputable def tf2 : TFLoop Fl (Vec E3) :=
  { x := .fin !₂[5/6, 0, 2/3], y := .fin !₂[0, 0, 1], w := .fin !₂[0, 1/2, 0], d := .fin !₂[1/2, 0, 1], z := .fin !₂[0, 0, 1],
    u := .fin !₂[0, -1/2, 1], v := .fin !₂[1, 0, -1], rho := .fin 1, theta := R (1/2), eta := .fin (2/3), residNorm := R (1/6),
    k := 1, m := some (.fin 2), nMatvec := 2, finished := false, calls := [.fin !₂[1, 0, 0], .fin !₂[0, 0, 1]] }

theorem tf_pass2 : tfPass (.fin 1) (tfMid (Vec.op A3) none (.fin 1) (.fin 2)
    { tf1 with k := 1, m := some (.fin 1) }) = tf2 := by
  have hmid : tfMid (Vec.op A3) none (.fin 1) (.fin 2) { tf1 with k := 1, m := some (.fin 1) } =
      { tf1 with k := 1, m := some (.fin 2), y := .fin !₂[0, 0, 1], z := .fin !₂[0, 0, 1], u := .fin !₂[0, -1/2, 1],
                 nMatvec := 2, calls := [.fin !₂[1, 0, 0], .fin !₂[0, 0, 1]] } := by
    have e : (Vec.fin !₂[1, 0, 0] - smul (Fl.fin 1) (Vec.fin !₂[1, 0, -1]) : Vec E3) = .fin !₂[0, 0, 1] := by
      rw [Vec.fin_smul, Vec.fin_sub, v3_smul, v3_sub]; norm_num
    simp only [tfMid, tf1, applyPrecon, e, Vec.op_fin, A3_apply]
    norm_num
  rw [hmid]
  have hn : norm (Vec.fin (!₂[0, 1/2, 0] : E3)) = R (1/4) := by
    rw [Vec.fin_norm, v3_norm, R]; norm_num
  have h0 : (R 1 * R 1 * Fl.fin (1/2) / Fl.fin 1 : Fl) = .fin (1/2) := by
    rw [R_self 1 (by norm_num), Fl.fin_mul, Fl.fin_div _ one_ne_zero]; norm_num
  rw [pass_theta (α := .fin 1) (a := 1) (n2 := 1/4) (t2 := 1/2) (w := .fin !₂[0, 1/2, 0]) (d := .fin !₂[1/2, 0, 1]) rfl
    (by simp only [tf1, Vec.fin_smul, Vec.fin_sub, v3_smul, v3_sub]; norm_num) hn rfl (by norm_num) (by norm_num)
    (by simp only [tf1, h0, Vec.fin_smul, Vec.fin_add, v3_smul, v3_add]; norm_num)]
  simp only [tf1, tf2, Vec.fin_smul, Vec.fin_add, v3_smul, v3_add]
  norm_num

noncomputable def tf3 : TFLoop Fl (Vec E3) :=
  { x := .fin !₂[5/6, 0, 2/3], y := .fin !₂[0, 1/2, 0], w := .fin !₂[0, 1/2, 0], d := .fin !₂[1/2, 0, 1], z := .fin !₂[0, 1/2, 0],
    u := .fin !₂[-1/2, 1/2, 0], v := .fin !₂[-1/2, 1/2, 0], rho := .fin 0, theta := R (1/2), eta := .fin (2/3), residNorm := R (1/6),
    k := 1, m := some (.fin 2), nMatvec := 3, finished := false,
    calls := [.fin !₂[1, 0, 0], .fin !₂[0, 0, 1], .fin !₂[0, 1/2, 0]] }

theorem tf_final : tfFinal (Vec.op A3) none (.fin !₂[1, 0, 0]) tf2 = tf3 := by
  have e1 : (1 * 0 + 0 * (1/2) + 0 * 0 : ℝ) = 0 := by norm_num
  have e2 : (Fl.fin 0 / Fl.fin 1 : Fl) = .fin 0 := by rw [Fl.fin_div _ one_ne_zero]; norm_num
  simp only [tfFinal, tf2, tf3, Vec.fin_dot, v3_inner, e1, e2, Vec.fin_smul, v3_smul, Vec.fin_add, v3_add, applyPrecon,
    Vec.op_fin, A3_apply]
  norm_num

noncomputable def tf4 : TFLoop Fl (Vec E3) :=
  { tf3 with x := .nan, d := .nan, theta := R (3/2), eta := .fin 0, residNorm := R (1/10), k := 2, m := some (.fin 3) }

theorem tf_pass3 : tfPass (.fin 0) tf3 = { tf4 with k := 1, m := some (.fin 2) } := by
  have hn : norm (Vec.fin (!₂[0, 1/2, 0] : E3)) = R (1/4) := by
    rw [Vec.fin_norm, v3_norm, R]; norm_num
  have h0 : (R (1/2) * R (1/2) * Fl.fin (2/3) / Fl.fin 0 : Fl) = .nan := by
    rw [R_self _ (by norm_num), Fl.fin_mul]; change Fl.div _ _ = _; simp [Fl.div]
  rw [pass_theta (s := tf3) (α := .fin 0) (a := 0) (n2 := 1/4) (t2 := 1/6) (w := .fin !₂[0, 1/2, 0]) (d := .nan) rfl
    (by simp only [tf3, Vec.fin_smul, Vec.fin_sub, v3_smul, v3_sub]; norm_num) hn rfl (by norm_num) (by norm_num)
    (by simp only [tf3, h0, Vec.nan_smul, Vec.nan_add])]
  simp only [tf3, tf4, Vec.smul_nan, Vec.add_nan]
  norm_num

theorem tf_step1 : tfStep (Vec.op A3) none (.fin (2/3)) 6 (.fin !₂[1, 0, 0]) tf0 = tf3 := by
  have ha : tf0.rho / dot (Vec.fin !₂[1, 0, 0]) tf0.v = .fin 1 := by
    simp only [tf0, Vec.fin_dot, v3_inner]; rw [Fl.fin_div _ (by norm_num)]; norm_num
  have hm : (lit 2 * lit ((tf0.k + 1 : Nat) : ℚ) - lit 1 : Fl) = .fin 1 := by
    simp only [tf0, Fl.lit_eq, Fl.fin_mul, Fl.fin_sub]; norm_num
  have hm2 : (Fl.fin 1 + lit 1 : Fl) = .fin 2 := by simp only [Fl.lit_eq, Fl.fin_add]; norm_num
  have t1 : tfTest (.fin (2/3)) 6 (.fin 1) { tf1 with k := 1, m := some (Fl.fin 1) } = false := by
    simp only [tfTest, tf1, Fl.lit_eq, Fl.fin_add]
    rw [R_sqrt _ (by norm_num), R_mul _ _ (by norm_num)]
    have : lt (R (1/2 * (1 + ((1:ℚ):ℝ)))) (Fl.fin (2/3)) = false := by
      rw [← Bool.not_eq_true, R, Fl.fin_lt, not_lt]; norm_num
    rw [this]; rfl
  have t2 : tfTest (.fin (2/3)) 6 (.fin 2) tf2 = false := by
    simp only [tfTest, tf2, Fl.lit_eq, Fl.fin_add]
    rw [R_sqrt _ (by norm_num), R_mul _ _ (by norm_num)]
    have : lt (R (1/6 * (2 + ((1:ℚ):ℝ)))) (Fl.fin (2/3)) = false := by
      rw [← Bool.not_eq_true, R, Fl.fin_lt, not_lt]
      apply Real.le_sqrt_of_sq_le; norm_num
    rw [this]; rfl
  unfold tfStep
  simp only [ha, hm, hm2, tf_pass1]
  have hk : tf0.k + 1 = 1 := rfl
  rw [hk, t1]
  simp only [Bool.false_eq_true, if_false, tf_pass2, t2, tf_final]

theorem tf_step2 : tfStep (Vec.op A3) none (.fin (2/3)) 6 (.fin !₂[1, 0, 0]) tf3 = { tf4 with finished := true } := by
  have ha : tf3.rho / dot (Vec.fin !₂[1, 0, 0]) tf3.v = .fin 0 := by
    simp only [tf3, Vec.fin_dot, v3_inner]; rw [Fl.fin_div _ (by norm_num)]; norm_num
  have hm : (lit 2 * lit ((tf3.k + 1 : Nat) : ℚ) - lit 1 : Fl) = .fin 3 := by
    simp only [tf3, Fl.lit_eq, Fl.fin_mul, Fl.fin_sub]; norm_num
  have t1 : tfTest (.fin (2/3)) 6 (.fin 3) { tf4 with k := 2, m := some (Fl.fin 3) } = true := by
    simp only [tfTest, tf4, Fl.lit_eq, Fl.fin_add]
    rw [R_sqrt _ (by norm_num), R_mul _ _ (by norm_num)]
    have : lt (R (1/10 * (3 + ((1:ℚ):ℝ)))) (Fl.fin (2/3)) = true := by
      rw [R, Fl.fin_lt, Real.sqrt_lt' (by norm_num)]; norm_num
    rw [this]; rfl
  unfold tfStep
  simp only [ha, hm, tf_pass3]
  have hk : tf3.k + 1 = 2 := rfl
  rw [hk]
  simp only [t1, if_true]
  rfl

/-- **C33 is violated**: for this (nonsingular) operator of order 3, right-hand side `(1,0,0)`, absolute tolerance `2/3`
and default keywords, TFQMR returns with `converged` set although `x` is not finite. -/
theorem C33_converged_nan :
    ∃ res products, tfSolve (Vec.op A3) tfOpts 3 (.fin !₂[1, 0, 0]) {} = .ok (res, products) ∧
      res.converged = true ∧ res.x = .nan := by
  have hn : Scalar.abs (sqrt (dot (Vec.fin (!₂[1, 0, 0] : E3)) (.fin !₂[1, 0, 0]))) = R 1 := by
    rw [Vec.fin_dot, abs_sqrt_inner, v3_norm, R]; norm_num
  have ht : pymax (Fl.fin (2/3)) (Fl.fin 0 * R 1) = .fin (2/3) := by
    rw [R, Fl.fin_mul, Fl.fin_pymax]; norm_num
  have hle : le (R 1) (Fl.fin (2/3)) = false := by
    rw [← Bool.not_eq_true, R, Fl.fin_le]; norm_num
  have hrho : dot (Vec.fin (!₂[1, 0, 0] : E3)) (.fin !₂[1, 0, 0]) = .fin 1 := by
    rw [Vec.fin_dot, v3_inner]; norm_num
  have hs : tfSolve (Vec.op A3) tfOpts 3 (.fin !₂[1, 0, 0]) {} = tfResult (.fin (2/3)) (R 1)
      (tfLoop (Vec.op A3) none (.fin (2/3)) 6 (.fin !₂[1, 0, 0]) tf0) := by
    unfold tfSolve
    simp only [tfOpts, hn, ht, hle, Option.getD_none]
    simp only [applyPrecon, Vec.op_fin, A3_apply, Fl.lit_eq, Rat.cast_zero, hrho, Vec.zeros_eq]
    rw [if_neg (by decide)]
    congr 2
    simp only [tf0, v3_zero]
    norm_num
  rw [hs]
  unfold tfLoop
  rw [whileLoop_of_cont rfl, tf_step1, whileLoop_of_cont rfl, tf_step2, whileLoop_of_not rfl]
  refine ⟨_, _, rfl, ?_, rfl⟩
  simp only [tf4, Fl.lit_eq, Fl.fin_add]
  rw [R_sqrt _ (by norm_num), R_mul _ _ (by norm_num), R, Fl.fin_lt, Real.sqrt_lt' (by norm_num)]
  norm_num

/-- `A3` is nonsingular: the system has a unique solution -/
theorem A3_injective : Function.Injective A3 := by
  rw [← LinearMap.ker_eq_bot, LinearMap.ker_eq_bot']
  intro v hv
  have h0 : v 0 - v 1 = 0 := by simpa [A3] using congrFun (congrArg (fun w : E3 => w.ofLp) hv) 0
  have h1 : v 1 - v 2 / 2 = 0 := by simpa [A3] using congrFun (congrArg (fun w : E3 => w.ofLp) hv) 1
  have h2 : v 2 - v 0 = 0 := by simpa [A3] using congrFun (congrArg (fun w : E3 => w.ofLp) hv) 2
  have e0 : v 0 = 0 := by linarith
  have e1 : v 1 = 0 := by linarith
  have e2 : v 2 = 0 := by linarith
  ext i; fin_cases i
  · exact e0
  · exact e1
  · exact e2

end Verif.Solver
