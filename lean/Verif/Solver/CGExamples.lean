import Verif.Solver.CGExact
import Mathlib.Analysis.InnerProductSpace.PiL2
import Mathlib.Tactic.NormNum
import Mathlib.Tactic.Positivity

/-!
# CG: violated properties, and instances of the theorems
-/

namespace Verif.Solver
open Scalar Vect
open scoped RealInnerProductSpace
open CGMath (SPD)

theorem inner1 (a b : ℝ) : ⟪a, b⟫ = a * b := by simp [mul_comm]

theorem spd_smul (c : ℝ) (hc : 0 < c) : SPD (c • (LinearMap.id : ℝ →ₗ[ℝ] ℝ)) where
  symm u v := by simp only [inner1, LinearMap.smul_apply, LinearMap.id_apply, smul_eq_mul]; ring
  pos u hu := by
    simp only [inner1, LinearMap.smul_apply, LinearMap.id_apply, smul_eq_mul]
    have : 0 < u * u := mul_self_pos.2 hu
    nlinarith

theorem gt_sqrt_two : gt (Fl.fin (Real.sqrt 2)) (Fl.fin (1/100)) = true := by
  simp only [gt, Fl.fin_lt]
  exact Real.lt_sqrt_of_sq_lt (by norm_num)

/-- the options of the counterexample: preconditioner `2`, tolerances `0.01` and `0` -/
noncomputable def pcgOpts : KrylovOpts Fl (Vec ℝ) :=
  { abstol := .fin (1/100), reltol := .fin 0, precon := some (Vec.op (fun v => 2 * v)) }

/-- the two states the loop goes through -/
noncomputable def pcg0 : CGLoop Fl (Vec ℝ) :=
  { x := .fin 0, r := .fin (-1), p := .fin 1, ry := .fin 2, residNorm := .fin (Real.sqrt 2), nMatvec := 0,
    definite := true, infiniteDescent := none, residHistory := [.fin (Real.sqrt 2)], resids := [], iterates := [], calls := [] }
noncomputable def pcg1 : CGLoop Fl (Vec ℝ) :=
  { x := .fin 2, r := .fin 1, p := .fin 0, ry := .fin 2, residNorm := .fin (Real.sqrt 2), nMatvec := 1,
    definite := true, infiniteDescent := none, residHistory := [.fin (Real.sqrt 2), .fin (Real.sqrt 2)], resids := [],
    iterates := [], calls := [.fin 1] }
noncomputable def pcg2 : CGLoop Fl (Vec ℝ) :=
  { pcg1 with nMatvec := 2, calls := [.fin 1, .fin 0], infiniteDescent := some (.fin 0), definite := false }

theorem sqrt2_fin : Scalar.abs (sqrt (Fl.fin 2)) = Fl.fin (Real.sqrt 2) := by
  rw [Fl.fin_sqrt (by norm_num), Fl.fin_abs, abs_of_nonneg (Real.sqrt_nonneg _)]

theorem pcg_init : cgInit (Vec.op (fun v : ℝ => v)) pcgOpts {} {} (.fin 1) = (pcg0, .fin (1/100)) := by
  have h2 : (-1 : ℝ) * (2 * -1) = 2 := by norm_num
  simp only [cgInit, pcgOpts, pcg0, applyPrecon, Vec.op_fin, Vec.fin_neg, Vec.fin_dot, inner1, h2, sqrt2_fin,
    Fl.fin_mul, Fl.fin_pymax, Option.getD_none, Vec.zeros_eq]
  norm_num

theorem pcg_step0 : cgStep (Vec.op (fun v : ℝ => v)) pcgOpts.precon {} pcg0 = pcg1 := by
  have h : (({} : CGKw (Vec ℝ)).checkCurvature && notPositive (dot pcg0.p (Vec.op (fun v : ℝ => v) pcg0.p))) = false := by
    have : notPositive (Fl.fin (1:ℝ)) = false := by rw [← Bool.not_eq_true, notPositive_fin]; norm_num
    simp only [pcg0, Vec.op_fin, Vec.fin_dot, inner1, mul_one, this, Bool.and_false]
  rw [cgStep_def h]
  have e1 : (Fl.fin 2 / Fl.fin 1 : Fl) = Fl.fin 2 := by rw [Fl.fin_div _ one_ne_zero]; norm_num
  have e2 : (Fl.fin 2 / Fl.fin 2 : Fl) = Fl.fin 1 := by rw [Fl.fin_div _ two_ne_zero]; norm_num
  have h2 : (-1 + 2 : ℝ) = 1 := by norm_num
  simp only [pcg0, pcg1, pcgOpts, applyPrecon, Vec.op_fin, Vec.fin_dot, inner1, mul_one, e1, Vec.fin_smul, smul_eq_mul,
    Vec.fin_add, h2, one_mul, e2, Vec.fin_sub, sub_self, sqrt2_fin, zero_add]
  rfl

theorem pcg_step1 : cgStep (Vec.op (fun v : ℝ => v)) pcgOpts.precon {} pcg1 = pcg2 := by
  have h : (({} : CGKw (Vec ℝ)).checkCurvature && notPositive (dot pcg1.p (Vec.op (fun v : ℝ => v) pcg1.p))) = true := by
    have : notPositive (Fl.fin (0:ℝ)) = true := by rw [notPositive_fin]
    simp only [pcg1, Vec.op_fin, Vec.fin_dot, inner1, mul_zero, this, Bool.and_true]
  rw [cgStep_indef h]
  rfl

theorem pcg_solve : (cgSolve (Vec.op (fun v : ℝ => v)) pcgOpts 1 {} (.fin 1) {}).1 =
    { residHistory := [.fin (Real.sqrt 2), .fin (Real.sqrt 2)], infiniteDescent := some (.fin 0), converged := false,
      definite := some false, nMatvec := 2, x := some (.fin 2), residNorm := some (.fin (Real.sqrt 2)),
      residNorm0 := some (.fin (Real.sqrt 2)) } := by
  rw [cgSolve_eq rfl, pcg_init]
  have hg := gt_sqrt_two
  have c0 : cgCont (Fl.fin (1/100)) 2 pcg0 = true := by
    simp only [cgCont, pcg0, hg]; rfl
  have c1 : cgCont (Fl.fin (1/100)) 2 pcg1 = true := by
    simp only [cgCont, pcg1, hg]; rfl
  have c2 : ¬ cgCont (Fl.fin (1/100)) 2 pcg2 = true := by simp [cgCont, pcg2]
  have hl : cgLoop (Vec.op (fun v : ℝ => v)) pcgOpts.precon {} (Fl.fin (1/100)) 2 pcg0 = pcg2 := by
    rw [cgLoop, dif_pos c0, pcg_step0, cgLoop, dif_pos c1, pcg_step1, cgLoop, dif_neg c2]
  simp only [Option.getD_none, mul_one, hl]
  have : le (Fl.fin (Real.sqrt 2)) (Fl.fin (1/100)) = false := by
    rw [← Bool.not_eq_true, Fl.fin_le, not_le]; simpa [gt] using hg
  simp only [pcg2, pcg1, pcg0, this]

/-- **C28 is violated with a preconditioner.** For the symmetric positive definite operator `A = 1` and the symmetric
positive definite preconditioner `M = 2` (both of order 1), right-hand side `1`, default keywords: the solve does not
converge and reports that the operator is not positive definite. -/
theorem C28_preconditioned_fails :
    ∃ A M : ℝ →ₗ[ℝ] ℝ, SPD A ∧ SPD M ∧
      let o : KrylovOpts Fl (Vec ℝ) := { abstol := .fin (1/100), reltol := .fin 0, precon := some (Vec.op M) }
      let res := (cgSolve (Vec.op A) o (Module.finrank ℝ ℝ) {} (.fin 1) {}).1
      res.converged = false ∧ res.definite = some false ∧ ∃ x, res.x = some (.fin x) ∧ ‖1 - A x‖ = 1 := by
  refine ⟨LinearMap.id, (2:ℝ) • LinearMap.id, by simpa using spd_smul 1 one_pos, spd_smul 2 two_pos, ?_⟩
  have h := pcg_solve
  have e : ({ abstol := .fin (1/100), reltol := .fin 0, precon := some (Vec.op ⇑((2:ℝ) • (LinearMap.id : ℝ →ₗ[ℝ] ℝ))) } :
    KrylovOpts Fl (Vec ℝ)) = pcgOpts := rfl
  have e' : (⇑(LinearMap.id : ℝ →ₗ[ℝ] ℝ)) = (fun v => v) := rfl
  simp only [e, e', Module.finrank_self]
  rw [h]
  exact ⟨rfl, rfl, 2, rfl, by norm_num⟩

/-- **C29 is violated with a preconditioner**: with the same data the "direction of nonconvexity" is the zero vector. -/
theorem C29_zero_direction :
    ∃ A M : ℝ →ₗ[ℝ] ℝ, SPD A ∧ SPD M ∧
      let o : KrylovOpts Fl (Vec ℝ) := { abstol := .fin (1/100), reltol := .fin 0, precon := some (Vec.op M) }
      let res := (cgSolve (Vec.op A) o 1 {} (.fin 1) {}).1
      res.definite = some false ∧ res.infiniteDescent = some (.fin 0) := by
  refine ⟨LinearMap.id, (2:ℝ) • LinearMap.id, by simpa using spd_smul 1 one_pos, spd_smul 2 two_pos, ?_⟩
  have h := pcg_solve
  have e : ({ abstol := .fin (1/100), reltol := .fin 0, precon := some (Vec.op ⇑((2:ℝ) • (LinearMap.id : ℝ →ₗ[ℝ] ℝ))) } :
    KrylovOpts Fl (Vec ℝ)) = pcgOpts := rfl
  have e' : (⇑(LinearMap.id : ℝ →ₗ[ℝ] ℝ)) = (fun v => v) := rfl
  simp only [e, e']
  rw [h]
  exact ⟨rfl, rfl⟩

/-! ### Stale attributes -/

/-- options without preconditioner and zero tolerances -/
noncomputable def zeroOpts : KrylovOpts Fl (Vec ℝ) := { abstol := .fin 0, reltol := .fin 0 }

/-- first solve: `A = -1`, right-hand side `1` -/
theorem neg_solve : (cgSolve (Vec.op (fun v : ℝ => -v)) zeroOpts 1 {} (.fin 1) {}).1 =
    { residHistory := [.fin 1], infiniteDescent := some (.fin 1), converged := false,
      definite := some false, nMatvec := 1, x := some (.fin 0), residNorm := some (.fin 1), residNorm0 := some (.fin 1) } := by
  have hn : Scalar.abs (sqrt (Fl.fin ((-1) * (-1)))) = Fl.fin 1 := by
    rw [Fl.fin_sqrt (by norm_num), Fl.fin_abs]; norm_num
  have hi : cgInit (Vec.op (fun v : ℝ => -v)) zeroOpts {} {} (.fin 1) =
      ({ x := .fin 0, r := .fin (-1), p := .fin 1, ry := .fin 1, residNorm := .fin 1, nMatvec := 0, definite := true,
         infiniteDescent := none, residHistory := [.fin 1], resids := [], iterates := [], calls := [] }, .fin 0) := by
    simp only [cgInit, zeroOpts, applyPrecon, Vec.fin_neg, Vec.fin_dot, inner1, hn, Option.getD_none, Vec.zeros_eq,
      Fl.fin_mul, Fl.fin_pymax]
    norm_num
  rw [cgSolve_eq rfl, hi]
  simp only [Option.getD_none, mul_one]
  rw [cgLoop, dif_pos (by simp [cgCont, gt]), cgStep_indef, cgLoop, dif_neg (by simp [cgCont])]
  · have : le (Fl.fin 1) (Fl.fin 0) = false := by rw [← Bool.not_eq_true, Fl.fin_le]; norm_num
    simp [this]
  · have : notPositive (Fl.fin (-1:ℝ)) = true := by rw [notPositive_fin]; norm_num
    simp only [Vec.op_fin, Vec.fin_dot, inner1, one_mul, this, Bool.and_true]

/-- **C30 is violated.** Solving with right-hand side `1` and then `0` on the same solver object for `A = -1`: after the
second solve the attributes say that the operator looks definite, yet `infiniteDescent` still holds the direction of the
first solve, and `residHistory` has an entry from each solve, whereas on a fresh object it has one entry. -/
theorem C30_stale :
    let op := Vec.op (fun v : ℝ => -v)
    let first := (cgSolve op zeroOpts 1 {} (.fin 1) {}).1
    let second := (cgSolve op zeroOpts 1 first (.fin 0) {}).1
    let fresh := (cgSolve op zeroOpts 1 {} (.fin 0) {}).1
    second.converged = true ∧ second.definite = some true ∧
    second.infiniteDescent = some (.fin 1) ∧ fresh.infiniteDescent = none ∧
    second.residHistory = [.fin 1, .fin 0] ∧ fresh.residHistory = [.fin 0] := by
  have hn : Scalar.abs (sqrt (Fl.fin 0)) = Fl.fin 0 := by
    rw [Fl.fin_sqrt le_rfl, Fl.fin_abs]; norm_num
  have fresh : (cgSolve (Vec.op (fun v : ℝ => -v)) zeroOpts 1 {} (.fin 0) {}).1 =
    { residHistory := [.fin 0], converged := true,
      definite := some true, nMatvec := 0, x := some (.fin 0), residNorm := some (.fin 0), residNorm0 := some (.fin 0) } := by
    have hi : cgInit (Vec.op (fun v : ℝ => -v)) zeroOpts {} {} (.fin 0) =
        ({ x := .fin 0, r := .fin 0, p := .fin 0, ry := .fin 0, residNorm := .fin 0, nMatvec := 0, definite := true,
           infiniteDescent := none, residHistory := [.fin 0], resids := [], iterates := [], calls := [] }, .fin 0) := by
      simp only [cgInit, zeroOpts, applyPrecon, Vec.fin_neg, neg_zero, Vec.fin_dot, inner1, mul_zero, hn, Option.getD_none,
        Vec.zeros_eq, Fl.fin_mul, Fl.fin_pymax]
      norm_num
    rw [cgSolve_eq rfl, hi]
    simp only [Option.getD_none, mul_one]
    rw [cgLoop, dif_neg (by simp [cgCont, gt])]
    have : le (Fl.fin 0) (Fl.fin 0) = true := by rw [Fl.fin_le]
    simp [this]
  have h := C30_repeated_solve_partial (Vec.op (fun v : ℝ => -v)) zeroOpts 1
    (cgSolve (Vec.op (fun v : ℝ => -v)) zeroOpts 1 {} (.fin 1) {}).1 (.fin 0) {} rfl
  simp only [fresh, neg_solve] at h ⊢
  obtain ⟨-, -, -, -, -, h1, h2, h3, -, -, h4⟩ := h
  rw [h1, h2, h3, h4]
  exact ⟨rfl, rfl, rfl, trivial, rfl, trivial⟩

/-! ### Instances of the theorems -/

/-- the matrix `[[2, 1], [1, 2]]` as an operator of order 2 -/
noncomputable def A2 : EuclideanSpace ℝ (Fin 2) →ₗ[ℝ] EuclideanSpace ℝ (Fin 2) :=
  Matrix.toEuclideanLin !![2, 1; 1, 2]

theorem A2_apply (v : EuclideanSpace ℝ (Fin 2)) : A2 v 0 = 2 * v 0 + v 1 ∧ A2 v 1 = v 0 + 2 * v 1 := by
  constructor <;> simp [A2, Matrix.toLpLin_apply, dotProduct, Fin.sum_univ_two]

theorem A2_spd : SPD A2 where
  symm u v := by
    simp only [PiLp.inner_apply, Fin.sum_univ_two, inner1, (A2_apply u).1, (A2_apply u).2, (A2_apply v).1, (A2_apply v).2]
    ring
  pos u hu := by
    simp only [PiLp.inner_apply, Fin.sum_univ_two, inner1, (A2_apply u).1, (A2_apply u).2]
    have h : u 0 ≠ 0 ∨ u 1 ≠ 0 := by
      by_contra h
      push Not at h
      exact hu (by ext i; fin_cases i <;> simp [h.1, h.2])
    rcases h with h | h
    · have : 0 < u 0 * u 0 := mul_self_pos.2 h
      nlinarith [sq_nonneg (u 0 + u 1), sq_nonneg (u 1)]
    · have : 0 < u 1 * u 1 := mul_self_pos.2 h
      nlinarith [sq_nonneg (u 0 + u 1), sq_nonneg (u 0)]

/-- a problem of order 2 with a nonzero guess, meeting the hypotheses of `C27_converged` and `C28_terminates_partial` -/
noncomputable def problem2 : CGProblem (EuclideanSpace ℝ (Fin 2)) :=
  { A := A2, b := !₂[1, 3], guess := some !₂[1, 0], abstol := 0, reltol := 0 }

/-- the conclusion of C28 for it: the exact solution is found after at most three products -/
example : ∃ x, (cgSolve (Vec.op A2) problem2.opts 2 {} (.fin !₂[1, 3])
      { guess := some (.fin !₂[1, 0]), storeIterates := true }).1.x = some (.fin x) ∧ A2 x = !₂[1, 3] := by
  have h := C28_terminates_partial problem2 A2_spd {} { guess := some (.fin !₂[1, 0]), storeIterates := true } rfl rfl le_rfl
    (by simp)
  rw [finrank_euclideanSpace_fin] at h
  obtain ⟨-, -, ⟨x, hx, -, hx'⟩, -⟩ := h
  exact ⟨x, hx, hx' rfl rfl⟩

/-- `C29_direction` applies to the indefinite operator `-1`, where `definite` is set to `False` -/
example : ∃ p : ℝ, (cgSolve (Vec.op (fun v : ℝ => -v)) zeroOpts 1 {} (.fin 1) {}).1.infiniteDescent = some (.fin p) ∧ p ≠ 0 := by
  obtain ⟨p, h1, h2, -⟩ := C29_direction (⟨-LinearMap.id, 1, none, 0, 0⟩ : CGProblem ℝ) 1 {} {} rfl rfl le_rfl
    (congrArg CGObj.definite neg_solve)
  exact ⟨p, h1, h2⟩

/-- `C26_budget` for the preconditioned counterexample: two products, two residual norms, one of the products being the
one that ends the solve -/
example : (cgSolve (Vec.op (fun v : ℝ => v)) pcgOpts 1 {} (.fin 1) {}).2.length = 2 := by
  have h := (C26_budget (Vec.op (fun v : ℝ => v)) pcgOpts 1 {} (.fin 1) {} rfl).1
  rw [← h, pcg_solve]

end Verif.Solver
