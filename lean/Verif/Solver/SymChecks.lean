import Verif.Solver.MinresFindings
import Verif.Solver.SymmlqExact
import Verif.Solver.MinresCodes

/-!
# The symmetry checks of MINRES and SYMMLQ: C60
-/

namespace Verif.Solver
open Scalar Vect

section anyArithmetic
variable {S V : Type} [Scalar S] [Vect S V]

/-- **C60 for MINRES, rejection.** For every arithmetic, operator, preconditioner, right-hand side, state of the solver object
and options: with `check=True` and an operator that `check_symmetric` refuses, `solve` returns the zero vector without any
product with the operator, not converged, with code 7, or 8 if the preconditioner is refused as well; if only the
preconditioner is refused, the code is 8. -/
theorem C60_minres_rejects (op : V → V) (eps : S) (n : Nat) (self : MinresObj S V) (b : V) (kw : MinresKw S V)
    (hk : kw.check = true) (hbad : kw.symOK = false ∨ kw.precon.isSome = true ∧ kw.preconSymOK = false) :
    ∃ res, minresSolve op eps n self b kw = .ok (res, []) ∧ res.x = zeros ∧ res.converged = false ∧ res.itn = 0 ∧
      res.residHistory = self.residHistory ∧
      res.istop = if kw.precon.isSome = true ∧ kw.preconSymOK = false then 8 else 7 := by
  have he : minresEntry kw b = (if kw.precon.isSome = true ∧ kw.preconSymOK = false then (8 : Int) else 7, true) := by
    unfold minresEntry
    simp only [hk, Bool.true_and]
    cases h1 : kw.precon.isSome <;> cases h2 : kw.preconSymOK <;> cases h3 : kw.symOK <;> simp [h1, h2, h3] at hbad ⊢
  unfold minresSolve
  simp only [he, if_true]
  refine ⟨_, rfl, rfl, ?_, rfl, rfl, ?_⟩
  · simp only [minresResult, minresInit, he, minresConverged]
    split <;> simp
  · simp only [minresResult, minresInit, he]

/-- **C60 for MINRES, acceptance.** For every arithmetic: if `check_symmetric` accepts the operator and the preconditioner,
`solve` does exactly what it does with `check=False`. -/
theorem C60_minres_accepts (op : V → V) (eps : S) (n : Nat) (self : MinresObj S V) (b : V) (kw : MinresKw S V)
    (hA : kw.symOK = true) (hM : kw.precon.isSome = true → kw.preconSymOK = true) :
    minresSolve op eps n self b kw = minresSolve op eps n self b { kw with check := false } := by
  have he : minresEntry kw b = minresEntry { kw with check := false } b := by
    unfold minresEntry
    cases h1 : kw.precon.isSome <;> cases h2 : kw.preconSymOK <;> simp [h1, h2, hA] at hM ⊢
  have hi : minresInit kw self b = minresInit { kw with check := false } self b := by
    unfold minresInit
    rw [he]
    rfl
  have hl : ∀ lim beta1 s, minresLoop op eps kw lim beta1 s = minresLoop op eps { kw with check := false } lim beta1 s := by
    intro lim beta1 s
    rfl
  unfold minresSolve
  rw [he, hi]
  rfl

/-- **C60 for SYMMLQ, rejection; negative.** For every arithmetic, right-hand side with `b'Mb > 0` and options with
`check=True`, and a solver object with the missing attribute `matvec`: if the operator or the preconditioner fails the
symmetry test, `solve` raises `UnboundLocalError` (variable `lqnorm`). -/
theorem C60_symmlq_rejects (self : SymmlqObj V) (mv : V → V) (hm : self.matvec = some mv) (n : Nat) (hn : n ≠ 0) (b : V)
    (kw : SymmlqKw S) (hk : kw.check = true) (hb : lt (lit 0) (dot b (applyPrecon self.precon b)) = true)
    (hbad : (∃ M, self.precon = some M ∧ symmlqUnsym kw (M b) b (M (M b)) = true) ∨
      ∃ v, v = smul (lit 1 / sqrt (dot b (applyPrecon self.precon b))) (applyPrecon self.precon b) ∧
        symmlqUnsym kw (mv v) v (self.op (mv v)) = true) :
    symmlqSolve self n b kw = .error (.unboundLocal "lqnorm") := by
  have hd : (symmlqStart self kw mv b).2.2 = true := by
    unfold symmlqStart
    simp only [hk, Bool.true_and]
    rcases hbad with ⟨M, hM, hu⟩ | ⟨v, rfl, hu⟩
    · have he : (symmlqEntry self kw b).2 = true := by
        unfold symmlqEntry
        simp only [hM, applyPrecon, hk, hu, Bool.true_and, if_true]
        split <;> split <;> rfl
      split <;> [rfl; skip]
      split <;> [rfl; exact he]
    · simp only [hu, if_true]
      split <;> rfl
  unfold symmlqSolve
  rw [if_neg hn]
  simp only [gt, hb, if_true, hm, hd]
  rfl

/-- **C60 for SYMMLQ, acceptance.** For every arithmetic, right-hand side and options: if the operator and the preconditioner
pass the symmetry tests, `solve` does exactly what it does with `check=False`. -/
theorem C60_symmlq_accepts (self : SymmlqObj V) (mv : V → V) (hm : self.matvec = some mv) (n : Nat) (b : V)
    (kw : SymmlqKw S)
    (hM : ∀ M, self.precon = some M → symmlqUnsym kw (M b) b (M (M b)) = false)
    (hA : ∀ v, v = smul (lit 1 / sqrt (dot b (applyPrecon self.precon b))) (applyPrecon self.precon b) →
        symmlqUnsym kw (mv v) v (self.op (mv v)) = false) :
    symmlqSolve self n b kw = symmlqSolve self n b { kw with check := false } := by
  have he : symmlqEntry self kw b = symmlqEntry self { kw with check := false } b := by
    unfold symmlqEntry
    cases hp : self.precon with
    | none => rfl
    | some M => simp only [applyPrecon, hM M hp, Bool.and_false, Bool.false_and]
  have hs : symmlqStart self kw mv b = symmlqStart self { kw with check := false } mv b := by
    unfold symmlqStart
    rw [he]
    simp only [hA _ rfl, Bool.and_false, Bool.false_and, Bool.false_eq_true, if_false]
    rfl
  unfold symmlqSolve
  rw [hm]
  simp only [hs]
  rfl

end anyArithmetic

section exact
open scoped RealInnerProductSpace
variable {E : Type} [NormedAddCommGroup E] [InnerProductSpace ℝ E]

/-- **C60 for SYMMLQ, symmetric operators.** In exact arithmetic, a symmetric operator passes the symmetry test of SYMMLQ. -/
theorem C60_symmlq_symmetric (A : E →ₗ[ℝ] E) (hA : ∀ u v, ⟪A u, v⟫ = ⟪u, A v⟫) (kw : SymmlqKw Fl) (eps eps3 : ℝ)
    (he : kw.eps = .fin eps) (he3 : kw.eps3 = .fin eps3) (h0 : 0 ≤ eps) (h3 : 0 ≤ eps3) (v : Vec E) :
    symmlqUnsym kw (Vec.op A v) v (Vec.op A (Vec.op A v)) = false := by
  unfold symmlqUnsym
  rw [he, he3]
  cases v with
  | nan => simp [Vec.op, gt]
  | fin v =>
    rw [← Bool.not_eq_true, gt]
    simp only [Vec.op_fin, Vec.fin_dot, Fl.fin_sub, Fl.fin_add, Fl.fin_mul, Fl.fin_abs, Fl.fin_lt, not_lt]
    rw [← hA v (A v), sub_self, abs_zero]
    exact mul_nonneg (add_nonneg real_inner_self_nonneg h0) h3

/-- the hypotheses of `C60_symmlq_symmetric` are met by the exchange of two coordinates -/
example (v : Vec (EuclideanSpace ℝ (Fin 2))) :
    symmlqUnsym { rtol := .fin 0, eps := .fin (1/100), eps3 := .fin (1/5) } (Vec.op swapOp v) v
      (Vec.op swapOp (Vec.op swapOp v)) = false :=
  C60_symmlq_symmetric swapOp swapOp_symm _ (1/100) (1/5) rfl rfl (by norm_num) (by norm_num) v

/-- the hypotheses of `C60_symmlq_accepts` are met: with a symmetric operator, `check=True` changes nothing -/
example (b : Vec (EuclideanSpace ℝ (Fin 2))) :=
  C60_symmlq_accepts { op := Vec.op swapOp, precon := none, matvec := some (Vec.op swapOp) } (Vec.op swapOp) rfl 2 b
    { rtol := .fin 0, eps := .fin (1/100), eps3 := .fin (1/5), check := true } (fun _ h => nomatch h)
    (fun v _ => C60_symmlq_symmetric swapOp swapOp_symm _ (1/100) (1/5) rfl rfl (by norm_num) (by norm_num) v)

/-- **C60 for SYMMLQ, the test.** In exact arithmetic the operator is rejected for the vector `v` exactly when `⟪Av, Av⟫` and
`⟪v, A(Av)⟫`, which are equal for a symmetric operator, differ by more than `(⟪Av, Av⟫ + eps) eps^(1/3)`, whichever of them is
the larger. -/
theorem C60_symmlq_test (A : E → E) (kw : SymmlqKw Fl) (eps eps3 : ℝ) (he : kw.eps = .fin eps) (he3 : kw.eps3 = .fin eps3) (v : E) :
    symmlqUnsym kw (.fin (A v)) (.fin v) (Vec.op A (.fin (A v))) = true ↔
      (⟪A v, A v⟫ + eps) * eps3 < ⟪A v, A v⟫ - ⟪v, A (A v)⟫ ∨ (⟪A v, A v⟫ + eps) * eps3 < ⟪v, A (A v)⟫ - ⟪A v, A v⟫ := by
  unfold symmlqUnsym
  rw [he, he3, gt]
  simp only [Vec.op_fin, Vec.fin_dot, Fl.fin_sub, Fl.fin_add, Fl.fin_mul, Fl.fin_abs, Fl.fin_lt, lt_abs, neg_sub]

/-- the rotation by a right angle, which is not symmetric -/
def rotOp : EuclideanSpace ℝ (Fin 2) → EuclideanSpace ℝ (Fin 2) := fun v => !₂[-v 1, v 0]

/-- the hypotheses of `C60_symmlq_rejects` are met by a rotation -/
theorem C60_symmlq_rotation :
    symmlqSolve { op := Vec.op rotOp, precon := none, matvec := some (Vec.op rotOp) } 2 (.fin !₂[1, 0])
      { rtol := .fin 0, eps := .fin (1/100), eps3 := .fin (1/5), check := true } = .error (.unboundLocal "lqnorm") := by
  have hd : (inner ℝ (!₂[1, 0] : EuclideanSpace ℝ (Fin 2)) !₂[1, 0] : ℝ) = 1 := by
    simp [EuclideanSpace.norm_eq, Fin.sum_univ_two]
  have hs : (smul (lit 1 / sqrt (dot (Vec.fin (!₂[1, 0] : EuclideanSpace ℝ (Fin 2))) (Vec.fin !₂[1, 0])))
      (Vec.fin (!₂[1, 0] : EuclideanSpace ℝ (Fin 2))) : Vec (EuclideanSpace ℝ (Fin 2))) = Vec.fin !₂[1, 0] := by
    rw [Vec.fin_dot, hd, Fl.fin_sqrt zero_le_one, Real.sqrt_one, Fl.lit_eq, Fl.fin_div _ one_ne_zero, Vec.fin_smul]
    simp
  refine C60_symmlq_rejects _ _ rfl 2 (by decide) _ _ rfl ?_ (Or.inr ⟨_, rfl, ?_⟩)
  · simp only [applyPrecon, Vec.fin_dot, hd, Fl.lit_eq, Fl.fin_lt]
    norm_num
  · simp only [applyPrecon]
    rw [hs]
    unfold symmlqUnsym
    simp only [Vec.op_fin, Vec.fin_dot, Fl.fin_sub, Fl.fin_add, Fl.fin_mul, Fl.fin_abs, gt, Fl.fin_lt]
    norm_num [rotOp, EuclideanSpace.norm_eq, PiLp.inner_apply, Fin.sum_univ_two]

/-- `⟪v, A(Av)⟫` can be the larger one: `A e₁ = e₂`, `A e₂ = 10 e₁`, `v = e₁` -/
example : symmlqUnsym ({ rtol := .fin 0, eps := .fin (1/100), eps3 := .fin (1/5) } : SymmlqKw Fl)
    (.fin ((fun v : EuclideanSpace ℝ (Fin 2) => !₂[10 * v 1, v 0]) !₂[1, 0])) (.fin !₂[1, 0])
    (Vec.op (fun v : EuclideanSpace ℝ (Fin 2) => !₂[10 * v 1, v 0])
      (.fin ((fun v : EuclideanSpace ℝ (Fin 2) => !₂[10 * v 1, v 0]) !₂[1, 0]))) = true :=
  (C60_symmlq_test (fun v : EuclideanSpace ℝ (Fin 2) => !₂[10 * v 1, v 0]) _ (1/100) (1/5) rfl rfl _).2 (Or.inr (by
    norm_num [EuclideanSpace.norm_eq, PiLp.inner_apply, Fin.sum_univ_two]))

/-- the hypotheses of `C60_minres_rejects` are met -/
example (self : MinresObj Fl (Vec ℝ)) :=
  C60_minres_rejects (Vec.op twoProblem.A) (.fin 0) 1 self (.fin 3) { twoProblem.kw with symOK := false } rfl (Or.inl rfl)

/-- the hypotheses of `C60_minres_accepts` are met -/
example (self : MinresObj Fl (Vec ℝ)) :=
  C60_minres_accepts (Vec.op twoProblem.A) (.fin 0) 1 self (.fin 3) twoProblem.kw rfl (fun h => nomatch h)

/-- the hypotheses of `C34_codes` are met: five iterations with `A = 2` of order one -/
example (self : MinresObj Fl (Vec ℝ)) :
    ∃ res products, minresSolve (Vec.op twoProblem.A) (.fin 0) 1 self (.fin 3) twoProblem.kw = .ok (res, products) ∧
      res.itn ≠ 0 := by
  obtain ⟨res, products, h, -, -, -, h5⟩ := C34_beta2_nan twoProblem (by norm_num [twoProblem]) 2 (by simp [twoProblem])
    (by decide) 0 (le_refl _) 1 (by decide) self
  obtain ⟨res', products', h', -, hi, -⟩ := C34_status_partial (Vec.op twoProblem.A) (.fin 0) 1 self (.fin 3) twoProblem.kw
    (by decide)
  rw [show (Vec.fin (3 : ℝ)) = Vec.fin twoProblem.b from rfl] at h'
  rw [h] at h'
  simp only [Except.ok.injEq, Prod.mk.injEq] at h'
  obtain ⟨rfl, rfl⟩ := h'
  refine ⟨res, products, h, ?_⟩
  rw [hi, h5]
  decide

end exact

end Verif.Solver
