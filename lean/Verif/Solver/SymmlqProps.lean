import Verif.Solver.Symmlq
import Verif.Solver.Exact

/-!
# Properties of SYMMLQ: C36
-/

namespace Verif.Solver
open Scalar Vect

variable {S V : Type} [Scalar S] [Vect S V]

/-- **C36, negative.** For every arithmetic, operator, preconditioner, right-hand side and keywords, `Symmlq(op).solve`
raises an exception: `AttributeError` for `matvec` if `b'Mb > 0`, `UnboundLocalError` for `x1cg` otherwise (for instance for
a zero right-hand side), `IndexError` if the vector is empty. -/
theorem C36_always_raises (op : V → V) (precon : Option (V → V)) (n : Nat) (b : V) (kw : SymmlqKw S) :
    symmlqSolve (symmlqNew op precon) n b kw = .error
      (if n = 0 then .indexError
       else if gt (dot b (applyPrecon precon b)) (lit 0) then .attribute "matvec" else .unboundLocal "x1cg") := by
  unfold symmlqSolve symmlqNew
  simp only
  split <;> [rfl; skip]
  split <;> rfl

/-- invariant for the counters -/
structure SymmlqInv (matvecMax : Nat) (s : SymmlqLoop S V) : Prop where
  calls : s.calls.length = s.nMatvec
  le : s.nMatvec ≤ max 1 matvecMax
  bound : s.itn ≠ 0 → s.lqDiag ≠ none

theorem symmlqStep_inv (self : SymmlqObj V) (kw : SymmlqKw S) (lim : Nat) (beta1 : S) (s : SymmlqLoop S V)
    (hs : SymmlqInv lim s) (hc : symmlqCont lim s = true) : SymmlqInv lim (symmlqStep self kw lim beta1 s) := by
  simp only [symmlqCont, Bool.and_eq_true, Bool.not_eq_true', decide_eq_true_eq] at hc
  have h1 := hs.calls
  unfold symmlqStep
  simp only
  have ht : SymmlqInv lim (symmlqTest kw lim beta1 s) := ⟨h1, hs.le, by simp [symmlqTest]⟩
  have hn : (symmlqTest kw lim beta1 s).nMatvec = s.nMatvec := rfl
  have hd : (symmlqTest kw lim beta1 s).lqDiag ≠ none := by simp [symmlqTest]
  generalize symmlqTest kw lim beta1 s = t at ht hn hd
  split
  · exact ht
  · unfold symmlqUpdate
    simp only
    split
    · refine ⟨by simp [ht.calls], ?_, fun _ => hd⟩
      simp only; omega
    · refine ⟨by simp [ht.calls], ?_, fun _ => hd⟩
      simp only; omega

theorem symmlqStep_itn (self : SymmlqObj V) (kw : SymmlqKw S) (lim : Nat) (beta1 : S) (s : SymmlqLoop S V) :
    (symmlqStep self kw lim beta1 s).itn = s.itn + 1 := by
  unfold symmlqStep
  simp only
  split
  · rfl
  · unfold symmlqUpdate
    simp only
    split <;> rfl

theorem symmlqLoop_inv (self : SymmlqObj V) (kw : SymmlqKw S) (lim : Nat) (beta1 : S) (P : SymmlqLoop S V → Prop)
    (hstep : ∀ s, P s → symmlqCont lim s = true → P (symmlqStep self kw lim beta1 s)) (s : SymmlqLoop S V) (hs : P s) :
    P (symmlqLoop self kw lim beta1 s) ∧ symmlqCont lim (symmlqLoop self kw lim beta1 s) = false :=
  whileLoop_inv P hstep s hs

theorem symmlqStart_inv (self : SymmlqObj V) (kw : SymmlqKw S) (lim : Nat) (mv : V → V) (b : V) :
    SymmlqInv lim (symmlqStart self kw mv b).1 :=
  ⟨rfl, Nat.le_max_left .., fun h => absurd rfl h⟩

/-- **C36 (partial).** For every arithmetic, operator, preconditioner, right-hand side and keywords, and whatever attribute
`matvec` the client has given the solver object: if `solve` returns, then `residNorm` is the norm of `b - A x` (of
`b - (A - shift I) x` with a nonzero shift) for the returned `x`, `xNorm` is the norm of `x`, and `nMatvec` is the number
of products counted, at most one more than `matvec_max` (default `2n+2`).
Missing, because the code violates it: that `solve` returns (`C36_always_raises`). -/
theorem C36_returned_partial (self : SymmlqObj V) (n : Nat) (b : V) (kw : SymmlqKw S) (res : SymmlqRes S V)
    (products : List V) (h : symmlqSolve self n b kw = .ok (res, products)) :
    res.residNorm = norm (b - match kw.shift with
      | none => self.op res.x
      | some σ => if feq σ (lit 0) then self.op res.x else self.op res.x - smul σ res.x) ∧
    res.xNorm = norm res.x ∧
    res.nMatvec = products.length ∧ res.nMatvec ≤ max 1 (kw.matvecMax.getD (2 * n + 2)) + 1 := by
  unfold symmlqSolve at h
  simp only at h
  split at h <;> [cases h; skip]
  split at h <;> [skip; cases h]
  split at h <;> [cases h; skip]
  rename_i mv hmv
  have hinv : SymmlqInv (kw.matvecMax.getD (2 * n + 2)) (if (symmlqStart self kw mv b).2.2 = true then (symmlqStart self kw mv b).1
      else symmlqLoop self kw (kw.matvecMax.getD (2 * n + 2)) (symmlqStart self kw mv b).2.1 (symmlqStart self kw mv b).1) := by
    split
    · exact symmlqStart_inv ..
    · exact (symmlqLoop_inv self kw _ _ _ (symmlqStep_inv self kw _ _) _ (symmlqStart_inv ..)).1
  generalize (if (symmlqStart self kw mv b).2.2 = true then (symmlqStart self kw mv b).1
      else symmlqLoop self kw (kw.matvecMax.getD (2 * n + 2)) (symmlqStart self kw mv b).2.1 (symmlqStart self kw mv b).1) = s
    at h hinv
  split at h <;> [cases h; skip]
  injection h with h
  unfold symmlqFinish at h
  simp only [Prod.mk.injEq] at h
  obtain ⟨rfl, rfl⟩ := h
  have h1 := hinv.calls
  have h2 := hinv.le
  refine ⟨?_, rfl, by simp [h1], by simp only; omega⟩
  simp only [subShift, symmlqShift]
  cases kw.shift with
  | none => rfl
  | some σ =>
    simp only
    cases feq σ (lit 0) <;> rfl

/-- **C36 (partial).** In exact arithmetic, for every operator, nonzero right-hand side and keywords without `check` and with
`matvec_max >= 2` (the default is): once the client has given the solver object the missing attribute `matvec`, `solve`
without preconditioner returns. -/
theorem C36_returns_with_matvec_partial {E : Type} [NormedAddCommGroup E] [InnerProductSpace ℝ E] (op mv : Vec E → Vec E)
    (n : Nat) (hn : n ≠ 0) (b : E) (hb : b ≠ 0) (kw : SymmlqKw Fl) (hk : kw.check = false)
    (hm : 2 ≤ kw.matvecMax.getD (2 * n + 2)) :
    ∃ res products, symmlqSolve { op := op, precon := none, matvec := some mv } n (.fin b) kw = .ok (res, products) := by
  unfold symmlqSolve
  have hpos : 0 < (inner ℝ b b : ℝ) := by rw [real_inner_self_eq_norm_mul_norm]; exact mul_self_pos.2 (norm_ne_zero_iff.2 hb)
  have hg : gt (dot (Vec.fin b) (applyPrecon none (Vec.fin b))) (lit 0) = true := by
    change lt (lit 0) (Fl.fin (inner ℝ b b)) = true
    rw [Fl.lit_eq, Fl.fin_lt]; simpa using hpos
  simp only [hn, if_false, hg, if_true]
  have hnn : ∀ r : Vec E, lt (dot r r) (lit 0) = false := by
    intro r
    cases r with
    | nan => simp
    | fin r =>
      rw [← Bool.not_eq_true, Vec.fin_dot, Fl.lit_eq, Fl.fin_lt]
      simpa using real_inner_self_nonneg (x := r)
  have he : symmlqEntry { op := op, precon := none, matvec := some mv } kw (Vec.fin b) = (0, false) := by
    have hf : feq (Fl.fin (inner ℝ b b)) (lit 0) = false := by
      have : le (Fl.fin (inner ℝ b b)) (lit 0) = false := by
        rw [← Bool.not_eq_true, Fl.lit_eq, Fl.fin_le, not_le, Rat.cast_zero]; exact hpos
      unfold feq; rw [this]; rfl
    have hl : lt (Fl.fin (inner ℝ b b)) (lit 0) = false := hnn (.fin b)
    unfold symmlqEntry
    simp only [applyPrecon, Vec.fin_dot, hf, hl]
    rfl
  have hd : (symmlqStart { op := op, precon := none, matvec := some mv } kw mv (Vec.fin b)).2.2 = false := by
    unfold symmlqStart
    simp only [he, hk, applyPrecon, hnn, Bool.false_and, Bool.false_eq_true, if_false]
  simp only [hd, Bool.false_eq_true, if_false]
  generalize kw.matvecMax.getD (2 * n + 2) = lim at hm
  have hc : symmlqCont lim (symmlqStart { op := op, precon := none, matvec := some mv } kw mv (Vec.fin b)).1 = true := by
    have h1 : (symmlqStart { op := op, precon := none, matvec := some mv } kw mv (Vec.fin b)).1.broke = false := rfl
    have h2 : (symmlqStart { op := op, precon := none, matvec := some mv } kw mv (Vec.fin b)).1.nMatvec = 1 := rfl
    simp only [symmlqCont, h1, h2]; simp; omega
  have hl : symmlqLoop { op := op, precon := none, matvec := some mv } kw lim
        (symmlqStart { op := op, precon := none, matvec := some mv } kw mv (Vec.fin b)).2.1
        (symmlqStart { op := op, precon := none, matvec := some mv } kw mv (Vec.fin b)).1 =
      symmlqLoop { op := op, precon := none, matvec := some mv } kw lim
        (symmlqStart { op := op, precon := none, matvec := some mv } kw mv (Vec.fin b)).2.1
        (symmlqStep { op := op, precon := none, matvec := some mv } kw lim
          (symmlqStart { op := op, precon := none, matvec := some mv } kw mv (Vec.fin b)).2.1
          (symmlqStart { op := op, precon := none, matvec := some mv } kw mv (Vec.fin b)).1) := by
    unfold symmlqLoop
    rw [whileLoop_of_cont hc]
  rw [hl]
  obtain ⟨⟨h1, h2⟩, -⟩ := symmlqLoop_inv { op := op, precon := none, matvec := some mv } kw lim
    (symmlqStart { op := op, precon := none, matvec := some mv } kw mv (Vec.fin b)).2.1
    (fun s => SymmlqInv lim s ∧ s.itn ≠ 0)
    (fun s hs hc => ⟨symmlqStep_inv _ _ _ _ s hs.1 hc, by rw [symmlqStep_itn]; omega⟩)
    (symmlqStep { op := op, precon := none, matvec := some mv } kw lim
          (symmlqStart { op := op, precon := none, matvec := some mv } kw mv (Vec.fin b)).2.1
          (symmlqStart { op := op, precon := none, matvec := some mv } kw mv (Vec.fin b)).1)
    ⟨symmlqStep_inv _ _ _ _ _ (symmlqStart_inv ..) hc, by rw [symmlqStep_itn]; omega⟩
  generalize symmlqLoop (S := Fl) (V := Vec E) _ _ _ _ _ = s at h1 h2
  have := h1.bound h2
  rcases hq : s.lqDiag with _ | ⟨q1, q2⟩
  · exact absurd hq this
  · exact ⟨_, _, rfl⟩

/-- the hypotheses of `C36_returns_with_matvec_partial`, and so those of `C36_returned_partial`, are met: `A = 2`, of order
one, and `b = 3` -/
example : ∃ res products, symmlqSolve
      { op := Vec.op (fun v : ℝ => 2 * v), precon := none, matvec := some (Vec.op (fun v : ℝ => 2 * v)) }
      1 (.fin 3) { rtol := .fin 0, eps := .fin 0, eps3 := .fin 0 } =
      .ok (res, products) ∧ res.nMatvec ≤ 5 := by
  obtain ⟨res, products, h⟩ := C36_returns_with_matvec_partial (Vec.op (fun v : ℝ => 2 * v)) (Vec.op (fun v : ℝ => 2 * v)) 1
    (by decide) 3 (by norm_num) { rtol := .fin 0, eps := .fin 0, eps3 := .fin 0 } rfl (by decide)
  exact ⟨res, products, h, (C36_returned_partial _ _ _ _ _ _ h).2.2.2⟩

end Verif.Solver
