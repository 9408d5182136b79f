import Verif.Solver.LogSymmlqLemmas
import Verif.Solver.SymmlqConvProps

/-!
# C96: the log of SYMMLQ shows the run and says why it ended

`SymLine.itn` (`LogSymmlqLemmas`) is the number of the iteration in a line of the table.
-/

namespace Verif.Solver
open Scalar Vect
open scoped RealInnerProductSpace
open MinresMath (krylov)

/-! ### Specification -/

/-- the reasons for ending and how they are worded -/
def symmlqReasons : List (Int × String) :=
  [(-1, " beta2 = 0.  If M = I, b and x are eigenvectors"),
   (0, " beta1 = 0.  The exact solution is  x = 0"),
   (1, " Requested accuracy achieved, as determined by rtol"),
   (2, " Reasonable accuracy achieved, given eps"),
   (3, " x has converged to an eigenvector"),
   (4, " acond has exceeded 0.1/eps"),
   (5, " The iteration limit was reached"),
   (6, " aprod  does not define a symmetric matrix")]

/-- the code and the message of a log that ends with the four lines after the loop -/
def EndsWith {S : Type} (log before : List (SymLine S)) (istop : Int) (itn : Nat) (anorm acond residNorm xNorm : S) : Prop :=
  ∃ text, (istop, text) ∈ symmlqReasons ∧
    log = before ++ [.stop istop itn, .estimates anorm acond, .norms residNorm xNorm, .message text]

section Any
variable {S V : Type} [Scalar S] [Vect S V]

theorem symLog_code {eps : S} {n mm : Nat} {top log : List (SymLine S)} {s : SymmlqLoop S V} (h : SymLog eps n mm top s log) (h0 : s.itn ≠ 0) :
    (s.istop, symmlqMsg s.istop) ∈ symmlqReasons := by
  cases hb : s.broke with
  | true =>
    rcases h.stopped hb with ⟨hi, -⟩ | ⟨hi, -⟩
    · simp only [List.mem_cons, List.not_mem_nil, or_false] at hi
      rcases hi with hi | hi | hi | hi | hi <;> rw [hi] <;> decide
    · rw [hi]; decide
  | false => rw [(h.going hb).2 h0]; decide

/-- **C96.**  Logging does not change what `solve` returns or raises. -/
theorem C96_same (head : V → S) (self : SymmlqObj V) (n : Nat) (b : V) (kw : SymmlqKw S) :
    (symmlqSolveLog head self n b kw).1 = symmlqSolve self n b kw := by
  unfold symmlqSolveLog symmlqSolve
  simp only
  split
  · rfl
  split
  · cases self.matvec with
    | none => rfl
    | some mv =>
      simp only
      cases (symmlqStart self kw mv b).2.2
      · simp only [Bool.false_eq_true, if_false, symmlqLoopLog_fst]
        cases (symmlqLoop self kw (kw.matvecMax.getD (2 * n + 2)) (symmlqStart self kw mv b).2.1 (symmlqStart self kw mv b).1).lqDiag <;> rfl
      · rfl
  · rfl

/-- **C96.**  A call that returns: the log is some lines of which one shows the start (iteration 0), a table of iterations `1, 2, …` in
order, complete for at most 40 unknowns and ending with the reported `anorm` and `acond`, and four lines that show the stop code, the number
of iterations, the reported numbers, and the message of the code. -/
theorem C96_table (head : V → S) (self : SymmlqObj V) (n : Nat) (b : V) (kw : SymmlqKw S) (run : SymmlqRes S V × List V)
    (h : symmlqSolve self n b kw = .ok run) :
    ∃ top rows istop itn, EndsWith (symmlqSolveLog head self n b kw).2 (top ++ rows) istop itn run.1.anorm run.1.acond run.1.residNorm
        run.1.xNorm ∧
      top.filterMap SymLine.itn = [0] ∧ 1 ≤ itn ∧ (rows.map SymLine.itn).Sublist ((List.range' 1 itn).map some) ∧
      (n ≤ 40 → rows.map SymLine.itn = (List.range' 1 itn).map some ∧
        ∃ x1 cg qr bs, rows.getLast? = some (.row itn x1 cg qr bs (some (run.1.anorm, run.1.acond)))) := by
  rw [← C96_same head] at h
  obtain ⟨s, top, rows, h1, h2, h3, h4, -, -, h7, h8, -⟩ := symmlqSolveLog_ok head self n b kw run h
  obtain ⟨rows', e, h9, h10⟩ := h3.rows
  rw [List.append_cancel_left_eq] at e
  subst e
  exact ⟨top, rows, s.istop, s.itn, ⟨_, symLog_code h3 h4, h1⟩, h2, Nat.one_le_iff_ne_zero.2 h4, h9, fun h40 => ⟨(h10 h40).1, by rw [h7, h8]; exact (h10 h40).2 h4⟩⟩

/-- **C96 (partial).**  Which message ends the log, for every call that returns.  The codes -1, 1, 2, 3, 4: a test ended the iterations,
within the budget, and there was one product for each iteration and one at the end.  Code 4 is given only if the
reported `acond` is at least `0.1/eps`.  Code 6: `⟨r, M r⟩` was negative.  Missing: the
iterations were ended by the budget, see `C96_limit_violated`. -/
theorem C96_message_partial (head : V → S) (self : SymmlqObj V) (n : Nat) (b : V) (kw : SymmlqKw S) (run : SymmlqRes S V × List V)
    (h : symmlqSolve self n b kw = .ok run) :
    ∃ before istop itn, EndsWith (symmlqSolveLog head self n b kw).2 before istop itn run.1.anorm run.1.acond run.1.residNorm
        run.1.xNorm ∧
      (istop = 4 → ge run.1.acond (lit (1/10) / kw.eps) = true) ∧
      (istop ∈ ([-1, 1, 2, 3, 4] : List Int) ∧ run.1.nMatvec = itn + 1 ∧ run.1.nMatvec ≤ kw.matvecMax.getD (2 * n + 2) ∨
        istop = 6 ∧ run.1.nMatvec = itn + 2 ∧ run.1.nMatvec ≤ kw.matvecMax.getD (2 * n + 2) + 1 ∨
        istop = 0 ∧ run.1.nMatvec = itn + 2 ∧ run.1.nMatvec = kw.matvecMax.getD (2 * n + 2) + 1) := by
  rw [← C96_same head] at h
  obtain ⟨s, top, rows, h1, -, h3, h4, h5, h6, -, h8, -⟩ := symmlqSolveLog_ok head self n b kw run h
  refine ⟨top ++ rows, s.istop, s.itn, ⟨_, symLog_code h3 h4, h1⟩, by rw [h8]; exact h3.cond, ?_⟩
  have hm := h3.most h4
  cases hb : s.broke with
  | true =>
    rcases h3.stopped hb with ⟨hi, e1, e2⟩ | ⟨hi, e1⟩
    · exact .inl ⟨hi, by omega, by omega⟩
    · exact .inr (.inl ⟨hi, by omega, by omega⟩)
  | false =>
    obtain ⟨e1, e2⟩ := h3.going hb
    simp only [symmlqCont, hb, Bool.not_false, Bool.true_and, decide_eq_false_iff_not, not_lt] at h5
    exact .inr (.inr ⟨e2 h4, by omega, by omega⟩)

/-- **C96, negative.**  No call that returns ever logs that the iteration limit was reached.  If the log ends with the message that
`beta1 = 0` and zero is the exact solution, then this is false: `⟨b, M b⟩ > 0`, and it was the limit that ended the iterations
(`matvec_max` products, and one for the residual). -/
theorem C96_limit_violated (head : V → S) (self : SymmlqObj V) (n : Nat) (b : V) (kw : SymmlqKw S) (run : SymmlqRes S V × List V)
    (h : symmlqSolve self n b kw = .ok run) :
    (symmlqSolveLog head self n b kw).2.getLast? ≠ some (.message " The iteration limit was reached") ∧
    ((symmlqSolveLog head self n b kw).2.getLast? = some (.message " beta1 = 0.  The exact solution is  x = 0") →
      gt (dot b (applyPrecon self.precon b)) (lit 0) = true ∧ run.1.nMatvec = kw.matvecMax.getD (2 * n + 2) + 1) := by
  have hg : gt (dot b (applyPrecon self.precon b)) (lit 0) = true := by
    rw [← C96_same head] at h
    obtain ⟨s, top, rows, -, -, -, -, -, -, -, -, h9, -⟩ := symmlqSolveLog_ok head self n b kw run h
    exact h9
  obtain ⟨before, istop, itn, ⟨text, ht, hl⟩, -, hc⟩ := C96_message_partial head self n b kw run h
  have hlast : (symmlqSolveLog head self n b kw).2.getLast? = some (.message text) := by
    rw [hl, List.getLast?_append]; rfl
  rw [hlast]
  simp only [Option.some.injEq, SymLine.message.injEq, ne_eq]
  simp only [symmlqReasons, List.mem_cons, Prod.mk.injEq, List.not_mem_nil, or_false] at ht
  rcases hc with ⟨hi, -, -⟩ | ⟨rfl, -, -⟩ | ⟨rfl, -, e⟩
  · simp only [List.mem_cons, List.not_mem_nil, or_false] at hi
    rcases hi with rfl | rfl | rfl | rfl | rfl <;> norm_num at ht <;> subst ht <;> exact ⟨by decide, fun h => absurd h (by decide)⟩
  · norm_num at ht
    subst ht
    exact ⟨by decide, fun h => absurd h (by decide)⟩
  · norm_num at ht
    subst ht
    exact ⟨by decide, fun _ => ⟨hg, e⟩⟩

/-- **C96, negative.**  Without preconditioner, in any arithmetic in which `⟨r, r⟩ < 0` never holds: whenever the limit ends the iterations
(the call took more than `matvec_max` products), the log ends with the message that zero is the exact solution. -/
theorem C96_limit_message (head : V → S) (self : SymmlqObj V) (n : Nat) (b : V) (kw : SymmlqKw S) (run : SymmlqRes S V × List V)
    (h : symmlqSolve self n b kw = .ok run) (hp : self.precon = none) (hnn : ∀ r : V, lt (dot r r : S) (lit 0) = false)
    (hlim : kw.matvecMax.getD (2 * n + 2) < run.1.nMatvec) :
    (symmlqSolveLog head self n b kw).2.getLast? = some (.message " beta1 = 0.  The exact solution is  x = 0") := by
  rw [← C96_same head] at h
  obtain ⟨s, top, rows, h1, -, h3, h4, h5, h6, -, -, -, mv, -, hd, hs, -⟩ := symmlqSolveLog_ok head self n b kw run h
  have h6' : s.istop ≠ 6 := by rw [hs]; exact symmlqLoop_not_six self kw _ _ _ hp hnn (by
    rcases symmlqStart_istop self kw mv b hd with h | h <;> rw [h] <;> decide)
  have hi : s.istop = 0 := by
    cases hb : s.broke with
    | true =>
      rcases h3.stopped hb with ⟨-, -, e2⟩ | ⟨hi, -⟩
      · omega
      · exact absurd hi h6'
    | false => exact (h3.going hb).2 h4
  rw [h1, List.getLast?_append]
  simp only [symmlqExit, hi]
  rfl

/-- **C96.**  A call that raises logs no reason for having ended. -/
theorem C96_raises (head : V → S) (self : SymmlqObj V) (n : Nat) (b : V) (kw : SymmlqKw S) (e : PyError)
    (h : symmlqSolve self n b kw = .error e) (text : String) : .message text ∉ (symmlqSolveLog head self n b kw).2 := by
  rw [← C96_same head] at h
  have hE : .message text ∉ symmlqEnter self n kw (kw.matvecMax.getD (2 * n + 2)) := by
    unfold symmlqEnter
    cases symmlqShift kw <;> simp
  unfold symmlqSolveLog at h ⊢
  simp only at h ⊢
  split at h
  · rename_i hn
    rw [if_pos hn]
    exact hE
  rename_i hn
  rw [if_neg hn]
  split at h
  swap
  · rename_i hg
    rw [if_neg hg]
    simp only [List.mem_append, List.mem_singleton, reduceCtorEq, or_false]
    exact hE
  rename_i hg
  rw [if_pos hg]
  cases hm : self.matvec with
  | none => exact hE
  | some mv =>
    rw [hm] at h
    simp only at h ⊢
    have hT : .message text ∉ symmlqEnter self n kw (kw.matvecMax.getD (2 * n + 2)) ++ symmlqFirst self kw mv b ++
        symmlqTop (symmlqStart self kw mv b).2.1 (symmlqStart self kw mv b).1 := by
      simp only [List.mem_append, not_or]
      exact ⟨⟨hE, by simp [symmlqFirst]⟩, by simp [symmlqTop]⟩
    cases hd : (symmlqStart self kw mv b).2.2 with
    | true =>
      have : (symmlqStart self kw mv b).1.lqDiag = none := rfl
      simp only [if_true, this]
      exact hT
    | false =>
      simp only [hd, Bool.false_eq_true, if_false] at h ⊢
      generalize symmlqEnter self n kw (kw.matvecMax.getD (2 * n + 2)) ++ symmlqFirst self kw mv b ++
        symmlqTop (symmlqStart self kw mv b).2.1 (symmlqStart self kw mv b).1 = top at h hT ⊢
      have hL : .message text ∉ (symmlqLoopLog head n self kw (kw.matvecMax.getD (2 * n + 2)) (symmlqStart self kw mv b).2.1
          (head (applyPrecon self.precon b)) (symmlqStart self kw mv b).1 top).2 := by
        unfold symmlqLoopLog
        refine traceWhile_inv (fun _ (log : List (SymLine S)) => SymLine.message text ∉ log) (fun s w hs _ => ?_) hT
        simp only [List.mem_append, not_or]
        refine ⟨hs, ?_⟩
        unfold symmlqRow
        simp only
        split <;> simp
      generalize symmlqLoopLog head n self kw (kw.matvecMax.getD (2 * n + 2)) (symmlqStart self kw mv b).2.1
        (head (applyPrecon self.precon b)) (symmlqStart self kw mv b).1 top = q at h hL ⊢
      cases hq : q.1.lqDiag with
      | none => exact hL
      | some p => rw [hq] at h; cases h

/-- The hypothesis of `C96_raises`: every call on an object as the constructor leaves it. -/
example (op : V → V) (precon : Option (V → V)) (n : Nat) (b : V) (kw : SymmlqKw S) :
    ∃ e, symmlqSolve (symmlqNew op precon) n b kw = .error e := by
  unfold symmlqSolve symmlqNew
  simp only
  repeat' split
  all_goals exact ⟨_, rfl⟩

end Any

/-! ### Exact arithmetic -/

/-- **C96 (partial).**  Exact arithmetic, `A` symmetric, no preconditioner, `b ≠ 0`, any budget, the client has set the attribute `matvec`.
Unless the stop code is 0 (the limit, `C96_message_partial`) or the compression of `B = A - shift I` to the Krylov space is singular, the
message at the end of the log is true of the returned `x`.  "Requested accuracy achieved": `‖b - B x‖ ≤ rtol anorm ‖x‖`.  "Reasonable
accuracy achieved": the same with `eps`.  "x has converged to an eigenvector": `‖b‖ ≤ eps anorm ‖x‖`.  "acond has exceeded 0.1/eps": the
reported `acond` has.  "b and x are eigenvectors": `‖b - B x‖ |⟨b, B b⟩| ≤ eps ‖b‖³`. -/
theorem C96_reason_partial {E : Type} [NormedAddCommGroup E] [InnerProductSpace ℝ E] (head : Vec E → Fl) (q : SymmlqProblem E) (n : ℕ)
    (hA : ∀ u v, ⟪q.A u, v⟫ = ⟪u, q.A v⟫) (hb : q.b ≠ 0) (hrt : 0 ≤ q.rtol) (he : 0 < q.eps) (he3 : 0 ≤ q.eps3)
    (run : SymmlqRes Fl (Vec E) × List (Vec E)) (h : symmlqSolve q.obj n (.fin q.b) q.kw = .ok run) :
    ∃ before istop itn, EndsWith (symmlqSolveLog head q.obj n (.fin q.b) q.kw).2 before istop itn run.1.anorm run.1.acond run.1.residNorm
        run.1.xNorm ∧
      (istop = 0 ∨ ∃ (x : E) (a : ℝ) (k : ℕ), run.1.x = .fin x ∧ run.1.residNorm = .fin ‖q.b - q.B x‖ ∧ run.1.anorm = .fin a ∧
        run.1.nMatvec = k + 1 ∧
        ((∃ u ∈ krylov q.B q.b k, u ≠ 0 ∧ ∀ z ∈ krylov q.B q.b k, ⟪q.B u, z⟫ = 0) ∨
         (istop = 1 ∧ ‖q.b - q.B x‖ ≤ q.rtol * a * ‖x‖ ∨ istop = 2 ∧ ‖q.b - q.B x‖ ≤ q.eps * a * ‖x‖ ∨
          istop = 3 ∧ ‖q.b‖ ≤ q.eps * a * ‖x‖ ∨ istop = 4 ∧ (∃ c, run.1.acond = .fin c ∧ 1 / 10 / q.eps ≤ c) ∨
          istop = -1 ∧ ‖q.b - q.B x‖ * |⟪q.b, q.B q.b⟫| ≤ q.eps * ‖q.b‖ ^ 3))) := by
  rw [← C96_same head] at h
  obtain ⟨s, top, rows, h1, -, h3, h4, -, -, -, -, -, mv, hmv, -, hs, l, d, hl, hrun⟩ := symmlqSolveLog_ok head q.obj n (.fin q.b) q.kw run h
  refine ⟨top ++ rows, s.istop, s.itn, ⟨_, symLog_code h3 h4, h1⟩, ?_⟩
  have : mv = Vec.op q.A := (Option.some.inj hmv).symm
  subst this
  obtain ⟨g1, g2, -⟩ := symmlqStart_exact q hA hb he he3
  have hb1 : (symmlqStart q.obj q.kw (Vec.op q.A) (Vec.fin q.b)).2.1 = .fin ‖q.b‖ := congrArg Prod.fst g1
  rw [hb1] at hs hrun
  have hloop := symmlqLoop_inv q.obj q.kw (q.kw.matvecMax.getD (2 * n + 2)) (.fin ‖q.b‖) (fun s => QGood q s ∨ QEnd q s)
    (fun s hs hc => by
      rcases hs with hs | hs
      · exact symmlqStep_exact q hA he _ s hs hc
      · simp [symmlqCont, hs.broke] at hc) _ (Or.inl g2)
  rw [← hs] at hloop
  obtain ⟨hg | hg, -⟩ := hloop
  · exact .inl ((h3.going hg.broke).2 h4)
  · right
    obtain ⟨l', d', hl', x, a, k, e1, e2, -, e4, e5, -, -, -, -, e10⟩ := symmlqFinish_exact q hA hb hrt he s hg
    rw [hl, Option.some.injEq, Prod.mk.injEq] at hl'
    obtain ⟨rfl, rfl⟩ := hl'
    rw [← hrun] at e1 e2 e4 e5 e10
    exact ⟨x, a, k, e1, e2, e4, e5, e10.imp_right And.right⟩

/-- The hypotheses of `C96_reason_partial`: `[[2, 1], [1, 2]] x = (1, 0)`. -/
example : ∃ run, symmlqSolve (planeProblem (1/1000) (1/10) none).obj 2 (.fin 1) (planeProblem (1/1000) (1/10) none).kw = .ok run ∧
    (∀ u v, ⟪(planeProblem (1/1000) (1/10) none).A u, v⟫ = ⟪u, (planeProblem (1/1000) (1/10) none).A v⟫) ∧
    (planeProblem (1/1000) (1/10) none).b ≠ 0 := by
  obtain ⟨res, products, h⟩ := C36_returns_with_matvec_partial (Vec.op planeTwoOne) (Vec.op planeTwoOne) 2 two_ne_zero (1 : ℂ) one_ne_zero
    (planeProblem (1/1000) (1/10) none).kw rfl (by decide)
  exact ⟨_, h, planeTwoOne_symm, one_ne_zero⟩

/-! ### The case -/

/-- The hypotheses of the theorems above, and the finding: for the positive definite matrix `[[2, 1], [1, 2]]`, the right-hand side `(1, 0)`
and `matvec_max=2` the log ends with the message that zero is the exact solution; the `x` returned is not zero and its residual is larger than
that of zero (`C56_budget_wrong`). -/
theorem C96_wrong_message (head : Vec ℂ → Fl) (eps rtol : ℝ) (he : 0 < eps) (he' : eps ≤ 1 / 100) :
    ∃ res products x, symmlqSolve (planeProblem eps rtol (some 2)).obj 2 (.fin 1) (planeProblem eps rtol (some 2)).kw =
      .ok (res, products) ∧ res.nMatvec = 3 ∧ res.x = .fin x ∧ ‖(1 : ℂ)‖ < ‖(1 : ℂ) - planeTwoOne x‖ ∧
      (symmlqSolveLog head (planeProblem eps rtol (some 2)).obj 2 (.fin 1) (planeProblem eps rtol (some 2)).kw).2.getLast? =
        some (.message " beta1 = 0.  The exact solution is  x = 0") := by
  obtain ⟨res, products, x, h, hx, -, hlt, hn⟩ := C56_budget_wrong eps rtol he he'
  refine ⟨res, products, x, h, hn, hx, hlt, C96_limit_message head _ _ _ _ _ h rfl (fun r => ?_) ?_⟩
  · cases r with
    | nan => simp
    | fin r =>
      rw [← Bool.not_eq_true, Vec.fin_dot, Fl.lit_eq, Fl.fin_lt]
      simpa using real_inner_self_nonneg (x := r)
  · have hm : (planeProblem eps rtol (some 2)).kw.matvecMax.getD (2 * 2 + 2) = 2 := rfl
    simp only [hm, hn]
    decide

end Verif.Solver
