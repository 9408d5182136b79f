import Verif.Solver.LogLemmas
import Verif.Solver.KrylovExamples
import Verif.Solver.CGExamples

/-!
# C84: the iteration log shows the run

`numbered` and `curved` (`LogLemmas`) are tables: a count of products and a residual norm on each line, and for CG the curvature along
the direction the product was taken with.
-/

namespace Verif.Solver
open Scalar Vect

section Any
variable {S V : Type} [Scalar S] [Vect S V]

/-- **C84** for CG.  Logging does not change what `solve` does.  Unless the symmetry check rejects the operator, in which case the log
is one error and the object is left as it was, the log is a header and a table: the first line shows the residual norm `residNorm0` of
the starting point, and line `i + 1` the `i`-th entry this call added to `residHistory`, the number of products when it was reached, and
the curvature along the direction of that product.  An error about definiteness ends the log exactly if `definite` is left false. -/
theorem C84_cg (op : V → V) (o : KrylovOpts S V) (n : Nat) (self : CGObj S V) (rhs : V) (kw : CGKw V) :
    (cgSolveLog op o n self rhs kw).1 = cgSolve op o n self rhs kw ∧
    if kw.checkSymmetric && !kw.symOK then
      (cgSolveLog op o n self rhs kw).1.1 = self ∧
      (cgSolveLog op o n self rhs kw).2 = [.error "Coefficient operator is not symmetric"]
    else
      ∃ r0 norms definite guesses,
        (cgSolveLog op o n self rhs kw).1.1.residNorm0 = some r0 ∧
        (cgSolveLog op o n self rhs kw).1.1.residHistory = self.residHistory ++ r0 :: norms ∧
        (cgSolveLog op o n self rhs kw).1.1.residNorm = (r0 :: norms).getLast? ∧
        (cgSolveLog op o n self rhs kw).1.1.definite = some definite ∧
        guesses = (if kw.guess.isSome then 1 else 0) ∧
        (cgSolveLog op o n self rhs kw).1.1.nMatvec = guesses + norms.length + (if definite then 0 else 1) ∧
        (cgSolveLog op o n self rhs kw).1.2.length = (cgSolveLog op o n self rhs kw).1.1.nMatvec ∧
        (cgSolveLog op o n self rhs kw).2 =
          [.header ["Matvec", "Resid", "Curv"], .rule, .row guesses r0 none] ++
            curved op (guesses + 1) norms ((cgSolveLog op o n self rhs kw).1.2.drop guesses) ++
            (if definite then [] else [.error "Coefficient operator is not positive definite"]) := by
  unfold cgSolveLog cgSolve
  split
  · exact ⟨rfl, rfl, rfl⟩
  · have key := cgLoopLog_inv op o.precon kw (cgInit op o kw self rhs).2 (kw.matvecMax.getD (2 * n))
      (CGLogOK op self.residHistory (cgInit op o kw self rhs).1.residNorm (cgInit op o kw self rhs).1.nMatvec
        (cgInit op o kw self rhs).1.calls [.header ["Matvec", "Resid", "Curv"], .rule,
          .row (cgInit op o kw self rhs).1.nMatvec (cgInit op o kw self rhs).1.residNorm none])
      (fun s log hs hc => cgLogOK_step op o.precon kw _ _ _ _ _ _ _ s log hs hc)
      (cgInit op o kw self rhs).1 [.header ["Matvec", "Resid", "Curv"], .rule,
        .row (cgInit op o kw self rhs).1.nMatvec (cgInit op o kw self rhs).1.residNorm none] ⟨[], [], by simp [cgInit], by simp, by simp, by simp [cgInit, curved]⟩
    obtain ⟨⟨norms, dirs, h1, h2, h3, h4⟩, h5⟩ := key
    refine ⟨by simp only [h5], ?_⟩
    have hg : (cgInit op o kw self rhs).1.nMatvec = (if kw.guess.isSome then 1 else 0) ∧
        (cgInit op o kw self rhs).1.calls.length = (cgInit op o kw self rhs).1.nMatvec := by
      unfold cgInit
      cases kw.guess <;> exact ⟨rfl, rfl⟩
    refine ⟨_, norms, _, (cgInit op o kw self rhs).1.nMatvec, rfl, h1, h3.symm, rfl, hg.1, ?_, ?_, ?_⟩
    · split at h4
      · rename_i hd; simp only [hd, if_true]; exact h4.2.1
      · rename_i hd; simp only [hd, if_neg (by simp : ¬ false = true)]; exact h4.2.1
    · simp only [h2, List.length_append, hg.2]
      split at h4
      · rw [h4.2.1, h4.1]
      · rw [h4.2.1, h4.1]; rfl
    · simp only [h2]
      rw [List.drop_append_of_le_length hg.2.ge, ← hg.2, List.drop_length, List.nil_append, hg.2]
      split at h4
      · rename_i hd; simp only [hd, if_true]; rw [h4.2.2, List.append_nil]
      · rename_i hd; simp only [hd, if_neg (by simp : ¬ false = true)]; exact h4.2.2

/-- **C84** for CG, the last line: if the call ran and left `definite` true, the log ends with a line that shows the reported `nMatvec`
and `residNorm`. -/
theorem C84_cg_last (op : V → V) (o : KrylovOpts S V) (n : Nat) (self : CGObj S V) (rhs : V) (kw : CGKw V)
    (hr : (kw.checkSymmetric && !kw.symOK) = false) (hd : (cgSolveLog op o n self rhs kw).1.1.definite = some true) :
    ∃ r c, (cgSolveLog op o n self rhs kw).1.1.residNorm = some r ∧
      (cgSolveLog op o n self rhs kw).2.getLast? = some (.row (cgSolveLog op o n self rhs kw).1.1.nMatvec r c) := by
  have key := (C84_cg op o n self rhs kw).2
  rw [if_neg (by simp [hr])] at key
  obtain ⟨r0, norms, d, g, -, -, h3, h4, -, h6, h7, h8⟩ := key
  rw [hd, Option.some.injEq] at h4
  subst h4
  simp only [if_true, Nat.add_zero, List.append_nil] at h6 h8
  have hl : norms.length = ((cgSolveLog op o n self rhs kw).1.2.drop g).length := by
    rw [List.length_drop, h7, h6]; omega
  have hlast := curved_last op (g + 1) norms _ hl (.row g r0 none) r0
  have e : ∀ l : List (Rec S), (([.header ["Matvec", "Resid", "Curv"], .rule, .row g r0 none] : List (Rec S)) ++ l).getLast? =
      (.row g r0 none :: l).getLast? := by
    intro l
    simp only [List.cons_append, List.nil_append, List.getLast?_cons_cons]
  rw [h3, h8, e, h6]
  rcases hlast with ⟨h, rfl⟩ | ⟨a, c, h, ha, hne⟩
  · exact ⟨r0, none, rfl, by rw [h]; rfl⟩
  · refine ⟨a, some c, ha, ?_⟩
    rw [h]
    congr 2
    omega

/-- **C84** for Bi-CGSTAB: logging does not change what `solve` does; the log shows the initial residual norm, the threshold, a header
and one line for each product (but the one with the guess), with the count of products and the residual norm after it.  The last line
shows what the solver reports, and no line before it was at or below the threshold. -/
theorem C84_bicgstab (op : V → V) (o : KrylovOpts S V) (n : Nat) (rhs : V) (kw : KrylovKw V) :
    (biSolveLog op o n rhs kw).1 = biSolve op o n rhs kw ∧
    ∃ norms t guesses,
      t = pymax o.abstol (o.reltol * (biSolveLog op o n rhs kw).1.1.residNorm0) ∧
      guesses = (if kw.guess.isSome then 1 else 0) ∧
      (biSolveLog op o n rhs kw).1.1.nMatvec = guesses + norms.length ∧
      some (biSolveLog op o n rhs kw).1.1.residNorm = ((biSolveLog op o n rhs kw).1.1.residNorm0 :: norms).getLast? ∧
      (biSolveLog op o n rhs kw).1.1.converged = le (biSolveLog op o n rhs kw).1.1.residNorm t ∧
      (∀ h ∈ norms.dropLast, le h t = false) ∧
      (biSolveLog op o n rhs kw).2 =
        [.initial (biSolveLog op o n rhs kw).1.1.residNorm0, .threshold t, .header ["Matvec", "Residual"], .rule] ++
          numbered (guesses + 1) 1 norms := by
  have loop : ∀ (t : S) (mm : Nat) (r0 : V) (s0 : BiLoop S V) (g : Nat) (b : S) (base : List (Rec S)), s0.nMatvec = g → s0.residNorm = b →
      (biLoopLog op o.precon t mm r0 (s0, base)).1 = biLoop op o.precon t mm r0 s0 ∧
      ∃ norms : List S, (biLoopLog op o.precon t mm r0 (s0, base)).1.nMatvec = g + norms.length ∧
        some (biLoopLog op o.precon t mm r0 (s0, base)).1.residNorm = (b :: norms).getLast? ∧
        (∀ h ∈ norms.dropLast, le h t = false) ∧
        (biLoopLog op o.precon t mm r0 (s0, base)).2 = base ++ numbered (g + 1) 1 norms := by
    intro t mm r0 s0 g b base hg hb
    have hfst : (biLoopLog op o.precon t mm r0 (s0, base)).1 = biLoop op o.precon t mm r0 s0 := by
      unfold biLoopLog biLoop
      exact logLoop_fst (cont := fun s : BiLoop S V => !s.finished) (step := biStep op o.precon t mm r0)
        (recs := biRecs op o.precon t mm r0) (μ := fun s => mm - s.nMatvec) s0 base
    refine ⟨hfst, ?_⟩
    have := whileLoop_inv (cont := fun q : BiLoop S V × List (Rec S) => !q.1.finished)
      (step := fun q => (biStep op o.precon t mm r0 q.1, q.2 ++ biRecs op o.precon t mm r0 q.1))
      (μ := fun q => mm - q.1.nMatvec) (h := fun q _ h => by
        have h1 := biStep_nMatvec op o.precon t mm r0 q.1
        have h2 := h1.2 (by simpa using h)
        simp only; omega)
      (fun q => ∃ norms : List S, q.1.nMatvec = g + norms.length ∧ some q.1.residNorm = (b :: norms).getLast? ∧
        (∀ h ∈ norms.dropLast, le h t = false) ∧ (q.1.finished = false → ∀ h ∈ norms, le h t = false) ∧
        q.2 = base ++ numbered (g + 1) 1 norms) ?_ (s0, base)
      ⟨[], by simp [hg], by simp [hb], by simp, by simp, by simp [numbered]⟩
    · obtain ⟨⟨norms, h1, h2, h3, -, h5⟩, -⟩ := this
      exact ⟨norms, h1, h2, h3, h5⟩
    · rintro ⟨s, log⟩ ⟨norms, h1, -, -, h4, h5⟩ hc
      simp only at h1 h4 h5 hc ⊢
      replace h4 := h4 (by simpa using hc)
      subst h5
      rcases biStep_log op o.precon t mm r0 s with ⟨hf, hn, hr⟩ | ⟨hn, hle, a, ha, hr⟩
      · rw [hr, hn]
        refine ⟨norms ++ [(biStep op o.precon t mm r0 s).residNorm], by simp [h1, Nat.add_assoc], ?_, by simpa using h4, by simp [hf], ?_⟩
        · rw [← List.cons_append, List.getLast?_append]; rfl
        · rw [numbered_append, List.append_assoc, h1]
          congr 4
          omega
      · rw [hr, hn]
        refine ⟨(norms ++ [a]) ++ [(biStep op o.precon t mm r0 s).residNorm], by simp [h1, Nat.add_assoc], ?_, ?_, ?_, ?_⟩
        · rw [← List.cons_append, List.getLast?_append]; rfl
        · intro h hm
          rw [List.dropLast_concat, List.mem_append, List.mem_singleton] at hm
          rcases hm with hm | rfl
          · exact h4 h hm
          · exact ha
        · intro hf h hm
          rw [List.mem_append, List.mem_append, List.mem_singleton, List.mem_singleton] at hm
          rcases hm with (hm | rfl) | rfl
          · exact h4 h hm
          · exact ha
          · exact hle hf
        · rw [numbered_append, numbered_append, List.append_assoc, List.append_assoc, h1]
          simp only [List.length_append, List.length_singleton, List.cons_append, List.nil_append, one_mul, Nat.add_right_comm _ 1,
            ← Nat.add_assoc]
  unfold biSolveLog biSolve
  cases hk : kw.guess with
  | none =>
    obtain ⟨e, norms, h1, h2, h3, h4⟩ := loop (pymax o.abstol (o.reltol * abs (sqrt (dot rhs rhs)))) (kw.matvecMax.getD (2 * n)) rhs
      { x := zeros, r := rhs, p := zeros, v := zeros, rho := lit 1, rhoNext := dot rhs rhs, alpha := lit 1, omega := lit 1,
        residNorm := abs (sqrt (dot rhs rhs)), nMatvec := 0,
        finished := le (abs (sqrt (dot rhs rhs))) (pymax o.abstol (o.reltol * abs (sqrt (dot rhs rhs)))) ||
          decide (0 ≥ kw.matvecMax.getD (2 * n)), calls := [] } 0 _
      [.initial (abs (sqrt (dot rhs rhs))), .threshold (pymax o.abstol (o.reltol * abs (sqrt (dot rhs rhs)))),
        .header ["Matvec", "Residual"], .rule] rfl rfl
    exact ⟨by simp only [Option.getD_none, Option.getD_some, e], norms, _, _, rfl, rfl, h1, h2, rfl, h3, h4⟩
  | some gs =>
    obtain ⟨e, norms, h1, h2, h3, h4⟩ := loop (pymax o.abstol (o.reltol * abs (sqrt (dot (rhs - op gs) (rhs - op gs)))))
      (kw.matvecMax.getD (2 * n)) (rhs - op gs)
      { x := gs, r := rhs - op gs, p := zeros, v := zeros, rho := lit 1, rhoNext := dot (rhs - op gs) (rhs - op gs), alpha := lit 1,
        omega := lit 1, residNorm := abs (sqrt (dot (rhs - op gs) (rhs - op gs))), nMatvec := 1,
        finished := le (abs (sqrt (dot (rhs - op gs) (rhs - op gs))))
          (pymax o.abstol (o.reltol * abs (sqrt (dot (rhs - op gs) (rhs - op gs))))) ||
          decide (1 ≥ kw.matvecMax.getD (2 * n)), calls := [gs] } 1 _
      [.initial (abs (sqrt (dot (rhs - op gs) (rhs - op gs)))),
        .threshold (pymax o.abstol (o.reltol * abs (sqrt (dot (rhs - op gs) (rhs - op gs))))),
        .header ["Matvec", "Residual"], .rule] rfl rfl
    exact ⟨by simp only [Option.getD_none, Option.getD_some, e], norms, _, _, rfl, rfl, h1, h2, rfl, h3, h4⟩

/-- **C84** for CGS, the part that holds: logging does not change what `solve` does; the log shows the initial residual norm, the
threshold and a line for each pass through the loop except the last one (two products each), whose residual norm was above the threshold.
Missing: a line for the last pass, see `C84_cgs_violated`. -/
theorem C84_cgs_partial (op : V → V) (o : KrylovOpts S V) (n : Nat) (rhs : V) (kw : KrylovKw V) :
    (cgsSolveLog op o n rhs kw).1 = cgsSolve op o n rhs kw ∧
    ∃ norms t,
      t = pymax o.abstol (o.reltol * (cgsSolveLog op o n rhs kw).1.1.residNorm0) ∧
      ((cgsSolveLog op o n rhs kw).1.1.nMatvec = 0 ∧ norms = [] ∨
        (cgsSolveLog op o n rhs kw).1.1.nMatvec = 2 * (norms.length + 1)) ∧
      (∀ h ∈ norms, le h t = false) ∧
      (cgsSolveLog op o n rhs kw).2 =
        [.initial (cgsSolveLog op o n rhs kw).1.1.residNorm0, .threshold t] ++ numbered 2 2 norms := by
  have loop : ∀ (t : S) (mm : Nat) (r0 : V) (s0 : CGSLoop S V) (base : List (Rec S)), s0.nMatvec = 0 →
      (cgsLoopLog op o.precon t mm r0 (s0, base)).1 = cgsLoop op o.precon t mm r0 s0 ∧
      ∃ norms : List S, ((cgsLoopLog op o.precon t mm r0 (s0, base)).1.nMatvec = 0 ∧ norms = [] ∨
          (cgsLoopLog op o.precon t mm r0 (s0, base)).1.nMatvec = 2 * (norms.length + 1)) ∧
        (∀ h ∈ norms, le h t = false) ∧
        (cgsLoopLog op o.precon t mm r0 (s0, base)).2 = base ++ numbered 2 2 norms := by
    intro t mm r0 s0 base h0
    have hfst : (cgsLoopLog op o.precon t mm r0 (s0, base)).1 = cgsLoop op o.precon t mm r0 s0 := by
      unfold cgsLoopLog cgsLoop
      exact logLoop_fst (cont := fun s : CGSLoop S V => !s.finished) (step := cgsStep op o.precon t mm r0)
        (recs := cgsRecs op o.precon t mm r0) (μ := fun s => mm - s.nMatvec) s0 base
    refine ⟨hfst, ?_⟩
    have := whileLoop_inv (cont := fun q : CGSLoop S V × List (Rec S) => !q.1.finished)
      (step := fun q => (cgsStep op o.precon t mm r0 q.1, q.2 ++ cgsRecs op o.precon t mm r0 q.1))
      (μ := fun q => mm - q.1.nMatvec) (h := fun q _ h => by
        have h1 := cgsStep_nMatvec op o.precon t mm r0 q.1
        have h2 := h1.2 (by simpa using h)
        simp only; omega)
      (fun q => ∃ norms : List S, (q.1.finished = false ∧ q.1.nMatvec = 2 * norms.length ∨
          q.1.finished = true ∧ (q.1.nMatvec = 0 ∧ norms = [] ∨ q.1.nMatvec = 2 * (norms.length + 1))) ∧
        (∀ h ∈ norms, le h t = false) ∧ q.2 = base ++ numbered 2 2 norms) ?_ (s0, base)
      ⟨[], by cases hf : s0.finished <;> simp [h0], by simp, by simp [numbered]⟩
    · obtain ⟨⟨norms, h1, h2, h3⟩, hf⟩ := this
      rcases h1 with ⟨h1, -⟩ | ⟨-, h1⟩
      · simp only [h1] at hf; cases hf
      · exact ⟨norms, h1, h2, h3⟩
    · rintro ⟨s, log⟩ ⟨norms, h1, h2, h3⟩ hc
      simp only at h1 h2 h3 hc ⊢
      have hsf : s.finished = false := by simpa using hc
      have hn : s.nMatvec = 2 * norms.length := by
        rcases h1 with ⟨-, h1⟩ | ⟨h1, -⟩
        · exact h1
        · rw [hsf] at h1; cases h1
      subst h3
      unfold cgsRecs
      have hstep := cgsStep_nMatvec op o.precon t mm r0 s
      cases hf : (cgsStep op o.precon t mm r0 s).finished with
      | true =>
        refine ⟨norms, Or.inr ⟨rfl, Or.inr ?_⟩, h2, by simp [hf]⟩
        rw [hstep.1, hn]; ring
      | false =>
        refine ⟨norms ++ [(cgsStep op o.precon t mm r0 s).residNorm], Or.inl ⟨rfl, ?_⟩, ?_, ?_⟩
        · rw [hstep.1, hn]; simp; ring
        · intro h hm
          rw [List.mem_append, List.mem_singleton] at hm
          rcases hm with hm | rfl
          · exact h2 h hm
          · revert hf
            unfold cgsStep
            simp only
            split
            · intro hf; cases hf
            · rename_i hle
              intro _
              simp only [Bool.or_eq_true, not_or, Bool.not_eq_true] at hle
              exact hle.1
        · simp only [hf, Bool.false_eq_true, if_false]
          rw [numbered_append, List.append_assoc, hstep.1, hn]
          congr 4
          ring
  unfold cgsSolveLog cgsSolve
  cases hk : kw.guess with
  | none =>
    obtain ⟨e, norms, h1, h2, h3⟩ := loop (pymax o.abstol (o.reltol * abs (sqrt (dot rhs rhs)))) (kw.matvecMax.getD (2 * n)) rhs
      { x := zeros, r := rhs, u := rhs, p := rhs, rho := dot rhs rhs, residNorm := abs (sqrt (dot rhs rhs)), nMatvec := 0,
        finished := le (abs (sqrt (dot rhs rhs))) (pymax o.abstol (o.reltol * abs (sqrt (dot rhs rhs)))) ||
          decide (0 ≥ kw.matvecMax.getD (2 * n)), calls := [] }
      [.initial (abs (sqrt (dot rhs rhs))), .threshold (pymax o.abstol (o.reltol * abs (sqrt (dot rhs rhs))))] rfl
    exact ⟨by simp only [Option.getD_none, e], norms, _, rfl, h1, h2, h3⟩
  | some gs =>
    obtain ⟨e, norms, h1, h2, h3⟩ := loop (pymax o.abstol (o.reltol * abs (sqrt (dot (rhs - op gs) (rhs - op gs)))))
      (kw.matvecMax.getD (2 * n)) (rhs - op gs)
      { x := gs, r := rhs - op gs, u := rhs - op gs, p := rhs - op gs, rho := dot (rhs - op gs) (rhs - op gs),
        residNorm := abs (sqrt (dot (rhs - op gs) (rhs - op gs))), nMatvec := 0,
        finished := le (abs (sqrt (dot (rhs - op gs) (rhs - op gs))))
          (pymax o.abstol (o.reltol * abs (sqrt (dot (rhs - op gs) (rhs - op gs))))) ||
          decide (0 ≥ kw.matvecMax.getD (2 * n)), calls := [gs] }
      [.initial (abs (sqrt (dot (rhs - op gs) (rhs - op gs)))),
        .threshold (pymax o.abstol (o.reltol * abs (sqrt (dot (rhs - op gs) (rhs - op gs)))))] rfl
    exact ⟨by simp only [Option.getD_some, e], norms, _, rfl, h1, h2, h3⟩

/-- **C84 is violated** by CGS: in every call that runs its loop, no line of the log shows the number of products the call reports; the
residual norm the solver stopped at is not logged. -/
theorem C84_cgs_violated (op : V → V) (o : KrylovOpts S V) (n : Nat) (rhs : V) (kw : KrylovKw V)
    (h : 0 < (cgsSolve op o n rhs kw).1.nMatvec) :
    ∀ r c, Rec.row (cgsSolve op o n rhs kw).1.nMatvec r c ∉ (cgsSolveLog op o n rhs kw).2 := by
  obtain ⟨e, norms, t, -, h1, -, h3⟩ := C84_cgs_partial op o n rhs kw
  rw [e] at h1
  intro r c hm
  rw [h3] at hm
  simp only [List.cons_append, List.nil_append, List.mem_cons, reduceCtorEq, false_or] at hm
  obtain ⟨i, a, hi, e', -⟩ := numbered_mem hm
  rw [Rec.row.injEq] at e'
  rcases h1 with ⟨h1, -⟩ | h1 <;> omega

/-- **C84** for TFQMR, the part that holds: logging does not change what `solve` does, raising included; the log shows the initial
residual norm, the threshold and a line for each pass through the loop except the last one.  Line `i` (from 0) shows `2i + 3` products and a
residual norm that failed the stopping test after `2i + 2` of them.  Missing: a line for the last pass, and the count of products that
belongs to the residual norm, see `C84_tfqmr_violated`. -/
theorem C84_tfqmr_partial (op : V → V) (o : KrylovOpts S V) (n : Nat) (rhs : V) (kw : KrylovKw V) :
    (tfSolveLog op o n rhs kw).1 = tfSolve op o n rhs kw ∧
    ∃ norms r0 t,
      t = pymax o.abstol (o.reltol * r0) ∧
      (∀ res products, tfSolve op o n rhs kw = .ok (res, products) →
        res.residNorm0 = r0 ∧ (res.nMatvec = 2 * norms.length + 1 ∨ res.nMatvec = 2 * norms.length + 2)) ∧
      (∀ e, tfSolve op o n rhs kw = .error e → norms = []) ∧
      (∀ i h, norms[i]? = some h →
        lt (h * sqrt (lit 2 * lit ((i + 1 : Nat) : ℚ) - lit 1 + lit 1 + lit 1)) t = false) ∧
      (tfSolveLog op o n rhs kw).2 = [.initial r0, .threshold t] ++ numbered 3 2 norms := by
  have loop : ∀ (t : S) (mm : Nat) (r0 : V) (s0 : TFLoop S V) (base : List (Rec S)), s0.m = none → s0.k = 0 →
      (s0.finished = false → s0.nMatvec = 1) →
      (tfLoopLog op o.precon t mm r0 (s0, base)).1 = tfLoop op o.precon t mm r0 s0 ∧
      ∃ norms : List S, ((tfLoop op o.precon t mm r0 s0).m ≠ none →
          (tfLoop op o.precon t mm r0 s0).nMatvec = 2 * norms.length + 1 ∨
          (tfLoop op o.precon t mm r0 s0).nMatvec = 2 * norms.length + 2) ∧
        ((tfLoop op o.precon t mm r0 s0).m = none → norms = []) ∧
        (∀ i h, norms[i]? = some h →
          lt (h * sqrt (lit 2 * lit ((i + 1 : Nat) : ℚ) - lit 1 + lit 1 + lit 1)) t = false) ∧
        (tfLoopLog op o.precon t mm r0 (s0, base)).2 = base ++ numbered 3 2 norms := by
    intro t mm r0 s0 base hm hk h0
    have hfst : (tfLoopLog op o.precon t mm r0 (s0, base)).1 = tfLoop op o.precon t mm r0 s0 := by
      unfold tfLoopLog tfLoop
      exact logLoop_fst (cont := fun s : TFLoop S V => !s.finished) (step := tfStep op o.precon t mm r0)
        (recs := tfRecs op o.precon t mm r0) (μ := fun s => mm - s.nMatvec) s0 base
    refine ⟨hfst, ?_⟩
    rw [← hfst]
    have := whileLoop_inv (cont := fun q : TFLoop S V × List (Rec S) => !q.1.finished)
      (step := fun q => (tfStep op o.precon t mm r0 q.1, q.2 ++ tfRecs op o.precon t mm r0 q.1))
      (μ := fun q => mm - q.1.nMatvec) (h := fun q _ h => by
        have h1 := (tfStep_nMatvec op o.precon t mm r0 q.1).1 (by simpa using h)
        simp only; omega)
      (fun q => ∃ norms : List S, (q.1.finished = false → q.1.nMatvec = 2 * norms.length + 1 ∧ q.1.k = norms.length) ∧
        (q.1.finished = true → q.1.m ≠ none → q.1.nMatvec = 2 * norms.length + 1 ∨ q.1.nMatvec = 2 * norms.length + 2) ∧
        (q.1.m = none → norms = []) ∧
        (∀ i h, norms[i]? = some h →
          lt (h * sqrt (lit 2 * lit ((i + 1 : Nat) : ℚ) - lit 1 + lit 1 + lit 1)) t = false) ∧
        q.2 = base ++ numbered 3 2 norms) ?_ (s0, base)
      ⟨[], fun hf => ⟨by simpa using h0 hf, hk⟩, fun _ h => absurd hm h, fun _ => rfl, by simp, by simp [numbered]⟩
    · obtain ⟨⟨norms, -, h1, h2, h3, h4⟩, hf⟩ := this
      exact ⟨norms, h1 (by simpa using hf), h2, h3, h4⟩
    · rintro ⟨s, log⟩ ⟨norms, h1, -, -, h3, h4⟩ hc
      simp only at h1 h3 h4 hc ⊢
      obtain ⟨h1, hk⟩ := h1 (by simpa using hc)
      have hsf : s.finished = false := by simpa using hc
      subst h4
      obtain ⟨hm', hst⟩ := tfStep_log op o.precon t mm r0 s hsf
      unfold tfRecs
      rcases hst with ⟨hf, hn⟩ | ⟨hf, hn, hk', hlt⟩
      · refine ⟨norms, fun h => ?_, fun _ _ => ?_, fun h => absurd h hm', h3, ?_⟩
        · rw [hf] at h; cases h
        · rcases hn with hn | hn
          · exact Or.inl (by rw [hn, h1])
          · exact Or.inr (by rw [hn, h1])
        · simp only [hf, if_true, List.append_nil]
      · refine ⟨norms ++ [(tfStep op o.precon t mm r0 s).residNorm], fun _ => ⟨?_, ?_⟩, fun h => ?_, fun h => absurd h hm', ?_, ?_⟩
        · rw [hn, h1, List.length_append, List.length_singleton]; ring
        · rw [hk', hk, List.length_append, List.length_singleton]
        · rw [hf] at h; cases h
        · intro i h hi
          rcases Nat.lt_trichotomy i norms.length with hl | rfl | hl
          · rw [List.getElem?_append_left hl] at hi
            exact h3 i h hi
          · rw [List.getElem?_append_right le_rfl, Nat.sub_self] at hi
            cases hi
            rw [← hk]
            exact hlt
          · rw [List.getElem?_eq_none (by simp; omega)] at hi
            cases hi
        · simp only [hf, Bool.false_eq_true, if_false]
          rw [numbered_append, List.append_assoc, hn, h1]
          congr 4
          ring
  have res : ∀ (t : S) (mm : Nat) (r0 : V) (b : S) (s0 : TFLoop S V), s0.m = none → s0.k = 0 → (s0.finished = false → s0.nMatvec = 1) →
      (tfResult t b (tfLoopLog op o.precon t mm r0 (s0, [.initial b, .threshold t])).1 =
        tfResult t b (tfLoop op o.precon t mm r0 s0)) ∧
      ∃ norms : List S,
        (∀ res products, tfResult t b (tfLoop op o.precon t mm r0 s0) = .ok (res, products) →
          res.residNorm0 = b ∧ (res.nMatvec = 2 * norms.length + 1 ∨ res.nMatvec = 2 * norms.length + 2)) ∧
        (∀ e, tfResult t b (tfLoop op o.precon t mm r0 s0) = .error e → norms = []) ∧
        (∀ i h, norms[i]? = some h →
          lt (h * sqrt (lit 2 * lit ((i + 1 : Nat) : ℚ) - lit 1 + lit 1 + lit 1)) t = false) ∧
        (tfLoopLog op o.precon t mm r0 (s0, [.initial b, .threshold t])).2 = [.initial b, .threshold t] ++ numbered 3 2 norms := by
    intro t mm r0 b s0 hm hk h0
    obtain ⟨e, norms, h1, h2, h3, h4⟩ := loop t mm r0 s0 [.initial b, .threshold t] hm hk h0
    refine ⟨by rw [e], norms, ?_, ?_, h3, h4⟩
    · intro rs products hr
      unfold tfResult at hr
      split at hr
      · cases hr
      · rename_i hmm
        cases hr
        exact ⟨rfl, h1 (by rw [hmm]; simp)⟩
    · intro e' hr
      unfold tfResult at hr
      split at hr
      · rename_i hmm; exact h2 hmm
      · cases hr
  have start : ∀ (x r0 : V) (rho b : S) (calls : List V) (f : Bool),
      let z := applyPrecon o.precon r0
      let s0 : TFLoop S V :=
        if f then
          { x := x, y := zeros, w := zeros, d := zeros, z := zeros, u := zeros, v := zeros, rho := rho, theta := lit 0, eta := lit 0,
            residNorm := b, k := 0, m := none, nMatvec := 0, finished := true, calls := calls }
        else
          { x := x, y := r0, w := r0, d := zeros, z := z, u := op z, v := op z, rho := rho, theta := lit 0, eta := lit 0,
            residNorm := b, k := 0, m := none, nMatvec := 1, finished := false, calls := calls ++ [z] }
      s0.m = none ∧ s0.k = 0 ∧ (s0.finished = false → s0.nMatvec = 1) := by
    intro x r0 rho b calls f
    cases f
    · exact ⟨rfl, rfl, fun _ => rfl⟩
    · exact ⟨rfl, rfl, fun h => by cases h⟩
  unfold tfSolveLog tfSolve
  cases hk : kw.guess with
  | none =>
    simp only [Option.getD_none]
    have hs := start zeros rhs (dot rhs rhs) (abs (sqrt (dot rhs rhs))) []
      (le (abs (sqrt (dot rhs rhs))) (pymax o.abstol (o.reltol * abs (sqrt (dot rhs rhs)))) ||
        decide (0 ≥ kw.matvecMax.getD (2 * n)))
    simp only at hs
    obtain ⟨e, norms, h1, h2, h3, h4⟩ := res (pymax o.abstol (o.reltol * abs (sqrt (dot rhs rhs))))
      (kw.matvecMax.getD (2 * n)) rhs (abs (sqrt (dot rhs rhs))) _ hs.1 hs.2.1 hs.2.2
    exact ⟨e, norms, _, _, rfl, h1, h2, h3, h4⟩
  | some gs =>
    simp only [Option.getD_some]
    have hs := start gs (rhs - op gs) (dot (rhs - op gs) (rhs - op gs)) (abs (sqrt (dot (rhs - op gs) (rhs - op gs)))) [gs]
      (le (abs (sqrt (dot (rhs - op gs) (rhs - op gs)))) (pymax o.abstol (o.reltol * abs (sqrt (dot (rhs - op gs) (rhs - op gs))))) ||
        decide (0 ≥ kw.matvecMax.getD (2 * n)))
    simp only at hs
    obtain ⟨e, norms, h1, h2, h3, h4⟩ := res (pymax o.abstol (o.reltol * abs (sqrt (dot (rhs - op gs) (rhs - op gs)))))
      (kw.matvecMax.getD (2 * n)) (rhs - op gs) (abs (sqrt (dot (rhs - op gs) (rhs - op gs)))) _ hs.1 hs.2.1 hs.2.2
    exact ⟨e, norms, _, _, rfl, h1, h2, h3, h4⟩

end Any

/-- **C84 is violated** by TFQMR: in this call (the system of `C33_converged_nan`) the last line of the log shows the reported number of
products, but not the reported residual norm. -/
theorem C84_tfqmr_violated :
    ∃ res products, tfSolve (Vec.op A3) tfOpts 3 (.fin !₂[1, 0, 0]) {} = .ok (res, products) ∧ res.nMatvec = 3 ∧
      res.residNorm = .fin (Real.sqrt (1/10)) ∧
      (tfSolveLog (Vec.op A3) tfOpts 3 (.fin !₂[1, 0, 0]) {}).2 =
        [.initial (.fin 1), .threshold (.fin (2/3)), .row 3 (.fin (Real.sqrt (1/6))) none] := by
  have hn : Scalar.abs (sqrt (dot (Vec.fin (!₂[1, 0, 0] : E3)) (.fin !₂[1, 0, 0]))) = R 1 := by
    rw [Vec.fin_dot, abs_sqrt_inner, v3_norm, R]; norm_num
  have ht : pymax (Fl.fin (2/3)) (Fl.fin 0 * R 1) = .fin (2/3) := by
    rw [R, Fl.fin_mul, Fl.fin_pymax]; norm_num
  have hle : le (R 1) (Fl.fin (2/3)) = false := by
    rw [← Bool.not_eq_true, R, Fl.fin_le]; norm_num
  have hrho : dot (Vec.fin (!₂[1, 0, 0] : E3)) (.fin !₂[1, 0, 0]) = .fin 1 := by
    rw [Vec.fin_dot, v3_inner]; norm_num
  have hs : tfSolveLog (Vec.op A3) tfOpts 3 (.fin !₂[1, 0, 0]) {} =
      (tfResult (.fin (2/3)) (R 1) (tfLoopLog (Vec.op A3) none (.fin (2/3)) 6 (.fin !₂[1, 0, 0])
        (tf0, [.initial (R 1), .threshold (.fin (2/3))])).1,
       (tfLoopLog (Vec.op A3) none (.fin (2/3)) 6 (.fin !₂[1, 0, 0]) (tf0, [.initial (R 1), .threshold (.fin (2/3))])).2) := by
    have h0 : ({
        x := .fin 0, y := .fin !₂[1, 0, 0], w := .fin !₂[1, 0, 0], d := .fin 0, z := .fin !₂[1, 0, 0],
        u := .fin !₂[1 - 0, 0 - 0 / 2, 0 - 1], v := .fin !₂[1 - 0, 0 - 0 / 2, 0 - 1], rho := .fin 1, theta := .fin 0, eta := .fin 0,
        residNorm := R 1, k := 0, m := none, nMatvec := 1, finished := false,
        calls := [] ++ [.fin !₂[1, 0, 0]] } : TFLoop Fl (Vec E3)) = tf0 := by
      simp only [tf0, v3_zero]
      norm_num
    unfold tfSolveLog
    simp only [tfOpts, hn, ht, hle, Option.getD_none]
    simp only [applyPrecon, Vec.op_fin, A3_apply, Fl.lit_eq, Rat.cast_zero, hrho, Vec.zeros_eq]
    rw [if_neg (by decide), h0]
  have hl : tfLoopLog (Vec.op A3) none (.fin (2/3)) 6 (.fin !₂[1, 0, 0]) (tf0, [.initial (R 1), .threshold (.fin (2/3))]) =
      ({ tf4 with finished := true }, [.initial (R 1), .threshold (.fin (2/3)), .row 3 (R (1/6)) none]) := by
    unfold tfLoopLog
    rw [whileLoop_of_cont rfl]
    simp only [tfRecs, tf_step1]
    rw [whileLoop_of_cont rfl]
    simp only [tfRecs, tf_step2, if_true]
    rw [whileLoop_of_not rfl]
    rfl
  have h1 := (C84_tfqmr_partial (Vec.op A3) tfOpts 3 (.fin !₂[1, 0, 0]) {}).1
  rw [hl] at hs
  rw [← h1, hs]
  exact ⟨_, _, rfl, rfl, rfl, by rw [R_one]; rfl⟩


/-- the log of a run of CG that meets a direction of zero curvature: two lines, then the error -/
example : (cgSolveLog (Vec.op (fun v : ℝ => v)) pcgOpts 1 {} (.fin 1) {}).2 =
    [.header ["Matvec", "Resid", "Curv"], .rule, .row 0 (.fin (Real.sqrt 2)) none, .row 1 (.fin (Real.sqrt 2)) (some (.fin 1)),
      .error "Coefficient operator is not positive definite"] := by
  obtain ⟨e, h⟩ := C84_cg (Vec.op (fun v : ℝ => v)) pcgOpts 1 {} (.fin 1) {}
  rw [if_neg (by simp)] at h
  obtain ⟨r0, norms, d, g, h1, h2, -, h4, h5, -, -, h8⟩ := h
  rw [e, pcg_solve] at h1 h2 h4
  cases h1
  cases h4
  simp only [List.nil_append, List.cons.injEq, true_and] at h2
  subst h2
  simp only [Option.isSome_none, Bool.false_eq_true, if_false] at h5
  subst h5
  have hc : (cgSolve (Vec.op (fun v : ℝ => v)) pcgOpts 1 {} (.fin 1) {}).2 = [.fin 1, .fin 0] := by
    unfold cgSolve
    simp only [Bool.false_and, Bool.false_eq_true, if_false, pcg_init]
    rw [cgLoop, dif_pos (by simp only [cgCont, pcg0, gt_sqrt_two]; rfl), pcg_step0, cgLoop, dif_pos (by simp only [cgCont, pcg1, gt_sqrt_two]; rfl), pcg_step1,
      cgLoop, dif_neg (by simp [cgCont, pcg2])]
    rfl
  rw [h8, e, hc]
  simp only [List.drop_zero, curved, Vec.op_fin, Vec.fin_dot, inner1, mul_one, Bool.false_eq_true, if_false, List.cons_append,
    List.nil_append]
  rfl

/-- a run of CG to which `C84_cg_last` applies: one product allowed -/
example : (cgSolveLog (Vec.op (fun v : ℝ => v)) pcgOpts 1 {} (.fin 1) { matvecMax := some 1 }).1.1.definite = some true ∧
    (cgSolveLog (Vec.op (fun v : ℝ => v)) pcgOpts 1 {} (.fin 1) { matvecMax := some 1 }).1.1.nMatvec = 1 := by
  rw [(C84_cg _ _ _ _ _ _).1]
  have hi : cgInit (Vec.op (fun v : ℝ => v)) pcgOpts { matvecMax := some 1 } {} (.fin 1) = (pcg0, .fin (1/100)) := pcg_init
  have hs : cgStep (Vec.op (fun v : ℝ => v)) pcgOpts.precon { matvecMax := some 1 } pcg0 = pcg1 := pcg_step0
  unfold cgSolve
  simp only [Bool.false_and, Bool.false_eq_true, if_false, hi, Option.getD_some]
  rw [cgLoop, dif_pos (by simp only [cgCont, pcg0, gt_sqrt_two]; rfl), hs, cgLoop, dif_neg (by simp [cgCont, pcg1])]
  exact ⟨rfl, rfl⟩

/-- a run of CGS to which `C84_cgs_violated` applies: `2 x = 6` from the guess 1 -/
example : (cgsSolve (Vec.op lin1.A) lin1.opts 1 (.fin lin1.b) { guess := some (.fin 1) }).1.nMatvec = 2 := by
  have hA : ∀ v, lin1.A v = 2 * v := fun v => rfl
  have e1 : (6 - 2 * 1 : ℝ) = 4 := by norm_num
  have e2 : (Fl.fin (4 * 4) / Fl.fin (4 * (2 * 4)) : Fl) = .fin (1/2) := by
    rw [Fl.fin_div _ (by norm_num)]; norm_num
  have e4 : (4 - 1/2 * (2 * 4) : ℝ) = 0 := by norm_num
  have e5 : (4 + 0 : ℝ) = 4 := by norm_num
  have hn : Scalar.abs (sqrt (Fl.fin (4 * 4))) = Fl.fin 4 := by
    rw [Fl.fin_sqrt (by norm_num), Real.sqrt_mul_self (by norm_num), Fl.fin_abs]; norm_num
  have hle : le (Fl.fin 4) (Fl.fin (max 0 (0 * 4))) = false := by rw [← Bool.not_eq_true, Fl.fin_le]; norm_num
  simp only [cgsSolve, LinProblem.opts, lin1] at *
  simp only [Vec.op_fin, hA, Vec.fin_sub, e1, Vec.fin_dot, inner1', hn, Fl.fin_mul, Fl.fin_pymax, hle, Option.getD_some]
  unfold cgsLoop
  rw [whileLoop_of_cont (by simp), whileLoop_of_not]
  · exact (cgsStep_nMatvec _ _ _ _ _ _).1
  · simp only [cgsStep, applyPrecon, Vec.op_fin, hA, Vec.fin_dot, inner1', e2, Vec.fin_smul, smul_eq_mul, Vec.fin_sub, Vec.fin_add, e4, e5, Vec.fin_norm]
    norm_num

end Verif.Solver
