import Verif.Solver.LogSymmlq

/-!
# Helper lemmas about the log of SYMMLQ
-/

namespace Verif.Solver
open Scalar Vect

variable {S V : Type} [Scalar S] [Vect S V]

/-- the number of the iteration that a line of the table shows -/
def SymLine.itn : SymLine S → Option Nat
  | .row k _ _ _ _ _ => some k
  | _ => none

theorem symmlqTests_code (kw : SymmlqKw S) {mm k : Nat} (h : k < mm) (ac ex er cg b1 : S) {i : Int} (hi : i = 0 ∨ i = -1) :
    symmlqTests kw mm k ac ex er cg b1 i ∈ ([-1, 0, 1, 2, 3, 4] : List Int) := by
  unfold symmlqTests
  rcases hi with rfl | rfl
  · simp only [if_true, ge_iff_le, not_le.2 h, if_false]
    repeat' split
    all_goals simp
  · rw [if_neg (by decide)]
    simp

theorem symmlqStart_istop (self : SymmlqObj V) (kw : SymmlqKw S) (mv : V → V) (b : V) (h : (symmlqStart self kw mv b).2.2 = false) :
    (symmlqStart self kw mv b).1.istop = 0 ∨ (symmlqStart self kw mv b).1.istop = -1 := by
  have hE : (symmlqEntry self kw b).2 = false → (symmlqEntry self kw b).1 = 0 := by
    unfold symmlqEntry
    simp only
    cases self.precon <;> simp only <;> repeat' split
    all_goals simp
  unfold symmlqStart at h ⊢
  simp only at h ⊢
  split
  · exact .inr rfl
  · left
    revert h
    repeat' split
    all_goals first | exact hE | (intro h; cases h)

theorem symmlqTests_cond (kw : SymmlqKw S) {mm k : Nat} (ac ex er cg b1 : S) {i : Int} (hi : i = 0 ∨ i = -1)
    (h : symmlqTests kw mm k ac ex er cg b1 i = 4) : ge ac (lit (1/10) / kw.eps) = true := by
  by_contra hn
  revert h
  unfold symmlqTests
  simp only [hn, if_false]
  rcases hi with rfl | rfl
  · repeat' split
    all_goals decide
  · rw [if_neg (by decide)]
    decide

/-- what holds of the loop and the lines `rows` that it has written -/
structure SymLog (eps : S) (n mm : Nat) (top : List (SymLine S)) (s : SymmlqLoop S V) (log : List (SymLine S)) : Prop where
  fresh : s.itn = 0 ↔ s.lqDiag = none
  start : s.itn = 0 → (s.istop = 0 ∨ s.istop = -1)
  most : s.itn ≠ 0 → s.nMatvec ≤ mm
  going : s.broke = false → s.nMatvec = s.itn + 1 ∧ (s.itn ≠ 0 → s.istop = 0)
  stopped : s.broke = true → (s.istop ∈ ([-1, 1, 2, 3, 4] : List Int) ∧ s.nMatvec = s.itn ∧ s.nMatvec < mm) ∨
    (s.istop = 6 ∧ s.nMatvec = s.itn + 1)
  cond : s.istop = 4 → ge s.acond (lit (1/10) / eps) = true
  rows : ∃ rows, log = top ++ rows ∧ (rows.map SymLine.itn).Sublist ((List.range' 1 s.itn).map some) ∧
    (n ≤ 40 → rows.map SymLine.itn = (List.range' 1 s.itn).map some ∧
      (s.itn ≠ 0 → ∃ x1 cg qr bs, rows.getLast? = some (.row s.itn x1 cg qr bs (some (s.anorm, s.acond)))))

theorem symLog_start (n mm : Nat) (top : List (SymLine S)) (self : SymmlqObj V) (kw : SymmlqKw S) (mv : V → V) (b : V)
    (h : (symmlqStart self kw mv b).2.2 = false) : SymLog kw.eps n mm top (symmlqStart self kw mv b).1 top := by
  have hi := symmlqStart_istop self kw mv b h
  have h0 : (symmlqStart self kw mv b).1.itn = 0 := rfl
  refine ⟨⟨fun _ => rfl, fun _ => rfl⟩, fun _ => hi, fun h => absurd rfl h, fun _ => ⟨rfl, fun h => absurd rfl h⟩, fun h => (nomatch h),
    fun h => by rcases hi with h' | h' <;> (rw [h'] at h; cases h), [],
    by simp, by simp, fun _ => ⟨by rw [h0]; rfl, fun h => absurd rfl h⟩⟩

theorem symLog_step (head : V → S) {n mm : Nat} {top : List (SymLine S)} (self : SymmlqObj V) (kw : SymmlqKw S) (beta1 b1 : S)
    {s : SymmlqLoop S V} {log : List (SymLine S)} (hs : SymLog kw.eps n mm top s log) (hc : symmlqCont mm s = true) :
    SymLog kw.eps n mm top (symmlqStep self kw mm beta1 s) (log ++ symmlqRow head n kw mm beta1 b1 s) := by
  simp only [symmlqCont, Bool.and_eq_true, Bool.not_eq_true', decide_eq_true_eq] at hc
  obtain ⟨hb, hlt⟩ := hc
  obtain ⟨hn, hz⟩ := hs.going hb
  have hi : s.istop = 0 ∨ s.istop = -1 := by
    by_cases h : s.itn = 0
    · exact hs.start h
    · exact .inl (hz h)
  obtain ⟨t, ht⟩ : ∃ t, t = symmlqTest kw mm beta1 s := ⟨_, rfl⟩
  have e1 : t.itn = s.itn + 1 := by rw [ht]; rfl
  have e2 : t.nMatvec = s.nMatvec := by rw [ht]; rfl
  have e3 : t.broke = decide (t.istop ≠ 0) := by rw [ht]; rfl
  have e4 : t.istop ∈ ([-1, 0, 1, 2, 3, 4] : List Int) := by rw [ht]; exact symmlqTests_code kw hlt _ _ _ _ _ hi
  have e6 : t.istop = 4 → ge t.acond (lit (1/10) / kw.eps) = true := by rw [ht]; exact fun h => symmlqTests_cond kw _ _ _ _ _ hi h
  have e5 : t.lqDiag ≠ none := by rw [ht]; simp [symmlqTest]
  -- the lines
  have hrows : ∃ rows, log ++ symmlqRow head n kw mm beta1 b1 s = top ++ rows ∧
      (rows.map SymLine.itn).Sublist ((List.range' 1 (s.itn + 1)).map some) ∧
      (n ≤ 40 → rows.map SymLine.itn = (List.range' 1 (s.itn + 1)).map some ∧
        ∃ x1 cg qr bs, rows.getLast? = some (.row (s.itn + 1) x1 cg qr bs (some (t.anorm, t.acond)))) := by
    obtain ⟨rows, rfl, h1, h2⟩ := hs.rows
    have hr : List.range' 1 (s.itn + 1) = List.range' 1 s.itn ++ [s.itn + 1] := by
      rw [List.range'_concat]; simp [Nat.add_comm]
    refine ⟨rows ++ symmlqRow head n kw mm beta1 b1 s, by simp, ?_, fun h40 => ?_⟩
    · rw [hr, List.map_append, List.map_append]
      refine List.Sublist.append h1 ?_
      unfold symmlqRow
      simp only
      split
      · rw [← ht, ← e1]; exact List.Sublist.refl _
      · exact List.nil_sublist _
    · have hone : symmlqRow head n kw mm beta1 b1 s = [.row (s.itn + 1) (head s.x + head s.w * (s.rhs1 / (if feq s.gbar (lit 0) then t.anorm * kw.eps else s.gbar)) + b1 * ((s.snprod * (s.rhs1 / (if feq s.gbar (lit 0) then t.anorm * kw.eps else s.gbar)) + s.bstep) / beta1)) t.cgnorm (s.snprod * beta1) (s.bstep / beta1) (some (t.anorm, t.acond))] := by
        unfold symmlqRow
        simp only [decide_eq_true h40, Bool.true_or, if_true]
        rw [← ht, e1]
      rw [hone, hr, List.map_append, List.map_append, (h2 h40).1]
      exact ⟨rfl, _, _, _, _, by rw [List.getLast?_append]; rfl⟩
  unfold symmlqStep
  rw [← ht]
  simp only
  clear ht
  split
  · rename_i hbr
    rw [hbr, eq_comm, decide_eq_true_eq] at e3
    refine ⟨by simp [e1, e5], by simp [e1], fun _ => by omega, fun h => ?_, fun _ => .inl ⟨?_, by omega, by omega⟩, e6, ?_⟩
    · rw [hbr] at h; cases h
    · simp only [List.mem_cons, List.not_mem_nil, or_false] at e4 ⊢
      rcases e4 with h | h | h | h | h | h <;> simp_all
    · rw [e1]
      obtain ⟨rows, a, b, c⟩ := hrows
      exact ⟨rows, a, b, fun h => ⟨(c h).1, fun _ => (c h).2⟩⟩
  · rename_i hbr
    rw [Bool.not_eq_true] at hbr
    rw [hbr, eq_comm, decide_eq_false_iff_not, not_not] at e3
    have u1 : ∀ t : SymmlqLoop S V, (symmlqUpdate self kw t).itn = t.itn ∧ (symmlqUpdate self kw t).nMatvec = t.nMatvec + 1 ∧
        (symmlqUpdate self kw t).lqDiag = t.lqDiag ∧ (symmlqUpdate self kw t).anorm = t.anorm ∧ (symmlqUpdate self kw t).acond = t.acond ∧
        ((symmlqUpdate self kw t).istop = 6 ∧ (symmlqUpdate self kw t).broke = true ∨
          (symmlqUpdate self kw t).istop = t.istop ∧ (symmlqUpdate self kw t).broke = t.broke) := by
      intro t
      unfold symmlqUpdate
      simp only
      split
      · exact ⟨rfl, rfl, rfl, rfl, rfl, .inl ⟨rfl, rfl⟩⟩
      · exact ⟨rfl, rfl, rfl, rfl, rfl, .inr ⟨rfl, rfl⟩⟩
    obtain ⟨v1, v2, v3, v4, v5, v6⟩ := u1 t
    generalize symmlqUpdate self kw t = u at *
    refine ⟨by simp [v1, v3, e1, e5], by simp [v1, e1], fun _ => by omega, fun h => ⟨by omega, fun _ => ?_⟩, fun h => .inr ⟨?_, by omega⟩, fun h => ?_, ?_⟩
    · rcases v6 with ⟨-, h'⟩ | ⟨h', -⟩
      · rw [h] at h'; cases h'
      · rw [h', e3]
    · rcases v6 with ⟨h', -⟩ | ⟨-, h'⟩
      · exact h'
      · rw [h, hbr] at h'; cases h'
    · rcases v6 with ⟨h', -⟩ | ⟨h', -⟩
      · rw [h'] at h; cases h
      · rw [h', e3] at h; cases h
    · rw [v1, v4, v5, e1]
      obtain ⟨rows, a, b, c⟩ := hrows
      exact ⟨rows, a, b, fun h => ⟨(c h).1, fun _ => (c h).2⟩⟩

theorem symmlqLoopLog_fst (head : V → S) (n : Nat) (self : SymmlqObj V) (kw : SymmlqKw S) (mm : Nat) (beta1 b1 : S) (s : SymmlqLoop S V)
    (log : List (SymLine S)) : (symmlqLoopLog head n self kw mm beta1 b1 s log).1 = symmlqLoop self kw mm beta1 s := by
  unfold symmlqLoopLog symmlqLoop
  rw [traceWhile_fst]

/-- how a call that returns ends -/
theorem symmlqSolveLog_ok (head : V → S) (self : SymmlqObj V) (n : Nat) (b : V) (kw : SymmlqKw S) (run : SymmlqRes S V × List V)
    (h : (symmlqSolveLog head self n b kw).1 = .ok run) :
    ∃ s top rows, (symmlqSolveLog head self n b kw).2 = top ++ rows ++ symmlqExit s run.1 ∧ top.filterMap SymLine.itn = [0] ∧
      SymLog kw.eps n (kw.matvecMax.getD (2 * n + 2)) top s (top ++ rows) ∧ s.itn ≠ 0 ∧ symmlqCont (kw.matvecMax.getD (2 * n + 2)) s = false ∧
      run.1.nMatvec = s.nMatvec + 1 ∧ run.1.anorm = s.anorm ∧ run.1.acond = s.acond ∧
      gt (dot b (applyPrecon self.precon b)) (lit 0) = true ∧ ∃ mv, self.matvec = some mv ∧
        (symmlqStart self kw mv b).2.2 = false ∧
        s = symmlqLoop self kw (kw.matvecMax.getD (2 * n + 2)) (symmlqStart self kw mv b).2.1 (symmlqStart self kw mv b).1 ∧
        ∃ l d, s.lqDiag = some (l, d) ∧ run = symmlqFinish self kw (symmlqStart self kw mv b).2.1 b s l d := by
  unfold symmlqSolveLog at h ⊢
  simp only at h ⊢
  split at h
  · cases h
  split at h
  swap
  · cases h
  rename_i hn hg
  rw [if_neg hn, if_pos hg]
  cases hm : self.matvec with
  | none => rw [hm] at h; cases h
  | some mv =>
    rw [hm] at h
    simp only at h ⊢
    cases hd : (symmlqStart self kw mv b).2.2 with
    | true =>
      have : (symmlqStart self kw mv b).1.lqDiag = none := rfl
      simp only [hd, if_true, this] at h
      cases h
    | false =>
      simp only [hd, Bool.false_eq_true, if_false] at h ⊢
      generalize htop : symmlqEnter self n kw (kw.matvecMax.getD (2 * n + 2)) ++ symmlqFirst self kw mv b ++
        symmlqTop (symmlqStart self kw mv b).2.1 (symmlqStart self kw mv b).1 = top at h ⊢
      have hT : top.filterMap SymLine.itn = [0] := by
        rw [← htop]
        unfold symmlqEnter symmlqFirst symmlqTop
        cases symmlqShift kw <;> rfl
      have hL := traceWhile_inv (cont := symmlqCont (kw.matvecMax.getD (2 * n + 2)))
        (step := symmlqStep self kw (kw.matvecMax.getD (2 * n + 2)) (symmlqStart self kw mv b).2.1)
        (μ := fun s => kw.matvecMax.getD (2 * n + 2) - s.nMatvec)
        (h := fun s h h' => by
          simp only [symmlqCont, Bool.and_eq_true, decide_eq_true_eq, Bool.not_eq_true'] at h h'
          rcases symmlqStep_nMatvec self kw (kw.matvecMax.getD (2 * n + 2)) (symmlqStart self kw mv b).2.1 s with hb | hn
          · rw [hb] at h'; exact absurd h'.1 (by simp)
          · omega)
        (ev := fun s _ => symmlqRow head n kw (kw.matvecMax.getD (2 * n + 2)) (symmlqStart self kw mv b).2.1
          (head (applyPrecon self.precon b)) s)
        (SymLog kw.eps n (kw.matvecMax.getD (2 * n + 2)) top) (fun s w hs hc => symLog_step head self kw _ _ hs hc)
        (symLog_start n (kw.matvecMax.getD (2 * n + 2)) top self kw mv b hd)
      have hC : symmlqCont (kw.matvecMax.getD (2 * n + 2)) (symmlqLoop self kw (kw.matvecMax.getD (2 * n + 2))
          (symmlqStart self kw mv b).2.1 (symmlqStart self kw mv b).1) = false := by
        unfold symmlqLoop
        exact (whileLoop_inv (fun _ => True) (fun _ _ _ => trivial) _ trivial).2
      change SymLog kw.eps n (kw.matvecMax.getD (2 * n + 2)) top (symmlqLoopLog head n self kw (kw.matvecMax.getD (2 * n + 2))
        (symmlqStart self kw mv b).2.1 (head (applyPrecon self.precon b)) (symmlqStart self kw mv b).1 top).1
        (symmlqLoopLog head n self kw (kw.matvecMax.getD (2 * n + 2)) (symmlqStart self kw mv b).2.1 (head (applyPrecon self.precon b))
          (symmlqStart self kw mv b).1 top).2 at hL
      have hF := symmlqLoopLog_fst head n self kw (kw.matvecMax.getD (2 * n + 2)) (symmlqStart self kw mv b).2.1
        (head (applyPrecon self.precon b)) (symmlqStart self kw mv b).1 top
      rw [← hF] at hC
      generalize symmlqLoopLog head n self kw (kw.matvecMax.getD (2 * n + 2)) (symmlqStart self kw mv b).2.1
        (head (applyPrecon self.precon b)) (symmlqStart self kw mv b).1 top = q at h hL hC hF ⊢
      cases hq : q.1.lqDiag with
      | none => rw [hq] at h; cases h
      | some p =>
        rw [hq] at h
        simp only [Except.ok.injEq] at h ⊢
        subst h
        have hne : q.1.itn ≠ 0 := by
          intro h0
          rw [hL.fresh.1 h0] at hq; cases hq
        obtain ⟨rows, hr, -⟩ := hL.rows
        refine ⟨q.1, top, rows, by rw [hr], hT, by rw [← hr]; exact hL, hne, hC, rfl, rfl, rfl, hg, mv, rfl, hd, hF, p.1, p.2, hq, rfl⟩

/-- without preconditioner and with squares that are not negative the matrix is never rejected in the loop -/
theorem symmlqLoop_not_six (self : SymmlqObj V) (kw : SymmlqKw S) (mm : Nat) (beta1 : S) (s : SymmlqLoop S V) (hp : self.precon = none)
    (hnn : ∀ r : V, lt (dot r r : S) (lit 0) = false) (hs : s.istop ≠ 6) : (symmlqLoop self kw mm beta1 s).istop ≠ 6 := by
  unfold symmlqLoop
  refine (whileLoop_inv (fun s => s.istop ≠ 6) (fun s h _ => ?_) s hs).1
  have ht : (symmlqTest kw mm beta1 s).istop ≠ 6 := by
    change symmlqTests _ _ _ _ _ _ _ _ _ ≠ 6
    unfold symmlqTests
    simp only
    repeat' split
    all_goals first | exact h | decide | (rename_i h0 _ _ _ _ _; rw [h0]; decide)
  unfold symmlqStep
  simp only
  split
  · exact ht
  · unfold symmlqUpdate symmlqLanczos
    simp only [hp, applyPrecon, hnn, Bool.false_eq_true, if_false]
    exact ht

end Verif.Solver
