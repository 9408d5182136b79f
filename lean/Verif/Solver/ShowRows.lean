import Verif.Solver.ShowProps

/-!
# The rows of the iteration log
-/

set_option linter.unusedSectionVars false

namespace Verif.Solver
open Scalar Vect

variable {S U V : Type}

/-- the number of the iteration, if the line is a row of the log -/
def Line.rowNo : Line S → Option Nat
  | .row k => some k
  | _ => none

/-- the numbers of the iterations in the rows of the output -/
def rows (l : List (Line S)) : List Nat := l.filterMap Line.rowNo

theorem rows_append (l l' : List (Line S)) : rows (l ++ l') = rows l ++ rows l' := List.filterMap_append ..

theorem sayRow_rows {n : Nat} (hn : 0 < n) (itn : Nat) : rows (sayRow n itn : Out S Unit).lines = [itn] := by
  unfold sayRow
  rw [Out.bind_ok _ (firstEntry_val hn), rows_append]
  rfl

/-- a loop whose body prints the row of its iteration -/
theorem outLoop_rows {σ : Type} {cont : σ → Bool} {stepO : σ → Out S σ} {μ : σ → Nat}
    {h : ∀ s t, cont s = true → (stepO s).val = .ok t → cont t = true → μ t < μ s} (itn : σ → Nat)
    (hs : ∀ s t, (stepO s).val = .ok t → itn t = itn s + 1 ∧ rows (stepO s).lines = [itn t]) (s t : σ)
    (ht : (outLoop cont stepO μ h s).val = .ok t) :
    itn s ≤ itn t ∧ rows (outLoop cont stepO μ h s).lines = List.range' (itn s + 1) (itn t - itn s) := by
  revert ht
  refine outLoop_rec (h := h) (fun s r => r.val = .ok t → itn s ≤ itn t ∧ rows r.lines = List.range' (itn s + 1) (itn t - itn s))
    ?_ ?_ ?_ s
  · intro s _ h
    cases h
    exact ⟨le_refl _, by simp [rows]⟩
  · intro s e _ _ h
    cases h
  · intro s u r _ hu ih h
    obtain ⟨h1, h2⟩ := ih h
    obtain ⟨hi, hr⟩ := hs s u hu
    refine ⟨by omega, ?_⟩
    simp only [rows_append, h2, hr, hi]
    rw [show itn t - itn s = (itn t - (itn s + 1)) + 1 by omega, List.range'_succ]
    rfl

/-- a loop whose body prints no row -/
theorem outLoop_no_rows {σ : Type} {cont : σ → Bool} {stepO : σ → Out S σ} {μ : σ → Nat}
    {h : ∀ s t, cont s = true → (stepO s).val = .ok t → cont t = true → μ t < μ s}
    (hs : ∀ s, rows (stepO s).lines = []) (s : σ) : rows (outLoop cont stepO μ h s).lines = [] := by
  refine outLoop_rec (h := h) (fun s r => rows r.lines = []) (fun _ _ => rfl) (fun s e _ _ => hs s) ?_ s
  intro s u r _ hu ih
  simp only [rows_append, ih, hs]
  rfl

variable [Scalar S] [Vect S U] [Vect S V]

/-- no rows in `if show: print ...` of other lines -/
theorem summaryO_rows (name : String) {istop : Nat} (h : istop ≤ 8) : rows (summaryO name istop : Out S Unit).lines = [] := by
  unfold summaryO
  rw [Out.bind_ok _ (say_val ..), Out.bind_ok _ (sayMsg_val (by omega)), sayMsg_lines (by omega)]
  rfl

/-! ### LSQR -/

theorem lsqrStepO_rows {n : Nat} (hn : 0 < n) (h40 : n ≤ 40) {other : LsqrLoop S U V → Bool} {A : V → U} {AT : U → V}
    {kw : LsqrKw S U V} {lim : Int} {bnorm : S} {s t : LsqrLoop S U V}
    (h : (lsqrStepO true other A AT n kw lim bnorm s).val = .ok t) :
    t.itn = s.itn + 1 ∧ rows (lsqrStepO true other A AT n kw lim bnorm s).lines = [t.itn] := by
  have ht := lsqrStepO_ok h
  refine ⟨lsqrStep_itn ht, ?_⟩
  unfold lsqrStepO
  rw [Out.bind_ok _ ((quiet_val _).trans ht), Out.bind_ok _ (sayWith_val fun _ => sayRow_val hn _)]
  simp only [h40, decide_true, Bool.true_or, Bool.and_self, sayWith_true, rows_append, sayRow_rows hn]
  rfl

/-- **C78, LSQR, the log.** With `show=True`, for an operator with 1 to 40 columns: a call that returns has printed one row for the
start and one for each of its iterations, in order. -/
theorem C78_lsqr_rows (laws : PrintLaws S) (other : LsqrLoop S U V → Bool) (A : V → U) (AT : U → V) (n : Nat) (hn : 0 < n)
    (h40 : n ≤ 40) (b : U) (kw : LsqrKw S U V) (res : LsqrRes S V) (s' : LsqrLoop S U V) (h : lsqrSolve A AT n b kw = .ok (res, s')) :
    rows (lsqrSolveO true other A AT n b kw).lines = List.range (res.itn + 1) := by
  unfold lsqrSolve at h
  obtain ⟨u, hv, h⟩ := except_bind_ok h
  obtain ⟨s, hi, h⟩ := except_bind_ok h
  obtain ⟨t, ht, h⟩ := except_bind_ok h
  cases h
  have h8 := lsqrMain_istop (by rw [lsqrInit_istop hi]; omega) ht
  have h0 : s.itn = 0 := by
    unfold lsqrInit at hi
    obtain ⟨beta, -, hi⟩ := except_bind_ok hi
    split at hi
    · obtain ⟨alpha, -, hi⟩ := except_bind_ok hi
      split at hi <;> cases hi <;> rfl
    · cases hi; rfl
  have hrow : rows (lsqrRowO n s).lines = [0] := by
    unfold lsqrRowO
    have hd : (if lsqrXZero s then .ok (lit 1) else pydiv s.alpha s.beta : Except PyError S).isOk = true := by
      cases hz : lsqrXZero s with
      | true => rfl
      | false => rw [if_neg (by simp), pydiv, if_neg (by rw [(lsqrInit_beta laws hi hz).1]; simp)]; rfl
    cases hd' : (if lsqrXZero s then .ok (lit 1) else pydiv s.alpha s.beta : Except PyError S) with
    | error e => rw [hd'] at hd; cases hd
    | ok q =>
      rw [Out.bind_ok _ (say_val ..), Out.bind_ok (a := q) _ rfl, rows_append, quiet_lines, List.nil_append, sayRow_rows hn]
      rfl
  unfold lsqrSolveO
  rw [Out.bind_ok _ ((quiet_val _).trans hv), Out.bind_ok _ (say_val ..), Out.bind_ok _ ((quiet_val _).trans hi),
    Out.bind_ok _ (sayWith_val (fun _ => sayMsg_val (by norm_num))), Out.bind_ok _ (sayWith_val fun _ => lsqrRowO_val laws hn hi),
    Out.bind_ok _ ((lsqrMainO_val (fun _ => hn) ..).trans ht), Out.bind_ok _ (sayWith_val fun _ => summaryO_val _ h8), sayWith_true,
    sayWith_true]
  have hm : rows (lsqrMainO true other A AT n kw (lsqrLimit n kw.itnlim) s).lines = List.range' 1 s'.itn := by
    unfold lsqrMain at ht
    unfold lsqrMainO
    split at ht
    · rename_i hz
      cases ht
      rw [if_pos hz, h0]
      rfl
    · rename_i hz
      rw [if_neg hz]
      have := (outLoop_rows (fun s : LsqrLoop S U V => s.itn) (fun s t h => lsqrStepO_rows hn h40 h) s s'
        ((lsqrLoopO_val (fun _ => hn) other A AT kw (lsqrLimit n kw.itnlim) s.beta s).trans ht)).2
      rw [h0] at this
      exact this
  simp only [rows_append, hrow, hm, summaryO_rows _ h8, Out.lines_pure]
  have e1 : rows (sayWith (true && lsqrXZero s) (sayMsg 9 0) : Out S Unit).lines = [] := by
    cases lsqrXZero s <;> rfl
  rw [e1, List.range_eq_range', List.range'_succ]
  simp [rows, Line.rowNo]
  rfl

/-! ### LSMR -/

theorem lsmrStepO_rows {n : Nat} (hn : 0 < n) (h40 : n ≤ 40) {other more : LsmrLoop S U V → Bool} {A : V → U} {AT : U → V}
    {kw : LsmrKw S U V} {lim : Int} {normb : S} {s t : LsmrLoop S U V}
    (h : (lsmrStepO true other more A AT n kw lim normb s).val = .ok t) :
    t.itn = s.itn + 1 ∧ rows (lsmrStepO true other more A AT n kw lim normb s).lines = [t.itn] := by
  have ht := lsmrStepO_ok h
  refine ⟨lsmrStep_itn ht, ?_⟩
  unfold lsmrStepO
  have hr : ∀ c : Bool, (do say c [.blank, .text "   itn      x(1)       norm r    norm A'r  compatible   LS      norm A   cond A"]
                            sayRow n t.itn : Out S Unit).val = .ok () := by
    intro c
    rw [Out.val_bind, say_val, except_bind_ok' rfl, sayRow_val hn]
  rw [Out.bind_ok _ ((quiet_val _).trans ht), Out.bind_ok _ (sayWith_val fun _ => hr _)]
  simp only [h40, decide_true, Bool.true_or, Bool.and_self, sayWith_true, rows_append]
  rw [Out.bind_ok _ (say_val ..), rows_append, sayRow_rows hn]
  cases more t <;> rfl

/-- **C78, LSMR, the log.** As for LSQR, unless `x = 0` is the solution (then there is no row). -/
theorem C78_lsmr_rows (laws : PrintLaws S) (other more : LsmrLoop S U V → Bool) (A : V → U) (AT : U → V) (m n : Nat) (hn : 0 < n)
    (h40 : n ≤ 40) (b : U) (kw : LsmrKw S U V) (selfX : Option V) (res : LsmrRes S V) (s' : LsmrLoop S U V)
    (h : lsmrSolve A AT m n b kw selfX = .ok (res, s')) :
    rows (lsmrSolveO true other more A AT m n b kw selfX).lines =
      if res.itn = 0 ∧ feq res.normar (lit 0) = true then [] else List.range (res.itn + 1) := by
  unfold lsmrSolve at h
  obtain ⟨s, hi, h⟩ := except_bind_ok h
  obtain ⟨h0, h1, h2⟩ := lsmrInit_facts hi
  have hi0 : s.itn = 0 := by
    unfold lsmrInit at hi
    obtain ⟨beta, -, hi⟩ := except_bind_ok hi
    split at hi
    · obtain ⟨alpha, -, hi⟩ := except_bind_ok hi
      split at hi <;> cases hi <;> rfl
    · cases hi; rfl
  unfold lsmrSolveO
  rw [Out.bind_ok _ (say_val ..), Out.bind_ok _ ((quiet_val _).trans hi)]
  unfold lsmrMain at h
  unfold lsmrMainO
  cases hz : feq s.normar (lit 0) with
  | true =>
    simp only [hz, if_true] at h ⊢
    cases h
    rw [Out.bind_ok _ (sayWith_val fun _ => sayMsg_val (by norm_num)), sayWith_true, sayMsg_lines (by norm_num),
      if_pos ⟨hi0, hz⟩]
    rfl
  | false =>
    simp only [hz, Bool.false_eq_true, if_false] at h ⊢
    obtain ⟨t, ht, h⟩ := except_bind_ok h
    cases h
    obtain ⟨h8, hx⟩ := lsmrLoop_facts (by rw [(lsmrFirst_istop kw s).1, h0]; omega) ht
    have hx := hx laws (by rw [(lsmrFirst_istop kw s).2, h1]; exact laws.zero)
    have hf : (lsmrFirst kw s).itn = 0 := by unfold lsmrFirst; split <;> exact hi0
    have hrow : rows (lsmrRowO n s).lines = [0] := by
      unfold lsmrRowO
      rw [Out.bind_ok _ (say_val ..), Out.bind_ok (a := s.alpha / s.beta) _
        (by rw [quiet_val, pydiv, if_neg (by rw [h2 laws hz]; simp)]), rows_append, quiet_lines, List.nil_append, sayRow_rows hn]
      rfl
    have hsum : rows (lsmrSummaryO s').lines = [] := by
      unfold lsmrSummaryO
      rw [Out.bind_ok _ (say_val ..), Out.bind_ok _ (sayMsg_val (by omega)), sayMsg_lines (by omega), Out.bind_ok _ (say_val ..),
        Out.bind_ok (a := sqrt s'.xNrgNorm2) _ (by rw [quiet_val, pysqrt, if_neg (by rw [hx]; simp)])]
      rfl
    have hl := (outLoop_rows (fun s : LsmrLoop S U V => s.itn) (fun s t h => lsmrStepO_rows hn h40 h) (lsmrFirst kw s) s'
      ((lsmrLoopO_val (fun _ => hn) other more A AT kw (lsmrLimit m n kw.itnlim) s.beta (lsmrFirst kw s)).trans ht)).2
    rw [hf] at hl
    have hl : rows (lsmrLoopO true other more A AT n kw (lsmrLimit m n kw.itnlim) s.beta (lsmrFirst kw s)).lines =
      List.range' 1 s'.itn := hl
    rw [Out.bind_ok _ (sayWith_val fun _ => lsmrRowO_val hn (h2 laws hz)),
      Out.bind_ok _ ((lsmrLoopO_val (fun _ => hn) ..).trans ht), Out.bind_ok _ (sayWith_val fun _ => lsmrSummaryO_val h8 hx)]
    simp only [rows_append, sayWith_true, Out.lines_pure, hrow, hsum, hl]
    have hn0 : s'.itn = 0 → s'.normar = s.normar :=
      (exceptLoop_inv (fun u : LsmrLoop S U V => u.itn = 0 → u.normar = s.normar)
        (fun u v _ _ hv h => by rw [lsmrStep_itn hv] at h; omega) (lsmrFirst kw s) (fun _ => by unfold lsmrFirst; split <;> rfl) s' ht).1
    rw [if_neg]
    · rw [List.range_eq_range', List.range'_succ]
      simp [rows, Line.rowNo]
      rfl
    · rintro ⟨ha, hb⟩
      have hb : feq s'.normar (lit 0) = true := hb
      rw [hn0 ha, hz] at hb
      cases hb

/-! ### CRAIG -/

/-- **C78, CRAIG, the log.** With `show=True` CRAIG prints its heading and its summary, but no row for any iteration. -/
theorem C78_craig_no_rows (other : CraigLoop S U V → Bool) (A : V → U) (AT : U → V) (n : Nat) (hn : 0 < n) (b : U) (kw : CraigKw S U V)
    (res : CraigRes S U V) (s' : CraigLoop S U V) (h : craigSolve A AT n b kw = .ok (res, s')) :
    rows (craigSolveO true other A AT n b kw).lines = [] := by
  unfold craigSolve at h
  obtain ⟨u, hv, h⟩ := except_bind_ok h
  obtain ⟨⟨Mu, u', beta, vs, alpha, products⟩, hp, h⟩ := except_bind_ok h
  obtain ⟨s, hi, h⟩ := except_bind_ok h
  obtain ⟨t, ht, h⟩ := except_bind_ok h
  obtain ⟨r, hr, h⟩ := except_bind_ok h
  cases h
  have h8 := craigMain_istop (by rw [craigStart_istop hi]; omega) ht
  unfold craigSolveO
  rw [Out.bind_ok _ ((quiet_val _).trans hv), Out.bind_ok _ (say_val ..), Out.bind_ok _ ((quiet_val _).trans hp),
    Out.bind_ok _ (sayWith_val (fun _ => sayMsg_val (by norm_num))), Out.bind_ok _ ((quiet_val _).trans hi),
    Out.bind_ok _ ((craigMainO_val (fun _ => hn) ..).trans ht), Out.bind_ok _ (sayWith_val fun _ => summaryO_val _ h8),
    Out.bind_ok _ ((quiet_val _).trans hr)]
  have hm : rows (craigMainO true other A AT n kw (craigLimit n kw.itnlim) s).lines = [] := by
    unfold craigMainO
    split
    · rfl
    · refine outLoop_no_rows (fun s => ?_) s
      unfold craigStepO
      cases hs : craigStep A AT kw (craigLimit n kw.itnlim) _ s with
      | error e => rw [Out.bind_error (e := e) _ rfl]; rfl
      | ok t =>
        rw [Out.bind_ok (a := t) _ rfl, Out.bind_ok _ (sayWith_val fun _ => firstEntry_val hn)]
        cases (true && (decide (n ≤ 40) || other t)) <;> rfl
  have e1 : rows (sayWith (true && feq beta (lit 0)) (sayMsg 9 0) : Out S Unit).lines = [] := by
    cases feq beta (lit 0) <;> rfl
  simp only [rows_append, sayWith_true, summaryO_rows _ h8, hm, e1]
  rfl

/-! ### MINRES -/

theorem minresStepO_rows {n : Nat} (hn : 0 < n) (h40 : n ≤ 40) (other : MinresLoop S V → Bool) (op : V → V) (eps : S)
    (kw : MinresKw S V) (itnlim : Nat) (beta1 : S) (s t : MinresLoop S V) (ht : t = minresStep op eps kw itnlim beta1 s) :
    rows (minresStepO true other op eps n kw itnlim beta1 s).lines = [s.itn + 1] ∨
    (t.broke = true ∧ t.istop = 6 ∧ rows (minresStepO true other op eps n kw itnlim beta1 s).lines = []) := by
  subst ht
  unfold minresStepO
  simp only
  split
  · rename_i h
    right
    rw [minresStep_break h]
    exact ⟨rfl, rfl, rfl⟩
  · left
    rw [Out.bind_ok _ (sayWith_val fun _ => sayRow_val hn _), Out.bind_ok _ (say_val ..)]
    simp only [h40, decide_true, Bool.true_or, Bool.and_self, sayWith_true, rows_append, sayRow_rows hn, minresStep_itn]
    cases (!(minresStep op eps kw itnlim beta1 s).broke && decide ((s.itn + 1) % 10 = 0)) <;> rfl

theorem minresLoopO_rows {n : Nat} (hn : 0 < n) (h40 : n ≤ 40) (other : MinresLoop S V → Bool) (op : V → V) (eps : S)
    (kw : MinresKw S V) (itnlim : Nat) (beta1 : S) (s t : MinresLoop S V)
    (h : (minresLoopO true other op eps n kw itnlim beta1 s).val = .ok t) :
    (s.broke = true → t = s) ∧ s.itn ≤ t.itn ∧
    (rows (minresLoopO true other op eps n kw itnlim beta1 s).lines = List.range' (s.itn + 1) (t.itn - s.itn) ∨
     (t.istop = 6 ∧ s.itn < t.itn ∧
      rows (minresLoopO true other op eps n kw itnlim beta1 s).lines = List.range' (s.itn + 1) (t.itn - 1 - s.itn))) := by
  revert h
  unfold minresLoopO
  refine outLoop_rec (fun s r => r.val = .ok t → (s.broke = true → t = s) ∧ s.itn ≤ t.itn ∧
    (rows r.lines = List.range' (s.itn + 1) (t.itn - s.itn) ∨
     (t.istop = 6 ∧ s.itn < t.itn ∧ rows r.lines = List.range' (s.itn + 1) (t.itn - 1 - s.itn)))) ?_ ?_ ?_ s
  · intro s _ h
    cases h
    exact ⟨fun _ => rfl, le_refl _, Or.inl (by simp [rows])⟩
  · intro s e _ _ h
    cases h
  · intro s u r hc hu ih h
    obtain ⟨h1, h2, h3⟩ := ih h
    have hu' := minresStepO_ok hu
    have hi : u.itn = s.itn + 1 := by rw [hu']; exact minresStep_itn ..
    simp only [minresCont, Bool.and_eq_true, Bool.not_eq_true'] at hc
    refine ⟨fun hb => absurd hb (by simp [hc.1]), by omega, ?_⟩
    simp only [rows_append]
    rcases minresStepO_rows hn h40 other op eps kw itnlim beta1 s u hu' with hr | ⟨hb, h6, hr⟩
    · rw [hr]
      rcases h3 with h3 | ⟨h6, hlt, h3⟩
      · left
        rw [h3, hi, show t.itn - s.itn = (t.itn - (s.itn + 1)) + 1 by omega, List.range'_succ]
        rfl
      · right
        refine ⟨h6, by omega, ?_⟩
        rw [h3, hi, show t.itn - 1 - s.itn = (t.itn - 1 - (s.itn + 1)) + 1 by omega, List.range'_succ]
        rfl
    · have hut := h1 hb
      subst hut
      right
      refine ⟨h6, by omega, ?_⟩
      rw [hr]
      rcases h3 with h3 | ⟨-, hlt, -⟩
      · rw [h3, Nat.sub_self, hi, show s.itn + 1 - 1 - s.itn = 0 by omega]
        rfl
      · omega

/-- **C78, MINRES, the log.** With `show=True`, for a right-hand side with 1 to 40 entries: a call that returns has printed one row for
each of its iterations, in order; the last one is missing only if the preconditioner turned out to be indefinite (code 6). -/
theorem C78_minres_rows (other : MinresLoop S V → Bool) (op : V → V) (eps : S) (n : Nat) (hn : 0 < n) (h40 : n ≤ 40)
    (self : MinresObj S V) (b : V) (kw : MinresKw S V) (res : MinresRes S V) (products : List V)
    (h : minresSolve op eps n self b kw = .ok (res, products)) :
    rows (minresSolveO true other op eps n self b kw).lines = List.range' 1 res.itn ∨
    (res.istop = 6 ∧ rows (minresSolveO true other op eps n self b kw).lines = List.range' 1 (res.itn - 1)) := by
  obtain ⟨s, hs, rfl, rfl, h3, h4, -⟩ :=
    minresMainO_result (show' := minresShowAfter true kw) (fun _ => hn) other op eps kw self b h
  have hsum : rows (minresSummaryO s.istop : Out S Unit).lines = [] := by
    unfold minresSummaryO
    rw [Out.bind_ok _ (say_val ..), sayMsg_lines (by omega)]
    rfl
  have hshow : minresShowAfter true kw = true := rfl
  unfold minresSolveO
  rw [Out.bind_ok _ (say_val ..), Out.bind_ok _ (say_val ..), Out.bind_ok _ hs,
    Out.bind_ok _ (sayWith_val fun _ => minresSummaryO_val h3 h4)]
  simp only [rows_append, hshow, sayWith_true, hsum, Out.lines_pure]
  rw [hshow] at hs
  have hm : rows (minresMainO true other op eps n kw (kw.itnlim.getD (5 * n)) b (minresInit kw self b)).lines = List.range' 1 s.itn ∨
      (s.istop = 6 ∧
       rows (minresMainO true other op eps n kw (kw.itnlim.getD (5 * n)) b (minresInit kw self b)).lines = List.range' 1 (s.itn - 1)) := by
    unfold minresMainO at hs ⊢
    split at hs
    · rename_i hd
      cases hs
      left
      rw [if_pos hd]
      rfl
    · rename_i hd
      rw [if_neg hd]
      split at hs
      · cases hs
      · rename_i hw
        rw [if_neg hw]
        obtain ⟨-, -, h⟩ := minresLoopO_rows hn h40 other op eps kw _ _ _ _ hs
        rcases h with h | ⟨h6, -, h⟩
        · left; exact h
        · right; exact ⟨h6, h⟩
  rcases hm with hm | ⟨h6, hm⟩
  · left
    rw [hm]
    simp [rows, Line.rowNo]
    rfl
  · right
    refine ⟨h6, ?_⟩
    rw [hm]
    simp [rows, Line.rowNo]
    rfl

end Verif.Solver
