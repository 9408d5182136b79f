import Verif.Solver.InterruptProps

/-!
# SYMMLQ: what an interrupted call leaves behind (C79)

SYMMLQ often ends in an exception of its own (C36, C60); the statements executed until then are part of the model.
-/

namespace Verif.Solver

open Scalar Vect

variable {S V : Type} [Scalar S] [Vect S V]

/-! ### Model -/

/-- before the loop: `symmlq.py:123` -/
def symmlqBegin (kw : SymmlqKw S) : List (Wr S V V) :=
  [.app "iterates" (if kw.storeIterates then [.vec zeros] else [])]

/-- an iteration: `symmlq.py:339` -/
def symmlqEvents (s t : SymmlqLoop S V) : List (Wr S V V) :=
  [.app "iterates" (newEntries .vec s.iterates t.iterates)]

/-- after the loop: `symmlq.py:396-400` -/
def symmlqEnd (res : SymmlqRes S V) : List (Wr S V V) :=
  [.set "nMatvec" (.int res.nMatvec), .set "bestSolution" (.vec res.x), .set "solutionNorm" (.scal res.xNorm), .set "x" (.vec res.x),
   .set "xNorm" (.scal res.xNorm), .set "residNorm" (.scal res.residNorm), .set "acond" (.scal res.acond), .set "anorm" (.scal res.anorm)]

/-- the loop, `symmlq.py:235-350`, with its statements on attributes -/
def symmlqTraced (self : SymmlqObj V) (kw : SymmlqKw S) (matvecMax : Nat) (beta1 : S) (s : SymmlqLoop S V) (w : List (Wr S V V)) :
    SymmlqLoop S V × List (Wr S V V) :=
  traceWhile (symmlqCont matvecMax) (symmlqStep self kw matvecMax beta1) (fun s => matvecMax - s.nMatvec)
    (fun s h h' => by
      simp only [symmlqCont, Bool.and_eq_true, decide_eq_true_eq, Bool.not_eq_true'] at h h'
      rcases symmlqStep_nMatvec self kw matvecMax beta1 s with hb | hn
      · rw [hb] at h'; exact absurd h'.1 (by simp)
      · omega) symmlqEvents s w

/-- The statements on attributes of `Symmlq.solve`, `symmlq.py:65-400`, up to the exception if the call raises one by itself (see
`symmlqSolve` for the places). -/
def symmlqTrace (self : SymmlqObj V) (n : Nat) (b : V) (kw : SymmlqKw S) : Trace S V V :=
  let w := symmlqBegin kw
  if n = 0 then { first := [], middle := w, last := [] }
  else if gt (dot b (applyPrecon self.precon b)) (lit 0) then
    match self.matvec with
    | none => { first := [], middle := w, last := [] }
    | some mv =>
      let (s, beta1, done) := symmlqStart self kw mv b
      let q := if done then (s, w) else symmlqTraced self kw (kw.matvecMax.getD (2 * n + 2)) beta1 s w
      match q.1.lqDiag with
      | none => { first := [], middle := q.2, last := [] }
      | some (lqnorm, diag) => { first := [], middle := q.2, last := symmlqEnd (symmlqFinish self kw beta1 b q.1 lqnorm diag).1 }
  else { first := [], middle := w, last := [] }

/-! ### Specification -/

/-- the list of SYMMLQ, which is not emptied -/
def symmlqLists (old : List (PyV S V V)) (res : SymmlqRes S V) : List (ListAttr S V V) :=
  [⟨"iterates", old, res.iterates.map .vec⟩]

/-! ### Lemmas -/

/-- the statements `w` have recorded the iterates of `s`; before the first iteration there is only one statement -/
structure SymmlqRec (kw : SymmlqKw S) (s : SymmlqLoop S V) (w : List (Wr S V V)) : Prop where
  keys : ∀ e ∈ w, ∃ l, e = .app "iterates" l
  iterates : recorded "iterates" w = s.iterates.map .vec
  first : s.lqDiag = none → w = symmlqBegin kw

theorem symmlqRec_begin (self : SymmlqObj V) (kw : SymmlqKw S) (mv : V → V) (b : V) :
    SymmlqRec kw (symmlqStart self kw mv b).1 (symmlqBegin kw) := by
  refine ⟨by simp [symmlqBegin], ?_, fun _ => rfl⟩
  cases h : kw.storeIterates <;> simp [symmlqBegin, symmlqStart, h]

theorem symmlqStep_lists (self : SymmlqObj V) (kw : SymmlqKw S) (mm : Nat) (b1 : S) (s : SymmlqLoop S V) :
    (∃ e, (symmlqStep self kw mm b1 s).iterates = s.iterates ++ e) ∧ (symmlqStep self kw mm b1 s).lqDiag ≠ none := by
  have ht : (symmlqTest kw mm b1 s).iterates = s.iterates := rfl
  have hl : (symmlqTest kw mm b1 s).lqDiag ≠ none := by simp [symmlqTest]
  unfold symmlqStep
  simp only
  split
  · exact ⟨⟨[], by simp [ht]⟩, hl⟩
  · generalize symmlqTest kw mm b1 s = t at ht hl ⊢
    unfold symmlqUpdate
    simp only
    split
    · exact ⟨⟨[], by simp [ht]⟩, hl⟩
    · refine ⟨?_, hl⟩
      rw [← ht]
      cases kw.storeIterates
      · exact ⟨[], by simp⟩
      · exact ⟨_, rfl⟩

theorem symmlqRec_step {self : SymmlqObj V} {kw : SymmlqKw S} {mm : Nat} {b1 : S} {s : SymmlqLoop S V} {w : List (Wr S V V)}
    (hs : SymmlqRec kw s w) :
    SymmlqRec kw (symmlqStep self kw mm b1 s) (w ++ symmlqEvents s (symmlqStep self kw mm b1 s)) := by
  obtain ⟨⟨e, he⟩, hl⟩ := symmlqStep_lists self kw mm b1 s
  generalize symmlqStep self kw mm b1 s = t at *
  refine ⟨?_, ?_, fun h => absurd h hl⟩
  · intro x hx
    rcases List.mem_append.1 hx with hx | hx
    · exact hs.keys x hx
    · simp only [symmlqEvents, List.mem_cons, List.not_mem_nil, or_false] at hx
      exact ⟨_, hx⟩
  · unfold symmlqEvents
    rw [he, newEntries_append]
    simp [hs.iterates]

/-- what the statements of a call are: either it returns, or it raises and has appended at most the first iterate -/
theorem symmlqTrace_spec (self : SymmlqObj V) (n : Nat) (b : V) (kw : SymmlqKw S) :
    (∃ run, symmlqSolve self n b kw = .ok run ∧ ∃ w, symmlqTrace self n b kw = { first := [], middle := w, last := symmlqEnd run.1 } ∧
      (∀ e ∈ w, ∃ l, e = .app "iterates" l) ∧ recorded "iterates" w = run.1.iterates.map .vec) ∨
    (∃ e, symmlqSolve self n b kw = .error e) ∧ symmlqTrace self n b kw = { first := [], middle := symmlqBegin kw, last := [] } := by
  unfold symmlqSolve symmlqTrace
  simp only
  split
  · exact .inr ⟨⟨_, rfl⟩, rfl⟩
  split
  · cases hm : self.matvec with
    | none => exact .inr ⟨⟨_, rfl⟩, rfl⟩
    | some mv =>
      simp only
      have hb := symmlqRec_begin self kw mv b
      have key : ∃ q : SymmlqLoop S V × List (Wr S V V), SymmlqRec kw q.1 q.2 ∧
          q = (if (symmlqStart self kw mv b).2.2 = true then ((symmlqStart self kw mv b).1, symmlqBegin kw) else
            symmlqTraced self kw (kw.matvecMax.getD (2 * n + 2)) (symmlqStart self kw mv b).2.1 (symmlqStart self kw mv b).1 (symmlqBegin kw)) ∧
          q.1 = (if (symmlqStart self kw mv b).2.2 = true then (symmlqStart self kw mv b).1 else
            symmlqLoop self kw (kw.matvecMax.getD (2 * n + 2)) (symmlqStart self kw mv b).2.1 (symmlqStart self kw mv b).1) := by
        refine ⟨_, ?_, rfl, ?_⟩
        · split
          · exact hb
          · unfold symmlqTraced
            exact traceWhile_inv (SymmlqRec kw) (fun s w hs _ => symmlqRec_step hs) hb
        · split
          · rfl
          · unfold symmlqTraced symmlqLoop
            rw [traceWhile_fst]
      obtain ⟨q, hrec, hq, hq1⟩ := key
      rw [← hq, ← hq1]
      cases hl : q.1.lqDiag with
      | none => exact .inr ⟨⟨_, rfl⟩, by rw [hrec.first hl]⟩
      | some p => exact .inl ⟨_, rfl, _, rfl, hrec.keys, hrec.iterates⟩
  · exact .inr ⟨⟨_, rfl⟩, rfl⟩

/-! ### Theorems -/

/-- **C79.**  SYMMLQ (objects that were given the attribute `matvec`; otherwise see `C79_symmlq_raises`): an interrupted call leaves the
results of the earlier one until the iterations have ended.  `iterates` is not emptied: those of the interrupted call stay behind the older
ones. -/
theorem C79_symmlq (self : SymmlqObj V) (n : Nat) (b : V) (kw : SymmlqKw S) (run : SymmlqRes S V × List V)
    (h : symmlqSolve self n b kw = .ok run) (old : List (PyV S V V)) (a full : Attrs S V V)
    (hold : a "iterates" = some (.list old)) (hfull : (symmlqClass self).call a (n, b, kw) = .ok full) :
    writeAll (symmlqTrace self n b kw).all a = full ∧
      ∀ a', (symmlqTrace self n b kw).Leaves a a' → LeftBehind (symmlqLists old run.1) [] (fun _ => True) full a a' := by
  simp only [PySolver.call, symmlqClass, h] at hfull
  cases hfull
  have key : ∀ a', (symmlqTrace self n b kw).Leaves a a' →
      writeAll (symmlqTrace self n b kw).all a = writeAll (symmlqWrites run.1) a ∧
        LeftBehind (symmlqLists old run.1) [] (fun _ => True) (writeAll (symmlqWrites run.1) a) a a' := by
    intro a' hl
    rcases symmlqTrace_spec self n b kw with ⟨run', h', w, hw, hk, hi⟩ | ⟨⟨e, he⟩, -⟩
    swap
    · rw [h] at he; cases he
    rw [h] at h'
    cases h'
    rw [hw] at hl ⊢
    refine interrupted (apps := [.app "iterates" (run.1.iterates.map .vec)]) rfl (by simp) (fun L hL => ?_) (fun e he => ?_) (fun e he => ?_)
      (fun L hL => ?_) (fun L hL => ?_) ?_ (fun _ _ => trivial) (fun k hk => ?_) ?_ ?_ hl
    · simp only [symmlqLists, List.mem_singleton] at hL
      subst hL
      exact hold
    · obtain ⟨l, rfl⟩ := hk e he
      exact .inr ⟨_, List.mem_singleton.2 rfl, l, rfl⟩
    · rw [List.mem_singleton] at he
      subst he
      exact .inr ⟨_, List.mem_singleton.2 rfl, _, rfl⟩
    · simp only [symmlqLists, List.mem_singleton] at hL
      subst hL
      exact hi
    · simp only [symmlqLists, List.mem_singleton] at hL
      subst hL
      simp
    · rw [filter_apps (lists := symmlqLists old run.1) (fun e he => ?_), filter_apps (lists := symmlqLists old run.1) (fun e he => ?_)]
      · rw [List.mem_singleton] at he
        subst he
        exact ⟨_, List.mem_singleton.2 rfl, _, rfl⟩
      · obtain ⟨l, rfl⟩ := hk e he
        exact ⟨_, List.mem_singleton.2 rfl, l, rfl⟩
    · simp [symmlqEnd, Wr.key] at hk
      rcases hk with rfl | rfl | rfl | rfl | rfl | rfl | rfl | rfl <;> simp [symmlqLists]
    · simp [symmlqEnd, Wr.key]
    · simp [symmlqLists]
  exact ⟨(key _ ⟨[], List.nil_prefix, rfl⟩).1, fun a' hl => (key a' hl).2⟩

/-- **C79.**  A call of SYMMLQ that ends in an exception of its own, interrupted or not, leaves all results of the earlier call; with
`store_iterates` it may have appended the starting point to `iterates`. -/
theorem C79_symmlq_raises (self : SymmlqObj V) (n : Nat) (b : V) (kw : SymmlqKw S) (e : PyError)
    (h : symmlqSolve self n b kw = .error e) (old : List (PyV S V V)) (a : Attrs S V V) (hold : a "iterates" = some (.list old)) :
    ∀ a', (symmlqTrace self n b kw).Leaves a a' → (∀ k, k ≠ "iterates" → a' k = a k) ∧
      (a' "iterates" = some (.list old) ∨ kw.storeIterates = true ∧ a' "iterates" = some (.list (old ++ [.vec zeros]))) := by
  rintro a' ⟨ws, hws, rfl⟩
  rcases symmlqTrace_spec self n b kw with ⟨run', h', -⟩ | ⟨-, hw⟩
  · rw [h] at h'; cases h'
  rw [hw] at hws
  simp only [Trace.all, symmlqBegin, List.nil_append, List.append_nil, List.prefix_cons_iff, List.prefix_nil] at hws
  rcases hws with rfl | ⟨-, rfl, rfl⟩
  · exact ⟨fun _ _ => rfl, .inl hold⟩
  · refine ⟨fun k hk => writeAll_other _ _ _ (by simpa [Wr.key] using hk), ?_⟩
    cases hs : kw.storeIterates <;> simp [writeAll, Wr.exec, hold]

/-- **C79, negative.**  SYMMLQ, for every call that returns: an interrupt between the assignments of lines 396 and 397 leaves the number of
products of this call and the `x` of an earlier one. -/
theorem C79_symmlq_torn (self : SymmlqObj V) (n : Nat) (b : V) (kw : SymmlqKw S) (run : SymmlqRes S V × List V)
    (h : symmlqSolve self n b kw = .ok run) (a : Attrs S V V) :
    ∃ a', (symmlqTrace self n b kw).Leaves a a' ∧ a' "nMatvec" = some (.int run.1.nMatvec) ∧ a' "x" = a "x" ∧
      a' "bestSolution" = a "bestSolution" ∧ a' "residNorm" = a "residNorm" := by
  rcases symmlqTrace_spec self n b kw with ⟨run', h', w, hw, hk, hi⟩ | ⟨⟨e, he⟩, -⟩
  swap
  · rw [h] at he; cases he
  rw [h] at h'
  cases h'
  have hother : ∀ k, k ≠ "nMatvec" → k ≠ "iterates" →
      writeAll (w ++ [.set "nMatvec" (.int run.1.nMatvec)]) a k = a k := by
    intro k h1 h2
    rw [writeAll_other]
    simp only [List.map_append, List.mem_append, not_or]
    refine ⟨fun hm => ?_, by simpa [Wr.key] using h1⟩
    obtain ⟨x, hx, rfl⟩ := List.mem_map.1 hm
    obtain ⟨l, rfl⟩ := hk x hx
    exact h2 rfl
  refine ⟨writeAll (w ++ [.set "nMatvec" (.int run.1.nMatvec)]) a, ⟨_, ?_, rfl⟩, ?_, hother _ (by simp) (by simp), hother _ (by simp) (by simp),
    hother _ (by simp) (by simp)⟩
  · rw [hw]
    unfold Trace.all symmlqEnd
    rw [List.nil_append, List.prefix_append_right_inj]
    exact ⟨_, rfl⟩
  · rw [writeAll_append]
    simp [writeAll, Wr.exec]

/-! ### Examples -/

/-- The hypotheses of `C79_symmlq` and `C79_symmlq_torn`: `2x = 3` with `store_iterates`, on an object that was given the attribute `matvec`.
Of `C79_symmlq_raises`: the same call on an object as the constructor leaves it. -/
example (eps eps3 rtol : ℝ) :
    let kw : SymmlqKw Fl := { eps := .fin eps, eps3 := .fin eps3, rtol := .fin rtol, check := false, storeIterates := true }
    let self : SymmlqObj (Vec ℝ) := { op := Vec.op (fun x : ℝ => 2 * x), precon := none, matvec := some (Vec.op fun x : ℝ => 2 * x) }
    (∃ run full, symmlqSolve self 1 (.fin (3 : ℝ)) kw = .ok run ∧
      (symmlqClass self).call (symmlqClass (S := Fl) self).init (1, .fin (3 : ℝ), kw) = .ok full) ∧
    (symmlqClass (S := Fl) self).init "iterates" = some (.list []) ∧
    ∃ e, symmlqSolve { self with matvec := none } 1 (.fin (3 : ℝ)) kw = .error e := by
  intro kw self
  refine ⟨?_, by simp [symmlqClass, attrsOf], ?_⟩
  · obtain ⟨res, products, h⟩ := C36_returns_with_matvec_partial (Vec.op (fun x : ℝ => 2 * x)) (Vec.op (fun x : ℝ => 2 * x)) 1 one_ne_zero 3
      (by norm_num) kw rfl (by simp [kw])
    exact ⟨_, _, h, by simp only [PySolver.call, symmlqClass]; rw [h]; rfl⟩
  · unfold symmlqSolve
    simp only [one_ne_zero, if_false]
    split
    · exact ⟨_, rfl⟩
    · exact ⟨_, rfl⟩

end Verif.Solver
