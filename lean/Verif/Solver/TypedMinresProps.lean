import Verif.Solver.TypedMinresMath
import Verif.Solver.ReuseFindings

/-!
# C73 for MINRES with integer and real data

`kA`, `k` and `kM` are the dtype classes of the operator, the right-hand side and the preconditioner; none is complex.
-/

set_option linter.unusedSectionVars false

namespace Verif.Solver
open Scalar Vect Linop

variable {S V : Type} [Scalar S] [Vect S V]

/-- the results without dtypes -/
def MinresRes.noKinds (r : MinresRes S (DArr V)) : MinresRes S V :=
  { converged := r.converged, x := r.x.val, istop := r.istop, itn := r.itn, nMatvec := r.nMatvec, rnorm := r.rnorm,
    residNorm0 := r.residNorm0, Arnorm := r.Arnorm, Anorm := r.Anorm, Acond := r.Acond, ynorm := r.ynorm,
    residHistory := r.residHistory, dirErrors := r.dirErrors, iterates := r.iterates.map DArr.val }

section
variable {kA k kM : DKind} {op : V → V} {eps : S} {n : Nat} {h : List S} {b : V} {kw : MinresKw S V}

theorem minresStart_typed : (minresStart (kw.typed kM) ⟨k, b⟩).2 = (minresStart kw b).2 := by
  unfold minresStart
  simp only [show (kw.typed kM).precon = dprecon kM kw.precon from rfl]
  cases kw.precon <;> rfl

theorem minresEntry_typed : minresEntry (kw.typed kM) ⟨k, b⟩ = minresEntry kw b := by
  unfold minresEntry
  simp only [show (kw.typed kM).precon = dprecon kM kw.precon from rfl]
  cases kw.precon <;> rfl

theorem minresInitD_noKinds (kx : DKind) : (minresInitD kx (kw.typed kM) ⟨h⟩ ⟨k, b⟩).noKinds = minresInit kw ⟨h⟩ b := by
  have e := minresStart_typed (k := k) (kM := kM) (kw := kw) (b := b)
  have e' := minresEntry_typed (k := k) (kM := kM) (kw := kw) (b := b)
  have ey : (minresStart (kw.typed kM) ⟨k, b⟩).1.val = (minresStart kw b).1 := dprecon_val _
  unfold minresInitD minresInit MinresLoop.noKinds
  simp only [e, e', ey]
  cases hs : kw.storeIterates <;> simp [MinresKw.typed, hs]

theorem minresInitD_kinds (kx : DKind) (hkx : kx ≠ .complex) (hk : k ≠ .complex) (hM : kw.precon ≠ none → kM ≠ .complex) :
    MinresKinds kx (minresInitD kx (kw.typed kM) ⟨h⟩ ⟨k, b⟩) := by
  refine ⟨rfl, dprecon_kind hM hk, hk, hk, hkx, hkx, ?_⟩
  intro u hu
  unfold minresInitD at hu
  simp only at hu
  split at hu
  · rw [List.mem_singleton.1 hu]
  · simp at hu

theorem minresResult_noKinds (beta1 : S) (s : MinresLoop S (DArr V)) : (minresResult beta1 s).noKinds = minresResult beta1 s.noKinds := rfl

end

/-- **C73 (MINRES).** If operator, preconditioner and right-hand side hold integers or real numbers and operator and right-hand side are not
both integer, the dtypes do not matter: `solve` does what the model without dtypes does (in any arithmetic), and the solution and the
iterates are arrays of floats. -/
theorem C73_minres (kA k kM : DKind) (op : V → V) (eps : S) (n : Nat) (h : List S) (b : V) (kw : MinresKw S V)
    (hA : kA ≠ .complex) (hk : k ≠ .complex) (hM : kw.precon ≠ none → kM ≠ .complex) (hi : ¬ (kA = .int ∧ k = .int)) :
    (minresSolveD kA op eps n ⟨h⟩ ⟨k, b⟩ (kw.typed kM)).map MinresRes.noKinds = (minresSolve op eps n ⟨h⟩ b kw).map Prod.fst ∧
    ∀ res, minresSolveD kA op eps n ⟨h⟩ ⟨k, b⟩ (kw.typed kM) = .ok res → res.x.kind = .real ∧ ∀ u ∈ res.iterates, u.kind = .real := by
  have hx : kA.join k = .real := by cases kA <;> cases k <;> simp_all [DKind.join]
  unfold minresSolveD minresSolve
  simp only [hx, minresStart_typed, minresEntry_typed]
  rw [show (kw.typed kM).itnlim = kw.itnlim from rfl]
  have hn : (minresInitD .real (kw.typed kM) ⟨h⟩ ⟨k, b⟩).noKinds = minresInit kw ⟨h⟩ b := minresInitD_noKinds _
  have hs0 : MinresKinds .real (minresInitD .real (kw.typed kM) ⟨h⟩ ⟨k, b⟩) := minresInitD_kinds _ (by simp) hk hM
  have hb0 : (minresInitD .real (kw.typed kM) ⟨h⟩ ⟨k, b⟩).broke = false := rfl
  have hi0 : (minresInitD .real (kw.typed kM) ⟨h⟩ ⟨k, b⟩).itn = 0 := rfl
  generalize minresInitD .real (kw.typed kM) ⟨h⟩ ⟨k, b⟩ = s at hn hs0 hb0 hi0
  rw [← hn]
  by_cases hd : (minresEntry kw b).2 = true
  · simp only [hd, if_true]
    refine ⟨rfl, fun res hr => ?_⟩
    cases hr
    exact ⟨hs0.x, hs0.iterates⟩
  · simp only [hd, Bool.false_eq_true, if_false]
    generalize kw.itnlim.getD (5 * n) = lim
    generalize (minresStart kw b).2 = beta1
    have sim : (kw.window ≠ 0 ∨ lim = 0 ∨ lt (minresLanczos op kw 1 s.noKinds).2.2.2.2 (lit 0) = true) →
        ∃ t, minresLoopD (dfun kA op) eps (kw.typed kM) lim beta1 s = .ok t ∧ MinresKinds .real t ∧
          t.noKinds = minresLoop op eps kw lim beta1 s.noKinds := by
      intro hc
      by_cases hw : kw.window = 0
      · have hc := hc.resolve_left (fun h => h hw)
        by_cases hl : lim = 0
        · have hc0 : minresCont lim s = false := by simp [minresCont, hl]
          have hc1 : minresCont lim s.noKinds = false := hc0
          refine ⟨s, exceptLoop_of_not hc0, hs0, ?_⟩
          exact (whileLoop_of_not hc1).symm
        · have hbr := hc.resolve_left hl
          have hc0 : minresCont lim s = true := by
            simp only [minresCont, hb0, hi0, Bool.not_false, Bool.true_and, decide_eq_true_eq]
            omega
          have hc1 : minresCont lim s.noKinds = true := hc0
          obtain ⟨t, h1, h2, h3, h4, h5⟩ := minresStepD_break (kA := kA) (kM := kM) (eps := eps) (itnlim := lim) (beta1 := beta1)
            (op := op) (kw := kw) (s := s) (by rw [hi0]; exact hbr)
          have hct : minresCont lim t = false := by simp [minresCont, h4]
          have hct' : minresCont lim t.noKinds = false := hct
          refine ⟨t, ?_, ?_, ?_⟩
          · unfold minresLoopD
            rw [exceptLoop_of_cont hc0 h1, exceptLoop_of_not hct]
          · unfold minresStepD at h1
            simp only at h1
            have e5 := (lanczos_val (kA := kA) (kM := kM) (op := op) (kw := kw) (s := s) (s.itn + 1)).2.2.2.2
            rw [if_pos (by rw [e5, hi0]; exact hbr)] at h1
            cases h1
            exact ⟨hs0.x, hs0.y, hs0.r1, hs0.r2, hs0.w, hs0.w2, hs0.iterates⟩
          · unfold minresLoop
            rw [whileLoop_of_cont hc1, ← h5, whileLoop_of_not hct']
      · obtain ⟨t, ht, hR⟩ := exceptLoop_sim (cont := minresCont lim) (step := minresStepD (dfun kA op) eps (kw.typed kM) lim beta1)
          (cont' := minresCont lim) (step' := minresStep op eps kw lim beta1) (μ := fun s => lim - s.itn) (μ' := fun s => lim - s.itn)
          (h := fun s t h ht _ => by
            simp only [minresCont, Bool.and_eq_true, decide_eq_true_eq] at h
            have := minresStepD_itn ht
            omega)
          (h' := fun s h _ => by
            simp only [minresCont, Bool.and_eq_true, decide_eq_true_eq] at h
            have := minresStep_itn op eps kw lim beta1 s
            omega)
          (R := fun s t => MinresKinds .real s ∧ s.noKinds = t) (by rintro s t ⟨-, rfl⟩; rfl)
          (by
            rintro s t ⟨hs, rfl⟩ -
            obtain ⟨t, h1, h2, h3⟩ := minresStepD_ok (eps := eps) (itnlim := lim) (beta1 := beta1) (op := op) hA hM hw hs
            exact ⟨t, h1, h2, h3⟩) s s.noKinds ⟨hs0, rfl⟩
        exact ⟨t, ht, hR⟩
    by_cases hz : kw.window = 0 ∧ 0 < lim ∧ lt (minresLanczos op kw 1 s.noKinds).2.2.2.2 (lit 0) = false
    · rw [if_pos hz]
      have hc0 : minresCont lim s = true := by
        simp only [minresCont, hb0, hi0, Bool.not_false, Bool.true_and, decide_eq_true_eq]
        exact hz.2.1
      have h1 : minresLoopD (dfun kA op) eps (kw.typed kM) lim beta1 s = .error .zeroDivision :=
        exceptLoop_of_error hc0 (minresStepD_window hA hM hz.1 hs0 (by rw [hi0]; exact hz.2.2))
      rw [h1]
      exact ⟨rfl, fun res hr => by cases hr⟩
    · rw [if_neg hz]
      obtain ⟨t, h1, h2, h3⟩ := sim (by
        by_cases hw : kw.window = 0
        · by_cases hl : lim = 0
          · exact .inr (.inl hl)
          · refine .inr (.inr ?_)
            rcases Bool.eq_false_or_eq_true (lt (minresLanczos op kw 1 s.noKinds).2.2.2.2 (lit 0)) with hb | hb
            · exact hb
            · exact absurd ⟨hw, by omega, hb⟩ hz
        · exact .inl hw)
      rw [h1, ← h3]
      refine ⟨rfl, fun res hr => ?_⟩
      cases hr
      exact ⟨h2.x, h2.iterates⟩

/-- **C73 (MINRES), violated.** If operator and right-hand side both hold integers, `x` does too, and its update in the first iteration
raises `TypeError`.  `solve` returns, with the same values as the model without dtypes and an array of integers, only if that model
returns without having stored a residual norm. -/
theorem C73_minres_integers (kM : DKind) (op : V → V) (eps : S) (n : Nat) (h : List S) (b : V) (kw : MinresKw S V)
    (hM : kw.precon ≠ none → kM ≠ .complex) :
    (∀ res calls, minresSolve op eps n ⟨h⟩ b kw = .ok (res, calls) → res.residHistory = h →
      ∃ r, minresSolveD .int op eps n ⟨h⟩ ⟨.int, b⟩ (kw.typed kM) = .ok r ∧ r.noKinds = res ∧ r.x.kind = .int) ∧
    ((∀ res calls, minresSolve op eps n ⟨h⟩ b kw = .ok (res, calls) → res.residHistory ≠ h) →
      minresSolveD .int op eps n ⟨h⟩ ⟨.int, b⟩ (kw.typed kM) = .error .typeError) := by
  unfold minresSolveD minresSolve
  simp only [show DKind.int.join DKind.int = .int from rfl, minresStart_typed, minresEntry_typed]
  rw [show (kw.typed kM).itnlim = kw.itnlim from rfl]
  have hn : (minresInitD .int (kw.typed kM) ⟨h⟩ ⟨.int, b⟩).noKinds = minresInit kw ⟨h⟩ b := minresInitD_noKinds _
  have hs0 : MinresKinds .int (minresInitD .int (kw.typed kM) ⟨h⟩ ⟨.int, b⟩) := minresInitD_kinds _ (by simp) (by simp) hM
  have hb0 : (minresInitD .int (kw.typed kM) ⟨h⟩ ⟨.int, b⟩).broke = false := rfl
  have hi0 : (minresInitD .int (kw.typed kM) ⟨h⟩ ⟨.int, b⟩).itn = 0 := rfl
  have hh0 : (minresInitD .int (kw.typed kM) ⟨h⟩ ⟨.int, b⟩).residHistory = h := rfl
  generalize minresInitD .int (kw.typed kM) ⟨h⟩ ⟨.int, b⟩ = s at hn hs0 hb0 hi0 hh0
  rw [← hn]
  by_cases hd : (minresEntry kw b).2 = true
  · simp only [hd, if_true]
    refine ⟨fun res calls hr _ => ?_, fun hr => absurd hh0 (hr _ _ rfl)⟩
    cases hr
    exact ⟨_, rfl, rfl, hs0.x⟩
  · simp only [hd, Bool.false_eq_true, if_false]
    generalize kw.itnlim.getD (5 * n) = lim
    generalize (minresStart kw b).2 = beta1
    by_cases hl : lim = 0
    · have hc0 : minresCont lim s = false := by simp [minresCont, hl]
      have hc1 : minresCont lim s.noKinds = false := hc0
      rw [if_neg (by omega)]
      have h1 : minresLoopD (dfun .int op) eps (kw.typed kM) lim beta1 s = .ok s := exceptLoop_of_not hc0
      have h2 : minresLoop op eps kw lim beta1 s.noKinds = s.noKinds := whileLoop_of_not hc1
      rw [h1, h2]
      refine ⟨fun res calls hr _ => ?_, fun hr => absurd hh0 (hr _ _ rfl)⟩
      cases hr
      exact ⟨_, rfl, rfl, hs0.x⟩
    · have hc0 : minresCont lim s = true := by
        simp only [minresCont, hb0, hi0, Bool.not_false, Bool.true_and, decide_eq_true_eq]
        omega
      have hc1 : minresCont lim s.noKinds = true := hc0
      rcases Bool.eq_false_or_eq_true (lt (minresLanczos op kw 1 s.noKinds).2.2.2.2 (lit 0)) with hbr | hbr
      · rw [if_neg (by rw [hbr]; simp)]
        obtain ⟨t, h1, h2, h3, h4, h5⟩ := minresStepD_break (kA := .int) (kM := kM) (eps := eps) (itnlim := lim) (beta1 := beta1)
          (op := op) (kw := kw) (s := s) (by rw [hi0]; exact hbr)
        have hct : minresCont lim t = false := by simp [minresCont, h4]
        have hct' : minresCont lim t.noKinds = false := hct
        have e1 : minresLoopD (dfun .int op) eps (kw.typed kM) lim beta1 s = .ok t := by
          unfold minresLoopD
          rw [exceptLoop_of_cont hc0 h1, exceptLoop_of_not hct]
        have e2 : minresLoop op eps kw lim beta1 s.noKinds = t.noKinds := by
          unfold minresLoop
          rw [whileLoop_of_cont hc1, ← h5, whileLoop_of_not hct']
        have hh : t.residHistory = h := by
          have : t.noKinds.residHistory = h := by
            rw [h5]
            unfold minresStep
            simp only
            rw [if_pos (by rw [show s.noKinds.itn = 0 from hi0]; exact hbr)]
            exact hh0
          exact this
        rw [e1, e2]
        refine ⟨fun res calls hr _ => ?_, fun hr => absurd hh (hr _ _ rfl)⟩
        cases hr
        exact ⟨_, rfl, rfl, by rw [← hs0.x, ← h2]; rfl⟩
      · have e1 : minresLoopD (dfun .int op) eps (kw.typed kM) lim beta1 s = .error .typeError :=
          exceptLoop_of_error hc0 (minresStepD_int (by simp) hM hs0 (by rw [hi0]; exact hbr))
        rw [e1]
        refine ⟨fun res calls hr hrh => ?_, fun _ => rfl⟩
        exfalso
        by_cases hz : kw.window = 0 ∧ 0 < lim ∧ lt (minresLanczos op kw 1 s.noKinds).2.2.2.2 (lit 0) = false
        · rw [if_pos hz] at hr
          cases hr
        · rw [if_neg hz] at hr
          cases hr
          have grow : ∀ t : MinresLoop S V, t.residHistory.length ≤ (minresStep op eps kw lim beta1 t).residHistory.length := by
            intro t
            unfold minresStep
            simp only
            split
            · exact le_rfl
            · simp
          have first : (minresStep op eps kw lim beta1 s.noKinds).residHistory.length = h.length + 1 := by
            unfold minresStep
            simp only
            rw [if_neg (by rw [show s.noKinds.itn = 0 from hi0]; simp [hbr])]
            simp [MinresLoop.noKinds, hh0]
          have hlong : h.length + 1 ≤ (minresLoop op eps kw lim beta1 s.noKinds).residHistory.length := by
            unfold minresLoop
            rw [whileLoop_of_cont hc1]
            refine (whileLoop_inv (fun t => h.length + 1 ≤ t.residHistory.length) (fun t ht _ => ht.trans (grow t)) _ first.ge).1
          have : (minresLoop op eps kw lim beta1 s.noKinds).residHistory = h := hrh
          rw [this] at hlong
          omega

theorem minresSolveD_int (kM : DKind) (op : V → V) (eps : S) (n : Nat) (h : List S) (b : V) (kw : MinresKw S V)
    (hM : kw.precon ≠ none → kM ≠ .complex) (hd : (minresEntry kw b).2 = false) (hl : 0 < kw.itnlim.getD (5 * n))
    (hbr : lt (minresLanczos op kw 1 (minresInit kw ⟨h⟩ b)).2.2.2.2 (lit 0) = false) :
    minresSolveD .int op eps n ⟨h⟩ ⟨.int, b⟩ (kw.typed kM) = .error .typeError := by
  unfold minresSolveD
  simp only [show DKind.int.join DKind.int = .int from rfl, minresStart_typed, minresEntry_typed, hd, Bool.false_eq_true, if_false]
  have hn : (minresInitD .int (kw.typed kM) ⟨h⟩ ⟨.int, b⟩).noKinds = minresInit kw ⟨h⟩ b := minresInitD_noKinds _
  have hs0 : MinresKinds .int (minresInitD .int (kw.typed kM) ⟨h⟩ ⟨.int, b⟩) := minresInitD_kinds _ (by simp) (by simp) hM
  have hb0 : (minresInitD .int (kw.typed kM) ⟨h⟩ ⟨.int, b⟩).broke = false := rfl
  have hi0 : (minresInitD .int (kw.typed kM) ⟨h⟩ ⟨.int, b⟩).itn = 0 := rfl
  generalize minresInitD .int (kw.typed kM) ⟨h⟩ ⟨.int, b⟩ = s at hn hs0 hb0 hi0
  rw [show (kw.typed kM).itnlim = kw.itnlim from rfl]
  have hc0 : minresCont (kw.itnlim.getD (5 * n)) s = true := by
    simp only [minresCont, hb0, hi0, Bool.not_false, Bool.true_and, decide_eq_true_eq]
    exact hl
  have e1 : minresLoopD (dfun .int op) eps (kw.typed kM) (kw.itnlim.getD (5 * n)) (minresStart kw b).2 s = .error .typeError :=
    exceptLoop_of_error hc0 (minresStepD_int (by simp) hM hs0 (by rw [hi0, hn]; exact hbr))
  rw [e1]
  rfl

/-- **C73 (MINRES), violated**, in exact arithmetic: without a preconditioner, every nonzero right-hand side of integers and every integer
operator that `check_symmetric` accepts raise `TypeError`, if an iteration is allowed. -/
theorem C73_minres_integers_exact {E : Type} [NormedAddCommGroup E] [InnerProductSpace ℝ E] (q : MinresProblem E) (hb : q.b ≠ 0)
    (ε : ℝ) (n : ℕ) (hlim : 1 ≤ q.itnlim.getD (5 * n)) (h : List Fl) (kM : DKind) :
    minresSolveD .int (Vec.op q.A) (.fin ε) n ⟨h⟩ ⟨.int, .fin q.b⟩ (q.kw.typed kM) = .error .typeError := by
  refine minresSolveD_int kM _ _ n h _ q.kw (fun h => absurd rfl h) (by rw [(minresStart_exact q hb).2]) hlim ?_
  rw [minresLanczos_exact q (minresInit_rel q ⟨h⟩ hb).1 (norm_ne_zero_iff.2 hb) (fun h => absurd rfl h)]
  rw [← Bool.not_eq_true, Fl.lit_eq, Fl.fin_lt]
  simp

/-- the hypotheses are met: `2x = 3`, all integers -/
example (kM : DKind) : minresSolveD .int (Vec.op twoProblem.A) (.fin 0) 1 ⟨[]⟩ ⟨.int, .fin twoProblem.b⟩ (twoProblem.kw.typed kM) =
    .error .typeError :=
  C73_minres_integers_exact twoProblem (by norm_num [twoProblem]) 0 1 (by simp [twoProblem]) [] kM

/-- the same system with a right-hand side of floats returns what MINRES returns without dtypes (`nan`, see `C34_beta2_nan`) -/
example (kM : DKind) : ∃ res, minresSolveD .int (Vec.op twoProblem.A) (.fin 0) 1 ⟨[]⟩ ⟨.real, .fin twoProblem.b⟩
    (twoProblem.kw.typed kM) = .ok res ∧ res.istop = -1 ∧ res.x.kind = .real := by
  obtain ⟨res, calls, hs, -, h2, -⟩ := C34_beta2_nan twoProblem (by norm_num [twoProblem]) 2 (by simp [twoProblem])
    (by simp [twoProblem]) 0 (le_refl _) 1 (by simp [twoProblem]) ⟨[]⟩
  obtain ⟨h3, h4⟩ := C73_minres .int .real kM (Vec.op twoProblem.A) (.fin 0) 1 [] (.fin twoProblem.b) twoProblem.kw (by simp) (by simp)
    (fun h => absurd rfl h) (by simp)
  rw [hs] at h3
  cases hD : minresSolveD .int (Vec.op twoProblem.A) (.fin 0) 1 ⟨[]⟩ ⟨.real, .fin twoProblem.b⟩ (twoProblem.kw.typed kM) with
  | error e => rw [hD] at h3; cases h3
  | ok r =>
    rw [hD] at h3
    have h5 : r.noKinds = res := by injection h3
    refine ⟨r, rfl, ?_, (h4 r hD).1⟩
    rw [← h2, ← h5]
    rfl

end Verif.Solver
