import Verif.Solver.MinresProps

/-!
# The reasons behind the stop codes of MINRES: C34 (any arithmetic)
-/

namespace Verif.Solver
open Scalar Vect

variable {S V : Type} [Scalar S] [Vect S V]

/-- Specification: the code of the first condition that holds, 0 if none does. -/
def firstCode : List (Prop × Int) → Int → Prop
  | [], c => c = 0
  | (p, d) :: l, c => (p ∧ c = d) ∨ (¬ p ∧ firstCode l c)

/-- Specification: the documented conditions of MINRES in order of precedence, for the relative residual `test1`, the relative
residual `test2` of the least-squares problem, the condition estimate `Acond` and `epsx = ‖A‖ ‖y‖ eps`. -/
def minresConditions (eps rtol beta1 : S) (itnlim itn : Nat) (test1 test2 Acond epsx : S) : List (Prop × Int) :=
  [(le test1 rtol = true, 1), (le test2 rtol = true, 2), (ge epsx beta1 = true, 3), (ge Acond (lit (1/10) / eps) = true, 4),
   (itnlim ≤ itn, 6), (le (lit 1 + test1) (lit 1) = true, 1), (le (lit 1 + test2) (lit 1) = true, 2)]

theorem minresTests_first (eps rtol beta1 : S) (itnlim itn : Nat) (t1 t2 ac ex : S) :
    firstCode (minresConditions eps rtol beta1 itnlim itn t1 t2 ac ex)
      (minresTests eps rtol beta1 itnlim itn t1 t2 ac ex 0) := by
  unfold minresTests minresConditions firstCode firstCode firstCode firstCode firstCode firstCode firstCode firstCode
  by_cases h1 : le t1 rtol = true <;> by_cases h2 : le t2 rtol = true <;> by_cases h3 : ge ex beta1 = true <;>
  by_cases h4 : ge ac (lit (1/10) / eps) = true <;> by_cases h6 : itnlim ≤ itn <;>
  by_cases h7 : le (lit 1 + t1) (lit 1) = true <;> by_cases h8 : le (lit 1 + t2) (lit 1) = true <;>
  simp [h1, h2, h3, h4, h6, h7, h8]

/-- the test for `beta2 = 0` in the first iteration -/
def minresBeta2Zero (op : V → V) (eps : S) (kw : MinresKw S V) (self : MinresObj S V) (b : V) : Prop :=
  le (sqrt (minresBB op kw (minresInit kw self b)) / (minresStart kw b).2) (lit 10 * eps) = true

open Classical in
/-- invariant: what the status is after an iteration -/
structure MinresCodeInv (op : V → V) (eps : S) (kw : MinresKw S V) (me : MinresObj S V) (b : V) (itnlim : Nat)
    (s : MinresLoop S V) : Prop where
  start : s.itn = 0 → s = minresInit kw me b
  broke : s.broke = true ↔ 0 < s.istop
  run : s.itn ≠ 0 → s.broke = false → s.istop = if minresBeta2Zero op eps kw me b then -1 else 0
  hist : ∃ new pre, s.residHistory = me.residHistory ++ new ∧ (minresStart kw b).2 :: new = pre ++ [s.phibar]
  code : s.itn ≠ 0 →
    (s.istop = 6 ∧ ∃ r, lt (dot r (applyPrecon kw.precon r)) (lit 0) = true) ∨
    ∃ (new pre : List S) (prev root trnc xn : S), s.residHistory = me.residHistory ++ new ∧
      (minresStart kw b).2 :: new = pre ++ [prev, s.rnorm] ∧ s.Arnorm = prev * root ∧
      (kw.window < s.itn → s.dirErrors.getLast? = some (trnc / xn)) ∧
      firstCode ([(kw.window < s.itn ∧ lt trnc (kw.etol * xn) = true, 10), (minresBeta2Zero op eps kw me b, -1)] ++
        minresConditions eps kw.rtol (minresStart kw b).2 itnlim s.itn (s.rnorm / (s.Anorm * s.ynorm)) (root / s.Anorm)
          s.Acond (s.Anorm * s.ynorm * eps)) s.istop

theorem minresInit_code (op : V → V) (eps : S) (kw : MinresKw S V) (self : MinresObj S V) (b : V) (itnlim : Nat)
    (h : (minresEntry kw b).1 = 0) : MinresCodeInv op eps kw self b itnlim (minresInit kw self b) := by
  have hi : (minresInit kw self b).istop = 0 := h
  refine ⟨fun _ => rfl, by rw [hi]; simp [minresInit], fun hn => absurd rfl hn, ⟨[], [], ?_, rfl⟩, fun hn => absurd rfl hn⟩
  simp [minresInit]

theorem minresStep_code (op : V → V) (eps : S) (kw : MinresKw S V) (self : MinresObj S V) (b : V) (itnlim : Nat)
    (h0 : (minresEntry kw b).1 = 0) (s : MinresLoop S V)
    (hs : MinresCodeInv op eps kw self b itnlim s) (hc : minresCont itnlim s = true) :
    MinresCodeInv op eps kw self b itnlim (minresStep op eps kw itnlim (minresStart kw b).2 s) := by
  simp only [minresCont, Bool.and_eq_true, Bool.not_eq_true', decide_eq_true_eq] at hc
  obtain ⟨hb, hlt⟩ := hc
  obtain ⟨new, pre, hn, hp⟩ := hs.hist
  cases h : lt (minresBB op kw s) (lit 0)
  · -- the flag for `beta2 = 0` after this iteration
    have hflag : minresBeta2 eps (minresStart kw b).2 (sqrt (minresBB op kw s)) (s.itn + 1) s.istop =
        open Classical in if minresBeta2Zero op eps kw self b then (-1 : Int) else 0 := by
      unfold minresBeta2
      by_cases hz : s.itn = 0
      · have hst := hs.start hz
        rw [hz, hst]
        have hi : (minresInit kw self b).istop = 0 := h0
        rw [hi]
        simp only [minresBeta2Zero, Nat.zero_add, true_and]
        split_ifs with h1 <;> simp [h1]
      · rw [if_neg (by omega)]
        exact hs.run hz hb
    unfold minresStep
    simp only [minresBB] at h hflag
    simp only [h, Bool.false_eq_true, if_false]
    rw [hflag]
    generalize hi2 : minresDirErr (S := S) _ _ _ _ _ _ = i2
    generalize hi3 : minresTests (S := S) _ _ _ _ _ _ _ _ _ i2 = i3
    refine ⟨fun hz => absurd hz (Nat.succ_ne_zero _), by simp, ?_, ?_, ?_⟩
    · intro _ hbr
      simp only [decide_eq_false_iff_not] at hbr
      simp only
      by_cases hd : minresBeta2Zero op eps kw self b
      · rw [if_pos hd] at hi2 ⊢
        unfold minresDirErr at hi2
        split at hi2
        · subst hi2
          rw [minresTests, if_neg (by decide)] at hi3
          omega
        · subst hi2
          rw [minresTests, if_neg (by decide)] at hi3
          exact hi3.symm
      · rw [if_neg hd] at hi2 ⊢
        have hi2' : i2 = 0 ∨ i2 = 10 := by
          rw [← hi2, minresDirErr]; split <;> simp
        have hr : i3 = i2 ∨ i2 = 0 ∧ i3 ∈ ([1, 2, 3, 4, 6] : List Int) := hi3 ▸ minresTests_range ..
        simp only [List.mem_cons, List.not_mem_nil, or_false] at hr
        omega
    · simp only
      refine ⟨new ++ [_], (minresStart kw b).2 :: new, ?_, rfl⟩
      rw [hn, List.append_assoc]
    · intro _
      right
      simp only
      let alfa := (minresLanczos op kw (s.itn + 1) s).2.1
      let beta := sqrt (minresLanczos op kw (s.itn + 1) s).2.2.2.2
      let gbar := s.sn * s.dbar - s.cs * alfa
      let gamma := pymax (normof2 gbar beta) eps
      let phi := gbar / gamma * s.phibar
      refine ⟨new ++ [beta / gamma * s.phibar], pre, s.phibar, normof2 gbar (-s.cs * beta),
        normList (s.dErr.set ((s.itn + 1) % kw.window) phi), sqrt (s.xNrgNorm2 + phi * phi), ?_, ?_, rfl, ?_, ?_⟩
      · rw [hn, List.append_assoc]
      · rw [← List.cons_append, hp, List.append_assoc]; rfl
      · intro hw
        rw [if_pos hw, List.getLast?_append]
        rfl
      · simp only [List.cons_append, List.nil_append]
        unfold firstCode
        unfold minresDirErr at hi2
        split at hi2
        · rename_i hd
          left
          refine ⟨hd, ?_⟩
          subst hi2
          rw [minresTests, if_neg (by decide)] at hi3
          exact hi3.symm
        · rename_i hd
          right
          refine ⟨hd, ?_⟩
          unfold firstCode
          by_cases hz : minresBeta2Zero op eps kw self b
          · rw [if_pos hz] at hi2
            left
            refine ⟨hz, ?_⟩
            subst hi2
            rw [minresTests, if_neg (by decide)] at hi3
            exact hi3.symm
          · rw [if_neg hz] at hi2
            right
            refine ⟨hz, ?_⟩
            subst hi2
            rw [← hi3]
            exact minresTests_first ..
  · rw [minresStep_break h]
    refine ⟨fun hz => absurd hz (Nat.succ_ne_zero _), by simp, by simp, ⟨new, pre, hn, hp⟩, fun _ => Or.inl ⟨rfl, ?_⟩⟩
    exact ⟨(minresLanczos op kw (s.itn + 1) s).2.2.1, h⟩

/-- **C34, the reason behind the stop code.** For every arithmetic, operator, preconditioner, right-hand side, state of the
solver object and options: a `solve` that returns after at least one iteration either found the preconditioner indefinite
(code 6), or its code is the one of the first of these conditions that holds for the values it returns: the direct error
(last entry of `dirErrors`) is below `etol` (10), `beta2` was negligible in the first iteration (-1),
`rnorm / (Anorm ynorm) ≤ rtol` (1), `Arnorm / (prev Anorm) ≤ rtol` with `prev` the residual norm before the last iteration (2),
`Anorm ynorm eps ≥ residNorm0` (3), `Acond ≥ 0.1/eps` (4), the limit is reached (6), the first or the second ratio is
negligible with respect to 1 (1, 2). -/
theorem C34_codes (op : V → V) (eps : S) (n : Nat) (self : MinresObj S V) (b : V) (kw : MinresKw S V)
    (res : MinresRes S V) (products : List V) (h : minresSolve op eps n self b kw = .ok (res, products))
    (hi : res.itn ≠ 0) :
    (res.istop = 6 ∧ ∃ r, lt (dot r (applyPrecon kw.precon r)) (lit 0) = true) ∨
    ∃ (new pre : List S) (prev root trnc xn : S), res.residHistory = self.residHistory ++ new ∧
      res.residNorm0 :: new = pre ++ [prev, res.rnorm] ∧ res.Arnorm = prev * root ∧
      (kw.window < res.itn → res.dirErrors.getLast? = some (trnc / xn)) ∧
      firstCode ([(kw.window < res.itn ∧ lt trnc (kw.etol * xn) = true, 10), (minresBeta2Zero op eps kw self b, -1)] ++
        minresConditions eps kw.rtol res.residNorm0 (kw.itnlim.getD (5 * n)) res.itn (res.rnorm / (res.Anorm * res.ynorm))
          (root / res.Anorm) res.Acond (res.Anorm * res.ynorm * eps)) res.istop := by
  unfold minresSolve at h
  simp only at h
  cases hd : (minresEntry kw b).2
  · obtain ⟨h0, -⟩ := minresEntry_go kw b hd
    simp only [hd, Bool.false_eq_true, if_false] at h
    split at h
    · exact absurd h (by simp)
    · simp only [Except.ok.injEq, Prod.mk.injEq] at h
      obtain ⟨hv, -⟩ := minresLoop_inv op eps kw (kw.itnlim.getD (5 * n)) (minresStart kw b).2
        (MinresCodeInv op eps kw self b (kw.itnlim.getD (5 * n)))
        (fun s hs hc => minresStep_code op eps kw self b _ h0 s hs hc) _ (minresInit_code op eps kw self b _ h0)
      generalize minresLoop op eps kw _ _ _ = s at hv h
      obtain ⟨rfl, -⟩ := h
      exact hv.code hi
  · simp only [hd, if_true, Except.ok.injEq, Prod.mk.injEq] at h
    obtain ⟨rfl, -⟩ := h
    exact absurd rfl hi

end Verif.Solver
