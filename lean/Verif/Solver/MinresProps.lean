import Verif.Solver.Minres
import Mathlib.Tactic.IntervalCases

/-!
# Properties of MINRES: C34 (any arithmetic)
-/

namespace Verif.Solver
open Scalar Vect

variable {S V : Type} [Scalar S] [Vect S V]

/-- the value whose sign is tested by `minres.py:252`, in iteration `s.itn + 1` -/
def minresBB (op : V → V) (kw : MinresKw S V) (s : MinresLoop S V) : S := (minresLanczos op kw (s.itn + 1) s).2.2.2.2

theorem minresStep_break {op : V → V} {eps : S} {kw : MinresKw S V} {itnlim : Nat} {beta1 : S} {s : MinresLoop S V}
    (h : lt (minresBB op kw s) (lit 0) = true) :
    minresStep op eps kw itnlim beta1 s =
      { s with itn := s.itn + 1, istop := 6, broke := true,
               calls := s.calls ++ [smul (lit 1 / s.beta) s.y] } := by
  unfold minresStep
  simp only [minresBB] at h
  simp only [h, if_true]
  rfl

theorem minresTests_range (eps rtol beta1 : S) (itnlim itn : Nat) (t1 t2 ac ex : S) (i : Int) :
    minresTests eps rtol beta1 itnlim itn t1 t2 ac ex i = i ∨
    i = 0 ∧ minresTests eps rtol beta1 itnlim itn t1 t2 ac ex i ∈ ([1, 2, 3, 4, 6] : List Int) := by
  unfold minresTests
  by_cases hi : i = 0
  · subst hi
    simp only [if_true]
    split <;> [simp; skip]
    split <;> [simp; skip]
    split <;> [simp; skip]
    split <;> [simp; skip]
    split <;> [simp; skip]
    split <;> [simp; skip]
    split <;> simp
  · simp [hi]

theorem minresTests_six {eps rtol beta1 : S} {itnlim itn : Nat} {t1 t2 ac ex : S} {i : Int}
    (h : minresTests eps rtol beta1 itnlim itn t1 t2 ac ex i = 6) (hi : i ≠ 6) : itnlim ≤ itn := by
  unfold minresTests at h
  by_contra hlt
  have hf : ¬ itn ≥ itnlim := hlt
  by_cases h0 : i = 0
  · subst h0
    simp only [if_true, hf, if_false] at h
    revert h
    split <;> [simp; skip]
    split <;> [simp; skip]
    split <;> [simp; skip]
    split <;> [simp; skip]
    split <;> [simp; skip]
    split <;> simp
  · simp only [h0, if_false] at h; exact hi h

theorem minresTests_zero {eps rtol beta1 : S} {itnlim itn : Nat} {t1 t2 ac ex : S} {i : Int}
    (h : minresTests eps rtol beta1 itnlim itn t1 t2 ac ex i = 0) : itn < itnlim := by
  unfold minresTests at h
  by_contra hlt
  have hf : itn ≥ itnlim := by omega
  by_cases h0 : i = 0
  · subst h0
    simp only [if_true, hf] at h
    revert h
    split <;> [simp; skip]
    split <;> [simp; skip]
    split <;> [simp; skip]
    split <;> simp
  · simp only [h0, if_false] at h

/-- loop invariant for the counters and the status -/
structure MinresInv (kw : MinresKw S V) (itnlim : Nat) (old : MinresObj S V)
    (s : MinresLoop S V) : Prop where
  calls : s.calls.length = s.itn
  le : s.itn ≤ itnlim
  status : s.istop ∈ ([-1, 0, 1, 2, 3, 4, 6, 10] : List Int)
  broke : s.broke = true ↔ 0 < s.istop
  minus : s.istop = -1 → 0 < s.itn
  zero : s.istop = 0 → 0 < itnlim → s.itn < itnlim
  six : s.istop = 6 → s.itn = itnlim ∨ ∃ r, lt (dot r (applyPrecon kw.precon r)) (lit 0) = true
  hist : ∃ new, s.residHistory = old.residHistory ++ new ∧ new.length ≤ s.itn ∧ s.itn ≤ new.length + 1 ∧
    (s.istop ≠ 6 → new.length = s.itn) ∧ (kw.storeIterates = true → s.iterates.length = new.length + 1)

theorem minresInit_inv (kw : MinresKw S V) (itnlim : Nat) (self : MinresObj S V) (b : V)
    (h : (minresEntry kw b).1 = 0) : MinresInv kw itnlim self (minresInit kw self b) := by
  have hi : (minresInit kw self b).istop = 0 := h
  have hn : (minresInit kw self b).itn = 0 := rfl
  refine ⟨rfl, Nat.zero_le _, by rw [hi]; simp, ?_, ?_, ?_, ?_, ⟨[], ?_⟩⟩
  · rw [hi]; simp [minresInit]
  · rw [hi]; simp
  · intro _ h; rw [hn]; exact h
  · rw [hi]; simp
  · refine ⟨by simp [minresInit], by simp, by simp [hn], by simp [hn], ?_⟩
    intro hs; simp [minresInit, hs]

theorem minresStep_inv (op : V → V) (eps : S) (kw : MinresKw S V) (itnlim : Nat) (self : MinresObj S V) (beta1 : S)
    (s : MinresLoop S V) (hs : MinresInv kw itnlim self s) (hc : minresCont itnlim s = true) :
    MinresInv kw itnlim self (minresStep op eps kw itnlim beta1 s) := by
  simp only [minresCont, Bool.and_eq_true, Bool.not_eq_true', decide_eq_true_eq] at hc
  obtain ⟨hb, hlt⟩ := hc
  have hle : ¬ 0 < s.istop := by rw [← hs.broke, hb]; simp
  have h6 : s.istop ≠ 6 := by omega
  obtain ⟨new, hn1, hn2, hn3, hn4, hn5⟩ := hs.hist
  have hn4 := hn4 h6
  have hstat : s.istop = -1 ∨ s.istop = 0 := by
    have := hs.status
    simp only [List.mem_cons, List.not_mem_nil, or_false] at this
    omega
  cases h : lt (minresBB op kw s) (lit 0)
  · unfold minresStep
    simp only [minresBB] at h
    simp only [h, Bool.false_eq_true, if_false]
    generalize hi1 : minresBeta2 (S := S) _ _ _ _ s.istop = i1
    have hi1' : i1 = -1 ∨ i1 = 0 := by
      rw [← hi1, minresBeta2]; split
      · exact Or.inl rfl
      · exact hstat
    generalize hi2 : minresDirErr (S := S) _ _ _ _ _ i1 = i2
    have hi2' : i2 = -1 ∨ i2 = 0 ∨ i2 = 10 := by
      rw [← hi2, minresDirErr]; split
      · simp
      · rcases hi1' with h | h <;> simp [h]
    generalize hi3 : minresTests (S := S) _ _ _ _ _ _ _ _ _ i2 = i3
    have hr : i3 = i2 ∨ i2 = 0 ∧ i3 ∈ ([1, 2, 3, 4, 6] : List Int) := hi3 ▸ minresTests_range ..
    refine ⟨?_, ?_, ?_, ?_, ?_, ?_, ?_, ?_⟩
    · simp [hs.calls]
    · simp only; omega
    · simp only [List.mem_cons, List.not_mem_nil, or_false] at hr ⊢
      omega
    · simp
    · intro _; simp only; omega
    · intro h0 _
      simp only at h0 ⊢
      exact minresTests_zero (hi3.trans h0)
    · intro h0
      simp only at h0 ⊢
      left
      have := minresTests_six (hi3.trans h0) (by omega)
      omega
    · simp only [hn1, List.append_assoc]
      refine ⟨_, rfl, ?_, ?_, ?_, ?_⟩
      · simp only [List.length_append, List.length_singleton]; omega
      · simp only [List.length_append, List.length_singleton]; omega
      · intro _; simp only [List.length_append, List.length_singleton]; omega
      · intro hst
        simp only [hst, if_true, List.length_append, List.length_singleton, hn5 hst]
  · rw [minresStep_break h]
    refine ⟨?_, ?_, by simp, by simp, by simp, by simp, ?_, ⟨new, hn1, ?_, ?_, by simp, hn5⟩⟩
    · simp [hs.calls]
    · simp only; omega
    · intro _; right
      exact ⟨(minresLanczos op kw (s.itn + 1) s).2.2.1, h⟩
    · simp only; omega
    · simp only; omega

theorem minresLoop_inv (op : V → V) (eps : S) (kw : MinresKw S V) (itnlim : Nat) (beta1 : S)
    (P : MinresLoop S V → Prop)
    (hstep : ∀ s, P s → minresCont itnlim s = true → P (minresStep op eps kw itnlim beta1 s)) (s : MinresLoop S V)
    (hs : P s) : P (minresLoop op eps kw itnlim beta1 s) ∧ minresCont itnlim (minresLoop op eps kw itnlim beta1 s) = false :=
  whileLoop_inv P hstep s hs

/-- what the status is when the loop is not entered -/
theorem minresEntry_done (kw : MinresKw S V) (b : V) (h : (minresEntry kw b).2 = true) :
    (minresEntry kw b).1 = 9 ∧ lt (dot b (applyPrecon kw.precon b)) (lit 0) = true ∨
    (minresEntry kw b).1 = 7 ∧ kw.check = true ∧ kw.symOK = false ∨
    (minresEntry kw b).1 = 8 ∧ kw.check = true ∧ kw.preconSymOK = false ∧ kw.precon.isSome = true ∨
    (minresEntry kw b).1 = 0 ∧ feq (dot b (applyPrecon kw.precon b)) (lit 0) = true := by
  unfold minresEntry at h ⊢
  simp only at h ⊢
  cases h1 : lt (dot b (applyPrecon kw.precon b)) (lit 0) <;>
  cases h2 : feq (dot b (applyPrecon kw.precon b)) (lit 0) <;>
  cases h3 : kw.check <;> cases h4 : kw.symOK <;> cases h5 : kw.precon.isSome <;> cases h6 : kw.preconSymOK <;>
  simp [h1, h2, h3, h4, h5, h6] at h ⊢

theorem minresEntry_go (kw : MinresKw S V) (b : V) (h : (minresEntry kw b).2 = false) :
    (minresEntry kw b).1 = 0 ∧ lt (dot b (applyPrecon kw.precon b)) (lit 0) = false ∧
    feq (dot b (applyPrecon kw.precon b)) (lit 0) = false ∧ (kw.check = true → kw.symOK = true) ∧
    (kw.check = true → kw.precon.isSome = true → kw.preconSymOK = true) := by
  unfold minresEntry at h ⊢
  simp only at h ⊢
  cases h1 : lt (dot b (applyPrecon kw.precon b)) (lit 0) <;>
  cases h2 : feq (dot b (applyPrecon kw.precon b)) (lit 0) <;>
  cases h3 : kw.check <;> cases h4 : kw.symOK <;> cases h5 : kw.precon.isSome <;> cases h6 : kw.preconSymOK <;>
  simp [h1, h2, h3, h4, h5, h6] at h ⊢

/-- **C34 (partial).** For every arithmetic, operator, preconditioner, right-hand side, state of the solver object and
options with a nonempty window: `solve` returns; the number of products with the operator is `nMatvec`, is `itn` and is at
most `itnlim` (default `5n`); `istop` is a documented code other than 5; `converged` is `True` exactly for the codes
1, 2, 3, 4, 10; the codes 9, 7, 8 mean that the preconditioner is indefinite, the operator or the preconditioner not
symmetric, and come with no iteration; code 6 means that the limit is reached or the preconditioner is indefinite; code 0
means that `b'Mb` is zero or that no iteration was allowed; and one residual norm is recorded for every iteration, except an
iteration that finds the preconditioner indefinite, and if asked for, one iterate for each of these and one initially.
Missing, because the code violates it: stopping with the solution when the first Lanczos step finds `beta2 = 0`
(`C34_beta2_no_stop`, `C34_beta2_nan`). -/
theorem C34_status_partial (op : V → V) (eps : S) (n : Nat) (self : MinresObj S V) (b : V) (kw : MinresKw S V)
    (hw : kw.window ≠ 0) :
    ∃ res products, minresSolve op eps n self b kw = .ok (res, products) ∧
      res.nMatvec = products.length ∧ res.itn = products.length ∧ products.length ≤ kw.itnlim.getD (5 * n) ∧
      res.istop ∈ ([-1, 0, 1, 2, 3, 4, 6, 7, 8, 9, 10] : List Int) ∧
      (res.converged = true ↔ res.istop ∈ ([1, 2, 3, 4, 10] : List Int)) ∧
      (res.istop = 9 → products = [] ∧ lt (dot b (applyPrecon kw.precon b)) (lit 0) = true) ∧
      (res.istop = 7 → products = [] ∧ kw.check = true ∧ kw.symOK = false) ∧
      (res.istop = 8 → products = [] ∧ kw.check = true ∧ kw.preconSymOK = false ∧ kw.precon.isSome = true) ∧
      (res.istop = 6 → products.length = kw.itnlim.getD (5 * n) ∨
        ∃ r, lt (dot r (applyPrecon kw.precon r)) (lit 0) = true) ∧
      (res.istop = 0 → products = [] ∧
        (kw.itnlim.getD (5 * n) = 0 ∨ feq (dot b (applyPrecon kw.precon b)) (lit 0) = true)) ∧
      ∃ new, res.residHistory = self.residHistory ++ new ∧ (res.istop ≠ 6 → new.length = products.length) ∧
        new.length ≤ products.length ∧ products.length ≤ new.length + 1 ∧
        (kw.storeIterates = true → res.iterates.length = new.length + 1) := by
  unfold minresSolve
  simp only
  cases hd : (minresEntry kw b).2
  · obtain ⟨h0, -⟩ := minresEntry_go kw b hd
    have hw' : ¬ (kw.window = 0 ∧ 0 < kw.itnlim.getD (5 * n) ∧
      lt (minresLanczos op kw 1 (minresInit kw self b)).2.2.2.2 (lit 0) = false) := fun h => hw h.1
    simp only [Bool.false_eq_true, if_false, hw']
    obtain ⟨hi, hc⟩ := minresLoop_inv op eps kw (kw.itnlim.getD (5 * n)) (minresStart kw b).2
      (MinresInv kw (kw.itnlim.getD (5 * n)) self)
      (fun s hs hc => minresStep_inv op eps kw _ self _ s hs hc) _ (minresInit_inv kw _ self b h0)
    generalize minresLoop op eps kw _ _ _ = s at hi hc
    have hst := hi.status
    refine ⟨_, _, rfl, hi.calls.symm, hi.calls.symm, hi.calls ▸ hi.le, ?_, ?_, ?_, ?_, ?_, ?_, ?_, ?_⟩
    · simp only [minresResult, List.mem_cons, List.not_mem_nil, or_false] at hst ⊢; omega
    · simp [minresResult, minresConverged]
    · intro h; simp only [minresResult] at h; rw [h] at hst; simp at hst
    · intro h; simp only [minresResult] at h; rw [h] at hst; simp at hst
    · intro h; simp only [minresResult] at h; rw [h] at hst; simp at hst
    · intro h; simp only [minresResult] at h; rw [hi.calls]; exact hi.six h
    · intro h
      simp only [minresResult] at h
      have hb : s.broke = false := by
        have := hi.broke; rw [h] at this; simpa using this
      simp only [minresCont, hb, Bool.not_false, Bool.true_and, decide_eq_false_iff_not] at hc
      have : kw.itnlim.getD (5 * n) = 0 := by
        by_contra hne
        exact hc (hi.zero h (by omega))
      refine ⟨List.eq_nil_of_length_eq_zero ?_, Or.inl this⟩
      have := hi.le; have := hi.calls; omega
    · obtain ⟨new, h1, h2, h3, h4, h5⟩ := hi.hist
      rw [← hi.calls] at h2 h3 h4
      exact ⟨new, h1, h4, h2, h3, h5⟩
  · simp only [if_true]
    have hh : (minresInit kw self b).residHistory = self.residHistory ++ [] := by simp [minresInit]
    have hit : kw.storeIterates = true → (minresInit kw self b).iterates.length = 0 + 1 := by
      intro h; simp [minresInit, h]
    refine ⟨_, _, rfl, rfl, rfl, Nat.zero_le _, ?_⟩
    have hi : (minresResult (minresStart kw b).2 (minresInit kw self b)).istop = (minresEntry kw b).1 := rfl
    rw [hi]
    refine ⟨?_, ?_, ?_⟩
    · rcases minresEntry_done kw b hd with h | h | h | h <;> rw [h.1] <;> simp
    · simp only [minresResult, minresConverged]
      rw [decide_eq_true_iff]; rfl
    · have hcn : (minresInit kw self b).calls = [] := rfl
      rw [hcn]
      rcases minresEntry_done kw b hd with h | h | h | h <;> rw [h.1] <;>
        simp only [Int.reduceEq, forall_const, true_and,
          OfNat.ofNat_ne_zero, IsEmpty.forall_iff] <;>
        first
        | exact ⟨h.2, [], hh, by simp, by simp, by simp, hit⟩
        | exact ⟨Or.inr h.2, [], hh, by simp, by simp, by simp, hit⟩

/-- **C34, negative.** In every arithmetic: the code `-1` (`beta2 = 0`, "Terminate later") never ends the loop: a solve that
ends with it has used the whole budget. -/
theorem C34_beta2_no_stop (op : V → V) (eps : S) (n : Nat) (self : MinresObj S V) (b : V) (kw : MinresKw S V)
    (hw : kw.window ≠ 0) (res : MinresRes S V) (products : List V)
    (h : minresSolve op eps n self b kw = .ok (res, products)) (hi : res.istop = -1) :
    res.itn = kw.itnlim.getD (5 * n) := by
  unfold minresSolve at h
  simp only at h
  cases hd : (minresEntry kw b).2
  · obtain ⟨h0, -⟩ := minresEntry_go kw b hd
    have hw' : ¬ (kw.window = 0 ∧ 0 < kw.itnlim.getD (5 * n) ∧
      lt (minresLanczos op kw 1 (minresInit kw self b)).2.2.2.2 (lit 0) = false) := fun h => hw h.1
    simp only [hd, Bool.false_eq_true, if_false, hw', Except.ok.injEq, Prod.mk.injEq] at h
    obtain ⟨hv, hc⟩ := minresLoop_inv op eps kw (kw.itnlim.getD (5 * n)) (minresStart kw b).2
      (MinresInv kw (kw.itnlim.getD (5 * n)) self)
      (fun s hs hc => minresStep_inv op eps kw _ self _ s hs hc) _ (minresInit_inv kw _ self b h0)
    generalize minresLoop op eps kw _ _ _ = s at hv hc h
    obtain ⟨rfl, rfl⟩ := h
    have hi : s.istop = -1 := hi
    have hb : s.broke = false := by
      have := hv.broke; rw [hi] at this; simpa using this
    simp only [minresCont, hb, Bool.not_false, Bool.true_and, decide_eq_false_iff_not] at hc
    have := hv.le
    change s.itn = _
    omega
  · simp only [hd, if_true, Except.ok.injEq, Prod.mk.injEq] at h
    obtain ⟨rfl, -⟩ := h
    have hi : (minresEntry kw b).1 = -1 := hi
    rcases minresEntry_done kw b hd with h | h | h | h <;> rw [h.1] at hi <;> simp at hi

end Verif.Solver
