import Verif.Solver.CGLemmas

/-!
# Properties of CG: C26 and C30 (any arithmetic)

`Scalar` and `Vect` carry no laws, so the theorems of this file hold for floating-point arithmetic, with rounding,
overflow and NaN, as well as for exact arithmetic.
-/

namespace Verif.Solver
open Scalar Vect

variable {S V : Type} [Scalar S] [Vect S V]

/-- the symmetry check, if requested, does not abort the solve -/
def CGKw.Runs (kw : CGKw V) : Prop := (kw.checkSymmetric && !kw.symOK) = false

/-- products spent on the initial guess -/
def CGKw.guessCost (kw : CGKw V) : Nat := if kw.guess.isSome then 1 else 0

/-- loop invariant for the counters -/
structure CGCount (kw : CGKw V) (old : CGObj S V) (mm : Nat) (s : CGLoop S V) : Prop where
  calls : s.nMatvec = s.calls.length
  le : s.nMatvec ≤ max mm kw.guessCost
  hist : s.residHistory.length + kw.guessCost + (if s.definite then 0 else 1) = old.residHistory.length + 1 + s.nMatvec
  pre : old.residHistory <+: s.residHistory

theorem cgInit_count (op : V → V) (o : KrylovOpts S V) (kw : CGKw V) (self : CGObj S V) (rhs : V) (mm : Nat) :
    CGCount kw self mm (cgInit op o kw self rhs).1 := by
  unfold cgInit
  cases hg : kw.guess <;> exact ⟨rfl, by simp [CGKw.guessCost, hg], by simp [CGKw.guessCost, hg], by simp⟩

theorem cgStep_count (op : V → V) (pr : Option (V → V)) (kw : CGKw V) (self : CGObj S V) (t : S) (mm : Nat)
    (s : CGLoop S V) (hs : CGCount kw self mm s) (hc : cgCont t mm s = true) :
    CGCount kw self mm (cgStep op pr kw s) := by
  have hd := cgCont_def hc
  have hlt := cgCont_lt hc
  have h3 := hs.hist
  simp only [hd, if_true] at h3
  cases h : (kw.checkCurvature && notPositive (dot s.p (op s.p)))
  · rw [cgStep_def h]
    refine ⟨?_, ?_, ?_, ?_⟩
    · simp [hs.calls]
    · simp only; omega
    · simp only [hd, List.length_append, List.length_singleton, if_true]; omega
    · exact hs.pre.trans (List.prefix_append _ _)
  · rw [cgStep_indef h]
    refine ⟨by simp [hs.calls], by simp only; omega, ?_, hs.pre⟩
    simp only [Bool.false_eq_true, if_false]; omega

theorem cgSolve_count (op : V → V) (o : KrylovOpts S V) (kw : CGKw V) (self : CGObj S V) (rhs : V) (mm : Nat) :
    CGCount kw self mm (cgLoop op o.precon kw (cgInit op o kw self rhs).2 mm (cgInit op o kw self rhs).1) :=
  (cgLoop_inv op o.precon kw _ mm (CGCount kw self mm) (fun s hs hc => cgStep_count op _ kw self _ mm s hs hc) _
    (cgInit_count op o kw self rhs mm)).1

/-- **C26.** For every arithmetic, operator, right-hand side, state of the solver object and keywords: `nMatvec` is the
number of products with the operator, which is at most `matvec_max` (default `2n`), or one if the initial guess
already exceeds the budget; one residual norm is recorded initially and one per iteration (the product that reveals
nonpositive curvature ends the solve and records none). -/
theorem C26_budget (op : V → V) (o : KrylovOpts S V) (n : Nat) (self : CGObj S V) (rhs : V) (kw : CGKw V) (hk : kw.Runs) :
    let res := (cgSolve op o n self rhs kw).1
    let products := (cgSolve op o n self rhs kw).2
    res.nMatvec = products.length ∧
    products.length ≤ max (kw.matvecMax.getD (2 * n)) 1 ∧
    (kw.guess = none → products.length ≤ kw.matvecMax.getD (2 * n)) ∧
    ∃ new, res.residHistory = self.residHistory ++ new ∧
      new.length + (if kw.guess.isSome then 1 else 0) + (if res.definite = some false then 1 else 0)
        = 1 + products.length := by
  rw [cgSolve_eq hk]
  have h := cgSolve_count op o kw self rhs (kw.matvecMax.getD (2 * n))
  simp only
  generalize hs : cgLoop op o.precon kw _ _ _ = s at h ⊢
  have hle := h.le
  refine ⟨h.calls, ?_, ?_, ?_⟩
  · rw [← h.calls]
    have : kw.guessCost ≤ 1 := by unfold CGKw.guessCost; split <;> omega
    omega
  · intro hg
    rw [← h.calls]
    have : kw.guessCost = 0 := by simp [CGKw.guessCost, hg]
    omega
  · obtain ⟨new, hnew⟩ := h.pre
    refine ⟨new, hnew.symm, ?_⟩
    have h3 := h.hist
    rw [← hnew, List.length_append, CGKw.guessCost] at h3
    rw [← h.calls]
    rcases Bool.eq_false_or_eq_true s.definite with hd | hd <;> simp [hd] at h3 ⊢ <;> omega

/-- the loop only sees the operator through the products it records -/
theorem cgLoop_calls_complete (op op' : V → V) (pr : Option (V → V)) (kw : CGKw V) (t : S) (mm : Nat) :
    ∀ s : CGLoop S V, (∀ v ∈ (cgLoop op pr kw t mm s).calls, op' v = op v) →
      cgLoop op' pr kw t mm s = cgLoop op pr kw t mm s
  | s, h => by
    rw [cgLoop] at h ⊢
    conv => rhs; rw [cgLoop]
    split
    · rename_i hc
      simp only [hc, dite_true] at h
      have hmem : s.p ∈ (cgLoop op pr kw t mm (cgStep op pr kw s)).calls := by
        have := (cgLoop_inv op pr kw t mm (fun s' => s.p ∈ s'.calls)
          (fun s' hs' _ => by rw [cgStep_calls]; exact List.mem_append_left _ hs') (cgStep op pr kw s)
          (by rw [cgStep_calls]; simp)).1
        exact this
      have hstep : cgStep op' pr kw s = cgStep op pr kw s := by
        unfold cgStep; rw [h _ hmem]
      rw [hstep]
      exact cgLoop_calls_complete op op' pr kw t mm _ h
    · rfl
termination_by s => mm - s.nMatvec
decreasing_by
  rw [cgStep_nMatvec]
  have := cgCont_lt ‹_›
  omega

/-- **C26** (the recorded products are all there are): a solve with another operator that agrees on the recorded
vectors gives the same result, so no other product influences it. -/
theorem C26_products_complete (op op' : V → V) (o : KrylovOpts S V) (n : Nat) (self : CGObj S V) (rhs : V) (kw : CGKw V)
    (h : ∀ v ∈ (cgSolve op o n self rhs kw).2, op' v = op v) :
    cgSolve op' o n self rhs kw = cgSolve op o n self rhs kw := by
  cases hk : (kw.checkSymmetric && !kw.symOK)
  · rw [cgSolve_eq hk] at h
    rw [cgSolve_eq hk, cgSolve_eq hk]
    simp only at h ⊢
    have hi : cgInit op' o kw self rhs = cgInit op o kw self rhs := by
      unfold cgInit
      cases hg : kw.guess with
      | none => rfl
      | some g =>
        have : g ∈ (cgInit op o kw self rhs).1.calls := by unfold cgInit; simp [hg]
        have := (cgLoop_inv op o.precon kw (cgInit op o kw self rhs).2 (kw.matvecMax.getD (2*n)) (fun s' => g ∈ s'.calls)
          (fun s' hs' _ => by rw [cgStep_calls]; exact List.mem_append_left _ hs') _ this).1
        simp only [h g this]
    rw [hi, cgLoop_calls_complete op op' o.precon kw _ _ _ h]
  · unfold cgSolve; simp [hk]

/-! ## C30: repeated solves -/

/-- add the data of an earlier solve to a loop state -/
def CGLoop.after (self : CGObj S V) (s : CGLoop S V) : CGLoop S V :=
  { s with
    residHistory := self.residHistory ++ s.residHistory
    resids := self.resids ++ s.resids
    iterates := self.iterates ++ s.iterates
    infiniteDescent := s.infiniteDescent.or self.infiniteDescent }

theorem cgStep_after (op : V → V) (pr : Option (V → V)) (kw : CGKw V) (self : CGObj S V) (s : CGLoop S V) :
    cgStep op pr kw (s.after self) = (cgStep op pr kw s).after self := by
  cases h : (kw.checkCurvature && notPositive (dot s.p (op s.p)))
  · rw [cgStep_def h, cgStep_def (s := s.after self) h]
    simp only [CGLoop.after, List.append_assoc]
    cases kw.storeResids <;> cases kw.storeIterates <;> simp
  · rw [cgStep_indef h, cgStep_indef (s := s.after self) h]
    simp [CGLoop.after]

theorem cgLoop_after (op : V → V) (pr : Option (V → V)) (kw : CGKw V) (self : CGObj S V) (t : S) (mm : Nat) :
    ∀ s : CGLoop S V, cgLoop op pr kw t mm (s.after self) = (cgLoop op pr kw t mm s).after self := by
  intro s
  induction hm : mm - s.nMatvec using Nat.strong_induction_on generalizing s with
  | _ m ih =>
    rw [cgLoop]
    conv => rhs; rw [cgLoop]
    have hc : cgCont t mm (s.after self) = cgCont t mm s := rfl
    by_cases h : cgCont t mm s = true
    · rw [dif_pos (hc.trans h), dif_pos h, cgStep_after]
      have := cgCont_lt h
      exact ih _ (by rw [cgStep_nMatvec]; omega) _ rfl
    · rw [dif_neg (by rw [hc]; exact h), dif_neg h]

theorem cgInit_after (op : V → V) (o : KrylovOpts S V) (kw : CGKw V) (self : CGObj S V) (rhs : V) :
    (cgInit op o kw self rhs).1 = (cgInit op o kw {} rhs).1.after self ∧
    (cgInit op o kw self rhs).2 = (cgInit op o kw {} rhs).2 := by
  unfold cgInit CGLoop.after
  cases kw.guess <;> cases kw.storeResids <;> cases kw.storeIterates <;> simp

/-- **C30 (partial).** On a solver object in any state (in particular after any sequence of earlier solves) the solution,
its residual norms, the product count, `converged` and `definite` are those of a solve on a fresh object.
Missing, because the code violates it: the histories are appended to those of the earlier solves, and
`infiniteDescent` keeps its old value unless the new solve sets it (`C30_stale`). -/
theorem C30_repeated_solve_partial (op : V → V) (o : KrylovOpts S V) (n : Nat) (self : CGObj S V) (rhs : V) (kw : CGKw V)
    (hk : kw.Runs) :
    let res := (cgSolve op o n self rhs kw).1
    let fresh := (cgSolve op o n {} rhs kw).1
    (cgSolve op o n self rhs kw).2 = (cgSolve op o n {} rhs kw).2 ∧
    res.x = fresh.x ∧ res.residNorm = fresh.residNorm ∧ res.residNorm0 = fresh.residNorm0 ∧
    res.nMatvec = fresh.nMatvec ∧ res.converged = fresh.converged ∧ res.definite = fresh.definite ∧
    res.residHistory = self.residHistory ++ fresh.residHistory ∧
    res.resids = self.resids ++ fresh.resids ∧
    res.iterates = self.iterates ++ fresh.iterates ∧
    res.infiniteDescent = fresh.infiniteDescent.or self.infiniteDescent := by
  rw [cgSolve_eq hk, cgSolve_eq hk]
  obtain ⟨h1, h2⟩ := cgInit_after op o kw self rhs
  simp only
  rw [h1, h2, cgLoop_after]
  exact ⟨rfl, rfl, rfl, rfl, rfl, rfl, rfl, rfl, rfl, rfl, rfl⟩

end Verif.Solver
