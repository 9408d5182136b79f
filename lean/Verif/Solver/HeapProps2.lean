import Verif.Solver.HeapProps
import Verif.Solver.HeapLSMR
import Verif.Solver.HeapCraig
import Verif.Solver.HeapCraigMR
import Verif.Solver.HeapAlias
import Verif.Solver.HeapSymmlqSim

/-!
# Arrays of the caller: the least-squares solvers (C49, C54)

As in `Verif.Solver.HeapProps`.  `A`, `AT`, `M` and `N` are the operator, its transpose and the preconditioners, each with the choice,
for every call, whether it returns a new array or its argument.  A call may raise; the statements are about the heap then, too.
-/

namespace Verif.Solver
open Scalar Vect

variable {S W : Type} [Scalar S] [Vect S W]

/-- **C49, LSQR**: whatever aliasing there is and whatever the operators return, `solve` leaves every array of the caller as it was,
also when it raises; the solution is a new array. -/
theorem C49_lsqr_inputs_unmodified (A AT : HOp W) (n b : Nat) (M N : Option (HOp W)) (kw : LsqrKw S W W) (h : Heap W) :
    Untouched h (lsqrSolveH A AT n b M N kw h).2 ∧ ∀ r, (lsqrSolveH A AT n b M N kw h).1 = .ok r → IsNew h r.1.x :=
  ⟨((lsqrSolveH_keeps A AT n b M N kw h) h (.refl h)).1.mem, ((lsqrSolveH_keeps A AT n b M N kw h) h (.refl h)).2⟩

/-- **C49, LSMR**; `selfX` is the array left in the attribute `x` by an earlier call. -/
theorem C49_lsmr_inputs_unmodified (A AT : HOp W) (m n b : Nat) (M N : Option (HOp W)) (kw : LsmrKw S W W) (selfX : Option Nat)
    (h : Heap W) :
    Untouched h (lsmrSolveH A AT m n b M N kw selfX h).2 ∧ ∀ r, (lsmrSolveH A AT m n b M N kw selfX h).1 = .ok r → IsNew h r.1.x :=
  ⟨((lsmrSolveH_keeps A AT m n b M N kw selfX h) h (.refl h)).1.mem, ((lsmrSolveH_keeps A AT m n b M N kw selfX h) h (.refl h)).2⟩

/-- **C49, CRAIG**; the solution and the residual are new arrays. -/
theorem C49_craig_inputs_unmodified (A AT : HOp W) (n b : Nat) (M N : Option (HOp W)) (kw : CraigKw S W W) (h : Heap W) :
    Untouched h (craigSolveH A AT n b M N kw h).2 ∧
      ∀ t, (craigSolveH A AT n b M N kw h).1 = .ok t → IsNew h t.1.x ∧ IsNew h t.1.r :=
  ⟨((craigSolveH_keeps A AT n b M N kw h) h (.refl h)).1.mem, ((craigSolveH_keeps A AT n b M N kw h) h (.refl h)).2⟩

/-- **C49, CRAIG-MR** -/
theorem C49_craigmr_inputs_unmodified (A AT : HOp W) (m n b : Nat) (M N : Option (HOp W)) (kw : CraigmrKw S W W) (h : Heap W) :
    Untouched h (craigmrSolveH A AT m n b M N kw h).2 ∧ ∀ r, (craigmrSolveH A AT m n b M N kw h).1 = .ok r → IsNew h r.1.x :=
  ⟨((craigmrSolveH_keeps A AT m n b M N kw h) h (.refl h)).1.mem, ((craigmrSolveH_keeps A AT m n b M N kw h) h (.refl h)).2⟩

/-- **C49, SYMMLQ**, with or without an attribute `matvec` on the object -/
theorem C49_symmlq_inputs_unmodified (self : SymmlqObjH W) (n b : Nat) (kw : SymmlqKw S) (h : Heap W) :
    Untouched h (symmlqSolveH self n b kw h).2 ∧ ∀ r, (symmlqSolveH self n b kw h).1 = .ok r → IsNew h r.x :=
  ⟨((symmlqSolveH_keeps self n b kw h) h (.refl h)).1.mem, ((symmlqSolveH_keeps self n b kw h) h (.refl h)).2⟩

/-- the operator always returns a new array -/
def Fresh (op : HOp W) : Prop := ∀ h l, op.same h l = false

/-- **C54, LSQR**, if the transposed operator and the preconditioners return new arrays (the operator need not): the outcome (the
exception, or the contents of the arrays of the result) is that of the recurrences with vectors as values. -/
theorem C54_lsqr_partial (A AT : HOp W) (hAT : Fresh AT) (n b : Nat) (M N : Option (HOp W)) (hM : ReturnsNew M) (hN : ReturnsNew N)
    (kw : LsqrKw S W W) (h : Heap W) (hb : b < h.next) :
    outcome (fun r h' => (r.1.at h', r.2.at h')) (lsqrSolveH A AT n b M N kw h) = lsqrSolve A.fn AT.fn n (h.mem b) (kw.with M N) :=
  (lsqrSolveH_sim A AT hAT n b M N hM hN kw h hb).outcome_eq

/-- **C54, LSMR**, under the same conditions. -/
theorem C54_lsmr_partial (A AT : HOp W) (hAT : Fresh AT) (m n b : Nat) (M N : Option (HOp W)) (hM : ReturnsNew M) (hN : ReturnsNew N)
    (kw : LsmrKw S W W) (selfX : Option Nat) (h : Heap W) (hb : b < h.next) (hx : ∀ k, selfX = some k → k < h.next) :
    outcome (fun r h' => (r.1.at h', r.2.at h')) (lsmrSolveH A AT m n b M N kw selfX h) =
      lsmrSolve A.fn AT.fn m n (h.mem b) (kw.with M N) (selfX.map h.mem) :=
  (lsmrSolveH_sim A AT hAT m n b M N hM hN kw selfX h hb hx).outcome_eq

/-- **C54, CRAIG**, under the same conditions. -/
theorem C54_craig_partial (A AT : HOp W) (hAT : Fresh AT) (n b : Nat) (M N : Option (HOp W)) (hM : ReturnsNew M) (hN : ReturnsNew N)
    (kw : CraigKw S W W) (h : Heap W) :
    outcome (fun r h' => (r.1.at h', r.2.at h')) (craigSolveH A AT n b M N kw h) = craigSolve A.fn AT.fn n (h.mem b) (kw.with M N) :=
  (craigSolveH_sim A AT hAT n b M N hM hN kw h).outcome_eq

/-- **C54, CRAIG-MR**, under the same conditions. -/
theorem C54_craigmr_partial (A AT : HOp W) (hAT : Fresh AT) (m n b : Nat) (M N : Option (HOp W)) (hM : ReturnsNew M) (hN : ReturnsNew N)
    (kw : CraigmrKw S W W) (h : Heap W) (hb : b < h.next) :
    outcome (fun r h' => (r.1.at h', r.2.at h')) (craigmrSolveH A AT m n b M N kw h) =
      craigmrSolve A.fn AT.fn m n (h.mem b) (kw.with M N) :=
  (craigmrSolveH_sim A AT hAT m n b M N hM hN kw h hb).outcome_eq

/-- **C54, SYMMLQ**, if products with the operator (and calls of the attribute `matvec`) return new arrays; the preconditioner may return
its argument.  `symmlqSolve` also lists the arguments of the products, which this statement leaves out. -/
theorem C54_symmlq_partial (self : SymmlqObjH W) (hop : Fresh self.op) (hmv : ReturnsNew self.matvec) (n b : Nat) (kw : SymmlqKw S)
    (h : Heap W) (hb : b < h.next) :
    outcome SymmlqRes.at (symmlqSolveH self n b kw h) = (symmlqSolve self.at n (h.mem b) kw).map Prod.fst :=
  (symmlqSolveH_sim self hop hmv n b kw h hb).outcome_eq

/-- **C54, negative (LSQR).**  In exact arithmetic, for `4 x = 2` (one unknown, so `x = 1/2`): with `N` an identity that returns new
arrays, one iteration gives `x = 1/2`; with `N = lambda v: v`, which returns its argument, it gives `x = 2/25`, because
`v /= alpha` and `Nv /= alpha` (`lsqr.py:207-208`) divide the same array twice. -/
theorem C54_lsqr_violated :
    let kw : LsqrKw Fl (Vec ℝ) (Vec ℝ) :=
      { itnlim := 1, damp := .fin 0, atol := .fin 0, btol := .fin 0, conlim := .fin 0, etol := .fin 0, inf := .fin 0 }
    let A := HOp.fresh (Vec.op fun x : ℝ => 4 * x)
    let h : Heap (Vec ℝ) := ⟨fun _ => .fin 2, 1, []⟩
    (∃ r h', lsqrSolveH A A 1 0 none (some (HOp.fresh id)) kw h = (.ok r, h') ∧ h'.mem r.1.x = Vec.fin (1/2 : ℝ)) ∧
    (∃ r h', lsqrSolveH A A 1 0 none (some HOp.identity) kw h = (.ok r, h') ∧ h'.mem r.1.x = Vec.fin (2/25 : ℝ)) := by
  have e : heapOf [] [2] = (⟨fun _ => .fin 2, 1, []⟩ : Heap (Vec ℝ)) := by
    unfold heapOf memOf
    simp only [List.length_singleton, Heap.mk.injEq, and_true]
    funext k
    rcases k with _ | k <;> rfl
  have h1 := aliasRun []
  have h2 := freshRun []
  rw [e] at h1 h2
  exact ⟨h2, h1⟩

/-- the conditions can be met: an operator with new arrays, a preconditioner that copies, and no second preconditioner -/
example (f : W → W) : Fresh (HOp.fresh f) ∧ ReturnsNew (some (HOp.fresh f)) ∧ ReturnsNew (none : Option (HOp W)) :=
  ⟨fun _ _ => rfl, (fun M hM => by cases hM; exact fun _ _ => rfl), (fun M hM => by cases hM)⟩

end Verif.Solver
