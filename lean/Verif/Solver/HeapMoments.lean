import Verif.Solver.HeapProps2

/-!
# Arrays of the caller at every moment of a call (C70)

C49 compares the heap after a call with the heap before it.  A call of `solve` can also be cut short anywhere: the operator or the
preconditioner of the user raises, the process receives an interrupt, a debugger or another thread looks at the arrays.  `Heap.past`
records the contents of all arrays after every statement that writes to an array or makes one; here every one of these moments is
compared with the heap at the call.  There is no `try` in the code of the solvers, so nothing is executed after such a moment.

The record is empty at the call (`h.past = []`), so it lists exactly the moments of the run.
-/

namespace Verif.Solver
open Scalar Vect

variable {S V : Type} [Scalar S] [Vect S V]

/-- at every recorded moment of `h'`, every array that exists in `h` has the contents it has in `h` -/
def NeverTouched (h h' : Heap V) : Prop := ∀ m ∈ h'.past, ∀ k < h.next, m k = h.mem k

theorem Heap.Ext.never {h h' : Heap V} (e : h.Ext h') (h0 : h.past = []) : NeverTouched h h' := fun m hm => by
  rcases e.past m hm with h1 | h1
  · rw [h0] at h1; cases h1
  · exact h1

/-- **C70, CG** -/
theorem C70_cg (op : HOp V) (o : HOpts S V) (n : Nat) (self : CGObj S Nat) (rhs : Nat) (kw : CGKw Nat) (h : Heap V)
    (hv : CGValid h self rhs kw) (hx : ∀ k, self.x = some k → k < h.next) (h0 : h.past = []) :
    NeverTouched h (cgSolveH op o n self rhs kw h).2 :=
  (cgSolveH_refines op o n self rhs kw h hv hx).1.never h0

/-- **C70, CGS** -/
theorem C70_cgs (op : HOp V) (o : HOpts S V) (n : Nat) (rhs : Nat) (kw : KrylovKw Nat) (h : Heap V) (hv : KrylovValid h rhs kw)
    (h0 : h.past = []) : NeverTouched h (cgsSolveH op o n rhs kw h).2 :=
  (cgsSolveH_refines op o n rhs kw h hv).1.never h0

/-- **C70, Bi-CGSTAB** -/
theorem C70_bicgstab (op : HOp V) (o : HOpts S V) (n : Nat) (rhs : Nat) (kw : KrylovKw Nat) (h : Heap V) (h0 : h.past = []) :
    NeverTouched h (biSolveH op o n rhs kw h).2 :=
  (biSolveH_frame op o n rhs kw h).1.never h0

/-- **C70, TFQMR** -/
theorem C70_tfqmr (op : HOp V) (o : HOpts S V) (n : Nat) (rhs : Nat) (kw : KrylovKw Nat) (h : Heap V) (h0 : h.past = []) :
    NeverTouched h (tfSolveH op o n rhs kw h).2 :=
  (tfSolveH_frame op o n rhs kw h).1.never h0

/-- **C70, MINRES** -/
theorem C70_minres (op : HOp V) (eps : S) (n : Nat) (self : MinresObj S V) (b : Nat) (kw : MinresKwH S V) (h : Heap V)
    (h0 : h.past = []) : NeverTouched h (minresSolveH op eps n self b kw h).2 :=
  (minresSolveH_frame op eps n self b kw h).1.never h0

/-- **C70, SYMMLQ** -/
theorem C70_symmlq (self : SymmlqObjH V) (n b : Nat) (kw : SymmlqKw S) (h : Heap V) (h0 : h.past = []) :
    NeverTouched h (symmlqSolveH self n b kw h).2 :=
  ((symmlqSolveH_keeps self n b kw h) h (.refl h)).1.never h0

/-- **C70, LSQR** -/
theorem C70_lsqr (A AT : HOp V) (n b : Nat) (M N : Option (HOp V)) (kw : LsqrKw S V V) (h : Heap V) (h0 : h.past = []) :
    NeverTouched h (lsqrSolveH A AT n b M N kw h).2 :=
  ((lsqrSolveH_keeps A AT n b M N kw h) h (.refl h)).1.never h0

/-- **C70, LSMR** -/
theorem C70_lsmr (A AT : HOp V) (m n b : Nat) (M N : Option (HOp V)) (kw : LsmrKw S V V) (selfX : Option Nat) (h : Heap V)
    (h0 : h.past = []) : NeverTouched h (lsmrSolveH A AT m n b M N kw selfX h).2 :=
  ((lsmrSolveH_keeps A AT m n b M N kw selfX h) h (.refl h)).1.never h0

/-- **C70, CRAIG** -/
theorem C70_craig (A AT : HOp V) (n b : Nat) (M N : Option (HOp V)) (kw : CraigKw S V V) (h : Heap V) (h0 : h.past = []) :
    NeverTouched h (craigSolveH A AT n b M N kw h).2 :=
  ((craigSolveH_keeps A AT n b M N kw h) h (.refl h)).1.never h0

/-- **C70, CRAIG-MR** -/
theorem C70_craigmr (A AT : HOp V) (m n b : Nat) (M N : Option (HOp V)) (kw : CraigmrKw S V V) (h : Heap V) (h0 : h.past = []) :
    NeverTouched h (craigmrSolveH A AT m n b M N kw h).2 :=
  ((craigmrSolveH_keeps A AT m n b M N kw h) h (.refl h)).1.never h0

/-! ### The record is faithful -/

/-- after a write the contents of the heap are the latest record, and all earlier records are kept -/
theorem wr_recorded (l : Nat) (v : V) (h : Heap V) :
    ((wr l v : HeapM V Unit) h).2.past = ((wr l v : HeapM V Unit) h).2.mem :: h.past := rfl

/-- after an allocation, too -/
theorem new_recorded (v : V) (h : Heap V) : ((new v : HeapM V Nat) h).2.past = ((new v : HeapM V Nat) h).2.mem :: h.past := rfl

/-- a run has moments, here those of a product with the operator and a copy -/
example (f : V → V) (b : V) :
    ((do let q ← call (HOp.fresh f) 0; let v ← rd q; new v : HeapM V Nat) ⟨fun _ => b, 1, []⟩).2.past =
      [fun k => if k = 2 then f b else if k = 1 then f b else b, fun k => if k = 1 then f b else b] := by
  simp [HeapM.bind_apply, call, HOp.fresh, rd, new]

/-- A program that uses the array of the caller as work space and restores it at the end leaves it unmodified, in the sense of C49, but
not at every moment. -/
example (y b : V) (hb : y ≠ b) :
    let prog : HeapM V Unit := do let old ← rd 0; wr 0 y; wr 0 old
    Untouched ⟨fun _ => b, 1, []⟩ (prog ⟨fun _ => b, 1, []⟩).2 ∧ ¬ NeverTouched ⟨fun _ => b, 1, []⟩ (prog ⟨fun _ => b, 1, []⟩).2 := by
  intro prog
  constructor
  · intro k _
    simp only [prog, HeapM.bind_apply, rd, wr]
    split
    · rfl
    · rfl
  · intro h
    have := h (fun k => if k = 0 then y else b) (by simp [prog, HeapM.bind_apply, rd, wr]) 0 Nat.one_pos
    exact hb this

end Verif.Solver
