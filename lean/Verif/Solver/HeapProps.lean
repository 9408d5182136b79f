import Verif.Solver.HeapTF
import Verif.Solver.HeapShift
import Mathlib.Analysis.InnerProductSpace.Basic

/-!
# Arrays of the caller (C49, C54)

`Heap` holds every array that exists; `h` is the heap when `solve` is called.  Arrays of the caller are those with an address
below `h.next`: the right-hand side, the guess, arrays kept from earlier calls, and any other.  `HOp` is an operator or a
preconditioner together with the choice, for every call, whether it returns a new array or its argument.
-/

namespace Verif.Solver
open Scalar Vect

variable {S V : Type} [Scalar S] [Vect S V]

/-- every array that exists in `h` has the same contents in `h'` -/
def Untouched (h h' : Heap V) : Prop := ∀ k < h.next, h'.mem k = h.mem k

/-- the array `k` did not exist in `h` -/
def IsNew (h : Heap V) (k : Nat) : Prop := h.next ≤ k

/-- **C49, CG**: whatever aliasing there is between the arrays and whatever the operator and the preconditioner return, `solve`
leaves every array of the caller as it was: the right-hand side, the guess, and the arrays stored by earlier calls of `solve` in
the same object.  The solution is a new array, unless the check of symmetry prevents a run. -/
theorem C49_cg_inputs_unmodified (op : HOp V) (o : HOpts S V) (n : Nat) (self : CGObj S Nat) (rhs : Nat) (kw : CGKw Nat) (h : Heap V)
    (hv : CGValid h self rhs kw) (hx : ∀ k, self.x = some k → k < h.next) :
    Untouched h (cgSolveH op o n self rhs kw h).2 ∧
    (kw.checkSymmetric = false → ∀ k, (cgSolveH op o n self rhs kw h).1.1.x = some k → IsNew h k) := by
  obtain ⟨h1, -, h2⟩ := cgSolveH_refines op o n self rhs kw h hv hx
  refine ⟨h1.mem, fun hc k hk => ?_⟩
  rcases (h2 k hk).2 with h3 | ⟨-, h3, -⟩
  · exact h3
  · rw [hc] at h3
    cases h3

/-- **C49, CGS**; also, the array returned is not one of the caller's. -/
theorem C49_cgs_inputs_unmodified (op : HOp V) (o : HOpts S V) (n : Nat) (rhs : Nat) (kw : KrylovKw Nat) (h : Heap V)
    (hv : KrylovValid h rhs kw) :
    Untouched h (cgsSolveH op o n rhs kw h).2 ∧ IsNew h (cgsSolveH op o n rhs kw h).1.1.x :=
  ⟨(cgsSolveH_refines op o n rhs kw h hv).1.mem, (cgsSolveH_refines op o n rhs kw h hv).2.2⟩

/-- **C49, Bi-CGSTAB** -/
theorem C49_bicgstab_inputs_unmodified (op : HOp V) (o : HOpts S V) (n : Nat) (rhs : Nat) (kw : KrylovKw Nat) (h : Heap V) :
    Untouched h (biSolveH op o n rhs kw h).2 ∧ IsNew h (biSolveH op o n rhs kw h).1.1.x :=
  ⟨(biSolveH_frame op o n rhs kw h).1.mem, (biSolveH_frame op o n rhs kw h).2⟩

/-- **C49, TFQMR** -/
theorem C49_tfqmr_inputs_unmodified (op : HOp V) (o : HOpts S V) (n : Nat) (rhs : Nat) (kw : KrylovKw Nat) (h : Heap V) :
    Untouched h (tfSolveH op o n rhs kw h).2 ∧ ∀ r, (tfSolveH op o n rhs kw h).1 = .ok r → IsNew h r.1.x :=
  ⟨(tfSolveH_frame op o n rhs kw h).1.mem, (tfSolveH_frame op o n rhs kw h).2⟩

/-- **C49, MINRES** -/
theorem C49_minres_inputs_unmodified (op : HOp V) (eps : S) (n : Nat) (self : MinresObj S V) (b : Nat) (kw : MinresKwH S V)
    (h : Heap V) :
    Untouched h (minresSolveH op eps n self b kw h).2 ∧ ∀ r, (minresSolveH op eps n self b kw h).1 = .ok r → IsNew h r.1.x :=
  ⟨(minresSolveH_frame op eps n self b kw h).1.mem, (minresSolveH_frame op eps n self b kw h).2⟩

/-! ### C54: which variables share an array does not matter -/

/-- **C54, CG**: the contents of the result are those computed by the recurrences with vectors as values, which know nothing of
arrays.  So two calls with equal contents and different sharing of arrays give equal results. -/
theorem C54_cg (op : HOp V) (o : HOpts S V) (n : Nat) (self : CGObj S Nat) (rhs : Nat) (kw : CGKw Nat) (h : Heap V)
    (hv : CGValid h self rhs kw) (hx : ∀ k, self.x = some k → k < h.next) :
    ((cgSolveH op o n self rhs kw h).1.1.at (cgSolveH op o n self rhs kw h).2, (cgSolveH op o n self rhs kw h).1.2) =
      cgSolve op.fn o.toOpts n (self.at h) (h.mem rhs) (kw.at h) :=
  (cgSolveH_refines op o n self rhs kw h hv hx).2.1

/-- **C54, CGS** -/
theorem C54_cgs (op : HOp V) (o : HOpts S V) (n : Nat) (rhs : Nat) (kw : KrylovKw Nat) (h : Heap V) (hv : KrylovValid h rhs kw) :
    ((cgsSolveH op o n rhs kw h).1.1.at (cgsSolveH op o n rhs kw h).2, (cgsSolveH op o n rhs kw h).1.2) =
      cgsSolve op.fn o.toOpts n (h.mem rhs) (kw.at h) :=
  (cgsSolveH_refines op o n rhs kw h hv).2.1

/-- **C54, Bi-CGSTAB**, if the operator or the preconditioner always returns a new array.  Without this the code can compute
something else: `v = self.op * q` may be the array `p`, which the next iteration overwrites before it uses `v`. -/
theorem C54_bicgstab_partial (op : HOp V) (o : HOpts S V) (hsep : Separate op o.precon) (n : Nat) (rhs : Nat) (kw : KrylovKw Nat)
    (h : Heap V) (hv : KrylovValid h rhs kw) :
    ((biSolveH op o n rhs kw h).1.1.at (biSolveH op o n rhs kw h).2, (biSolveH op o n rhs kw h).1.2) =
      biSolve op.fn o.toOpts n (h.mem rhs) (kw.at h) :=
  biSolveH_refines op o hsep n rhs kw h hv

/-- **C54, TFQMR**, if the operator or the preconditioner always returns a new array. -/
theorem C54_tfqmr_partial (op : HOp V) (o : HOpts S V) (hsep : Separate op o.precon) (n : Nat) (rhs : Nat) (kw : KrylovKw Nat)
    (h : Heap V) (hv : KrylovValid h rhs kw) :
    tfAt (tfSolveH op o n rhs kw h).2 (tfSolveH op o n rhs kw h).1 = tfSolve op.fn o.toOpts n (h.mem rhs) (kw.at h) :=
  tfSolveH_refines op o hsep n rhs kw h hv

/-- **C54, MINRES**, if the operator always returns a new array. -/
theorem C54_minres_partial (op : HOp V) (hop : ∀ h l, op.same h l = false) (eps : S) (n : Nat) (self : MinresObj S V) (b : Nat)
    (kw : MinresKwH S V) (h : Heap V) (hb : b < h.next) :
    minresAt (minresSolveH op eps n self b kw h).2 (minresSolveH op eps n self b kw h).1 =
      minresSolve op.fn eps n self (h.mem b) kw.toKw :=
  minresSolveH_refines op hop eps n self b kw h hb

/-- two calls of CGS, with equal contents of the arguments and different sharing, have equal results -/
theorem C54_cgs_sharing (op op' : HOp V) (o o' : HOpts S V) (n rhs rhs' : Nat) (kw kw' : KrylovKw Nat) (h h' : Heap V)
    (hv : KrylovValid h rhs kw) (hv' : KrylovValid h' rhs' kw') (hop : op.fn = op'.fn) (ho : o.toOpts = o'.toOpts)
    (hrhs : h.mem rhs = h'.mem rhs') (hkw : kw.at h = kw'.at h') :
    (cgsSolveH op o n rhs kw h).1.1.at (cgsSolveH op o n rhs kw h).2 =
      (cgsSolveH op' o' n rhs' kw' h').1.1.at (cgsSolveH op' o' n rhs' kw' h').2 := by
  have h1 := congrArg Prod.fst (C54_cgs op o n rhs kw h hv)
  have h2 := congrArg Prod.fst (C54_cgs op' o' n rhs' kw' h' hv')
  simp only at h1 h2
  rw [h1, h2, hop, ho, hrhs, hkw]

/-! ### Instances -/

/-- an identity of the user which returns its argument itself, such as `lambda v: v` -/
def HOp.identity : HOp V := ⟨id, fun _ _ => true, fun _ _ _ => rfl⟩

/-- an operator that returns new arrays -/
def HOp.fresh (f : V → V) : HOp V := ⟨f, fun _ _ => false, fun _ _ h => (by cases h)⟩

/-- **C54, negative (MINRES).** In exact arithmetic, for the system `(A + 3 I) x = b` with `A = I` and `b = 1` (one unknown, so
`x = 1/4`): one iteration of MINRES with an operator that returns new arrays gives `x = 1/4`, but with an identity
that returns its argument it gives `x = 4/25`, because `y -= shift * v` (`minres.py:240`) also changes `v`. -/
theorem C54_minres_violated (n : Nat) (self : MinresObj Fl (Vec ℝ)) :
    let kw : MinresKwH Fl (Vec ℝ) :=
      { shift := .fin (-3), check := false, itnlim := some 1, rtol := .fin 0, etol := .fin 0 }
    let h : Heap (Vec ℝ) := ⟨fun _ => .fin 1, 1, []⟩
    (∃ r h', minresSolveH (HOp.fresh id) (.fin (1/1000)) n self 0 kw h = (.ok r, h') ∧ h'.mem r.1.x = .fin (1/4)) ∧
    (∃ r h', minresSolveH HOp.identity (.fin (1/1000)) n self 0 kw h = (.ok r, h') ∧ h'.mem r.1.x = .fin (4/25)) := by
  intro kw h
  obtain ⟨r, h', h1, h2⟩ := minresShift_run false n self
  obtain ⟨r', h'', h3, h4⟩ := minresShift_run true n self
  simp only [Bool.false_eq_true, if_false] at h2
  simp only [if_true] at h4
  exact ⟨⟨r, h', h1, h2⟩, r', h'', h3, h4⟩

/-- right-hand side and guess are the same array, the preconditioner returns its argument, the operator a new array -/
example (f : V → V) (b : V) :
    KrylovValid (V := V) ⟨fun _ => b, 1, []⟩ 0 { guess := some 0 } ∧
    Separate (HOp.fresh f) (some HOp.identity) ∧
    CGValid (V := V) ⟨fun _ => b, 1, []⟩ ({ } : CGObj S Nat) 0 { guess := some 0 } :=
  ⟨⟨Nat.one_pos, fun g hg => by cases hg; exact Nat.one_pos⟩, .inl fun _ _ => rfl,
   ⟨Nat.one_pos, (fun g hg => by cases hg; exact Nat.one_pos), (fun k hk => by cases hk), (fun k hk => by cases hk),
    (fun k hk => by cases hk)⟩⟩

/-- In-place code that is not careful does modify the caller's array: this is CGS with `r = r0` instead of `r = r0.copy()`
(`cgs.py:70`), and one step of it.  So `Untouched` is not true of every program. -/
example (y b : V) (hb : y ≠ b) : ¬ Untouched (V := V) ⟨fun _ => b, 1, []⟩ ((wr 0 y : HeapM V Unit) ⟨fun _ => b, 1, []⟩).2 := by
  intro h
  exact hb (h 0 Nat.one_pos)

end Verif.Solver
