import Verif.Solver.CG
import Verif.Solver.Loop

/-!
# Model of `pykrylov/cgs/cgs.py`

Simplifications as in `Verif.Solver.CG`.
-/

namespace Verif.Solver
open Scalar Vect

variable {S V : Type} [Scalar S] [Vect S V]

/-- Keywords of `CGS.solve`, `BiCGSTAB.solve` and `TFQMR.solve` (`cgs.py:54-56`, `bicgstab.py:57-59`, `tfqmr.py:53-55`). -/
structure KrylovKw (V : Type) where
  guess : Option V := none
  matvecMax : Option Nat := none

/-- What `solve` leaves in the solver object (`cgs.py:64, 120-123`; the other attributes are not touched). -/
structure KrylovRes (S V : Type) where
  residNorm0 : S
  converged : Bool
  nMatvec : Nat
  x : V
  residNorm : S

/-- Local variables of the loop of `CGS.solve`. -/
structure CGSLoop (S V : Type) where
  x : V
  r : V
  u : V
  p : V
  rho : S
  residNorm : S
  nMatvec : Nat
  finished : Bool
  calls : List V

/-- One pass through the loop, `cgs.py:76-114`. -/
def cgsStep (op : V → V) (precon : Option (V → V)) (threshold : S) (matvecMax : Nat) (r0 : V) (s : CGSLoop S V) :
    CGSLoop S V :=
  let y := applyPrecon precon s.p
  let v := op y
  let sigma := dot r0 v
  let alpha := s.rho / sigma
  let q := s.u - smul alpha v
  let z := applyPrecon precon (s.u + q)
  let x := s.x + smul alpha z
  let Az := op z
  let nMatvec := s.nMatvec + 2
  let calls := s.calls ++ [y, z]
  let r := s.r - smul alpha Az
  let residNorm := norm r
  if le residNorm threshold || decide (nMatvec ≥ matvecMax) then
    { s with x := x, r := r, residNorm := residNorm, nMatvec := nMatvec, finished := true, calls := calls }
  else
    let rhoNext := dot r0 r
    let beta := rhoNext / s.rho
    let u := r + smul beta q
    let p := smul beta (smul beta s.p + q) + u
    { x := x, r := r, u := u, p := p, rho := rhoNext, residNorm := residNorm, nMatvec := nMatvec, finished := false,
      calls := calls }

theorem cgsStep_nMatvec (op : V → V) (precon : Option (V → V)) (threshold : S) (matvecMax : Nat) (r0 : V)
    (s : CGSLoop S V) : (cgsStep op precon threshold matvecMax r0 s).nMatvec = s.nMatvec + 2 ∧
      ((cgsStep op precon threshold matvecMax r0 s).finished = false →
        (cgsStep op precon threshold matvecMax r0 s).nMatvec < matvecMax) := by
  unfold cgsStep
  simp only
  split
  · exact ⟨rfl, fun h => by cases h⟩
  · rename_i h
    refine ⟨rfl, fun _ => ?_⟩
    simp only [ge_iff_le, Bool.or_eq_true, decide_eq_true_eq, not_or, not_le] at h
    exact h.2

/-- The loop, `cgs.py:76-114`. -/
def cgsLoop (op : V → V) (precon : Option (V → V)) (threshold : S) (matvecMax : Nat) (r0 : V) : CGSLoop S V → CGSLoop S V :=
  whileLoop (fun s => !s.finished) (cgsStep op precon threshold matvecMax r0) (fun s => matvecMax - s.nMatvec)
    (fun s _ h => by
      have h1 := cgsStep_nMatvec op precon threshold matvecMax r0 s
      have h2 := h1.2 (by simpa using h)
      omega)

/-- `CGS.solve`, `cgs.py:40-123`.  The second component is the list of vectors the operator was applied to. -/
def cgsSolve (op : V → V) (o : KrylovOpts S V) (n : Nat) (rhs : V) (kw : KrylovKw V) : KrylovRes S V × List V :=
  let x := kw.guess.getD zeros
  let matvecMax := kw.matvecMax.getD (2 * n)
  let (r0, calls) := match kw.guess with
    | some g => (rhs - op g, [g])
    | none => (rhs, [])
  let rho := dot r0 r0
  let residNorm := abs (sqrt rho)
  let threshold := pymax o.abstol (o.reltol * residNorm)
  let finished := le residNorm threshold || decide (0 ≥ matvecMax)
  let s := cgsLoop op o.precon threshold matvecMax r0
    { x := x, r := r0, u := r0, p := r0, rho := rho, residNorm := residNorm, nMatvec := 0, finished := finished,
      calls := calls }
  ({ residNorm0 := residNorm, converged := le s.residNorm threshold, nMatvec := s.nMatvec, x := s.x,
     residNorm := s.residNorm }, s.calls)

end Verif.Solver
