import Verif.Solver.Arith

/-!
# Model of `pykrylov/cg/cg.py` and `pykrylov/generic/generic.py`

The operator and the preconditioner are functions on vectors.  `calls` lists the vectors the operator has been
applied to; it is bookkeeping of the model, not a variable of the program.

Simplifications: logging dropped, products do not raise; in-place updates are modelled by their values (see `Verif.Solver.Heap` for
aliasing).  Real arithmetic is in `Verif.Solver.Exact`, complex arithmetic in `Verif.Solver.Complex`.
-/

namespace Verif.Solver
open Scalar Vect

variable {S V : Type} [Scalar S] [Vect S V]

/-- Constructor options (`generic.py:64-85`: keywords `abstol`, `reltol`, `precon`). -/
structure KrylovOpts (S V : Type) where
  abstol : S
  reltol : S
  precon : Option (V → V) := none

/-- Keywords of `CG.solve` (`cg.py:64-67, 76-82`).  `symOK` is the result of `check_symmetric(op)`. -/
structure CGKw (V : Type) where
  guess : Option V := none
  matvecMax : Option Nat := none
  checkSymmetric : Bool := false
  symOK : Bool := true
  checkCurvature : Bool := true
  storeResids : Bool := false
  storeIterates : Bool := false

/-- Attributes of the solver object that `solve` reads or writes (`generic.py:87-95`, `cg.py:39-43, 161-165`). -/
structure CGObj (S V : Type) where
  residHistory : List S := []
  resids : List V := []
  iterates : List V := []
  infiniteDescent : Option V := none
  converged : Bool := false
  definite : Option Bool := none
  nMatvec : Nat := 0
  x : Option V := none
  residNorm : Option S := none
  residNorm0 : Option S := none

/-- Local variables of `solve` during the loop. -/
structure CGLoop (S V : Type) where
  x : V
  r : V
  p : V
  ry : S
  residNorm : S
  nMatvec : Nat
  definite : Bool
  infiniteDescent : Option V
  residHistory : List S
  resids : List V
  iterates : List V
  calls : List V

/-- `self.precon * r` or `r` -/
def applyPrecon (precon : Option (V → V)) (r : V) : V :=
  match precon with
  | some M => M r
  | none => r

/-- the test of `cg.py:120`: `np.imag(pAp) > 1.0e-8 * np.abs(pAp) or np.real(pAp) <= 0` -/
def notPositive (pAp : S) : Bool := gt (im pAp) (lit (1/100000000) * abs pAp) || le (re pAp) (lit 0)

/-- One pass through the loop body, `cg.py:115-158`. -/
def cgStep (op : V → V) (precon : Option (V → V)) (kw : CGKw V) (s : CGLoop S V) : CGLoop S V :=
  let Ap := op s.p
  let nMatvec := s.nMatvec + 1
  let calls := s.calls ++ [s.p]
  let pAp := dot s.p Ap
  if kw.checkCurvature && notPositive pAp then
    { s with nMatvec := nMatvec, calls := calls, infiniteDescent := some s.p, definite := false }
  else
    let alpha := s.ry / pAp
    let x := s.x + smul alpha s.p
    let r := s.r + smul alpha Ap
    let y := applyPrecon precon r
    let ryNext := dot r y
    let beta := ryNext / s.ry
    let p := smul beta s.p - r
    let residNorm := abs (sqrt ryNext)
    { x := x, r := r, p := p, ry := ryNext, residNorm := residNorm, nMatvec := nMatvec, definite := s.definite,
      infiniteDescent := s.infiniteDescent, residHistory := s.residHistory ++ [residNorm],
      resids := if kw.storeResids then s.resids ++ [y] else s.resids,
      iterates := if kw.storeIterates then s.iterates ++ [x] else s.iterates, calls := calls }

/-- loop condition, `cg.py:113` -/
def cgCont (threshold : S) (matvecMax : Nat) (s : CGLoop S V) : Bool :=
  gt s.residNorm threshold && decide (s.nMatvec < matvecMax) && s.definite

theorem cgStep_nMatvec (op : V → V) (precon : Option (V → V)) (kw : CGKw V) (s : CGLoop S V) :
    (cgStep op precon kw s).nMatvec = s.nMatvec + 1 := by
  unfold cgStep; simp only; split <;> rfl

/-- The loop, `cg.py:113-158`.  It terminates because every pass performs a product. -/
def cgLoop (op : V → V) (precon : Option (V → V)) (kw : CGKw V) (threshold : S) (matvecMax : Nat) (s : CGLoop S V) :
    CGLoop S V :=
  if _h : cgCont threshold matvecMax s then cgLoop op precon kw threshold matvecMax (cgStep op precon kw s) else s
termination_by matvecMax - s.nMatvec
decreasing_by
  simp only [cgCont, Bool.and_eq_true, decide_eq_true_eq] at _h
  rw [cgStep_nMatvec]; omega

/-- The state before the loop and the threshold, `cg.py:75-104`.  `n` is the size of `rhs`. -/
def cgInit (op : V → V) (o : KrylovOpts S V) (kw : CGKw V) (self : CGObj S V) (rhs : V) : CGLoop S V × S :=
  let x := kw.guess.getD zeros
  let iterates := if kw.storeIterates then self.iterates ++ [x] else self.iterates
  let (r, nMatvec, calls) := match kw.guess with
    | some g => (-rhs + op g, 1, [g])
    | none => (-rhs, 0, [])
  let y := applyPrecon o.precon r
  let resids := if kw.storeResids then self.resids ++ [y] else self.resids
  let ry := dot r y
  let residNorm := abs (sqrt ry)
  let threshold := pymax o.abstol (o.reltol * residNorm)
  ({ x := x, r := r, p := -r, ry := ry, residNorm := residNorm, nMatvec := nMatvec, definite := true,
     infiniteDescent := self.infiniteDescent, residHistory := self.residHistory ++ [residNorm],
     resids := resids, iterates := iterates, calls := calls }, threshold)

/-- `CG.solve`, `cg.py:45-165`.  The second component is the list of vectors the operator was applied to. -/
def cgSolve (op : V → V) (o : KrylovOpts S V) (n : Nat) (self : CGObj S V) (rhs : V) (kw : CGKw V) :
    CGObj S V × List V :=
  if kw.checkSymmetric && !kw.symOK then (self, [])
  else
    let (s0, threshold) := cgInit op o kw self rhs
    let s := cgLoop op o.precon kw threshold (kw.matvecMax.getD (2 * n)) s0
    ({ residHistory := s.residHistory, resids := s.resids, iterates := s.iterates,
       infiniteDescent := s.infiniteDescent, converged := le s.residNorm threshold, definite := some s.definite,
       nMatvec := s.nMatvec, x := some s.x, residNorm := some s.residNorm, residNorm0 := some s0.residNorm },
     s.calls)

end Verif.Solver
