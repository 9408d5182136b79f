import Verif.Solver.BiCGSTAB
import Verif.Solver.TFQMR

/-!
# What `CG`, `CGS`, `BiCGSTAB` and `TFQMR` write to their logger

The solvers of `Solver/CG`, `CGS`, `BiCGSTAB` and `TFQMR` with the calls of `self.logger` put back.  A record is the kind of the line
and the numbers printed in it.  Simplifications: the layout of the numbers (`%6d`, `%7.1e`, ...) is not modelled, so a line is read as
its exact numbers, and formatting does not raise; the logger itself returns without effect on the solver, as a Python logger does.
-/

namespace Verif.Solver
open Scalar Vect

variable {S V : Type} [Scalar S] [Vect S V]

/-- One call of `self.logger`. -/
inductive Rec (S : Type)
  /-- `info` with the names of the columns, and the line of dashes under it (`cg.py:106-109`, `bicgstab.py:76-78`) -/
  | header (columns : List String)
  | rule
  /-- `info('Initial residual = ...')` (`cgs.py:66`, `bicgstab.py:74`, `tfqmr.py:65`) -/
  | initial (residNorm : S)
  /-- `info('Threshold = ...')` (`cgs.py:67`, `bicgstab.py:75`, `tfqmr.py:66`) -/
  | threshold (t : S)
  /-- `info` with a count of products, a residual norm and, for CG, a curvature (`cg.py:110, 157`, `cgs.py:117`,
  `bicgstab.py:109, 141`, `tfqmr.py:153`) -/
  | row (nMatvec : Nat) (residNorm : S) (curv : Option S)
  /-- `error(message)` (`cg.py:71, 121`) -/
  | error (message : String)
  deriving DecidableEq, Repr

/-! ## CG -/

/-- What one pass through the loop writes, `cg.py:115-158`: line 121, or line 158. -/
def cgRecs (op : V → V) (precon : Option (V → V)) (kw : CGKw V) (s : CGLoop S V) : List (Rec S) :=
  let pAp := dot s.p (op s.p)
  if kw.checkCurvature && notPositive pAp then [.error "Coefficient operator is not positive definite"]
  else
    let s' := cgStep op precon kw s
    [.row s'.nMatvec s'.residNorm (some (re pAp))]

/-- The loop with its log, `cg.py:113-158`. -/
def cgLoopLog (op : V → V) (precon : Option (V → V)) (kw : CGKw V) (threshold : S) (matvecMax : Nat) (s : CGLoop S V)
    (log : List (Rec S)) : CGLoop S V × List (Rec S) :=
  if _h : cgCont threshold matvecMax s then
    cgLoopLog op precon kw threshold matvecMax (cgStep op precon kw s) (log ++ cgRecs op precon kw s)
  else (s, log)
termination_by matvecMax - s.nMatvec
decreasing_by
  simp only [cgCont, Bool.and_eq_true, decide_eq_true_eq] at _h
  rw [cgStep_nMatvec]; omega

/-- `CG.solve` with its log, `cg.py:45-165`. -/
def cgSolveLog (op : V → V) (o : KrylovOpts S V) (n : Nat) (self : CGObj S V) (rhs : V) (kw : CGKw V) :
    (CGObj S V × List V) × List (Rec S) :=
  if kw.checkSymmetric && !kw.symOK then ((self, []), [.error "Coefficient operator is not symmetric"])
  else
    let (s0, threshold) := cgInit op o kw self rhs
    let (s, log) := cgLoopLog op o.precon kw threshold (kw.matvecMax.getD (2 * n)) s0
      [.header ["Matvec", "Resid", "Curv"], .rule, .row s0.nMatvec s0.residNorm none]
    (({ residHistory := s.residHistory, resids := s.resids, iterates := s.iterates,
        infiniteDescent := s.infiniteDescent, converged := le s.residNorm threshold, definite := some s.definite,
        nMatvec := s.nMatvec, x := some s.x, residNorm := some s.residNorm, residNorm0 := some s0.residNorm }, s.calls), log)

/-! ## CGS -/

/-- What one pass through the loop writes, `cgs.py:76-117`: nothing if it is the last one (`continue` at line 103 skips line 117). -/
def cgsRecs (op : V → V) (precon : Option (V → V)) (threshold : S) (matvecMax : Nat) (r0 : V) (s : CGSLoop S V) : List (Rec S) :=
  let s' := cgsStep op precon threshold matvecMax r0 s
  if s'.finished then [] else [.row s'.nMatvec s'.residNorm none]

/-- The loop with its log, `cgs.py:76-117`. -/
def cgsLoopLog (op : V → V) (precon : Option (V → V)) (threshold : S) (matvecMax : Nat) (r0 : V) :
    CGSLoop S V × List (Rec S) → CGSLoop S V × List (Rec S) :=
  whileLoop (fun q => !q.1.finished)
    (fun q => (cgsStep op precon threshold matvecMax r0 q.1, q.2 ++ cgsRecs op precon threshold matvecMax r0 q.1))
    (fun q => matvecMax - q.1.nMatvec)
    (fun q _ h => by
      have h1 := cgsStep_nMatvec op precon threshold matvecMax r0 q.1
      have h2 := h1.2 (by simpa using h)
      simp only; omega)

/-- `CGS.solve` with its log, `cgs.py:40-123`. -/
def cgsSolveLog (op : V → V) (o : KrylovOpts S V) (n : Nat) (rhs : V) (kw : KrylovKw V) :
    (KrylovRes S V × List V) × List (Rec S) :=
  let x := kw.guess.getD zeros
  let matvecMax := kw.matvecMax.getD (2 * n)
  let (r0, calls) := match kw.guess with
    | some g => (rhs - op g, [g])
    | none => (rhs, [])
  let rho := dot r0 r0
  let residNorm := abs (sqrt rho)
  let threshold := pymax o.abstol (o.reltol * residNorm)
  let finished := le residNorm threshold || decide (0 ≥ matvecMax)
  let (s, log) := cgsLoopLog op o.precon threshold matvecMax r0
    ({ x := x, r := r0, u := r0, p := r0, rho := rho, residNorm := residNorm, nMatvec := 0, finished := finished,
       calls := calls }, [.initial residNorm, .threshold threshold])
  (({ residNorm0 := residNorm, converged := le s.residNorm threshold, nMatvec := s.nMatvec, x := s.x,
      residNorm := s.residNorm }, s.calls), log)

/-! ## Bi-CGSTAB -/

/-- What one pass through the loop writes, `bicgstab.py:85-145`: line 109 after the first product, line 141 after the second. -/
def biRecs (op : V → V) (precon : Option (V → V)) (threshold : S) (matvecMax : Nat) (r0 : V) (s : BiLoop S V) : List (Rec S) :=
  let beta := s.rhoNext / s.rho * s.alpha / s.omega
  let p := smul beta s.p - smul (beta * s.omega) s.v + s.r
  let v := op (applyPrecon precon p)
  let alpha := s.rhoNext / dot r0 v
  let residNorm := norm (s.r - smul alpha v)
  let first : Rec S := .row (s.nMatvec + 1) residNorm none
  if le residNorm threshold then [first]
  else if s.nMatvec + 1 ≥ matvecMax then [first]
  else
    let s' := biStep op precon threshold matvecMax r0 s
    [first, .row s'.nMatvec s'.residNorm none]

/-- The loop with its log, `bicgstab.py:85-145`. -/
def biLoopLog (op : V → V) (precon : Option (V → V)) (threshold : S) (matvecMax : Nat) (r0 : V) :
    BiLoop S V × List (Rec S) → BiLoop S V × List (Rec S) :=
  whileLoop (fun q => !q.1.finished)
    (fun q => (biStep op precon threshold matvecMax r0 q.1, q.2 ++ biRecs op precon threshold matvecMax r0 q.1))
    (fun q => matvecMax - q.1.nMatvec)
    (fun q _ h => by
      have h1 := biStep_nMatvec op precon threshold matvecMax r0 q.1
      have h2 := h1.2 (by simpa using h)
      simp only; omega)

/-- `BiCGSTAB.solve` with its log, `bicgstab.py:43-151`. -/
def biSolveLog (op : V → V) (o : KrylovOpts S V) (n : Nat) (rhs : V) (kw : KrylovKw V) :
    (KrylovRes S V × List V) × List (Rec S) :=
  let x := kw.guess.getD zeros
  let matvecMax := kw.matvecMax.getD (2 * n)
  let (r0, nMatvec, calls) := match kw.guess with
    | some g => (rhs - op g, 1, [g])
    | none => (rhs, 0, [])
  let rhoNext := dot r0 r0
  let residNorm := abs (sqrt rhoNext)
  let threshold := pymax o.abstol (o.reltol * residNorm)
  let finished := le residNorm threshold || decide (nMatvec ≥ matvecMax)
  let (s, log) := biLoopLog op o.precon threshold matvecMax r0
    ({ x := x, r := r0, p := zeros, v := zeros, rho := lit 1, rhoNext := rhoNext, alpha := lit 1, omega := lit 1,
       residNorm := residNorm, nMatvec := nMatvec, finished := finished, calls := calls },
     [.initial residNorm, .threshold threshold, .header ["Matvec", "Residual"], .rule])
  (({ residNorm0 := residNorm, converged := le s.residNorm threshold, nMatvec := s.nMatvec, x := s.x,
      residNorm := s.residNorm }, s.calls), log)

/-! ## TFQMR -/

/-- What one pass through the loop writes, `tfqmr.py:85-153`: nothing if it is the last one (`continue` at lines 103 and 125 skips
line 153); otherwise a line with the count of products after the product of line 147. -/
def tfRecs (op : V → V) (precon : Option (V → V)) (threshold : S) (matvecMax : Nat) (r0 : V) (s : TFLoop S V) : List (Rec S) :=
  let s' := tfStep op precon threshold matvecMax r0 s
  if s'.finished then [] else [.row s'.nMatvec s'.residNorm none]

/-- The loop with its log, `tfqmr.py:85-153`. -/
def tfLoopLog (op : V → V) (precon : Option (V → V)) (threshold : S) (matvecMax : Nat) (r0 : V) :
    TFLoop S V × List (Rec S) → TFLoop S V × List (Rec S) :=
  whileLoop (fun q => !q.1.finished)
    (fun q => (tfStep op precon threshold matvecMax r0 q.1, q.2 ++ tfRecs op precon threshold matvecMax r0 q.1))
    (fun q => matvecMax - q.1.nMatvec)
    (fun q _ h => by
      have h1 := (tfStep_nMatvec op precon threshold matvecMax r0 q.1).1 (by simpa using h)
      simp only; omega)

/-- `TFQMR.solve` with its log, `tfqmr.py:39-159`.  The log is there when the call raises, too. -/
def tfSolveLog (op : V → V) (o : KrylovOpts S V) (n : Nat) (rhs : V) (kw : KrylovKw V) :
    Except PyError (KrylovRes S V × List V) × List (Rec S) :=
  let x := kw.guess.getD zeros
  let matvecMax := kw.matvecMax.getD (2 * n)
  let (r0, calls) := match kw.guess with
    | some g => (rhs - op g, [g])
    | none => (rhs, [])
  let rho := dot r0 r0
  let residNorm := abs (sqrt rho)
  let threshold := pymax o.abstol (o.reltol * residNorm)
  let finished := le residNorm threshold || decide (0 ≥ matvecMax)
  let z := applyPrecon o.precon r0
  let s0 : TFLoop S V :=
    if finished then
      { x := x, y := zeros, w := zeros, d := zeros, z := zeros, u := zeros, v := zeros, rho := rho, theta := lit 0, eta := lit 0,
        residNorm := residNorm, k := 0, m := none, nMatvec := 0, finished := true, calls := calls }
    else
      { x := x, y := r0, w := r0, d := zeros, z := z, u := op z, v := op z, rho := rho, theta := lit 0, eta := lit 0,
        residNorm := residNorm, k := 0, m := none, nMatvec := 1, finished := false, calls := calls ++ [z] }
  let (s, log) := tfLoopLog op o.precon threshold matvecMax r0 (s0, [.initial residNorm, .threshold threshold])
  (tfResult threshold residNorm s, log)

end Verif.Solver
