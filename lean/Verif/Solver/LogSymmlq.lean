import Verif.Solver.InterruptSq
import Verif.Solver.Symmlq

/-!
# What `Symmlq` writes to its logger

The solver of `Solver/Symmlq` with the calls of `self.logger.info` put back.  A line is its kind and the numbers printed in it.
Simplifications: the layout of the numbers (`%6g`, `%10.3e`, ...) is not modelled, and formatting does not raise; the logger returns without
effect on the solver.  `head v` is `v[0]`.
-/

namespace Verif.Solver
open Scalar Vect

variable {S V : Type} [Scalar S] [Vect S V]

/-- One call of `self.logger.info` in `symmlq.py`. -/
inductive SymLine (S : Type)
  /-- `symmlq.py:111` -/
  | enter
  /-- `symmlq.py:112-113` -/
  | size (n : Nat) (noPrecon : Bool)
  /-- `symmlq.py:114` -/
  | shift (s : S)
  /-- `symmlq.py:115-116`; the first number is that printed, half the budget minus one, rounded towards zero -/
  | limits (maxit : Int) (eps rtol : S)
  /-- `symmlq.py:208` -/
  | start (beta1 alpha1 : S)
  /-- `symmlq.py:209-210` -/
  | ortho (before after : S)
  /-- `symmlq.py:221-223` -/
  | titles
  /-- `symmlq.py:225-227`, and with the last two numbers `symmlq.py:289-292` -/
  | row (itn : Nat) (x1cg cgnorm qrnorm bstep : S) (norms : Option (S × S))
  /-- `symmlq.py:388-389` -/
  | stop (istop : Int) (itn : Nat)
  /-- `symmlq.py:390-391` -/
  | estimates (anorm acond : S)
  /-- `symmlq.py:392-393` -/
  | norms (rnorm xnorm : S)
  /-- `symmlq.py:394` -/
  | message (text : String)

/-- the dictionary `msg`, `symmlq.py:99-109` -/
def symmlqMsg (istop : Int) : String :=
  if istop = -1 then " beta2 = 0.  If M = I, b and x are eigenvectors"
  else if istop = 0 then " beta1 = 0.  The exact solution is  x = 0"
  else if istop = 1 then " Requested accuracy achieved, as determined by rtol"
  else if istop = 2 then " Reasonable accuracy achieved, given eps"
  else if istop = 3 then " x has converged to an eigenvector"
  else if istop = 4 then " acond has exceeded 0.1/eps"
  else if istop = 5 then " The iteration limit was reached"
  else if istop = 6 then " aprod  does not define a symmetric matrix"
  else if istop = 7 then " msolve does not define a symmetric matrix"
  else " msolve does not define a pos-def preconditioner"

/-- the lines of `symmlq.py:111-116` -/
def symmlqEnter (self : SymmlqObj V) (n : Nat) (kw : SymmlqKw S) (matvecMax : Nat) : List (SymLine S) :=
  [.enter, .size n self.precon.isNone] ++ (match symmlqShift kw with | none => [] | some s => [.shift s]) ++
    [.limits (Int.tdiv (matvecMax - 2) 2) kw.eps kw.rtol]

/-- the lines of `symmlq.py:208-210`, with the numbers of lines 159-206 -/
def symmlqFirst (self : SymmlqObj V) (kw : SymmlqKw S) (mv : V → V) (b : V) : List (SymLine S) :=
  let y := applyPrecon self.precon b
  let beta1 := sqrt (dot b y)
  let v := smul (lit 1 / beta1) y
  let y := subShift (symmlqShift kw) (mv v) v
  let alfa := dot v y
  let y := y - smul (alfa / beta1) b
  let z := dot v y
  let s := dot v v
  let r2 := y - smul (z / s) v
  let denom := sqrt s * norm r2 + kw.eps
  [.start beta1 alfa, .ortho (z / denom) (dot v r2 / denom)]

/-- the lines of `symmlq.py:221-227`; `x1cg` is the integer 0 (line 216) -/
def symmlqTop (beta1 : S) (s : SymmlqLoop S V) : List (SymLine S) :=
  [.titles, .row s.itn (lit 0) s.cgnorm beta1 (s.bstep / beta1) none]

/-- what an iteration writes, `symmlq.py:236-292` -/
def symmlqRow (head : V → S) (n : Nat) (kw : SymmlqKw S) (matvecMax : Nat) (beta1 b1 : S) (s : SymmlqLoop S V) : List (SymLine S) :=
  let t := symmlqTest kw matvecMax beta1 s
  let ynorm := sqrt s.ynorm2
  let epsx := t.anorm * ynorm * kw.eps
  let epsr := t.anorm * ynorm * kw.rtol
  let diag := if feq s.gbar (lit 0) then t.anorm * kw.eps else s.gbar
  let zbar := s.rhs1 / diag
  let z := (s.snprod * zbar + s.bstep) / beta1
  let x1cg := head s.x + head s.w * zbar + b1 * z
  if decide (n ≤ 40) || decide (s.nMatvec ≤ 20) || decide (s.nMatvec + 10 ≥ matvecMax) || decide (t.itn % 10 = 0) ||
      le t.cgnorm (lit 10 * epsx) || le t.cgnorm (lit 10 * epsr) || ge t.acond (lit (1/100) / kw.eps) || decide (t.istop ≠ 0) then
    [.row t.itn x1cg t.cgnorm (s.snprod * beta1) (s.bstep / beta1) (some (t.anorm, t.acond))]
  else []

/-- the loop with its lines, `symmlq.py:235-350` -/
def symmlqLoopLog (head : V → S) (n : Nat) (self : SymmlqObj V) (kw : SymmlqKw S) (matvecMax : Nat) (beta1 b1 : S) (s : SymmlqLoop S V)
    (log : List (SymLine S)) : SymmlqLoop S V × List (SymLine S) :=
  traceWhile (symmlqCont matvecMax) (symmlqStep self kw matvecMax beta1) (fun s => matvecMax - s.nMatvec)
    (fun s h h' => by
      simp only [symmlqCont, Bool.and_eq_true, decide_eq_true_eq, Bool.not_eq_true'] at h h'
      rcases symmlqStep_nMatvec self kw matvecMax beta1 s with hb | hn
      · rw [hb] at h'; exact absurd h'.1 (by simp)
      · omega) (fun s _ => symmlqRow head n kw matvecMax beta1 b1 s) s log

/-- the lines of `symmlq.py:388-394` -/
def symmlqExit (s : SymmlqLoop S V) (res : SymmlqRes S V) : List (SymLine S) :=
  [.stop s.istop s.itn, .estimates res.anorm res.acond, .norms res.residNorm res.xNorm, .message (symmlqMsg s.istop)]

/-- `Symmlq.solve` with its log, `symmlq.py:65-400`; see `symmlqSolve` for the exceptions. -/
def symmlqSolveLog (head : V → S) (self : SymmlqObj V) (n : Nat) (b : V) (kw : SymmlqKw S) :
    Except PyError (SymmlqRes S V × List V) × List (SymLine S) :=
  let matvecMax := kw.matvecMax.getD (2 * n + 2)
  let log := symmlqEnter self n kw matvecMax
  if n = 0 then (.error .indexError, log)
  else
    let b1 := head (applyPrecon self.precon b)
    if gt (dot b (applyPrecon self.precon b)) (lit 0) then
      match self.matvec with
      | none => (.error (.attribute "matvec"), log)
      | some mv =>
        let (s, beta1, done) := symmlqStart self kw mv b
        let log := log ++ symmlqFirst self kw mv b ++ symmlqTop beta1 s
        let q := if done then (s, log) else symmlqLoopLog head n self kw matvecMax beta1 b1 s log
        match q.1.lqDiag with
        | none => (.error (.unboundLocal "lqnorm"), q.2)
        | some (lqnorm, diag) =>
          let r := symmlqFinish self kw beta1 b q.1 lqnorm diag
          (.ok r, q.2 ++ symmlqExit q.1 r.1)
    else (.error (.unboundLocal "x1cg"), log ++ [.titles])

end Verif.Solver
