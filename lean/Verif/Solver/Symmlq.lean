import Verif.Solver.Minres

/-!
# Model of `pykrylov/symmlq/symmlq.py`

Simplifications: printing is dropped, but the evaluation of the names printed is not (`symmlq.py:225-226`); the first
components `b1`, `x1lq`, `x1cg` are only printed and dropped from the loop; `x**2` is `x*x`; vectors are values; products
with the operator and the preconditioner do not raise and return vectors of the right length; `rhs` is a vector of `n`
entries.  `eps**(1.0/3)` is a parameter.
-/

namespace Verif.Solver
open Scalar Vect

variable {S V : Type} [Scalar S] [Vect S V]

/-- The attributes of a `Symmlq` object that `solve` reads (`symmlq.py:113, 130-131, 162, 164`).  `matvec` is `none` if the
object has no attribute of this name. -/
structure SymmlqObj (V : Type) where
  op : V → V
  precon : Option (V → V)
  matvec : Option (V → V)

/-- `Symmlq(op, precon=...)`, `symmlq.py:56-62` and `generic.py:65-87`: the constructors set no attribute `matvec`, and
neither class defines one. -/
def symmlqNew (op : V → V) (precon : Option (V → V)) : SymmlqObj V := { op := op, precon := precon, matvec := none }

/-- Keywords of `solve`, `symmlq.py:88-94`; `eps` is `machine_epsilon()` and `eps3` is `eps**(1.0/3)`. -/
structure SymmlqKw (S : Type) where
  matvecMax : Option Nat := none
  rtol : S
  check : Bool := false
  shift : Option S := none
  storeIterates : Bool := false
  eps : S
  eps3 : S

/-- `if shift == 0.0: shift = None`, `symmlq.py:92` -/
def symmlqShift (kw : SymmlqKw S) : Option S :=
  match kw.shift with
  | none => none
  | some s => if feq s (lit 0) then none else some s

/-- `if shift is not None: y -= shift * v`, `symmlq.py:177, 303, 379` -/
def subShift (shift : Option S) (y v : V) : V :=
  match shift with
  | none => y
  | some s => y - smul s v

/-- The symmetry tests, `symmlq.py:140-144` and `165-169`: `|y'y - u'r2| > (y'y + eps) eps^(1/3)`. -/
def symmlqUnsym (kw : SymmlqKw S) (y u r2 : V) : Bool :=
  let s := dot y y
  gt (Scalar.abs (s - dot u r2)) ((s + kw.eps) * kw.eps3)

/-- Local variables of the loop.  `lqnorm` and `diag` are unbound before the first pass.  `calls` is bookkeeping: the
arguments of the products counted by `nMatvec`. -/
structure SymmlqLoop (S V : Type) where
  x : V
  w : V
  y : V
  r1 : V
  r2 : V
  oldb : S
  beta : S
  cgnorm : S
  lqDiag : Option (S × S)
  rhs1 : S
  rhs2 : S
  tnorm : S
  gbar : S
  dbar : S
  bstep : S
  snprod : S
  ynorm2 : S
  gmax : S
  gmin : S
  anorm : S
  acond : S
  istop : Int
  itn : Nat
  nMatvec : Nat
  broke : Bool
  iterates : List V
  calls : List V

/-- The attributes set at the end, `symmlq.py:396-400`; `iterates` is what `symmlq.py:123, 339` append to the attribute. -/
structure SymmlqRes (S V : Type) where
  x : V
  residNorm : S
  xNorm : S
  nMatvec : Nat
  acond : S
  anorm : S
  iterates : List V

/-- `istop` and `done` after `symmlq.py:118-155` -/
def symmlqEntry (self : SymmlqObj V) (kw : SymmlqKw S) (b : V) : Int × Bool :=
  let y := applyPrecon self.precon b
  let beta1 := dot b y
  let st : Int × Bool :=
    match self.precon with
    | some M => if kw.check && symmlqUnsym kw y b (M y) then (7, true) else (0, false)
    | none => (0, false)
  let st : Int × Bool := if lt beta1 (lit 0) then (8, true) else st
  if feq beta1 (lit 0) then (st.1, true) else st

/-- The block `if beta1 > 0`, `symmlq.py:157-217`: the loop variables, `beta1` and `done`. -/
def symmlqStart (self : SymmlqObj V) (kw : SymmlqKw S) (mv : V → V) (b : V) : SymmlqLoop S V × S × Bool :=
  let y := applyPrecon self.precon b
  let st := symmlqEntry self kw b
  let beta1 := sqrt (dot b y)
  let v := smul (lit 1 / beta1) y
  let y := mv v
  let st : Int × Bool := if kw.check && symmlqUnsym kw y v (self.op y) then (6, true) else st
  let y := subShift (symmlqShift kw) y v
  let alfa := dot v y
  let y := y - smul (alfa / beta1) b
  let z := dot v y
  let y := y - smul (z / dot v v) v
  let r2 := y
  let y := applyPrecon self.precon r2
  let bb := dot r2 y
  let st : Int × Bool := if lt bb (lit 0) then (8, true) else st
  let beta := sqrt bb
  let istop : Int := if le beta kw.eps then -1 else st.1
  ({ x := zeros, w := zeros, y := y, r1 := b, r2 := r2, oldb := beta1, beta := beta, cgnorm := beta1, lqDiag := none,
     rhs1 := beta1, rhs2 := lit 0, tnorm := alfa * alfa + beta * beta, gbar := alfa, dbar := beta, bstep := lit 0,
     snprod := lit 1, ynorm2 := lit 0, gmax := Scalar.abs alfa + kw.eps, gmin := Scalar.abs alfa + kw.eps, anorm := lit 0,
     acond := lit 0, istop := istop, itn := 0, nMatvec := 1, broke := false,
     iterates := if kw.storeIterates then [zeros] else [], calls := [v] }, beta1, st.2)

/-- The stopping tests, `symmlq.py:271-276` -/
def symmlqTests (kw : SymmlqKw S) (matvecMax nMatvec : Nat) (acond epsx epsr cgnorm beta1 : S) (istop : Int) : Int :=
  if istop = 0 then
    let i := istop
    let i := if nMatvec ≥ matvecMax then 5 else i
    let i := if ge acond (lit (1/10) / kw.eps) then 4 else i
    let i := if ge epsx beta1 then 3 else i
    let i := if le cgnorm epsx then 2 else i
    if le cgnorm epsr then 1 else i
  else istop

/-- The first half of an iteration, `symmlq.py:236-295`: norms, condition estimate and stopping tests. -/
def symmlqTest (kw : SymmlqKw S) (matvecMax : Nat) (beta1 : S) (s : SymmlqLoop S V) : SymmlqLoop S V :=
  let anorm := sqrt s.tnorm
  let ynorm := sqrt s.ynorm2
  let epsa := anorm * kw.eps
  let epsx := anorm * ynorm * kw.eps
  let epsr := anorm * ynorm * kw.rtol
  let diag := if feq s.gbar (lit 0) then epsa else s.gbar
  let lqnorm := sqrt (s.rhs1 * s.rhs1 + s.rhs2 * s.rhs2)
  let cgnorm := s.snprod * beta1 * s.beta / Scalar.abs diag
  let acond := if lt lqnorm cgnorm then s.gmax / s.gmin else s.gmax / pymin s.gmin (Scalar.abs diag)
  let istop := symmlqTests kw matvecMax s.nMatvec acond epsx epsr cgnorm beta1 s.istop
  { s with itn := s.itn + 1, anorm := anorm, lqDiag := some (lqnorm, diag), cgnorm := cgnorm, acond := acond,
           istop := istop, broke := decide (istop ≠ 0) }

/-- The Lanczos step, `symmlq.py:300-311`: `v`, `alfa`, the new `r2`, the new `y`, `dot(r2, y)`. -/
def symmlqLanczos (self : SymmlqObj V) (kw : SymmlqKw S) (s : SymmlqLoop S V) : V × S × V × V × S :=
  let v := smul (lit 1 / s.beta) s.y
  let y := subShift (symmlqShift kw) (self.op v) v
  let y := y - smul (s.beta / s.oldb) s.r1
  let alfa := dot v y
  let r2 := y - smul (alfa / s.beta) s.r2
  let y := applyPrecon self.precon r2
  (v, alfa, r2, y, dot r2 y)

/-- The second half of an iteration, `symmlq.py:300-349`. -/
def symmlqUpdate (self : SymmlqObj V) (kw : SymmlqKw S) (s : SymmlqLoop S V) : SymmlqLoop S V :=
  let (v, alfa, r2, y, bb) := symmlqLanczos self kw s
  let calls := s.calls ++ [v]
  if lt bb (lit 0) then
    { s with y := y, r1 := s.r2, r2 := r2, oldb := s.beta, beta := bb, istop := 6, broke := true,
             nMatvec := s.nMatvec + 1, calls := calls }
  else
    let oldb := s.beta
    let beta := sqrt bb
    let tnorm := s.tnorm + alfa * alfa + oldb * oldb + beta * beta
    let gamma := sqrt (s.gbar * s.gbar + oldb * oldb)
    let cs := s.gbar / gamma
    let sn := oldb / gamma
    let delta := cs * s.dbar + sn * alfa
    let gbar := sn * s.dbar - cs * alfa
    let epsln := sn * beta
    let dbar := -cs * beta
    let z := s.rhs1 / gamma
    let x := s.x + (smul (z * cs) s.w + smul (z * sn) v)
    { s with x := x, w := smul sn s.w - smul cs v, y := y, r1 := s.r2, r2 := r2, oldb := oldb, beta := beta,
             tnorm := tnorm, gbar := gbar, dbar := dbar, bstep := s.snprod * cs * z + s.bstep, snprod := s.snprod * sn,
             gmax := pymax s.gmax gamma, gmin := pymin s.gmin gamma, ynorm2 := z * z + s.ynorm2,
             rhs1 := s.rhs2 - delta * z, rhs2 := -epsln * z, nMatvec := s.nMatvec + 1, calls := calls,
             iterates := if kw.storeIterates then s.iterates ++ [x] else s.iterates }

/-- One iteration, `symmlq.py:236-349`; `broke` records a `break`. -/
def symmlqStep (self : SymmlqObj V) (kw : SymmlqKw S) (matvecMax : Nat) (beta1 : S) (s : SymmlqLoop S V) : SymmlqLoop S V :=
  let s := symmlqTest kw matvecMax beta1 s
  if s.broke then s else symmlqUpdate self kw s

/-- the loop condition, `symmlq.py:235`, and `break` -/
def symmlqCont (matvecMax : Nat) (s : SymmlqLoop S V) : Bool := !s.broke && decide (s.nMatvec < matvecMax)

theorem symmlqStep_nMatvec (self : SymmlqObj V) (kw : SymmlqKw S) (matvecMax : Nat) (beta1 : S) (s : SymmlqLoop S V) :
    (symmlqStep self kw matvecMax beta1 s).broke = true ∨
      (symmlqStep self kw matvecMax beta1 s).nMatvec = s.nMatvec + 1 := by
  unfold symmlqStep
  simp only
  split
  · left; assumption
  · right
    unfold symmlqUpdate
    simp only
    split <;> rfl

/-- the loop, `symmlq.py:235-350` -/
def symmlqLoop (self : SymmlqObj V) (kw : SymmlqKw S) (matvecMax : Nat) (beta1 : S) (s : SymmlqLoop S V) : SymmlqLoop S V :=
  whileLoop (symmlqCont matvecMax) (symmlqStep self kw matvecMax beta1) (fun s => matvecMax - s.nMatvec)
    (fun s h h' => by
      simp only [symmlqCont, Bool.and_eq_true, decide_eq_true_eq, Bool.not_eq_true'] at h h'
      rcases symmlqStep_nMatvec self kw matvecMax beta1 s with hb | hn
      · rw [hb] at h'; exact absurd h'.1 (by simp)
      · omega) s

/-- The end, `symmlq.py:361-400`; the third component is the argument of the last product. -/
def symmlqFinish (self : SymmlqObj V) (kw : SymmlqKw S) (beta1 : S) (b : V) (s : SymmlqLoop S V) (lqnorm diag : S) :
    SymmlqRes S V × List V :=
  let zbar := s.rhs1 / diag
  let toCG := lt s.cgnorm lqnorm
  let bstep := if toCG then s.snprod * zbar + s.bstep else s.bstep
  let x := if toCG then s.x + smul zbar s.w else s.x
  let x := x + smul (bstep / beta1) (applyPrecon self.precon b)
  let y := subShift (symmlqShift kw) (self.op x) x
  ({ x := x, residNorm := norm (b - y), xNorm := norm x, nMatvec := s.nMatvec + 1, acond := s.acond, anorm := s.anorm,
     iterates := s.iterates }, s.calls ++ [x])

/-- `Symmlq.solve(rhs, **kwargs)`, `symmlq.py:65-400`; `n` is the length of `rhs`.  An empty vector has no `y[0]`
(line 134); if `beta1 > 0` fails, `x1cg` is unbound in line 225; otherwise line 162 reads `self.matvec`; if the loop body is
never executed, `lqnorm` is unbound in line 361. -/
def symmlqSolve (self : SymmlqObj V) (n : Nat) (b : V) (kw : SymmlqKw S) : Except PyError (SymmlqRes S V × List V) :=
  let matvecMax := kw.matvecMax.getD (2 * n + 2)
  if n = 0 then .error .indexError
  else if gt (dot b (applyPrecon self.precon b)) (lit 0) then
    match self.matvec with
    | none => .error (.attribute "matvec")
    | some mv =>
      let (s, beta1, done) := symmlqStart self kw mv b
      let s := if done then s else symmlqLoop self kw matvecMax beta1 s
      match s.lqDiag with
      | none => .error (.unboundLocal "lqnorm")
      | some (lqnorm, diag) => .ok (symmlqFinish self kw beta1 b s lqnorm diag)
  else .error (.unboundLocal "x1cg")

end Verif.Solver
