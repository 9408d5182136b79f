import Verif.Solver.TFQMR

/-!
# Model of `pykrylov/minres/minres.py`

Simplifications: printing is dropped (`minres.py:147-151, 210-214, 365-379, 383-393`); `x**2` is `x*x`; vectors are
values (`copy()` is dropped; see `Verif.Solver.Heap` for aliasing); products with the operator and the preconditioner do
not raise and return vectors of the right length; data types are not modelled, nor are the attributes `show`, `status`
and `resids` (the latter is never filled).  The verdicts of `check_symmetric` on the operator and on the preconditioner
(`minres.py:187, 194`) are parameters; see `Verif.Tools.Checks` for that function.
-/

namespace Verif.Solver
open Scalar Vect

variable {S V : Type} [Scalar S] [Vect S V]

/-- `a == b` for floats: `a <= b` and `b <= a` -/
def feq (a b : S) : Bool := le a b && le b a

/-- `Minres.normof2`, `minres.py:112-113` -/
def normof2 (x y : S) : S := sqrt (x * x + y * y)

/-- `np.linalg.norm` of an array of floats -/
def normList (l : List S) : S := sqrt (l.foldl (fun acc a => acc + a * a) (lit 0))

/-- Keywords of `Minres.solve`, `minres.py:121-130`; `symOK`, `preconSymOK` are the verdicts of `check_symmetric`;
`itnlim` is the given or default (`5n`) limit. -/
structure MinresKw (S V : Type) where
  precon : Option (V → V) := none
  shift : S
  check : Bool := true
  symOK : Bool := true
  preconSymOK : Bool := true
  itnlim : Option Nat := none
  rtol : S
  etol : S
  storeIterates : Bool := false
  window : Nat := 5

/-- Attributes of a `Minres` object that survive from one call of `solve` to the next. -/
structure MinresObj (S V : Type) where
  residHistory : List S := []

/-- Local variables of the loop of `Minres.solve` and the lists it appends to.  `gmax`, `gmin` are unbound before the first
iteration, which binds them before their first use.  `broke` records a `break`.  `calls` is bookkeeping: the arguments of the
products with the operator. -/
structure MinresLoop (S V : Type) where
  x : V
  y : V
  r1 : V
  r2 : V
  w : V
  w2 : V
  oldb : S
  beta : S
  dbar : S
  epsln : S
  phibar : S
  rhs1 : S
  rhs2 : S
  tnorm2 : S
  ynorm2 : S
  cs : S
  sn : S
  gmax : S
  gmin : S
  xNrgNorm2 : S
  dErr : List S
  Anorm : S
  Acond : S
  rnorm : S
  ynorm : S
  Arnorm : S
  istop : Int
  itn : Nat
  broke : Bool
  residHistory : List S
  dirErrors : List S
  iterates : List V
  calls : List V

/-- Result of `solve`: the attributes set in `minres.py:395-408` and the lists filled during the solve. -/
structure MinresRes (S V : Type) where
  converged : Bool
  x : V
  istop : Int
  itn : Nat
  nMatvec : Nat
  rnorm : S
  residNorm0 : S
  Arnorm : S
  Anorm : S
  Acond : S
  ynorm : S
  residHistory : List S
  dirErrors : List S
  iterates : List V

/-- `y` at the start and `beta1`, `minres.py:161-181` -/
def minresStart (kw : MinresKw S V) (b : V) : V × S :=
  let y := applyPrecon kw.precon b
  let b0 := dot b y
  (y, if gt b0 (lit 0) then sqrt b0 else b0)

/-- `istop` and `done` before the loop, `minres.py:153-154, 166-197` -/
def minresEntry (kw : MinresKw S V) (b : V) : Int × Bool :=
  let b0 := dot b (applyPrecon kw.precon b)
  let s : Int × Bool := if lt b0 (lit 0) then (9, true) else (0, false)
  let s := if feq b0 (lit 0) then (s.1, true) else s
  let s := if kw.check && !kw.symOK then (7, true) else s
  if kw.check && kw.precon.isSome && !kw.preconSymOK then (8, true) else s

/-- Values of the variables before the loop, `minres.py:132-142, 153-154, 199-208`. -/
def minresInit (kw : MinresKw S V) (self : MinresObj S V) (b : V) : MinresLoop S V :=
  let (y, beta1) := minresStart kw b
  { x := zeros, y := y, r1 := b, r2 := b, w := zeros, w2 := zeros, oldb := lit 0, beta := beta1, dbar := lit 0,
    epsln := lit 0, phibar := beta1, rhs1 := beta1, rhs2 := lit 0, tnorm2 := lit 0, ynorm2 := lit 0, cs := lit (-1),
    sn := lit 0, gmax := lit 0, gmin := lit 0, xNrgNorm2 := lit 0, dErr := List.replicate kw.window (lit 0),
    Anorm := lit 0, Acond := lit 0, rnorm := lit 0, ynorm := lit 0, Arnorm := lit 0,
    istop := (minresEntry kw b).1, itn := 0, broke := false, residHistory := self.residHistory, dirErrors := [],
    iterates := if kw.storeIterates then [zeros] else [], calls := [] }

/-- The Lanczos step, `minres.py:236-251`: `v`, `alfa`, the new `r2`, the new `y` and `dot(r2, y)`.
`itn` is the number of the iteration. -/
def minresLanczos (op : V → V) (kw : MinresKw S V) (itn : Nat) (s : MinresLoop S V) : V × S × V × V × S :=
  let v := smul (lit 1 / s.beta) s.y
  let y := op v - smul kw.shift v
  let y := if itn ≥ 2 then y - smul (s.beta / s.oldb) s.r1 else y
  let alfa := dot v y
  let r2 := smul (-alfa / s.beta) s.r2 + y
  let y := applyPrecon kw.precon r2
  (v, alfa, r2, y, dot r2 y)

/-- The test for `beta2 = 0`, `minres.py:258-260`. -/
def minresBeta2 (eps beta1 beta : S) (itn : Nat) (istop : Int) : Int :=
  if itn = 1 ∧ le (beta / beta1) (lit 10 * eps) then -1 else istop

/-- The test on the direct error, `minres.py:305-310`. -/
def minresDirErr (etol trnc xNrgNorm : S) (window itn : Nat) (istop : Int) : Int :=
  if itn > window ∧ lt trnc (etol * xNrgNorm) then 10 else istop

/-- The stopping tests, `minres.py:349-361`. -/
def minresTests (eps rtol beta1 : S) (itnlim itn : Nat) (test1 test2 Acond epsx : S) (istop : Int) : Int :=
  if istop = 0 then
    let i := istop
    let i := if le (lit 1 + test2) (lit 1) then 2 else i
    let i := if le (lit 1 + test1) (lit 1) then 1 else i
    let i := if itn ≥ itnlim then 6 else i
    let i := if ge Acond (lit (1/10) / eps) then 4 else i
    let i := if ge epsx beta1 then 3 else i
    let i := if le test2 rtol then 2 else i
    if le test1 rtol then 1 else i
  else istop

/-- One iteration, `minres.py:221-383`. -/
def minresStep (op : V → V) (eps : S) (kw : MinresKw S V) (itnlim : Nat) (beta1 : S) (s : MinresLoop S V) :
    MinresLoop S V :=
  let itn := s.itn + 1
  let (v, alfa, r2, y, bb) := minresLanczos op kw itn s
  let calls := s.calls ++ [v]
  if lt bb (lit 0) then { s with itn := itn, istop := 6, broke := true, calls := calls }
  else
    let oldb := s.beta
    let beta := sqrt bb
    let tnorm2 := s.tnorm2 + alfa * alfa + oldb * oldb + beta * beta
    let istop := minresBeta2 eps beta1 beta itn s.istop
    let gmax := if itn = 1 then Scalar.abs alfa else s.gmax
    let gmin := if itn = 1 then Scalar.abs alfa else s.gmin
    let delta := s.cs * s.dbar + s.sn * alfa
    let gbar := s.sn * s.dbar - s.cs * alfa
    let epsln := s.sn * beta
    let dbar := -s.cs * beta
    let root := normof2 gbar dbar
    let gamma := pymax (normof2 gbar beta) eps
    let cs := gbar / gamma
    let sn := beta / gamma
    let phi := cs * s.phibar
    let phibar := sn * s.phibar
    let w := smul (lit 1 / gamma) (v - smul s.epsln s.w2 - smul delta s.w)
    let x := s.x + smul phi w
    let xNrgNorm2 := s.xNrgNorm2 + phi * phi
    let dErr := s.dErr.set (itn % kw.window) phi
    let trnc := normList dErr
    let xNrgNorm := sqrt xNrgNorm2
    let istop := minresDirErr kw.etol trnc xNrgNorm kw.window itn istop
    let gmax := pymax gmax gamma
    let gmin := pymin gmin gamma
    let z := s.rhs1 / gamma
    let ynorm2 := z * z + s.ynorm2
    let Anorm := sqrt tnorm2
    let ynorm := sqrt ynorm2
    let test1 := phibar / (Anorm * ynorm)
    let test2 := root / Anorm
    let Acond := gmax / gmin
    let istop := minresTests eps kw.rtol beta1 itnlim itn test1 test2 Acond (Anorm * ynorm * eps) istop
    { x := x, y := y, r1 := s.r2, r2 := r2, w := w, w2 := s.w, oldb := oldb, beta := beta, dbar := dbar, epsln := epsln,
      phibar := phibar, rhs1 := s.rhs2 - delta * z, rhs2 := -epsln * z, tnorm2 := tnorm2, ynorm2 := ynorm2, cs := cs,
      sn := sn, gmax := gmax, gmin := gmin, xNrgNorm2 := xNrgNorm2, dErr := dErr, Anorm := Anorm, Acond := Acond,
      rnorm := phibar, ynorm := ynorm, Arnorm := s.phibar * root, istop := istop, itn := itn,
      broke := decide (istop > 0), residHistory := s.residHistory ++ [phibar],
      dirErrors := if itn > kw.window then s.dirErrors ++ [trnc / xNrgNorm] else s.dirErrors,
      iterates := if kw.storeIterates then s.iterates ++ [x] else s.iterates, calls := calls }

/-- the loop condition, `minres.py:220`, and `break` -/
def minresCont (itnlim : Nat) (s : MinresLoop S V) : Bool := !s.broke && decide (s.itn < itnlim)

theorem minresStep_itn (op : V → V) (eps : S) (kw : MinresKw S V) (itnlim : Nat) (beta1 : S) (s : MinresLoop S V) :
    (minresStep op eps kw itnlim beta1 s).itn = s.itn + 1 := by
  unfold minresStep
  simp only
  split <;> rfl

/-- the loop, `minres.py:219-383` -/
def minresLoop (op : V → V) (eps : S) (kw : MinresKw S V) (itnlim : Nat) (beta1 : S) (s : MinresLoop S V) :
    MinresLoop S V :=
  whileLoop (minresCont itnlim) (minresStep op eps kw itnlim beta1) (fun s => itnlim - s.itn)
    (fun s h _ => by
      simp only [minresCont, Bool.and_eq_true, decide_eq_true_eq] at h
      have := minresStep_itn op eps kw itnlim beta1 s
      omega) s

/-- `istop in [1,2,3,4,10]`, `minres.py:395` -/
def minresConverged (istop : Int) : Bool := decide (istop ∈ [1, 2, 3, 4, 10])

/-- the attributes set at the end, `minres.py:395-408` -/
def minresResult (beta1 : S) (s : MinresLoop S V) : MinresRes S V :=
  { converged := minresConverged s.istop, x := s.x, istop := s.istop, itn := s.itn, nMatvec := s.itn, rnorm := s.rnorm,
    residNorm0 := beta1, Arnorm := s.Arnorm, Anorm := s.Anorm, Acond := s.Acond, ynorm := s.ynorm,
    residHistory := s.residHistory, dirErrors := s.dirErrors, iterates := s.iterates }

/-- `Minres.solve(b, **kwargs)`, `minres.py:115-410`.  `n` is the length of `b`, `eps` is `self.eps`.  An empty window makes
`itn % window` (`minres.py:304`) raise in the first iteration.  The second component is bookkeeping: the arguments of the products with the
operator. -/
def minresSolve (op : V → V) (eps : S) (n : Nat) (self : MinresObj S V) (b : V) (kw : MinresKw S V) :
    Except PyError (MinresRes S V × List V) :=
  let itnlim := kw.itnlim.getD (5 * n)
  let beta1 := (minresStart kw b).2
  let s := minresInit kw self b
  if (minresEntry kw b).2 then .ok (minresResult beta1 s, s.calls)
  else if kw.window = 0 ∧ 0 < itnlim ∧ lt (minresLanczos op kw 1 s).2.2.2.2 (lit 0) = false then .error .zeroDivision
  else
    let s := minresLoop op eps kw itnlim beta1 s
    .ok (minresResult beta1 s, s.calls)

end Verif.Solver
