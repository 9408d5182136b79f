import Verif.Solver.LSQR

/-!
# Model of `pykrylov/lls/lsmr.py`

As in `Verif.Solver.LSQR` the scalars are Python floats: a division by zero raises `ZeroDivisionError` and `math.sqrt` of a
negative number raises `ValueError`.  Simplifications: printing (`show=True`) is dropped; `x**2` is `x*x`; the arguments of
`sqrt` in lines 370, 400 and 404 are sums of squares and the square root does not raise there; line 371 and
the divisions by `normb` in lines 425-426 are divisions of NumPy scalars and do not raise; `1/conlim` is a division of floats;
vectors are values (the in-place divisions scale `u`, `Mu` and `v`, `Nv` whether or not they are the same array; the
preconditioners are assumed to return new arrays); products do not raise and return vectors of the right length; `b` is
one-dimensional.
-/

namespace Verif.Solver
open Scalar Vect

variable {S U V : Type} [Scalar S] [Vect S U] [Vect S V]

/-- `sign`, `lsmr.py:495-497` -/
def sgn (a : S) : S := if lt a (lit 0) then lit (-1) else lit 1

/-- `symOrtho(a, b)`, `lsmr.py:500-519`: `c`, `s`, `r` -/
def symOrtho (a b : S) : Except PyError (S × S × S) :=
  if feq b (lit 0) then .ok (sgn a, lit 0, Scalar.abs a)
  else if feq a (lit 0) then .ok (lit 0, sgn b, Scalar.abs b)
  else if gt (Scalar.abs b) (Scalar.abs a) then do
    let tau ← pydiv a b
    let s ← pydiv (sgn b) (sqrt (lit 1 + tau * tau))
    let r ← pydiv b s
    return (s * tau, s, r)
  else do
    let tau ← pydiv b a
    let c ← pydiv (sgn a) (sqrt (lit 1 + tau * tau))
    let r ← pydiv a c
    return (c, c * tau, r)

/-- Keywords of `LSMRFramework.solve`, `lsmr.py:64-65, 169-172`. -/
structure LsmrKw (S U V : Type) where
  damp : S
  atol : S
  btol : S
  conlim : S
  M : Option (U → U) := none
  N : Option (V → V) := none
  itnlim : Option Int := none
  etol : S
  storeResids : Bool := false
  storeIterates : Bool := false
  window : Nat := 5

/-- `if itnlim is None: itnlim = minDim`, `lsmr.py:189-194` -/
def lsmrLimit (m n : Nat) (itnlim : Option Int) : Int := itnlim.getD (min m n : Nat)

/-- Local variables of the loop of `LSMRFramework.solve` and the lists it appends to.  `Nv` is unbound if line 224 was not
executed.  Bookkeeping: `products` counts the products with the operator and its transpose. -/
structure LsmrLoop (S U V : Type) where
  x : V
  Mu : U
  Nv : Option V
  v : V
  alpha : S
  beta : S
  h : V
  hbar : V
  alphabar : S
  rho : S
  rhobar : S
  cbar : S
  sbar : S
  zeta : S
  zetabar : S
  betadd : S
  betad : S
  rhodold : S
  tautildeold : S
  thetatilde : S
  d : S
  normA2 : S
  normA : S
  maxrbar : S
  minrbar : S
  condA : S
  normr : S
  normar : S
  normx : S
  xNrgNorm2 : S
  dErr : List S
  istop : Nat
  itn : Nat
  resids : List S
  normalEqns : List S
  norms : List S
  dirErrors : List S
  iterates : List V
  products : Nat

/-- What `solve` returns, `lsmr.py:287, 492`, the attribute `self.x` (line 491) and the lists. -/
structure LsmrRes (S V : Type) where
  x : V
  istop : Nat
  itn : Nat
  normr : S
  normar : S
  normA : S
  condA : S
  normx : S
  selfX : Option V
  resids : List S
  normalEqns : List S
  norms : List S
  dirErrors : List S
  iterates : List V

/-- Lines 235-283: the variables before the loop, for the vectors, `alpha` and `beta` computed in lines 210-233. -/
def lsmrStart (kw : LsmrKw S U V) (beta : S) (Mu : U) (Nv : Option V) (v : V) (alpha : S) (products : Nat) : LsmrLoop S U V :=
  { x := zeros, Mu := Mu, Nv := Nv, v := v, alpha := alpha, beta := beta, h := v, hbar := zeros, alphabar := alpha,
    rho := lit 1, rhobar := lit 1, cbar := lit 1, sbar := lit 0, zeta := lit 0, zetabar := alpha * beta, betadd := beta,
    betad := lit 0, rhodold := lit 1, tautildeold := lit 0, thetatilde := lit 0, d := lit 0, normA2 := alpha * alpha,
    normA := sqrt (alpha * alpha), maxrbar := lit 0, minrbar := lit (10 ^ 100), condA := lit 1, normr := beta,
    normar := alpha * beta, normx := lit 0, xNrgNorm2 := lit 0, dErr := List.replicate kw.window (lit 0), istop := 0,
    itn := 0, resids := [], normalEqns := [], norms := [], dirErrors := [],
    iterates := if kw.storeIterates then [zeros] else [], products := products }

/-- Lines 210-233: the first vectors. -/
def lsmrInit (AT : U → V) (kw : LsmrKw S U V) (b : U) : Except PyError (LsmrLoop S U V) := do
  let Mu := b
  let u := applyPrecon kw.M Mu
  let beta ← pysqrt (dot u Mu)
  if gt beta (lit 0) then
    let u := vdiv u beta
    let Mu := vdiv Mu beta
    let Nv := AT u
    let v := applyPrecon kw.N Nv
    let alpha ← pysqrt (dot v Nv)
    if gt alpha (lit 0) then return lsmrStart kw beta Mu (some (vdiv Nv alpha)) (vdiv v alpha) alpha 1
    else return lsmrStart kw beta Mu (some Nv) v alpha 1
  else return lsmrStart kw beta Mu none zeros (lit 0) 0

/-- The bidiagonalization step, `lsmr.py:311-332`: `Mu`, `Nv`, `v`, `alpha`, `beta`, products. -/
def lsmrBidiag (A : V → U) (AT : U → V) (kw : LsmrKw S U V) (s : LsmrLoop S U V) :
    Except PyError (U × Option V × V × S × S × Nat) := do
  let Mu := A s.v - smul s.alpha s.Mu
  let u := applyPrecon kw.M Mu
  let beta ← pysqrt (dot u Mu)
  if gt beta (lit 0) then
    let u := vdiv u beta
    let Mu := vdiv Mu beta
    let Nv ← bound "Nv" s.Nv
    let Nv := AT u - smul beta Nv
    let v := applyPrecon kw.N Nv
    let alpha ← pysqrt (dot v Nv)
    if gt alpha (lit 0) then return (Mu, some (vdiv Nv alpha), vdiv v alpha, alpha, beta, s.products + 2)
    else return (Mu, some Nv, v, alpha, beta, s.products + 2)
  else return (Mu, s.Nv, s.v, s.alpha, beta, s.products + 1)

/-- The scalars of the rotations of one iteration. -/
structure LsmrRot (S : Type) where
  chat : S
  shat : S
  c : S
  s : S
  rho : S
  thetanew : S
  alphabar : S
  thetabar : S
  rhotemp : S
  cbar : S
  sbar : S
  rhobar : S
  zeta : S
  zetabar : S

/-- The three rotations, `lsmr.py:338-355`. -/
def lsmrRot (damp alpha beta : S) (s : LsmrLoop S U V) : Except PyError (LsmrRot S) := do
  let (chat, shat, alphahat) ← symOrtho s.alphabar damp
  let (c, sn, rho) ← symOrtho alphahat beta
  let thetanew := sn * alpha
  let alphabar := c * alpha
  let thetabar := s.sbar * rho
  let rhotemp := s.cbar * rho
  let (cbar, sbar, rhobar) ← symOrtho (s.cbar * rho) thetanew
  return { chat := chat, shat := shat, c := c, s := sn, rho := rho, thetanew := thetanew, alphabar := alphabar,
           thetabar := thetabar, rhotemp := rhotemp, cbar := cbar, sbar := sbar, rhobar := rhobar,
           zeta := cbar * s.zetabar, zetabar := -sbar * s.zetabar }

/-- The update of the vectors, `lsmr.py:359-361`: `hbar`, `x`, `h`. -/
def lsmrVectors (r : LsmrRot S) (s : LsmrLoop S U V) (v : V) : Except PyError (V × V × V) := do
  let q1 ← pydiv (r.thetabar * r.rho) (s.rho * s.rhobar)
  let hbar := s.h - smul q1 s.hbar
  let q2 ← pydiv r.zeta (r.rho * r.rhobar)
  let x := s.x + smul q2 hbar
  let q3 ← pydiv r.thetanew r.rho
  return (hbar, x, v - smul q3 s.h)

/-- The estimate of the residual norm, `lsmr.py:378-400`: `betadd`, `thetatilde`, `rhodold`, `betad`, `tautildeold`, `d`, `normr`. -/
def lsmrResid (r : LsmrRot S) (s : LsmrLoop S U V) : Except PyError (S × S × S × S × S × S × S) := do
  let betaacute := r.chat * s.betadd
  let betacheck := -r.shat * s.betadd
  let betahat := r.c * betaacute
  let betadd := -r.s * betaacute
  let (ctildeold, stildeold, rhotildeold) ← symOrtho s.rhodold r.thetabar
  let thetatilde := stildeold * r.rhobar
  let rhodold := ctildeold * r.rhobar
  let betad := -stildeold * s.betad + ctildeold * betahat
  let tautildeold ← pydiv (s.zeta - s.thetatilde * s.tautildeold) rhotildeold
  let taud ← pydiv (r.zeta - thetatilde * tautildeold) rhodold
  let d := s.d + betacheck * betacheck
  let normr := sqrt (d + (betad - taud) * (betad - taud) + betadd * betadd)
  return (betadd, thetatilde, rhodold, betad, tautildeold, d, normr)

/-- The test quantities, `lsmr.py:422-426`, and the outcome of the test on the direct error. -/
def lsmrQuantities (kw : LsmrKw S U V) (direct : Bool) (normb normA condA normr normar normx : S) :
    Except PyError (LsqrTests S) := do
  let test1 ← pydiv normr normb
  let test2 ← pydiv normar (normA * normr)
  let test3 ← pydiv (lit 1) condA
  return { test1 := test1, test2 := test2, test3 := test3, t1 := test1 / (lit 1 + normA * normx / normb),
           rtol := kw.btol + kw.atol * normA * normx / normb, direct := direct }

/-- `ctol`, `lsmr.py:277-278` -/
def lsmrCtol (conlim : S) : S := if gt conlim (lit 0) then lit 1 / conlim else lit 0

/-- The stopping tests, `lsmr.py:439-448`, and `istop = 8` from line 373. -/
def lsmrStop (kw : LsmrKw S U V) (lim : Int) (itn : Nat) (t : LsqrTests S) : Nat :=
  let i := if t.direct then 8 else 0
  let i := if (itn : Int) ≥ lim then 7 else i
  let i := if le (lit 1 + t.test3) (lit 1) then 6 else i
  let i := if le (lit 1 + t.test2) (lit 1) then 5 else i
  let i := if le (lit 1 + t.t1) (lit 1) then 4 else i
  let i := if le t.test3 (lsmrCtol kw.conlim) then 3 else i
  let i := if le t.test2 kw.atol then 2 else i
  if le t.test1 t.rtol then 1 else i

/-- One iteration, `lsmr.py:304-475`.  `normb` is the value of `beta` before the loop. -/
def lsmrStep (A : V → U) (AT : U → V) (kw : LsmrKw S U V) (lim : Int) (normb : S) (s : LsmrLoop S U V) :
    Except PyError (LsmrLoop S U V) := do
  let itn := s.itn + 1
  let (Mu, Nv, v, alpha, beta, products) ← lsmrBidiag A AT kw s
  let r ← lsmrRot kw.damp alpha beta s
  let (hbar, x, h) ← lsmrVectors r s v
  let xNrgNorm2 := s.xNrgNorm2 + r.zeta * r.zeta
  let k ← pymod itn kw.window
  let dErr := s.dErr.set k r.zeta
  let trnc := normList dErr
  let xNrgNorm := sqrt xNrgNorm2
  let direct := decide (itn > kw.window) && lt trnc (kw.etol * xNrgNorm)
  let (betadd, thetatilde, rhodold, betad, tautildeold, d, normr) ← lsmrResid r s
  let normA2 := s.normA2 + beta * beta
  let normA := sqrt normA2
  let maxrbar := pymax s.maxrbar s.rhobar
  let minrbar := if itn > 1 then pymin s.minrbar s.rhobar else s.minrbar
  let condA ← pydiv (pymax maxrbar r.rhotemp) (pymin minrbar r.rhotemp)
  let normar := Scalar.abs r.zetabar
  let normx := norm x
  let tests ← lsmrQuantities kw direct normb normA condA normr normar normx
  return { x := x, Mu := Mu, Nv := Nv, v := v, alpha := alpha, beta := beta, h := h, hbar := hbar, alphabar := r.alphabar,
           rho := r.rho, rhobar := r.rhobar, cbar := r.cbar, sbar := r.sbar, zeta := r.zeta, zetabar := r.zetabar,
           betadd := betadd, betad := betad, rhodold := rhodold, tautildeold := tautildeold, thetatilde := thetatilde,
           d := d, normA2 := normA2 + alpha * alpha, normA := normA, maxrbar := maxrbar, minrbar := minrbar,
           condA := condA, normr := normr, normar := normar, normx := normx, xNrgNorm2 := xNrgNorm2, dErr := dErr,
           istop := lsmrStop kw lim itn tests, itn := itn,
           resids := if kw.storeResids then s.resids ++ [normr] else s.resids,
           normalEqns := if kw.storeResids then s.normalEqns ++ [normar] else s.normalEqns,
           norms := if kw.storeResids then s.norms ++ [xNrgNorm2] else s.norms,
           dirErrors := if itn > kw.window then s.dirErrors ++ [trnc / xNrgNorm] else s.dirErrors,
           iterates := if kw.storeIterates then s.iterates ++ [x] else s.iterates,
           products := products }

/-- the loop condition, `lsmr.py:303`, and `break` (line 475) -/
def lsmrCont (lim : Int) (s : LsmrLoop S U V) : Bool := decide (s.istop = 0) && decide ((s.itn : Int) < lim)

theorem lsmrStep_itn {A : V → U} {AT : U → V} {kw : LsmrKw S U V} {lim : Int} {normb : S} {s t : LsmrLoop S U V}
    (h : lsmrStep A AT kw lim normb s = .ok t) : t.itn = s.itn + 1 := by
  unfold lsmrStep at h
  obtain ⟨⟨Mu, Nv, v, alpha, beta, products⟩, -, h⟩ := except_bind_ok h
  obtain ⟨r, -, h⟩ := except_bind_ok h
  obtain ⟨⟨hbar, x, h'⟩, -, h⟩ := except_bind_ok h
  obtain ⟨k, -, h⟩ := except_bind_ok h
  obtain ⟨⟨betadd, thetatilde, rhodold, betad, tautildeold, d, normr⟩, -, h⟩ := except_bind_ok h
  obtain ⟨condA, -, h⟩ := except_bind_ok h
  obtain ⟨tests, -, h⟩ := except_bind_ok h
  cases h
  rfl

/-- the loop, `lsmr.py:303-475` -/
def lsmrLoop (A : V → U) (AT : U → V) (kw : LsmrKw S U V) (lim : Int) (normb : S) (s : LsmrLoop S U V) :
    Except PyError (LsmrLoop S U V) :=
  exceptLoop (lsmrCont lim) (lsmrStep A AT kw lim normb) (fun s => (lim - s.itn).toNat)
    (fun s t h ht h' => by
      have := lsmrStep_itn ht
      simp only [lsmrCont, Bool.and_eq_true, decide_eq_true_eq] at h h'
      omega) s

/-- `if store_resids`, `lsmr.py:298-300` -/
def lsmrFirst (kw : LsmrKw S U V) (s : LsmrLoop S U V) : LsmrLoop S U V :=
  if kw.storeResids then { s with resids := [s.normr], normalEqns := [s.normar] } else s

/-- the returned values and the lists; `selfX` is the attribute `x` after the call -/
def lsmrResult (selfX : Option V) (s : LsmrLoop S U V) : LsmrRes S V :=
  { x := s.x, istop := s.istop, itn := s.itn, normr := s.normr, normar := s.normar, normA := s.normA, condA := s.condA,
    normx := s.normx, selfX := selfX, resids := s.resids, normalEqns := s.normalEqns, norms := s.norms,
    dirErrors := s.dirErrors, iterates := s.iterates }

/-- lines 284-287 and 298-491 -/
def lsmrMain (A : V → U) (AT : U → V) (kw : LsmrKw S U V) (lim : Int) (selfX : Option V) (s : LsmrLoop S U V) :
    Except PyError (LsmrRes S V × LsmrLoop S U V) :=
  if feq s.normar (lit 0) then .ok (lsmrResult selfX s, s)
  else do
    let t ← lsmrLoop A AT kw lim s.beta (lsmrFirst kw s)
    return (lsmrResult (some t.x) t, t)

/-- `LSMRFramework.solve(b, ...)`, `lsmr.py:64-492`.  `m` and `n` are the numbers of rows and columns of the operator, `selfX` is
the attribute `x` before the call (`None` after construction, line 49).  The second component is the final value of the loop state. -/
def lsmrSolve (A : V → U) (AT : U → V) (m n : Nat) (b : U) (kw : LsmrKw S U V) (selfX : Option V) :
    Except PyError (LsmrRes S V × LsmrLoop S U V) := do
  let s ← lsmrInit AT kw b
  lsmrMain A AT kw (lsmrLimit m n kw.itnlim) selfX s

end Verif.Solver
