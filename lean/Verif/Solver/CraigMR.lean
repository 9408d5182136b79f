import Verif.Solver.LSQR

/-!
# Model of `pykrylov/lls/craigmr.py`

The same conventions as for LSQR: the scalars are Python floats (a division by zero raises `ZeroDivisionError`, the square root of a
negative number raises `ValueError`).  Simplifications: printing is dropped; `a**2` is `a*a` (the `OverflowError` of float powers
is not modelled); the arguments of `sqrt` in lines 104, 166, 171, 176, 205 are sums of squares and the square root does not raise
there; the division in line 206 is one of NumPy scalars and does not raise; vectors are values (the in-place divisions scale `u`,
`Mu` and `v`, `Nv` whether or not they are the same array; the preconditioners are assumed to return new arrays); products do not
raise and return vectors of the right length; `b` is one-dimensional with `m` entries.
-/

namespace Verif.Solver
open Scalar Vect

variable {S U V : Type} [Scalar S] [Vect S U] [Vect S V]

/-- Keywords of `CRAIGMRFramework.solve`, `craigmr.py:51-57`. -/
structure CraigmrKw (S U V : Type) where
  damp : S
  atol : S
  btol : S
  conlim : S
  M : Option (U → U) := none
  N : Option (V → V) := none
  itnlim : Option Int := none
  etol : S
  storeResids : Bool := false
  storeIterates : Bool := false
  window : Nat := 5

/-- `if itnlim is None: itnlim = minDim`, `craigmr.py:65-71` -/
def craigmrLimit (m n : Nat) (itnlim : Option Int) : Int := itnlim.getD (min m n : Nat)

/-- Local variables of the loop of `CRAIGMRFramework.solve` and the lists it appends to.  `Nv` is unbound if line 89 was not
executed.  Bookkeeping: `products` counts the products with the operator and its transpose. -/
structure CraigmrLoop (S U V : Type) where
  x : U
  Mu : U
  Nv : Option V
  v : V
  alpha : S
  c : S
  s : S
  d : U
  dbar : U
  theta : S
  alphaTilde : S
  zetaHat : S
  xNrgNorm2 : S
  dErr : List S
  istop : Nat
  itn : Nat
  norms : List S
  normalEqns : List S
  dirErrors : List S
  iterates : List U
  products : Nat

/-- Attributes set by `solve`, `craigmr.py:232-241`, and the lists filled during the solve. -/
structure CraigmrRes (S U : Type) where
  x : U
  istop : Nat
  itn : Nat
  nMatvec : Nat
  optimal : Bool
  status : String
  norms : List S
  normalEqns : List S
  dirErrors : List S
  iterates : List U

/-- Lines 75-98: the first vectors `Mu`, `u`, `beta`, `Nv`, `v`, `alpha`, and products. -/
def craigmrVectors (AT : U → V) (kw : CraigmrKw S U V) (b : U) : Except PyError (U × U × S × Option V × V × S × Nat) := do
  let Mu := b
  let u := applyPrecon kw.M Mu
  let beta ← pysqrt (dot u Mu)
  if gt beta (lit 0) then
    let u := vdiv u beta
    let Mu := vdiv Mu beta
    let Nv := AT u
    let v := applyPrecon kw.N Nv
    let alpha ← pysqrt (dot v Nv)
    if gt alpha (lit 0) then return (Mu, u, beta, some (vdiv Nv alpha), vdiv v alpha, alpha, 1)
    else return (Mu, u, beta, some Nv, v, alpha, 1)
  else return (Mu, u, beta, none, zeros, lit 0, 0)

/-- Lines 102-125: the variables before the loop. -/
def craigmrStart (kw : CraigmrKw S U V) (Mu u : U) (beta : S) (Nv : Option V) (v : V) (alpha : S) (products : Nat) :
    Except PyError (CraigmrLoop S U V) := do
  let alphaHat := sqrt (alpha * alpha + lit 1)
  let c ← pydiv alpha alphaHat
  let s ← pydiv (lit 1) alphaHat
  return { x := zeros, Mu := Mu, Nv := Nv, v := v, alpha := alpha, c := c, s := s, d := vdiv u alphaHat, dbar := zeros,
           theta := lit 0, alphaTilde := alphaHat, zetaHat := beta, xNrgNorm2 := lit 0,
           dErr := List.replicate kw.window (lit 0), istop := 0, itn := 0, norms := if kw.storeResids then [lit 0] else [],
           normalEqns := [], dirErrors := [], iterates := if kw.storeIterates then [zeros] else [], products := products }

/-- The bidiagonalization step, `craigmr.py:136-157`: `Mu`, `u`, `Nv`, `v`, `alpha`, `beta`, products. -/
def craigmrBidiag (A : V → U) (AT : U → V) (kw : CraigmrKw S U V) (s : CraigmrLoop S U V) :
    Except PyError (U × U × Option V × V × S × S × Nat) := do
  let Mu := A s.v - smul s.alpha s.Mu
  let u := applyPrecon kw.M Mu
  let beta ← pysqrt (dot u Mu)
  if gt beta (lit 0) then
    let u := vdiv u beta
    let Mu := vdiv Mu beta
    let Nv0 ← bound "Nv" s.Nv
    let Nv := AT u - smul beta Nv0
    let v := applyPrecon kw.N Nv
    let alpha ← pysqrt (dot v Nv)
    if gt alpha (lit 0) then return (Mu, u, some (vdiv Nv alpha), vdiv v alpha, alpha, beta, s.products + 2)
    else return (Mu, u, some Nv, v, alpha, beta, s.products + 2)
  else return (Mu, u, s.Nv, s.v, s.alpha, beta, s.products + 1)

/-- The rotations of type I and II, `craigmr.py:162-173`: `beta_hat`, `alpha_hat`, `c`, `s`. -/
def craigmrRot (c s alpha beta : S) : Except PyError (S × S × S × S) := do
  let betaHat := c * beta
  let gamma := s * beta
  let delta := sqrt (gamma * gamma + lit 1)
  let _ ← pydiv (lit (-1)) delta
  let _ ← pydiv gamma delta
  let alphaHat := sqrt (alpha * alpha + delta * delta)
  let c ← pydiv alpha alphaHat
  let s ← pydiv delta alphaHat
  return (betaHat, alphaHat, c, s)

/-- The stopping tests, `craigmr.py:204-210`: `direct` is the outcome of the test on the direct error. -/
def craigmrStop (lim : Int) (itn : Nat) (direct : Bool) : Nat :=
  let i := if direct then 8 else 0
  if (itn : Int) ≥ lim then 7 else i

/-- One iteration, `craigmr.py:128-212`. -/
def craigmrStep (A : V → U) (AT : U → V) (kw : CraigmrKw S U V) (lim : Int) (s : CraigmrLoop S U V) :
    Except PyError (CraigmrLoop S U V) := do
  let itn := s.itn + 1
  let (Mu, u, Nv, v, alpha, beta, products) ← craigmrBidiag A AT kw s
  let (betaHat, alphaHat, c, sn) ← craigmrRot s.c s.s alpha beta
  let rho := sqrt (s.alphaTilde * s.alphaTilde + betaHat * betaHat)
  let cHat ← pydiv s.alphaTilde rho
  let sHat ← pydiv betaHat rho
  let dbar := vdiv (s.d - smul s.theta s.dbar) rho
  let theta := sHat * alphaHat
  let alphaTilde := -cHat * alphaHat
  let zeta := cHat * s.zetaHat
  let zetaHat := sHat * s.zetaHat
  let xNrgNorm2 := s.xNrgNorm2 + zeta * zeta
  let d := vdiv (u - smul betaHat s.d) alphaHat
  let x := s.x + smul zeta dbar
  let k ← pymod itn kw.window
  let dErr := s.dErr.set k zeta
  let trnc := normList dErr
  let xNrgNorm := sqrt xNrgNorm2
  let direct := decide (itn > kw.window) && lt trnc (kw.etol * xNrgNorm)
  return { x := x, Mu := Mu, Nv := Nv, v := v, alpha := alpha, c := c, s := sn, d := d, dbar := dbar, theta := theta,
           alphaTilde := alphaTilde, zetaHat := zetaHat, xNrgNorm2 := xNrgNorm2, dErr := dErr,
           istop := craigmrStop lim itn direct, itn := itn,
           norms := if kw.storeResids then s.norms ++ [xNrgNorm2] else s.norms,
           normalEqns := if kw.storeResids then s.normalEqns ++ [Scalar.abs zeta] else s.normalEqns,
           dirErrors := if itn > kw.window then s.dirErrors ++ [trnc / xNrgNorm] else s.dirErrors,
           iterates := if kw.storeIterates then s.iterates ++ [x] else s.iterates,
           products := products }

/-- the loop condition, `craigmr.py:128`, and `break` (line 212) -/
def craigmrCont (lim : Int) (s : CraigmrLoop S U V) : Bool := decide (s.istop = 0) && decide ((s.itn : Int) < lim)

theorem craigmrStep_itn {A : V → U} {AT : U → V} {kw : CraigmrKw S U V} {lim : Int} {s t : CraigmrLoop S U V}
    (h : craigmrStep A AT kw lim s = .ok t) : t.itn = s.itn + 1 := by
  unfold craigmrStep at h
  obtain ⟨⟨Mu, u, Nv, v, alpha, beta, products⟩, -, h⟩ := except_bind_ok h
  obtain ⟨⟨betaHat, alphaHat, c, sn⟩, -, h⟩ := except_bind_ok h
  obtain ⟨cHat, -, h⟩ := except_bind_ok h
  obtain ⟨sHat, -, h⟩ := except_bind_ok h
  obtain ⟨k, -, h⟩ := except_bind_ok h
  cases h
  rfl

/-- the loop, `craigmr.py:128-212` -/
def craigmrLoop (A : V → U) (AT : U → V) (kw : CraigmrKw S U V) (lim : Int) (s : CraigmrLoop S U V) :
    Except PyError (CraigmrLoop S U V) :=
  exceptLoop (craigmrCont lim) (craigmrStep A AT kw lim) (fun s => (lim - s.itn).toNat)
    (fun s t h ht h' => by
      have := craigmrStep_itn ht
      simp only [craigmrCont, Bool.and_eq_true, decide_eq_true_eq] at h h'
      omega) s

/-- the attributes set at the end, `craigmr.py:232-241` -/
def craigmrResult (s : CraigmrLoop S U V) : CraigmrRes S U :=
  { x := s.x, istop := s.istop, itn := s.itn, nMatvec := 2 * s.itn, optimal := decide (s.istop ∈ [1, 2, 4, 5, 8]),
    status := lsqrStatus s.istop, norms := s.norms, normalEqns := s.normalEqns, dirErrors := s.dirErrors, iterates := s.iterates }

/-- `CRAIGMRFramework.solve(b, ...)`, `craigmr.py:51-250`, for an operator of shape `(m, n)`.  The second component is the final
value of the loop state. -/
def craigmrSolve (A : V → U) (AT : U → V) (m n : Nat) (b : U) (kw : CraigmrKw S U V) :
    Except PyError (CraigmrRes S U × CraigmrLoop S U V) := do
  let (Mu, u, beta, Nv, v, alpha, products) ← craigmrVectors AT kw b
  let s ← craigmrStart kw Mu u beta Nv v alpha products
  let s ← craigmrLoop A AT kw (craigmrLimit m n kw.itnlim) s
  return (craigmrResult s, s)

end Verif.Solver
