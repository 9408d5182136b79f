import Verif.Solver.LSQR

/-!
# Model of `pykrylov/lls/craig.py`

The same conventions as for LSQR: the scalars are Python floats (a division by zero raises `ZeroDivisionError`, the square root of a
negative number raises `ValueError`).  Simplifications: printing is dropped; the arguments of `sqrt` in `normof2` and lines
376, 425, 512, 513 are sums of squares and the square root does not raise there; the division in line 377 is one of NumPy scalars
and does not raise; vectors are values (the in-place divisions scale `u`, `Mu` and `v`, `Nv` whether or not they are the same
array; the preconditioners are assumed to return new arrays); products do not raise and return vectors of the right length; `rhs`
has `m` entries.
-/

namespace Verif.Solver
open Scalar Vect

variable {S U V : Type} [Scalar S] [Vect S U] [Vect S V]

/-- Keywords of `CRAIGFramework.solve`, `craig.py:104-105, 160-163`. -/
structure CraigKw (S U V : Type) where
  itnlim : Int := 0
  damp : S
  M : Option (U → U) := none
  N : Option (V → V) := none
  atol : S
  btol : S
  conlim : S
  etol : S
  wantvar : Bool := false
  storeResids : Bool := false
  storeIterates : Bool := false
  window : Nat := 5

/-- `if itnlim == 0: itnlim = 3*n`, `craig.py:176` -/
def craigLimit (n : Nat) (itnlim : Int) : Int := if itnlim = 0 then 3 * n else itnlim

/-- Local variables of the loop of `CRAIGFramework.solve` and the lists it appends to.  `Arnorm` is unbound before the first
iteration.  Bookkeeping: `products` counts the products with the operator and its transpose. -/
structure CraigLoop (S U V : Type) where
  x : V
  r : U
  Mu : U
  Nv : V
  v : V
  alpha : S
  beta : S
  c : S
  s : S
  d : U
  tau : S
  zeta : S
  w : V
  wbar : V
  rnorm : S
  xnorm : S
  r1norm : S
  rNrgNorm2 : S
  xNrgNorm2 : S
  dErr : List S
  Arnorm : Option S
  istop : Nat
  itn : Nat
  resids : List S
  norms : List S
  normalEqns : List S
  dirErrors : List S
  iteratesP : List V
  iteratesD : List U
  products : Nat

/-- Attributes set by `solve`, `craig.py:501-518`, and the lists filled during the solve. -/
structure CraigRes (S U V : Type) where
  x : V
  r : U
  istop : Nat
  itn : Nat
  nMatvec : Nat
  optimal : Bool
  status : String
  r1norm : S
  r2norm : S
  Arnorm : S
  xnorm : S
  resids : List S
  norms : List S
  normalEqns : List S
  dirErrors : List S
  iteratesP : List V
  iteratesD : List U

/-- Lines 212-233: the first vectors `Mu`, `u`, `beta`, and `v`, `Nv`, `alpha`; `v` and `Nv` are unbound if `beta > 0` is false. -/
def craigVectors (AT : U → V) (kw : CraigKw S U V) (b : U) : Except PyError (U × U × S × Option (V × V) × S × Nat) := do
  let Mu := b
  let u := applyPrecon kw.M Mu
  let beta ← pysqrt (dot u Mu)
  if gt beta (lit 0) then
    let u := vdiv u beta
    let Mu := vdiv Mu beta
    let Nv := AT u
    let v := applyPrecon kw.N Nv
    let alpha ← pysqrt (dot v Nv)
    if gt alpha (lit 0) then return (Mu, u, beta, some (vdiv v alpha, vdiv Nv alpha), alpha, 1)
    else return (Mu, u, beta, some (v, Nv), alpha, 1)
  else return (Mu, u, beta, none, lit 0, 0)

/-- Lines 205-209 and 243-287: the variables before the loop. -/
def craigStart (kw : CraigKw S U V) (Mu u : U) (beta : S) (vs : Option (V × V)) (alpha : S) (products : Nat) :
    Except PyError (CraigLoop S U V) := do
  let rho := normof2 alpha (lit 1)
  let d := vdiv u rho
  let tau ← pydiv beta rho
  let r := smul tau d
  let c ← pydiv alpha rho
  let s ← pydiv (lit 1) rho
  let zeta := s * beta
  let eta := c * zeta
  let xi := s * zeta
  let (v, Nv) ← bound "v" vs
  let w := smul c v
  let x := smul zeta w
  return { x := x, r := r, Mu := Mu, Nv := Nv, v := v, alpha := alpha, beta := beta, c := c, s := s, d := d, tau := tau,
           zeta := zeta, w := w, wbar := smul s v, rnorm := tau * tau, xnorm := eta * eta, r1norm := xi * xi,
           rNrgNorm2 := lit 0, xNrgNorm2 := lit 0, dErr := List.replicate kw.window (lit 0), Arnorm := none, istop := 0, itn := 0,
           resids := if kw.storeResids then [tau * tau] else [], norms := if kw.storeResids then [lit 0] else [],
           normalEqns := [], dirErrors := [], iteratesP := if kw.storeIterates then [x] else [],
           iteratesD := if kw.storeIterates then [r] else [], products := products }

/-- The bidiagonalization step, `craig.py:302-329`: `Mu`, `u`, `Nv`, `v`, `alpha`, `beta`, products. -/
def craigBidiag (A : V → U) (AT : U → V) (kw : CraigKw S U V) (s : CraigLoop S U V) :
    Except PyError (U × U × V × V × S × S × Nat) := do
  let Mu := A s.v - smul s.alpha s.Mu
  let u := applyPrecon kw.M Mu
  let beta ← pysqrt (dot u Mu)
  if gt beta (lit 0) then
    let u := vdiv u beta
    let Mu := vdiv Mu beta
    let Nv := AT u - smul beta s.Nv
    let v := applyPrecon kw.N Nv
    let alpha ← pysqrt (dot v Nv)
    if gt alpha (lit 0) then return (Mu, u, vdiv Nv alpha, vdiv v alpha, alpha, beta, s.products + 2)
    else return (Mu, u, Nv, v, alpha, beta, s.products + 2)
  else return (Mu, u, s.Nv, s.v, s.alpha, beta, s.products + 1)

/-- The rotations, `craig.py:333-344`: `beta_hat`, `alpha_hat`, `s2`, `c`, `s`.  (`c2` is not used.) -/
def craigRot (c s alpha beta : S) : Except PyError (S × S × S × S × S) := do
  let betaHat := c * beta
  let gamma := s * beta
  let delta := normof2 gamma (lit 1)
  let _ ← pydiv (lit (-1)) delta
  let s2 ← pydiv gamma delta
  let alphaHat := normof2 alpha delta
  let c ← pydiv alpha alphaHat
  let s ← pydiv delta alphaHat
  return (betaHat, alphaHat, s2, c, s)

/-- The stopping tests, `craig.py:379, 448-457`: `direct` is the outcome of the test on the direct error. -/
def craigStop (kw : CraigKw S U V) (lim : Int) (itn : Nat) (direct : Bool) (test1 : S) : Nat :=
  let i := if direct then 8 else 0
  let i := if (itn : Int) ≥ lim then 7 else i
  let i := if le (lit 1 + test1) (lit 1) then 4 else i
  if le test1 kw.btol then 1 else i

/-- One iteration, `craig.py:293-478`.  `bnorm` is the value of `beta` before the loop. -/
def craigStep (A : V → U) (AT : U → V) (kw : CraigKw S U V) (lim : Int) (bnorm : S) (s : CraigLoop S U V) :
    Except PyError (CraigLoop S U V) := do
  let itn := s.itn + 1
  let (Mu, u, Nv, v, alpha, beta, products) ← craigBidiag A AT kw s
  let Arnorm := Scalar.abs (s.alpha * beta * s.s * s.zeta)
  let (betaHat, alphaHat, s2, c, sn) ← craigRot s.c s.s alpha beta
  let d := vdiv (u - smul betaHat s.d) alphaHat
  let tau ← pydiv (-betaHat * s.tau) alphaHat
  let r := s.r + smul tau d
  let zeta ← pydiv (-betaHat * s.zeta) alphaHat
  let eta := c * zeta
  let xi := sn * zeta
  let wbar := smul s2 s.wbar
  let w := smul c v + smul sn wbar
  let wbar := smul (-c) wbar + smul sn v
  let x := s.x + smul zeta w
  let rNrgNorm2 := s.rNrgNorm2 + tau * tau
  let xNrgNorm2 := s.xNrgNorm2 + zeta * zeta
  let k ← pymod itn kw.window
  let dErr := s.dErr.set k tau
  let trnc := normList dErr
  let rNrgNorm := sqrt rNrgNorm2
  let direct := decide (itn > kw.window) && lt trnc (kw.etol * rNrgNorm)
  let rnorm := s.rnorm + tau * tau
  let test1 ← pydiv (sqrt rnorm) bnorm
  return { x := x, r := r, Mu := Mu, Nv := Nv, v := v, alpha := alpha, beta := beta, c := c, s := sn, d := d, tau := tau,
           zeta := zeta, w := w, wbar := wbar, rnorm := rnorm, xnorm := s.xnorm + eta * eta, r1norm := s.r1norm + xi * xi,
           rNrgNorm2 := rNrgNorm2, xNrgNorm2 := xNrgNorm2, dErr := dErr, Arnorm := some Arnorm,
           istop := craigStop kw lim itn direct test1, itn := itn,
           resids := if kw.storeResids then s.resids ++ [rnorm] else s.resids,
           norms := if kw.storeResids then s.norms ++ [xNrgNorm2] else s.norms,
           normalEqns := if kw.storeResids then s.normalEqns ++ [Arnorm] else s.normalEqns,
           dirErrors := if itn > kw.window then s.dirErrors ++ [trnc / rNrgNorm] else s.dirErrors,
           iteratesP := if kw.storeIterates then s.iteratesP ++ [x] else s.iteratesP,
           iteratesD := if kw.storeIterates then s.iteratesD ++ [r] else s.iteratesD,
           products := products }

/-- the loop condition, `craig.py:293`, without `x_is_zero` (which does not change in the loop), and `break` (line 478) -/
def craigCont (lim : Int) (s : CraigLoop S U V) : Bool := decide (s.istop = 0) && decide ((s.itn : Int) < lim)

theorem craigStep_itn {A : V → U} {AT : U → V} {kw : CraigKw S U V} {lim : Int} {bnorm : S} {s t : CraigLoop S U V}
    (h : craigStep A AT kw lim bnorm s = .ok t) : t.itn = s.itn + 1 := by
  unfold craigStep at h
  obtain ⟨⟨Mu, u, Nv, v, alpha, beta, products⟩, -, h⟩ := except_bind_ok h
  obtain ⟨⟨betaHat, alphaHat, s2, c, sn⟩, -, h⟩ := except_bind_ok h
  obtain ⟨tau, -, h⟩ := except_bind_ok h
  obtain ⟨zeta, -, h⟩ := except_bind_ok h
  obtain ⟨k, -, h⟩ := except_bind_ok h
  obtain ⟨test1, -, h⟩ := except_bind_ok h
  cases h
  rfl

/-- the loop, `craig.py:293-478` -/
def craigLoop (A : V → U) (AT : U → V) (kw : CraigKw S U V) (lim : Int) (bnorm : S) (s : CraigLoop S U V) :
    Except PyError (CraigLoop S U V) :=
  exceptLoop (craigCont lim) (craigStep A AT kw lim bnorm) (fun s => (lim - s.itn).toNat)
    (fun s t h ht h' => by
      have := craigStep_itn ht
      simp only [craigCont, Bool.and_eq_true, decide_eq_true_eq] at h h'
      omega) s

/-- the loop with `x_is_zero`, `craig.py:235-241, 293` -/
def craigMain (A : V → U) (AT : U → V) (kw : CraigKw S U V) (lim : Int) (s : CraigLoop S U V) :
    Except PyError (CraigLoop S U V) :=
  if feq s.beta (lit 0) then .ok s else craigLoop A AT kw lim s.beta s

/-- the attributes set at the end, `craig.py:501-518` -/
def craigResult (s : CraigLoop S U V) : Except PyError (CraigRes S U V) := do
  let Arnorm ← bound "Arnorm" s.Arnorm
  return { x := s.x, r := s.r, istop := s.istop, itn := s.itn, nMatvec := 2 * s.itn,
           optimal := decide (s.istop ∈ [1, 2, 4, 5, 8]), status := lsqrStatus s.istop, r1norm := sqrt s.r1norm,
           r2norm := sqrt s.rnorm, Arnorm := Arnorm, xnorm := s.xnorm, resids := s.resids, norms := s.norms,
           normalEqns := s.normalEqns, dirErrors := s.dirErrors, iteratesP := s.iteratesP, iteratesD := s.iteratesD }

/-- `CRAIGFramework.solve(rhs, ...)`, `craig.py:104-520`.  `n` is the number of columns of the operator.  The second component is
the final value of the loop state. -/
def craigSolve (A : V → U) (AT : U → V) (n : Nat) (b : U) (kw : CraigKw S U V) :
    Except PyError (CraigRes S U V × CraigLoop S U V) := do
  let _ ← lsqrVar kw.wantvar
  let (Mu, u, beta, vs, alpha, products) ← craigVectors AT kw b
  let s ← craigStart kw Mu u beta vs alpha products
  let s ← craigMain A AT kw (craigLimit n kw.itnlim) s
  let res ← craigResult s
  return (res, s)

end Verif.Solver
