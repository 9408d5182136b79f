import Verif.Solver.Minres

/-!
# Model of `pykrylov/lls/lsqr.py`

The scalars of this method are Python floats (`math.sqrt`): a division by zero raises `ZeroDivisionError` and the square root
of a negative number raises `ValueError`.  Simplifications: printing (`show=True`) is dropped; `x**2` is `x*x` (the
`OverflowError` of float powers is not modelled); the arguments of `sqrt` in `normof2`, `normof4` and lines 314, 327, 338, 341,
354 are sums of squares or absolute values and the square root does not raise there; the division in line 315 is one of
NumPy scalars and does not raise; vectors are values (the in-place divisions scale `u`, `Mu` and `v`, `Nv` whether or not
they are the same array; the preconditioners are assumed to return new arrays); products do not raise and return vectors of the
right length; `rhs` has `m` entries.
-/

namespace Verif.Solver
open Scalar Vect

variable {S U V : Type} [Scalar S] [Vect S U] [Vect S V]

/-- Division of Python floats. -/
def pydiv (a b : S) : Except PyError S := if feq b (lit 0) then .error .zeroDivision else .ok (a / b)

/-- `math.sqrt` -/
def pysqrt (a : S) : Except PyError S := if lt a (lit 0) then .error .valueError else .ok (sqrt a)

/-- `normof4`, `lsqr.py:24` -/
def normof4 (a b c d : S) : S := sqrt (a * a + b * b + c * c + d * d)

/-- `a % b` for integers -/
def pymod (a b : Nat) : Except PyError Nat := if b = 0 then .error .zeroDivision else .ok (a % b)

/-- Reading a local variable that may be unbound. -/
def bound {α : Type} (name : String) (a : Option α) : Except PyError α :=
  match a with
  | none => .error (.unboundLocal name)
  | some a => .ok a

/-- Keywords of `LSQRFramework.solve`, `lsqr.py:86-87, 139-142`. -/
structure LsqrKw (S U V : Type) where
  itnlim : Int := 0
  damp : S
  M : Option (U → U) := none
  N : Option (V → V) := none
  atol : S
  btol : S
  conlim : S
  etol : S
  /-- `numpy.inf`, `lsqr.py:16` -/
  inf : S
  wantvar : Bool := false
  storeResids : Bool := false
  storeIterates : Bool := false
  window : Nat := 5

/-- `if itnlim == 0: itnlim = 3*n`, `lsqr.py:152` -/
def lsqrLimit (n : Nat) (itnlim : Int) : Int := if itnlim = 0 then 3 * n else itnlim

/-- The quantities of the stopping tests of one iteration, kept as bookkeeping. -/
structure LsqrTests (S : Type) where
  test1 : S
  test2 : S
  test3 : S
  t1 : S
  rtol : S
  /-- the test on the direct error in `lsqr.py:312-316` is satisfied -/
  direct : Bool

/-- Local variables of the loop of `LSQRFramework.solve` and the lists it appends to.  `v` and `w` are unbound if line 204 or
line 210 was not executed.  Bookkeeping: `products` counts the products with the operator and its transpose, `last` holds the
quantities of the last stopping tests. -/
structure LsqrLoop (S U V : Type) where
  x : V
  Mu : U
  Nv : V
  v : Option V
  w : Option V
  alpha : S
  beta : S
  rhobar : S
  phibar : S
  Anorm : S
  Acond : S
  Arnorm : S
  r1norm : S
  r2norm : S
  xnorm : S
  xxnorm : S
  ddnorm : S
  res2 : S
  z : S
  cs2 : S
  sn2 : S
  xNrgNorm2 : S
  dErr : List S
  istop : Nat
  itn : Nat
  resids : List S
  normalEqns : List S
  dirErrors : List S
  iterates : List V
  products : Nat
  last : Option (LsqrTests S)

/-- Attributes set by `solve`, `lsqr.py:163, 436-453`, and the lists filled during the solve. -/
structure LsqrRes (S V : Type) where
  x : V
  istop : Nat
  itn : Nat
  nMatvec : Nat
  optimal : Bool
  status : String
  r1norm : S
  r2norm : S
  Anorm : S
  Acond : S
  Arnorm : S
  xnorm : S
  resids : List S
  normalEqns : List S
  dirErrors : List S
  iterates : List V
  /-- the attribute `self.ctol` assigned in line 163 if `conlim > 0` -/
  ctol : Option S

/-- Lines 160-166, 176-187, 212-222 and 236-238: the variables before the loop, for the vectors, `alpha` and `beta` computed in
lines 181-210. -/
def lsqrStart (kw : LsqrKw S U V) (beta : S) (Mu : U) (Nv : V) (v w : Option V) (alpha : S) (products : Nat) :
    LsqrLoop S U V :=
  { x := zeros, Mu := Mu, Nv := Nv, v := v, w := w, alpha := alpha, beta := beta, rhobar := alpha, phibar := beta,
    Anorm := lit 0, Acond := lit 0, Arnorm := alpha * beta, r1norm := beta, r2norm := beta, xnorm := lit 0,
    xxnorm := lit 0, ddnorm := lit 0, res2 := lit 0, z := lit 0, cs2 := lit (-1), sn2 := lit 0, xNrgNorm2 := lit 0,
    dErr := List.replicate kw.window (lit 0), istop := 0, itn := 0,
    resids := if kw.storeResids then [beta] else [],
    normalEqns := if kw.storeResids then [alpha * beta] else [],
    dirErrors := [], iterates := if kw.storeIterates then [zeros] else [], products := products, last := none }

/-- Lines 181-210: the first vectors. -/
def lsqrInit (AT : U → V) (kw : LsqrKw S U V) (b : U) : Except PyError (LsqrLoop S U V) := do
  let Mu := b
  let u := applyPrecon kw.M Mu
  let beta ← pysqrt (dot u Mu)
  if gt beta (lit 0) then
    let u := vdiv u beta
    let Mu := vdiv Mu beta
    let Nv := AT u
    let v := applyPrecon kw.N Nv
    let alpha ← pysqrt (dot v Nv)
    if gt alpha (lit 0) then
      return lsqrStart kw beta Mu (vdiv Nv alpha) (some (vdiv v alpha)) (some (vdiv v alpha)) alpha 1
    else return lsqrStart kw beta Mu Nv (some v) none alpha 1
  else return lsqrStart kw beta Mu zeros none none (lit 0) 0

/-- `x_is_zero`, `lsqr.py:212-217` -/
def lsqrXZero (s : LsqrLoop S U V) : Bool := feq s.Arnorm (lit 0)

/-- The bidiagonalization step, `lsqr.py:252-272`: `Mu`, `Nv`, `v`, `alpha`, `beta`, `Anorm`, products. -/
def lsqrBidiag (A : V → U) (AT : U → V) (kw : LsqrKw S U V) (s : LsqrLoop S U V) (v : V) :
    Except PyError (U × V × V × S × S × S × Nat) := do
  let Mu := A v - smul s.alpha s.Mu
  let u := applyPrecon kw.M Mu
  let beta ← pysqrt (dot u Mu)
  if gt beta (lit 0) then
    let u := vdiv u beta
    let Mu := vdiv Mu beta
    let Anorm := normof4 s.Anorm s.alpha beta kw.damp
    let Nv := AT u - smul beta s.Nv
    let v := applyPrecon kw.N Nv
    let alpha ← pysqrt (dot v Nv)
    if gt alpha (lit 0) then return (Mu, vdiv Nv alpha, vdiv v alpha, alpha, beta, Anorm, s.products + 2)
    else return (Mu, Nv, v, alpha, beta, Anorm, s.products + 2)
  else return (Mu, s.Nv, v, s.alpha, beta, s.Anorm, s.products + 1)

/-- The first plane rotation, `lsqr.py:277-281`: `rhobar1`, `psi`, `phibar`. -/
def lsqrRot1 (damp rhobar phibar : S) : Except PyError (S × S × S) := do
  let rhobar1 := normof2 rhobar damp
  let cs1 ← pydiv rhobar rhobar1
  let sn1 ← pydiv damp rhobar1
  return (rhobar1, sn1 * phibar, cs1 * phibar)

/-- The second plane rotation, `lsqr.py:286-298`: `rho`, `theta`, `rhobar`, `phi`, `phibar`, `tau`, `t1`, `t2`. -/
def lsqrRot2 (rhobar1 beta alpha phibar : S) : Except PyError (S × S × S × S × S × S × S × S) := do
  let rho := normof2 rhobar1 beta
  let cs ← pydiv rhobar1 rho
  let sn ← pydiv beta rho
  let theta := sn * alpha
  let phi := cs * phibar
  let t1 ← pydiv phi rho
  let t2 ← pydiv (-theta) rho
  return (rho, theta, -cs * alpha, phi, sn * phibar, sn * phi, t1, t2)

/-- The estimate of the norm of `x`, `lsqr.py:323-332`: `xnorm`, `cs2`, `sn2`, `z`. -/
def lsqrXnorm (s : LsqrLoop S U V) (rho theta phi : S) : Except PyError (S × S × S × S) := do
  let delta := s.sn2 * rho
  let gambar := -s.cs2 * rho
  let rhs := phi - delta * s.z
  let zbar ← pydiv rhs gambar
  let gamma := normof2 gambar theta
  let cs2 ← pydiv gambar gamma
  let sn2 ← pydiv theta gamma
  let z ← pydiv rhs gamma
  return (sqrt (s.xxnorm + zbar * zbar), cs2, sn2, z)

/-- `test2`, `lsqr.py:362-365` -/
def lsqrTest2 (inf Anorm rnorm Arnorm : S) : Except PyError S :=
  if feq Anorm (lit 0) || feq rnorm (lit 0) then .ok inf else pydiv Arnorm (Anorm * rnorm)

/-- `test3`, `lsqr.py:366-369` -/
def lsqrTest3 (inf Acond : S) : Except PyError S := if feq Acond (lit 0) then .ok inf else pydiv (lit 1) Acond

/-- The test quantities, `lsqr.py:361-371`, and the outcome of the test on the direct error. -/
def lsqrQuantities (kw : LsqrKw S U V) (direct : Bool) (bnorm Anorm Acond rnorm Arnorm xnorm : S) :
    Except PyError (LsqrTests S) := do
  let test1 ← pydiv rnorm bnorm
  let test2 ← lsqrTest2 kw.inf Anorm rnorm Arnorm
  let test3 ← lsqrTest3 kw.inf Acond
  let q ← pydiv (Anorm * xnorm) bnorm
  let t1 ← pydiv test1 (lit 1 + q)
  let q' ← pydiv (kw.atol * Anorm * xnorm) bnorm
  return { test1 := test1, test2 := test2, test3 := test3, t1 := t1, rtol := kw.btol + q', direct := direct }

/-- The stopping tests, `lsqr.py:383-392`, and `istop = 8` from line 317.  The local variable `ctol` is 0 (line 162; line 163
assigns an attribute). -/
def lsqrStop (kw : LsqrKw S U V) (lim : Int) (itn : Nat) (t : LsqrTests S) : Nat :=
  let ctol : S := lit 0
  let i := if t.direct then 8 else 0
  let i := if (itn : Int) ≥ lim then 7 else i
  let i := if le (lit 1 + t.test3) (lit 1) then 6 else i
  let i := if le (lit 1 + t.test2) (lit 1) then 5 else i
  let i := if le (lit 1 + t.t1) (lit 1) then 4 else i
  let i := if le t.test3 ctol then 3 else i
  let i := if le t.test2 kw.atol then 2 else i
  if le t.test1 t.rtol then 1 else i

/-- One iteration, `lsqr.py:245-413`.  `bnorm` is the value of `beta` before the loop. -/
def lsqrStep (A : V → U) (AT : U → V) (kw : LsqrKw S U V) (lim : Int) (bnorm : S) (s : LsqrLoop S U V) :
    Except PyError (LsqrLoop S U V) := do
  let itn := s.itn + 1
  let v0 ← bound "v" s.v
  let (Mu, Nv, v, alpha, beta, Anorm, products) ← lsqrBidiag A AT kw s v0
  let (rhobar1, psi, phibar) ← lsqrRot1 kw.damp s.rhobar s.phibar
  let (rho, theta, rhobar, phi, phibar, tau, t1, t2) ← lsqrRot2 rhobar1 beta alpha phibar
  let invRho ← pydiv (lit 1) rho
  let w ← bound "w" s.w
  let dk := smul invRho w
  let x := s.x + smul t1 w
  let ddnorm := s.ddnorm + norm dk * norm dk
  let xNrgNorm2 := s.xNrgNorm2 + phi * phi
  let k ← pymod itn kw.window
  let dErr := s.dErr.set k phi
  let trnc := normList dErr
  let xNrgNorm := sqrt xNrgNorm2
  let direct := decide (itn > kw.window) && lt trnc (kw.etol * xNrgNorm)
  let (xnorm, cs2, sn2, z) ← lsqrXnorm s rho theta phi
  let xxnorm := s.xxnorm + z * z
  let Acond := Anorm * sqrt ddnorm
  let res2 := s.res2 + psi * psi
  let rnorm := sqrt (phibar * phibar + res2)
  let Arnorm := alpha * Scalar.abs tau
  let r1sq := rnorm * rnorm - kw.damp * kw.damp * xxnorm
  let r1 := sqrt (Scalar.abs r1sq)
  let r1norm := if lt r1sq (lit 0) then -r1 else r1
  let tests ← lsqrQuantities kw direct bnorm Anorm Acond rnorm Arnorm xnorm
  return { x := x, Mu := Mu, Nv := Nv, v := some v, w := some (smul t2 w + v), alpha := alpha, beta := beta,
           rhobar := rhobar, phibar := phibar, Anorm := Anorm, Acond := Acond, Arnorm := Arnorm, r1norm := r1norm,
           r2norm := rnorm, xnorm := xnorm, xxnorm := xxnorm, ddnorm := ddnorm, res2 := res2, z := z, cs2 := cs2,
           sn2 := sn2, xNrgNorm2 := xNrgNorm2, dErr := dErr, istop := lsqrStop kw lim itn tests, itn := itn,
           resids := if kw.storeResids then s.resids ++ [rnorm] else s.resids,
           normalEqns := if kw.storeResids then s.normalEqns ++ [Arnorm] else s.normalEqns,
           dirErrors := if itn > kw.window then s.dirErrors ++ [trnc / xNrgNorm] else s.dirErrors,
           iterates := if kw.storeIterates then s.iterates ++ [x] else s.iterates,
           products := products, last := some tests }

/-- the loop condition, `lsqr.py:243`, without `x_is_zero` (which does not change in the loop), and `break` (line 413) -/
def lsqrCont (lim : Int) (s : LsqrLoop S U V) : Bool := decide (s.istop = 0) && decide ((s.itn : Int) < lim)

theorem lsqrStep_itn {A : V → U} {AT : U → V} {kw : LsqrKw S U V} {lim : Int} {bnorm : S} {s t : LsqrLoop S U V}
    (h : lsqrStep A AT kw lim bnorm s = .ok t) : t.itn = s.itn + 1 := by
  unfold lsqrStep at h
  obtain ⟨v0, -, h⟩ := except_bind_ok h
  obtain ⟨⟨Mu, Nv, v, alpha, beta, Anorm, products⟩, -, h⟩ := except_bind_ok h
  obtain ⟨⟨rhobar1, psi, phibar⟩, -, h⟩ := except_bind_ok h
  obtain ⟨⟨rho, theta, rhobar, phi, phibar', tau, t1, t2⟩, -, h⟩ := except_bind_ok h
  obtain ⟨invRho, -, h⟩ := except_bind_ok h
  obtain ⟨w, -, h⟩ := except_bind_ok h
  obtain ⟨k, -, h⟩ := except_bind_ok h
  obtain ⟨⟨xnorm, cs2, sn2, z⟩, -, h⟩ := except_bind_ok h
  obtain ⟨tests, -, h⟩ := except_bind_ok h
  cases h
  rfl

/-- the loop, `lsqr.py:243-413` -/
def lsqrLoop (A : V → U) (AT : U → V) (kw : LsqrKw S U V) (lim : Int) (bnorm : S) (s : LsqrLoop S U V) :
    Except PyError (LsqrLoop S U V) :=
  exceptLoop (lsqrCont lim) (lsqrStep A AT kw lim bnorm) (fun s => (lim - s.itn).toNat)
    (fun s t h ht h' => by
      have := lsqrStep_itn ht
      simp only [lsqrCont, Bool.and_eq_true, decide_eq_true_eq] at h h'
      omega) s

/-- the attribute `status`, `lsqr.py:436-440` -/
def lsqrStatus (istop : Nat) : String :=
  if istop = 8 then "direct error small"
  else if istop = 7 then "max iterations"
  else if istop ∈ [3, 6] then "ill-conditioned operator"
  else if istop ∈ [1, 2, 4, 5] then "residual small"
  else "solution is zero"

/-- the attributes set at the end, `lsqr.py:163, 436-453` -/
def lsqrResult (kw : LsqrKw S U V) (s : LsqrLoop S U V) : LsqrRes S V :=
  { x := s.x, istop := s.istop, itn := s.itn, nMatvec := 2 * s.itn, optimal := decide (s.istop ∈ [1, 2, 4, 5, 8]),
    status := lsqrStatus s.istop, r1norm := s.r1norm, r2norm := s.r2norm, Anorm := s.Anorm, Acond := s.Acond,
    Arnorm := s.Arnorm, xnorm := s.xnorm, resids := s.resids, normalEqns := s.normalEqns, dirErrors := s.dirErrors,
    iterates := s.iterates, ctol := if gt kw.conlim (lit 0) then some (lit 1 / kw.conlim) else none }

/-- `var`, `lsqr.py:154-157`: with `wantvar=True`, `zeros(n,1)` is called, whose second argument is not a data type. -/
def lsqrVar (wantvar : Bool) : Except PyError Unit := if wantvar then .error .typeError else .ok ()

/-- the loop with `x_is_zero`, `lsqr.py:212-217, 243` -/
def lsqrMain (A : V → U) (AT : U → V) (kw : LsqrKw S U V) (lim : Int) (s : LsqrLoop S U V) : Except PyError (LsqrLoop S U V) :=
  if lsqrXZero s then .ok s else lsqrLoop A AT kw lim s.beta s

/-- `LSQRFramework.solve(rhs, ...)`, `lsqr.py:86-454`.  `n` is the number of columns of the operator.  The second component is the final value of the
bookkeeping in the loop state. -/
def lsqrSolve (A : V → U) (AT : U → V) (n : Nat) (b : U) (kw : LsqrKw S U V) :
    Except PyError (LsqrRes S V × LsqrLoop S U V) := do
  let lim := lsqrLimit n kw.itnlim
  let _ ← lsqrVar kw.wantvar
  let s ← lsqrInit AT kw b
  let s ← lsqrMain A AT kw lim s
  return (lsqrResult kw s, s)

end Verif.Solver
