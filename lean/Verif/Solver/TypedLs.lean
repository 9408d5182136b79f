import Verif.Solver.LSMR
import Verif.Solver.Craig
import Verif.Solver.CraigMR
import Verif.Linop.Core

/-!
# Dtypes of arrays in `lls/lsqr.py`, `lsmr.py`, `craig.py` and `craigmr.py`

Arrays carry their dtype class; all numbers are Python floats, because every number that enters an array operation comes from `math.sqrt`.
`math.sqrt` raises `TypeError` for a complex argument.  An operation that makes a new array has the common type of its operands (real, if a
float is one of them); an in-place operation keeps the type of its target and raises `TypeError` if the result is of a wider class (NumPy's
casting rule `same_kind`).

Simplifications: as in `Verif.Solver.LSQR` and the other models; the values of all classes live in one arithmetic; options (`damp`, `atol`,
`conlim`, ...) are floats; no distinction between `float32` and `float64`; no integer overflow.  `alpha = 0` before the loop of LSMR and
CRAIG-MR is the float zero here (times an array of integers it makes no difference: the array is subtracted from one of floats).
-/

namespace Verif.Solver
open Scalar Vect Linop

/-- an array with its dtype class -/
structure DArr (V : Type) where
  kind : DKind
  val : V

variable {S U V : Type} [Scalar S] [Vect S U] [Vect S V]

/-- Operations that make a new array; `zeros(n)` is an array of floats, the numbers are floats.  (`dot` is only used through `dsqrt`.) -/
instance : Vect S (DArr V) where
  add u v := ⟨u.kind.join v.kind, u.val + v.val⟩
  sub u v := ⟨u.kind.join v.kind, u.val - v.val⟩
  neg u := ⟨u.kind, -u.val⟩
  zeros := ⟨.real, zeros⟩
  smul a u := ⟨DKind.real.join u.kind, smul a u.val⟩
  vdiv u a := ⟨u.kind.join .real, vdiv u.val a⟩
  dot u v := dot u.val v.val
  norm u := norm u.val

/-- `u += v` -/
def DArr.iadd (u v : DArr V) : Except PyError (DArr V) :=
  if v.kind.join u.kind = u.kind then .ok ⟨u.kind, u.val + v.val⟩ else .error .typeError

/-- `u *= a` for a float `a` -/
def DArr.imul (u : DArr V) (a : S) : Except PyError (DArr V) :=
  if DKind.real.join u.kind = u.kind then .ok ⟨u.kind, smul a u.val⟩ else .error .typeError

/-- `u /= a` for a float `a` -/
def DArr.idiv (u : DArr V) (a : S) : Except PyError (DArr V) :=
  if DKind.real.join u.kind = u.kind then .ok ⟨u.kind, vdiv u.val a⟩ else .error .typeError

/-- `math.sqrt(dot(u, v))` -/
def dsqrt (u v : DArr V) : Except PyError S :=
  if u.kind.join v.kind = .complex then .error .typeError else pysqrt (dot u.val v.val)

/-- a linear operator and its transpose, with the attribute `dtype` -/
structure DOp (U V : Type) where
  dtype : DKind
  fn : V → U
  tfn : U → V

/-- `A * v`: the result is converted to the common type of the operator and `v`, `linop.py:358-360` -/
def DOp.mul (A : DOp U V) (v : DArr V) : DArr U := ⟨A.dtype.join v.kind, A.fn v.val⟩

/-- `A.T * u` -/
def DOp.tmul (A : DOp U V) (u : DArr U) : DArr V := ⟨A.dtype.join u.kind, A.tfn u.val⟩

/-- a preconditioner with dtype `k`, called as a function -/
def dprecon (k : DKind) (M : Option (U → U)) : Option (DArr U → DArr U) := M.map fun f u => ⟨k.join u.kind, f u.val⟩

/-! ### LSQR -/

/-- the keywords, for preconditioners with the dtypes `kM` and `kN` -/
def LsqrKw.typed (kM kN : DKind) (kw : LsqrKw S U V) : LsqrKw S (DArr U) (DArr V) :=
  { itnlim := kw.itnlim, damp := kw.damp, M := dprecon kM kw.M, N := dprecon kN kw.N, atol := kw.atol, btol := kw.btol,
    conlim := kw.conlim, etol := kw.etol, inf := kw.inf, wantvar := kw.wantvar, storeResids := kw.storeResids,
    storeIterates := kw.storeIterates, window := kw.window }

/-- Lines 181-210: the first vectors.  Without `M` the arrays `u` and `Mu` are the same, and one division does for both. -/
def lsqrInitD (A : DOp U V) (kw : LsqrKw S (DArr U) (DArr V)) (b : DArr U) : Except PyError (LsqrLoop S (DArr U) (DArr V)) := do
  let Mu := b
  let u := applyPrecon kw.M Mu
  let beta ← dsqrt u Mu
  if gt beta (lit 0) then
    let u ← u.idiv beta
    let Mu ← Mu.idiv beta
    let Nv := A.tmul u
    let v := applyPrecon kw.N Nv
    let alpha ← dsqrt v Nv
    if gt alpha (lit 0) then
      let v ← v.idiv alpha
      let Nv ← Nv.idiv alpha
      return lsqrStart kw beta Mu Nv (some v) (some v) alpha 1
    else return lsqrStart kw beta Mu Nv (some v) none alpha 1
  else return lsqrStart kw beta Mu zeros none none (lit 0) 0

/-- The bidiagonalization step, `lsqr.py:252-272`. -/
def lsqrBidiagD (A : DOp U V) (kw : LsqrKw S (DArr U) (DArr V)) (s : LsqrLoop S (DArr U) (DArr V)) (v : DArr V) :
    Except PyError (DArr U × DArr V × DArr V × S × S × S × Nat) := do
  let Mu := A.mul v - smul s.alpha s.Mu
  let u := applyPrecon kw.M Mu
  let beta ← dsqrt u Mu
  if gt beta (lit 0) then
    let u ← u.idiv beta
    let Mu ← Mu.idiv beta
    let Anorm := normof4 s.Anorm s.alpha beta kw.damp
    let Nv := A.tmul u - smul beta s.Nv
    let v := applyPrecon kw.N Nv
    let alpha ← dsqrt v Nv
    if gt alpha (lit 0) then
      let v ← v.idiv alpha
      let Nv ← Nv.idiv alpha
      return (Mu, Nv, v, alpha, beta, Anorm, s.products + 2)
    else return (Mu, Nv, v, alpha, beta, Anorm, s.products + 2)
  else return (Mu, s.Nv, v, s.alpha, beta, s.Anorm, s.products + 1)

/-- One iteration, `lsqr.py:245-413`. -/
def lsqrStepD (A : DOp U V) (kw : LsqrKw S (DArr U) (DArr V)) (lim : Int) (bnorm : S) (s : LsqrLoop S (DArr U) (DArr V)) :
    Except PyError (LsqrLoop S (DArr U) (DArr V)) := do
  let itn := s.itn + 1
  let v0 ← bound "v" s.v
  let (Mu, Nv, v, alpha, beta, Anorm, products) ← lsqrBidiagD A kw s v0
  let (rhobar1, psi, phibar) ← lsqrRot1 kw.damp s.rhobar s.phibar
  let (rho, theta, rhobar, phi, phibar, tau, t1, t2) ← lsqrRot2 rhobar1 beta alpha phibar
  let invRho ← pydiv (lit 1) rho
  let w ← bound "w" s.w
  let dk := smul invRho w
  let x ← s.x.iadd (smul t1 w)
  let w' ← w.imul t2
  let w' ← w'.iadd v
  let ddnorm := s.ddnorm + norm dk * norm dk
  let xNrgNorm2 := s.xNrgNorm2 + phi * phi
  let k ← pymod itn kw.window
  let dErr := s.dErr.set k phi
  let trnc := normList dErr
  let xNrgNorm := sqrt xNrgNorm2
  let direct := decide (itn > kw.window) && lt trnc (kw.etol * xNrgNorm)
  let (xnorm, cs2, sn2, z) ← lsqrXnorm s rho theta phi
  let xxnorm := s.xxnorm + z * z
  let Acond := Anorm * sqrt ddnorm
  let res2 := s.res2 + psi * psi
  let rnorm := sqrt (phibar * phibar + res2)
  let Arnorm := alpha * Scalar.abs tau
  let r1sq := rnorm * rnorm - kw.damp * kw.damp * xxnorm
  let r1 := sqrt (Scalar.abs r1sq)
  let r1norm := if lt r1sq (lit 0) then -r1 else r1
  let tests ← lsqrQuantities kw direct bnorm Anorm Acond rnorm Arnorm xnorm
  return { x := x, Mu := Mu, Nv := Nv, v := some v, w := some w', alpha := alpha, beta := beta,
           rhobar := rhobar, phibar := phibar, Anorm := Anorm, Acond := Acond, Arnorm := Arnorm, r1norm := r1norm,
           r2norm := rnorm, xnorm := xnorm, xxnorm := xxnorm, ddnorm := ddnorm, res2 := res2, z := z, cs2 := cs2,
           sn2 := sn2, xNrgNorm2 := xNrgNorm2, dErr := dErr, istop := lsqrStop kw lim itn tests, itn := itn,
           resids := if kw.storeResids then s.resids ++ [rnorm] else s.resids,
           normalEqns := if kw.storeResids then s.normalEqns ++ [Arnorm] else s.normalEqns,
           dirErrors := if itn > kw.window then s.dirErrors ++ [trnc / xNrgNorm] else s.dirErrors,
           iterates := if kw.storeIterates then s.iterates ++ [x] else s.iterates,
           products := products, last := some tests }

theorem lsqrStepD_itn {A : DOp U V} {kw : LsqrKw S (DArr U) (DArr V)} {lim : Int} {bnorm : S} {s t : LsqrLoop S (DArr U) (DArr V)}
    (h : lsqrStepD A kw lim bnorm s = .ok t) : t.itn = s.itn + 1 := by
  unfold lsqrStepD at h
  obtain ⟨v0, -, h⟩ := except_bind_ok h
  obtain ⟨⟨Mu, Nv, v, alpha, beta, Anorm, products⟩, -, h⟩ := except_bind_ok h
  obtain ⟨⟨rhobar1, psi, phibar⟩, -, h⟩ := except_bind_ok h
  obtain ⟨⟨rho, theta, rhobar, phi, phibar', tau, t1, t2⟩, -, h⟩ := except_bind_ok h
  obtain ⟨invRho, -, h⟩ := except_bind_ok h
  obtain ⟨w, -, h⟩ := except_bind_ok h
  obtain ⟨x, -, h⟩ := except_bind_ok h
  obtain ⟨w', -, h⟩ := except_bind_ok h
  obtain ⟨w'', -, h⟩ := except_bind_ok h
  obtain ⟨k, -, h⟩ := except_bind_ok h
  obtain ⟨⟨xnorm, cs2, sn2, z⟩, -, h⟩ := except_bind_ok h
  obtain ⟨tests, -, h⟩ := except_bind_ok h
  cases h
  rfl

/-- the loop, `lsqr.py:243-413` -/
def lsqrLoopD (A : DOp U V) (kw : LsqrKw S (DArr U) (DArr V)) (lim : Int) (bnorm : S) (s : LsqrLoop S (DArr U) (DArr V)) :
    Except PyError (LsqrLoop S (DArr U) (DArr V)) :=
  exceptLoop (lsqrCont lim) (lsqrStepD A kw lim bnorm) (fun s => (lim - s.itn).toNat)
    (fun s t h ht h' => by
      have := lsqrStepD_itn ht
      simp only [lsqrCont, Bool.and_eq_true, decide_eq_true_eq] at h h'
      omega) s

/-- the loop with `x_is_zero`, `lsqr.py:212-217, 243` -/
def lsqrMainD (A : DOp U V) (kw : LsqrKw S (DArr U) (DArr V)) (lim : Int) (s : LsqrLoop S (DArr U) (DArr V)) :
    Except PyError (LsqrLoop S (DArr U) (DArr V)) :=
  if lsqrXZero s then .ok s else lsqrLoopD A kw lim s.beta s

/-- `LSQRFramework.solve(rhs, ...)`, `lsqr.py:86-454` -/
def lsqrSolveD (A : DOp U V) (n : Nat) (b : DArr U) (kw : LsqrKw S (DArr U) (DArr V)) : Except PyError (LsqrRes S (DArr V)) := do
  let _ ← lsqrVar kw.wantvar
  let s ← lsqrInitD A kw b
  let s ← lsqrMainD A kw (lsqrLimit n kw.itnlim) s
  return lsqrResult kw s

/-! ### LSMR -/

/-- the keywords, for preconditioners with the dtypes `kM` and `kN` -/
def LsmrKw.typed (kM kN : DKind) (kw : LsmrKw S U V) : LsmrKw S (DArr U) (DArr V) :=
  { damp := kw.damp, atol := kw.atol, btol := kw.btol, conlim := kw.conlim, M := dprecon kM kw.M, N := dprecon kN kw.N,
    itnlim := kw.itnlim, etol := kw.etol, storeResids := kw.storeResids, storeIterates := kw.storeIterates, window := kw.window }

/-- Lines 210-233: the first vectors. -/
def lsmrInitD (A : DOp U V) (kw : LsmrKw S (DArr U) (DArr V)) (b : DArr U) : Except PyError (LsmrLoop S (DArr U) (DArr V)) := do
  let Mu := b
  let u := applyPrecon kw.M Mu
  let beta ← dsqrt u Mu
  if gt beta (lit 0) then
    let u ← u.idiv beta
    let Mu ← Mu.idiv beta
    let Nv := A.tmul u
    let v := applyPrecon kw.N Nv
    let alpha ← dsqrt v Nv
    if gt alpha (lit 0) then
      let v ← v.idiv alpha
      let Nv ← Nv.idiv alpha
      return lsmrStart kw beta Mu (some Nv) v alpha 1
    else return lsmrStart kw beta Mu (some Nv) v alpha 1
  else return lsmrStart kw beta Mu none zeros (lit 0) 0

/-- The bidiagonalization step, `lsmr.py:311-332`. -/
def lsmrBidiagD (A : DOp U V) (kw : LsmrKw S (DArr U) (DArr V)) (s : LsmrLoop S (DArr U) (DArr V)) :
    Except PyError (DArr U × Option (DArr V) × DArr V × S × S × Nat) := do
  let Mu := A.mul s.v - smul s.alpha s.Mu
  let u := applyPrecon kw.M Mu
  let beta ← dsqrt u Mu
  if gt beta (lit 0) then
    let u ← u.idiv beta
    let Mu ← Mu.idiv beta
    let Nv ← bound "Nv" s.Nv
    let Nv := A.tmul u - smul beta Nv
    let v := applyPrecon kw.N Nv
    let alpha ← dsqrt v Nv
    if gt alpha (lit 0) then
      let v ← v.idiv alpha
      let Nv ← Nv.idiv alpha
      return (Mu, some Nv, v, alpha, beta, s.products + 2)
    else return (Mu, some Nv, v, alpha, beta, s.products + 2)
  else return (Mu, s.Nv, s.v, s.alpha, beta, s.products + 1)

/-- One iteration, `lsmr.py:304-475`.  The updates of the vectors (lines 359-361) make new arrays. -/
def lsmrStepD (A : DOp U V) (kw : LsmrKw S (DArr U) (DArr V)) (lim : Int) (normb : S) (s : LsmrLoop S (DArr U) (DArr V)) :
    Except PyError (LsmrLoop S (DArr U) (DArr V)) := do
  let itn := s.itn + 1
  let (Mu, Nv, v, alpha, beta, products) ← lsmrBidiagD A kw s
  let r ← lsmrRot kw.damp alpha beta s
  let (hbar, x, h) ← lsmrVectors r s v
  let xNrgNorm2 := s.xNrgNorm2 + r.zeta * r.zeta
  let k ← pymod itn kw.window
  let dErr := s.dErr.set k r.zeta
  let trnc := normList dErr
  let xNrgNorm := sqrt xNrgNorm2
  let direct := decide (itn > kw.window) && lt trnc (kw.etol * xNrgNorm)
  let (betadd, thetatilde, rhodold, betad, tautildeold, d, normr) ← lsmrResid r s
  let normA2 := s.normA2 + beta * beta
  let normA := sqrt normA2
  let maxrbar := pymax s.maxrbar s.rhobar
  let minrbar := if itn > 1 then pymin s.minrbar s.rhobar else s.minrbar
  let condA ← pydiv (pymax maxrbar r.rhotemp) (pymin minrbar r.rhotemp)
  let normar := Scalar.abs r.zetabar
  let normx := norm x
  let tests ← lsmrQuantities kw direct normb normA condA normr normar normx
  return { x := x, Mu := Mu, Nv := Nv, v := v, alpha := alpha, beta := beta, h := h, hbar := hbar, alphabar := r.alphabar,
           rho := r.rho, rhobar := r.rhobar, cbar := r.cbar, sbar := r.sbar, zeta := r.zeta, zetabar := r.zetabar,
           betadd := betadd, betad := betad, rhodold := rhodold, tautildeold := tautildeold, thetatilde := thetatilde,
           d := d, normA2 := normA2 + alpha * alpha, normA := normA, maxrbar := maxrbar, minrbar := minrbar,
           condA := condA, normr := normr, normar := normar, normx := normx, xNrgNorm2 := xNrgNorm2, dErr := dErr,
           istop := lsmrStop kw lim itn tests, itn := itn,
           resids := if kw.storeResids then s.resids ++ [normr] else s.resids,
           normalEqns := if kw.storeResids then s.normalEqns ++ [normar] else s.normalEqns,
           norms := if kw.storeResids then s.norms ++ [xNrgNorm2] else s.norms,
           dirErrors := if itn > kw.window then s.dirErrors ++ [trnc / xNrgNorm] else s.dirErrors,
           iterates := if kw.storeIterates then s.iterates ++ [x] else s.iterates,
           products := products }

theorem lsmrStepD_itn {A : DOp U V} {kw : LsmrKw S (DArr U) (DArr V)} {lim : Int} {normb : S} {s t : LsmrLoop S (DArr U) (DArr V)}
    (h : lsmrStepD A kw lim normb s = .ok t) : t.itn = s.itn + 1 := by
  unfold lsmrStepD at h
  obtain ⟨⟨Mu, Nv, v, alpha, beta, products⟩, -, h⟩ := except_bind_ok h
  obtain ⟨r, -, h⟩ := except_bind_ok h
  obtain ⟨⟨hbar, x, h'⟩, -, h⟩ := except_bind_ok h
  obtain ⟨k, -, h⟩ := except_bind_ok h
  obtain ⟨⟨betadd, thetatilde, rhodold, betad, tautildeold, d, normr⟩, -, h⟩ := except_bind_ok h
  obtain ⟨condA, -, h⟩ := except_bind_ok h
  obtain ⟨tests, -, h⟩ := except_bind_ok h
  cases h
  rfl

/-- the loop, `lsmr.py:303-475` -/
def lsmrLoopD (A : DOp U V) (kw : LsmrKw S (DArr U) (DArr V)) (lim : Int) (normb : S) (s : LsmrLoop S (DArr U) (DArr V)) :
    Except PyError (LsmrLoop S (DArr U) (DArr V)) :=
  exceptLoop (lsmrCont lim) (lsmrStepD A kw lim normb) (fun s => (lim - s.itn).toNat)
    (fun s t h ht h' => by
      have := lsmrStepD_itn ht
      simp only [lsmrCont, Bool.and_eq_true, decide_eq_true_eq] at h h'
      omega) s

/-- `LSMRFramework.solve(b, ...)`, `lsmr.py:64-492` -/
def lsmrSolveD (A : DOp U V) (m n : Nat) (b : DArr U) (kw : LsmrKw S (DArr U) (DArr V)) (selfX : Option (DArr V)) :
    Except PyError (LsmrRes S (DArr V)) := do
  let s ← lsmrInitD A kw b
  if feq s.normar (lit 0) then return lsmrResult selfX s
  else
    let t ← lsmrLoopD A kw (lsmrLimit m n kw.itnlim) s.beta (lsmrFirst kw s)
    return lsmrResult (some t.x) t

/-! ### CRAIG -/

/-- the keywords, for preconditioners with the dtypes `kM` and `kN` -/
def CraigKw.typed (kM kN : DKind) (kw : CraigKw S U V) : CraigKw S (DArr U) (DArr V) :=
  { itnlim := kw.itnlim, damp := kw.damp, M := dprecon kM kw.M, N := dprecon kN kw.N, atol := kw.atol, btol := kw.btol,
    conlim := kw.conlim, etol := kw.etol, wantvar := kw.wantvar, storeResids := kw.storeResids, storeIterates := kw.storeIterates,
    window := kw.window }

/-- Lines 212-233: the first vectors. -/
def craigVectorsD (A : DOp U V) (kw : CraigKw S (DArr U) (DArr V)) (b : DArr U) :
    Except PyError (DArr U × DArr U × S × Option (DArr V × DArr V) × S × Nat) := do
  let Mu := b
  let u := applyPrecon kw.M Mu
  let beta ← dsqrt u Mu
  if gt beta (lit 0) then
    let u ← u.idiv beta
    let Mu ← Mu.idiv beta
    let Nv := A.tmul u
    let v := applyPrecon kw.N Nv
    let alpha ← dsqrt v Nv
    if gt alpha (lit 0) then
      let v ← v.idiv alpha
      let Nv ← Nv.idiv alpha
      return (Mu, u, beta, some (v, Nv), alpha, 1)
    else return (Mu, u, beta, some (v, Nv), alpha, 1)
  else return (Mu, u, beta, none, lit 0, 0)

/-- The bidiagonalization step, `craig.py:302-329`. -/
def craigBidiagD (A : DOp U V) (kw : CraigKw S (DArr U) (DArr V)) (s : CraigLoop S (DArr U) (DArr V)) :
    Except PyError (DArr U × DArr U × DArr V × DArr V × S × S × Nat) := do
  let Mu := A.mul s.v - smul s.alpha s.Mu
  let u := applyPrecon kw.M Mu
  let beta ← dsqrt u Mu
  if gt beta (lit 0) then
    let u ← u.idiv beta
    let Mu ← Mu.idiv beta
    let Nv := A.tmul u - smul beta s.Nv
    let v := applyPrecon kw.N Nv
    let alpha ← dsqrt v Nv
    if gt alpha (lit 0) then
      let v ← v.idiv alpha
      let Nv ← Nv.idiv alpha
      return (Mu, u, Nv, v, alpha, beta, s.products + 2)
    else return (Mu, u, Nv, v, alpha, beta, s.products + 2)
  else return (Mu, u, s.Nv, s.v, s.alpha, beta, s.products + 1)

/-- One iteration, `craig.py:293-478`. -/
def craigStepD (A : DOp U V) (kw : CraigKw S (DArr U) (DArr V)) (lim : Int) (bnorm : S) (s : CraigLoop S (DArr U) (DArr V)) :
    Except PyError (CraigLoop S (DArr U) (DArr V)) := do
  let itn := s.itn + 1
  let (Mu, u, Nv, v, alpha, beta, products) ← craigBidiagD A kw s
  let Arnorm := Scalar.abs (s.alpha * beta * s.s * s.zeta)
  let (betaHat, alphaHat, s2, c, sn) ← craigRot s.c s.s alpha beta
  let d := vdiv (u - smul betaHat s.d) alphaHat
  let tau ← pydiv (-betaHat * s.tau) alphaHat
  let r ← s.r.iadd (smul tau d)
  let zeta ← pydiv (-betaHat * s.zeta) alphaHat
  let eta := c * zeta
  let xi := sn * zeta
  let wbar ← s.wbar.imul s2
  let w := smul c v + smul sn wbar
  let wbar ← wbar.imul (-c)
  let wbar ← wbar.iadd (smul sn v)
  let x ← s.x.iadd (smul zeta w)
  let rNrgNorm2 := s.rNrgNorm2 + tau * tau
  let xNrgNorm2 := s.xNrgNorm2 + zeta * zeta
  let k ← pymod itn kw.window
  let dErr := s.dErr.set k tau
  let trnc := normList dErr
  let rNrgNorm := sqrt rNrgNorm2
  let direct := decide (itn > kw.window) && lt trnc (kw.etol * rNrgNorm)
  let rnorm := s.rnorm + tau * tau
  let test1 ← pydiv (sqrt rnorm) bnorm
  return { x := x, r := r, Mu := Mu, Nv := Nv, v := v, alpha := alpha, beta := beta, c := c, s := sn, d := d, tau := tau,
           zeta := zeta, w := w, wbar := wbar, rnorm := rnorm, xnorm := s.xnorm + eta * eta, r1norm := s.r1norm + xi * xi,
           rNrgNorm2 := rNrgNorm2, xNrgNorm2 := xNrgNorm2, dErr := dErr, Arnorm := some Arnorm,
           istop := craigStop kw lim itn direct test1, itn := itn,
           resids := if kw.storeResids then s.resids ++ [rnorm] else s.resids,
           norms := if kw.storeResids then s.norms ++ [xNrgNorm2] else s.norms,
           normalEqns := if kw.storeResids then s.normalEqns ++ [Arnorm] else s.normalEqns,
           dirErrors := if itn > kw.window then s.dirErrors ++ [trnc / rNrgNorm] else s.dirErrors,
           iteratesP := if kw.storeIterates then s.iteratesP ++ [x] else s.iteratesP,
           iteratesD := if kw.storeIterates then s.iteratesD ++ [r] else s.iteratesD,
           products := products }

theorem craigStepD_itn {A : DOp U V} {kw : CraigKw S (DArr U) (DArr V)} {lim : Int} {bnorm : S} {s t : CraigLoop S (DArr U) (DArr V)}
    (h : craigStepD A kw lim bnorm s = .ok t) : t.itn = s.itn + 1 := by
  unfold craigStepD at h
  obtain ⟨⟨Mu, u, Nv, v, alpha, beta, products⟩, -, h⟩ := except_bind_ok h
  obtain ⟨⟨betaHat, alphaHat, s2, c, sn⟩, -, h⟩ := except_bind_ok h
  obtain ⟨tau, -, h⟩ := except_bind_ok h
  obtain ⟨r, -, h⟩ := except_bind_ok h
  obtain ⟨zeta, -, h⟩ := except_bind_ok h
  obtain ⟨w1, -, h⟩ := except_bind_ok h
  obtain ⟨w2, -, h⟩ := except_bind_ok h
  obtain ⟨w3, -, h⟩ := except_bind_ok h
  obtain ⟨x, -, h⟩ := except_bind_ok h
  obtain ⟨k, -, h⟩ := except_bind_ok h
  obtain ⟨test1, -, h⟩ := except_bind_ok h
  cases h
  rfl

/-- the loop, `craig.py:293-478` -/
def craigLoopD (A : DOp U V) (kw : CraigKw S (DArr U) (DArr V)) (lim : Int) (bnorm : S) (s : CraigLoop S (DArr U) (DArr V)) :
    Except PyError (CraigLoop S (DArr U) (DArr V)) :=
  exceptLoop (craigCont lim) (craigStepD A kw lim bnorm) (fun s => (lim - s.itn).toNat)
    (fun s t h ht h' => by
      have := craigStepD_itn ht
      simp only [craigCont, Bool.and_eq_true, decide_eq_true_eq] at h h'
      omega) s

/-- the loop with `x_is_zero`, `craig.py:235-241, 293-478` -/
def craigMainD (A : DOp U V) (kw : CraigKw S (DArr U) (DArr V)) (lim : Int) (s : CraigLoop S (DArr U) (DArr V)) :
    Except PyError (CraigLoop S (DArr U) (DArr V)) :=
  if feq s.beta (lit 0) then .ok s else craigLoopD A kw lim s.beta s

/-- `CRAIGFramework.solve(rhs, ...)`, `craig.py:104-520`; lines 243-287 make new arrays. -/
def craigSolveD (A : DOp U V) (n : Nat) (b : DArr U) (kw : CraigKw S (DArr U) (DArr V)) :
    Except PyError (CraigRes S (DArr U) (DArr V)) := do
  let _ ← lsqrVar kw.wantvar
  let (Mu, u, beta, vs, alpha, products) ← craigVectorsD A kw b
  let s ← craigStart kw Mu u beta vs alpha products
  let s ← craigMainD A kw (craigLimit n kw.itnlim) s
  craigResult s

/-! ### CRAIG-MR -/

/-- the keywords, for preconditioners with the dtypes `kM` and `kN` -/
def CraigmrKw.typed (kM kN : DKind) (kw : CraigmrKw S U V) : CraigmrKw S (DArr U) (DArr V) :=
  { damp := kw.damp, atol := kw.atol, btol := kw.btol, conlim := kw.conlim, M := dprecon kM kw.M, N := dprecon kN kw.N,
    itnlim := kw.itnlim, etol := kw.etol, storeResids := kw.storeResids, storeIterates := kw.storeIterates, window := kw.window }

/-- Lines 75-98: the first vectors. -/
def craigmrVectorsD (A : DOp U V) (kw : CraigmrKw S (DArr U) (DArr V)) (b : DArr U) :
    Except PyError (DArr U × DArr U × S × Option (DArr V) × DArr V × S × Nat) := do
  let Mu := b
  let u := applyPrecon kw.M Mu
  let beta ← dsqrt u Mu
  if gt beta (lit 0) then
    let u ← u.idiv beta
    let Mu ← Mu.idiv beta
    let Nv := A.tmul u
    let v := applyPrecon kw.N Nv
    let alpha ← dsqrt v Nv
    if gt alpha (lit 0) then
      let v ← v.idiv alpha
      let Nv ← Nv.idiv alpha
      return (Mu, u, beta, some Nv, v, alpha, 1)
    else return (Mu, u, beta, some Nv, v, alpha, 1)
  else return (Mu, u, beta, none, zeros, lit 0, 0)

/-- The bidiagonalization step, `craigmr.py:136-157`. -/
def craigmrBidiagD (A : DOp U V) (kw : CraigmrKw S (DArr U) (DArr V)) (s : CraigmrLoop S (DArr U) (DArr V)) :
    Except PyError (DArr U × DArr U × Option (DArr V) × DArr V × S × S × Nat) := do
  let Mu := A.mul s.v - smul s.alpha s.Mu
  let u := applyPrecon kw.M Mu
  let beta ← dsqrt u Mu
  if gt beta (lit 0) then
    let u ← u.idiv beta
    let Mu ← Mu.idiv beta
    let Nv0 ← bound "Nv" s.Nv
    let Nv := A.tmul u - smul beta Nv0
    let v := applyPrecon kw.N Nv
    let alpha ← dsqrt v Nv
    if gt alpha (lit 0) then
      let v ← v.idiv alpha
      let Nv ← Nv.idiv alpha
      return (Mu, u, some Nv, v, alpha, beta, s.products + 2)
    else return (Mu, u, some Nv, v, alpha, beta, s.products + 2)
  else return (Mu, u, s.Nv, s.v, s.alpha, beta, s.products + 1)

/-- One iteration, `craigmr.py:128-212`. -/
def craigmrStepD (A : DOp U V) (kw : CraigmrKw S (DArr U) (DArr V)) (lim : Int) (s : CraigmrLoop S (DArr U) (DArr V)) :
    Except PyError (CraigmrLoop S (DArr U) (DArr V)) := do
  let itn := s.itn + 1
  let (Mu, u, Nv, v, alpha, beta, products) ← craigmrBidiagD A kw s
  let (betaHat, alphaHat, c, sn) ← craigmrRot s.c s.s alpha beta
  let rho := sqrt (s.alphaTilde * s.alphaTilde + betaHat * betaHat)
  let cHat ← pydiv s.alphaTilde rho
  let sHat ← pydiv betaHat rho
  let dbar := vdiv (s.d - smul s.theta s.dbar) rho
  let theta := sHat * alphaHat
  let alphaTilde := -cHat * alphaHat
  let zeta := cHat * s.zetaHat
  let zetaHat := sHat * s.zetaHat
  let xNrgNorm2 := s.xNrgNorm2 + zeta * zeta
  let d := vdiv (u - smul betaHat s.d) alphaHat
  let x ← s.x.iadd (smul zeta dbar)
  let k ← pymod itn kw.window
  let dErr := s.dErr.set k zeta
  let trnc := normList dErr
  let xNrgNorm := sqrt xNrgNorm2
  let direct := decide (itn > kw.window) && lt trnc (kw.etol * xNrgNorm)
  return { x := x, Mu := Mu, Nv := Nv, v := v, alpha := alpha, c := c, s := sn, d := d, dbar := dbar, theta := theta,
           alphaTilde := alphaTilde, zetaHat := zetaHat, xNrgNorm2 := xNrgNorm2, dErr := dErr,
           istop := craigmrStop lim itn direct, itn := itn,
           norms := if kw.storeResids then s.norms ++ [xNrgNorm2] else s.norms,
           normalEqns := if kw.storeResids then s.normalEqns ++ [Scalar.abs zeta] else s.normalEqns,
           dirErrors := if itn > kw.window then s.dirErrors ++ [trnc / xNrgNorm] else s.dirErrors,
           iterates := if kw.storeIterates then s.iterates ++ [x] else s.iterates,
           products := products }

theorem craigmrStepD_itn {A : DOp U V} {kw : CraigmrKw S (DArr U) (DArr V)} {lim : Int} {s t : CraigmrLoop S (DArr U) (DArr V)}
    (h : craigmrStepD A kw lim s = .ok t) : t.itn = s.itn + 1 := by
  unfold craigmrStepD at h
  obtain ⟨⟨Mu, u, Nv, v, alpha, beta, products⟩, -, h⟩ := except_bind_ok h
  obtain ⟨⟨betaHat, alphaHat, c, sn⟩, -, h⟩ := except_bind_ok h
  obtain ⟨cHat, -, h⟩ := except_bind_ok h
  obtain ⟨sHat, -, h⟩ := except_bind_ok h
  obtain ⟨x, -, h⟩ := except_bind_ok h
  obtain ⟨k, -, h⟩ := except_bind_ok h
  cases h
  rfl

/-- the loop, `craigmr.py:128-212` -/
def craigmrLoopD (A : DOp U V) (kw : CraigmrKw S (DArr U) (DArr V)) (lim : Int) (s : CraigmrLoop S (DArr U) (DArr V)) :
    Except PyError (CraigmrLoop S (DArr U) (DArr V)) :=
  exceptLoop (craigmrCont lim) (craigmrStepD A kw lim) (fun s => (lim - s.itn).toNat)
    (fun s t h ht h' => by
      have := craigmrStepD_itn ht
      simp only [craigmrCont, Bool.and_eq_true, decide_eq_true_eq] at h h'
      omega) s

/-- `CRAIGMRFramework.solve(b, ...)`, `craigmr.py:51-250`; lines 102-125 make new arrays. -/
def craigmrSolveD (A : DOp U V) (m n : Nat) (b : DArr U) (kw : CraigmrKw S (DArr U) (DArr V)) :
    Except PyError (CraigmrRes S (DArr U)) := do
  let (Mu, u, beta, Nv, v, alpha, products) ← craigmrVectorsD A kw b
  let s ← craigmrStart kw Mu u beta Nv v alpha products
  let s ← craigmrLoopD A kw (craigmrLimit m n kw.itnlim) s
  return craigmrResult s

end Verif.Solver
