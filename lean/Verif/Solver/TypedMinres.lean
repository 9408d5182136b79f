import Verif.Solver.TypedLsSpec

/-!
# Dtypes of arrays in `minres/minres.py`, for integer and real data

As in `Verif.Solver.TypedLs`.  Complex data are not modelled: the code compares `dot(b, y)` with zero, and NumPy compares complex numbers
lexicographically.  The arrays `r1` and `r2` start with the dtype of the right-hand side, `x`, `w` and `w2` with the common type of operator
and right-hand side (`minres.py:135-136, 206-207`); only `x` is updated in place (line 297).  `y -= shift*v` (line 240) has an array of
floats as its target.
-/

namespace Verif.Solver
open Scalar Vect Linop

variable {S V : Type} [Scalar S] [Vect S V]

/-- a linear operator with dtype `k`: the result is converted to the common type of operator and argument, `linop.py:358-360` -/
def dfun (k : DKind) (f : V → V) (u : DArr V) : DArr V := ⟨k.join u.kind, f u.val⟩

/-- the keywords, for a preconditioner with dtype `kM` -/
def MinresKw.typed (kM : DKind) (kw : MinresKw S V) : MinresKw S (DArr V) :=
  { precon := dprecon kM kw.precon, shift := kw.shift, check := kw.check, symOK := kw.symOK, preconSymOK := kw.preconSymOK,
    itnlim := kw.itnlim, rtol := kw.rtol, etol := kw.etol, storeIterates := kw.storeIterates, window := kw.window }

/-- Values of the variables before the loop, `minres.py:132-142, 153-154, 199-208`; `kx` is `np.result_type(A.dtype, b.dtype)`. -/
def minresInitD (kx : DKind) (kw : MinresKw S (DArr V)) (self : MinresObj S (DArr V)) (b : DArr V) : MinresLoop S (DArr V) :=
  let o : DArr V := ⟨kx, zeros⟩
  { minresInit kw self b with x := o, w := o, w2 := o, iterates := if kw.storeIterates then [o] else [] }

/-- One iteration, `minres.py:221-383`. -/
def minresStepD (op : DArr V → DArr V) (eps : S) (kw : MinresKw S (DArr V)) (itnlim : Nat) (beta1 : S) (s : MinresLoop S (DArr V)) :
    Except PyError (MinresLoop S (DArr V)) :=
  let itn := s.itn + 1
  let (v, alfa, r2, y, bb) := minresLanczos op kw itn s
  let calls := s.calls ++ [v]
  if lt bb (lit 0) then .ok { s with itn := itn, istop := 6, broke := true, calls := calls }
  else do
    let oldb := s.beta
    let beta := sqrt bb
    let tnorm2 := s.tnorm2 + alfa * alfa + oldb * oldb + beta * beta
    let istop := minresBeta2 eps beta1 beta itn s.istop
    let gmax := if itn = 1 then Scalar.abs alfa else s.gmax
    let gmin := if itn = 1 then Scalar.abs alfa else s.gmin
    let delta := s.cs * s.dbar + s.sn * alfa
    let gbar := s.sn * s.dbar - s.cs * alfa
    let epsln := s.sn * beta
    let dbar := -s.cs * beta
    let root := normof2 gbar dbar
    let gamma := pymax (normof2 gbar beta) eps
    let cs := gbar / gamma
    let sn := beta / gamma
    let phi := cs * s.phibar
    let phibar := sn * s.phibar
    let w := smul (lit 1 / gamma) (v - smul s.epsln s.w2 - smul delta s.w)
    let x ← s.x.iadd (smul phi w)
    let xNrgNorm2 := s.xNrgNorm2 + phi * phi
    let k ← pymod itn kw.window
    let dErr := s.dErr.set k phi
    let trnc := normList dErr
    let xNrgNorm := sqrt xNrgNorm2
    let istop := minresDirErr kw.etol trnc xNrgNorm kw.window itn istop
    let gmax := pymax gmax gamma
    let gmin := pymin gmin gamma
    let z := s.rhs1 / gamma
    let ynorm2 := z * z + s.ynorm2
    let Anorm := sqrt tnorm2
    let ynorm := sqrt ynorm2
    let test1 := phibar / (Anorm * ynorm)
    let test2 := root / Anorm
    let Acond := gmax / gmin
    let istop := minresTests eps kw.rtol beta1 itnlim itn test1 test2 Acond (Anorm * ynorm * eps) istop
    return { x := x, y := y, r1 := s.r2, r2 := r2, w := w, w2 := s.w, oldb := oldb, beta := beta, dbar := dbar, epsln := epsln,
             phibar := phibar, rhs1 := s.rhs2 - delta * z, rhs2 := -epsln * z, tnorm2 := tnorm2, ynorm2 := ynorm2, cs := cs,
             sn := sn, gmax := gmax, gmin := gmin, xNrgNorm2 := xNrgNorm2, dErr := dErr, Anorm := Anorm, Acond := Acond,
             rnorm := phibar, ynorm := ynorm, Arnorm := s.phibar * root, istop := istop, itn := itn,
             broke := decide (istop > 0), residHistory := s.residHistory ++ [phibar],
             dirErrors := if itn > kw.window then s.dirErrors ++ [trnc / xNrgNorm] else s.dirErrors,
             iterates := if kw.storeIterates then s.iterates ++ [x] else s.iterates, calls := calls }

theorem minresStepD_itn {op : DArr V → DArr V} {eps : S} {kw : MinresKw S (DArr V)} {itnlim : Nat} {beta1 : S}
    {s t : MinresLoop S (DArr V)} (h : minresStepD op eps kw itnlim beta1 s = .ok t) : t.itn = s.itn + 1 := by
  unfold minresStepD at h
  simp only at h
  split at h
  · cases h
    rfl
  · obtain ⟨x, -, h⟩ := except_bind_ok h
    obtain ⟨k, -, h⟩ := except_bind_ok h
    cases h
    rfl

/-- the loop, `minres.py:219-383` -/
def minresLoopD (op : DArr V → DArr V) (eps : S) (kw : MinresKw S (DArr V)) (itnlim : Nat) (beta1 : S) (s : MinresLoop S (DArr V)) :
    Except PyError (MinresLoop S (DArr V)) :=
  exceptLoop (minresCont itnlim) (minresStepD op eps kw itnlim beta1) (fun s => itnlim - s.itn)
    (fun s t h ht _ => by
      simp only [minresCont, Bool.and_eq_true, decide_eq_true_eq] at h
      have := minresStepD_itn ht
      omega) s

/-- `Minres.solve(b, **kwargs)`, `minres.py:115-410`; `kA` is the dtype of the operator -/
def minresSolveD (kA : DKind) (op : V → V) (eps : S) (n : Nat) (self : MinresObj S (DArr V)) (b : DArr V) (kw : MinresKw S (DArr V)) :
    Except PyError (MinresRes S (DArr V)) := do
  let beta1 := (minresStart kw b).2
  let s := minresInitD (kA.join b.kind) kw self b
  if (minresEntry kw b).2 then return minresResult beta1 s
  else
    let s ← minresLoopD (dfun kA op) eps kw (kw.itnlim.getD (5 * n)) beta1 s
    return minresResult beta1 s

end Verif.Solver
