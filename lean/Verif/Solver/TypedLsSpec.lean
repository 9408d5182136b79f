import Verif.Solver.TypedLs

/-!
# Specification for C73, least-squares solvers

When the dtypes can matter, and results in which every array is one of floats.
-/

namespace Verif.Solver
open Scalar Vect Linop

variable {S U V : Type} [Scalar S] [Vect S U] [Vect S V]

/-- an array of floats -/
def DArr.real (v : V) : DArr V := ⟨.real, v⟩

/-- The right-hand side, or the preconditioner `M`, which is applied to it, is complex. -/
def ComplexRhs (k kM : DKind) (M : Option (U → U)) : Prop := k = .complex ∨ (M ≠ none ∧ kM = .complex)

/-- The right-hand side is an array of integers, or the operator or the preconditioner `N` is complex. -/
def Narrow (A : DOp U V) (k kN : DKind) (N : Option (V → V)) : Prop := k = .int ∨ A.dtype = .complex ∨ (N ≠ none ∧ kN = .complex)

/-- The number `beta = sqrt(b'Mb)` can be computed and is positive (in exact arithmetic: `b ≠ 0`). -/
def BetaPos (M : Option (U → U)) (b : U) : Prop := ∃ beta : S, pysqrt (dot (applyPrecon M b) b) = .ok beta ∧ gt beta (lit 0) = true

/-- the results with arrays of floats -/
def LsqrRes.typed (res : LsqrRes S V) : LsqrRes S (DArr V) :=
  { x := DArr.real res.x, istop := res.istop, itn := res.itn, nMatvec := res.nMatvec, optimal := res.optimal, status := res.status,
    r1norm := res.r1norm, r2norm := res.r2norm, Anorm := res.Anorm, Acond := res.Acond, Arnorm := res.Arnorm, xnorm := res.xnorm,
    resids := res.resids, normalEqns := res.normalEqns, dirErrors := res.dirErrors, iterates := res.iterates.map DArr.real,
    ctol := res.ctol }

/-- the results with arrays of floats -/
def LsmrRes.typed (res : LsmrRes S V) : LsmrRes S (DArr V) :=
  { x := DArr.real res.x, istop := res.istop, itn := res.itn, normr := res.normr, normar := res.normar, normA := res.normA,
    condA := res.condA, normx := res.normx, selfX := res.selfX.map DArr.real, resids := res.resids, normalEqns := res.normalEqns,
    norms := res.norms, dirErrors := res.dirErrors, iterates := res.iterates.map DArr.real }

/-- the results with arrays of floats -/
def CraigRes.typed (res : CraigRes S U V) : CraigRes S (DArr U) (DArr V) :=
  { x := DArr.real res.x, r := DArr.real res.r, istop := res.istop, itn := res.itn, nMatvec := res.nMatvec, optimal := res.optimal,
    status := res.status, r1norm := res.r1norm, r2norm := res.r2norm, Arnorm := res.Arnorm, xnorm := res.xnorm,
    resids := res.resids, norms := res.norms, normalEqns := res.normalEqns, dirErrors := res.dirErrors,
    iteratesP := res.iteratesP.map DArr.real, iteratesD := res.iteratesD.map DArr.real }

/-- the results with arrays of floats -/
def CraigmrRes.typed (res : CraigmrRes S U) : CraigmrRes S (DArr U) :=
  { x := DArr.real res.x, istop := res.istop, itn := res.itn, nMatvec := res.nMatvec, optimal := res.optimal, status := res.status,
    norms := res.norms, normalEqns := res.normalEqns, dirErrors := res.dirErrors, iterates := res.iterates.map DArr.real }

end Verif.Solver
