import Verif.Solver.LSMRProps
import Verif.Solver.Exact

/-!
# LSMR with any norm of the iterate

The estimates of LSMR are norms in the inner products of its preconditioners, but `normx` (`lsmr.py:417`) is the Euclidean norm of
`x` in any case.  The programs below are those of `Verif.Solver.LSMR` with the norm as a parameter (`lsmrSolveN_norm`); the theory is
proved for them, and used for LSMR with preconditioners.
-/

namespace Verif.Solver
open Scalar Vect

variable {S U V : Type} [Scalar S] [Vect S U] [Vect S V]

/-- `lsmrStep` (`lsmr.py:304-475`) with `nrm x` for `norm x` -/
def lsmrStepN (nrm : V → S) (A : V → U) (AT : U → V) (kw : LsmrKw S U V) (lim : Int) (normb : S) (s : LsmrLoop S U V) :
    Except PyError (LsmrLoop S U V) := do
  let itn := s.itn + 1
  let (Mu, Nv, v, alpha, beta, products) ← lsmrBidiag A AT kw s
  let r ← lsmrRot kw.damp alpha beta s
  let (hbar, x, h) ← lsmrVectors r s v
  let xNrgNorm2 := s.xNrgNorm2 + r.zeta * r.zeta
  let k ← pymod itn kw.window
  let dErr := s.dErr.set k r.zeta
  let trnc := normList dErr
  let xNrgNorm := sqrt xNrgNorm2
  let direct := decide (itn > kw.window) && lt trnc (kw.etol * xNrgNorm)
  let (betadd, thetatilde, rhodold, betad, tautildeold, d, normr) ← lsmrResid r s
  let normA2 := s.normA2 + beta * beta
  let normA := sqrt normA2
  let maxrbar := pymax s.maxrbar s.rhobar
  let minrbar := if itn > 1 then pymin s.minrbar s.rhobar else s.minrbar
  let condA ← pydiv (pymax maxrbar r.rhotemp) (pymin minrbar r.rhotemp)
  let normar := Scalar.abs r.zetabar
  let normx := nrm x
  let tests ← lsmrQuantities kw direct normb normA condA normr normar normx
  return { x := x, Mu := Mu, Nv := Nv, v := v, alpha := alpha, beta := beta, h := h, hbar := hbar, alphabar := r.alphabar,
           rho := r.rho, rhobar := r.rhobar, cbar := r.cbar, sbar := r.sbar, zeta := r.zeta, zetabar := r.zetabar,
           betadd := betadd, betad := betad, rhodold := rhodold, tautildeold := tautildeold, thetatilde := thetatilde,
           d := d, normA2 := normA2 + alpha * alpha, normA := normA, maxrbar := maxrbar, minrbar := minrbar,
           condA := condA, normr := normr, normar := normar, normx := normx, xNrgNorm2 := xNrgNorm2, dErr := dErr,
           istop := lsmrStop kw lim itn tests, itn := itn,
           resids := if kw.storeResids then s.resids ++ [normr] else s.resids,
           normalEqns := if kw.storeResids then s.normalEqns ++ [normar] else s.normalEqns,
           norms := if kw.storeResids then s.norms ++ [xNrgNorm2] else s.norms,
           dirErrors := if itn > kw.window then s.dirErrors ++ [trnc / xNrgNorm] else s.dirErrors,
           iterates := if kw.storeIterates then s.iterates ++ [x] else s.iterates,
           products := products }

theorem lsmrStepN_norm (A : V → U) (AT : U → V) (kw : LsmrKw S U V) (lim : Int) (normb : S) (s : LsmrLoop S U V) :
    lsmrStepN Vect.norm A AT kw lim normb s = lsmrStep A AT kw lim normb s := rfl

/-- what one iteration does to the lists -/
structure LsmrStepHist (kw : LsmrKw S U V) (s t : LsmrLoop S U V) : Prop where
  itn : t.itn = s.itn + 1
  resids : t.resids = if kw.storeResids then s.resids ++ [t.normr] else s.resids
  normalEqns : t.normalEqns = if kw.storeResids then s.normalEqns ++ [t.normar] else s.normalEqns
  iterates : t.iterates = if kw.storeIterates then s.iterates ++ [t.x] else s.iterates

theorem lsmrStepN_hist {nrm : V → S} {A : V → U} {AT : U → V} {kw : LsmrKw S U V} {lim : Int} {normb : S} {s t : LsmrLoop S U V}
    (h : lsmrStepN nrm A AT kw lim normb s = .ok t) : LsmrStepHist kw s t := by
  unfold lsmrStepN at h
  obtain ⟨⟨Mu, Nv, v, alpha, beta, products⟩, -, h⟩ := except_bind_ok h
  obtain ⟨r, -, h⟩ := except_bind_ok h
  obtain ⟨⟨hbar, x, h'⟩, -, h⟩ := except_bind_ok h
  obtain ⟨k, -, h⟩ := except_bind_ok h
  obtain ⟨⟨betadd, thetatilde, rhodold, betad, tautildeold, d, normr⟩, -, h⟩ := except_bind_ok h
  obtain ⟨condA, -, h⟩ := except_bind_ok h
  obtain ⟨tests, -, h⟩ := except_bind_ok h
  cases h
  exact ⟨rfl, rfl, rfl, rfl⟩

/-- `lsmrLoop` with `nrm x` for `norm x` -/
def lsmrLoopN (nrm : V → S) (A : V → U) (AT : U → V) (kw : LsmrKw S U V) (lim : Int) (normb : S) (s : LsmrLoop S U V) :
    Except PyError (LsmrLoop S U V) :=
  exceptLoop (lsmrCont lim) (lsmrStepN nrm A AT kw lim normb) (fun s => (lim - s.itn).toNat)
    (fun s t h ht h' => by
      have := (lsmrStepN_hist ht).itn
      simp only [lsmrCont, Bool.and_eq_true, decide_eq_true_eq] at h h'
      omega) s

/-- `lsmrMain` with `nrm x` for `norm x` -/
def lsmrMainN (nrm : V → S) (A : V → U) (AT : U → V) (kw : LsmrKw S U V) (lim : Int) (selfX : Option V) (s : LsmrLoop S U V) :
    Except PyError (LsmrRes S V × LsmrLoop S U V) :=
  if feq s.normar (lit 0) then .ok (lsmrResult selfX s, s)
  else do
    let t ← lsmrLoopN nrm A AT kw lim s.beta (lsmrFirst kw s)
    return (lsmrResult (some t.x) t, t)

/-- `lsmrSolve` with `nrm x` for `norm x` -/
def lsmrSolveN (nrm : V → S) (A : V → U) (AT : U → V) (m n : Nat) (b : U) (kw : LsmrKw S U V) (selfX : Option V) :
    Except PyError (LsmrRes S V × LsmrLoop S U V) := do
  let s ← lsmrInit AT kw b
  lsmrMainN nrm A AT kw (lsmrLimit m n kw.itnlim) selfX s

theorem lsmrSolveN_norm (A : V → U) (AT : U → V) (m n : Nat) (b : U) (kw : LsmrKw S U V) (selfX : Option V) :
    lsmrSolveN Vect.norm A AT m n b kw selfX = lsmrSolve A AT m n b kw selfX := rfl

/-- `nrm` computes the function `ν`, which is not negative -/
structure NormOf {E : Type} [NormedAddCommGroup E] [InnerProductSpace ℝ E] (nrm : Vec E → Fl) (ν : E → ℝ) : Prop where
  fin : ∀ x, nrm (.fin x) = .fin (ν x)
  nonneg : ∀ x, 0 ≤ ν x
  zero : ν 0 = 0

theorem NormOf.norm {E : Type} [NormedAddCommGroup E] [InnerProductSpace ℝ E] :
    NormOf (E := E) (Vect.norm : Vec E → Fl) (fun x => ‖x‖) := ⟨fun _ => rfl, norm_nonneg, norm_zero⟩

end Verif.Solver
