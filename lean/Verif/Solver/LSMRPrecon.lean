import Verif.Solver.PreconTwo
import Verif.Solver.LSMRConv

/-!
# LSMR with preconditioners: simulation by the method without, in other inner products

`normx` is the Euclidean norm of `x` also with preconditioners, so that the other method has it as the norm of the iterate.
-/

namespace Verif.Solver
open Scalar Vect

variable {S U' V' U V : Type} [Scalar S] [Vect S U'] [Vect S V'] [Vect S U] [Vect S V]

/-- the keywords without preconditioners -/
def LsmrKw.unprec (kw : LsmrKw S U V) : LsmrKw S U' V' :=
  { itnlim := kw.itnlim, damp := kw.damp, atol := kw.atol, btol := kw.btol, conlim := kw.conlim, etol := kw.etol,
    storeResids := kw.storeResids, storeIterates := kw.storeIterates, window := kw.window }

/-- the loop variables, read through the two maps -/
def lsmrLoopMap (dU : DualMap S U' U) (dV : DualMap S V' V) (s : LsmrLoop S U' V') : LsmrLoop S U V :=
  { x := dV.P s.x, Mu := dU.D s.Mu, Nv := s.Nv.map dV.D, v := dV.P s.v, alpha := s.alpha, beta := s.beta, h := dV.P s.h,
    hbar := dV.P s.hbar, alphabar := s.alphabar, rho := s.rho, rhobar := s.rhobar, cbar := s.cbar, sbar := s.sbar, zeta := s.zeta,
    zetabar := s.zetabar, betadd := s.betadd, betad := s.betad, rhodold := s.rhodold, tautildeold := s.tautildeold,
    thetatilde := s.thetatilde, d := s.d, normA2 := s.normA2, normA := s.normA, maxrbar := s.maxrbar, minrbar := s.minrbar,
    condA := s.condA, normr := s.normr, normar := s.normar, normx := s.normx, xNrgNorm2 := s.xNrgNorm2, dErr := s.dErr,
    istop := s.istop, itn := s.itn, resids := s.resids, normalEqns := s.normalEqns, norms := s.norms, dirErrors := s.dirErrors,
    iterates := s.iterates.map dV.P, products := s.products }

/-- the result, read through the map -/
def lsmrResMap (dV : DualMap S V' V) (r : LsmrRes S V') : LsmrRes S V :=
  { x := dV.P r.x, istop := r.istop, itn := r.itn, normr := r.normr, normar := r.normar, normA := r.normA, condA := r.condA,
    normx := r.normx, selfX := r.selfX.map dV.P, resids := r.resids, normalEqns := r.normalEqns, norms := r.norms,
    dirErrors := r.dirErrors, iterates := r.iterates.map dV.P }

variable {dU : DualMap S U' U} {dV : DualMap S V' V} {A : V → U} {AT : U → V} {A' : V' → U'} {AT' : U' → V'} {kw : LsmrKw S U V}

theorem lsmrStart_dual (beta : S) (Mu : U') (Nv : Option V') (v : V') (alpha : S) (products : Nat) :
    lsmrStart kw beta (dU.D Mu) (Nv.map dV.D) (dV.P v) alpha products =
      lsmrLoopMap dU dV (lsmrStart (kw.unprec : LsmrKw S U' V') beta Mu Nv v alpha products) := by
  have k1 : (kw.unprec : LsmrKw S U' V').storeIterates = kw.storeIterates := rfl
  have k2 : (kw.unprec : LsmrKw S U' V').window = kw.window := rfl
  unfold lsmrStart lsmrLoopMap
  simp only [dV.P_zeros, k1, k2]
  congr 1
  split <;> simp [dV.P_zeros]

theorem lsmrInit_dual (h : PreconSim dU dV A AT kw.M kw.N A' AT') (b : U') :
    lsmrInit AT kw (dU.D b) = (lsmrInit AT' (kw.unprec : LsmrKw S U' V') b).map (lsmrLoopMap dU dV) := by
  have hM' : ∀ u, applyPrecon (kw.unprec : LsmrKw S U' V').M u = u := fun _ => rfl
  have hN' : ∀ u, applyPrecon (kw.unprec : LsmrKw S U' V').N u = u := fun _ => rfl
  unfold lsmrInit
  simp only [h.hM, hM', hN', dU.dot_PD]
  cases pysqrt (dot b b) with
  | error e => rfl
  | ok beta =>
    simp only [ok_bind, ← dU.P_vdiv, ← dU.D_vdiv, h.hAT, h.hN, dV.dot_PD]
    split
    · cases pysqrt (dot (AT' (vdiv b beta)) (AT' (vdiv b beta))) with
      | error e => rfl
      | ok alpha =>
        simp only [ok_bind, ← dV.P_vdiv, ← dV.D_vdiv]
        split
        · exact congrArg Except.ok (lsmrStart_dual beta _ (some _) _ alpha 1)
        · exact congrArg Except.ok (lsmrStart_dual beta _ (some _) _ alpha 1)
    · have := lsmrStart_dual (kw := kw) (dU := dU) (dV := dV) beta b none zeros (lit 0) 0
      rw [dV.P_zeros] at this
      exact congrArg Except.ok this

theorem lsmrBidiag_dual (h : PreconSim dU dV A AT kw.M kw.N A' AT') (s : LsmrLoop S U' V') :
    lsmrBidiag A AT kw (lsmrLoopMap dU dV s) = (lsmrBidiag A' AT' kw.unprec s).map fun p =>
      (dU.D p.1, p.2.1.map dV.D, dV.P p.2.2.1, p.2.2.2) := by
  have hM' : ∀ u, applyPrecon (kw.unprec : LsmrKw S U' V').M u = u := fun _ => rfl
  have hN' : ∀ u, applyPrecon (kw.unprec : LsmrKw S U' V').N u = u := fun _ => rfl
  unfold lsmrBidiag
  simp only [lsmrLoopMap, h.hA, ← dU.D_smul, ← dU.D_sub, h.hM, hM', hN', dU.dot_PD]
  generalize A' s.v - smul s.alpha s.Mu = b
  cases pysqrt (dot b b) with
  | error e => rfl
  | ok beta =>
    simp only [ok_bind, ← dU.P_vdiv, ← dU.D_vdiv, h.hAT]
    split
    · cases s.Nv with
      | none => rfl
      | some Nv =>
        simp only [Option.map_some, bound, ok_bind, ← dV.D_smul, ← dV.D_sub, h.hN, dV.dot_PD]
        generalize AT' (vdiv b beta) - smul beta Nv = a
        cases pysqrt (dot a a) with
        | error e => rfl
        | ok alpha =>
          simp only [ok_bind, ← dV.P_vdiv, ← dV.D_vdiv]
          split <;> rfl
    · rfl

theorem lsmrRot_dual (damp alpha beta : S) (s : LsmrLoop S U' V') :
    lsmrRot damp alpha beta (lsmrLoopMap dU dV s) = lsmrRot damp alpha beta s := rfl

theorem lsmrResid_dual (r : LsmrRot S) (s : LsmrLoop S U' V') : lsmrResid r (lsmrLoopMap dU dV s) = lsmrResid r s := rfl

theorem lsmrVectors_dual (r : LsmrRot S) (s : LsmrLoop S U' V') (v : V') :
    lsmrVectors r (lsmrLoopMap dU dV s) (dV.P v) = (lsmrVectors r s v).map fun p => (dV.P p.1, dV.P p.2.1, dV.P p.2.2) := by
  unfold lsmrVectors
  simp only [lsmrLoopMap, ← dV.P_smul, ← dV.P_sub]
  cases pydiv (r.thetabar * r.rho) (s.rho * s.rhobar) with
  | error e => rfl
  | ok q1 =>
  cases pydiv r.zeta (r.rho * r.rhobar) with
  | error e => rfl
  | ok q2 =>
  cases pydiv r.thetanew r.rho with
  | error e => rfl
  | ok q3 => simp only [ok_bind, except_pure, except_map_ok, ← dV.P_smul, ← dV.P_sub, ← dV.P_add]

theorem lsmrStep_dual (h : PreconSim dU dV A AT kw.M kw.N A' AT') (lim : Int) (bnorm : S) (s : LsmrLoop S U' V') :
    lsmrStep A AT kw lim bnorm (lsmrLoopMap dU dV s) =
      (lsmrStepN (fun x => norm (dV.P x)) A' AT' kw.unprec lim bnorm s).map (lsmrLoopMap dU dV) := by
  have k0 : (kw.unprec : LsmrKw S U' V').damp = kw.damp := rfl
  have k1 : (kw.unprec : LsmrKw S U' V').storeIterates = kw.storeIterates := rfl
  have k2 : (kw.unprec : LsmrKw S U' V').storeResids = kw.storeResids := rfl
  have k3 : (kw.unprec : LsmrKw S U' V').etol = kw.etol := rfl
  have k4 : (kw.unprec : LsmrKw S U' V').window = kw.window := rfl
  have e1 : (lsmrLoopMap dU dV s).itn = s.itn := rfl
  have e2 : (lsmrLoopMap dU dV s).dErr = s.dErr := rfl
  have e3 : (lsmrLoopMap dU dV s).xNrgNorm2 = s.xNrgNorm2 := rfl
  have e4 : (lsmrLoopMap dU dV s).normA2 = s.normA2 := rfl
  have e5 : (lsmrLoopMap dU dV s).maxrbar = s.maxrbar := rfl
  have e6 : (lsmrLoopMap dU dV s).minrbar = s.minrbar := rfl
  have e7 : (lsmrLoopMap dU dV s).rhobar = s.rhobar := rfl
  unfold lsmrStep lsmrStepN
  rw [lsmrBidiag_dual h]
  cases lsmrBidiag A' AT' kw.unprec s with
  | error e => rfl
  | ok p =>
  obtain ⟨Mu, Nv, v, alpha, beta, products⟩ := p
  simp only [ok_bind, except_map_ok, lsmrRot_dual, k0]
  cases lsmrRot kw.damp alpha beta s with
  | error e => rfl
  | ok r =>
  simp only [ok_bind, lsmrVectors_dual]
  cases lsmrVectors r s v with
  | error e => rfl
  | ok p =>
  obtain ⟨hbar, x, hh⟩ := p
  simp only [ok_bind, except_map_ok, e1, e2, e3, e4, e5, e6, e7, k3, k4, lsmrResid_dual]
  cases pymod (s.itn + 1) kw.window with
  | error e => rfl
  | ok k =>
  simp only [ok_bind]
  cases lsmrResid r s with
  | error e => rfl
  | ok p =>
  obtain ⟨betadd, thetatilde, rhodold, betad, tautildeold, d, normr⟩ := p
  simp only [ok_bind]
  generalize (if s.itn + 1 > 1 then pymin s.minrbar s.rhobar else s.minrbar) = minrbar
  cases pydiv (pymax (pymax s.maxrbar s.rhobar) r.rhotemp) (pymin minrbar r.rhotemp) with
  | error e => rfl
  | ok condA =>
  simp only [ok_bind]
  have hq : ∀ direct normA normar normx, lsmrQuantities (kw.unprec : LsmrKw S U' V') direct bnorm normA condA normr normar normx =
      lsmrQuantities kw direct bnorm normA condA normr normar normx := fun _ _ _ _ => rfl
  rw [hq]
  cases lsmrQuantities kw _ bnorm _ condA normr _ _ with
  | error e => rfl
  | ok tests =>
  simp only [ok_bind, except_pure, except_map_ok, lsmrLoopMap, k1, k2]
  congr 2
  split <;> simp

theorem lsmrLoop_dual (h : PreconSim dU dV A AT kw.M kw.N A' AT') (lim : Int) (bnorm : S) (s : LsmrLoop S U' V') :
    lsmrLoop A AT kw lim bnorm (lsmrLoopMap dU dV s) =
      (lsmrLoopN (fun x => norm (dV.P x)) A' AT' kw.unprec lim bnorm s).map (lsmrLoopMap dU dV) :=
  exceptLoop_map (lsmrLoopMap dU dV) (fun _ => rfl) (fun s => lsmrStep_dual h lim bnorm s) s

/-- LSMR with preconditioners is LSMR without, in other inner products. -/
theorem lsmrSolve_dual (h : PreconSim dU dV A AT kw.M kw.N A' AT') (m n : Nat) (b : U') (selfX : Option V') :
    lsmrSolve A AT m n (dU.D b) kw (selfX.map dV.P) =
      (lsmrSolveN (fun x => norm (dV.P x)) A' AT' m n b kw.unprec selfX).map fun p =>
        (lsmrResMap dV p.1, lsmrLoopMap dU dV p.2) := by
  unfold lsmrSolve lsmrSolveN
  rw [lsmrInit_dual h]
  cases lsmrInit AT' (kw.unprec : LsmrKw S U' V') b with
  | error e => rfl
  | ok s =>
  have k : lsmrLimit m n (kw.unprec : LsmrKw S U' V').itnlim = lsmrLimit m n kw.itnlim := rfl
  simp only [ok_bind, except_map_ok, k]
  unfold lsmrMain lsmrMainN
  have e1 : (lsmrLoopMap dU dV s).normar = s.normar := rfl
  rw [e1]
  split
  · rfl
  · have e2 : lsmrFirst kw (lsmrLoopMap dU dV s) = lsmrLoopMap dU dV (lsmrFirst kw.unprec s) := by
      have k2 : (kw.unprec : LsmrKw S U' V').storeResids = kw.storeResids := rfl
      unfold lsmrFirst
      rw [k2]
      split <;> rfl
    have e3 : (lsmrLoopMap dU dV s).beta = s.beta := rfl
    rw [e2, e3, lsmrLoop_dual h]
    cases lsmrLoopN (fun x => norm (dV.P x)) A' AT' kw.unprec (lsmrLimit m n kw.itnlim) s.beta (lsmrFirst kw.unprec s) with
    | error e => rfl
    | ok t => rfl

end Verif.Solver
