import Verif.Solver.PreconTwo
import Verif.Solver.Craig
import Verif.Solver.CraigMR
import Verif.Solver.LSQRExact

/-!
# CRAIG and CRAIG-MR with preconditioners: simulation by the methods without, in other inner products
-/

namespace Verif.Solver
open Scalar Vect

variable {S U' V' U V : Type} [Scalar S] [Vect S U'] [Vect S V'] [Vect S U] [Vect S V]

/-! ### CRAIG -/

/-- the keywords without preconditioners -/
def CraigKw.unprec (kw : CraigKw S U V) : CraigKw S U' V' :=
  { itnlim := kw.itnlim, damp := kw.damp, atol := kw.atol, btol := kw.btol, conlim := kw.conlim, etol := kw.etol,
    wantvar := kw.wantvar, storeResids := kw.storeResids, storeIterates := kw.storeIterates, window := kw.window }

/-- the loop variables, read through the two maps -/
def craigLoopMap (dU : DualMap S U' U) (dV : DualMap S V' V) (s : CraigLoop S U' V') : CraigLoop S U V :=
  { x := dV.P s.x, r := dU.P s.r, Mu := dU.D s.Mu, Nv := dV.D s.Nv, v := dV.P s.v, alpha := s.alpha, beta := s.beta, c := s.c,
    s := s.s, d := dU.P s.d, tau := s.tau, zeta := s.zeta, w := dV.P s.w, wbar := dV.P s.wbar, rnorm := s.rnorm,
    xnorm := s.xnorm, r1norm := s.r1norm, rNrgNorm2 := s.rNrgNorm2, xNrgNorm2 := s.xNrgNorm2, dErr := s.dErr,
    Arnorm := s.Arnorm, istop := s.istop, itn := s.itn, resids := s.resids, norms := s.norms, normalEqns := s.normalEqns,
    dirErrors := s.dirErrors, iteratesP := s.iteratesP.map dV.P, iteratesD := s.iteratesD.map dU.P, products := s.products }

/-- the result, read through the two maps -/
def craigResMap (dU : DualMap S U' U) (dV : DualMap S V' V) (r : CraigRes S U' V') : CraigRes S U V :=
  { x := dV.P r.x, r := dU.P r.r, istop := r.istop, itn := r.itn, nMatvec := r.nMatvec, optimal := r.optimal, status := r.status,
    r1norm := r.r1norm, r2norm := r.r2norm, Arnorm := r.Arnorm, xnorm := r.xnorm, resids := r.resids, norms := r.norms,
    normalEqns := r.normalEqns, dirErrors := r.dirErrors, iteratesP := r.iteratesP.map dV.P, iteratesD := r.iteratesD.map dU.P }

section
variable {dU : DualMap S U' U} {dV : DualMap S V' V} {A : V → U} {AT : U → V} {A' : V' → U'} {AT' : U' → V'} {kw : CraigKw S U V}

theorem craigVectors_dual (h : PreconSim dU dV A AT kw.M kw.N A' AT') (b : U') :
    craigVectors AT kw (dU.D b) = (craigVectors AT' (kw.unprec : CraigKw S U' V') b).map fun p =>
      (dU.D p.1, dU.P p.2.1, p.2.2.1, p.2.2.2.1.map (fun q => (dV.P q.1, dV.D q.2)), p.2.2.2.2.1, p.2.2.2.2.2) := by
  have hM' : ∀ u, applyPrecon (kw.unprec : CraigKw S U' V').M u = u := fun _ => rfl
  have hN' : ∀ u, applyPrecon (kw.unprec : CraigKw S U' V').N u = u := fun _ => rfl
  unfold craigVectors
  simp only [h.hM, hM', hN', dU.dot_PD]
  cases pysqrt (dot b b) with
  | error e => rfl
  | ok beta =>
    simp only [ok_bind, ← dU.P_vdiv, ← dU.D_vdiv, h.hAT, h.hN, dV.dot_PD]
    split
    · cases pysqrt (dot (AT' (vdiv b beta)) (AT' (vdiv b beta))) with
      | error e => rfl
      | ok alpha =>
        simp only [ok_bind, ← dV.P_vdiv, ← dV.D_vdiv]
        split <;> rfl
    · rfl

theorem craigStart_dual (Mu u : U') (beta : S) (vs : Option (V' × V')) (alpha : S) (products : Nat) :
    craigStart kw (dU.D Mu) (dU.P u) beta (vs.map (fun q => (dV.P q.1, dV.D q.2))) alpha products =
      (craigStart (kw.unprec : CraigKw S U' V') Mu u beta vs alpha products).map (craigLoopMap dU dV) := by
  unfold craigStart
  dsimp only
  cases pydiv beta (normof2 alpha (lit 1)) with
  | error e => rfl
  | ok tau =>
  cases pydiv alpha (normof2 alpha (lit 1)) with
  | error e => rfl
  | ok c =>
  cases pydiv (lit 1) (normof2 alpha (lit 1)) with
  | error e => rfl
  | ok sn =>
  cases vs with
  | none => rfl
  | some q =>
    simp only [ok_bind, Option.map_some, bound, except_pure, except_map_ok, ← dU.P_vdiv, ← dU.P_smul, ← dV.P_smul, craigLoopMap]
    have k1 : (kw.unprec : CraigKw S U' V').storeIterates = kw.storeIterates := rfl
    rw [k1]
    congr 2 <;> split <;> rfl

theorem craigBidiag_dual (h : PreconSim dU dV A AT kw.M kw.N A' AT') (s : CraigLoop S U' V') :
    craigBidiag A AT kw (craigLoopMap dU dV s) = (craigBidiag A' AT' kw.unprec s).map fun p =>
      (dU.D p.1, dU.P p.2.1, dV.D p.2.2.1, dV.P p.2.2.2.1, p.2.2.2.2) := by
  have hM' : ∀ u, applyPrecon (kw.unprec : CraigKw S U' V').M u = u := fun _ => rfl
  have hN' : ∀ u, applyPrecon (kw.unprec : CraigKw S U' V').N u = u := fun _ => rfl
  unfold craigBidiag
  simp only [craigLoopMap, h.hA, ← dU.D_smul, ← dU.D_sub, h.hM, hM', hN', dU.dot_PD]
  generalize A' s.v - smul s.alpha s.Mu = b
  cases pysqrt (dot b b) with
  | error e => rfl
  | ok beta =>
    simp only [ok_bind, ← dU.P_vdiv, ← dU.D_vdiv, h.hAT, ← dV.D_smul, ← dV.D_sub, h.hN, dV.dot_PD]
    split
    · generalize AT' (vdiv b beta) - smul beta s.Nv = a
      cases pysqrt (dot a a) with
      | error e => rfl
      | ok alpha =>
        simp only [ok_bind, ← dV.P_vdiv, ← dV.D_vdiv]
        split <;> rfl
    · rfl

theorem craigStep_dual (h : PreconSim dU dV A AT kw.M kw.N A' AT') (lim : Int) (bnorm : S) (s : CraigLoop S U' V') :
    craigStep A AT kw lim bnorm (craigLoopMap dU dV s) = (craigStep A' AT' kw.unprec lim bnorm s).map (craigLoopMap dU dV) := by
  unfold craigStep
  rw [craigBidiag_dual h]
  cases craigBidiag A' AT' kw.unprec s with
  | error e => rfl
  | ok p =>
  obtain ⟨Mu, u, Nv, v, alpha, beta, products⟩ := p
  have e1 : (craigLoopMap dU dV s).c = s.c := rfl
  have e2 : (craigLoopMap dU dV s).s = s.s := rfl
  simp only [ok_bind, except_map_ok, e1, e2]
  cases craigRot s.c s.s alpha beta with
  | error e => rfl
  | ok p =>
  obtain ⟨betaHat, alphaHat, s2, c, sn⟩ := p
  have e3 : (craigLoopMap dU dV s).tau = s.tau := rfl
  have e4 : (craigLoopMap dU dV s).zeta = s.zeta := rfl
  have e5 : (craigLoopMap dU dV s).itn = s.itn := rfl
  have e6 : (kw.unprec : CraigKw S U' V').window = kw.window := rfl
  have e7 : (craigLoopMap dU dV s).rnorm = s.rnorm := rfl
  simp only [ok_bind, e3, e4, e5, e6, e7]
  cases pydiv (-betaHat * s.tau) alphaHat with
  | error e => rfl
  | ok tau =>
  cases pydiv (-betaHat * s.zeta) alphaHat with
  | error e => rfl
  | ok zeta =>
  cases pymod (s.itn + 1) kw.window with
  | error e => rfl
  | ok k =>
  simp only [ok_bind]
  cases pydiv (sqrt (s.rnorm + tau * tau)) bnorm with
  | error e => rfl
  | ok test1 =>
  have k1 : (kw.unprec : CraigKw S U' V').storeIterates = kw.storeIterates := rfl
  have k2 : (kw.unprec : CraigKw S U' V').storeResids = kw.storeResids := rfl
  have k3 : (kw.unprec : CraigKw S U' V').etol = kw.etol := rfl
  simp only [ok_bind, except_pure, except_map_ok, craigLoopMap, ← dU.P_smul, ← dU.P_sub, ← dU.P_add, ← dU.P_vdiv, ← dV.P_smul,
    ← dV.P_add, k1, k2, k3]
  congr 2 <;> (try split) <;> simp <;> rfl

theorem craigLoop_dual (h : PreconSim dU dV A AT kw.M kw.N A' AT') (lim : Int) (bnorm : S) (s : CraigLoop S U' V') :
    craigLoop A AT kw lim bnorm (craigLoopMap dU dV s) = (craigLoop A' AT' kw.unprec lim bnorm s).map (craigLoopMap dU dV) := by
  unfold craigLoop
  exact exceptLoop_map (craigLoopMap dU dV) (fun _ => rfl) (craigStep_dual h lim bnorm) s

/-- **Simulation.** `solve` with preconditioners is `solve` without, read through the two maps. -/
theorem craigSolve_dual (h : PreconSim dU dV A AT kw.M kw.N A' AT') (n : Nat) (b : U') :
    craigSolve A AT n (dU.D b) kw =
      (craigSolve A' AT' n b kw.unprec).map fun p => (craigResMap dU dV p.1, craigLoopMap dU dV p.2) := by
  unfold craigSolve
  have k1 : (kw.unprec : CraigKw S U' V').wantvar = kw.wantvar := rfl
  have k2 : (kw.unprec : CraigKw S U' V').itnlim = kw.itnlim := rfl
  rw [k1, k2, craigVectors_dual h]
  cases lsqrVar kw.wantvar with
  | error e => rfl
  | ok _ =>
  cases craigVectors AT' (kw.unprec : CraigKw S U' V') b with
  | error e => rfl
  | ok p =>
  obtain ⟨Mu, u, beta, vs, alpha, products⟩ := p
  simp only [ok_bind, except_map_ok, craigStart_dual]
  cases craigStart (kw.unprec : CraigKw S U' V') Mu u beta vs alpha products with
  | error e => rfl
  | ok s =>
  have hm : craigMain A AT kw (craigLimit n kw.itnlim) (craigLoopMap dU dV s) =
      (craigMain A' AT' kw.unprec (craigLimit n kw.itnlim) s).map (craigLoopMap dU dV) := by
    unfold craigMain
    have e1 : (craigLoopMap dU dV s).beta = s.beta := rfl
    rw [e1]
    split
    · rfl
    · exact craigLoop_dual h _ _ s
  simp only [ok_bind, except_map_ok, hm]
  cases craigMain A' AT' kw.unprec (craigLimit n kw.itnlim) s with
  | error e => rfl
  | ok t =>
  simp only [ok_bind, except_map_ok]
  unfold craigResult
  have e1 : (craigLoopMap dU dV t).Arnorm = t.Arnorm := rfl
  rw [e1]
  cases t.Arnorm <;> rfl

end

/-! ### CRAIG-MR -/

/-- the keywords without preconditioners -/
def CraigmrKw.unprec (kw : CraigmrKw S U V) : CraigmrKw S U' V' :=
  { itnlim := kw.itnlim, damp := kw.damp, atol := kw.atol, btol := kw.btol, conlim := kw.conlim, etol := kw.etol,
    storeResids := kw.storeResids, storeIterates := kw.storeIterates, window := kw.window }

/-- the loop variables, read through the two maps -/
def craigmrLoopMap (dU : DualMap S U' U) (dV : DualMap S V' V) (s : CraigmrLoop S U' V') : CraigmrLoop S U V :=
  { x := dU.P s.x, Mu := dU.D s.Mu, Nv := s.Nv.map dV.D, v := dV.P s.v, alpha := s.alpha, c := s.c, s := s.s, d := dU.P s.d,
    dbar := dU.P s.dbar, theta := s.theta, alphaTilde := s.alphaTilde, zetaHat := s.zetaHat, xNrgNorm2 := s.xNrgNorm2,
    dErr := s.dErr, istop := s.istop, itn := s.itn, norms := s.norms, normalEqns := s.normalEqns, dirErrors := s.dirErrors,
    iterates := s.iterates.map dU.P, products := s.products }

/-- the result, read through the map -/
def craigmrResMap (dU : DualMap S U' U) (r : CraigmrRes S U') : CraigmrRes S U :=
  { x := dU.P r.x, istop := r.istop, itn := r.itn, nMatvec := r.nMatvec, optimal := r.optimal, status := r.status, norms := r.norms,
    normalEqns := r.normalEqns, dirErrors := r.dirErrors, iterates := r.iterates.map dU.P }

section
variable {dU : DualMap S U' U} {dV : DualMap S V' V} {A : V → U} {AT : U → V} {A' : V' → U'} {AT' : U' → V'} {kw : CraigmrKw S U V}

theorem craigmrVectors_dual (h : PreconSim dU dV A AT kw.M kw.N A' AT') (b : U') :
    craigmrVectors AT kw (dU.D b) = (craigmrVectors AT' (kw.unprec : CraigmrKw S U' V') b).map fun p =>
      (dU.D p.1, dU.P p.2.1, p.2.2.1, p.2.2.2.1.map dV.D, dV.P p.2.2.2.2.1, p.2.2.2.2.2) := by
  have hM' : ∀ u, applyPrecon (kw.unprec : CraigmrKw S U' V').M u = u := fun _ => rfl
  have hN' : ∀ u, applyPrecon (kw.unprec : CraigmrKw S U' V').N u = u := fun _ => rfl
  unfold craigmrVectors
  simp only [h.hM, hM', hN', dU.dot_PD]
  cases pysqrt (dot b b) with
  | error e => rfl
  | ok beta =>
    simp only [ok_bind, ← dU.P_vdiv, ← dU.D_vdiv, h.hAT, h.hN, dV.dot_PD]
    split
    · cases pysqrt (dot (AT' (vdiv b beta)) (AT' (vdiv b beta))) with
      | error e => rfl
      | ok alpha =>
        simp only [ok_bind, ← dV.P_vdiv, ← dV.D_vdiv]
        split <;> rfl
    · rw [← dV.P_zeros]; rfl

theorem craigmrStart_dual (Mu u : U') (beta : S) (Nv : Option V') (v : V') (alpha : S) (products : Nat) :
    craigmrStart kw (dU.D Mu) (dU.P u) beta (Nv.map dV.D) (dV.P v) alpha products =
      (craigmrStart (kw.unprec : CraigmrKw S U' V') Mu u beta Nv v alpha products).map (craigmrLoopMap dU dV) := by
  unfold craigmrStart
  dsimp only
  cases pydiv alpha (sqrt (alpha * alpha + lit 1)) with
  | error e => rfl
  | ok c =>
  cases pydiv (lit 1) (sqrt (alpha * alpha + lit 1)) with
  | error e => rfl
  | ok sn =>
    simp only [ok_bind, except_pure, except_map_ok, ← dU.P_vdiv, ← dU.P_zeros, craigmrLoopMap]
    have k1 : (kw.unprec : CraigmrKw S U' V').storeIterates = kw.storeIterates := rfl
    rw [k1]
    congr 2 <;> split <;> rfl

theorem craigmrBidiag_dual (h : PreconSim dU dV A AT kw.M kw.N A' AT') (s : CraigmrLoop S U' V') :
    craigmrBidiag A AT kw (craigmrLoopMap dU dV s) = (craigmrBidiag A' AT' kw.unprec s).map fun p =>
      (dU.D p.1, dU.P p.2.1, p.2.2.1.map dV.D, dV.P p.2.2.2.1, p.2.2.2.2) := by
  have hM' : ∀ u, applyPrecon (kw.unprec : CraigmrKw S U' V').M u = u := fun _ => rfl
  have hN' : ∀ u, applyPrecon (kw.unprec : CraigmrKw S U' V').N u = u := fun _ => rfl
  unfold craigmrBidiag
  simp only [craigmrLoopMap, h.hA, ← dU.D_smul, ← dU.D_sub, h.hM, hM', hN', dU.dot_PD]
  generalize A' s.v - smul s.alpha s.Mu = b
  cases pysqrt (dot b b) with
  | error e => rfl
  | ok beta =>
    simp only [ok_bind, ← dU.P_vdiv, ← dU.D_vdiv, h.hAT]
    split
    · cases s.Nv with
      | none => rfl
      | some Nv =>
      simp only [Option.map_some, bound, ok_bind, ← dV.D_smul, ← dV.D_sub, h.hN, dV.dot_PD]
      generalize AT' (vdiv b beta) - smul beta Nv = a
      cases pysqrt (dot a a) with
      | error e => rfl
      | ok alpha =>
        simp only [ok_bind, ← dV.P_vdiv, ← dV.D_vdiv]
        split <;> rfl
    · rfl

theorem craigmrStep_dual (h : PreconSim dU dV A AT kw.M kw.N A' AT') (lim : Int) (s : CraigmrLoop S U' V') :
    craigmrStep A AT kw lim (craigmrLoopMap dU dV s) = (craigmrStep A' AT' kw.unprec lim s).map (craigmrLoopMap dU dV) := by
  unfold craigmrStep
  rw [craigmrBidiag_dual h]
  cases craigmrBidiag A' AT' kw.unprec s with
  | error e => rfl
  | ok p =>
  obtain ⟨Mu, u, Nv, v, alpha, beta, products⟩ := p
  have e1 : (craigmrLoopMap dU dV s).c = s.c := rfl
  have e2 : (craigmrLoopMap dU dV s).s = s.s := rfl
  simp only [ok_bind, except_map_ok, e1, e2]
  cases craigmrRot s.c s.s alpha beta with
  | error e => rfl
  | ok p =>
  obtain ⟨betaHat, alphaHat, c, sn⟩ := p
  have e3 : (craigmrLoopMap dU dV s).alphaTilde = s.alphaTilde := rfl
  have e5 : (craigmrLoopMap dU dV s).itn = s.itn := rfl
  have e6 : (kw.unprec : CraigmrKw S U' V').window = kw.window := rfl
  simp only [ok_bind, e3, e5, e6]
  cases pydiv s.alphaTilde (sqrt (s.alphaTilde * s.alphaTilde + betaHat * betaHat)) with
  | error e => rfl
  | ok cHat =>
  cases pydiv betaHat (sqrt (s.alphaTilde * s.alphaTilde + betaHat * betaHat)) with
  | error e => rfl
  | ok sHat =>
  cases pymod (s.itn + 1) kw.window with
  | error e => rfl
  | ok k =>
  have k1 : (kw.unprec : CraigmrKw S U' V').storeIterates = kw.storeIterates := rfl
  have k2 : (kw.unprec : CraigmrKw S U' V').storeResids = kw.storeResids := rfl
  have k3 : (kw.unprec : CraigmrKw S U' V').etol = kw.etol := rfl
  simp only [ok_bind, except_pure, except_map_ok, craigmrLoopMap, ← dU.P_smul, ← dU.P_sub, ← dU.P_add, ← dU.P_vdiv, k1, k2, k3]
  congr 2 <;> (try split) <;> simp <;> rfl

/-- **Simulation.** `solve` with preconditioners is `solve` without, read through the two maps. -/
theorem craigmrSolve_dual (h : PreconSim dU dV A AT kw.M kw.N A' AT') (m n : Nat) (b : U') :
    craigmrSolve A AT m n (dU.D b) kw =
      (craigmrSolve A' AT' m n b kw.unprec).map fun p => (craigmrResMap dU p.1, craigmrLoopMap dU dV p.2) := by
  unfold craigmrSolve
  have k2 : (kw.unprec : CraigmrKw S U' V').itnlim = kw.itnlim := rfl
  rw [k2, craigmrVectors_dual h]
  cases craigmrVectors AT' (kw.unprec : CraigmrKw S U' V') b with
  | error e => rfl
  | ok p =>
  obtain ⟨Mu, u, beta, Nv, v, alpha, products⟩ := p
  simp only [ok_bind, except_map_ok, craigmrStart_dual]
  cases craigmrStart (kw.unprec : CraigmrKw S U' V') Mu u beta Nv v alpha products with
  | error e => rfl
  | ok s =>
  have hm : craigmrLoop A AT kw (craigmrLimit m n kw.itnlim) (craigmrLoopMap dU dV s) =
      (craigmrLoop A' AT' kw.unprec (craigmrLimit m n kw.itnlim) s).map (craigmrLoopMap dU dV) :=
    exceptLoop_map (craigmrLoopMap dU dV) (fun _ => rfl) (craigmrStep_dual h _) s
  simp only [ok_bind, except_map_ok, hm]
  cases craigmrLoop A' AT' kw.unprec (craigmrLimit m n kw.itnlim) s <;> rfl

end
end Verif.Solver
