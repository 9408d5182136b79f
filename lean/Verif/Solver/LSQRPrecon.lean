import Verif.Solver.CraigPrecon
import Verif.Solver.LSQRExact

/-!
# LSQR with preconditioners: simulation by LSQR without, in other inner products

The one quantity that LSQR computes with the given norm is `ddnorm`, which enters the condition estimate `Acond` and the test quantity
`test3`.  In exact arithmetic the tests on `test3` always fail, so that these do not influence the solve.
-/

namespace Verif.Solver
open Scalar Vect

/-- two results that agree: the same exception, or values related by `R` -/
inductive ExRel {ε α β : Type} (R : α → β → Prop) : Except ε α → Except ε β → Prop where
  | error (e : ε) : ExRel R (.error e) (.error e)
  | ok {a : α} {b : β} : R a b → ExRel R (.ok a) (.ok b)

/-- two loops whose states are related -/
theorem exceptLoop_rel {σ τ ε : Type} {cont : σ → Bool} {cont' : τ → Bool} {step : σ → Except ε σ} {step' : τ → Except ε τ}
    {μ : σ → Nat} {μ' : τ → Nat} {h : ∀ s t, cont s = true → step s = .ok t → cont t = true → μ t < μ s}
    {h' : ∀ s t, cont' s = true → step' s = .ok t → cont' t = true → μ' t < μ' s} (R : σ → τ → Prop)
    (hc : ∀ s t, R s t → cont s = cont' t) (hs : ∀ s t, R s t → ExRel R (step s) (step' t)) (s : σ) (t : τ) (hR : R s t) :
    ExRel R (exceptLoop cont step μ h s) (exceptLoop cont' step' μ' h' t) := by
  induction hm : (if cont' t then μ' t + 1 else 0) using Nat.strongRecOn generalizing s t with
  | ind m ih =>
    rcases Bool.eq_false_or_eq_true (cont' t) with hcs | hcs
    · have hcs' := (hc s t hR).trans hcs
      have h2 := hs s t hR
      cases hst : step' t with
      | error e =>
        rw [hst] at h2
        cases hst' : step s with
        | error e' =>
          rw [hst'] at h2
          cases h2
          rw [exceptLoop_of_error hcs hst, exceptLoop_of_error hcs' hst']; exact .error e
        | ok a => rw [hst'] at h2; cases h2
      | ok t2 =>
        rw [hst] at h2
        cases hst' : step s with
        | error e' => rw [hst'] at h2; cases h2
        | ok s2 =>
          rw [hst'] at h2
          cases h2 with
          | ok h2 =>
            rw [exceptLoop_of_cont hcs hst, exceptLoop_of_cont hcs' hst']
            refine ih _ ?_ s2 t2 h2 rfl
            rw [← hm, if_pos hcs]
            split
            · rename_i h3
              have := h' t t2 hcs hst h3
              omega
            · omega
    · rw [exceptLoop_of_not hcs, exceptLoop_of_not ((hc s t hR).trans hcs)]; exact .ok hR

/-! ### The stopping tests -/

section
variable {S U V : Type} [Scalar S] [Vect S U] [Vect S V]

/-- `test3` never raises -/
def lsqrT3 (inf Acond : S) : S := if feq Acond (lit 0) then inf else lit 1 / Acond

theorem lsqrTest3_ok (inf Acond : S) : lsqrTest3 inf Acond = .ok (lsqrT3 inf Acond) := by
  unfold lsqrTest3 lsqrT3 pydiv
  by_cases h : feq Acond (lit 0) = true <;> simp [h]

end

/-- nonnegative or undefined -/
def Fl.NN (a : Fl) : Prop := ∀ x, a = .fin x → 0 ≤ x

theorem Fl.NN_sqrt (a : Fl) : Fl.NN (Scalar.sqrt a) := by
  intro x hx
  obtain ⟨y, -, -, rfl⟩ := Fl.sqrt_fin hx
  exact Real.sqrt_nonneg _

theorem Fl.NN_mul {a b : Fl} (ha : Fl.NN a) (hb : Fl.NN b) : Fl.NN (a * b) := by
  intro x hx
  cases a with
  | nan => simp at hx
  | fin a =>
    cases b with
    | nan => simp at hx
    | fin b =>
      rw [Fl.fin_mul] at hx
      cases hx
      exact mul_nonneg (ha a rfl) (hb b rfl)

/-- the tests on `test3` fail in exact arithmetic -/
theorem lsqrT3_tests {a : Fl} (ha : Fl.NN a) : le (lit 1 + lsqrT3 .nan a) (lit 1) = false ∧ le (lsqrT3 .nan a) (lit 0) = false := by
  unfold lsqrT3
  by_cases h : feq a (lit 0) = true
  · rw [if_pos h]
    constructor <;> rfl
  · rw [if_neg h]
    cases a with
    | nan => constructor <;> rfl
    | fin a =>
      have h0 : a ≠ 0 := fun e => h ((feq_fin_zero a).2 e)
      have hp : 0 < a := lt_of_le_of_ne (ha a rfl) (Ne.symm h0)
      have : 0 < 1 / a := by positivity
      constructor
      · rw [Fl.lit_eq, Fl.fin_div _ h0, Fl.fin_add, ← Bool.not_eq_true, Fl.fin_le, not_le]
        norm_num
        exact hp
      · rw [Fl.lit_eq, Fl.lit_eq, Fl.fin_div _ h0, ← Bool.not_eq_true, Fl.fin_le, not_le]
        norm_num
        exact hp

/-! ### The correspondence -/

section
variable {S U' V' U V : Type} [Scalar S] [Vect S U'] [Vect S V'] [Vect S U] [Vect S V]

/-- the keywords without preconditioners -/
def LsqrKw.unprec (kw : LsqrKw S U V) : LsqrKw S U' V' :=
  { itnlim := kw.itnlim, damp := kw.damp, atol := kw.atol, btol := kw.btol, conlim := kw.conlim, etol := kw.etol, inf := kw.inf,
    wantvar := kw.wantvar, storeResids := kw.storeResids, storeIterates := kw.storeIterates, window := kw.window }

/-- the loop variables, read through the two maps, with other values for the variables that do not correspond -/
def lsqrLoopMap (dU : DualMap S U' U) (dV : DualMap S V' V) (s : LsqrLoop S U' V') (dd ac : S) (l : Option (LsqrTests S)) :
    LsqrLoop S U V :=
  { x := dV.P s.x, Mu := dU.D s.Mu, Nv := dV.D s.Nv, v := s.v.map dV.P, w := s.w.map dV.P, alpha := s.alpha, beta := s.beta,
    rhobar := s.rhobar, phibar := s.phibar, Anorm := s.Anorm, Acond := ac, Arnorm := s.Arnorm, r1norm := s.r1norm,
    r2norm := s.r2norm, xnorm := s.xnorm, xxnorm := s.xxnorm, ddnorm := dd, res2 := s.res2, z := s.z, cs2 := s.cs2, sn2 := s.sn2,
    xNrgNorm2 := s.xNrgNorm2, dErr := s.dErr, istop := s.istop, itn := s.itn, resids := s.resids, normalEqns := s.normalEqns,
    dirErrors := s.dirErrors, iterates := s.iterates.map dV.P, products := s.products, last := l }

variable {dU : DualMap S U' U} {dV : DualMap S V' V} {A : V → U} {AT : U → V} {A' : V' → U'} {AT' : U' → V'} {kw : LsqrKw S U V}

theorem lsqrStart_dual (beta : S) (Mu : U') (Nv : V') (v w : Option V') (alpha : S) (products : Nat) :
    lsqrStart kw beta (dU.D Mu) (dV.D Nv) (v.map dV.P) (w.map dV.P) alpha products =
      lsqrLoopMap dU dV (lsqrStart (kw.unprec : LsqrKw S U' V') beta Mu Nv v w alpha products) (lit 0) (lit 0) none := by
  have k1 : (kw.unprec : LsqrKw S U' V').storeIterates = kw.storeIterates := rfl
  simp only [lsqrStart, lsqrLoopMap, dV.P_zeros, k1]
  congr 1
  split <;> simp [dV.P_zeros]

theorem lsqrInit_dual (h : PreconSim dU dV A AT kw.M kw.N A' AT') (b : U') :
    lsqrInit AT kw (dU.D b) = (lsqrInit AT' (kw.unprec : LsqrKw S U' V') b).map fun s =>
      lsqrLoopMap dU dV s (lit 0) (lit 0) none := by
  have hM' : ∀ u, applyPrecon (kw.unprec : LsqrKw S U' V').M u = u := fun _ => rfl
  have hN' : ∀ u, applyPrecon (kw.unprec : LsqrKw S U' V').N u = u := fun _ => rfl
  unfold lsqrInit
  simp only [h.hM, hM', hN', dU.dot_PD]
  cases pysqrt (dot b b) with
  | error e => rfl
  | ok beta =>
    simp only [ok_bind, ← dU.P_vdiv, ← dU.D_vdiv, h.hAT, h.hN, dV.dot_PD]
    split
    · cases pysqrt (dot (AT' (vdiv b beta)) (AT' (vdiv b beta))) with
      | error e => rfl
      | ok alpha =>
        simp only [ok_bind, ← dV.P_vdiv, ← dV.D_vdiv]
        split
        · exact congrArg Except.ok (lsqrStart_dual beta _ _ (some _) (some _) alpha 1)
        · exact congrArg Except.ok (lsqrStart_dual beta _ _ (some _) none alpha 1)
    · rw [← dV.D_zeros]
      exact congrArg Except.ok (lsqrStart_dual beta _ _ none none _ 0)

theorem lsqrBidiag_dual (h : PreconSim dU dV A AT kw.M kw.N A' AT') (s : LsqrLoop S U' V') (dd ac : S)
    (l : Option (LsqrTests S)) (v : V') :
    lsqrBidiag A AT kw (lsqrLoopMap dU dV s dd ac l) (dV.P v) = (lsqrBidiag A' AT' kw.unprec s v).map fun p =>
      (dU.D p.1, dV.D p.2.1, dV.P p.2.2.1, p.2.2.2) := by
  have hM' : ∀ u, applyPrecon (kw.unprec : LsqrKw S U' V').M u = u := fun _ => rfl
  have hN' : ∀ u, applyPrecon (kw.unprec : LsqrKw S U' V').N u = u := fun _ => rfl
  unfold lsqrBidiag
  simp only [lsqrLoopMap, h.hA, ← dU.D_smul, ← dU.D_sub, h.hM, hM', hN', dU.dot_PD]
  generalize A' v - smul s.alpha s.Mu = b
  cases pysqrt (dot b b) with
  | error e => rfl
  | ok beta =>
    simp only [ok_bind, ← dU.P_vdiv, ← dU.D_vdiv, h.hAT, ← dV.D_smul, ← dV.D_sub, h.hN, dV.dot_PD]
    split
    · generalize AT' (vdiv b beta) - smul beta s.Nv = a
      cases pysqrt (dot a a) with
      | error e => rfl
      | ok alpha =>
        simp only [ok_bind, ← dV.P_vdiv, ← dV.D_vdiv]
        split <;> rfl
    · rfl

end

section
variable {U' V' U V : Type} [Vect Fl U'] [Vect Fl V'] [Vect Fl U] [Vect Fl V]
variable {dU : DualMap Fl U' U} {dV : DualMap Fl V' V} {A : V → U} {AT : U → V} {A' : V' → U'} {AT' : U' → V'} {kw : LsqrKw Fl U V}

/-- corresponding states -/
def LsqrRel (dU : DualMap Fl U' U) (dV : DualMap Fl V' V) (s : LsqrLoop Fl U V) (t : LsqrLoop Fl U' V') : Prop :=
  Fl.NN t.Anorm ∧ ∃ dd ac l, s = lsqrLoopMap dU dV t dd ac l

theorem lsqrBidiag_NN {kw : LsqrKw Fl U V} {s : LsqrLoop Fl U V} {v : V} {p} (hs : Fl.NN s.Anorm)
    (h : lsqrBidiag A AT kw s v = .ok p) : Fl.NN p.2.2.2.2.2.1 := by
  unfold lsqrBidiag at h
  obtain ⟨beta, -, h⟩ := except_bind_ok h
  split at h
  · obtain ⟨alpha, -, h⟩ := except_bind_ok h
    split at h <;> cases h <;> exact Fl.NN_sqrt _
  · cases h
    exact hs

/-- the tests do not depend on the condition estimate -/
theorem lsqrQuantities_rel (hinf : kw.inf = .nan) (lim : Int) (itn : Nat) (direct : Bool) (bnorm Anorm : Fl) {ac ac' : Fl}
    (rnorm Arnorm xnorm : Fl) (h1 : Fl.NN ac) (h2 : Fl.NN ac') :
    ExRel (fun t t' => lsqrStop kw lim itn t = lsqrStop (kw.unprec : LsqrKw Fl U' V') lim itn t')
      (lsqrQuantities kw direct bnorm Anorm ac rnorm Arnorm xnorm)
      (lsqrQuantities (kw.unprec : LsqrKw Fl U' V') direct bnorm Anorm ac' rnorm Arnorm xnorm) := by
  unfold lsqrQuantities
  have k1 : (kw.unprec : LsqrKw Fl U' V').inf = kw.inf := rfl
  have k2 : (kw.unprec : LsqrKw Fl U' V').atol = kw.atol := rfl
  have k3 : (kw.unprec : LsqrKw Fl U' V').btol = kw.btol := rfl
  rw [k1, k2, k3, hinf, lsqrTest3_ok, lsqrTest3_ok]
  cases pydiv rnorm bnorm with
  | error e => exact .error e
  | ok test1 =>
  cases lsqrTest2 .nan Anorm rnorm Arnorm with
  | error e => exact .error e
  | ok test2 =>
  cases pydiv (Anorm * xnorm) bnorm with
  | error e => exact .error e
  | ok q =>
  simp only [ok_bind]
  cases pydiv test1 (lit 1 + q) with
  | error e => exact .error e
  | ok t1 =>
  cases pydiv (kw.atol * Anorm * xnorm) bnorm with
  | error e => exact .error e
  | ok q' =>
  refine .ok ?_
  obtain ⟨a1, a2⟩ := lsqrT3_tests h1
  obtain ⟨b1, b2⟩ := lsqrT3_tests h2
  simp only [lsqrStop, a1, a2, b1, b2, k2]

theorem lsqrStep_rel (h : PreconSim dU dV A AT kw.M kw.N A' AT') (hinf : kw.inf = .nan) (lim : Int) (bnorm : Fl)
    (s : LsqrLoop Fl U V) (t : LsqrLoop Fl U' V') (hR : LsqrRel dU dV s t) :
    ExRel (LsqrRel dU dV) (lsqrStep A AT kw lim bnorm s) (lsqrStep A' AT' kw.unprec lim bnorm t) := by
  obtain ⟨hn, dd, ac, l, rfl⟩ := hR
  unfold lsqrStep
  have e0 : (lsqrLoopMap dU dV t dd ac l).v = t.v.map dV.P := rfl
  have e1 : (lsqrLoopMap dU dV t dd ac l).w = t.w.map dV.P := rfl
  have e2 : (lsqrLoopMap dU dV t dd ac l).rhobar = t.rhobar := rfl
  have e3 : (lsqrLoopMap dU dV t dd ac l).phibar = t.phibar := rfl
  have e5 : (lsqrLoopMap dU dV t dd ac l).itn = t.itn := rfl
  have k0 : (kw.unprec : LsqrKw Fl U' V').damp = kw.damp := rfl
  have k1 : (kw.unprec : LsqrKw Fl U' V').storeIterates = kw.storeIterates := rfl
  have k2 : (kw.unprec : LsqrKw Fl U' V').storeResids = kw.storeResids := rfl
  have k3 : (kw.unprec : LsqrKw Fl U' V').etol = kw.etol := rfl
  have k4 : (kw.unprec : LsqrKw Fl U' V').window = kw.window := rfl
  simp only [e0, e1, e2, e3, e5, k0, k1, k2, k3, k4]
  cases t.v with
  | none => exact .error _
  | some v0 =>
  simp only [Option.map_some, bound, ok_bind]
  rw [lsqrBidiag_dual h]
  cases hbd : lsqrBidiag A' AT' kw.unprec t v0 with
  | error e => exact .error e
  | ok p =>
  have hAn := lsqrBidiag_NN hn hbd
  obtain ⟨Mu, Nv, v, alpha, beta, Anorm, products⟩ := p
  simp only [ok_bind, except_map_ok]
  cases lsqrRot1 kw.damp t.rhobar t.phibar with
  | error e => exact .error e
  | ok p =>
  obtain ⟨rhobar1, psi, phibar⟩ := p
  simp only [ok_bind]
  cases lsqrRot2 rhobar1 beta alpha phibar with
  | error e => exact .error e
  | ok p =>
  obtain ⟨rho, theta, rhobar, phi, phibar, tau, t1, t2⟩ := p
  simp only [ok_bind]
  cases pydiv (lit 1) rho with
  | error e => exact .error e
  | ok invRho =>
  cases t.w with
  | none => exact .error _
  | some w =>
  simp only [Option.map_some, ok_bind]
  cases pymod (t.itn + 1) kw.window with
  | error e => exact .error e
  | ok k =>
  have hX : lsqrXnorm (lsqrLoopMap dU dV t dd ac l) rho theta phi = lsqrXnorm t rho theta phi := rfl
  simp only [ok_bind, hX]
  cases lsqrXnorm t rho theta phi with
  | error e => exact .error e
  | ok p =>
  obtain ⟨xnorm, cs2, sn2, z⟩ := p
  simp only [ok_bind]
  have e6 : (lsqrLoopMap dU dV t dd ac l).xxnorm = t.xxnorm := rfl
  have e7 : (lsqrLoopMap dU dV t dd ac l).res2 = t.res2 := rfl
  have e8 : (lsqrLoopMap dU dV t dd ac l).xNrgNorm2 = t.xNrgNorm2 := rfl
  have e9 : (lsqrLoopMap dU dV t dd ac l).dErr = t.dErr := rfl
  simp only [e6, e7, e8, e9]
  have hq := lsqrQuantities_rel (U' := U') (V' := V') hinf lim (t.itn + 1)
    (decide (t.itn + 1 > kw.window) && lt (normList (t.dErr.set k phi)) (kw.etol * sqrt (t.xNrgNorm2 + phi * phi))) bnorm Anorm
    (sqrt (phibar * phibar + (t.res2 + psi * psi))) (alpha * Scalar.abs tau) xnorm
    (Fl.NN_mul hAn (Fl.NN_sqrt ((lsqrLoopMap dU dV t dd ac l).ddnorm + norm (smul invRho (dV.P w)) * norm (smul invRho (dV.P w)))))
    (Fl.NN_mul hAn (Fl.NN_sqrt (t.ddnorm + norm (smul invRho w) * norm (smul invRho w))))
  generalize lsqrQuantities kw _ bnorm Anorm _ _ _ xnorm = Q at hq ⊢
  generalize lsqrQuantities (kw.unprec : LsqrKw Fl U' V') _ bnorm Anorm _ _ _ xnorm = Q' at hq ⊢
  cases hq with
  | error e => exact .error e
  | @ok a b hst =>
  refine .ok ⟨hAn, dd + norm (smul invRho (dV.P w)) * norm (smul invRho (dV.P w)),
    Anorm * sqrt (dd + norm (smul invRho (dV.P w)) * norm (smul invRho (dV.P w))), some a, ?_⟩
  simp only [lsqrLoopMap, ← dV.P_smul, ← dV.P_add, hst, Option.map_some]
  congr 1
  split <;> simp

/-- **Simulation.** `solve` with preconditioners is `solve` without, read through the two maps, except for the condition estimate. -/
theorem lsqrSolve_rel (h : PreconSim dU dV A AT kw.M kw.N A' AT') (hinf : kw.inf = .nan) (n : Nat) (b : U') :
    ExRel (fun p p' => p = (lsqrResult kw p.2, p.2) ∧ p' = (lsqrResult kw.unprec p'.2, p'.2) ∧ LsqrRel dU dV p.2 p'.2)
      (lsqrSolve A AT n (dU.D b) kw) (lsqrSolve A' AT' n b kw.unprec) := by
  unfold lsqrSolve
  have k1 : (kw.unprec : LsqrKw Fl U' V').wantvar = kw.wantvar := rfl
  have k2 : (kw.unprec : LsqrKw Fl U' V').itnlim = kw.itnlim := rfl
  simp only [k1, k2, lsqrInit_dual h]
  cases lsqrVar kw.wantvar with
  | error e => exact .error e
  | ok _ =>
  cases hi : lsqrInit AT' (kw.unprec : LsqrKw Fl U' V') b with
  | error e => exact .error e
  | ok t =>
  have hn : Fl.NN t.Anorm := by
    have : t.Anorm = lit 0 := by
      unfold lsqrInit at hi
      obtain ⟨beta, -, hi⟩ := except_bind_ok hi
      split at hi
      · obtain ⟨alpha, -, hi⟩ := except_bind_ok hi
        split at hi <;> cases hi <;> rfl
      · cases hi; rfl
    rw [this, Fl.lit_eq]
    intro x hx
    cases hx
    norm_num
  have hR : LsqrRel dU dV (lsqrLoopMap dU dV t (lit 0) (lit 0) none) t := ⟨hn, _, _, _, rfl⟩
  simp only [ok_bind, except_map_ok]
  have hm : ExRel (LsqrRel dU dV) (lsqrMain A AT kw (lsqrLimit n kw.itnlim) (lsqrLoopMap dU dV t (lit 0) (lit 0) none))
      (lsqrMain A' AT' kw.unprec (lsqrLimit n kw.itnlim) t) := by
    unfold lsqrMain
    have e1 : lsqrXZero (lsqrLoopMap dU dV t (lit 0) (lit 0) none) = lsqrXZero t := rfl
    have e2 : (lsqrLoopMap dU dV t (lit 0) (lit 0) none).beta = t.beta := rfl
    rw [e1, e2]
    split
    · exact .ok hR
    · unfold lsqrLoop
      refine exceptLoop_rel (LsqrRel dU dV) ?_ (lsqrStep_rel h hinf _ _) _ _ hR
      rintro s t ⟨-, dd, ac, l, rfl⟩
      rfl
  generalize lsqrMain A AT kw (lsqrLimit n kw.itnlim) (lsqrLoopMap dU dV t (lit 0) (lit 0) none) = Q at hm ⊢
  generalize lsqrMain A' AT' kw.unprec (lsqrLimit n kw.itnlim) t = Q' at hm ⊢
  cases hm with
  | error e => exact .error e
  | ok hr => exact .ok ⟨rfl, rfl, hr⟩

end

end Verif.Solver
