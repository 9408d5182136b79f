import Verif.Solver.ScaleCraigmr

/-!
# Units and coordinates in CRAIG: simulation

As for CRAIG-MR, the operator has no unit; the right-hand side, the unknowns and the residual have the same unit `τ`.  Without
preconditioners.
-/

namespace Verif.Solver
open Scalar Vect

variable {E E' F F' : Type} [NormedAddCommGroup E] [InnerProductSpace ℝ E] [NormedAddCommGroup E'] [InnerProductSpace ℝ E']
  [NormedAddCommGroup F] [InnerProductSpace ℝ F] [NormedAddCommGroup F'] [InnerProductSpace ℝ F']

variable {P : E →ₗᵢ[ℝ] E'} {Q : F →ₗᵢ[ℝ] F'} {τ : ℝ} {A : Vec E → Vec F} {AT : Vec F → Vec E} {A' : Vec E' → Vec F'}
  {AT' : Vec F' → Vec E'}

/-- the keywords in other coordinates -/
def CraigKw.coords (kw : CraigKw Fl (Vec F) (Vec E)) : CraigKw Fl (Vec F') (Vec E') :=
  { itnlim := kw.itnlim, damp := kw.damp, atol := kw.atol, btol := kw.btol, conlim := kw.conlim, etol := kw.etol, wantvar := kw.wantvar,
    storeResids := kw.storeResids, storeIterates := kw.storeIterates, window := kw.window }

/-- the loop variables in other units and coordinates; `beta` has the unit of the right-hand side before the loop and none in the loop -/
noncomputable def craigUnits (P : E →ₗᵢ[ℝ] E') (Q : F →ₗᵢ[ℝ] F') (τ : ℝ) (beta : Fl) (s : CraigLoop Fl (Vec F) (Vec E)) :
    CraigLoop Fl (Vec F') (Vec E') :=
  { x := Vec.sc P τ s.x, r := Vec.sc Q τ s.r, Mu := Vec.sc Q 1 s.Mu, Nv := Vec.sc P 1 s.Nv, v := Vec.sc P 1 s.v, alpha := s.alpha,
    beta := beta, c := s.c, s := s.s, d := Vec.sc Q 1 s.d, tau := Fl.sc τ s.tau, zeta := Fl.sc τ s.zeta, w := Vec.sc P 1 s.w,
    wbar := Vec.sc P 1 s.wbar, rnorm := Fl.sc (τ * τ) s.rnorm, xnorm := Fl.sc (τ * τ) s.xnorm, r1norm := Fl.sc (τ * τ) s.r1norm,
    rNrgNorm2 := Fl.sc (τ * τ) s.rNrgNorm2, xNrgNorm2 := Fl.sc (τ * τ) s.xNrgNorm2, dErr := s.dErr.map (Fl.sc τ),
    Arnorm := s.Arnorm.map (Fl.sc τ), istop := s.istop, itn := s.itn, resids := s.resids.map (Fl.sc (τ * τ)),
    norms := s.norms.map (Fl.sc (τ * τ)), normalEqns := s.normalEqns.map (Fl.sc τ), dirErrors := s.dirErrors,
    iteratesP := s.iteratesP.map (Vec.sc P τ), iteratesD := s.iteratesD.map (Vec.sc Q τ), products := s.products }

variable {kw : CraigKw Fl (Vec F) (Vec E)}

theorem craigVectors_units (h : LsCoords P Q A AT A' AT') (hτ : 0 < τ) (hM : kw.M = none) (hN : kw.N = none) (b : Vec F) :
    craigVectors AT' (kw.coords : CraigKw Fl (Vec F') (Vec E')) (Vec.sc Q τ b) = (craigVectors AT kw b).map fun p =>
      (Vec.sc Q 1 p.1, Vec.sc Q 1 p.2.1, Fl.sc τ p.2.2.1, p.2.2.2.1.map (fun z => (Vec.sc P 1 z.1, Vec.sc P 1 z.2)), p.2.2.2.2) := by
  have m1 : (kw.coords : CraigKw Fl (Vec F') (Vec E')).M = none := rfl
  have m2 : (kw.coords : CraigKw Fl (Vec F') (Vec E')).N = none := rfl
  unfold craigVectors
  simp only [m1, m2, hM, hN, applyPrecon, Vec.sc_dot rfl, Fl.sc_pysqrt hτ rfl]
  cases hb : pysqrt (dot b b) with
  | error e => rfl
  | ok beta =>
    simp only [except_map_ok, ok_bind, Fl.sc_gt0 hτ, Vec.sc_vdiv (Q := Q) (v := b) (a := beta) hτ.ne' (one_mul τ).symm, h.AT,
      Vec.sc_dot (one_mul 1), Fl.sc_one]
    split
    · generalize AT (vdiv b beta) = Nv
      cases ha : pysqrt (dot Nv Nv) with
      | error e => rfl
      | ok alpha =>
        simp only [ok_bind, Vec.sc_vdiv']
        split <;> rfl
    · rename_i hnb
      rw [Vec.sc_null hb hnb τ 1]
      rfl

theorem Fl.sc_pydiv' {c : ℝ} {a b : Fl} : pydiv (Fl.sc c a) b = (pydiv a b).map (Fl.sc c) := by
  have := Fl.sc_pydiv (a := a) (b := b) (c := c) (d := 1) (e := c) one_pos (mul_one c).symm
  rwa [Fl.sc_one] at this

theorem craigStart_units (Mu u : Vec F) (beta : Fl) (vs : Option (Vec E × Vec E)) (alpha : Fl) (k : Nat) :
    craigStart (kw.coords : CraigKw Fl (Vec F') (Vec E')) (Vec.sc Q 1 Mu) (Vec.sc Q 1 u) (Fl.sc τ beta)
      (vs.map (fun z => (Vec.sc P 1 z.1, Vec.sc P 1 z.2))) alpha k =
      (craigStart kw Mu u beta vs alpha k).map fun s => craigUnits P Q τ (Fl.sc τ s.beta) s := by
  have k1 : (kw.coords : CraigKw Fl (Vec F') (Vec E')).storeIterates = kw.storeIterates := rfl
  have k2 : (kw.coords : CraigKw Fl (Vec F') (Vec E')).storeResids = kw.storeResids := rfl
  have k3 : (kw.coords : CraigKw Fl (Vec F') (Vec E')).window = kw.window := rfl
  unfold craigStart
  generalize normof2 alpha (lit 1) = rho
  simp only [Fl.sc_pydiv']
  cases pydiv beta rho with
  | error e => rfl
  | ok tau =>
  simp only [ok_bind, except_map_ok]
  cases pydiv alpha rho with
  | error e => rfl
  | ok c =>
  simp only [ok_bind]
  cases pydiv (lit 1) rho with
  | error e => rfl
  | ok s =>
  cases vs with
  | none => rfl
  | some z =>
  obtain ⟨v, Nv⟩ := z
  simp only [ok_bind, Option.map_some, bound]
  refine congrArg Except.ok ?_
  simp only [craigUnits, k1, k2, k3, Fl.sc_mul_left, Fl.sc_mul_right, Fl.sc_sc, Fl.sc_lit0, Vec.sc_vdiv', Vec.sc_smul',
    Vec.sc_smul (mul_one τ), List.map_replicate, List.map_nil, Option.map_none]
  congr 1
  · split <;> simp only [List.map_cons, List.map_nil]
  · split <;> simp only [List.map_cons, List.map_nil, Fl.sc_lit0]
  · split <;> simp only [List.map_cons, List.map_nil]
  · split <;> simp only [List.map_cons, List.map_nil]

theorem craigBidiag_units (h : LsCoords P Q A AT A' AT') (hM : kw.M = none) (hN : kw.N = none) (beta : Fl)
    (s : CraigLoop Fl (Vec F) (Vec E)) :
    craigBidiag A' AT' (kw.coords : CraigKw Fl (Vec F') (Vec E')) (craigUnits P Q τ beta s) = (craigBidiag A AT kw s).map fun p =>
      (Vec.sc Q 1 p.1, Vec.sc Q 1 p.2.1, Vec.sc P 1 p.2.2.1, Vec.sc P 1 p.2.2.2.1, p.2.2.2.2) := by
  have m1 : (kw.coords : CraigKw Fl (Vec F') (Vec E')).M = none := rfl
  have m2 : (kw.coords : CraigKw Fl (Vec F') (Vec E')).N = none := rfl
  unfold craigBidiag
  simp only [m1, m2, hM, hN, applyPrecon, craigUnits, h.A, Vec.sc_smul', Vec.sc_sub]
  generalize A s.v - smul s.alpha s.Mu = b
  rw [Vec.sc_dot1]
  cases hb : pysqrt (dot b b) with
  | error e => rfl
  | ok be =>
    simp only [ok_bind, Vec.sc_vdiv', h.AT, Vec.sc_smul', Vec.sc_sub, Vec.sc_dot1]
    split
    · cases pysqrt (dot (AT (vdiv b be) - smul be s.Nv) (AT (vdiv b be) - smul be s.Nv)) with
      | error e => rfl
      | ok alpha =>
        simp only [ok_bind]
        split <;> rfl
    · rfl

/-- corresponding states -/
def CraigSame (P : E →ₗᵢ[ℝ] E') (Q : F →ₗᵢ[ℝ] F') (τ : ℝ) (s : CraigLoop Fl (Vec F) (Vec E)) (s' : CraigLoop Fl (Vec F') (Vec E')) :
    Prop := ∃ beta, s' = craigUnits P Q τ beta s

theorem craigStep_units (h : LsCoords P Q A AT A' AT') (hτ : 0 < τ) (hM : kw.M = none) (hN : kw.N = none) (lim : Int) (bnorm : Fl)
    (s : CraigLoop Fl (Vec F) (Vec E)) (s' : CraigLoop Fl (Vec F') (Vec E')) (hR : CraigSame P Q τ s s') :
    ExRel (CraigSame P Q τ) (craigStep A AT kw lim bnorm s)
      (craigStep A' AT' (kw.coords : CraigKw Fl (Vec F') (Vec E')) lim (Fl.sc τ bnorm) s') := by
  obtain ⟨be, rfl⟩ := hR
  have k1 : (kw.coords : CraigKw Fl (Vec F') (Vec E')).storeIterates = kw.storeIterates := rfl
  have k2 : (kw.coords : CraigKw Fl (Vec F') (Vec E')).storeResids = kw.storeResids := rfl
  have k3 : (kw.coords : CraigKw Fl (Vec F') (Vec E')).window = kw.window := rfl
  have k4 : (kw.coords : CraigKw Fl (Vec F') (Vec E')).etol = kw.etol := rfl
  unfold craigStep
  rw [craigBidiag_units h hM hN, k1, k2, k3, k4]
  cases craigBidiag A AT kw s with
  | error e => exact .error e
  | ok p =>
  obtain ⟨Mu, u, Nv, v, alpha, beta, products⟩ := p
  simp only [ok_bind, except_map_ok, craigUnits]
  cases craigRot s.c s.s alpha beta with
  | error e => exact .error e
  | ok p =>
  obtain ⟨betaHat, alphaHat, s2, c, sn⟩ := p
  simp only [ok_bind, Fl.sc_mul_right, Fl.sc_pydiv']
  cases pydiv (-betaHat * s.tau) alphaHat with
  | error e => exact .error e
  | ok tau =>
  simp only [ok_bind, except_map_ok]
  cases pydiv (-betaHat * s.zeta) alphaHat with
  | error e => exact .error e
  | ok zeta =>
  simp only [ok_bind, except_map_ok]
  cases pymod (s.itn + 1) kw.window with
  | error e => exact .error e
  | ok k =>
  have htr : normList ((s.dErr.map (Fl.sc τ)).set k (Fl.sc τ tau)) = Fl.sc τ (normList (s.dErr.set k tau)) := by
    rw [← List.map_set, Fl.sc_normList hτ]
  have hratio : ∀ a b : Fl, Fl.sc τ a / Fl.sc τ b = a / b := fun a b => Fl.sc_ratio hτ.ne'
  simp only [ok_bind, Fl.sc_mul_left, Fl.sc_mul_right, Fl.sc_sc, Fl.sc_add, Fl.sc_sqrt hτ rfl, Fl.sc_pyratio hτ]
  cases pydiv (sqrt (s.rnorm + tau * tau)) bnorm with
  | error e => exact .error e
  | ok test1 =>
  refine .ok ⟨beta, ?_⟩
  have hstop : ∀ a b, craigStop (kw.coords : CraigKw Fl (Vec F') (Vec E')) lim (s.itn + 1) a b = craigStop kw lim (s.itn + 1) a b :=
    fun _ _ => rfl
  simp only [craigUnits, htr, hstop, Fl.sc_lt hτ, hratio, Fl.sc_abs hτ, Vec.sc_smul', Vec.sc_sub,
    Vec.sc_vdiv', Vec.sc_smul (mul_one τ), Vec.sc_add, List.map_set, Option.map_some]
  congr 1
  all_goals split <;> simp

/-- the results in other units and coordinates -/
noncomputable def CraigRes.units (P : E →ₗᵢ[ℝ] E') (Q : F →ₗᵢ[ℝ] F') (τ : ℝ) (r : CraigRes Fl (Vec F) (Vec E)) :
    CraigRes Fl (Vec F') (Vec E') :=
  { x := Vec.sc P τ r.x, r := Vec.sc Q τ r.r, istop := r.istop, itn := r.itn, nMatvec := r.nMatvec, optimal := r.optimal,
    status := r.status, r1norm := Fl.sc τ r.r1norm, r2norm := Fl.sc τ r.r2norm, Arnorm := Fl.sc τ r.Arnorm, xnorm := Fl.sc (τ * τ) r.xnorm,
    resids := r.resids.map (Fl.sc (τ * τ)), norms := r.norms.map (Fl.sc (τ * τ)), normalEqns := r.normalEqns.map (Fl.sc τ),
    dirErrors := r.dirErrors, iteratesP := r.iteratesP.map (Vec.sc P τ), iteratesD := r.iteratesD.map (Vec.sc Q τ) }

theorem craigResult_units (hτ : 0 < τ) (beta : Fl) (s : CraigLoop Fl (Vec F) (Vec E)) :
    craigResult (craigUnits P Q τ beta s) = (craigResult s).map (CraigRes.units P Q τ) := by
  unfold craigResult
  simp only [craigUnits, Fl.sc_sqrt hτ rfl]
  cases s.Arnorm <;> rfl

theorem craig_units (h : LsCoords P Q A AT A' AT') (hτ : 0 < τ) (hM : kw.M = none) (hN : kw.N = none) (n : Nat) (b : Vec F) :
    ExRel (fun p p' => p'.1 = p.1.units P Q τ ∧ p'.2.products = p.2.products) (craigSolve A AT n b kw)
      (craigSolve A' AT' n (Vec.sc Q τ b) (kw.coords : CraigKw Fl (Vec F') (Vec E'))) := by
  unfold craigSolve
  have k1 : (kw.coords : CraigKw Fl (Vec F') (Vec E')).wantvar = kw.wantvar := rfl
  have k2 : (kw.coords : CraigKw Fl (Vec F') (Vec E')).itnlim = kw.itnlim := rfl
  rw [k1, k2, craigVectors_units h hτ hM hN]
  cases lsqrVar kw.wantvar with
  | error e => exact .error e
  | ok _ =>
  simp only [ok_bind]
  cases craigVectors AT kw b with
  | error e => exact .error e
  | ok p =>
  obtain ⟨Mu, u, beta, vs, alpha, products⟩ := p
  simp only [ok_bind, except_map_ok]
  rw [craigStart_units]
  cases craigStart kw Mu u beta vs alpha products with
  | error e => exact .error e
  | ok s =>
  simp only [ok_bind, except_map_ok]
  have main : ExRel (CraigSame P Q τ) (craigMain A AT kw (craigLimit n kw.itnlim) s)
      (craigMain A' AT' (kw.coords : CraigKw Fl (Vec F') (Vec E')) (craigLimit n kw.itnlim) (craigUnits P Q τ (Fl.sc τ s.beta) s)) := by
    have hz : feq (craigUnits P Q τ (Fl.sc τ s.beta) s).beta (lit 0) = feq s.beta (lit 0) := Fl.sc_feq0 hτ
    unfold craigMain
    rw [hz]
    split
    · exact .ok ⟨_, rfl⟩
    · exact exceptLoop_rel (CraigSame P Q τ) (fun s s' hR => by obtain ⟨_, rfl⟩ := hR; rfl)
        (fun s s' hR => craigStep_units h hτ hM hN _ _ s s' hR) s _ ⟨_, rfl⟩
  revert main
  generalize craigMain A AT kw (craigLimit n kw.itnlim) s = r
  generalize craigMain A' AT' (kw.coords : CraigKw Fl (Vec F') (Vec E')) (craigLimit n kw.itnlim)
    (craigUnits P Q τ (Fl.sc τ s.beta) s) = r'
  intro main
  cases main with
  | error e => exact .error e
  | ok hR =>
    rename_i t t'
    obtain ⟨be, rfl⟩ := hR
    simp only [ok_bind, craigResult_units hτ]
    cases craigResult t with
    | error e => exact .error e
    | ok res => exact .ok ⟨rfl, rfl⟩

end Verif.Solver
