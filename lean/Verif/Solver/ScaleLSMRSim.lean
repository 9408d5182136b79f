import Verif.Solver.ScaleCraig
import Verif.Solver.LSMRExact

/-!
# Units and coordinates in LSMR: simulation

The operator keeps its unit (`ScaleLSMR` shows why); the right-hand side and the unknowns have the unit `τ`.  Without preconditioners.
-/

namespace Verif.Solver
open Scalar Vect

variable {E E' F F' : Type} [NormedAddCommGroup E] [InnerProductSpace ℝ E] [NormedAddCommGroup E'] [InnerProductSpace ℝ E']
  [NormedAddCommGroup F] [InnerProductSpace ℝ F] [NormedAddCommGroup F'] [InnerProductSpace ℝ F']

variable {P : E →ₗᵢ[ℝ] E'} {Q : F →ₗᵢ[ℝ] F'} {τ : ℝ} {A : Vec E → Vec F} {AT : Vec F → Vec E} {A' : Vec E' → Vec F'}
  {AT' : Vec F' → Vec E'}

/-- the keywords in other coordinates -/
def LsmrKw.coords (kw : LsmrKw Fl (Vec F) (Vec E)) : LsmrKw Fl (Vec F') (Vec E') :=
  { itnlim := kw.itnlim, damp := kw.damp, atol := kw.atol, btol := kw.btol, conlim := kw.conlim, etol := kw.etol,
    storeResids := kw.storeResids, storeIterates := kw.storeIterates, window := kw.window }

/-- the loop variables in other units and coordinates; `beta` has the unit of the right-hand side before the loop and none in the loop -/
noncomputable def lsmrUnits (P : E →ₗᵢ[ℝ] E') (Q : F →ₗᵢ[ℝ] F') (τ : ℝ) (beta : Fl) (s : LsmrLoop Fl (Vec F) (Vec E)) :
    LsmrLoop Fl (Vec F') (Vec E') :=
  { x := Vec.sc P τ s.x, Mu := Vec.sc Q 1 s.Mu, Nv := s.Nv.map (Vec.sc P 1), v := Vec.sc P 1 s.v, alpha := s.alpha, beta := beta,
    h := Vec.sc P 1 s.h, hbar := Vec.sc P 1 s.hbar, alphabar := s.alphabar, rho := s.rho, rhobar := s.rhobar, cbar := s.cbar,
    sbar := s.sbar, zeta := Fl.sc τ s.zeta, zetabar := Fl.sc τ s.zetabar, betadd := Fl.sc τ s.betadd, betad := Fl.sc τ s.betad,
    rhodold := s.rhodold, tautildeold := Fl.sc τ s.tautildeold, thetatilde := s.thetatilde, d := Fl.sc (τ * τ) s.d, normA2 := s.normA2,
    normA := s.normA, maxrbar := s.maxrbar, minrbar := s.minrbar, condA := s.condA, normr := Fl.sc τ s.normr,
    normar := Fl.sc τ s.normar, normx := Fl.sc τ s.normx, xNrgNorm2 := Fl.sc (τ * τ) s.xNrgNorm2, dErr := s.dErr.map (Fl.sc τ),
    istop := s.istop, itn := s.itn, resids := s.resids.map (Fl.sc τ), normalEqns := s.normalEqns.map (Fl.sc τ),
    norms := s.norms.map (Fl.sc (τ * τ)), dirErrors := s.dirErrors, iterates := s.iterates.map (Vec.sc P τ), products := s.products }

variable {kw : LsmrKw Fl (Vec F) (Vec E)}

theorem lsmrStart_units (beta : Fl) (Mu : Vec F) (Nv : Option (Vec E)) (v : Vec E) (alpha : Fl) (k : Nat) :
    lsmrStart (kw.coords : LsmrKw Fl (Vec F') (Vec E')) (Fl.sc τ beta) (Vec.sc Q 1 Mu) (Nv.map (Vec.sc P 1)) (Vec.sc P 1 v) alpha k =
      lsmrUnits P Q τ (Fl.sc τ beta) (lsmrStart kw beta Mu Nv v alpha k) := by
  have k1 : (kw.coords : LsmrKw Fl (Vec F') (Vec E')).storeIterates = kw.storeIterates := rfl
  have k3 : (kw.coords : LsmrKw Fl (Vec F') (Vec E')).window = kw.window := rfl
  simp only [lsmrStart, lsmrUnits, k1, k3, Fl.sc_lit0, Vec.sc_zeros, Fl.sc_mul_right, List.map_replicate, List.map_nil]
  congr 1
  split <;> simp only [List.map_cons, List.map_nil, Vec.sc_zeros]

theorem lsmrInit_units (h : LsCoords P Q A AT A' AT') (hτ : 0 < τ) (hM : kw.M = none) (hN : kw.N = none) (b : Vec F) :
    lsmrInit AT' (kw.coords : LsmrKw Fl (Vec F') (Vec E')) (Vec.sc Q τ b) =
      (lsmrInit AT kw b).map fun s => lsmrUnits P Q τ (Fl.sc τ s.beta) s := by
  have m1 : (kw.coords : LsmrKw Fl (Vec F') (Vec E')).M = none := rfl
  have m2 : (kw.coords : LsmrKw Fl (Vec F') (Vec E')).N = none := rfl
  unfold lsmrInit
  simp only [m1, m2, hM, hN, applyPrecon, Vec.sc_dot rfl, Fl.sc_pysqrt hτ rfl]
  cases hb : pysqrt (dot b b) with
  | error e => rfl
  | ok beta =>
    simp only [except_map_ok, ok_bind, Fl.sc_gt0 hτ, Vec.sc_vdiv (Q := Q) (v := b) (a := beta) hτ.ne' (one_mul τ).symm, h.AT,
      Vec.sc_dot (one_mul 1), Fl.sc_one]
    split
    · generalize AT (vdiv b beta) = Nv
      cases ha : pysqrt (dot Nv Nv) with
      | error e => rfl
      | ok alpha =>
        simp only [ok_bind, Vec.sc_vdiv']
        split
        · exact congrArg Except.ok (lsmrStart_units beta _ (some _) _ alpha 1)
        · exact congrArg Except.ok (lsmrStart_units beta _ (some _) _ alpha 1)
    · rename_i hnb
      rw [Vec.sc_null hb hnb τ 1]
      have := lsmrStart_units (P := P) (Q := Q) (τ := τ) (kw := kw) beta b none zeros (lit 0) 0
      rw [Vec.sc_zeros] at this
      exact congrArg Except.ok this

theorem lsmrBidiag_units (h : LsCoords P Q A AT A' AT') (hM : kw.M = none) (hN : kw.N = none) (beta : Fl)
    (s : LsmrLoop Fl (Vec F) (Vec E)) :
    lsmrBidiag A' AT' (kw.coords : LsmrKw Fl (Vec F') (Vec E')) (lsmrUnits P Q τ beta s) = (lsmrBidiag A AT kw s).map fun p =>
      (Vec.sc Q 1 p.1, p.2.1.map (Vec.sc P 1), Vec.sc P 1 p.2.2.1, p.2.2.2) := by
  have m1 : (kw.coords : LsmrKw Fl (Vec F') (Vec E')).M = none := rfl
  have m2 : (kw.coords : LsmrKw Fl (Vec F') (Vec E')).N = none := rfl
  unfold lsmrBidiag
  simp only [m1, m2, hM, hN, applyPrecon, lsmrUnits, h.A, Vec.sc_smul', Vec.sc_sub]
  generalize A s.v - smul s.alpha s.Mu = b
  rw [Vec.sc_dot1]
  cases hb : pysqrt (dot b b) with
  | error e => rfl
  | ok be =>
    simp only [ok_bind, Vec.sc_vdiv', h.AT]
    split
    · cases s.Nv with
      | none => rfl
      | some Nv0 =>
      simp only [Option.map_some, bound, ok_bind, Vec.sc_smul', Vec.sc_sub, Vec.sc_dot1]
      cases pysqrt (dot (AT (vdiv b be) - smul be Nv0) (AT (vdiv b be) - smul be Nv0)) with
      | error e => rfl
      | ok alpha =>
        simp only [ok_bind, Vec.sc_vdiv']
        split <;> rfl
    · rfl

/-- the rotations in other units -/
noncomputable def LsmrRot.units (τ : ℝ) (r : LsmrRot Fl) : LsmrRot Fl := { r with zeta := Fl.sc τ r.zeta, zetabar := Fl.sc τ r.zetabar }

theorem lsmrRot_units (damp alpha beta be : Fl) (s : LsmrLoop Fl (Vec F) (Vec E)) :
    lsmrRot damp alpha beta (lsmrUnits P Q τ be s) = (lsmrRot damp alpha beta s).map (LsmrRot.units τ) := by
  unfold lsmrRot
  simp only [lsmrUnits, Fl.sc_mul_right]
  cases symOrtho s.alphabar damp with
  | error e => rfl
  | ok p =>
  obtain ⟨chat, shat, alphahat⟩ := p
  simp only [ok_bind]
  cases symOrtho alphahat beta with
  | error e => rfl
  | ok p =>
  obtain ⟨c, sn, rho⟩ := p
  simp only [ok_bind]
  cases symOrtho (s.cbar * rho) (sn * alpha) with
  | error e => rfl
  | ok p => rfl

theorem lsmrVectors_units (r : LsmrRot Fl) (be : Fl) (s : LsmrLoop Fl (Vec F) (Vec E)) (v : Vec E) :
    lsmrVectors (r.units τ) (lsmrUnits P Q τ be s) (Vec.sc P 1 v) =
      (lsmrVectors r s v).map fun p => (Vec.sc P 1 p.1, Vec.sc P τ p.2.1, Vec.sc P 1 p.2.2) := by
  unfold lsmrVectors
  simp only [lsmrUnits, LsmrRot.units, Fl.sc_pydiv']
  cases pydiv (r.thetabar * r.rho) (s.rho * s.rhobar) with
  | error e => rfl
  | ok q1 =>
  simp only [ok_bind]
  cases pydiv r.zeta (r.rho * r.rhobar) with
  | error e => rfl
  | ok q2 =>
  simp only [ok_bind, except_map_ok]
  cases pydiv r.thetanew r.rho with
  | error e => rfl
  | ok q3 =>
  refine congrArg Except.ok ?_
  simp only [Vec.sc_smul', Vec.sc_sub, Vec.sc_smul (mul_one τ), Vec.sc_add]

theorem lsmrResid_units (hτ : 0 < τ) (r : LsmrRot Fl) (be : Fl) (s : LsmrLoop Fl (Vec F) (Vec E)) :
    lsmrResid (r.units τ) (lsmrUnits P Q τ be s) = (lsmrResid r s).map fun p => (Fl.sc τ p.1, p.2.1, p.2.2.1, Fl.sc τ p.2.2.2.1,
      Fl.sc τ p.2.2.2.2.1, Fl.sc (τ * τ) p.2.2.2.2.2.1, Fl.sc τ p.2.2.2.2.2.2) := by
  unfold lsmrResid
  simp only [lsmrUnits, LsmrRot.units, Fl.sc_mul_right, Fl.sc_sub, Fl.sc_pydiv']
  cases symOrtho s.rhodold r.thetabar with
  | error e => rfl
  | ok p =>
  obtain ⟨ct, st, rt⟩ := p
  simp only [ok_bind]
  cases pydiv (s.zeta - s.thetatilde * s.tautildeold) rt with
  | error e => rfl
  | ok tt =>
  simp only [ok_bind, except_map_ok, Fl.sc_mul_right, Fl.sc_sub, Fl.sc_pydiv']
  cases pydiv (r.zeta - st * r.rhobar * tt) (ct * r.rhobar) with
  | error e => rfl
  | ok td =>
  refine congrArg Except.ok ?_
  simp only [Fl.sc_add, Fl.sc_sub, Fl.sc_mul_left, Fl.sc_mul_right, Fl.sc_sc, Fl.sc_sqrt hτ rfl]

theorem lsmrQuantities_units (hτ : 0 < τ) (direct : Bool) (normb normA condA normr normar normx : Fl) :
    lsmrQuantities (kw.coords : LsmrKw Fl (Vec F') (Vec E')) direct (Fl.sc τ normb) normA condA (Fl.sc τ normr) (Fl.sc τ normar)
      (Fl.sc τ normx) = lsmrQuantities kw direct normb normA condA normr normar normx := by
  have k2 : (kw.coords : LsmrKw Fl (Vec F') (Vec E')).atol = kw.atol := rfl
  have k3 : (kw.coords : LsmrKw Fl (Vec F') (Vec E')).btol = kw.btol := rfl
  have hratio : ∀ a b : Fl, Fl.sc τ a / Fl.sc τ b = a / b := fun a b => Fl.sc_ratio hτ.ne'
  unfold lsmrQuantities
  simp only [k2, k3, Fl.sc_pyratio hτ, Fl.sc_mul_right, hratio]

/-- corresponding states -/
def LsmrSame (P : E →ₗᵢ[ℝ] E') (Q : F →ₗᵢ[ℝ] F') (τ : ℝ) (s : LsmrLoop Fl (Vec F) (Vec E)) (s' : LsmrLoop Fl (Vec F') (Vec E')) :
    Prop := ∃ beta, s' = lsmrUnits P Q τ beta s

theorem lsmrStep_units (h : LsCoords P Q A AT A' AT') (hτ : 0 < τ) (hM : kw.M = none) (hN : kw.N = none) (lim : Int) (normb : Fl)
    (s : LsmrLoop Fl (Vec F) (Vec E)) (s' : LsmrLoop Fl (Vec F') (Vec E')) (hR : LsmrSame P Q τ s s') :
    ExRel (LsmrSame P Q τ) (lsmrStep A AT kw lim normb s)
      (lsmrStep A' AT' (kw.coords : LsmrKw Fl (Vec F') (Vec E')) lim (Fl.sc τ normb) s') := by
  obtain ⟨be, rfl⟩ := hR
  have k1 : (kw.coords : LsmrKw Fl (Vec F') (Vec E')).storeIterates = kw.storeIterates := rfl
  have k2 : (kw.coords : LsmrKw Fl (Vec F') (Vec E')).storeResids = kw.storeResids := rfl
  have k3 : (kw.coords : LsmrKw Fl (Vec F') (Vec E')).window = kw.window := rfl
  have k4 : (kw.coords : LsmrKw Fl (Vec F') (Vec E')).etol = kw.etol := rfl
  have k5 : (kw.coords : LsmrKw Fl (Vec F') (Vec E')).damp = kw.damp := rfl
  unfold lsmrStep
  rw [lsmrBidiag_units h hM hN, k1, k2, k3, k4, k5]
  cases lsmrBidiag A AT kw s with
  | error e => exact .error e
  | ok p =>
  obtain ⟨Mu, Nv, v, alpha, beta, products⟩ := p
  simp only [ok_bind, except_map_ok, lsmrRot_units]
  cases lsmrRot kw.damp alpha beta s with
  | error e => exact .error e
  | ok r =>
  simp only [ok_bind, except_map_ok, lsmrVectors_units]
  cases lsmrVectors r s v with
  | error e => exact .error e
  | ok p =>
  obtain ⟨hbar, x, hh⟩ := p
  have e0 : (lsmrUnits P Q τ be s).itn = s.itn := rfl
  simp only [ok_bind, except_map_ok, e0]
  cases pymod (s.itn + 1) kw.window with
  | error e => exact .error e
  | ok k =>
  simp only [ok_bind, lsmrResid_units hτ]
  cases lsmrResid r s with
  | error e => exact .error e
  | ok p =>
  obtain ⟨betadd, thetatilde, rhodold, betad, tautildeold, d, normr⟩ := p
  have e1 : (lsmrUnits P Q τ be s).maxrbar = s.maxrbar := rfl
  have e2 : (lsmrUnits P Q τ be s).minrbar = s.minrbar := rfl
  have e3 : (lsmrUnits P Q τ be s).rhobar = s.rhobar := rfl
  have e4 : (r.units τ).rhotemp = r.rhotemp := rfl
  have e5 : (lsmrUnits P Q τ be s).normA2 = s.normA2 := rfl
  have e6 : (r.units τ).zetabar = Fl.sc τ r.zetabar := rfl
  have e7 : (r.units τ).zeta = Fl.sc τ r.zeta := rfl
  have e8 : (lsmrUnits P Q τ be s).xNrgNorm2 = Fl.sc (τ * τ) s.xNrgNorm2 := rfl
  have e9 : (lsmrUnits P Q τ be s).dErr = s.dErr.map (Fl.sc τ) := rfl
  simp only [ok_bind, except_map_ok, e1, e2, e3, e4, e5, e6, e7, e8, e9]
  generalize pydiv (pymax (pymax s.maxrbar s.rhobar) r.rhotemp)
    (pymin (if s.itn + 1 > 1 then pymin s.minrbar s.rhobar else s.minrbar) r.rhotemp) = cond
  cases cond with
  | error e => exact .error e
  | ok condA =>
  have htr : normList ((s.dErr.map (Fl.sc τ)).set k (Fl.sc τ r.zeta)) = Fl.sc τ (normList (s.dErr.set k r.zeta)) := by
    rw [← List.map_set, Fl.sc_normList hτ]
  have hratio : ∀ a b : Fl, Fl.sc τ a / Fl.sc τ b = a / b := fun a b => Fl.sc_ratio hτ.ne'
  simp only [ok_bind, Fl.sc_abs hτ, Vec.sc_norm hτ.le, Fl.sc_mul_left, Fl.sc_mul_right, Fl.sc_sc, Fl.sc_add, Fl.sc_sqrt hτ rfl, htr,
    Fl.sc_lt hτ, lsmrQuantities_units hτ, hratio]
  generalize lsmrQuantities kw _ _ _ _ _ _ _ = q
  cases q with
  | error e => exact .error e
  | ok tests =>
  refine .ok ⟨beta, ?_⟩
  have hstop : ∀ t, lsmrStop (kw.coords : LsmrKw Fl (Vec F') (Vec E')) lim (s.itn + 1) t = lsmrStop kw lim (s.itn + 1) t := fun _ => rfl
  simp only [lsmrUnits, LsmrRot.units, hstop, List.map_set]
  congr 1
  all_goals split <;> simp

/-- the results in other units and coordinates; `selfX` is the attribute `x` -/
noncomputable def LsmrRes.units (P : E →ₗᵢ[ℝ] E') (τ : ℝ) (r : LsmrRes Fl (Vec E)) : LsmrRes Fl (Vec E') :=
  { x := Vec.sc P τ r.x, istop := r.istop, itn := r.itn, normr := Fl.sc τ r.normr, normar := Fl.sc τ r.normar, normA := r.normA,
    condA := r.condA, normx := Fl.sc τ r.normx, selfX := r.selfX.map (Vec.sc P τ), resids := r.resids.map (Fl.sc τ),
    normalEqns := r.normalEqns.map (Fl.sc τ), norms := r.norms.map (Fl.sc (τ * τ)), dirErrors := r.dirErrors,
    iterates := r.iterates.map (Vec.sc P τ) }

theorem lsmr_units (h : LsCoords P Q A AT A' AT') (hτ : 0 < τ) (hM : kw.M = none) (hN : kw.N = none) (m n : Nat) (b : Vec F) :
    ExRel (fun p p' => p'.1 = p.1.units P τ ∧ p'.2.products = p.2.products) (lsmrSolve A AT m n b kw none)
      (lsmrSolve A' AT' m n (Vec.sc Q τ b) (kw.coords : LsmrKw Fl (Vec F') (Vec E')) none) := by
  unfold lsmrSolve
  have k2 : (kw.coords : LsmrKw Fl (Vec F') (Vec E')).itnlim = kw.itnlim := rfl
  rw [k2, lsmrInit_units h hτ hM hN]
  cases lsmrInit AT kw b with
  | error e => exact .error e
  | ok s =>
  simp only [ok_bind, except_map_ok]
  have hz : feq (lsmrUnits P Q τ (Fl.sc τ s.beta) s).normar (lit 0) = feq s.normar (lit 0) := Fl.sc_feq0 hτ
  unfold lsmrMain
  rw [hz]
  split
  · exact .ok ⟨rfl, rfl⟩
  · have hf : lsmrFirst (kw.coords : LsmrKw Fl (Vec F') (Vec E')) (lsmrUnits P Q τ (Fl.sc τ s.beta) s) =
        lsmrUnits P Q τ (Fl.sc τ s.beta) (lsmrFirst kw s) := by
      have k1 : (kw.coords : LsmrKw Fl (Vec F') (Vec E')).storeResids = kw.storeResids := rfl
      unfold lsmrFirst
      rw [k1]
      split <;> rfl
    have main : ExRel (LsmrSame P Q τ) (lsmrLoop A AT kw (lsmrLimit m n kw.itnlim) s.beta (lsmrFirst kw s))
        (lsmrLoop A' AT' (kw.coords : LsmrKw Fl (Vec F') (Vec E')) (lsmrLimit m n kw.itnlim) (Fl.sc τ s.beta)
          (lsmrUnits P Q τ (Fl.sc τ s.beta) (lsmrFirst kw s))) :=
      exceptLoop_rel (LsmrSame P Q τ) (fun s s' hR => by obtain ⟨_, rfl⟩ := hR; rfl)
        (fun s s' hR => lsmrStep_units h hτ hM hN _ _ s s' hR) _ _ ⟨_, rfl⟩
    have e0 : (lsmrUnits P Q τ (Fl.sc τ s.beta) s).beta = Fl.sc τ s.beta := rfl
    rw [hf, e0]
    revert main
    generalize lsmrLoop A AT kw (lsmrLimit m n kw.itnlim) s.beta (lsmrFirst kw s) = r
    generalize lsmrLoop A' AT' (kw.coords : LsmrKw Fl (Vec F') (Vec E')) (lsmrLimit m n kw.itnlim) (Fl.sc τ s.beta)
      (lsmrUnits P Q τ (Fl.sc τ s.beta) (lsmrFirst kw s)) = r'
    intro main
    cases main with
    | error e => exact .error e
    | ok hR =>
      obtain ⟨_, rfl⟩ := hR
      exact .ok ⟨rfl, rfl⟩

end Verif.Solver
