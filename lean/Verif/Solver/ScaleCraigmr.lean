import Verif.Solver.ScaleLSQR
import Verif.Solver.CraigmrExact

/-!
# Units and coordinates in CRAIG-MR: simulation

CRAIG-MR solves `(A Aᵀ + I) x = b`, so that the operator has no unit; the right-hand side and the unknowns have the same unit `τ`.  The
vectors and coefficients of the bidiagonalization have no unit.  Without preconditioners.
-/

namespace Verif.Solver
open Scalar Vect

variable {E E' F F' : Type} [NormedAddCommGroup E] [InnerProductSpace ℝ E] [NormedAddCommGroup E'] [InnerProductSpace ℝ E']
  [NormedAddCommGroup F] [InnerProductSpace ℝ F] [NormedAddCommGroup F'] [InnerProductSpace ℝ F']

namespace Vec
variable {Q : E →ₗᵢ[ℝ] E'} {u v : Vec E} {a : Fl} {c : ℝ}

theorem sc_dot1 : dot (sc Q 1 u) (sc Q 1 v) = dot u v := by rw [sc_dot (one_mul 1), Fl.sc_one]

theorem sc_norm1 : norm (sc Q 1 u) = norm u := by rw [sc_norm zero_le_one, Fl.sc_one]

theorem sc_vdiv' : vdiv (sc Q c v) a = sc Q c (vdiv v a) := by
  have := sc_vdiv (Q := Q) (v := v) (a := a) (c := c) (d := 1) (e := c) one_ne_zero (mul_one c).symm
  rwa [Fl.sc_one] at this

end Vec

variable {P : E →ₗᵢ[ℝ] E'} {Q : F →ₗᵢ[ℝ] F'} {τ : ℝ} {A : Vec E → Vec F} {AT : Vec F → Vec E} {A' : Vec E' → Vec F'}
  {AT' : Vec F' → Vec E'}

/-- the operator and its transpose in other coordinates -/
structure LsCoords (P : E →ₗᵢ[ℝ] E') (Q : F →ₗᵢ[ℝ] F') (A : Vec E → Vec F) (AT : Vec F → Vec E) (A' : Vec E' → Vec F')
    (AT' : Vec F' → Vec E') : Prop where
  A : ∀ v, A' (Vec.sc P 1 v) = Vec.sc Q 1 (A v)
  AT : ∀ u, AT' (Vec.sc Q 1 u) = Vec.sc P 1 (AT u)

/-- the keywords in other coordinates -/
def CraigmrKw.coords (kw : CraigmrKw Fl (Vec F) (Vec E)) : CraigmrKw Fl (Vec F') (Vec E') :=
  { itnlim := kw.itnlim, damp := kw.damp, atol := kw.atol, btol := kw.btol, conlim := kw.conlim, etol := kw.etol,
    storeResids := kw.storeResids, storeIterates := kw.storeIterates, window := kw.window }

/-- the loop variables in other units and coordinates -/
noncomputable def craigmrUnits (P : E →ₗᵢ[ℝ] E') (Q : F →ₗᵢ[ℝ] F') (τ : ℝ) (s : CraigmrLoop Fl (Vec F) (Vec E)) :
    CraigmrLoop Fl (Vec F') (Vec E') :=
  { x := Vec.sc Q τ s.x, Mu := Vec.sc Q 1 s.Mu, Nv := s.Nv.map (Vec.sc P 1), v := Vec.sc P 1 s.v, alpha := s.alpha, c := s.c, s := s.s,
    d := Vec.sc Q 1 s.d, dbar := Vec.sc Q 1 s.dbar, theta := s.theta, alphaTilde := s.alphaTilde, zetaHat := Fl.sc τ s.zetaHat,
    xNrgNorm2 := Fl.sc (τ * τ) s.xNrgNorm2, dErr := s.dErr.map (Fl.sc τ), istop := s.istop, itn := s.itn,
    norms := s.norms.map (Fl.sc (τ * τ)), normalEqns := s.normalEqns.map (Fl.sc τ), dirErrors := s.dirErrors,
    iterates := s.iterates.map (Vec.sc Q τ), products := s.products }

variable {kw : CraigmrKw Fl (Vec F) (Vec E)}

theorem craigmrVectors_units (h : LsCoords P Q A AT A' AT') (hτ : 0 < τ) (hM : kw.M = none) (hN : kw.N = none) (b : Vec F) :
    craigmrVectors AT' (kw.coords : CraigmrKw Fl (Vec F') (Vec E')) (Vec.sc Q τ b) = (craigmrVectors AT kw b).map fun p =>
      (Vec.sc Q 1 p.1, Vec.sc Q 1 p.2.1, Fl.sc τ p.2.2.1, p.2.2.2.1.map (Vec.sc P 1), Vec.sc P 1 p.2.2.2.2.1, p.2.2.2.2.2.1,
        p.2.2.2.2.2.2) := by
  have m1 : (kw.coords : CraigmrKw Fl (Vec F') (Vec E')).M = none := rfl
  have m2 : (kw.coords : CraigmrKw Fl (Vec F') (Vec E')).N = none := rfl
  unfold craigmrVectors
  simp only [m1, m2, hM, hN, applyPrecon, Vec.sc_dot rfl, Fl.sc_pysqrt hτ rfl]
  cases hb : pysqrt (dot b b) with
  | error e => rfl
  | ok beta =>
    simp only [except_map_ok, ok_bind, Fl.sc_gt0 hτ, Vec.sc_vdiv (Q := Q) (v := b) (a := beta) hτ.ne' (one_mul τ).symm, h.AT,
      Vec.sc_dot (one_mul 1), Fl.sc_one]
    split
    · generalize AT (vdiv b beta) = Nv
      cases ha : pysqrt (dot Nv Nv) with
      | error e => rfl
      | ok alpha =>
        simp only [ok_bind, Vec.sc_vdiv']
        split <;> rfl
    · rename_i hnb
      rw [Vec.sc_null hb hnb τ 1, ← Vec.sc_zeros (Q := P) (c := 1)]
      rfl

theorem craigmrStart_units (Mu u : Vec F) (beta : Fl) (Nv : Option (Vec E)) (v : Vec E) (alpha : Fl) (k : Nat) :
    craigmrStart (kw.coords : CraigmrKw Fl (Vec F') (Vec E')) (Vec.sc Q 1 Mu) (Vec.sc Q 1 u) (Fl.sc τ beta) (Nv.map (Vec.sc P 1))
      (Vec.sc P 1 v) alpha k = (craigmrStart kw Mu u beta Nv v alpha k).map (craigmrUnits P Q τ) := by
  have k1 : (kw.coords : CraigmrKw Fl (Vec F') (Vec E')).storeIterates = kw.storeIterates := rfl
  have k2 : (kw.coords : CraigmrKw Fl (Vec F') (Vec E')).storeResids = kw.storeResids := rfl
  have k3 : (kw.coords : CraigmrKw Fl (Vec F') (Vec E')).window = kw.window := rfl
  unfold craigmrStart
  generalize sqrt (alpha * alpha + lit 1) = alphaHat
  simp only
  cases pydiv alpha alphaHat with
  | error e => rfl
  | ok c =>
  simp only [ok_bind]
  cases pydiv (lit 1) alphaHat with
  | error e => rfl
  | ok s =>
  refine congrArg Except.ok ?_
  simp only [craigmrUnits, k1, k2, k3, Fl.sc_lit0, Vec.sc_zeros, Vec.sc_vdiv', List.map_replicate, List.map_nil]
  congr 1
  · split <;> simp only [List.map_cons, List.map_nil, Fl.sc_lit0]
  · split <;> simp only [List.map_cons, List.map_nil, Vec.sc_zeros]

theorem craigmrBidiag_units (h : LsCoords P Q A AT A' AT') (hM : kw.M = none) (hN : kw.N = none) (s : CraigmrLoop Fl (Vec F) (Vec E)) :
    craigmrBidiag A' AT' (kw.coords : CraigmrKw Fl (Vec F') (Vec E')) (craigmrUnits P Q τ s) = (craigmrBidiag A AT kw s).map fun p =>
      (Vec.sc Q 1 p.1, Vec.sc Q 1 p.2.1, p.2.2.1.map (Vec.sc P 1), Vec.sc P 1 p.2.2.2.1, p.2.2.2.2) := by
  have m1 : (kw.coords : CraigmrKw Fl (Vec F') (Vec E')).M = none := rfl
  have m2 : (kw.coords : CraigmrKw Fl (Vec F') (Vec E')).N = none := rfl
  unfold craigmrBidiag
  simp only [m1, m2, hM, hN, applyPrecon, craigmrUnits, h.A, Vec.sc_smul', Vec.sc_sub]
  generalize A s.v - smul s.alpha s.Mu = b
  rw [Vec.sc_dot1]
  cases hb : pysqrt (dot b b) with
  | error e => rfl
  | ok be =>
    simp only [ok_bind, Vec.sc_vdiv', h.AT]
    split
    · cases s.Nv with
      | none => rfl
      | some Nv0 =>
      simp only [Option.map_some, bound, ok_bind, Vec.sc_smul', Vec.sc_sub, Vec.sc_dot1]
      cases pysqrt (dot (AT (vdiv b be) - smul be Nv0) (AT (vdiv b be) - smul be Nv0)) with
      | error e => rfl
      | ok alpha =>
        simp only [ok_bind, Vec.sc_vdiv']
        split <;> rfl
    · rfl

theorem craigmrStep_units (h : LsCoords P Q A AT A' AT') (hτ : 0 < τ) (hM : kw.M = none) (hN : kw.N = none) (lim : Int)
    (s : CraigmrLoop Fl (Vec F) (Vec E)) :
    craigmrStep A' AT' (kw.coords : CraigmrKw Fl (Vec F') (Vec E')) lim (craigmrUnits P Q τ s) =
      (craigmrStep A AT kw lim s).map (craigmrUnits P Q τ) := by
  have k1 : (kw.coords : CraigmrKw Fl (Vec F') (Vec E')).storeIterates = kw.storeIterates := rfl
  have k2 : (kw.coords : CraigmrKw Fl (Vec F') (Vec E')).storeResids = kw.storeResids := rfl
  have k3 : (kw.coords : CraigmrKw Fl (Vec F') (Vec E')).window = kw.window := rfl
  have k4 : (kw.coords : CraigmrKw Fl (Vec F') (Vec E')).etol = kw.etol := rfl
  unfold craigmrStep
  rw [craigmrBidiag_units h hM hN, k1, k2, k3, k4]
  cases craigmrBidiag A AT kw s with
  | error e => rfl
  | ok p =>
  obtain ⟨Mu, u, Nv, v, alpha, beta, products⟩ := p
  simp only [ok_bind, except_map_ok, craigmrUnits]
  cases craigmrRot s.c s.s alpha beta with
  | error e => rfl
  | ok p =>
  obtain ⟨betaHat, alphaHat, c, sn⟩ := p
  simp only [ok_bind]
  cases pydiv s.alphaTilde (sqrt (s.alphaTilde * s.alphaTilde + betaHat * betaHat)) with
  | error e => rfl
  | ok cHat =>
  simp only [ok_bind]
  cases pydiv betaHat (sqrt (s.alphaTilde * s.alphaTilde + betaHat * betaHat)) with
  | error e => rfl
  | ok sHat =>
  simp only [ok_bind]
  cases pymod (s.itn + 1) kw.window with
  | error e => rfl
  | ok k =>
  simp only [ok_bind]
  refine congrArg Except.ok ?_
  have htr : normList ((s.dErr.map (Fl.sc τ)).set k (Fl.sc τ (cHat * s.zetaHat))) = Fl.sc τ (normList (s.dErr.set k (cHat * s.zetaHat))) := by
    rw [← List.map_set, Fl.sc_normList hτ]
  have hratio : ∀ a b : Fl, Fl.sc τ a / Fl.sc τ b = a / b := fun a b => Fl.sc_ratio hτ.ne'
  simp only [craigmrUnits, Fl.sc_mul_right, Fl.sc_mul_left, Fl.sc_sc, Fl.sc_add, htr, Fl.sc_sqrt hτ rfl, Fl.sc_lt hτ, hratio, Fl.sc_abs hτ, Vec.sc_smul', Vec.sc_sub,
    Vec.sc_vdiv', Vec.sc_smul (mul_one τ), Vec.sc_add, List.map_set]
  congr 1
  · split <;> simp
  · split <;> simp
  · split <;> simp

/-- the results in other units and coordinates -/
noncomputable def CraigmrRes.units (Q : F →ₗᵢ[ℝ] F') (τ : ℝ) (r : CraigmrRes Fl (Vec F)) : CraigmrRes Fl (Vec F') :=
  { x := Vec.sc Q τ r.x, istop := r.istop, itn := r.itn, nMatvec := r.nMatvec, optimal := r.optimal, status := r.status,
    norms := r.norms.map (Fl.sc (τ * τ)), normalEqns := r.normalEqns.map (Fl.sc τ), dirErrors := r.dirErrors,
    iterates := r.iterates.map (Vec.sc Q τ) }

theorem craigmr_units (h : LsCoords P Q A AT A' AT') (hτ : 0 < τ) (hM : kw.M = none) (hN : kw.N = none) (m n : Nat) (b : Vec F) :
    ExRel (fun p p' => p'.1 = p.1.units Q τ ∧ p'.2.products = p.2.products) (craigmrSolve A AT m n b kw)
      (craigmrSolve A' AT' m n (Vec.sc Q τ b) (kw.coords : CraigmrKw Fl (Vec F') (Vec E'))) := by
  unfold craigmrSolve
  have k2 : (kw.coords : CraigmrKw Fl (Vec F') (Vec E')).itnlim = kw.itnlim := rfl
  rw [k2, craigmrVectors_units h hτ hM hN]
  cases craigmrVectors AT kw b with
  | error e => exact .error e
  | ok p =>
  obtain ⟨Mu, u, beta, Nv, v, alpha, products⟩ := p
  simp only [ok_bind, except_map_ok]
  rw [craigmrStart_units]
  cases craigmrStart kw Mu u beta Nv v alpha products with
  | error e => exact .error e
  | ok s =>
  simp only [ok_bind, except_map_ok]
  have main : ExRel (fun s s' => s' = craigmrUnits P Q τ s) (craigmrLoop A AT kw (craigmrLimit m n kw.itnlim) s)
      (craigmrLoop A' AT' (kw.coords : CraigmrKw Fl (Vec F') (Vec E')) (craigmrLimit m n kw.itnlim) (craigmrUnits P Q τ s)) := by
    refine exceptLoop_rel (fun s s' => s' = craigmrUnits P Q τ s) (fun s s' hR => by rw [hR]; rfl) (fun s s' hR => ?_) s _ rfl
    rw [hR, craigmrStep_units h hτ hM hN]
    cases craigmrStep A AT kw (craigmrLimit m n kw.itnlim) s with
    | error e => exact .error e
    | ok t => exact .ok rfl
  revert main
  generalize craigmrLoop A AT kw (craigmrLimit m n kw.itnlim) s = r
  generalize craigmrLoop A' AT' (kw.coords : CraigmrKw Fl (Vec F') (Vec E')) (craigmrLimit m n kw.itnlim) (craigmrUnits P Q τ s) = r'
  intro main
  cases main with
  | error e => exact .error e
  | ok hR =>
    subst hR
    exact .ok ⟨rfl, rfl⟩

end Verif.Solver
