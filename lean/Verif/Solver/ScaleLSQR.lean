import Verif.Solver.Scale
import Verif.Solver.LSQRPrecon
import Mathlib.Tactic.FieldSimp
import Mathlib.Tactic.Positivity

/-!
# Units and coordinates in LSQR: simulation

Unknowns have the unit `σ`, right-hand sides the unit `τ`; the operator, its transpose and `damp` have the unit `τ / σ`.  The vectors of the
bidiagonalization have no unit.  Without preconditioners.
-/

namespace Verif.Solver
open Scalar Vect

/-! ### Further rules -/

namespace Fl
variable {c d e : ℝ} {a b : Fl}

theorem sc_feq0 (hc : 0 < c) : feq (sc c a) (lit 0) = feq a (lit 0) := by
  rw [← sc_lit0 c, sc_feq hc, sc_lit0]

theorem sc_gt0 (hc : 0 < c) : gt (sc c a) (lit 0) = gt a (lit 0) := by
  rw [← sc_lit0 c, sc_gt hc, sc_lit0]

theorem sc_pydiv (hd : 0 < d) (h : c = e * d) : pydiv (sc c a) (sc d b) = (pydiv a b).map (sc e) := by
  unfold pydiv
  rw [sc_feq0 hd, sc_div hd.ne' h]
  split <;> rfl

theorem sc_pyratio (hc : 0 < c) : pydiv (sc c a) (sc c b) = pydiv a b := by
  unfold pydiv
  rw [sc_feq0 hc, sc_ratio hc.ne']

theorem sc_pysqrt (hd : 0 < d) (h : c = d * d) : pysqrt (sc c a) = (pysqrt a).map (sc d) := by
  unfold pysqrt
  rw [sc_lt0 (by rw [h]; positivity), sc_sqrt hd h]
  split <;> rfl

theorem sc_normof2 (hc : 0 < c) : normof2 (sc c a) (sc c b) = sc c (normof2 a b) := by
  unfold normof2
  rw [sc_mul rfl, sc_mul rfl, sc_add, sc_sqrt hc rfl]

theorem sc_normof4 (hc : 0 < c) (a b p q : Fl) : normof4 (sc c a) (sc c b) (sc c p) (sc c q) = sc c (normof4 a b p q) := by
  unfold normof4
  rw [sc_mul rfl, sc_mul rfl, sc_mul rfl, sc_mul rfl, sc_add, sc_add, sc_add, sc_sqrt hc rfl]

theorem sc_normList (hc : 0 < c) (l : List Fl) : normList (l.map (sc c)) = sc c (normList l) := by
  unfold normList
  have : ∀ (l : List Fl) (a : Fl), (l.map (sc c)).foldl (fun acc a => acc + a * a) (sc (c * c) a) =
      sc (c * c) (l.foldl (fun acc a => acc + a * a) a) := by
    intro l
    induction l with
    | nil => intro a; rfl
    | cons x l ih =>
      intro a
      simp only [List.map_cons, List.foldl_cons]
      rw [sc_mul rfl, sc_add, ih]
  have h := this l (lit 0)
  rw [sc_lit0] at h
  rw [h, sc_sqrt hc rfl]

end Fl

variable {E E' F F' : Type} [NormedAddCommGroup E] [InnerProductSpace ℝ E] [NormedAddCommGroup E'] [InnerProductSpace ℝ E']
  [NormedAddCommGroup F] [InnerProductSpace ℝ F] [NormedAddCommGroup F'] [InnerProductSpace ℝ F']

/-- a vector whose computed norm is not positive is zero or undefined, so that it has no unit -/
theorem Vec.sc_null {Q : E →ₗᵢ[ℝ] E'} {u : Vec E} {α : Fl} (hs : pysqrt (dot u u) = .ok α) (h : ¬ gt α (lit 0) = true) (c d : ℝ) :
    Vec.sc Q c u = Vec.sc Q d u := by
  cases u with
  | nan => rfl
  | fin u =>
    unfold pysqrt at hs
    split at hs
    · cases hs
    · cases hs
      rw [Vec.fin_dot, Fl.fin_sqrt real_inner_self_nonneg, real_inner_self_eq_norm_mul_norm, Real.sqrt_mul_self (norm_nonneg _)] at h
      have : u = 0 := by
        by_contra h0
        exact h (by simp [gt, norm_pos_iff, h0])
      simp [this]

/-! ### The correspondence -/

/-- the keywords in other units -/
def LsqrKw.units (a : ℝ) (kw : LsqrKw Fl (Vec F) (Vec E)) : LsqrKw Fl (Vec F') (Vec E') :=
  { itnlim := kw.itnlim, damp := Fl.sc a kw.damp, atol := kw.atol, btol := kw.btol, conlim := kw.conlim, etol := kw.etol, inf := kw.inf,
    wantvar := kw.wantvar, storeResids := kw.storeResids, storeIterates := kw.storeIterates, window := kw.window }

/-- the loop variables in other units; `beta` has the unit of the right-hand side before the loop and that of the operator in the loop -/
noncomputable def lsqrUnits (P : E →ₗᵢ[ℝ] E') (Q : F →ₗᵢ[ℝ] F') (σ τ : ℝ) (beta : Fl) (s : LsqrLoop Fl (Vec F) (Vec E)) :
    LsqrLoop Fl (Vec F') (Vec E') :=
  { x := Vec.sc P σ s.x, Mu := Vec.sc Q 1 s.Mu, Nv := Vec.sc P 1 s.Nv, v := s.v.map (Vec.sc P 1), w := s.w.map (Vec.sc P 1),
    alpha := Fl.sc (τ / σ) s.alpha, beta := beta, rhobar := Fl.sc (τ / σ) s.rhobar, phibar := Fl.sc τ s.phibar,
    Anorm := Fl.sc (τ / σ) s.Anorm, Acond := s.Acond, Arnorm := Fl.sc (τ / σ * τ) s.Arnorm, r1norm := Fl.sc τ s.r1norm,
    r2norm := Fl.sc τ s.r2norm, xnorm := Fl.sc σ s.xnorm, xxnorm := Fl.sc (σ * σ) s.xxnorm, ddnorm := Fl.sc (σ / τ * (σ / τ)) s.ddnorm,
    res2 := Fl.sc (τ * τ) s.res2, z := Fl.sc σ s.z, cs2 := s.cs2, sn2 := s.sn2, xNrgNorm2 := Fl.sc (τ * τ) s.xNrgNorm2,
    dErr := s.dErr.map (Fl.sc τ), istop := s.istop, itn := s.itn, resids := s.resids.map (Fl.sc τ),
    normalEqns := s.normalEqns.map (Fl.sc (τ / σ * τ)), dirErrors := s.dirErrors, iterates := s.iterates.map (Vec.sc P σ),
    products := s.products, last := s.last }

variable {P : E →ₗᵢ[ℝ] E'} {Q : F →ₗᵢ[ℝ] F'} {σ τ : ℝ} {A : Vec E → Vec F} {AT : Vec F → Vec E} {A' : Vec E' → Vec F'}
  {AT' : Vec F' → Vec E'} {kw : LsqrKw Fl (Vec F) (Vec E)}

/-- the operator and its transpose in other units and coordinates -/
structure LsUnits (P : E →ₗᵢ[ℝ] E') (Q : F →ₗᵢ[ℝ] F') (σ τ : ℝ) (A : Vec E → Vec F) (AT : Vec F → Vec E) (A' : Vec E' → Vec F')
    (AT' : Vec F' → Vec E') : Prop where
  hσ : 0 < σ
  hτ : 0 < τ
  A : ∀ v, A' (Vec.sc P 1 v) = Vec.sc Q (τ / σ) (A v)
  AT : ∀ u, AT' (Vec.sc Q 1 u) = Vec.sc P (τ / σ) (AT u)

theorem lsqrStart_units (beta : Fl) (Mu : Vec F) (Nv : Vec E) (v w : Option (Vec E)) (alpha : Fl) (k : Nat) :
    lsqrStart (kw.units (τ / σ)) (Fl.sc τ beta) (Vec.sc Q 1 Mu) (Vec.sc P 1 Nv) (v.map (Vec.sc P 1)) (w.map (Vec.sc P 1))
      (Fl.sc (τ / σ) alpha) k = lsqrUnits P Q σ τ (Fl.sc τ beta) (lsqrStart kw beta Mu Nv v w alpha k) := by
  have k1 : (kw.units (τ / σ) : LsqrKw Fl (Vec F') (Vec E')).storeIterates = kw.storeIterates := rfl
  have k2 : (kw.units (τ / σ) : LsqrKw Fl (Vec F') (Vec E')).storeResids = kw.storeResids := rfl
  have k3 : (kw.units (τ / σ) : LsqrKw Fl (Vec F') (Vec E')).window = kw.window := rfl
  simp only [lsqrStart, lsqrUnits, k1, k2, k3, Fl.sc_lit0, Vec.sc_zeros, Fl.sc_mul (c := τ / σ) (d := τ) rfl, List.map_replicate]
  congr 1
  · split <;> rfl
  · split <;> rfl
  · split <;> simp only [List.map_cons, List.map_nil, Vec.sc_zeros]

theorem lsqrInit_units (h : LsUnits P Q σ τ A AT A' AT') (hM : kw.M = none) (hN : kw.N = none) (b : Vec F) :
    lsqrInit AT' (kw.units (τ / σ)) (Vec.sc Q τ b) = (lsqrInit AT kw b).map fun s => lsqrUnits P Q σ τ (Fl.sc τ s.beta) s := by
  have h1 := h.hσ
  have h2 := h.hτ
  have m1 : (kw.units (τ / σ) : LsqrKw Fl (Vec F') (Vec E')).M = none := rfl
  have m2 : (kw.units (τ / σ) : LsqrKw Fl (Vec F') (Vec E')).N = none := rfl
  unfold lsqrInit
  simp only [m1, m2, hM, hN, applyPrecon, Vec.sc_dot rfl, Fl.sc_pysqrt h2 rfl]
  cases hb : pysqrt (dot b b) with
  | error e => rfl
  | ok beta =>
    simp only [except_map_ok, ok_bind, Fl.sc_gt0 h2, Vec.sc_vdiv (Q := Q) (v := b) (a := beta) h2.ne' (one_mul τ).symm, h.AT, Vec.sc_dot rfl]
    split
    · generalize AT (vdiv b beta) = Nv
      rw [Fl.sc_pysqrt (show 0 < τ / σ by positivity) rfl]
      cases ha : pysqrt (dot Nv Nv) with
      | error e => rfl
      | ok alpha =>
        simp only [except_map_ok, ok_bind, Fl.sc_gt0 (show 0 < τ / σ by positivity),
          Vec.sc_vdiv (Q := P) (v := Nv) (a := alpha) (show τ / σ ≠ 0 by positivity) (one_mul (τ / σ)).symm]
        split
        · exact congrArg Except.ok (lsqrStart_units beta _ _ (some _) (some _) alpha 1)
        · rename_i hna
          rw [Vec.sc_null ha hna (τ / σ) 1]
          exact congrArg Except.ok (lsqrStart_units beta _ _ (some _) none alpha 1)
    · rename_i hnb
      rw [Vec.sc_null hb hnb τ 1]
      have := lsqrStart_units (P := P) (Q := Q) (σ := σ) (τ := τ) (kw := kw) beta b zeros none none (lit 0) 0
      rw [Vec.sc_zeros, Fl.sc_lit0] at this
      exact congrArg Except.ok this

theorem lsqrBidiag_units (h : LsUnits P Q σ τ A AT A' AT') (hM : kw.M = none) (hN : kw.N = none) (beta : Fl)
    (s : LsqrLoop Fl (Vec F) (Vec E)) (v : Vec E) :
    lsqrBidiag A' AT' (kw.units (τ / σ)) (lsqrUnits P Q σ τ beta s) (Vec.sc P 1 v) = (lsqrBidiag A AT kw s v).map fun p =>
      (Vec.sc Q 1 p.1, Vec.sc P 1 p.2.1, Vec.sc P 1 p.2.2.1, Fl.sc (τ / σ) p.2.2.2.1, Fl.sc (τ / σ) p.2.2.2.2.1,
        Fl.sc (τ / σ) p.2.2.2.2.2.1, p.2.2.2.2.2.2) := by
  have h1 := h.hσ
  have h2 := h.hτ
  have h3 : 0 < τ / σ := by positivity
  have m1 : (kw.units (τ / σ) : LsqrKw Fl (Vec F') (Vec E')).M = none := rfl
  have m2 : (kw.units (τ / σ) : LsqrKw Fl (Vec F') (Vec E')).N = none := rfl
  have m3 : (kw.units (τ / σ) : LsqrKw Fl (Vec F') (Vec E')).damp = Fl.sc (τ / σ) kw.damp := rfl
  unfold lsqrBidiag
  simp only [m1, m2, m3, hM, hN, applyPrecon, lsqrUnits, h.A, Vec.sc_smul (mul_one (τ / σ)), Vec.sc_sub]
  generalize A v - smul s.alpha s.Mu = b
  rw [Vec.sc_dot rfl, Fl.sc_pysqrt h3 rfl]
  cases hb : pysqrt (dot b b) with
  | error e => rfl
  | ok be =>
    simp only [except_map_ok, ok_bind, Fl.sc_gt0 h3, Vec.sc_vdiv (Q := Q) (v := b) (a := be) h3.ne' (one_mul (τ / σ)).symm, h.AT,
      Vec.sc_smul (mul_one (τ / σ)), Vec.sc_sub, Fl.sc_normof4 h3]
    split
    · generalize AT (vdiv b be) - smul be s.Nv = Nv
      rw [Vec.sc_dot rfl, Fl.sc_pysqrt h3 rfl]
      cases ha : pysqrt (dot Nv Nv) with
      | error e => rfl
      | ok alpha =>
        simp only [except_map_ok, ok_bind, Fl.sc_gt0 h3,
          Vec.sc_vdiv (Q := P) (v := Nv) (a := alpha) h3.ne' (one_mul (τ / σ)).symm]
        split
        · rfl
        · rename_i hna
          rw [Vec.sc_null ha hna (τ / σ) 1]; rfl
    · rename_i hnb
      rw [Vec.sc_null hb hnb (τ / σ) 1]; rfl

theorem lsqrRot1_units {a τ : ℝ} (h : 0 < a) (damp rhobar phibar : Fl) :
    lsqrRot1 (Fl.sc a damp) (Fl.sc a rhobar) (Fl.sc τ phibar) =
      (lsqrRot1 damp rhobar phibar).map fun p => (Fl.sc a p.1, Fl.sc τ p.2.1, Fl.sc τ p.2.2) := by
  unfold lsqrRot1
  simp only [Fl.sc_normof2 h, Fl.sc_pyratio h, Fl.sc_mul_right]
  cases pydiv rhobar (normof2 rhobar damp) with
  | error e => rfl
  | ok c => cases pydiv damp (normof2 rhobar damp) <;> rfl

theorem lsqrRot2_units {σ τ : ℝ} (h1 : 0 < σ) (h2 : 0 < τ) (rhobar1 beta alpha phibar : Fl) :
    lsqrRot2 (Fl.sc (τ / σ) rhobar1) (Fl.sc (τ / σ) beta) (Fl.sc (τ / σ) alpha) (Fl.sc τ phibar) =
      (lsqrRot2 rhobar1 beta alpha phibar).map fun p => (Fl.sc (τ / σ) p.1, Fl.sc (τ / σ) p.2.1, Fl.sc (τ / σ) p.2.2.1,
        Fl.sc τ p.2.2.2.1, Fl.sc τ p.2.2.2.2.1, Fl.sc τ p.2.2.2.2.2.1, Fl.sc σ p.2.2.2.2.2.2.1, p.2.2.2.2.2.2.2) := by
  have h : 0 < τ / σ := by positivity
  unfold lsqrRot2
  simp only [Fl.sc_normof2 h, Fl.sc_pyratio h]
  generalize normof2 rhobar1 beta = rho
  cases pydiv rhobar1 rho with
  | error e => rfl
  | ok cs =>
  cases pydiv beta rho with
  | error e => rfl
  | ok sn =>
  simp only [ok_bind, Fl.sc_mul_right, Fl.sc_neg, Fl.sc_pydiv (c := τ) (d := τ / σ) (e := σ) h (by field_simp), Fl.sc_pyratio h]
  cases pydiv (cs * phibar) rho with
  | error e => rfl
  | ok t1 => cases pydiv (-(sn * alpha)) rho <;> rfl

theorem lsqrXnorm_units (h1 : 0 < σ) (h2 : 0 < τ) (beta : Fl) (s : LsqrLoop Fl (Vec F) (Vec E)) (rho theta phi : Fl) :
    lsqrXnorm (lsqrUnits P Q σ τ beta s) (Fl.sc (τ / σ) rho) (Fl.sc (τ / σ) theta) (Fl.sc τ phi) =
      (lsqrXnorm s rho theta phi).map fun p => (Fl.sc σ p.1, p.2.1, p.2.2.1, Fl.sc σ p.2.2.2) := by
  have h : 0 < τ / σ := by positivity
  have e : τ / σ * σ = τ := by field_simp
  unfold lsqrXnorm
  simp only [lsqrUnits, Fl.sc_mul_right, Fl.sc_mul_left, Fl.sc_sc, e, Fl.sc_sub, Fl.sc_normof2 h,
    Fl.sc_pydiv (c := τ) (d := τ / σ) (e := σ) h (by field_simp), Fl.sc_pyratio h]
  rw [show σ * (τ / σ) = τ by field_simp, Fl.sc_sub, Fl.sc_pydiv (c := τ) (d := τ / σ) (e := σ) h (by field_simp),
    Fl.sc_pydiv (c := τ) (d := τ / σ) (e := σ) h (by field_simp)]
  cases pydiv (phi - s.sn2 * rho * s.z) (-s.cs2 * rho) with
  | error e => rfl
  | ok zbar =>
  simp only [except_map_ok, ok_bind]
  cases pydiv (-s.cs2 * rho) (normof2 (-s.cs2 * rho) theta) with
  | error e => rfl
  | ok c2 =>
  simp only [ok_bind]
  cases pydiv theta (normof2 (-s.cs2 * rho) theta) with
  | error e => rfl
  | ok s2 =>
  simp only [ok_bind]
  cases pydiv (phi - s.sn2 * rho * s.z) (normof2 (-s.cs2 * rho) theta) with
  | error e => rfl
  | ok z =>
  simp only [except_map_ok, ok_bind]
  rw [Fl.sc_mul rfl, Fl.sc_add, Fl.sc_sqrt h1 rfl]
  rfl

theorem lsqrQuantities_units (h1 : 0 < σ) (h2 : 0 < τ) (direct : Bool) (bnorm Anorm Acond rnorm Arnorm xnorm : Fl) :
    lsqrQuantities (kw.units (τ / σ) : LsqrKw Fl (Vec F') (Vec E')) direct (Fl.sc τ bnorm) (Fl.sc (τ / σ) Anorm) Acond (Fl.sc τ rnorm)
      (Fl.sc (τ / σ * τ) Arnorm) (Fl.sc σ xnorm) = lsqrQuantities kw direct bnorm Anorm Acond rnorm Arnorm xnorm := by
  have h : 0 < τ / σ := by positivity
  have k1 : (kw.units (τ / σ) : LsqrKw Fl (Vec F') (Vec E')).inf = kw.inf := rfl
  have k2 : (kw.units (τ / σ) : LsqrKw Fl (Vec F') (Vec E')).atol = kw.atol := rfl
  have k3 : (kw.units (τ / σ) : LsqrKw Fl (Vec F') (Vec E')).btol = kw.btol := rfl
  have e : τ / σ * σ = τ := by field_simp
  have t2 : lsqrTest2 kw.inf (Fl.sc (τ / σ) Anorm) (Fl.sc τ rnorm) (Fl.sc (τ / σ * τ) Arnorm) = lsqrTest2 kw.inf Anorm rnorm Arnorm := by
    unfold lsqrTest2
    rw [Fl.sc_feq0 h, Fl.sc_feq0 h2, Fl.sc_mul rfl, Fl.sc_pyratio (by positivity)]
  unfold lsqrQuantities
  rw [k1, k2, k3, t2, Fl.sc_pyratio h2, Fl.sc_mul_right (a := kw.atol), Fl.sc_mul e, Fl.sc_pyratio h2, Fl.sc_mul e, Fl.sc_pyratio h2]

/-- corresponding states -/
def LsqrSame (P : E →ₗᵢ[ℝ] E') (Q : F →ₗᵢ[ℝ] F') (σ τ : ℝ) (s : LsqrLoop Fl (Vec F) (Vec E)) (s' : LsqrLoop Fl (Vec F') (Vec E')) :
    Prop := ∃ beta, s' = lsqrUnits P Q σ τ beta s

theorem lsqrStep_units (h : LsUnits P Q σ τ A AT A' AT') (hM : kw.M = none) (hN : kw.N = none) (lim : Int) (bnorm : Fl)
    (s : LsqrLoop Fl (Vec F) (Vec E)) (s' : LsqrLoop Fl (Vec F') (Vec E')) (hR : LsqrSame P Q σ τ s s') :
    ExRel (LsqrSame P Q σ τ) (lsqrStep A AT kw lim bnorm s) (lsqrStep A' AT' (kw.units (τ / σ)) lim (Fl.sc τ bnorm) s') := by
  obtain ⟨be, rfl⟩ := hR
  have h1 := h.hσ
  have h2 := h.hτ
  have h3 : 0 < τ / σ := by positivity
  unfold lsqrStep
  have e0 : (lsqrUnits P Q σ τ be s).v = s.v.map (Vec.sc P 1) := rfl
  have e1 : (lsqrUnits P Q σ τ be s).w = s.w.map (Vec.sc P 1) := rfl
  have e2 : (lsqrUnits P Q σ τ be s).rhobar = Fl.sc (τ / σ) s.rhobar := rfl
  have e3 : (lsqrUnits P Q σ τ be s).phibar = Fl.sc τ s.phibar := rfl
  have e5 : (lsqrUnits P Q σ τ be s).itn = s.itn := rfl
  have k0 : (kw.units (τ / σ) : LsqrKw Fl (Vec F') (Vec E')).damp = Fl.sc (τ / σ) kw.damp := rfl
  have k1 : (kw.units (τ / σ) : LsqrKw Fl (Vec F') (Vec E')).storeIterates = kw.storeIterates := rfl
  have k2 : (kw.units (τ / σ) : LsqrKw Fl (Vec F') (Vec E')).storeResids = kw.storeResids := rfl
  have k3 : (kw.units (τ / σ) : LsqrKw Fl (Vec F') (Vec E')).etol = kw.etol := rfl
  have k4 : (kw.units (τ / σ) : LsqrKw Fl (Vec F') (Vec E')).window = kw.window := rfl
  simp only [e0, e1, e2, e3, e5, k0, k1, k2, k3, k4]
  cases s.v with
  | none => exact .error _
  | some v0 =>
  simp only [Option.map_some, bound, ok_bind]
  rw [lsqrBidiag_units h hM hN]
  cases lsqrBidiag A AT kw s v0 with
  | error e => exact .error e
  | ok p =>
  obtain ⟨Mu, Nv, v, alpha, beta, Anorm, products⟩ := p
  simp only [ok_bind, except_map_ok]
  rw [lsqrRot1_units h3]
  cases lsqrRot1 kw.damp s.rhobar s.phibar with
  | error e => exact .error e
  | ok p =>
  obtain ⟨rhobar1, psi, phibar⟩ := p
  simp only [ok_bind, except_map_ok]
  rw [lsqrRot2_units h1 h2]
  cases lsqrRot2 rhobar1 beta alpha phibar with
  | error e => exact .error e
  | ok p =>
  obtain ⟨rho, theta, rhobar, phi, phibar, tau, t1, t2⟩ := p
  simp only [ok_bind, except_map_ok]
  have hir : pydiv (lit 1) (Fl.sc (τ / σ) rho) = (pydiv (lit 1) rho).map (Fl.sc (σ / τ)) := by
    have := Fl.sc_pydiv (a := lit 1) (b := rho) (c := 1) (d := τ / σ) (e := σ / τ) h3 (by field_simp)
    rwa [Fl.sc_one] at this
  rw [hir]
  cases pydiv (lit 1) rho with
  | error e => exact .error e
  | ok invRho =>
  cases s.w with
  | none => exact .error _
  | some w =>
  simp only [Option.map_some, ok_bind, except_map_ok]
  cases pymod (s.itn + 1) kw.window with
  | error e => exact .error e
  | ok k =>
  simp only [ok_bind]
  rw [lsqrXnorm_units h1 h2]
  cases lsqrXnorm s rho theta phi with
  | error e => exact .error e
  | ok p =>
  obtain ⟨xnorm, cs2, sn2, z⟩ := p
  simp only [ok_bind, except_map_ok]
  have e6 : (lsqrUnits P Q σ τ be s).xxnorm = Fl.sc (σ * σ) s.xxnorm := rfl
  have e7 : (lsqrUnits P Q σ τ be s).res2 = Fl.sc (τ * τ) s.res2 := rfl
  have e8 : (lsqrUnits P Q σ τ be s).xNrgNorm2 = Fl.sc (τ * τ) s.xNrgNorm2 := rfl
  have e9 : (lsqrUnits P Q σ τ be s).dErr = s.dErr.map (Fl.sc τ) := rfl
  have e10 : (lsqrUnits P Q σ τ be s).ddnorm = Fl.sc (σ / τ * (σ / τ)) s.ddnorm := rfl
  have e11 : (lsqrUnits P Q σ τ be s).x = Vec.sc P σ s.x := rfl
  have hst : 0 < σ / τ := by positivity
  have hdk : norm (smul (Fl.sc (σ / τ) invRho) (Vec.sc P 1 w)) = Fl.sc (σ / τ) (norm (smul invRho w)) := by
    rw [Vec.sc_smul (mul_one _), Vec.sc_norm hst.le]
  have hdd : Fl.sc (σ / τ * (σ / τ)) s.ddnorm + Fl.sc (σ / τ) (norm (smul invRho w)) * Fl.sc (σ / τ) (norm (smul invRho w)) =
      Fl.sc (σ / τ * (σ / τ)) (s.ddnorm + norm (smul invRho w) * norm (smul invRho w)) := by rw [Fl.sc_mul rfl, Fl.sc_add]
  have hac : ∀ d : Fl, Fl.sc (τ / σ) Anorm * sqrt (Fl.sc (σ / τ * (σ / τ)) d) = Anorm * sqrt d := by
    intro d
    rw [Fl.sc_sqrt hst rfl, Fl.sc_mul (e := 1) (by field_simp), Fl.sc_one]
  have hxn : Fl.sc (τ * τ) s.xNrgNorm2 + Fl.sc τ phi * Fl.sc τ phi = Fl.sc (τ * τ) (s.xNrgNorm2 + phi * phi) := by
    rw [Fl.sc_mul rfl, Fl.sc_add]
  have htr : normList ((s.dErr.map (Fl.sc τ)).set k (Fl.sc τ phi)) = Fl.sc τ (normList (s.dErr.set k phi)) := by
    rw [← List.map_set, Fl.sc_normList h2]
  have hxx : Fl.sc (σ * σ) s.xxnorm + Fl.sc σ z * Fl.sc σ z = Fl.sc (σ * σ) (s.xxnorm + z * z) := by
    rw [Fl.sc_mul rfl, Fl.sc_add]
  have hr2 : Fl.sc (τ * τ) s.res2 + Fl.sc τ psi * Fl.sc τ psi = Fl.sc (τ * τ) (s.res2 + psi * psi) := by
    rw [Fl.sc_mul rfl, Fl.sc_add]
  have hrn : sqrt (Fl.sc τ phibar * Fl.sc τ phibar + Fl.sc (τ * τ) (s.res2 + psi * psi)) =
      Fl.sc τ (sqrt (phibar * phibar + (s.res2 + psi * psi))) := by
    rw [Fl.sc_mul rfl, Fl.sc_add, Fl.sc_sqrt h2 rfl]
  have har : Fl.sc (τ / σ) alpha * Scalar.abs (Fl.sc τ tau) = Fl.sc (τ / σ * τ) (alpha * Scalar.abs tau) := by
    rw [Fl.sc_abs h2, Fl.sc_mul rfl]
  have hdx : Fl.sc (τ / σ) kw.damp * Fl.sc (τ / σ) kw.damp * Fl.sc (σ * σ) (s.xxnorm + z * z) =
      Fl.sc (τ * τ) (kw.damp * kw.damp * (s.xxnorm + z * z)) := by
    rw [Fl.sc_mul rfl, Fl.sc_mul (e := τ * τ) (by field_simp)]
  simp only [e6, e7, e8, e9, e10, e11]
  simp only [hdk]
  simp only [hdd]
  simp only [hac]
  simp only [hxn, htr, hxx, hr2]
  simp only [hrn, har, hdx]
  simp only [Fl.sc_mul rfl, Fl.sc_sub]
  generalize hrn' : sqrt (phibar * phibar + (s.res2 + psi * psi)) = rnorm
  have hxe : sqrt (Fl.sc (τ * τ) (s.xNrgNorm2 + phi * phi)) = Fl.sc τ (sqrt (s.xNrgNorm2 + phi * phi)) := Fl.sc_sqrt h2 rfl
  simp only [hxe, Fl.sc_mul_right, Fl.sc_lt h2]
  rw [lsqrQuantities_units h1 h2]
  generalize hq : lsqrQuantities kw _ bnorm Anorm _ _ _ xnorm = q
  cases q with
  | error e => exact .error e
  | ok tests =>
  refine .ok ⟨Fl.sc (τ / σ) beta, ?_⟩
  have hr1 : ∀ r : Fl, (if lt (Fl.sc (τ * τ) r) (lit 0) = true then -sqrt (Scalar.abs (Fl.sc (τ * τ) r)) else
      sqrt (Scalar.abs (Fl.sc (τ * τ) r))) = Fl.sc τ (if lt r (lit 0) = true then -sqrt (Scalar.abs r) else sqrt (Scalar.abs r)) := by
    intro r
    have hp : 0 < τ * τ := by positivity
    rw [Fl.sc_lt0 hp, Fl.sc_abs hp, Fl.sc_sqrt h2 rfl, Fl.sc_neg]
    split <;> rfl
  have hratio : ∀ a b : Fl, Fl.sc τ a / Fl.sc τ b = a / b := fun a b => Fl.sc_ratio h2.ne'
  have hstop : ∀ t, lsqrStop (kw.units (τ / σ) : LsqrKw Fl (Vec F') (Vec E')) lim (s.itn + 1) t = lsqrStop kw lim (s.itn + 1) t :=
    fun t => rfl
  simp only [hr1, hratio, hstop, lsqrUnits, List.map_set, Option.map_some, Vec.sc_smul', Vec.sc_smul (mul_one σ), Vec.sc_add]
  congr 1
  · split <;> simp
  · split <;> simp
  · split <;> simp

/-- the results in other units and coordinates -/
noncomputable def LsqrRes.units (P : E →ₗᵢ[ℝ] E') (σ τ : ℝ) (r : LsqrRes Fl (Vec E)) : LsqrRes Fl (Vec E') :=
  { x := Vec.sc P σ r.x, istop := r.istop, itn := r.itn, nMatvec := r.nMatvec, optimal := r.optimal, status := r.status,
    r1norm := Fl.sc τ r.r1norm, r2norm := Fl.sc τ r.r2norm, Anorm := Fl.sc (τ / σ) r.Anorm, Acond := r.Acond,
    Arnorm := Fl.sc (τ / σ * τ) r.Arnorm, xnorm := Fl.sc σ r.xnorm, resids := r.resids.map (Fl.sc τ),
    normalEqns := r.normalEqns.map (Fl.sc (τ / σ * τ)), dirErrors := r.dirErrors, iterates := r.iterates.map (Vec.sc P σ),
    ctol := r.ctol }

theorem lsqr_units (h : LsUnits P Q σ τ A AT A' AT') (hM : kw.M = none) (hN : kw.N = none) (n : Nat) (b : Vec F) :
    ExRel (fun p p' => p'.1 = p.1.units P σ τ ∧ p'.2.products = p.2.products) (lsqrSolve A AT n b kw)
      (lsqrSolve A' AT' n (Vec.sc Q τ b) (kw.units (τ / σ))) := by
  have h1 := h.hσ
  have h2 := h.hτ
  have h3 : 0 < τ / σ * τ := by positivity
  unfold lsqrSolve
  have k1 : (kw.units (τ / σ) : LsqrKw Fl (Vec F') (Vec E')).wantvar = kw.wantvar := rfl
  have k2 : (kw.units (τ / σ) : LsqrKw Fl (Vec F') (Vec E')).itnlim = kw.itnlim := rfl
  simp only [k1, k2, lsqrInit_units h hM hN]
  cases lsqrVar kw.wantvar with
  | error e => exact .error e
  | ok _ =>
  cases lsqrInit AT kw b with
  | error e => exact .error e
  | ok s =>
  simp only [ok_bind, except_map_ok]
  have main : ExRel (LsqrSame P Q σ τ) (lsqrMain A AT kw (lsqrLimit n kw.itnlim) s)
      (lsqrMain A' AT' (kw.units (τ / σ)) (lsqrLimit n kw.itnlim) (lsqrUnits P Q σ τ (Fl.sc τ s.beta) s)) := by
    have hz : lsqrXZero (lsqrUnits P Q σ τ (Fl.sc τ s.beta) s) = lsqrXZero s := Fl.sc_feq0 h3
    unfold lsqrMain
    rw [hz]
    split
    · exact .ok ⟨_, rfl⟩
    · exact exceptLoop_rel (LsqrSame P Q σ τ) (fun s s' hR => by obtain ⟨_, rfl⟩ := hR; rfl)
        (fun s s' hR => lsqrStep_units h hM hN _ _ s s' hR) s _ ⟨_, rfl⟩
  revert main
  generalize lsqrMain A AT kw (lsqrLimit n kw.itnlim) s = r
  generalize lsqrMain A' AT' (kw.units (τ / σ)) (lsqrLimit n kw.itnlim) (lsqrUnits P Q σ τ (Fl.sc τ s.beta) s) = r'
  intro main
  cases main with
  | error e => exact .error e
  | ok hR =>
    obtain ⟨_, rfl⟩ := hR
    exact .ok ⟨rfl, rfl⟩

end Verif.Solver
