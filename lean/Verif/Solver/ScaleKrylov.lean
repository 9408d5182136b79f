import Verif.Solver.Scale
import Verif.Solver.CGS
import Verif.Solver.BiCGSTAB
import Verif.Solver.TFQMR
import Mathlib.Tactic.FieldSimp
import Mathlib.Tactic.Positivity

/-!
# Units and coordinates in CG, CGS, Bi-CGSTAB and TFQMR: simulations

Solutions have the unit `σ`, right-hand sides and residuals the unit `τ`, products with the operator `τ / σ`, products with the
preconditioner `κ`.
-/

namespace Verif.Solver
open Scalar Vect

variable {E E' : Type} [NormedAddCommGroup E] [InnerProductSpace ℝ E] [NormedAddCommGroup E'] [InnerProductSpace ℝ E']

/-- the operator and the preconditioner in other units and coordinates -/
structure Units (Q : E →ₗᵢ[ℝ] E') (σ τ κ : ℝ) (op : Vec E → Vec E) (op' : Vec E' → Vec E') (M : Option (Vec E → Vec E))
    (M' : Option (Vec E' → Vec E')) : Prop where
  hσ : 0 < σ
  hτ : 0 < τ
  hκ : 0 < κ
  op : ∀ c v, op' (Vec.sc Q c v) = Vec.sc Q (c * (τ / σ)) (op v)
  pre : ∀ c v, applyPrecon M' (Vec.sc Q c v) = Vec.sc Q (c * κ) (applyPrecon M v)

variable {Q : E →ₗᵢ[ℝ] E'} {σ τ κ : ℝ} {op : Vec E → Vec E} {op' : Vec E' → Vec E'} {M : Option (Vec E → Vec E)}
  {M' : Option (Vec E' → Vec E')}

/-! ### CGS -/

/-- corresponding loop variables -/
structure CGSUnits (Q : E →ₗᵢ[ℝ] E') (σ τ : ℝ) (s : CGSLoop Fl (Vec E)) (s' : CGSLoop Fl (Vec E')) : Prop where
  x : s'.x = Vec.sc Q σ s.x
  r : s'.r = Vec.sc Q τ s.r
  u : s'.u = Vec.sc Q τ s.u
  p : s'.p = Vec.sc Q τ s.p
  rho : s'.rho = Fl.sc (τ * τ) s.rho
  residNorm : s'.residNorm = Fl.sc τ s.residNorm
  nMatvec : s'.nMatvec = s.nMatvec
  finished : s'.finished = s.finished
  calls : s'.calls.length = s.calls.length

theorem cgsStep_units (h : Units Q σ τ κ op op' M M') (t : Fl) (mm : Nat) (r0 : Vec E) {s : CGSLoop Fl (Vec E)}
    {s' : CGSLoop Fl (Vec E')} (hs : CGSUnits Q σ τ s s') :
    CGSUnits Q σ τ (cgsStep op M t mm r0 s) (cgsStep op' M' (Fl.sc τ t) mm (Vec.sc Q τ r0) s') := by
  have h1 := h.hσ
  have h2 := h.hτ
  have h3 := h.hκ
  have ey : applyPrecon M' s'.p = Vec.sc Q (τ * κ) (applyPrecon M s.p) := by rw [hs.p, h.pre]
  have ev := h.op (τ * κ) (applyPrecon M s.p)
  have ea : s'.rho / dot (Vec.sc Q τ r0) (op' (applyPrecon M' s'.p)) =
      Fl.sc (σ / (κ * τ)) (s.rho / dot r0 (op (applyPrecon M s.p))) := by
    rw [ey, ev, Vec.sc_dot rfl, hs.rho]
    exact Fl.sc_div (by positivity) (by field_simp)
  generalize hal : s.rho / dot r0 (op (applyPrecon M s.p)) = alpha at ea
  have eq : s'.u - smul (Fl.sc (σ / (κ * τ)) alpha) (op' (applyPrecon M' s'.p)) =
      Vec.sc Q τ (s.u - smul alpha (op (applyPrecon M s.p))) := by
    rw [ey, ev, Vec.sc_smul (e := τ) (by field_simp), hs.u, Vec.sc_sub]
  generalize hq : s.u - smul alpha (op (applyPrecon M s.p)) = q at eq
  have ez : applyPrecon M' (s'.u + Vec.sc Q τ q) = Vec.sc Q (τ * κ) (applyPrecon M (s.u + q)) := by
    rw [hs.u, Vec.sc_add, h.pre]
  generalize hz : applyPrecon M (s.u + q) = z at ez
  have ex : s'.x + smul (Fl.sc (σ / (κ * τ)) alpha) (Vec.sc Q (τ * κ) z) = Vec.sc Q σ (s.x + smul alpha z) := by
    rw [Vec.sc_smul (e := σ) (by field_simp), hs.x, Vec.sc_add]
  have er : s'.r - smul (Fl.sc (σ / (κ * τ)) alpha) (op' (Vec.sc Q (τ * κ) z)) = Vec.sc Q τ (s.r - smul alpha (op z)) := by
    rw [h.op, Vec.sc_smul (e := τ) (by field_simp), hs.r, Vec.sc_sub]
  generalize hr : s.r - smul alpha (op z) = r at er
  have en : norm (Vec.sc Q τ r) = Fl.sc τ (norm r) := Vec.sc_norm h2.le
  have erho : dot (Vec.sc Q τ r0) (Vec.sc Q τ r) = Fl.sc (τ * τ) (dot r0 r) := Vec.sc_dot rfl
  have eb : Fl.sc (τ * τ) (dot r0 r) / Fl.sc (τ * τ) s.rho = dot r0 r / s.rho := Fl.sc_ratio (by positivity)
  unfold cgsStep
  simp only [ea, hal]
  simp only [eq, hq]
  simp only [ez, hz]
  simp only [ex, er, hr]
  simp only [en, erho, hs.rho, eb, Fl.sc_le h2, hs.nMatvec]
  split
  · exact ⟨rfl, rfl, hs.u, hs.p, rfl, rfl, rfl, rfl, by simp [hs.calls]⟩
  · refine ⟨rfl, rfl, ?_, ?_, rfl, rfl, rfl, rfl, by simp [hs.calls]⟩
    · simp only [Vec.sc_smul', Vec.sc_add]
    · simp only [hs.p, Vec.sc_smul', Vec.sc_add]

/-- the options in other units -/
def KrylovOpts.units (o : KrylovOpts Fl (Vec E)) (τ : ℝ) (M' : Option (Vec E' → Vec E')) : KrylovOpts Fl (Vec E') :=
  { abstol := Fl.sc τ o.abstol, reltol := o.reltol, precon := M' }

/-- the keywords in other units -/
def KrylovKw.units (Q : E →ₗᵢ[ℝ] E') (σ : ℝ) (kw : KrylovKw (Vec E)) : KrylovKw (Vec E') :=
  { guess := kw.guess.map (Vec.sc Q σ), matvecMax := kw.matvecMax }

/-- the results in other units -/
def KrylovRes.units (Q : E →ₗᵢ[ℝ] E') (σ τ : ℝ) (r : KrylovRes Fl (Vec E)) : KrylovRes Fl (Vec E') :=
  { residNorm0 := Fl.sc τ r.residNorm0, converged := r.converged, nMatvec := r.nMatvec, x := Vec.sc Q σ r.x,
    residNorm := Fl.sc τ r.residNorm }

theorem units_resid (h : Units Q σ τ κ op op' M M') (b g : Vec E) :
    Vec.sc Q τ b - op' (Vec.sc Q σ g) = Vec.sc Q τ (b - op g) := by
  have h1 := h.hσ
  rw [h.op, show σ * (τ / σ) = τ by field_simp, Vec.sc_sub]

theorem units_norm (hτ : 0 < τ) (r : Vec E) : Scalar.abs (sqrt (dot (Vec.sc Q τ r) (Vec.sc Q τ r))) =
    Fl.sc τ (Scalar.abs (sqrt (dot r r))) := by
  rw [Vec.sc_dot rfl, Fl.sc_sqrt hτ rfl, Fl.sc_abs hτ]

theorem units_threshold (hτ : 0 < τ) (o : KrylovOpts Fl (Vec E)) (a : Fl) :
    pymax (o.units τ M').abstol ((o.units τ M').reltol * Fl.sc τ a) = Fl.sc τ (pymax o.abstol (o.reltol * a)) := by
  simp only [KrylovOpts.units]
  rw [Fl.sc_mul_right, Fl.sc_pymax hτ]

theorem cgs_units (o : KrylovOpts Fl (Vec E)) (h : Units Q σ τ κ op op' o.precon M') (n : Nat) (b : Vec E) (kw : KrylovKw (Vec E)) :
    (cgsSolve op' (o.units τ M') n (Vec.sc Q τ b) (kw.units Q σ)).1 = (cgsSolve op o n b kw).1.units Q σ τ ∧
    (cgsSolve op' (o.units τ M') n (Vec.sc Q τ b) (kw.units Q σ)).2.length = (cgsSolve op o n b kw).2.length := by
  have hτ := h.hτ
  have loop : ∀ t mm r0 s s', CGSUnits Q σ τ s s' → CGSUnits Q σ τ (cgsLoop op o.precon t mm r0 s)
      (cgsLoop op' M' (Fl.sc τ t) mm (Vec.sc Q τ r0) s') := by
    intro t mm r0 s s' hs
    exact whileLoop_sim (CGSUnits Q σ τ) (fun _ _ h => by rw [h.finished])
      (fun s s' hs _ => cgsStep_units h t mm r0 hs) s s' hs
  have hp : (o.units τ M').precon = M' := rfl
  have fin : ∀ {t : Fl} {s : CGSLoop Fl (Vec E)} {s' : CGSLoop Fl (Vec E')}, CGSUnits Q σ τ s s' → ∀ r0 : Fl,
      ({ residNorm0 := Fl.sc τ r0, converged := le s'.residNorm (Fl.sc τ t), nMatvec := s'.nMatvec, x := s'.x,
         residNorm := s'.residNorm } : KrylovRes Fl (Vec E')) =
      KrylovRes.units Q σ τ { residNorm0 := r0, converged := le s.residNorm t, nMatvec := s.nMatvec, x := s.x, residNorm := s.residNorm } := by
    intro t s s' hs r0
    rw [hs.residNorm, hs.x, hs.nMatvec, Fl.sc_le hτ]; rfl
  unfold cgsSolve
  cases hg : kw.guess with
  | none =>
    simp only [KrylovKw.units, hg, Option.map_none, Option.getD_none, units_norm hτ, units_threshold hτ, hp, Fl.sc_le hτ]
    have := loop (pymax o.abstol (o.reltol * Scalar.abs (sqrt (dot b b)))) (kw.matvecMax.getD (2 * n)) b
      { x := zeros, r := b, u := b, p := b, rho := dot b b, residNorm := Scalar.abs (sqrt (dot b b)), nMatvec := 0,
        finished := le (Scalar.abs (sqrt (dot b b))) (pymax o.abstol (o.reltol * Scalar.abs (sqrt (dot b b)))) ||
          decide (0 ≥ kw.matvecMax.getD (2 * n)), calls := [] }
      { x := zeros, r := Vec.sc Q τ b, u := Vec.sc Q τ b, p := Vec.sc Q τ b, rho := dot (Vec.sc Q τ b) (Vec.sc Q τ b),
        residNorm := Fl.sc τ (Scalar.abs (sqrt (dot b b))), nMatvec := 0,
        finished := le (Scalar.abs (sqrt (dot b b))) (pymax o.abstol (o.reltol * Scalar.abs (sqrt (dot b b)))) ||
          decide (0 ≥ kw.matvecMax.getD (2 * n)), calls := [] }
      ⟨Vec.sc_zeros.symm, rfl, rfl, rfl, Vec.sc_dot rfl, rfl, rfl, rfl, rfl⟩
    exact ⟨fin this _, this.calls⟩
  | some g =>
    simp only [KrylovKw.units, hg, Option.map_some, Option.getD_some, units_resid h, units_norm hτ, units_threshold hτ, hp, Fl.sc_le hτ]
    have := loop (pymax o.abstol (o.reltol * Scalar.abs (sqrt (dot (b - op g) (b - op g))))) (kw.matvecMax.getD (2 * n)) (b - op g)
      { x := g, r := b - op g, u := b - op g, p := b - op g, rho := dot (b - op g) (b - op g),
        residNorm := Scalar.abs (sqrt (dot (b - op g) (b - op g))), nMatvec := 0,
        finished := le (Scalar.abs (sqrt (dot (b - op g) (b - op g))))
          (pymax o.abstol (o.reltol * Scalar.abs (sqrt (dot (b - op g) (b - op g))))) ||
          decide (0 ≥ kw.matvecMax.getD (2 * n)), calls := [g] }
      { x := Vec.sc Q σ g, r := Vec.sc Q τ (b - op g), u := Vec.sc Q τ (b - op g), p := Vec.sc Q τ (b - op g),
        rho := dot (Vec.sc Q τ (b - op g)) (Vec.sc Q τ (b - op g)),
        residNorm := Fl.sc τ (Scalar.abs (sqrt (dot (b - op g) (b - op g)))), nMatvec := 0,
        finished := le (Scalar.abs (sqrt (dot (b - op g) (b - op g))))
          (pymax o.abstol (o.reltol * Scalar.abs (sqrt (dot (b - op g) (b - op g))))) ||
          decide (0 ≥ kw.matvecMax.getD (2 * n)), calls := [Vec.sc Q σ g] }
      ⟨rfl, rfl, rfl, rfl, Vec.sc_dot rfl, rfl, rfl, rfl, rfl⟩
    exact ⟨fin this _, this.calls⟩

/-! ### Bi-CGSTAB -/

/-- corresponding loop variables; of `p`, `v`, `rho`, `alpha` and `omega` only the next direction matters, because the first pass
starts from the unit values 1 whatever the units -/
structure BiUnits (Q : E →ₗᵢ[ℝ] E') (σ τ : ℝ) (s : BiLoop Fl (Vec E)) (s' : BiLoop Fl (Vec E')) : Prop where
  x : s'.x = Vec.sc Q σ s.x
  r : s'.r = Vec.sc Q τ s.r
  rhoNext : s'.rhoNext = Fl.sc (τ * τ) s.rhoNext
  dir : s.finished = false →
    smul (s'.rhoNext / s'.rho * s'.alpha / s'.omega) s'.p - smul (s'.rhoNext / s'.rho * s'.alpha / s'.omega * s'.omega) s'.v + s'.r =
    Vec.sc Q τ (smul (s.rhoNext / s.rho * s.alpha / s.omega) s.p - smul (s.rhoNext / s.rho * s.alpha / s.omega * s.omega) s.v + s.r)
  residNorm : s'.residNorm = Fl.sc τ s.residNorm
  nMatvec : s'.nMatvec = s.nMatvec
  finished : s'.finished = s.finished
  calls : s'.calls.length = s.calls.length

theorem biStep_units (h : Units Q σ τ κ op op' M M') (t : Fl) (mm : Nat) (r0 : Vec E) {s : BiLoop Fl (Vec E)}
    {s' : BiLoop Fl (Vec E')} (hs : BiUnits Q σ τ s s') (hf : s.finished = false) :
    BiUnits Q σ τ (biStep op M t mm r0 s) (biStep op' M' (Fl.sc τ t) mm (Vec.sc Q τ r0) s') := by
  have h1 := h.hσ
  have h2 := h.hτ
  have h3 := h.hκ
  have hd := hs.dir hf
  generalize hp : smul (s.rhoNext / s.rho * s.alpha / s.omega) s.p - smul (s.rhoNext / s.rho * s.alpha / s.omega * s.omega) s.v + s.r = p at hd
  generalize hp' : smul (s'.rhoNext / s'.rho * s'.alpha / s'.omega) s'.p -
    smul (s'.rhoNext / s'.rho * s'.alpha / s'.omega * s'.omega) s'.v + s'.r = p' at hd
  have eq : applyPrecon M' p' = Vec.sc Q (τ * κ) (applyPrecon M p) := by rw [hd, h.pre]
  generalize hq : applyPrecon M p = q at eq
  have ev := h.op (τ * κ) q
  generalize hv : op q = v at ev
  have ea : s'.rhoNext / dot (Vec.sc Q τ r0) (Vec.sc Q (τ * κ * (τ / σ)) v) = Fl.sc (σ / (κ * τ)) (s.rhoNext / dot r0 v) := by
    rw [Vec.sc_dot rfl, hs.rhoNext]
    exact Fl.sc_div (by positivity) (by field_simp)
  generalize hal : s.rhoNext / dot r0 v = alpha at ea
  have es : s'.r - smul (Fl.sc (σ / (κ * τ)) alpha) (Vec.sc Q (τ * κ * (τ / σ)) v) = Vec.sc Q τ (s.r - smul alpha v) := by
    rw [Vec.sc_smul (e := τ) (by field_simp), hs.r, Vec.sc_sub]
  generalize hss : s.r - smul alpha v = ss at es
  have en : norm (Vec.sc Q τ ss) = Fl.sc τ (norm ss) := Vec.sc_norm h2.le
  have exq : smul (Fl.sc (σ / (κ * τ)) alpha) (Vec.sc Q (τ * κ) q) = Vec.sc Q σ (smul alpha q) :=
    Vec.sc_smul (by field_simp)
  have ez := h.pre τ ss
  generalize hz : applyPrecon M ss = z at ez
  have et := h.op (τ * κ) z
  generalize ht : op z = tt at et
  have eo : dot (Vec.sc Q (τ * κ * (τ / σ)) tt) (Vec.sc Q τ ss) / dot (Vec.sc Q (τ * κ * (τ / σ)) tt) (Vec.sc Q (τ * κ * (τ / σ)) tt) =
      Fl.sc (σ / (κ * τ)) (dot tt ss / dot tt tt) := by
    rw [Vec.sc_dot rfl, Vec.sc_dot rfl]
    exact Fl.sc_div (by positivity) (by field_simp)
  generalize hom : dot tt ss / dot tt tt = omega at eo
  have erho : -Fl.sc (σ / (κ * τ)) omega * dot (Vec.sc Q τ r0) (Vec.sc Q (τ * κ * (τ / σ)) tt) = Fl.sc (τ * τ) (-omega * dot r0 tt) := by
    rw [Vec.sc_dot rfl, Fl.sc_neg]
    exact Fl.sc_mul (by field_simp)
  have er : Vec.sc Q τ ss - smul (Fl.sc (σ / (κ * τ)) omega) (Vec.sc Q (τ * κ * (τ / σ)) tt) = Vec.sc Q τ (ss - smul omega tt) := by
    rw [Vec.sc_smul (e := τ) (by field_simp), Vec.sc_sub]
  have exz : smul (Fl.sc (σ / (κ * τ)) omega) (Vec.sc Q (τ * κ) z) = Vec.sc Q σ (smul omega z) :=
    Vec.sc_smul (by field_simp)
  generalize hr : ss - smul omega tt = r at er
  have en' : norm (Vec.sc Q τ r) = Fl.sc τ (norm r) := Vec.sc_norm h2.le
  unfold biStep
  simp only [hp, hp']
  simp only [eq, hq]
  simp only [ev, hv]
  simp only [ea, hal]
  simp only [es, hss, exq]
  simp only [en, ez, hz]
  simp only [et, ht]
  simp only [eo, hom]
  simp only [erho, er, hr, exz]
  simp only [en', Fl.sc_le h2, hs.nMatvec, hs.x, Vec.sc_add]
  split
  · exact ⟨rfl, hs.r, hs.rhoNext, fun h => (by cases h), rfl, rfl, rfl, by simp [hs.calls]⟩
  · split
    · exact ⟨rfl, hs.r, hs.rhoNext, fun h => (by cases h), rfl, rfl, rfl, by simp [hs.calls]⟩
    · refine ⟨rfl, rfl, rfl, fun _ => ?_, rfl, rfl, rfl, by simp [hs.calls]⟩
      simp only [hs.rhoNext, hd]
      rw [Fl.sc_ratio (by positivity), Fl.sc_mul_right, Fl.sc_ratio (by positivity), Fl.sc_mul_right, Vec.sc_smul',
        Vec.sc_smul (e := τ) (by field_simp), Vec.sc_sub, Vec.sc_add]

theorem bi_units (o : KrylovOpts Fl (Vec E)) (h : Units Q σ τ κ op op' o.precon M') (n : Nat) (b : Vec E) (kw : KrylovKw (Vec E)) :
    (biSolve op' (o.units τ M') n (Vec.sc Q τ b) (kw.units Q σ)).1 = (biSolve op o n b kw).1.units Q σ τ ∧
    (biSolve op' (o.units τ M') n (Vec.sc Q τ b) (kw.units Q σ)).2.length = (biSolve op o n b kw).2.length := by
  have hτ := h.hτ
  have loop : ∀ t mm r0 s s', BiUnits Q σ τ s s' → BiUnits Q σ τ (biLoop op o.precon t mm r0 s)
      (biLoop op' M' (Fl.sc τ t) mm (Vec.sc Q τ r0) s') := by
    intro t mm r0 s s' hs
    exact whileLoop_sim (BiUnits Q σ τ) (fun _ _ h => by rw [h.finished])
      (fun s s' hs hf => biStep_units h t mm r0 hs (by simpa using hf)) s s' hs
  have hp : (o.units τ M').precon = M' := rfl
  have fin : ∀ {t : Fl} {s : BiLoop Fl (Vec E)} {s' : BiLoop Fl (Vec E')}, BiUnits Q σ τ s s' → ∀ r0 : Fl,
      ({ residNorm0 := Fl.sc τ r0, converged := le s'.residNorm (Fl.sc τ t), nMatvec := s'.nMatvec, x := s'.x,
         residNorm := s'.residNorm } : KrylovRes Fl (Vec E')) =
      KrylovRes.units Q σ τ { residNorm0 := r0, converged := le s.residNorm t, nMatvec := s.nMatvec, x := s.x, residNorm := s.residNorm } := by
    intro t s s' hs r0
    rw [hs.residNorm, hs.x, hs.nMatvec, Fl.sc_le hτ]; rfl
  have ini : ∀ (x r : Vec E) (x' : Vec E') (calls : List (Vec E)) (calls' : List (Vec E')) (k : Nat) (f : Bool),
      x' = Vec.sc Q σ x → calls'.length = calls.length →
      BiUnits Q σ τ
      { x := x, r := r, p := zeros, v := zeros, rho := lit 1, rhoNext := dot r r, alpha := lit 1, omega := lit 1,
        residNorm := Scalar.abs (sqrt (dot r r)), nMatvec := k, finished := f, calls := calls }
      { x := x', r := Vec.sc Q τ r, p := zeros, v := zeros, rho := lit 1,
        rhoNext := dot (Vec.sc Q τ r) (Vec.sc Q τ r), alpha := lit 1, omega := lit 1,
        residNorm := Fl.sc τ (Scalar.abs (sqrt (dot r r))), nMatvec := k, finished := f, calls := calls' } := by
    intro x r x' calls calls' k f hx hc
    refine ⟨hx, rfl, Vec.sc_dot rfl, fun _ => ?_, rfl, rfl, rfl, hc⟩
    have e : ∀ (u : Fl) (a : Fl), a = lit 1 → Fl.sc (τ * τ) u / a = Fl.sc (τ * τ) (u / a) := by
      rintro u _ rfl
      have := Fl.sc_div (a := u) (b := lit 1) (c := τ * τ) (d := 1) (e := τ * τ) one_ne_zero (by ring)
      rwa [Fl.sc_one] at this
    simp only
    rw [Vec.sc_dot rfl, e _ _ rfl, Fl.sc_mul_left, e _ _ rfl, Fl.sc_mul_left, ← Vec.sc_zeros (Q := Q) (c := 1 / τ),
      Vec.sc_smul (e := τ) (by field_simp), Vec.sc_smul (e := τ) (by field_simp), Vec.sc_sub, Vec.sc_add]
  unfold biSolve
  cases hg : kw.guess with
  | none =>
    simp only [KrylovKw.units, hg, Option.map_none, Option.getD_none, units_norm hτ, units_threshold hτ, hp, Fl.sc_le hτ]
    have := loop (pymax o.abstol (o.reltol * Scalar.abs (sqrt (dot b b)))) (kw.matvecMax.getD (2 * n)) b _ _
      (ini zeros b zeros [] [] 0 (le (Scalar.abs (sqrt (dot b b))) (pymax o.abstol (o.reltol * Scalar.abs (sqrt (dot b b)))) ||
          decide (0 ≥ kw.matvecMax.getD (2 * n))) Vec.sc_zeros.symm rfl)
    exact ⟨fin this _, this.calls⟩
  | some g =>
    simp only [KrylovKw.units, hg, Option.map_some, Option.getD_some, units_resid h, units_norm hτ, units_threshold hτ, hp, Fl.sc_le hτ]
    have := loop (pymax o.abstol (o.reltol * Scalar.abs (sqrt (dot (b - op g) (b - op g))))) (kw.matvecMax.getD (2 * n)) (b - op g) _ _
      (ini g (b - op g) (Vec.sc Q σ g) [g] [Vec.sc Q σ g] 1 (le (Scalar.abs (sqrt (dot (b - op g) (b - op g))))
          (pymax o.abstol (o.reltol * Scalar.abs (sqrt (dot (b - op g) (b - op g))))) ||
          decide (1 ≥ kw.matvecMax.getD (2 * n))) rfl rfl)
    exact ⟨fin this _, this.calls⟩

/-! ### TFQMR -/

/-- corresponding loop variables -/
structure TFUnits (Q : E →ₗᵢ[ℝ] E') (σ τ κ : ℝ) (s : TFLoop Fl (Vec E)) (s' : TFLoop Fl (Vec E')) : Prop where
  x : s'.x = Vec.sc Q σ s.x
  y : s'.y = Vec.sc Q τ s.y
  w : s'.w = Vec.sc Q τ s.w
  d : s'.d = Vec.sc Q (τ * κ) s.d
  z : s'.z = Vec.sc Q (τ * κ) s.z
  u : s'.u = Vec.sc Q (τ * κ * (τ / σ)) s.u
  v : s'.v = Vec.sc Q (τ * κ * (τ / σ)) s.v
  rho : s'.rho = Fl.sc (τ * τ) s.rho
  theta : s'.theta = s.theta
  eta : s'.eta = Fl.sc (σ / (κ * τ)) s.eta
  residNorm : s'.residNorm = Fl.sc τ s.residNorm
  k : s'.k = s.k
  m : s'.m = s.m
  nMatvec : s'.nMatvec = s.nMatvec
  finished : s'.finished = s.finished
  calls : s'.calls.length = s.calls.length

theorem tfPass_units (h1 : 0 < σ) (h2 : 0 < τ) (h3 : 0 < κ) (alpha : Fl) {s : TFLoop Fl (Vec E)} {s' : TFLoop Fl (Vec E')}
    (hs : TFUnits Q σ τ κ s s') : TFUnits Q σ τ κ (tfPass alpha s) (tfPass (Fl.sc (σ / (κ * τ)) alpha) s') := by
  have ew : s'.w - smul (Fl.sc (σ / (κ * τ)) alpha) s'.u = Vec.sc Q τ (s.w - smul alpha s.u) := by
    rw [hs.w, hs.u, Vec.sc_smul (e := τ) (by field_simp), Vec.sc_sub]
  have ed : smul (s'.theta * s'.theta * s'.eta / Fl.sc (σ / (κ * τ)) alpha) s'.d + s'.z =
      Vec.sc Q (τ * κ) (smul (s.theta * s.theta * s.eta / alpha) s.d + s.z) := by
    rw [hs.theta, hs.eta, Fl.sc_mul_right, Fl.sc_ratio (by positivity), hs.d, hs.z, Vec.sc_smul', Vec.sc_add]
  have en : norm (Vec.sc Q τ (s.w - smul alpha s.u)) = Fl.sc τ (norm (s.w - smul alpha s.u)) := Vec.sc_norm h2.le
  have et : Fl.sc τ (norm (s.w - smul alpha s.u)) / s'.residNorm = norm (s.w - smul alpha s.u) / s.residNorm := by
    rw [hs.residNorm, Fl.sc_ratio h2.ne']
  unfold tfPass
  simp only [ew, ed]
  simp only [en]
  simp only [et]
  refine ⟨?_, hs.y, rfl, rfl, hs.z, hs.u, hs.v, hs.rho, rfl, ?_, ?_, hs.k, hs.m, hs.nMatvec, hs.finished, hs.calls⟩
  · simp only [Fl.sc_mul_right, hs.x]
    rw [Vec.sc_smul (e := σ) (by field_simp), Vec.sc_add]
  · exact Fl.sc_mul_right
  · simp only [hs.residNorm]
    exact Fl.sc_mul_left

theorem tfTest_units (h2 : 0 < τ) (t : Fl) (mm : Nat) (m : Fl) {s : TFLoop Fl (Vec E)} {s' : TFLoop Fl (Vec E')}
    (hs : TFUnits Q σ τ κ s s') : tfTest (Fl.sc τ t) mm m s' = tfTest t mm m s := by
  unfold tfTest
  rw [hs.residNorm, hs.nMatvec, Fl.sc_mul_left, Fl.sc_lt h2]

theorem tfMid_units (h : Units Q σ τ κ op op' M M') (alpha m : Fl) {s : TFLoop Fl (Vec E)} {s' : TFLoop Fl (Vec E')}
    (hs : TFUnits Q σ τ κ s s') : TFUnits Q σ τ κ (tfMid op M alpha m s) (tfMid op' M' (Fl.sc (σ / (κ * τ)) alpha) m s') := by
  have h1 := h.hσ
  have h2 := h.hτ
  have h3 := h.hκ
  have ey : s'.y - smul (Fl.sc (σ / (κ * τ)) alpha) s'.v = Vec.sc Q τ (s.y - smul alpha s.v) := by
    rw [hs.y, hs.v, Vec.sc_smul (e := τ) (by field_simp), Vec.sc_sub]
  unfold tfMid
  simp only [ey]
  simp only [h.pre, h.op]
  exact ⟨hs.x, rfl, hs.w, hs.d, rfl, rfl, hs.v, hs.rho, hs.theta, hs.eta, hs.residNorm, hs.k, rfl, by rw [hs.nMatvec], hs.finished,
    by simp [hs.calls]⟩

theorem tfFinal_units (h : Units Q σ τ κ op op' M M') (r0 : Vec E) {s : TFLoop Fl (Vec E)} {s' : TFLoop Fl (Vec E')}
    (hs : TFUnits Q σ τ κ s s') : TFUnits Q σ τ κ (tfFinal op M r0 s) (tfFinal op' M' (Vec.sc Q τ r0) s') := by
  have h1 := h.hσ
  have h2 := h.hτ
  have h3 := h.hκ
  have er : dot (Vec.sc Q τ r0) s'.w = Fl.sc (τ * τ) (dot r0 s.w) := by rw [hs.w, Vec.sc_dot rfl]
  have eb : Fl.sc (τ * τ) (dot r0 s.w) / s'.rho = dot r0 s.w / s.rho := by rw [hs.rho, Fl.sc_ratio (by positivity)]
  unfold tfFinal
  simp only [er]
  simp only [eb]
  generalize dot r0 s.w / s.rho = beta
  have ey : smul beta s'.y + s'.w = Vec.sc Q τ (smul beta s.y + s.w) := by rw [hs.y, hs.w, Vec.sc_smul', Vec.sc_add]
  simp only [ey]
  simp only [h.pre, h.op]
  refine ⟨hs.x, rfl, hs.w, hs.d, rfl, rfl, ?_, rfl, hs.theta, hs.eta, hs.residNorm, hs.k, hs.m, by rw [hs.nMatvec], hs.finished,
    by simp [hs.calls]⟩
  simp only [hs.v, hs.u, Vec.sc_smul', Vec.sc_add]

theorem tfStep_units (h : Units Q σ τ κ op op' M M') (t : Fl) (mm : Nat) (r0 : Vec E) {s : TFLoop Fl (Vec E)}
    {s' : TFLoop Fl (Vec E')} (hs : TFUnits Q σ τ κ s s') :
    TFUnits Q σ τ κ (tfStep op M t mm r0 s) (tfStep op' M' (Fl.sc τ t) mm (Vec.sc Q τ r0) s') := by
  have h1 := h.hσ
  have h2 := h.hτ
  have h3 := h.hκ
  have ea : s'.rho / dot (Vec.sc Q τ r0) s'.v = Fl.sc (σ / (κ * τ)) (s.rho / dot r0 s.v) := by
    rw [hs.rho, hs.v, Vec.sc_dot rfl]
    exact Fl.sc_div (by positivity) (by field_simp)
  generalize hal : s.rho / dot r0 s.v = alpha at ea
  unfold tfStep
  simp only [ea, hal, hs.k]
  generalize hm : (lit 2 * lit ((s.k + 1 : Nat) : ℚ) - lit 1 : Fl) = m
  have p1 : TFUnits Q σ τ κ { tfPass alpha s with k := s.k + 1, m := some m }
      { tfPass (Fl.sc (σ / (κ * τ)) alpha) s' with k := s.k + 1, m := some m } := by
    have := tfPass_units h1 h2 h3 alpha hs
    exact ⟨this.x, this.y, this.w, this.d, this.z, this.u, this.v, this.rho, this.theta, this.eta, this.residNorm, rfl, rfl,
      this.nMatvec, this.finished, this.calls⟩
  have p2 := tfPass_units h1 h2 h3 alpha (tfMid_units h alpha (m + lit 1) p1)
  rw [tfTest_units h2 t mm m p1, tfTest_units h2 t mm (m + lit 1) p2]
  split
  · exact ⟨p1.x, p1.y, p1.w, p1.d, p1.z, p1.u, p1.v, p1.rho, p1.theta, p1.eta, p1.residNorm, rfl, rfl,
      p1.nMatvec, rfl, p1.calls⟩
  · split
    · exact ⟨p2.x, p2.y, p2.w, p2.d, p2.z, p2.u, p2.v, p2.rho, p2.theta, p2.eta, p2.residNorm, p2.k, p2.m,
        p2.nMatvec, rfl, p2.calls⟩
    · exact tfFinal_units h r0 p2

/-- the outcome of `TFQMR.solve` in other units: the same error, or the same results in the other units and as many products -/
def TFOutcome (Q : E →ₗᵢ[ℝ] E') (σ τ : ℝ) :
    Except PyError (KrylovRes Fl (Vec E) × List (Vec E)) → Except PyError (KrylovRes Fl (Vec E') × List (Vec E')) → Prop
  | .ok r, .ok r' => r'.1 = r.1.units Q σ τ ∧ r'.2.length = r.2.length
  | .error e, .error e' => e' = e
  | _, _ => False

theorem tf_units (o : KrylovOpts Fl (Vec E)) (h : Units Q σ τ κ op op' o.precon M') (n : Nat) (b : Vec E) (kw : KrylovKw (Vec E)) :
    TFOutcome Q σ τ (tfSolve op o n b kw) (tfSolve op' (o.units τ M') n (Vec.sc Q τ b) (kw.units Q σ)) := by
  have hτ := h.hτ
  have loop : ∀ t mm r0 s s', TFUnits Q σ τ κ s s' → TFUnits Q σ τ κ (tfLoop op o.precon t mm r0 s)
      (tfLoop op' M' (Fl.sc τ t) mm (Vec.sc Q τ r0) s') := by
    intro t mm r0 s s' hs
    exact whileLoop_sim (TFUnits Q σ τ κ) (fun _ _ h => by rw [h.finished])
      (fun s s' hs _ => tfStep_units h t mm r0 hs) s s' hs
  have hp : (o.units τ M').precon = M' := rfl
  have fin : ∀ {t : Fl} {s : TFLoop Fl (Vec E)} {s' : TFLoop Fl (Vec E')}, TFUnits Q σ τ κ s s' → ∀ r0 : Fl,
      TFOutcome Q σ τ (tfResult t r0 s) (tfResult (Fl.sc τ t) (Fl.sc τ r0) s') := by
    intro t s s' hs r0
    unfold tfResult
    rw [hs.m]
    cases s.m with
    | none => exact rfl
    | some m =>
      refine ⟨?_, hs.calls⟩
      rw [hs.residNorm, hs.x, hs.nMatvec, Fl.sc_mul_left, Fl.sc_lt hτ]
      rfl
  have ini : ∀ (x r : Vec E) (x' : Vec E') (calls : List (Vec E)) (calls' : List (Vec E')) (f : Bool),
      x' = Vec.sc Q σ x → calls'.length = calls.length →
      TFUnits Q σ τ κ
        (if f then
          { x := x, y := zeros, w := zeros, d := zeros, z := zeros, u := zeros, v := zeros, rho := dot r r, theta := lit 0, eta := lit 0,
            residNorm := Scalar.abs (sqrt (dot r r)), k := 0, m := none, nMatvec := 0, finished := true, calls := calls }
        else
          { x := x, y := r, w := r, d := zeros, z := applyPrecon o.precon r, u := op (applyPrecon o.precon r),
            v := op (applyPrecon o.precon r), rho := dot r r, theta := lit 0, eta := lit 0,
            residNorm := Scalar.abs (sqrt (dot r r)), k := 0, m := none, nMatvec := 1, finished := false,
            calls := calls ++ [applyPrecon o.precon r] })
        (if f then
          { x := x', y := zeros, w := zeros, d := zeros, z := zeros, u := zeros, v := zeros,
            rho := dot (Vec.sc Q τ r) (Vec.sc Q τ r), theta := lit 0, eta := lit 0,
            residNorm := Fl.sc τ (Scalar.abs (sqrt (dot r r))), k := 0, m := none, nMatvec := 0, finished := true, calls := calls' }
        else
          { x := x', y := Vec.sc Q τ r, w := Vec.sc Q τ r, d := zeros, z := applyPrecon M' (Vec.sc Q τ r),
            u := op' (applyPrecon M' (Vec.sc Q τ r)), v := op' (applyPrecon M' (Vec.sc Q τ r)),
            rho := dot (Vec.sc Q τ r) (Vec.sc Q τ r), theta := lit 0, eta := lit 0,
            residNorm := Fl.sc τ (Scalar.abs (sqrt (dot r r))), k := 0, m := none, nMatvec := 1, finished := false,
            calls := calls' ++ [applyPrecon M' (Vec.sc Q τ r)] }) := by
    intro x r x' calls calls' f hx hc
    cases f
    · simp only [Bool.false_eq_true, if_false, h.pre, h.op]
      exact ⟨hx, rfl, rfl, Vec.sc_zeros.symm, rfl, rfl, rfl, Vec.sc_dot rfl, rfl, (Fl.sc_lit0 _).symm, rfl, rfl, rfl, rfl, rfl, by simp [hc]⟩
    · simp only [if_true]
      exact ⟨hx, Vec.sc_zeros.symm, Vec.sc_zeros.symm, Vec.sc_zeros.symm, Vec.sc_zeros.symm, Vec.sc_zeros.symm, Vec.sc_zeros.symm,
        Vec.sc_dot rfl, rfl, (Fl.sc_lit0 _).symm, rfl, rfl, rfl, rfl, rfl, hc⟩
  unfold tfSolve
  cases hg : kw.guess with
  | none =>
    simp only [KrylovKw.units, hg, Option.map_none, Option.getD_none, units_norm hτ, units_threshold hτ, hp, Fl.sc_le hτ]
    exact fin (loop _ _ _ _ _ (ini zeros b zeros [] [] _ Vec.sc_zeros.symm rfl)) _
  | some g =>
    simp only [KrylovKw.units, hg, Option.map_some, Option.getD_some, units_resid h, units_norm hτ, units_threshold hτ, hp, Fl.sc_le hτ]
    exact fin (loop _ _ _ _ _ (ini g (b - op g) (Vec.sc Q σ g) [g] [Vec.sc Q σ g] _ rfl rfl)) _

/-! ### CG -/

/-- corresponding loop variables -/
structure CGUnits (Q : E →ₗᵢ[ℝ] E') (σ τ : ℝ) (s : CGLoop Fl (Vec E)) (s' : CGLoop Fl (Vec E')) : Prop where
  x : s'.x = Vec.sc Q σ s.x
  r : s'.r = Vec.sc Q τ s.r
  p : s'.p = Vec.sc Q τ s.p
  ry : s'.ry = Fl.sc (τ * τ) s.ry
  residNorm : s'.residNorm = Fl.sc τ s.residNorm
  nMatvec : s'.nMatvec = s.nMatvec
  definite : s'.definite = s.definite
  infiniteDescent : s'.infiniteDescent = s.infiniteDescent.map (Vec.sc Q τ)
  residHistory : s'.residHistory = s.residHistory.map (Fl.sc τ)
  resids : s'.resids = s.resids.map (Vec.sc Q τ)
  iterates : s'.iterates = s.iterates.map (Vec.sc Q σ)
  calls : s'.calls.length = s.calls.length

/-- the keywords in other units -/
def CGKw.units (Q : E →ₗᵢ[ℝ] E') (σ : ℝ) (kw : CGKw (Vec E)) : CGKw (Vec E') :=
  { guess := kw.guess.map (Vec.sc Q σ), matvecMax := kw.matvecMax, checkSymmetric := kw.checkSymmetric, symOK := kw.symOK,
    checkCurvature := kw.checkCurvature, storeResids := kw.storeResids, storeIterates := kw.storeIterates }

/-- the attributes in other units -/
def CGObj.units (Q : E →ₗᵢ[ℝ] E') (σ τ : ℝ) (s : CGObj Fl (Vec E)) : CGObj Fl (Vec E') :=
  { residHistory := s.residHistory.map (Fl.sc τ), resids := s.resids.map (Vec.sc Q τ), iterates := s.iterates.map (Vec.sc Q σ),
    infiniteDescent := s.infiniteDescent.map (Vec.sc Q τ), converged := s.converged, definite := s.definite, nMatvec := s.nMatvec,
    x := s.x.map (Vec.sc Q σ), residNorm := s.residNorm.map (Fl.sc τ), residNorm0 := s.residNorm0.map (Fl.sc τ) }

theorem cgStep_units (h : Units Q σ τ 1 op op' M M') (kw : CGKw (Vec E)) {s : CGLoop Fl (Vec E)} {s' : CGLoop Fl (Vec E')}
    (hs : CGUnits Q σ τ s s') : CGUnits Q σ τ (cgStep op M kw s) (cgStep op' M' (kw.units Q σ) s') := by
  have h1 := h.hσ
  have h2 := h.hτ
  have eA : op' s'.p = Vec.sc Q (τ * (τ / σ)) (op s.p) := by rw [hs.p, h.op]
  generalize hAp : op s.p = Ap at eA
  have epAp : dot s'.p (Vec.sc Q (τ * (τ / σ)) Ap) = Fl.sc (τ * (τ * (τ / σ))) (dot s.p Ap) := by rw [hs.p, Vec.sc_dot rfl]
  generalize hpAp : dot s.p Ap = pAp at epAp
  have ea : s'.ry / Fl.sc (τ * (τ * (τ / σ))) pAp = Fl.sc (σ / τ) (s.ry / pAp) := by
    rw [hs.ry]; exact Fl.sc_div (by positivity) (by field_simp)
  generalize hal : s.ry / pAp = alpha at ea
  have ex : s'.x + smul (Fl.sc (σ / τ) alpha) s'.p = Vec.sc Q σ (s.x + smul alpha s.p) := by
    rw [hs.x, hs.p, Vec.sc_smul (e := σ) (by field_simp), Vec.sc_add]
  have er : s'.r + smul (Fl.sc (σ / τ) alpha) (Vec.sc Q (τ * (τ / σ)) Ap) = Vec.sc Q τ (s.r + smul alpha Ap) := by
    rw [hs.r, Vec.sc_smul (e := τ) (by field_simp), Vec.sc_add]
  generalize hr : s.r + smul alpha Ap = r at er
  have ey : applyPrecon M' (Vec.sc Q τ r) = Vec.sc Q τ (applyPrecon M r) := by rw [h.pre, mul_one]
  generalize hy : applyPrecon M r = y at ey
  have ery : dot (Vec.sc Q τ r) (Vec.sc Q τ y) = Fl.sc (τ * τ) (dot r y) := Vec.sc_dot rfl
  generalize hry : dot r y = ry at ery
  have eb : Fl.sc (τ * τ) ry / s'.ry = ry / s.ry := by rw [hs.ry, Fl.sc_ratio (by positivity)]
  generalize hb : ry / s.ry = beta at eb
  have ep : smul beta s'.p - Vec.sc Q τ r = Vec.sc Q τ (smul beta s.p - r) := by rw [hs.p, Vec.sc_smul', Vec.sc_sub]
  have en : Scalar.abs (sqrt (Fl.sc (τ * τ) ry)) = Fl.sc τ (Scalar.abs (sqrt ry)) := by
    rw [Fl.sc_sqrt h2 rfl, Fl.sc_abs h2]
  unfold cgStep
  simp only [eA, hAp]
  simp only [epAp, hpAp, CGKw.units]
  simp only [Fl.sc_notPositive (show 0 < τ * (τ * (τ / σ)) by positivity)]
  simp only [ea, hal]
  simp only [ex, er, hr]
  simp only [ey, hy]
  simp only [ery, hry]
  simp only [eb, hb]
  simp only [ep, en]
  split
  · exact ⟨hs.x, hs.r, hs.p, hs.ry, hs.residNorm, by rw [hs.nMatvec], rfl, by simp [hs.p], hs.residHistory, hs.resids, hs.iterates,
      by simp [hs.calls]⟩
  · refine ⟨rfl, rfl, rfl, rfl, rfl, by rw [hs.nMatvec], hs.definite, hs.infiniteDescent, by simp [hs.residHistory], ?_, ?_,
      by simp [hs.calls]⟩
    · simp only; split <;> simp [hs.resids]
    · simp only; split <;> simp [hs.iterates]

theorem cgLoop_units (h : Units Q σ τ 1 op op' M M') (kw : CGKw (Vec E)) (t : Fl) (mm : Nat) (s : CGLoop Fl (Vec E))
    (s' : CGLoop Fl (Vec E')) (hs : CGUnits Q σ τ s s') :
    CGUnits Q σ τ (cgLoop op M kw t mm s) (cgLoop op' M' (kw.units Q σ) (Fl.sc τ t) mm s') := by
  have hc : cgCont (Fl.sc τ t) mm s' = cgCont t mm s := by
    unfold cgCont
    rw [hs.residNorm, hs.nMatvec, hs.definite, Fl.sc_gt h.hτ]
  rw [cgLoop.eq_def op M kw t mm s, cgLoop.eq_def op' M' (kw.units Q σ) (Fl.sc τ t) mm s', hc]
  by_cases hcc : cgCont t mm s = true
  · rw [dif_pos hcc, dif_pos hcc]
    exact cgLoop_units h kw t mm _ _ (cgStep_units h kw hs)
  · rw [dif_neg hcc, dif_neg hcc]
    exact hs
termination_by mm - s.nMatvec
decreasing_by
  simp only [cgCont, Bool.and_eq_true, decide_eq_true_eq] at hcc
  rw [cgStep_nMatvec]; omega

theorem cg_units (o : KrylovOpts Fl (Vec E)) (h : Units Q σ τ 1 op op' o.precon M') (n : Nat) (obj : CGObj Fl (Vec E)) (b : Vec E)
    (kw : CGKw (Vec E)) :
    (cgSolve op' (o.units τ M') n (obj.units Q σ τ) (Vec.sc Q τ b) (kw.units Q σ)).1 = (cgSolve op o n obj b kw).1.units Q σ τ ∧
    (cgSolve op' (o.units τ M') n (obj.units Q σ τ) (Vec.sc Q τ b) (kw.units Q σ)).2.length = (cgSolve op o n obj b kw).2.length := by
  have hτ := h.hτ
  have hp : (o.units τ M').precon = M' := rfl
  have ini : CGUnits Q σ τ (cgInit op o kw obj b).1
        (cgInit op' (o.units τ M') (kw.units Q σ) (obj.units Q σ τ) (Vec.sc Q τ b)).1 ∧
      (cgInit op' (o.units τ M') (kw.units Q σ) (obj.units Q σ τ) (Vec.sc Q τ b)).2 = Fl.sc τ (cgInit op o kw obj b).2 := by
    have ey : ∀ r : Vec E, applyPrecon M' (Vec.sc Q τ r) = Vec.sc Q τ (applyPrecon o.precon r) := fun r => by rw [h.pre, mul_one]
    have en : ∀ r : Fl, Scalar.abs (sqrt (Fl.sc (τ * τ) r)) = Fl.sc τ (Scalar.abs (sqrt r)) := fun r => by
      rw [Fl.sc_sqrt hτ rfl, Fl.sc_abs hτ]
    unfold cgInit
    cases hg : kw.guess with
    | none =>
      simp only [CGKw.units, CGObj.units, hg, Option.map_none, Option.getD_none, Vec.sc_neg, hp, ey]
      simp only [Vec.sc_dot rfl, en]
      refine ⟨⟨Vec.sc_zeros.symm, rfl, rfl, rfl, rfl, rfl, rfl, rfl, by simp, ?_, ?_, rfl⟩, units_threshold hτ o _⟩
      · simp only; split <;> simp
      · simp only; split <;> simp
    | some g =>
      have h1 := h.hσ
      have e : Vec.sc Q τ (-b) + op' (Vec.sc Q σ g) = Vec.sc Q τ (-b + op g) := by
        rw [h.op, show σ * (τ / σ) = τ by field_simp, Vec.sc_add]
      simp only [CGKw.units, CGObj.units, hg, Option.map_some, Option.getD_some, Vec.sc_neg, hp]
      simp only [e]
      simp only [ey, Vec.sc_neg]
      simp only [Vec.sc_dot rfl, en]
      refine ⟨⟨rfl, rfl, rfl, rfl, rfl, rfl, rfl, rfl, by simp, ?_, ?_, rfl⟩, units_threshold hτ o _⟩
      · simp only; split <;> simp
      · simp only; split <;> simp
  unfold cgSolve
  have e1 : (kw.units Q σ).checkSymmetric = kw.checkSymmetric := rfl
  have e2 : (kw.units Q σ).symOK = kw.symOK := rfl
  have e3 : (kw.units Q σ).matvecMax = kw.matvecMax := rfl
  rw [e1, e2, e3]
  by_cases hc : (kw.checkSymmetric && !kw.symOK) = true
  · rw [if_pos hc, if_pos hc]; exact ⟨rfl, rfl⟩
  · rw [if_neg hc, if_neg hc]
    simp only [hp]
    have l := cgLoop_units h kw (cgInit op o kw obj b).2 (kw.matvecMax.getD (2 * n)) _ _ ini.1
    rw [← ini.2] at l
    refine ⟨?_, l.calls⟩
    conv_rhs => simp only [CGObj.units, Option.map_some]
    rw [l.residHistory, l.resids, l.iterates, l.infiniteDescent, l.definite, l.nMatvec, l.x, l.residNorm, ini.1.residNorm, ini.2,
      Fl.sc_le hτ]

end Verif.Solver
