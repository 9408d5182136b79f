import Verif.Solver.ScaleLSMRSim
import Verif.Solver.ScaleMinres

/-!
# C76 for CRAIG, CRAIG-MR, LSMR, SYMMLQ and MINRES

CRAIG and CRAIG-MR solve `(A Aᵀ + I) y = b`, where the operator has no unit: only the unit of the right-hand side, which is that of the
solution, can be changed.  LSMR and SYMMLQ depend on the unit of the operator (`C76_lsmr_violated`; SYMMLQ compares its coefficients with
the machine precision) but not on that of the right-hand side.  MINRES depends on both (`C76_minres_violated`), but not on the coordinates.
-/

namespace Verif.Solver
open Scalar Vect

variable {E E' F F' : Type} [NormedAddCommGroup E] [InnerProductSpace ℝ E] [NormedAddCommGroup E'] [InnerProductSpace ℝ E']
  [NormedAddCommGroup F] [InnerProductSpace ℝ F] [NormedAddCommGroup F'] [InnerProductSpace ℝ F']

/-- **Specification.** The operator `A'` with transpose `B'` and the right-hand side `b'` are `A`, `B` and `b` in other coordinates: those
of the columns are changed by the isometry `P`, those of the rows by the isometry `Q`; one unit of `b` is `τ` units of `b'`. -/
structure SameData (P : E →ₗᵢ[ℝ] E') (Q : F →ₗᵢ[ℝ] F') (τ : ℝ) (A : E →ₗ[ℝ] F) (B : F →ₗ[ℝ] E) (b : F) (A' : E' →ₗ[ℝ] F')
    (B' : F' →ₗ[ℝ] E') (b' : F') : Prop where
  A : ∀ v, A' (P v) = Q (A v)
  B : ∀ u, B' (Q u) = P (B u)
  b : b' = τ • Q b

variable {P : E →ₗᵢ[ℝ] E'} {Q : F →ₗᵢ[ℝ] F'} {τ : ℝ}

theorem SameData.coords {A : E →ₗ[ℝ] F} {B : F →ₗ[ℝ] E} {b : F} {A' : E' →ₗ[ℝ] F'} {B' : F' →ₗ[ℝ] E'} {b' : F'}
    (h : SameData P Q τ A B b A' B' b') : LsCoords P Q (Vec.op A) (Vec.op B) (Vec.op A') (Vec.op B') :=
  ⟨fun v => by cases v <;> simp [Vec.sc, Vec.op, h.A], fun v => by cases v <;> simp [Vec.sc, Vec.op, h.B]⟩

/-! ### CRAIG -/

/-- **Specification.** The results `s'` are the results `s` in the other unit and coordinates. -/
structure SameCraigResult (P : E →ₗᵢ[ℝ] E') (Q : F →ₗᵢ[ℝ] F') (τ : ℝ) (s : CraigRes Fl (Vec F) (Vec E)) (s' : CraigRes Fl (Vec F') (Vec E')) :
    Prop where
  x : s'.x = Vec.sc P τ s.x
  r : s'.r = Vec.sc Q τ s.r
  istop : s'.istop = s.istop
  itn : s'.itn = s.itn
  nMatvec : s'.nMatvec = s.nMatvec
  optimal : s'.optimal = s.optimal
  status : s'.status = s.status
  r1norm : s'.r1norm = Fl.sc τ s.r1norm
  r2norm : s'.r2norm = Fl.sc τ s.r2norm
  Arnorm : s'.Arnorm = Fl.sc τ s.Arnorm
  /-- `xnorm` is a square, `craig.py:514` -/
  xnorm : s'.xnorm = Fl.sc (τ * τ) s.xnorm
  resids : s'.resids = s.resids.map (Fl.sc (τ * τ))
  norms : s'.norms = s.norms.map (Fl.sc (τ * τ))
  normalEqns : s'.normalEqns = s.normalEqns.map (Fl.sc τ)
  dirErrors : s'.dirErrors = s.dirErrors
  iteratesP : s'.iteratesP = s.iteratesP.map (Vec.sc P τ)
  iteratesD : s'.iteratesD = s.iteratesD.map (Vec.sc Q τ)

/-- **C76 (CRAIG).** Exact arithmetic, no preconditioners: on the same problem with the right-hand side in another unit and in other
coordinates CRAIG makes as many products and returns the same results in the other unit and coordinates, with the same reason for
stopping; if one of the solves raises, the other one raises the same error. -/
theorem C76_craig {q : CraigProblem E F} {q' : CraigProblem E' F'} (h : SameData P Q τ q.A q.B q.b q'.A q'.B q'.b) (hτ : 0 < τ)
    (hn : q'.n = q.n) (hk : (q'.damp, q'.itnlim, q'.atol, q'.btol, q'.etol, q'.conlim, q'.storeResids, q'.storeIterates, q'.window) =
      (q.damp, q.itnlim, q.atol, q.btol, q.etol, q.conlim, q.storeResids, q.storeIterates, q.window)) :
    match craigSolve (Vec.op q.A) (Vec.op q.B) q.n (.fin q.b) q.kw, craigSolve (Vec.op q'.A) (Vec.op q'.B) q'.n (.fin q'.b) q'.kw with
    | .ok run, .ok run' => SameCraigResult P Q τ run.1 run'.1 ∧ run'.2.products = run.2.products
    | .error e, .error e' => e' = e
    | _, _ => False := by
  simp only [Prod.mk.injEq] at hk
  obtain ⟨k1, k2, k3, k4, k5, k6, k7, k8, k9⟩ := hk
  have e1 : (.fin q'.b : Vec F') = Vec.sc Q τ (.fin q.b) := by rw [h.b]; rfl
  have e2 : q'.kw = q.kw.coords := by simp only [CraigProblem.kw, CraigKw.coords, k1, k2, k3, k4, k5, k6, k7, k8, k9]
  rw [e1, e2, hn]
  have := craig_units (kw := q.kw) h.coords hτ rfl rfl q.n (.fin q.b)
  revert this
  cases craigSolve (Vec.op q.A) (Vec.op q.B) q.n (.fin q.b) q.kw <;>
    cases craigSolve (Vec.op q'.A) (Vec.op q'.B) q.n (Vec.sc Q τ (.fin q.b)) (q.kw.coords : CraigKw Fl (Vec F') (Vec E'))
  · rintro h; cases h; rfl
  · rintro h; cases h
  · rintro h; cases h
  · rintro h
    cases h with
    | ok h =>
      refine ⟨?_, h.2⟩
      rw [h.1]
      exact ⟨rfl, rfl, rfl, rfl, rfl, rfl, rfl, rfl, rfl, rfl, rfl, rfl, rfl, rfl, rfl, rfl, rfl⟩

/-! ### CRAIG-MR -/

/-- **Specification.** The results `r'` are the results `r` in the other unit and coordinates. -/
structure SameCraigmrResult (Q : F →ₗᵢ[ℝ] F') (τ : ℝ) (r : CraigmrRes Fl (Vec F)) (r' : CraigmrRes Fl (Vec F')) : Prop where
  x : r'.x = Vec.sc Q τ r.x
  istop : r'.istop = r.istop
  itn : r'.itn = r.itn
  nMatvec : r'.nMatvec = r.nMatvec
  optimal : r'.optimal = r.optimal
  status : r'.status = r.status
  norms : r'.norms = r.norms.map (Fl.sc (τ * τ))
  normalEqns : r'.normalEqns = r.normalEqns.map (Fl.sc τ)
  dirErrors : r'.dirErrors = r.dirErrors
  iterates : r'.iterates = r.iterates.map (Vec.sc Q τ)

/-- **C76 (CRAIG-MR).** As `C76_craig`. -/
theorem C76_craigmr {q : CraigmrProblem E F} {q' : CraigmrProblem E' F'} (h : SameData P Q τ q.A q.B q.b q'.A q'.B q'.b) (hτ : 0 < τ)
    (hn : (q'.m, q'.n) = (q.m, q.n))
    (hk : (q'.damp, q'.itnlim, q'.atol, q'.btol, q'.etol, q'.conlim, q'.storeResids, q'.storeIterates, q'.window) =
      (q.damp, q.itnlim, q.atol, q.btol, q.etol, q.conlim, q.storeResids, q.storeIterates, q.window)) :
    match craigmrSolve (Vec.op q.A) (Vec.op q.B) q.m q.n (.fin q.b) q.kw,
      craigmrSolve (Vec.op q'.A) (Vec.op q'.B) q'.m q'.n (.fin q'.b) q'.kw with
    | .ok run, .ok run' => SameCraigmrResult Q τ run.1 run'.1 ∧ run'.2.products = run.2.products
    | .error e, .error e' => e' = e
    | _, _ => False := by
  simp only [Prod.mk.injEq] at hk hn
  obtain ⟨k1, k2, k3, k4, k5, k6, k7, k8, k9⟩ := hk
  have e1 : (.fin q'.b : Vec F') = Vec.sc Q τ (.fin q.b) := by rw [h.b]; rfl
  have e2 : q'.kw = q.kw.coords := by simp only [CraigmrProblem.kw, CraigmrKw.coords, k1, k2, k3, k4, k5, k6, k7, k8, k9]
  rw [e1, e2, hn.1, hn.2]
  have := craigmr_units (kw := q.kw) h.coords hτ rfl rfl q.m q.n (.fin q.b)
  revert this
  cases craigmrSolve (Vec.op q.A) (Vec.op q.B) q.m q.n (.fin q.b) q.kw <;>
    cases craigmrSolve (Vec.op q'.A) (Vec.op q'.B) q.m q.n (Vec.sc Q τ (.fin q.b)) (q.kw.coords : CraigmrKw Fl (Vec F') (Vec E'))
  · rintro h; cases h; rfl
  · rintro h; cases h
  · rintro h; cases h
  · rintro h
    cases h with
    | ok h =>
      refine ⟨?_, h.2⟩
      rw [h.1]
      exact ⟨rfl, rfl, rfl, rfl, rfl, rfl, rfl, rfl, rfl, rfl⟩

/-! ### LSMR -/

/-- **Specification.** The results `r'` are the results `r` in the other unit and coordinates. -/
structure SameLsmrResult (P : E →ₗᵢ[ℝ] E') (τ : ℝ) (r : LsmrRes Fl (Vec E)) (r' : LsmrRes Fl (Vec E')) : Prop where
  x : r'.x = Vec.sc P τ r.x
  istop : r'.istop = r.istop
  itn : r'.itn = r.itn
  normr : r'.normr = Fl.sc τ r.normr
  normar : r'.normar = Fl.sc τ r.normar
  normA : r'.normA = r.normA
  condA : r'.condA = r.condA
  normx : r'.normx = Fl.sc τ r.normx
  /-- the attribute `x` -/
  selfX : r'.selfX = r.selfX.map (Vec.sc P τ)
  resids : r'.resids = r.resids.map (Fl.sc τ)
  normalEqns : r'.normalEqns = r.normalEqns.map (Fl.sc τ)
  norms : r'.norms = r.norms.map (Fl.sc (τ * τ))
  dirErrors : r'.dirErrors = r.dirErrors
  iterates : r'.iterates = r.iterates.map (Vec.sc P τ)

/-- **C76 (LSMR), partial.** As `C76_craig`, for new objects.  Missing: another unit of the operator (`C76_lsmr_violated`). -/
theorem C76_lsmr_partial {q : LsmrProblem E F} {q' : LsmrProblem E' F'} (h : SameData P Q τ q.A q.B q.b q'.A q'.B q'.b) (hτ : 0 < τ)
    (hn : (q'.m, q'.n) = (q.m, q.n))
    (hk : (q'.damp, q'.itnlim, q'.atol, q'.btol, q'.etol, q'.conlim, q'.storeResids, q'.storeIterates, q'.window) =
      (q.damp, q.itnlim, q.atol, q.btol, q.etol, q.conlim, q.storeResids, q.storeIterates, q.window)) :
    match lsmrSolve (Vec.op q.A) (Vec.op q.B) q.m q.n (.fin q.b) q.kw none,
      lsmrSolve (Vec.op q'.A) (Vec.op q'.B) q'.m q'.n (.fin q'.b) q'.kw none with
    | .ok run, .ok run' => SameLsmrResult P τ run.1 run'.1 ∧ run'.2.products = run.2.products
    | .error e, .error e' => e' = e
    | _, _ => False := by
  simp only [Prod.mk.injEq] at hk hn
  obtain ⟨k1, k2, k3, k4, k5, k6, k7, k8, k9⟩ := hk
  have e1 : (.fin q'.b : Vec F') = Vec.sc Q τ (.fin q.b) := by rw [h.b]; rfl
  have e2 : q'.kw = q.kw.coords := by simp only [LsmrProblem.kw, LsmrKw.coords, k1, k2, k3, k4, k5, k6, k7, k8, k9]
  rw [e1, e2, hn.1, hn.2]
  have := lsmr_units (kw := q.kw) h.coords hτ rfl rfl q.m q.n (.fin q.b)
  revert this
  cases lsmrSolve (Vec.op q.A) (Vec.op q.B) q.m q.n (.fin q.b) q.kw none <;>
    cases lsmrSolve (Vec.op q'.A) (Vec.op q'.B) q.m q.n (Vec.sc Q τ (.fin q.b)) (q.kw.coords : LsmrKw Fl (Vec F') (Vec E')) none
  · rintro h; cases h; rfl
  · rintro h; cases h
  · rintro h; cases h
  · rintro h
    cases h with
    | ok h =>
      refine ⟨?_, h.2⟩
      rw [h.1]
      exact ⟨rfl, rfl, rfl, rfl, rfl, rfl, rfl, rfl, rfl, rfl, rfl, rfl, rfl, rfl⟩

/-! ### SYMMLQ -/

/-- **Specification.** The results `r'` are the results `r` in the other unit and coordinates. -/
structure SameSymmlqResult (Q : E →ₗᵢ[ℝ] E') (τ : ℝ) (r : SymmlqRes Fl (Vec E)) (r' : SymmlqRes Fl (Vec E')) : Prop where
  x : r'.x = Vec.sc Q τ r.x
  residNorm : r'.residNorm = Fl.sc τ r.residNorm
  xNorm : r'.xNorm = Fl.sc τ r.xNorm
  nMatvec : r'.nMatvec = r.nMatvec
  acond : r'.acond = r.acond
  anorm : r'.anorm = r.anorm
  iterates : r'.iterates = r.iterates.map (Vec.sc Q τ)

/-- **C76 (SYMMLQ), partial.** Exact arithmetic, no preconditioner, objects with the missing attribute `matvec`: on the same system with
the right-hand side in another unit and in other coordinates SYMMLQ makes as many products and returns the same results in the other unit
and coordinates; if one of the solves raises, the other one raises the same error.  Missing: another unit of the operator. -/
theorem C76_symmlq_partial {Q : E →ₗᵢ[ℝ] E'} {q : SymmlqProblem E} {q' : SymmlqProblem E'} (hA : ∀ v, q'.A (Q v) = Q (q.A v))
    (hb : q'.b = τ • Q q.b) (hτ : 0 < τ)
    (hk : (q'.shift, q'.rtol, q'.eps, q'.eps3, q'.check, q'.matvecMax, q'.storeIterates) =
      (q.shift, q.rtol, q.eps, q.eps3, q.check, q.matvecMax, q.storeIterates)) (n : ℕ) :
    match symmlqSolve q.obj n (.fin q.b) q.kw, symmlqSolve q'.obj n (.fin q'.b) q'.kw with
    | .ok run, .ok run' => SameSymmlqResult Q τ run.1 run'.1 ∧ run'.2.length = run.2.length
    | .error e, .error e' => e' = e
    | _, _ => False := by
  simp only [Prod.mk.injEq] at hk
  obtain ⟨k1, k2, k3, k4, k5, k6, k7⟩ := hk
  have hlin : ∀ c v, Vec.op q'.A (Vec.sc Q c v) = Vec.sc Q c (Vec.op q.A v) := by
    intro c v; cases v <;> simp [Vec.sc, Vec.op, hA]
  have hc : SymmlqCoords Q q.obj q'.obj := ⟨hlin 1, hlin, hlin 1, rfl, rfl⟩
  have e1 : (.fin q'.b : Vec E') = Vec.sc Q τ (.fin q.b) := by rw [hb]; rfl
  have e2 : q'.kw = q.kw := by simp only [SymmlqProblem.kw, k1, k2, k3, k4, k5, k6, k7]
  rw [e1, e2]
  have := symmlq_units (kw := q.kw) hc hτ n (.fin q.b)
  revert this
  cases symmlqSolve q.obj n (.fin q.b) q.kw <;> cases symmlqSolve q'.obj n (Vec.sc Q τ (.fin q.b)) q.kw
  · rintro h; cases h; rfl
  · rintro h; cases h
  · rintro h; cases h
  · rintro h
    cases h with
    | ok h =>
      refine ⟨?_, h.2⟩
      rw [h.1]
      exact ⟨rfl, rfl, rfl, rfl, rfl, rfl, rfl⟩

/-! ### MINRES -/

/-- **Specification.** The results `r'` are the results `r` in the other coordinates: only the vectors differ. -/
structure SameMinresResult (Q : E →ₗᵢ[ℝ] E') (r : MinresRes Fl (Vec E)) (r' : MinresRes Fl (Vec E')) : Prop where
  x : r'.x = Vec.sc Q 1 r.x
  iterates : r'.iterates = r.iterates.map (Vec.sc Q 1)
  converged : r'.converged = r.converged
  istop : r'.istop = r.istop
  itn : r'.itn = r.itn
  nMatvec : r'.nMatvec = r.nMatvec
  rnorm : r'.rnorm = r.rnorm
  residNorm0 : r'.residNorm0 = r.residNorm0
  Arnorm : r'.Arnorm = r.Arnorm
  Anorm : r'.Anorm = r.Anorm
  Acond : r'.Acond = r.Acond
  ynorm : r'.ynorm = r.ynorm
  residHistory : r'.residHistory = r.residHistory
  dirErrors : r'.dirErrors = r.dirErrors

/-- **C76 (MINRES), partial.** Exact arithmetic, new objects, with or without a preconditioner: on the same system in other coordinates
MINRES makes the same products and returns the same results in the other coordinates; if one of the solves raises, the other one raises the
same error.  Missing: other units (`C76_minres_violated`, `C35_clipped`). -/
theorem C76_minres_partial {Q : E →ₗᵢ[ℝ] E'} {q : MinresProblem E} {q' : MinresProblem E'} {M : Option (E →ₗ[ℝ] E)}
    {M' : Option (E' →ₗ[ℝ] E')} (hA : ∀ v, q'.A (Q v) = Q (q.A v)) (hb : q'.b = Q q.b) (hs : M'.isSome = M.isSome)
    (hM : ∀ m m', M = some m → M' = some m' → ∀ v, m' (Q v) = Q (m v))
    (hk : (q'.shift, q'.check, q'.itnlim, q'.rtol, q'.etol, q'.storeIterates, q'.window) =
      (q.shift, q.check, q.itnlim, q.rtol, q.etol, q.storeIterates, q.window)) (eps : Fl) (n : ℕ) :
    match minresSolve (Vec.op q.A) eps n { residHistory := [] } (.fin q.b) { q.kw with precon := M.map fun m : E →ₗ[ℝ] E => Vec.op m },
      minresSolve (Vec.op q'.A) eps n { residHistory := [] } (.fin q'.b) { q'.kw with precon := M'.map fun m : E' →ₗ[ℝ] E' => Vec.op m } with
    | .ok run, .ok run' => SameMinresResult Q run.1 run'.1 ∧ run'.2 = run.2.map (Vec.sc Q 1)
    | .error e, .error e' => e' = e
    | _, _ => False := by
  simp only [Prod.mk.injEq] at hk
  obtain ⟨k1, k2, k3, k4, k5, k6, k7⟩ := hk
  have hlin : ∀ v, Vec.op q'.A (Vec.sc Q 1 v) = Vec.sc Q 1 (Vec.op q.A v) := by
    intro v; cases v <;> simp [Vec.sc, Vec.op, hA]
  have hpre : ∀ v : Vec E, applyPrecon (M'.map fun m : E' →ₗ[ℝ] E' => Vec.op m) (Vec.sc Q 1 v) =
      Vec.sc Q 1 (applyPrecon (M.map fun m : E →ₗ[ℝ] E => Vec.op m) v) := by
    cases M <;> cases M'
    · intro v; rfl
    · cases hs
    · cases hs
    · rename_i m m'
      intro v
      have := hM m m' rfl rfl
      cases v <;> simp [applyPrecon, Vec.sc, Vec.op, this]
  have hc : MinresCoords Q (Vec.op q.A) (Vec.op q'.A) { q.kw with precon := M.map fun m : E →ₗ[ℝ] E => Vec.op m }
      (M'.map fun m : E' →ₗ[ℝ] E' => Vec.op m) :=
    ⟨hlin, hpre, by simpa using hs⟩
  have e1 : (.fin q'.b : Vec E') = Vec.sc Q 1 (.fin q.b) := by rw [hb]; simp
  have e2 : ({ q'.kw with precon := M'.map fun m : E' →ₗ[ℝ] E' => Vec.op m } : MinresKw Fl (Vec E')) =
      ({ q.kw with precon := M.map fun m : E →ₗ[ℝ] E => Vec.op m } : MinresKw Fl (Vec E)).coords (M'.map fun m : E' →ₗ[ℝ] E' => Vec.op m) := by
    simp only [MinresProblem.kw, MinresKw.coords, k1, k2, k3, k4, k5, k6, k7]
  rw [e1, e2]
  have := minres_coords hc eps n { residHistory := [] } (.fin q.b)
  rw [this]
  cases minresSolve (Vec.op q.A) eps n { residHistory := [] } (.fin q.b) { q.kw with precon := M.map fun m : E →ₗ[ℝ] E => Vec.op m } with
  | error e => rfl
  | ok run => exact ⟨⟨rfl, rfl, rfl, rfl, rfl, rfl, rfl, rfl, rfl, rfl, rfl, rfl, rfl, rfl⟩, rfl⟩

/-! ### Examples -/

/-- `C76_craig`, `C76_craigmr` and `C76_lsmr_partial`: the operator `x -> 5 x` with the right-hand side 7, which becomes -700 in hundredths
with the axis of the rows reversed -/
example : SameData (LinearIsometry.id (R := ℝ) (E := ℝ)) (LinearIsometryEquiv.neg ℝ (E := ℝ)).toLinearIsometry 100
    ((5 : ℝ) • LinearMap.id) ((5 : ℝ) • LinearMap.id) (7 : ℝ) ((-5 : ℝ) • LinearMap.id) ((-5 : ℝ) • LinearMap.id) (-700 : ℝ) :=
  ⟨fun v => by simp, fun v => by simp, by norm_num⟩

/-- `C76_symmlq_partial` and `C76_minres_partial`: the operator `x -> 5 x` with the axis reversed -/
example : ∀ v : ℝ, ((5 : ℝ) • (LinearMap.id : ℝ →ₗ[ℝ] ℝ)) ((LinearIsometryEquiv.neg ℝ (E := ℝ)).toLinearIsometry v) =
    (LinearIsometryEquiv.neg ℝ (E := ℝ)).toLinearIsometry (((5 : ℝ) • (LinearMap.id : ℝ →ₗ[ℝ] ℝ)) v) := fun v => by simp

/-- every problem can be written in any coordinates and with any unit of the right-hand side -/
example (P : E ≃ₗᵢ[ℝ] E') (Q : F ≃ₗᵢ[ℝ] F') (τ : ℝ) (A : E →ₗ[ℝ] F) (B : F →ₗ[ℝ] E) (b : F) :
    SameData P.toLinearIsometry Q.toLinearIsometry τ A B b
      (Q.toLinearEquiv.toLinearMap ∘ₗ A ∘ₗ P.symm.toLinearEquiv.toLinearMap)
      (P.toLinearEquiv.toLinearMap ∘ₗ B ∘ₗ Q.symm.toLinearEquiv.toLinearMap) (τ • Q b) :=
  ⟨fun v => by simp, fun v => by simp, rfl⟩

end Verif.Solver
