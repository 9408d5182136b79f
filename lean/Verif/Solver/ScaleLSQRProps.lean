import Verif.Solver.ScaleLSQR
import Verif.Solver.LSQRExact

/-!
# C76 for LSQR

A least-squares problem written in other units and coordinates is solved in the same steps.
-/

namespace Verif.Solver
open Scalar Vect

variable {E E' F F' : Type} [NormedAddCommGroup E] [InnerProductSpace ℝ E] [NormedAddCommGroup E'] [InnerProductSpace ℝ E']
  [NormedAddCommGroup F] [InnerProductSpace ℝ F] [NormedAddCommGroup F'] [InnerProductSpace ℝ F']

/-- **Specification.** `q'` is the least-squares problem `q` in other units and coordinates: the coordinates of the unknowns are changed
by the isometry `P` and those of the observations by the isometry `Q`; one unit of the unknowns of `q` is `σ` units of those of `q'`, one
unit of the observations is `τ` units. -/
structure SameLeastSquares (P : E →ₗᵢ[ℝ] E') (Q : F →ₗᵢ[ℝ] F') (σ τ : ℝ) (q : LsqrProblem E F) (q' : LsqrProblem E' F') : Prop where
  A : ∀ v, q'.A (P v) = (τ / σ) • Q (q.A v)
  B : ∀ u, q'.B (Q u) = (τ / σ) • P (q.B u)
  b : q'.b = τ • Q q.b
  damp : q'.damp = τ / σ * q.damp
  n : q'.n = q.n
  itnlim : q'.itnlim = q.itnlim
  atol : q'.atol = q.atol
  btol : q'.btol = q.btol
  etol : q'.etol = q.etol
  conlim : q'.conlim = q.conlim
  storeResids : q'.storeResids = q.storeResids
  storeIterates : q'.storeIterates = q.storeIterates
  window : q'.window = q.window

/-- **Specification.** The results `r'` are the results `r` in the other units and coordinates. -/
structure SameLsqrResult (P : E →ₗᵢ[ℝ] E') (σ τ : ℝ) (r : LsqrRes Fl (Vec E)) (r' : LsqrRes Fl (Vec E')) : Prop where
  x : r'.x = Vec.sc P σ r.x
  iterates : r'.iterates = r.iterates.map (Vec.sc P σ)
  istop : r'.istop = r.istop
  itn : r'.itn = r.itn
  nMatvec : r'.nMatvec = r.nMatvec
  optimal : r'.optimal = r.optimal
  status : r'.status = r.status
  r1norm : r'.r1norm = Fl.sc τ r.r1norm
  r2norm : r'.r2norm = Fl.sc τ r.r2norm
  Anorm : r'.Anorm = Fl.sc (τ / σ) r.Anorm
  Acond : r'.Acond = r.Acond
  Arnorm : r'.Arnorm = Fl.sc (τ / σ * τ) r.Arnorm
  xnorm : r'.xnorm = Fl.sc σ r.xnorm
  resids : r'.resids = r.resids.map (Fl.sc τ)
  normalEqns : r'.normalEqns = r.normalEqns.map (Fl.sc (τ / σ * τ))
  dirErrors : r'.dirErrors = r.dirErrors

variable {P : E →ₗᵢ[ℝ] E'} {Q : F →ₗᵢ[ℝ] F'} {σ τ : ℝ} {q : LsqrProblem E F} {q' : LsqrProblem E' F'}

/-- **C76 (LSQR).** Exact arithmetic, no preconditioners: on the same least-squares problem in other units and coordinates LSQR makes as
many products and returns the same results in the other units and coordinates, with the same reason for stopping; if one of the solves
raises, the other one raises the same error. -/
theorem C76_lsqr (h : SameLeastSquares P Q σ τ q q') (hσ : 0 < σ) (hτ : 0 < τ) :
    match lsqrSolve (Vec.op q.A) (Vec.op q.B) q.n (.fin q.b) q.kw, lsqrSolve (Vec.op q'.A) (Vec.op q'.B) q'.n (.fin q'.b) q'.kw with
    | .ok run, .ok run' => SameLsqrResult P σ τ run.1 run'.1 ∧ run'.2.products = run.2.products
    | .error e, .error e' => e' = e
    | _, _ => False := by
  have hu : LsUnits P Q σ τ (Vec.op q.A) (Vec.op q.B) (Vec.op q'.A) (Vec.op q'.B) :=
    ⟨hσ, hτ, fun v => by cases v <;> simp [Vec.sc, Vec.op, h.A], fun v => by cases v <;> simp [Vec.sc, Vec.op, h.B]⟩
  have e1 : (.fin q'.b : Vec F') = Vec.sc Q τ (.fin q.b) := by rw [h.b]; rfl
  have e2 : q'.kw = q.kw.units (τ / σ) := by
    simp only [LsqrProblem.kw, LsqrKw.units, h.damp, h.itnlim, h.atol, h.btol, h.etol, h.conlim, h.storeResids, h.storeIterates,
      h.window, Fl.sc_fin]
  rw [e1, e2, h.n]
  have := lsqr_units (kw := q.kw) hu rfl rfl q.n (.fin q.b)
  revert this
  cases lsqrSolve (Vec.op q.A) (Vec.op q.B) q.n (.fin q.b) q.kw <;>
    cases lsqrSolve (Vec.op q'.A) (Vec.op q'.B) q.n (Vec.sc Q τ (.fin q.b)) (q.kw.units (τ / σ))
  · rintro h; cases h; rfl
  · rintro h; cases h
  · rintro h; cases h
  · rintro h
    cases h with
    | ok h =>
      obtain ⟨h, h'⟩ := h
      refine ⟨?_, h'⟩
      rw [h]
      exact ⟨rfl, rfl, rfl, rfl, rfl, rfl, rfl, rfl, rfl, rfl, rfl, rfl, rfl, rfl, rfl, rfl⟩

/-- Every least-squares problem can be written in any units and coordinates. -/
noncomputable def LsqrProblem.rewrite (q : LsqrProblem E F) (P : E ≃ₗᵢ[ℝ] E') (Q : F ≃ₗᵢ[ℝ] F') (σ τ : ℝ) : LsqrProblem E' F' :=
  { A := (τ / σ) • (Q.toLinearEquiv.toLinearMap ∘ₗ q.A ∘ₗ P.symm.toLinearEquiv.toLinearMap),
    B := (τ / σ) • (P.toLinearEquiv.toLinearMap ∘ₗ q.B ∘ₗ Q.symm.toLinearEquiv.toLinearMap),
    b := τ • Q q.b, n := q.n, damp := τ / σ * q.damp, itnlim := q.itnlim, atol := q.atol, btol := q.btol, etol := q.etol,
    conlim := q.conlim, storeResids := q.storeResids, storeIterates := q.storeIterates, window := q.window }

theorem LsqrProblem.rewrite_same (q : LsqrProblem E F) (P : E ≃ₗᵢ[ℝ] E') (Q : F ≃ₗᵢ[ℝ] F') (σ τ : ℝ) :
    SameLeastSquares P.toLinearIsometry Q.toLinearIsometry σ τ q (q.rewrite P Q σ τ) :=
  ⟨fun v => by simp [LsqrProblem.rewrite], fun v => by simp [LsqrProblem.rewrite], rfl, rfl, rfl, rfl, rfl, rfl, rfl, rfl, rfl, rfl, rfl⟩

/-- `C76_lsqr`: the damped problem `5 x ≈ 7` with unknowns in thousandths and observations in hundredths, and the axis of the
observations reversed -/
example : SameLeastSquares (LinearIsometry.id (R := ℝ) (E := ℝ)) (LinearIsometryEquiv.neg ℝ (E := ℝ)).toLinearIsometry 1000 100
    { A := (5:ℝ) • LinearMap.id, B := (5:ℝ) • LinearMap.id, b := (7:ℝ), n := 1, damp := 3, itnlim := 10, atol := 1/100, btol := 1/100,
      etol := 0, conlim := 1000, storeResids := true, storeIterates := true, window := 5 }
    { A := (-1/2:ℝ) • LinearMap.id, B := (-1/2:ℝ) • LinearMap.id, b := (-700:ℝ), n := 1, damp := 3/10, itnlim := 10, atol := 1/100,
      btol := 1/100, etol := 0, conlim := 1000, storeResids := true, storeIterates := true, window := 5 } :=
  ⟨fun v => by simp; ring, fun v => by simp; ring, by norm_num, by norm_num, rfl, rfl, rfl, rfl, rfl, rfl, rfl, rfl, rfl⟩

end Verif.Solver
