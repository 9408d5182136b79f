import Verif.Solver.ScaleKrylov
import Verif.Solver.CGExamples

/-!
# C76: units and coordinates

A linear system written in other units and coordinates is solved in the same steps.

`Vec.sc Q c` maps a vector `v` to `c • Q v` and `Fl.sc c` a number `a` to `c * a`; both keep the undefined value.
-/

namespace Verif.Solver
open Scalar Vect

variable {E E' : Type} [NormedAddCommGroup E] [InnerProductSpace ℝ E] [NormedAddCommGroup E'] [InnerProductSpace ℝ E']

/-- A linear system, an optional preconditioner, an optional guess and tolerances. -/
structure UnitProblem (E : Type) [NormedAddCommGroup E] [InnerProductSpace ℝ E] where
  A : E →ₗ[ℝ] E
  b : E
  guess : Option E := none
  precon : Option (E →ₗ[ℝ] E) := none
  abstol : ℝ
  reltol : ℝ

/-- an optional matrix as a preconditioner -/
noncomputable def preOp (M : Option (E →ₗ[ℝ] E)) : Option (Vec E → Vec E) := M.map (fun M : E →ₗ[ℝ] E => Vec.op (fun v => M v))

noncomputable def UnitProblem.opts (q : UnitProblem E) : KrylovOpts Fl (Vec E) :=
  { abstol := .fin q.abstol, reltol := .fin q.reltol, precon := preOp q.precon }

/-- keywords of CGS, Bi-CGSTAB and TFQMR -/
def UnitProblem.kw (q : UnitProblem E) (matvecMax : Option Nat) : KrylovKw (Vec E) :=
  { guess := q.guess.map .fin, matvecMax := matvecMax }

/-- keywords of CG -/
def UnitProblem.cgKw (q : UnitProblem E) (matvecMax : Option Nat) (checkCurvature storeResids storeIterates : Bool) : CGKw (Vec E) :=
  { guess := q.guess.map .fin, matvecMax := matvecMax, checkCurvature := checkCurvature, storeResids := storeResids,
    storeIterates := storeIterates }

/-- **Specification.** `q'` is the system `q` in other units and coordinates: the coordinates of unknowns and of right-hand sides are
changed by the isometry `Q`; one unit of the unknowns of `q` is `σ` units of those of `q'`, one unit of the right-hand side is `τ`
units.  The preconditioner (the identity if there is none) may change by any other factor `κ`. -/
structure SameSystem (Q : E →ₗᵢ[ℝ] E') (σ τ κ : ℝ) (q : UnitProblem E) (q' : UnitProblem E') : Prop where
  A : ∀ v, q'.A (Q v) = (τ / σ) • Q (q.A v)
  b : q'.b = τ • Q q.b
  guess : q'.guess = q.guess.map (fun g => σ • Q g)
  precon : ∀ v, q'.precon.getD LinearMap.id (Q v) = κ • Q (q.precon.getD LinearMap.id v)
  abstol : q'.abstol = τ * q.abstol
  reltol : q'.reltol = q.reltol

/-- **Specification.** The results `r'` are the results `r` in the other units and coordinates. -/
structure SameResult (Q : E →ₗᵢ[ℝ] E') (σ τ : ℝ) (r : KrylovRes Fl (Vec E)) (r' : KrylovRes Fl (Vec E')) : Prop where
  x : r'.x = Vec.sc Q σ r.x
  residNorm : r'.residNorm = Fl.sc τ r.residNorm
  residNorm0 : r'.residNorm0 = Fl.sc τ r.residNorm0
  converged : r'.converged = r.converged
  nMatvec : r'.nMatvec = r.nMatvec

variable {Q : E →ₗᵢ[ℝ] E'} {σ τ κ : ℝ} {q : UnitProblem E} {q' : UnitProblem E'}

theorem SameSystem.units (h : SameSystem Q σ τ κ q q') (hσ : 0 < σ) (hτ : 0 < τ) (hκ : 0 < κ) :
    Units Q σ τ κ (Vec.op q.A) (Vec.op q'.A) q.opts.precon (preOp q'.precon) := by
  refine ⟨hσ, hτ, hκ, fun c v => Vec.sc_op h.A rfl, fun c v => ?_⟩
  have e : ∀ {F : Type} [NormedAddCommGroup F] [InnerProductSpace ℝ F] (M : Option (F →ₗ[ℝ] F)) (v : Vec F),
      applyPrecon (preOp M) v = Vec.op (M.getD LinearMap.id) v := by
    intro F _ _ M v
    cases M with
    | none => cases v <;> rfl
    | some M => rfl
  unfold UnitProblem.opts
  rw [e, e]
  exact Vec.sc_op h.precon rfl

theorem SameSystem.opts (h : SameSystem Q σ τ κ q q') : q'.opts = q.opts.units τ (preOp q'.precon) := by
  simp only [UnitProblem.opts, KrylovOpts.units, h.abstol, h.reltol, Fl.sc_fin]

theorem SameSystem.rhs (h : SameSystem Q σ τ κ q q') : (.fin q'.b : Vec E') = Vec.sc Q τ (.fin q.b) := by rw [h.b]; rfl

theorem SameSystem.kw (h : SameSystem Q σ τ κ q q') (mm : Option Nat) : q'.kw mm = (q.kw mm).units Q σ := by
  simp only [UnitProblem.kw, KrylovKw.units, h.guess]
  cases q.guess <;> rfl

theorem SameSystem.cgKw (h : SameSystem Q σ τ κ q q') (mm : Option Nat) (c r i : Bool) :
    q'.cgKw mm c r i = (q.cgKw mm c r i).units Q σ := by
  simp only [UnitProblem.cgKw, CGKw.units, h.guess]
  cases q.guess <;> rfl

theorem SameResult.of_eq {r : KrylovRes Fl (Vec E)} {r' : KrylovRes Fl (Vec E')} (h : r' = r.units Q σ τ) : SameResult Q σ τ r r' := by
  subst h; exact ⟨rfl, rfl, rfl, rfl, rfl⟩

/-- **C76 (CGS).** Exact arithmetic: on the same system in other units and coordinates CGS makes as many products and returns the same
results in the other units and coordinates. -/
theorem C76_cgs (h : SameSystem Q σ τ κ q q') (hσ : 0 < σ) (hτ : 0 < τ) (hκ : 0 < κ) (n : Nat) (mm : Option Nat) :
    let run := cgsSolve (Vec.op q.A) q.opts n (.fin q.b) (q.kw mm)
    let run' := cgsSolve (Vec.op q'.A) q'.opts n (.fin q'.b) (q'.kw mm)
    SameResult Q σ τ run.1 run'.1 ∧ run'.2.length = run.2.length := by
  rw [h.opts, h.rhs, h.kw]
  have := cgs_units q.opts (h.units hσ hτ hκ) n (.fin q.b) (q.kw mm)
  exact ⟨.of_eq this.1, this.2⟩

/-- **C76 (Bi-CGSTAB).** As `C76_cgs`, although the first iteration starts from `rho = alpha = omega = 1` in all units. -/
theorem C76_bicgstab (h : SameSystem Q σ τ κ q q') (hσ : 0 < σ) (hτ : 0 < τ) (hκ : 0 < κ) (n : Nat) (mm : Option Nat) :
    let run := biSolve (Vec.op q.A) q.opts n (.fin q.b) (q.kw mm)
    let run' := biSolve (Vec.op q'.A) q'.opts n (.fin q'.b) (q'.kw mm)
    SameResult Q σ τ run.1 run'.1 ∧ run'.2.length = run.2.length := by
  rw [h.opts, h.rhs, h.kw]
  have := bi_units q.opts (h.units hσ hτ hκ) n (.fin q.b) (q.kw mm)
  exact ⟨.of_eq this.1, this.2⟩

/-- **C76 (TFQMR).** As `C76_cgs`; if one of the solves raises, the other one raises the same error. -/
theorem C76_tfqmr (h : SameSystem Q σ τ κ q q') (hσ : 0 < σ) (hτ : 0 < τ) (hκ : 0 < κ) (n : Nat) (mm : Option Nat) :
    match tfSolve (Vec.op q.A) q.opts n (.fin q.b) (q.kw mm), tfSolve (Vec.op q'.A) q'.opts n (.fin q'.b) (q'.kw mm) with
    | .ok run, .ok run' => SameResult Q σ τ run.1 run'.1 ∧ run'.2.length = run.2.length
    | .error e, .error e' => e' = e
    | _, _ => False := by
  rw [h.opts, h.rhs, h.kw]
  have := tf_units q.opts (h.units hσ hτ hκ) n (.fin q.b) (q.kw mm)
  revert this
  cases tfSolve (Vec.op q.A) q.opts n (.fin q.b) (q.kw mm) <;>
    cases tfSolve (Vec.op q'.A) (q.opts.units τ (preOp q'.precon)) n (Vec.sc Q τ (.fin q.b)) ((q.kw mm).units Q σ)
  · exact id
  · exact False.elim
  · exact False.elim
  · exact fun h => ⟨.of_eq h.1, h.2⟩

/-- **C76 (CG; partial).** On the same system in other units and coordinates, with the preconditioner in the same unit (`κ = 1`), CG
makes as many products and returns the same results in the other units and coordinates: the solution, the residual norms, the
histories, the stored iterates and residuals, the verdict on definiteness and the direction of infinite descent.  Missing, because the
code violates it: a preconditioner in another unit (`C76_cg_violated`). -/
theorem C76_cg_partial (h : SameSystem Q σ τ 1 q q') (hσ : 0 < σ) (hτ : 0 < τ) (n : Nat) (mm : Option Nat) (c r i : Bool) :
    let run := cgSolve (Vec.op q.A) q.opts n {} (.fin q.b) (q.cgKw mm c r i)
    let run' := cgSolve (Vec.op q'.A) q'.opts n {} (.fin q'.b) (q'.cgKw mm c r i)
    run'.1.x = run.1.x.map (Vec.sc Q σ) ∧ run'.1.residNorm = run.1.residNorm.map (Fl.sc τ) ∧
    run'.1.residNorm0 = run.1.residNorm0.map (Fl.sc τ) ∧ run'.1.converged = run.1.converged ∧ run'.1.nMatvec = run.1.nMatvec ∧
    run'.1.definite = run.1.definite ∧ run'.1.infiniteDescent = run.1.infiniteDescent.map (Vec.sc Q τ) ∧
    run'.1.residHistory = run.1.residHistory.map (Fl.sc τ) ∧ run'.1.resids = run.1.resids.map (Vec.sc Q τ) ∧
    run'.1.iterates = run.1.iterates.map (Vec.sc Q σ) ∧ run'.2.length = run.2.length := by
  rw [h.opts, h.rhs, h.cgKw]
  have := cg_units q.opts (h.units hσ hτ one_pos) n {} (.fin q.b) (q.cgKw mm c r i)
  have e : CGObj.units Q σ τ {} = ({} : CGObj Fl (Vec E')) := rfl
  rw [e] at this
  simp only
  rw [this.1]
  exact ⟨rfl, rfl, rfl, rfl, rfl, rfl, rfl, rfl, rfl, rfl, this.2⟩

/-- **C76 is violated by CG with a preconditioner in another unit.** With `A = 1`, `b = 1`, `abstol = 1/100`, CG finds the solution
`x = 1`; with the preconditioner `M = 2`, it fails. -/
theorem C76_cg_violated : ∃ q q' : UnitProblem ℝ, SameSystem LinearIsometry.id 1 1 2 q q' ∧
    let run := cgSolve (Vec.op q.A) q.opts 1 {} (.fin q.b) (q.cgKw none true false false)
    let run' := cgSolve (Vec.op q'.A) q'.opts 1 {} (.fin q'.b) (q'.cgKw none true false false)
    run.1.converged = true ∧ run'.1.converged = false ∧ run'.1.definite = some false := by
  refine ⟨{ A := LinearMap.id, b := 1, abstol := 1/100, reltol := 0 },
    { A := LinearMap.id, b := 1, abstol := 1/100, reltol := 0, precon := some ((2:ℝ) • LinearMap.id) },
    ⟨fun v => by simp, by simp, rfl, fun v => by simp, by simp, rfl⟩, ?_⟩
  have h := pcg_solve
  have e : (UnitProblem.opts { A := LinearMap.id, b := 1, abstol := 1/100, reltol := 0, precon := some ((2:ℝ) • LinearMap.id) } :
    KrylovOpts Fl (Vec ℝ)) = pcgOpts := rfl
  have e' : (⇑(LinearMap.id : ℝ →ₗ[ℝ] ℝ)) = (fun v => v) := rfl
  refine ⟨?_, ?_, ?_⟩
  · have hA : CGMath.SPD (LinearMap.id : ℝ →ₗ[ℝ] ℝ) := by simpa using spd_smul 1 one_pos
    have := (C28_terminates_partial (E := ℝ) ⟨LinearMap.id, 1, none, 1/100, 0⟩ hA {} {} rfl rfl (by norm_num)
      (fun m h => by cases h)).1
    rw [Module.finrank_self] at this
    exact this
  · simp only [e, e', UnitProblem.cgKw, Option.map_none]; rw [h]
  · simp only [e, e', UnitProblem.cgKw, Option.map_none]; rw [h]

/-! ### The hypotheses can be met -/

/-- Every system can be written in any units and coordinates. -/
noncomputable def UnitProblem.rewrite (q : UnitProblem E) (Q : E ≃ₗᵢ[ℝ] E') (σ τ κ : ℝ) : UnitProblem E' where
  A := (τ / σ) • (Q.toLinearEquiv.toLinearMap ∘ₗ q.A ∘ₗ Q.symm.toLinearEquiv.toLinearMap)
  b := τ • Q q.b
  guess := q.guess.map (fun g => σ • Q g)
  precon := some (κ • (Q.toLinearEquiv.toLinearMap ∘ₗ q.precon.getD LinearMap.id ∘ₗ Q.symm.toLinearEquiv.toLinearMap))
  abstol := τ * q.abstol
  reltol := q.reltol

theorem UnitProblem.rewrite_same (q : UnitProblem E) (Q : E ≃ₗᵢ[ℝ] E') (σ τ κ : ℝ) :
    SameSystem Q.toLinearIsometry σ τ κ q (q.rewrite Q σ τ κ) :=
  ⟨fun v => by simp [UnitProblem.rewrite], rfl, rfl, fun v => by simp [UnitProblem.rewrite], rfl, rfl⟩

/-- `C76_cgs`, `C76_bicgstab`, `C76_tfqmr`: the system `5 x = 7` with guess 2 and preconditioner 1/5, lengths in metres
instead of kilometres, forces in newtons instead of kilonewtons, the axis reversed and the preconditioner doubled -/
example : SameSystem (LinearIsometryEquiv.neg ℝ (E := ℝ)).toLinearIsometry 1000 1000 2
    { A := (5:ℝ) • LinearMap.id, b := (7:ℝ), guess := some 2, precon := some ((1/5:ℝ) • LinearMap.id), abstol := 1/10, reltol := 1/100 }
    { A := (5:ℝ) • LinearMap.id, b := (-7000:ℝ), guess := some (-2000), precon := some ((2/5:ℝ) • LinearMap.id), abstol := 100,
      reltol := 1/100 } :=
  ⟨fun v => by simp, by norm_num, by norm_num, fun v => by simp; ring, by norm_num, rfl⟩

/-- `C76_cg_partial`: a 2 by 2 system, the unknowns swapped and in millimetres instead of metres -/
example (q : UnitProblem (EuclideanSpace ℝ (Fin 2))) (hq : q.b ≠ 0) :
    ∃ q', SameSystem (LinearIsometryEquiv.piLpCongrLeft 2 ℝ ℝ (Equiv.swap (0 : Fin 2) 1)).toLinearIsometry 1000 1 1 q q' ∧ q'.b ≠ 0 :=
  ⟨_, q.rewrite_same _ 1000 1 1, by simpa [UnitProblem.rewrite] using hq⟩

end Verif.Solver
