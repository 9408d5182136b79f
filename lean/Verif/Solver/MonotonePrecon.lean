import Verif.Solver.MonotoneProps
import Verif.Solver.RatePrecon

/-!
# C87 with preconditioners

A preconditioned method is the method without preconditioner in other inner products (`Warp`), so that the iterates approach the
solution in the norms that belong to these.
-/

namespace Verif.Solver
open Scalar Vect
open scoped RealInnerProductSpace
open MinresMath (krylov)

variable {E F : Type} [NormedAddCommGroup E] [InnerProductSpace ℝ E] [NormedAddCommGroup F] [InnerProductSpace ℝ F]

/-- **Specification.** `Approaches`, from 0 and in the norm `nrm`. -/
def ApproachesIn (nrm : E → ℝ) (sol : E) (f : E → ℝ) (its : List E) : Prop :=
  ∀ (k : ℕ) (x x' : E), its[k]? = some x → its[k+1]? = some x' →
    (x = sol ∧ x' = sol) ∨ (nrm (x' - sol) < nrm (x - sol) ∧ nrm x < nrm x' ∧ f x' < f x)

theorem approaches_mk {M : E →ₗ[ℝ] E} {hM : Spd M} {sol : E} {f : Warp M hM → ℝ} {g : E → ℝ} {ts : List E}
    (h : Approaches 0 (Warp.mk M hM sol) f (ts.map (Warp.mk M hM))) (hf : ∀ y, f (Warp.mk M hM y) = g y) :
    ApproachesIn (pnorm M) sol g ts := by
  intro k x x' hx hx'
  have := h k (Warp.mk M hM x) (Warp.mk M hM x') (by rw [List.getElem?_map, hx]; rfl) (by rw [List.getElem?_map, hx']; rfl)
  rw [sub_zero, sub_zero, ← map_sub, ← map_sub, Warp.norm_eq, Warp.norm_eq, Warp.norm_eq, Warp.norm_eq, hf, hf] at this
  exact this.imp_left fun h => ⟨(Warp.mk M hM).injective h.1, (Warp.mk M hM).injective h.2⟩

theorem minimumNorm_mk {N : E →ₗ[ℝ] E} {hN : Spd N} {M : F →ₗ[ℝ] F} {hM : Spd M} {C : Warp N hN →ₗ[ℝ] Warp M hM} {A : E →ₗ[ℝ] F}
    {b : F} {sol : E} (hC : ∀ y, C (Warp.mk N hN y) = Warp.mk M hM (A (N y)))
    (h : MinimumNormLeastSquares C (Warp.mk M hM b) (Warp.mk N hN sol)) :
    (∀ y, pnorm M (b - A (N sol)) ≤ pnorm M (b - A (N y))) ∧
      ∀ y, pnorm M (b - A (N y)) = pnorm M (b - A (N sol)) → y ≠ sol → pnorm N sol < pnorm N y := by
  refine ⟨fun y => ?_, fun y hy hne => ?_⟩
  · have := h.1 (Warp.mk N hN y)
    rwa [hC, hC, ← map_sub, ← map_sub, Warp.norm_eq, Warp.norm_eq] at this
  · have := h.2 (Warp.mk N hN y)
    rw [hC, hC, ← map_sub, ← map_sub, Warp.norm_eq, Warp.norm_eq, Warp.norm_eq, Warp.norm_eq] at this
    exact this hy fun e => hne ((Warp.mk N hN).injective e)

/-- **C87 (partial), MINRES with a preconditioner.** In exact arithmetic, with a symmetric positive definite preconditioner `M`, on a
symmetric operator such that `A - shift I` is positive definite and no eigenvalue of `(A - shift I) M` is below the machine precision `ε`:
unless the solve breaks down with `istop = -1` (`C34_beta2_nan`), there are vectors `us` such that the iterates are `x = M u` for the
elements `u` of `0 :: us`, the last of which is returned, and these approach the solution `M sol` in the norm `sqrt(x' inv(M) x)`, which is
the `M`-norm of `u`, with decreasing energy norms of the error and decreasing `M`-norms of the residual. Missing: smaller eigenvalues
(`C35_clipped`). -/
theorem C87_minres_preconditioned_partial [FiniteDimensional ℝ E] (q : MinresProblem E) (hA : ∀ u v, ⟪q.A u, v⟫ = ⟪u, q.A v⟫)
    (M : E →ₗ[ℝ] E) (hM : Spd M) (ε : ℝ) (hε : 0 < ε) (hlow : ∀ z, ε * pnorm M z ≤ pnorm M (q.A (M z) - q.shift • M z))
    (hpos : ∀ z, 0 ≤ ⟪z, q.A z - q.shift • z⟫) (hw : q.window ≠ 0) (n : ℕ) (self : MinresObj Fl (Vec E)) :
    ∃ res products, minresSolve (Vec.op q.A) (.fin ε) n self (.fin q.b) { q.kw with precon := some (Vec.op M) } =
        .ok (res, products) ∧
      (res.istop ≠ -1 → res.x ≠ .nan) ∧
      ∀ x, res.x = .fin x → ∃ (us : List E) (sol : E), q.A (M sol) - q.shift • M sol = q.b ∧ us.length = products.length ∧
        (0 :: us).getLast?.map M = some x ∧ (q.storeIterates = true → res.iterates = (0 :: us).map fun u => Vec.fin (M u)) ∧
        ApproachesIn (pnorm M) sol (fun u => ⟪M (u - sol), q.A (M (u - sol)) - q.shift • M (u - sol)⟫) (0 :: us) ∧
        ApproachesIn (pnorm M) sol (fun u => pnorm M (q.b - (q.A (M u) - q.shift • M u))) (0 :: us) := by
  have hfin : FiniteDimensional ℝ (Warp M hM) := Module.Finite.equiv (Warp.mk M hM)
  have hB : ∀ u : E, (q.warp M hM).A (Warp.mk M hM u) - (q.warp M hM).shift • Warp.mk M hM u =
      Warp.mk M hM (q.A (M u) - q.shift • M u) := by
    intro u
    simp [MinresProblem.warp, MinresProblem.B]
  have hE : ∀ u : E, ⟪Warp.mk M hM u, (q.warp M hM).A (Warp.mk M hM u) - (q.warp M hM).shift • Warp.mk M hM u⟫ =
      ⟪M u, q.A (M u) - q.shift • M u⟫ := by
    intro u
    rw [hB, Warp.inner_mk, ← hM.symm]
  obtain ⟨res, products, h1, h2, h3⟩ := C87_minres_partial (q.warp M hM) (q.warp_symm M hM hA) ε hε
    (fun z => by
      obtain ⟨u, rfl⟩ := (Warp.mk M hM).surjective z
      rw [hB, Warp.norm_eq, Warp.norm_eq]
      exact hlow u) (fun z => by
      obtain ⟨u, rfl⟩ := (Warp.mk M hM).surjective z
      rw [hE]
      exact hpos (M u)) hw n ⟨self.residHistory⟩
  have hsol := q.warp_solve M hM (.fin ε) n self
  rw [h1] at hsol
  refine ⟨_, _, hsol, ?_, ?_⟩
  · intro hi hn
    refine h2 hi ?_
    have hn : (Warp.dual M hM).P res.x = .nan := hn
    cases hx : res.x with
    | nan => rfl
    | fin x => rw [hx] at hn; cases hn
  · intro x hx
    have hx : (Warp.dual M hM).P res.x = .fin x := hx
    obtain ⟨x', hx', rfl⟩ := Vec.op_eq_fin hx
    obtain ⟨us, sol, e0, e1, e2, e3, e4, e5⟩ := h3 x' hx'
    obtain ⟨us, rfl⟩ := list_mk us
    obtain ⟨sol, rfl⟩ := (Warp.mk M hM).surjective sol
    have hz : 0 :: us.map (Warp.mk M hM) = (0 :: us).map (Warp.mk M hM) := by simp
    rw [hz] at e2 e3 e4 e5
    refine ⟨us, sol, ?_, ?_, ?_, ?_, ?_, ?_⟩
    · rw [hB] at e0
      exact (Warp.mk M hM).injective e0
    · rw [List.length_map] at e1 ⊢; exact e1
    · rw [List.getLast?_map] at e2
      cases hl : (0 :: us).getLast? with
      | none => rw [hl] at e2; cases e2
      | some u =>
        rw [hl] at e2
        cases e2
        rfl
    · intro hk
      change res.iterates.map (Warp.dual M hM).P = _
      rw [e3 hk, List.map_map, List.map_map]; rfl
    · exact approaches_mk e4 fun y => by rw [← map_sub, hE]
    · refine approaches_mk e5 fun y => ?_
      rw [hB, ← Warp.norm_eq (h := hM), map_sub]; rfl

/-- **C87, LSQR with preconditioners.** In exact arithmetic, with symmetric positive definite preconditioners `M`, `N` (or without one
or both of them), for every operator, of whatever rank, right-hand side, damping and keywords: there are vectors `ys` such that the
iterates are `x = N y` for the elements `y` of `0 :: ys`, the last of which is returned, and these approach, in the `N`-norm, the
minimizer `sol` of `f(y) = (b - Ax)'M(b - Ax) + damp^2 y'Ny`, the one of smallest `N`-norm if `damp = 0`, with decreasing values of `f`. -/
theorem C87_lsqr_preconditioned [FiniteDimensional ℝ E] (q : LsqrProblem E F) (hq : q.Valid) (N : E →ₗ[ℝ] E) (hN : Spd N)
    (M : F →ₗ[ℝ] F) (hM : Spd M) (preM : Option (Vec F → Vec F)) (preN : Option (Vec E → Vec E)) (hpM : PreconIs M preM)
    (hpN : PreconIs N preN) :
    let f : E → ℝ := fun y => pnorm M (q.b - q.A (N y)) ^ 2 + q.damp ^ 2 * pnorm N y ^ 2
    ∃ res s, ∃ (ys : List E) (sol : E),
      lsqrSolve (Vec.op q.A) (Vec.op q.B) q.n (.fin q.b) { q.kw with M := preM, N := preN } = .ok (res, s) ∧
      res.itn = ys.length ∧ res.x = (0 :: ys).getLast?.elim .nan (fun y => Vec.fin (N y)) ∧
      (q.storeIterates = true → res.iterates = (0 :: ys).map fun y => Vec.fin (N y)) ∧
      (∀ y, f sol ≤ f y) ∧
      (q.damp = 0 → ∀ y, pnorm M (q.b - q.A (N y)) = pnorm M (q.b - q.A (N sol)) → y ≠ sol → pnorm N sol < pnorm N y) ∧
      ApproachesIn (pnorm N) sol f (0 :: ys) := by
  intro f
  have hfin : FiniteDimensional ℝ (Warp N hN) := Module.Finite.equiv (Warp.mk N hN)
  have hA : ∀ t, (q.warp N hN M hM).A (Warp.mk N hN t) = Warp.mk M hM (q.A (N t)) := fun _ => rfl
  have hbb : (q.warp N hN M hM).b = Warp.mk M hM q.b := rfl
  have hdd : (q.warp N hN M hM).damp = q.damp := rfl
  obtain ⟨res, t, us, sol, hr, h1, h2, h3, h4, h5, h6⟩ := C87_lsqr (q.warp N hN M hM) (q.warp_valid hq N hN M hM)
  obtain ⟨ys, rfl⟩ := list_mk us
  obtain ⟨res', s, hs', e1, -, e3, -, -, -, -, -, -, -, -, e12⟩ := q.warp_solve N hN M hM hpM hpN hr
  obtain ⟨sol, rfl⟩ := (Warp.mk N hN).surjective sol
  have hz : 0 :: ys.map (Warp.mk N hN) = (0 :: ys).map (Warp.mk N hN) := by simp
  have hf : ∀ y : E, ‖(q.warp N hN M hM).b - (q.warp N hN M hM).A (Warp.mk N hN y)‖ ^ 2 +
      (q.warp N hN M hM).damp ^ 2 * ‖Warp.mk N hN y‖ ^ 2 = f y := by
    intro y
    rw [hA, hbb, hdd, ← map_sub, Warp.norm_eq, Warp.norm_eq]
  refine ⟨res', s, ys, sol, hs', by rw [e3, h1, List.length_map], ?_, ?_, ?_, fun hd => (minimumNorm_mk hA (h5 hd)).2,
    approaches_mk (hz ▸ h6) hf⟩
  · rw [e1, h2, hz, List.getLast?_map]
    cases (0 :: ys).getLast? <;> rfl
  · intro hk
    rw [e12, h3 hk, hz, List.map_map, List.map_map]; rfl
  · intro y
    have := h4 (Warp.mk N hN y)
    simpa only [hf] using this

/-- **C87, LSMR with preconditioners.** The same for LSMR, if `solve` returns (it may raise `ZeroDivisionError`); the `N`-norm of
`A'M(b - Ax) - damp^2 y` decreases as well. -/
theorem C87_lsmr_preconditioned [FiniteDimensional ℝ E] (q : LsmrProblem E F) (hq : q.Valid) (selfX : Option (Vec E))
    (N : E →ₗ[ℝ] E) (hN : Spd N) (M : F →ₗ[ℝ] F) (hM : Spd M) (preM : Option (Vec F → Vec F)) (preN : Option (Vec E → Vec E))
    (hpM : PreconIs M preM) (hpN : PreconIs N preN) :
    let f : E → ℝ := fun y => pnorm M (q.b - q.A (N y)) ^ 2 + q.damp ^ 2 * pnorm N y ^ 2
    lsmrSolve (Vec.op q.A) (Vec.op q.B) q.m q.n (.fin q.b) { q.kw with M := preM, N := preN } selfX = .error .zeroDivision ∨
    ∃ res s, ∃ (ys : List E) (sol : E),
      lsmrSolve (Vec.op q.A) (Vec.op q.B) q.m q.n (.fin q.b) { q.kw with M := preM, N := preN } selfX = .ok (res, s) ∧
      res.itn = ys.length ∧ res.x = (0 :: ys).getLast?.elim .nan (fun y => Vec.fin (N y)) ∧
      (q.storeIterates = true → res.iterates = (0 :: ys).map fun y => Vec.fin (N y)) ∧
      (∀ y, f sol ≤ f y) ∧
      (q.damp = 0 → ∀ y, pnorm M (q.b - q.A (N y)) = pnorm M (q.b - q.A (N sol)) → y ≠ sol → pnorm N sol < pnorm N y) ∧
      ApproachesIn (pnorm N) sol f (0 :: ys) ∧
      ApproachesIn (pnorm N) sol (fun y => pnorm N (q.B (M (q.b - q.A (N y))) - (q.damp * q.damp) • y)) (0 :: ys) := by
  intro f
  have hfin : FiniteDimensional ℝ (Warp N hN) := Module.Finite.equiv (Warp.mk N hN)
  have hA : ∀ t, (q.warp N hN M hM).A (Warp.mk N hN t) = Warp.mk M hM (q.A (N t)) := fun _ => rfl
  rcases lsmrSolve_precon q hq selfX N hN M hM preM preN hpM hpN with
    ⟨res, s, ys, hr, h1, h2, h3, -, -, h4, -⟩ | ⟨he, -⟩
  swap
  · exact Or.inl he
  have hn : ∀ y, ‖(q.warp N hN M hM).B (Warp.mk M hM q.b - (q.warp N hN M hM).A (Warp.mk N hN y)) -
      (q.damp * q.damp) • Warp.mk N hN y‖ = pnorm N (q.B (M (q.b - q.A (N y))) - (q.damp * q.damp) • y) :=
    fun y => q.warp_normal N hN M hM y
  obtain ⟨sol, k1, k2, k3, k4⟩ := approaches_normal (q.warp_valid hq N hN M hM).adj q.damp (Warp.mk M hM q.b)
    (ys.map (Warp.mk N hN)) (by
      intro i hi
      rw [List.length_map] at hi
      rw [List.getElem_map]
      refine ⟨(q.warp_krylov N hN M hM _ _).2 (h4 i hi).1, fun y hy => ?_⟩
      obtain ⟨y, rfl⟩ := (Warp.mk N hN).surjective y
      rw [hn, hn]
      exact (h4 i hi).2 y ((q.warp_krylov N hN M hM y _).1 hy))
  obtain ⟨sol, rfl⟩ := (Warp.mk N hN).surjective sol
  have hz : 0 :: ys.map (Warp.mk N hN) = (0 :: ys).map (Warp.mk N hN) := by simp
  have hf : ∀ y : E, ‖Warp.mk M hM q.b - (q.warp N hN M hM).A (Warp.mk N hN y)‖ ^ 2 + q.damp ^ 2 * ‖Warp.mk N hN y‖ ^ 2 = f y := by
    intro y
    rw [hA, ← map_sub, Warp.norm_eq, Warp.norm_eq]
  refine Or.inr ⟨res, s, ys, sol, hr, h1, by rw [h2, List.getLast?_eq_some_getLast (by simp)]; rfl, h3, fun y => ?_,
    fun hd => (minimumNorm_mk hA (k2 hd)).2, approaches_mk (hz ▸ k3) hf, approaches_mk (hz ▸ k4) hn⟩
  have := k1 (Warp.mk N hN y)
  simpa only [hf] using this

/-- **C87, CRAIG with preconditioners.** In exact arithmetic, with symmetric positive definite preconditioners `M`, `N` (or without
one or both of them), for every operator, nonzero right-hand side and keywords with a positive iteration limit: there are vectors `ts`
such that the returned `r` is `M` times the last one and `x = N A' r`, and these approach, in the `M`-norm, the solution `sol` of
`(A N A' M + I) t = b`, with decreasing errors in the norm `sqrt(|A'Mz|_N^2 + |z|_M^2)`. -/
theorem C87_craig_preconditioned [FiniteDimensional ℝ F] (q : CraigProblem E F) (hq : q.Valid) (hb : q.b ≠ 0) (hl : 1 ≤ q.limit)
    (N : E →ₗ[ℝ] E) (hN : Spd N) (M : F →ₗ[ℝ] F) (hM : Spd M)
    (preM : Option (Vec F → Vec F)) (preN : Option (Vec E → Vec E)) (hpM : PreconIs M preM) (hpN : PreconIs N preN) :
    ∃ res s, craigSolve (Vec.op q.A) (Vec.op q.B) q.n (.fin q.b) { q.kw with M := preM, N := preN } = .ok (res, s) ∧
    ∃ (ts : List F) (sol : F), q.A (N (q.B (M sol))) + sol = q.b ∧ ts.length = res.itn + 1 ∧
      res.r = .fin (M (ts.getLastD 0)) ∧ res.x = .fin (N (q.B (M (ts.getLastD 0)))) ∧
      ApproachesIn (pnorm M) sol (fun t => pnorm N (q.B (M (t - sol))) ^ 2 + pnorm M (t - sol) ^ 2) ts := by
  have hfin : FiniteDimensional ℝ (Warp M hM) := Module.Finite.equiv (Warp.mk M hM)
  have hB : ∀ t, (q.warp N hN M hM).B (Warp.mk M hM t) = Warp.mk N hN (q.B (M t)) := fun _ => rfl
  obtain ⟨res, s, hs, rs, sol, h4, h1, h2, h3, -, h5⟩ := C87_craig (q.warp N hN M hM) (q.warp_valid hq N hN M hM)
    ((LinearEquiv.map_ne_zero_iff _).2 hb) hl
  obtain ⟨ts, rfl⟩ := list_mk rs
  obtain ⟨sol, rfl⟩ := (Warp.mk M hM).surjective sol
  refine ⟨craigResMap (Warp.dual M hM) (Warp.dual N hN) res, craigLoopMap (Warp.dual M hM) (Warp.dual N hN) s,
    (q.warp_solve N hN M hM hpM hpN).trans (by rw [hs]; rfl), ts, sol, ?_, ?_, ?_, ?_, ?_⟩
  · exact (Warp.mk M hM).injective h4
  · rw [List.length_map] at h1; exact h1
  · change (Warp.dual M hM).P res.r = _
    rw [h2, getLastD_mk]; rfl
  · change (Warp.dual N hN).P res.x = _
    rw [h3, getLastD_mk]; rfl
  · exact approaches_mk h5 fun y => by rw [← map_sub, hB, Warp.norm_eq, Warp.norm_eq]

/-- **C87, CRAIG-MR with preconditioners.** In exact arithmetic, with symmetric positive definite preconditioners `M`, `N` (or without
one or both of them), for every operator, right-hand side and keywords: there are vectors `ts` such that the iterates are `M t` for the
elements `t` of `ts`, the last of which is returned, and these approach, in the `M`-norm, the solution `sol` of `(A N A' M + I) t = b`, with
decreasing errors in the norm `sqrt(|A'Mz|_N^2 + |z|_M^2)` and decreasing `M`-norms of the residual. -/
theorem C87_craigmr_preconditioned [FiniteDimensional ℝ F] (q : CraigmrProblem E F) (hq : q.Valid)
    (N : E →ₗ[ℝ] E) (hN : Spd N) (M : F →ₗ[ℝ] F) (hM : Spd M)
    (preM : Option (Vec F → Vec F)) (preN : Option (Vec E → Vec E)) (hpM : PreconIs M preM) (hpN : PreconIs N preN) :
    ∃ res s, craigmrSolve (Vec.op q.A) (Vec.op q.B) q.m q.n (.fin q.b) { q.kw with M := preM, N := preN } = .ok (res, s) ∧
    ∃ (ts : List F) (sol : F), q.A (N (q.B (M sol))) + sol = q.b ∧ ts.length = res.itn + 1 ∧ res.x = .fin (M (ts.getLastD 0)) ∧
      (q.storeIterates = true → res.iterates = ts.map fun t => Vec.fin (M t)) ∧
      ApproachesIn (pnorm M) sol (fun t => pnorm N (q.B (M (t - sol))) ^ 2 + pnorm M (t - sol) ^ 2) ts ∧
      ApproachesIn (pnorm M) sol (fun t => pnorm M (q.b - (t + q.A (N (q.B (M t)))))) ts := by
  have hfin : FiniteDimensional ℝ (Warp M hM) := Module.Finite.equiv (Warp.mk M hM)
  have hB : ∀ t, (q.warp N hN M hM).B (Warp.mk M hM t) = Warp.mk N hN (q.B (M t)) := fun _ => rfl
  have hA : ∀ t, (q.warp N hN M hM).A (Warp.mk N hN t) = Warp.mk M hM (q.A (N t)) := fun _ => rfl
  have hbb : (q.warp N hN M hM).b = Warp.mk M hM q.b := rfl
  obtain ⟨res, s, hs, rs, sol, h4, h1, h2, h3, h5, h6⟩ := C87_craigmr (q.warp N hN M hM) (q.warp_valid hq N hN M hM)
  obtain ⟨ts, rfl⟩ := list_mk rs
  obtain ⟨sol, rfl⟩ := (Warp.mk M hM).surjective sol
  refine ⟨craigmrResMap (Warp.dual M hM) res, craigmrLoopMap (Warp.dual M hM) (Warp.dual N hN) s,
    (q.warp_solve N hN M hM hpM hpN).trans (by rw [hs]; rfl), ts, sol, ?_, ?_, ?_, ?_, ?_, ?_⟩
  · exact (Warp.mk M hM).injective h4
  · rw [List.length_map] at h1; exact h1
  · change (Warp.dual M hM).P res.x = _
    rw [h2, getLastD_mk]; rfl
  · intro hk
    change res.iterates.map (Warp.dual M hM).P = _
    rw [h3 hk, List.map_map, List.map_map]; rfl
  · exact approaches_mk h5 fun y => by rw [← map_sub, hB, Warp.norm_eq, Warp.norm_eq]
  · exact approaches_mk h6 fun y => by rw [hB, hA, hbb, ← map_add, ← map_sub, Warp.norm_eq]

/-! ### Instances -/

/-- the hypotheses of `C87_minres_preconditioned_partial` are met: `I + u u'`, scaled by the preconditioner -/
example [FiniteDimensional ℝ E] (u b : E) :=
  C87_minres_preconditioned_partial ⟨rankOneUpdate u, b, 0, false, none, 0, 0, false, 5⟩ (rankOneUpdate_symm u)
    _ (Spd.scale (by norm_num : (0:ℝ) < 2)) (1/1000) (by norm_num) (fun z => by
      have h1 := rankOneUpdate_norm u z
      have h3 := Real.sqrt_nonneg 2
      have h4 := norm_nonneg z
      simp only [zero_smul, sub_zero]
      rw [pnorm_scale (by norm_num), pnorm_scale (by norm_num), LinearMap.smul_apply, LinearMap.id_apply, map_smul, norm_smul,
        Real.norm_eq_abs, abs_of_pos (by norm_num : (0:ℝ) < 2)]
      nlinarith [mul_le_mul_of_nonneg_left h1 h3, mul_nonneg h3 h4]) (fun z => by
      simp only [zero_smul, sub_zero]
      rw [rankOneUpdate_inner]
      positivity) (by simp) (Module.finrank ℝ E) {}

example [FiniteDimensional ℝ E] (u : E) (b : ℝ) :=
  C87_lsqr_preconditioned (E := E) (F := ℝ) ⟨row u, col u, b, 7, 1, 9, 0, 0, 0, 0, false, false, 5⟩
    ⟨row_adj u, le_rfl, le_rfl, by simp⟩ _ (Spd.scale (by norm_num : (0:ℝ) < 5)) _ (Spd.scale (by norm_num : (0:ℝ) < 2)) _ _
    .some .some

example [FiniteDimensional ℝ E] (u : E) (b : ℝ) :=
  C87_lsmr_preconditioned (E := E) (F := ℝ) ⟨row u, col u, b, 1, 7, 1, none, 0, 0, 0, 0, false, false, 5⟩
    ⟨row_adj u, le_rfl, by simp⟩ none _ (Spd.scale (by norm_num : (0:ℝ) < 5)) _ (Spd.scale (by norm_num : (0:ℝ) < 2)) _ _
    .some .some

example (u : E) :=
  C87_craig_preconditioned (E := E) (F := ℝ) ⟨row u, col u, 3, 7, 0, 1, 0, 0, 0, 0, false, false, 5⟩
    ⟨row_adj u, by simp⟩ (by simp) (by simp [CraigProblem.limit]) _ (Spd.scale (by norm_num : (0:ℝ) < 5)) _
    (Spd.scale (by norm_num : (0:ℝ) < 2)) _ _ .some .some

example (u : E) (b : ℝ) :=
  C87_craigmr_preconditioned (E := E) (F := ℝ) ⟨row u, col u, b, 1, 7, 0, some 2, 0, 0, 0, 0, false, false, 5⟩ ⟨row_adj u, by simp⟩
    _ (Spd.scale (by norm_num : (0:ℝ) < 5)) _ (Spd.scale (by norm_num : (0:ℝ) < 2)) _ _ .some .some

end Verif.Solver
