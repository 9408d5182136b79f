import Verif.Solver.CGExact
import Verif.Solver.KrylovConvProps
import Verif.Solver.MinresPreconProps
import Verif.Solver.SymmlqPreconProps
import Verif.Solver.LSQRPreconProps
import Verif.Solver.LSMRPreconProps
import Verif.Solver.CraigPreconProps

/-!
# C71: few distinct eigenvalues, few iterations

`Confined B c d` (in `Confined.lean`) says that `c` lies in a subspace of dimension at most `d` that `B` maps to itself.  The first
section shows when this is so: `c` is a sum of `d` eigenvectors, `B` is symmetric with `d` distinct eigenvalues, `B` is a multiple
of the identity plus a map of rank `d - 1`, or, for least-squares problems, `A` has rank `d`.
-/

namespace Verif.Solver
open Scalar Vect
open scoped RealInnerProductSpace
open MinresMath (krylov)

variable {E : Type} [NormedAddCommGroup E] [InnerProductSpace ℝ E]
variable {F : Type} [NormedAddCommGroup F] [InnerProductSpace ℝ F]

/-! ### When vectors are confined -/

/-- **C71.** A symmetric map with at most `d` distinct eigenvalues confines every vector to `d` dimensions. -/
theorem C71_few_eigenvalues [FiniteDimensional ℝ E] {B : E →ₗ[ℝ] E} (hB : ∀ u v : E, ⟪B u, v⟫ = ⟪u, B v⟫) (L : Finset ℝ)
    (hL : ∀ (l : ℝ) (v : E), B v = l • v → v ≠ 0 → l ∈ L) (c : E) : Confined B c L.card :=
  (sumOfEigenvectors_of_card hB L hL c).confined

/-- **C71.** A multiple of the identity plus a map of rank `d` confines every vector to `d + 1` dimensions. -/
theorem C71_low_rank_update [FiniteDimensional ℝ E] (a : ℝ) (U : E →ₗ[ℝ] E) (c : E) :
    Confined (a • LinearMap.id + U) c (Module.finrank ℝ (LinearMap.range U) + 1) := by
  refine ⟨LinearMap.range U ⊔ Submodule.span ℝ {c}, ?_, ?_, fun w hw => ?_⟩
  · exact (Submodule.finrank_add_le_finrank_add_finrank _ _).trans
      (Nat.add_le_add_left ((finrank_span_le_card _).trans (by simp)) _)
  · exact Submodule.mem_sup_right (Submodule.mem_span_singleton_self c)
  · exact Submodule.add_mem _ (Submodule.smul_mem _ a hw) (Submodule.mem_sup_left ⟨w, rfl⟩)

/-- **C71.** If `A'` has rank at most `d`, then `A'b` is confined to `d` dimensions under `A'A`. -/
theorem C71_low_rank (A : E →ₗ[ℝ] F) (B : F →ₗ[ℝ] E) (b : F) {d : ℕ} (h : Module.finrank ℝ (LinearMap.range B) ≤ d) :
    Confined (B ∘ₗ A) (B b) d :=
  ⟨LinearMap.range B, h, ⟨b, rfl⟩, fun w _ => ⟨A w, rfl⟩⟩

/-- **C71.** If the preconditioner is the inverse of the operator, every vector is confined to one dimension. -/
theorem C71_perfect {A M : E →ₗ[ℝ] E} (h : ∀ z, A (M z) = z) (c : E) : Confined (A ∘ₗ M) c 1 :=
  ⟨Submodule.span ℝ {c}, (finrank_span_le_card _).trans (by simp), Submodule.mem_span_singleton_self c, fun w hw => by
    rw [LinearMap.comp_apply, h]; exact hw⟩

/-! ### CG -/

/-- **C71 (CG).** In exact arithmetic, for a symmetric positive definite operator, if the first residual is confined to `d`
dimensions, CG converges within `d` iterations (a guess costs one more product), for every tolerance and budget that allows so
many products. -/
theorem C71_cg [FiniteDimensional ℝ E] (q : CGProblem E) (hA : CGMath.SPD q.A) (self : CGObj Fl (Vec E))
    (kw : CGKw (Vec E)) (hk : kw.Runs) (hg : kw.guess = q.guess.map Vec.fin) (hat : 0 ≤ q.abstol)
    {n d : ℕ} (hd : Confined q.A (q.b - q.A (startPoint q.guess)) d)
    (hm : 0 < d → d + (if kw.guess.isSome then 1 else 0) ≤ kw.matvecMax.getD (2 * n)) :
    let res := (cgSolve (Vec.op q.A) q.opts n self (.fin q.b) kw).1
    res.converged = true ∧ res.nMatvec ≤ d + (if kw.guess.isSome then 1 else 0) ∧
    (∃ x, res.x = some (.fin x) ∧ ‖q.b - q.A x‖ ≤ max q.abstol (q.reltol * ‖q.b - q.A (startPoint q.guess)‖) ∧
      (q.abstol = 0 → q.reltol = 0 → q.A x = q.b)) := by
  have := cg_confined q hA self kw hk hg hat (n := n) (by simpa using hd.neg) hm
  exact ⟨this.1, this.2.1, this.2.2.1⟩

/-- **C71 (CG, eigenvalues).** In exact arithmetic, CG on a symmetric positive definite operator with at most `d` distinct
eigenvalues converges within `d` iterations, for every right-hand side, guess and tolerance, if the budget allows so many
products. -/
theorem C71_cg_eigenvalues [FiniteDimensional ℝ E] (q : CGProblem E) (hA : CGMath.SPD q.A) (L : Finset ℝ)
    (hL : ∀ (l : ℝ) (v : E), q.A v = l • v → v ≠ 0 → l ∈ L) (self : CGObj Fl (Vec E))
    (kw : CGKw (Vec E)) (hk : kw.Runs) (hg : kw.guess = q.guess.map Vec.fin) (hat : 0 ≤ q.abstol) {n : ℕ}
    (hm : 0 < L.card → L.card + (if kw.guess.isSome then 1 else 0) ≤ kw.matvecMax.getD (2 * n)) :
    let res := (cgSolve (Vec.op q.A) q.opts n self (.fin q.b) kw).1
    res.converged = true ∧ res.nMatvec ≤ L.card + (if kw.guess.isSome then 1 else 0) ∧
    (∃ x, res.x = some (.fin x) ∧ ‖q.b - q.A x‖ ≤ max q.abstol (q.reltol * ‖q.b - q.A (startPoint q.guess)‖) ∧
      (q.abstol = 0 → q.reltol = 0 → q.A x = q.b)) :=
  C71_cg q hA self kw hk hg hat (C71_few_eigenvalues hA.symm L hL _) hm

/-! ### CGS, Bi-CGSTAB and TFQMR -/

/-- **C71 (CGS).** In exact arithmetic, for every operator `A` and linear preconditioner `K`, if the first residual is confined to
`d` dimensions under `AK`, CGS converges within `2d` products or breaks down with an undefined residual norm. -/
theorem C71_cgs [FiniteDimensional ℝ E] (q : LinProblem E) (n d : ℕ) (kw : KrylovKw (Vec E))
    (hg : kw.guess = q.guess.map Vec.fin) (K : Option (E →ₗ[ℝ] E)) (hK : q.precon = linPrecon K)
    (hd : Confined (rightPrecon q.A K) (q.b - q.A q.start) d)
    (ht : 0 ≤ max q.abstol (q.reltol * ‖q.b - q.A q.start‖)) (hm : 2 * d ≤ kw.matvecMax.getD (2 * n)) :
    let res := (cgsSolve (Vec.op q.A) q.opts n (.fin q.b) kw).1
    (res.converged = true ∧ res.nMatvec ≤ 2 * d) ∨ res.residNorm = .nan :=
  (cgs_end q n d kw hg K hd hK ht hm).imp id fun h => h.2

/-- **C71 (CGS, positive definite).** Without preconditioner and for a symmetric positive definite operator there is no
breakdown: CGS returns, within `2d` products, a finite `x` whose residual norm is within the threshold. -/
theorem C71_cgs_spd [FiniteDimensional ℝ E] (q : LinProblem E) (hK : q.precon = none) (hA : SPD q.A) (n d : ℕ)
    (kw : KrylovKw (Vec E)) (hg : kw.guess = q.guess.map Vec.fin) (hd : Confined q.A (q.b - q.A q.start) d)
    (ht : 0 ≤ max q.abstol (q.reltol * ‖q.b - q.A q.start‖)) (hm : 2 * d ≤ kw.matvecMax.getD (2 * n)) :
    let res := (cgsSolve (Vec.op q.A) q.opts n (.fin q.b) kw).1
    res.converged = true ∧ res.nMatvec ≤ 2 * d ∧
    ∃ x, res.x = .fin x ∧ ‖q.b - q.A x‖ ≤ max q.abstol (q.reltol * ‖q.b - q.A q.start‖) := by
  rcases cgs_end q n d kw hg none hd hK ht hm with ⟨h1, h2⟩ | ⟨h, -⟩
  · obtain ⟨x, hx, -, hx2⟩ := ((C31_converged q n kw hg).2).1 h1
    exact ⟨h1, h2, x, hx, hx2⟩
  · exact absurd h (cgs_no_breakdown hA.1 hA.2)

/-- **C71 (Bi-CGSTAB).** As for CGS. -/
theorem C71_bicgstab [FiniteDimensional ℝ E] (q : LinProblem E) (n d : ℕ) (kw : KrylovKw (Vec E))
    (hg : kw.guess = q.guess.map Vec.fin) (K : Option (E →ₗ[ℝ] E)) (hK : q.precon = linPrecon K)
    (hd : Confined (rightPrecon q.A K) (q.b - q.A q.start) d) (hd0 : 0 < d)
    (ht : 0 ≤ max q.abstol (q.reltol * ‖q.b - q.A q.start‖)) (hm : 2 * d ≤ kw.matvecMax.getD (2 * n)) :
    let res := (biSolve (Vec.op q.A) q.opts n (.fin q.b) kw).1
    (res.converged = true ∧ res.nMatvec ≤ 2 * d) ∨ res.residNorm = .nan :=
  (bi_end q n d kw hg K hd hd0 hK ht hm).imp id fun h => h.2

/-- **C71 (Bi-CGSTAB, positive definite).** As for CGS. -/
theorem C71_bicgstab_spd [FiniteDimensional ℝ E] (q : LinProblem E) (hK : q.precon = none) (hA : SPD q.A) (n d : ℕ)
    (kw : KrylovKw (Vec E)) (hg : kw.guess = q.guess.map Vec.fin) (hd : Confined q.A (q.b - q.A q.start) d) (hd0 : 0 < d)
    (ht : 0 ≤ max q.abstol (q.reltol * ‖q.b - q.A q.start‖)) (hm : 2 * d ≤ kw.matvecMax.getD (2 * n)) :
    let res := (biSolve (Vec.op q.A) q.opts n (.fin q.b) kw).1
    res.converged = true ∧ res.nMatvec ≤ 2 * d ∧
    ∃ x, res.x = .fin x ∧ ‖q.b - q.A x‖ ≤ max q.abstol (q.reltol * ‖q.b - q.A q.start‖) := by
  rcases bi_end q n d kw hg none hd hd0 hK ht hm with ⟨h1, h2⟩ | ⟨h, -⟩
  · obtain ⟨x, hx, -, hx2⟩ := (C32_converged_partial q n kw hg).1 h1
    exact ⟨h1, h2, x, hx, hx2⟩
  · exact absurd h (bi_no_breakdown hA.1 hA.2)

/-- **C71 (TFQMR).** As for CGS, for a positive threshold and an initial residual above it. -/
theorem C71_tfqmr [FiniteDimensional ℝ E] (q : LinProblem E) (n d : ℕ) (kw : KrylovKw (Vec E))
    (hg : kw.guess = q.guess.map Vec.fin) (K : Option (E →ₗ[ℝ] E)) (hK : q.precon = linPrecon K)
    (hd : Confined (rightPrecon q.A K) (q.b - q.A q.start) d)
    (ht : 0 < max q.abstol (q.reltol * ‖q.b - q.A q.start‖))
    (hs : max q.abstol (q.reltol * ‖q.b - q.A q.start‖) < ‖q.b - q.A q.start‖) (hm : 2 * d ≤ kw.matvecMax.getD (2 * n)) :
    ∃ res products, tfSolve (Vec.op q.A) q.opts n (.fin q.b) kw = .ok (res, products) ∧
      ((res.converged = true ∧ res.nMatvec ≤ 2 * d) ∨ res.residNorm = .nan) := by
  obtain ⟨res, products, h, h2⟩ := tf_end q n d kw hg K hd hK ht hm hs
  exact ⟨res, products, h, h2.imp (fun h => ⟨h.1, h.2.1⟩) fun h => h.2⟩

/-- **C71 (TFQMR, positive definite).** As for CGS. -/
theorem C71_tfqmr_spd [FiniteDimensional ℝ E] (q : LinProblem E) (hK : q.precon = none) (hA : SPD q.A) (n d : ℕ)
    (kw : KrylovKw (Vec E)) (hg : kw.guess = q.guess.map Vec.fin) (hd : Confined q.A (q.b - q.A q.start) d)
    (ht : 0 < max q.abstol (q.reltol * ‖q.b - q.A q.start‖))
    (hs : max q.abstol (q.reltol * ‖q.b - q.A q.start‖) < ‖q.b - q.A q.start‖) (hm : 2 * d ≤ kw.matvecMax.getD (2 * n)) :
    ∃ res products, tfSolve (Vec.op q.A) q.opts n (.fin q.b) kw = .ok (res, products) ∧
      res.converged = true ∧ res.nMatvec ≤ 2 * d ∧
      ∃ x, res.x = .fin x ∧ ‖q.b - q.A x‖ < max q.abstol (q.reltol * ‖q.b - q.A q.start‖) := by
  obtain ⟨res, products, h, h2⟩ := tf_end q n d kw hg none hd hK ht hm hs
  have hb := cgs_no_breakdown (c := q.b - q.A q.start) hA.1 hA.2
  rcases h2 with ⟨h3, h4, hx | h5⟩ | ⟨h3, -⟩
  · obtain ⟨x, hx⟩ := hx
    exact ⟨res, products, h, h3, h4, x, hx, C33_converged_partial q n kw hg res products h x hx h3⟩
  · exact absurd h5 hb
  · exact absurd h3 hb

/-! ### MINRES -/

/-- **C71 (MINRES, partial).** In exact arithmetic, for a symmetric operator, no singular value of `A - shift I` being below the
machine precision `ε`, if `b` is confined to `d` dimensions and is not within `10 ε` of an eigenvector, MINRES converges within `d`
iterations.  Missing: right-hand sides close to an eigenvector (`d = 1`), in which case the code violates the property
(`C71_minres_perfect_preconditioner`, `C34_beta2_nan`). -/
theorem C71_minres_partial [FiniteDimensional ℝ E] (q : MinresProblem E) (hA : ∀ u v, ⟪q.A u, v⟫ = ⟪u, q.A v⟫)
    (ε : ℝ) (hε : 0 < ε) (hlow : ∀ z, ε * ‖z‖ ≤ ‖q.A z - q.shift • z‖) (hw : q.window ≠ 0) (hrt : 0 ≤ q.rtol)
    (hb : q.b ≠ 0) {n d : ℕ} (hd : Confined q.A q.b d) (hlim : d ≤ q.itnlim.getD (5 * n))
    (hgen : ∀ l : ℝ, 10 * ε * (‖q.b‖ * ‖q.b‖) < ‖(q.A q.b - q.shift • q.b) - l • q.b‖) (self : MinresObj Fl (Vec E)) :
    ∃ res products, minresSolve (Vec.op q.A) (.fin ε) n self (.fin q.b) q.kw = .ok (res, products) ∧
      res.converged = true ∧ products.length ≤ d := by
  obtain ⟨res, products, h, h' | h'⟩ := minres_confined q hA ε hε hlow hw hrt hb hd hlim self
  · obtain ⟨l, hl⟩ := C34_beta2_eigenvector q hw ε _ self res products h h'
    exact absurd (hgen l) (not_lt.2 hl)
  · exact ⟨res, products, h, h'⟩

/-- **C71 (MINRES with preconditioner, partial).** In exact arithmetic, with a symmetric positive definite preconditioner `M`, if
`b` is confined to `d` dimensions under `(A - shift I) M`, MINRES converges within `d` iterations or ends with `istop = -1`.
Missing: the case `istop = -1`, in which the code violates the property (`C71_minres_perfect_preconditioner`). -/
theorem C71_minres_preconditioned_partial [FiniteDimensional ℝ E] (q : MinresProblem E) (hA : ∀ u v, ⟪q.A u, v⟫ = ⟪u, q.A v⟫)
    (M : E →ₗ[ℝ] E) (hM : Spd M) (ε : ℝ) (hε : 0 < ε)
    (hlow : ∀ z, ε * pnorm M z ≤ pnorm M (q.A (M z) - q.shift • M z)) (hw : q.window ≠ 0) (hrt : 0 ≤ q.rtol)
    (hb : q.b ≠ 0) {n d : ℕ} (hd : Confined (q.A ∘ₗ M - q.shift • M) q.b d) (hlim : d ≤ q.itnlim.getD (5 * n))
    (self : MinresObj Fl (Vec E)) :
    ∃ res products, minresSolve (Vec.op q.A) (.fin ε) n self (.fin q.b) { q.kw with precon := some (Vec.op M) } =
        .ok (res, products) ∧
      (res.istop = -1 ∨ res.converged = true ∧ products.length ≤ d) :=
  minres_precon_confined q hA M hM ε hε hlow hw hrt hb hd hlim self

/-- **C71, negative.** The better the preconditioner, the worse: if the preconditioner is the inverse of `A - shift I`, which
confines every vector to one dimension, MINRES does not converge for any right-hand side, if at least two iterations are allowed:
it runs to the limit, dividing by zero, and returns an undefined `x`. -/
theorem C71_minres_perfect_preconditioner (q : MinresProblem E) (M : E →ₗ[ℝ] E) (hM : Spd M)
    (hinv : ∀ z, q.A (M z) - q.shift • M z = z) (hb : q.b ≠ 0) (hw : q.window ≠ 0) (ε : ℝ) (hε : 0 ≤ ε) (n : ℕ)
    (hlim : 2 ≤ q.itnlim.getD (5 * n)) (self : MinresObj Fl (Vec E)) :
    ∃ res products, minresSolve (Vec.op q.A) (.fin ε) n self (.fin q.b) { q.kw with precon := some (Vec.op M) } =
        .ok (res, products) ∧
      res.x = .nan ∧ res.istop = -1 ∧ res.converged = false ∧ products.length = q.itnlim.getD (5 * n) := by
  obtain ⟨res, products, h1, h2, h3, h4, h5⟩ := C34_beta2_nan (q.warp M hM) ((LinearEquiv.map_ne_zero_iff _).2 hb) 1
    (by simp [MinresProblem.warp, MinresProblem.B, hinv]) hw ε hε n hlim ⟨self.residHistory⟩
  have hsol := q.warp_solve M hM (.fin ε) n self
  rw [h1] at hsol
  refine ⟨_, _, hsol, ?_, h3, h4, by rw [List.length_map]; exact h5⟩
  change (Warp.dual M hM).P res.x = _
  rw [h2]; rfl

/-! ### SYMMLQ -/

/-- **C71 (SYMMLQ, partial).** In exact arithmetic, if `b` is confined to `d` dimensions under `B = A - shift I`, `A` symmetric, and
the budget exceeds `d`, SYMMLQ (with the attribute `matvec` provided) returns after at most `d + 1` products with the actual
residual norm; for a definite `B` one of the stopping tests holds.  Missing: smaller budgets (`C56_budget_wrong`). -/
theorem C71_symmlq_partial [FiniteDimensional ℝ E] (q : SymmlqProblem E) (n : ℕ) (hn : n ≠ 0)
    (hA : ∀ u v, ⟪q.A u, v⟫ = ⟪u, q.A v⟫) (hb : q.b ≠ 0) (hrt : 0 ≤ q.rtol) (he : 0 < q.eps) (he3 : 0 ≤ q.eps3)
    {d : ℕ} (hd : Confined q.A q.b d) (hlim : d < q.matvecMax.getD (2 * n + 2)) :
    ∃ res products, symmlqSolve q.obj n (.fin q.b) q.kw = .ok (res, products) ∧ ∃ (x : E) (a : ℝ),
      res.x = .fin x ∧ res.residNorm = .fin ‖q.b - q.B x‖ ∧ res.anorm = .fin a ∧ res.nMatvec ≤ d + 1 ∧
      (∀ C, (∀ z, ‖q.B z‖ ≤ C * ‖z‖) → a ^ 2 ≤ d * C ^ 2) ∧
      ((∀ u, u ≠ 0 → ⟪q.B u, u⟫ ≠ 0) →
       ‖q.b - q.B x‖ ≤ q.rtol * a * ‖x‖ ∨ ‖q.b - q.B x‖ ≤ q.eps * a * ‖x‖ ∨ ‖q.b‖ ≤ q.eps * a * ‖x‖ ∨
        (∃ c, res.acond = .fin c ∧ 1 / 10 / q.eps ≤ c) ∨ ‖q.b - q.B x‖ * |⟪q.b, q.B q.b⟫| ≤ q.eps * ‖q.b‖ ^ 3) := by
  obtain ⟨res, products, h, x, a, k, e1, e2, -, e4, e5, -, e7, -, e9, e10⟩ :=
    symmlq_confined q n hn hA hb hrt he he3 (hd.shift _) hlim
  refine ⟨res, products, h, x, a, e1, e2, e4, by omega, fun C hC => ?_, fun hdef => ?_⟩
  · exact (e9 C hC).trans (mul_le_mul_of_nonneg_right (by exact_mod_cast e7) (sq_nonneg C))
  · rcases e10 with ⟨u, hu, hu0, hz⟩ | h
    · exact absurd (hz u hu) (hdef u hu0)
    · exact h.2

/-! ### LSQR and LSMR -/

/-- **C71 (LSQR).** In exact arithmetic, if `A'b` is confined to `d` dimensions under `A'A` (for instance if `A` has rank `d`, or
`d` distinct singular values), LSQR ends within `max d 2` iterations and reports success; with zero tolerances the result solves
the (damped) normal equations. -/
theorem C71_lsqr [FiniteDimensional ℝ E] (q : LsqrProblem E F) (hq : q.Valid) (hb : q.B q.b ≠ 0)
    {d : ℕ} (hd : Confined (q.B ∘ₗ q.A) (q.B q.b) d)
    (hl : (d : ℤ) ≤ if q.itnlim = 0 then 3 * (q.n : ℤ) else q.itnlim)
    (h2 : 2 ≤ if q.itnlim = 0 then 3 * (q.n : ℤ) else q.itnlim) :
    ∃ res s, lsqrSolve (Vec.op q.A) (Vec.op q.B) q.n (.fin q.b) q.kw = .ok (res, s) ∧ res.optimal = true ∧ res.itn ≤ max d 2 ∧
      (q.atol = 0 → q.btol = 0 → q.etol ≤ 0 → ∃ x, res.x = .fin x ∧ q.B (q.b - q.A x) - (q.damp * q.damp) • x = 0) :=
  lsqr_confined q hq hb hd hl h2

/-- **C71 (LSQR with preconditioners).** The same with `A'Mb` confined under `A'MAN`. -/
theorem C71_lsqr_preconditioned [FiniteDimensional ℝ E] (q : LsqrProblem E F) (hq : q.Valid) {d : ℕ}
    (hl : (d : ℤ) ≤ if q.itnlim = 0 then 3 * (q.n : ℤ) else q.itnlim)
    (h2 : 2 ≤ if q.itnlim = 0 then 3 * (q.n : ℤ) else q.itnlim)
    (N : E →ₗ[ℝ] E) (hN : Spd N) (M : F →ₗ[ℝ] F) (hM : Spd M) (hb : q.B (M q.b) ≠ 0)
    (hd : Confined (q.B ∘ₗ M ∘ₗ q.A ∘ₗ N) (q.B (M q.b)) d)
    (preM : Option (Vec F → Vec F)) (preN : Option (Vec E → Vec E)) (hpM : PreconIs M preM) (hpN : PreconIs N preN) :
    ∃ res s, lsqrSolve (Vec.op q.A) (Vec.op q.B) q.n (.fin q.b) { q.kw with M := preM, N := preN } = .ok (res, s) ∧
      res.optimal = true ∧ res.itn ≤ max d 2 ∧
      (q.atol = 0 → q.btol = 0 → q.etol ≤ 0 →
        ∃ y, res.x = .fin (N y) ∧ q.B (M (q.b - q.A (N y))) - (q.damp * q.damp) • y = 0) :=
  lsqr_precon_confined q hq hl h2 N hN M hM hb hd preM preN hpM hpN

/-- **C71 (LSMR).** The same for LSMR, within `d` iterations, if `Ax = b` has no solution that the damping leaves alone (LSMR may
raise for those, see C40). -/
theorem C71_lsmr [FiniteDimensional ℝ E] (q : LsmrProblem E F) (hq : q.Valid) (selfX : Option (Vec E)) (hb : q.B q.b ≠ 0)
    {d : ℕ} (hd : Confined (q.B ∘ₗ q.A) (q.B q.b) d)
    (hl : (d : ℤ) ≤ q.itnlim.getD (min q.m q.n : ℕ)) (hn : ∀ x, ¬ (q.A x = q.b ∧ q.damp • x = 0)) :
    ∃ res s, lsmrSolve (Vec.op q.A) (Vec.op q.B) q.m q.n (.fin q.b) q.kw selfX = .ok (res, s) ∧ 1 ≤ res.istop ∧ res.istop ≤ 8 ∧
      res.istop ≠ 7 ∧ res.itn ≤ d ∧
      (q.atol = 0 → q.btol = 0 → q.etol ≤ 0 → q.conlim ≤ 0 →
        ∃ x, res.x = .fin x ∧ q.B (q.b - q.A x) - (q.damp * q.damp) • x = 0) :=
  lsmr_confined q hq selfX hb hd hl hn

/-- **C71 (LSMR with preconditioners).** The same with `A'Mb` confined under `A'MAN`. -/
theorem C71_lsmr_preconditioned [FiniteDimensional ℝ E] (q : LsmrProblem E F) (hq : q.Valid) (selfX : Option (Vec E))
    (hn : ∀ x, ¬ (q.A x = q.b ∧ q.damp • x = 0))
    (N : E →ₗ[ℝ] E) (hN : Spd N) (M : F →ₗ[ℝ] F) (hM : Spd M) (hb : q.B (M q.b) ≠ 0) {d : ℕ}
    (hd : Confined (q.B ∘ₗ M ∘ₗ q.A ∘ₗ N) (q.B (M q.b)) d) (hl : (d : ℤ) ≤ q.itnlim.getD (min q.m q.n : ℕ))
    (preM : Option (Vec F → Vec F)) (preN : Option (Vec E → Vec E)) (hpM : PreconIs M preM) (hpN : PreconIs N preN) :
    ∃ res s, lsmrSolve (Vec.op q.A) (Vec.op q.B) q.m q.n (.fin q.b) { q.kw with M := preM, N := preN } selfX = .ok (res, s) ∧
      1 ≤ res.istop ∧ res.istop ≤ 8 ∧ res.istop ≠ 7 ∧ res.itn ≤ d ∧
      (q.atol = 0 → q.btol = 0 → q.etol ≤ 0 → q.conlim ≤ 0 →
        ∃ y, res.x = .fin (N y) ∧ q.B (M (q.b - q.A (N y))) - (q.damp * q.damp) • y = 0) :=
  lsmr_precon_confined q hq selfX hn N hN M hM hb hd hl preM preN hpM hpN

/-! ### CRAIG and CRAIG-MR -/

/-- **C71 (CRAIG, partial).** In exact arithmetic, if `A'b` is confined to `d` dimensions under `A'A`, no tolerance is positive and
at least `d` iterations are allowed, the result of CRAIG is the least-squares solution with unit damping.  Missing: CRAIG does not
notice that it is done; it uses all iterations allowed and reports "max iterations". -/
theorem C71_craig_partial [FiniteDimensional ℝ E] (q : CraigProblem E F) (hq : q.Valid) (hb : q.b ≠ 0) (hl : 1 ≤ q.limit)
    {d : ℕ} (hd : Confined (q.B ∘ₗ q.A) (q.B q.b) d) (hdl : (d : ℤ) ≤ q.limit) (hbt : q.btol ≤ 0) (het : q.etol ≤ 0) :
    ∃ res s x r, craigSolve (Vec.op q.A) (Vec.op q.B) q.n (.fin q.b) q.kw = .ok (res, s) ∧ res.x = .fin x ∧ res.r = .fin r ∧
      x = q.B r ∧ r = q.b - q.A x ∧
      (∀ y, ‖q.b - q.A x‖ ^ 2 + ‖x‖ ^ 2 ≤ ‖q.b - q.A y‖ ^ 2 + ‖y‖ ^ 2) ∧
      (res.itn : ℤ) = q.limit ∧ res.status = "max iterations" ∧ res.optimal = false := by
  obtain ⟨res, s, x, r, h1, h2, h3, -, h5⟩ := craig_confined q hq hb hl hd hdl hbt het
  exact ⟨res, s, x, r, h1, h2, h3, h5⟩

/-- **C71 (CRAIG with preconditioners, partial).** The same with `A'Mb` confined under `A'MAN`. -/
theorem C71_craig_preconditioned_partial [FiniteDimensional ℝ E] (q : CraigProblem E F) (hq : q.Valid) (hb : q.b ≠ 0)
    (hl : 1 ≤ q.limit) {d : ℕ} (hdl : (d : ℤ) ≤ q.limit) (hbt : q.btol ≤ 0) (het : q.etol ≤ 0)
    (N : E →ₗ[ℝ] E) (hN : Spd N) (M : F →ₗ[ℝ] F) (hM : Spd M)
    (hd : Confined (q.B ∘ₗ M ∘ₗ q.A ∘ₗ N) (q.B (M q.b)) d)
    (preM : Option (Vec F → Vec F)) (preN : Option (Vec E → Vec E)) (hpM : PreconIs M preM) (hpN : PreconIs N preN) :
    ∃ res s x r, craigSolve (Vec.op q.A) (Vec.op q.B) q.n (.fin q.b) { q.kw with M := preM, N := preN } = .ok (res, s) ∧
      res.x = .fin x ∧ res.r = .fin r ∧ r = M (q.b - q.A x) ∧ x = N (q.B r) ∧
      (∀ z, pnorm M (q.b - q.A x) ^ 2 + pnorm N (q.B r) ^ 2 ≤ pnorm M (q.b - q.A (N z)) ^ 2 + pnorm N z ^ 2) ∧
      (res.itn : ℤ) = q.limit ∧ res.status = "max iterations" ∧ res.optimal = false :=
  craig_precon_confined q hq hb hl hdl hbt het N hN M hM hd preM preN hpM hpN

/-- **C71 (CRAIG-MR).** In exact arithmetic, if `A'b` is confined to `d` dimensions under `A'A`, `etol` is not positive and at least
`d + 1` iterations are allowed, the result of CRAIG-MR is the solution of `(AA' + I) x = b`. -/
theorem C71_craigmr [FiniteDimensional ℝ E] (q : CraigmrProblem E F) (hq : q.Valid) (he : q.etol ≤ 0) {d : ℕ}
    (hd : Confined (q.B ∘ₗ q.A) (q.B q.b) d) (hl : (d : ℤ) + 1 ≤ q.itnlim.getD (min q.m q.n : ℕ)) :
    ∃ res s x, craigmrSolve (Vec.op q.A) (Vec.op q.B) q.m q.n (.fin q.b) q.kw = .ok (res, s) ∧ res.x = .fin x ∧
      x + q.A (q.B x) = q.b :=
  craigmr_confined q hq he hd hl

/-- **C71 (CRAIG-MR with preconditioners).** The same with `A'Mb` confined under `A'MAN`: the result is `x = M t` for the solution
`t` of `t + A N A' M t = b`. -/
theorem C71_craigmr_preconditioned [FiniteDimensional ℝ E] (q : CraigmrProblem E F) (hq : q.Valid) (he : q.etol ≤ 0)
    (N : E →ₗ[ℝ] E) (hN : Spd N) (M : F →ₗ[ℝ] F) (hM : Spd M) {d : ℕ}
    (hd : Confined (q.B ∘ₗ M ∘ₗ q.A ∘ₗ N) (q.B (M q.b)) d) (hl : (d : ℤ) + 1 ≤ q.itnlim.getD (min q.m q.n : ℕ))
    (preM : Option (Vec F → Vec F)) (preN : Option (Vec E → Vec E)) (hpM : PreconIs M preM) (hpN : PreconIs N preN) :
    ∃ res s t, craigmrSolve (Vec.op q.A) (Vec.op q.B) q.m q.n (.fin q.b) { q.kw with M := preM, N := preN } = .ok (res, s) ∧
      res.x = .fin (M t) ∧ t + q.A (N (q.B (M t))) = q.b :=
  craigmr_precon_confined q hq he N hN M hM hd hl preM preN hpM hpN

/-! ### Instances

In a space of any dimension, `z ↦ z + ⟪u, z⟫ u` differs from the identity by a map of rank one, and `z ↦ ⟪u, z⟫` has rank one. -/

/-- `I + u u'` -/
noncomputable def rankOneUpdate (u : E) : E →ₗ[ℝ] E where
  toFun z := z + (⟪u, z⟫ : ℝ) • u
  map_add' y z := by rw [inner_add_right, add_smul]; abel
  map_smul' a z := by
    rw [real_inner_smul_right, RingHom.id_apply, smul_add, mul_smul]

theorem rankOneUpdate_symm (u y z : E) : ⟪rankOneUpdate u y, z⟫ = ⟪y, rankOneUpdate u z⟫ := by
  change ⟪y + (⟪u, y⟫ : ℝ) • u, z⟫ = ⟪y, z + (⟪u, z⟫ : ℝ) • u⟫
  rw [inner_add_left, inner_add_right, real_inner_smul_left, real_inner_smul_right, real_inner_comm u y]; ring

theorem rankOneUpdate_inner (u z : E) : (⟪z, rankOneUpdate u z⟫ : ℝ) = ‖z‖ ^ 2 + ⟪u, z⟫ ^ 2 := by
  change ⟪z, z + (⟪u, z⟫ : ℝ) • u⟫ = _
  rw [inner_add_right, real_inner_smul_right, real_inner_self_eq_norm_sq, real_inner_comm u z]; ring

theorem rankOneUpdate_pos (u z : E) (hz : z ≠ 0) : 0 < (⟪z, rankOneUpdate u z⟫ : ℝ) := by
  rw [rankOneUpdate_inner]
  have := norm_pos_iff.2 hz
  positivity

theorem rankOneUpdate_confined (u c : E) : Confined (rankOneUpdate u) c 2 := by
  refine ⟨Submodule.span ℝ (Set.range ![u, c]), (finrank_range_le_card _).trans (by simp), Submodule.subset_span ⟨1, rfl⟩,
    fun w hw => ?_⟩
  exact Submodule.add_mem _ hw (Submodule.smul_mem _ _ (Submodule.subset_span ⟨0, rfl⟩))

theorem rankOneUpdate_norm (u z : E) : ‖z‖ ≤ ‖rankOneUpdate u z‖ := by
  by_cases hz : z = 0
  · simp [hz]
  have h1 := rankOneUpdate_inner u z
  have h2 := real_inner_le_norm z (rankOneUpdate u z)
  have h3 := norm_pos_iff.2 hz
  nlinarith [sq_nonneg (⟪u, z⟫ : ℝ)]

/-- the hypotheses of `C71_cg` are met: two products in a space of any dimension -/
example [FiniteDimensional ℝ E] (u b : E) :
    let res := (cgSolve (Vec.op (rankOneUpdate u)) (CGProblem.opts ⟨rankOneUpdate u, b, none, 0, 0⟩) (Module.finrank ℝ E + 1)
      {} (.fin b) {}).1
    res.converged = true ∧ res.nMatvec ≤ 2 ∧ ∃ x, res.x = some (.fin x) ∧ rankOneUpdate u x = b := by
  obtain ⟨h1, h2, x, h3, -, h4⟩ := C71_cg ⟨rankOneUpdate u, b, none, 0, 0⟩ ⟨rankOneUpdate_symm u, rankOneUpdate_pos u⟩ {} {}
    rfl rfl le_rfl (n := Module.finrank ℝ E + 1) (rankOneUpdate_confined u _) (fun _ => by
      change 2 ≤ 2 * (Module.finrank ℝ E + 1); omega)
  exact ⟨h1, h2, x, h3, h4 rfl rfl⟩

/-- the hypotheses of `C71_cg_eigenvalues` are met: one product for a multiple of the identity -/
example [FiniteDimensional ℝ E] (b : E) :
    let res := (cgSolve (Vec.op ((2:ℝ) • (LinearMap.id : E →ₗ[ℝ] E))) (CGProblem.opts ⟨(2:ℝ) • LinearMap.id, b, none, 0, 0⟩) 1
      {} (.fin b) {}).1
    res.converged = true ∧ res.nMatvec ≤ 1 := by
  obtain ⟨h1, h2, -⟩ := C71_cg_eigenvalues (E := E) ⟨(2:ℝ) • LinearMap.id, b, none, 0, 0⟩
    ⟨fun y z => by simp [real_inner_smul_left, real_inner_smul_right],
      fun z hz => by simp [real_inner_smul_right, real_inner_self_eq_norm_sq, hz]⟩ {2}
    (fun l v h hv => by
      have h : (2:ℝ) • v = l • v := h
      simp [smul_left_injective ℝ hv h]) {} {} rfl rfl le_rfl (n := 1) (fun _ => by simp)
  exact ⟨h1, h2⟩

/-- the hypotheses of `C71_cgs_spd` are met -/
example [FiniteDimensional ℝ E] (u b : E) :
    let res := (cgsSolve (Vec.op (rankOneUpdate u)) (LinProblem.opts ⟨rankOneUpdate u, b, none, 0, 0, none⟩)
      (Module.finrank ℝ E + 2) (.fin b) {}).1
    res.converged = true ∧ res.nMatvec ≤ 4 := by
  obtain ⟨h1, h2, -⟩ := C71_cgs_spd ⟨rankOneUpdate u, b, none, 0, 0, none⟩ rfl ⟨rankOneUpdate_symm u, rankOneUpdate_pos u⟩
    (Module.finrank ℝ E + 2) 2 {} rfl (rankOneUpdate_confined u _) (le_max_left _ _) (by
      change 2 * 2 ≤ 2 * (Module.finrank ℝ E + 2); omega)
  exact ⟨h1, h2⟩

/-- the hypotheses of `C71_bicgstab_spd` are met -/
example [FiniteDimensional ℝ E] (u b : E) :
    let res := (biSolve (Vec.op (rankOneUpdate u)) (LinProblem.opts ⟨rankOneUpdate u, b, none, 0, 0, none⟩)
      (Module.finrank ℝ E + 2) (.fin b) {}).1
    res.converged = true ∧ res.nMatvec ≤ 4 := by
  obtain ⟨h1, h2, -⟩ := C71_bicgstab_spd ⟨rankOneUpdate u, b, none, 0, 0, none⟩ rfl ⟨rankOneUpdate_symm u, rankOneUpdate_pos u⟩
    (Module.finrank ℝ E + 2) 2 {} rfl (rankOneUpdate_confined u _) two_pos (le_max_left _ _) (by
      change 2 * 2 ≤ 2 * (Module.finrank ℝ E + 2); omega)
  exact ⟨h1, h2⟩

/-- the hypotheses of `C71_tfqmr_spd` are met -/
example [FiniteDimensional ℝ E] (u b : E) (hb : b ≠ 0) :
    ∃ res products, tfSolve (Vec.op (rankOneUpdate u)) (LinProblem.opts ⟨rankOneUpdate u, b, none, 0, 1/2, none⟩)
      (Module.finrank ℝ E + 2) (.fin b) {} = .ok (res, products) ∧ res.converged = true ∧ res.nMatvec ≤ 4 := by
  have hp := norm_pos_iff.2 hb
  obtain ⟨res, products, h, h1, h2, -⟩ := C71_tfqmr_spd ⟨rankOneUpdate u, b, none, 0, 1/2, none⟩ rfl
    ⟨rankOneUpdate_symm u, rankOneUpdate_pos u⟩ (Module.finrank ℝ E + 2) 2 {} rfl (rankOneUpdate_confined u _)
    (by simp [LinProblem.start, hb]) (by simp [LinProblem.start, hb]; linarith) (by
      change 2 * 2 ≤ 2 * (Module.finrank ℝ E + 2); omega)
  exact ⟨res, products, h, h1, h2⟩

/-- the hypotheses of `C71_cgs`, `C71_bicgstab` and `C71_tfqmr` are met by an operator that need not be symmetric, the inverse of
which is the preconditioner -/
example [FiniteDimensional ℝ E] (A : E ≃ₗ[ℝ] E) (b : E) :
    let res := (cgsSolve (Vec.op A) (LinProblem.opts ⟨A, b, none, 0, 0, some (Vec.op A.symm)⟩) (Module.finrank ℝ E + 1)
      (.fin b) {}).1
    (res.converged = true ∧ res.nMatvec ≤ 2) ∨ res.residNorm = .nan :=
  C71_cgs ⟨A, b, none, 0, 0, some (Vec.op A.symm)⟩ (Module.finrank ℝ E + 1) 1 {} rfl (some A.symm) rfl
    (C71_perfect (fun z => A.apply_symm_apply z) _) (le_max_left _ _) (by
      change 2 * 1 ≤ 2 * (Module.finrank ℝ E + 1); omega)

/-- two orthogonal unit vectors: no multiple of `u + v` is near `2 u + v` -/
theorem unit_sum_far {u v : E} (hu : ‖u‖ = 1) (hv : ‖v‖ = 1) (huv : ⟪u, v⟫ = (0:ℝ)) (l : ℝ) :
    1 / 2 ≤ ‖rankOneUpdate u (u + v) - l • (u + v)‖ ^ 2 ∧ ‖u + v‖ * ‖u + v‖ = 2 := by
  have e : rankOneUpdate u (u + v) - l • (u + v) = (2 - l) • u + (1 - l) • v := by
    change u + v + (⟪u, u + v⟫ : ℝ) • u - _ = _
    rw [inner_add_right, real_inner_self_eq_norm_sq, hu, huv]; module
  constructor
  · rw [e, norm_add_sq_real, real_inner_smul_left, real_inner_smul_right, huv, norm_smul, norm_smul, hu, hv]
    simp only [Real.norm_eq_abs, mul_one, mul_zero, add_zero, sq_abs]
    nlinarith [sq_nonneg (2 * l - 3)]
  · rw [← pow_two, norm_add_sq_real, hu, hv, huv]; norm_num

/-- the hypotheses of `C71_minres_partial` are met -/
example [FiniteDimensional ℝ E] {u v : E} (hu : ‖u‖ = 1) (hv : ‖v‖ = 1) (huv : ⟪u, v⟫ = (0:ℝ)) :
    ∃ res products, minresSolve (Vec.op (rankOneUpdate u)) (.fin (1/1000)) (Module.finrank ℝ E + 1) {} (.fin (u + v))
      (MinresProblem.kw ⟨rankOneUpdate u, u + v, 0, false, none, 0, 0, false, 5⟩) = .ok (res, products) ∧
      res.converged = true ∧ products.length ≤ 2 := by
  have h2 := (unit_sum_far hu hv huv 0).2
  refine C71_minres_partial ⟨rankOneUpdate u, u + v, 0, false, none, 0, 0, false, 5⟩ (rankOneUpdate_symm u) (1/1000)
    (by norm_num) (fun z => ?_) (by simp) le_rfl (fun h => ?_) (rankOneUpdate_confined u _) ?_ (fun l => ?_) {}
  · have := rankOneUpdate_norm u z
    have h0 := norm_nonneg z
    simp only [zero_smul, sub_zero]; linarith
  · simp only at h; rw [h] at h2; norm_num at h2
  · change 2 ≤ 5 * (Module.finrank ℝ E + 1); omega
  · have h1 := (unit_sum_far hu hv huv l).1
    simp only [zero_smul, sub_zero, h2]
    have h0 := norm_nonneg (rankOneUpdate u (u + v) - l • (u + v))
    nlinarith

/-- the hypotheses of `C71_minres_preconditioned_partial` are met: the preconditioner is the operator -/
example [FiniteDimensional ℝ E] {u b : E} (hb : b ≠ 0) :
    ∃ res products, minresSolve (Vec.op (LinearMap.id : E →ₗ[ℝ] E)) (.fin (1/1000)) (Module.finrank ℝ E + 1) {} (.fin b)
      { MinresProblem.kw ⟨LinearMap.id, b, 0, false, none, 0, 0, false, 5⟩ with precon := some (Vec.op (rankOneUpdate u)) } =
        .ok (res, products) ∧
      (res.istop = -1 ∨ res.converged = true ∧ products.length ≤ 2) := by
  have hS : Spd (rankOneUpdate u) := ⟨rankOneUpdate_symm u, fun z hz => rankOneUpdate_pos u z hz⟩
  refine C71_minres_preconditioned_partial ⟨LinearMap.id, b, 0, false, none, 0, 0, false, 5⟩ (fun _ _ => rfl) (rankOneUpdate u) hS
    (1/1000) (by norm_num) (fun z => ?_) (by simp) le_rfl hb (by simpa using rankOneUpdate_confined u b) ?_ {}
  · have h1 : pnorm (rankOneUpdate u) z ≤ pnorm (rankOneUpdate u) (rankOneUpdate u z) := by
      unfold pnorm
      refine Real.sqrt_le_sqrt ?_
      rw [rankOneUpdate_inner, rankOneUpdate_inner]
      have e : (⟪u, rankOneUpdate u z⟫ : ℝ) = ⟪u, z⟫ * (1 + ‖u‖ ^ 2) := by
        change (⟪u, z + (⟪u, z⟫ : ℝ) • u⟫ : ℝ) = _
        rw [inner_add_right, real_inner_smul_right, real_inner_self_eq_norm_sq]; ring
      have h2 := rankOneUpdate_norm u z
      have h3 := norm_nonneg z
      rw [e, mul_pow]
      have h4 : (1:ℝ) ≤ (1 + ‖u‖ ^ 2) ^ 2 := by nlinarith [sq_nonneg ‖u‖]
      nlinarith [sq_nonneg (⟪u, z⟫ : ℝ)]
    have h0 : 0 ≤ pnorm (rankOneUpdate u) z := Real.sqrt_nonneg _
    simp only [zero_smul, sub_zero, LinearMap.id_apply]
    linarith
  · change 2 ≤ 5 * (Module.finrank ℝ E + 1); omega

/-- the hypotheses of `C71_minres_perfect_preconditioner` are met: operator `2`, preconditioner `1/2`, all else default -/
example (b : E) (hb : b ≠ 0) : ∃ res products, minresSolve (Vec.op ((2:ℝ) • (LinearMap.id : E →ₗ[ℝ] E))) (.fin 0) 1 {} (.fin b)
      { MinresProblem.kw ⟨(2:ℝ) • LinearMap.id, b, 0, false, none, 0, 0, false, 5⟩ with
        precon := some (Vec.op ((1/2:ℝ) • (LinearMap.id : E →ₗ[ℝ] E))) } = .ok (res, products) ∧
      res.x = .nan ∧ res.istop = -1 ∧ res.converged = false ∧ products.length = 5 := by
  refine C71_minres_perfect_preconditioner ⟨(2:ℝ) • LinearMap.id, b, 0, false, none, 0, 0, false, 5⟩ ((1/2:ℝ) • LinearMap.id)
    ⟨fun y z => ?_, fun z hz => ?_⟩ (fun z => ?_) hb (by simp) 0 le_rfl 1 (by simp) {}
  · simp [real_inner_smul_left, real_inner_smul_right]
  · simp [real_inner_smul_right, real_inner_self_eq_norm_sq, hz]
  · simp [smul_smul]

/-- the hypotheses of `C71_symmlq_partial` are met -/
example [FiniteDimensional ℝ E] (u b : E) (hb : b ≠ 0) :
    ∃ res products, symmlqSolve (SymmlqProblem.obj ⟨rankOneUpdate u, b, none, 0, 1/1000, 1/1000, false, none, false⟩)
      (Module.finrank ℝ E + 1) (.fin b) (SymmlqProblem.kw ⟨rankOneUpdate u, b, none, 0, 1/1000, 1/1000, false, none, false⟩) =
        .ok (res, products) ∧ res.nMatvec ≤ 3 := by
  obtain ⟨res, products, h, x, a, -, -, -, h2, -⟩ := C71_symmlq_partial
    ⟨rankOneUpdate u, b, none, 0, 1/1000, 1/1000, false, none, false⟩ (Module.finrank ℝ E + 1) (by omega) (rankOneUpdate_symm u) hb
    le_rfl (by norm_num) (by norm_num) (rankOneUpdate_confined u b) (by
      change 2 < 2 * (Module.finrank ℝ E + 1) + 2; omega)
  exact ⟨res, products, h, h2⟩

/-- `z ↦ ⟪u, z⟫` -/
noncomputable def row (u : E) : E →ₗ[ℝ] ℝ := (innerSL ℝ u : E →L[ℝ] ℝ).toLinearMap

/-- its transpose `t ↦ t u` -/
noncomputable def col (u : E) : ℝ →ₗ[ℝ] E := LinearMap.toSpanSingleton ℝ E u

theorem row_adj (u x : E) (t : ℝ) : ⟪row u x, t⟫ = ⟪x, col u t⟫ := by
  simp [row, col, LinearMap.toSpanSingleton_apply, real_inner_smul_right, real_inner_comm]

theorem col_rank (u : E) : Module.finrank ℝ (LinearMap.range (col u)) ≤ 1 :=
  (LinearMap.finrank_range_le _).trans (by simp)

/-- the hypotheses of `C71_lsqr` are met: `⟪u, x⟫ = 3`, for a space of any dimension -/
example [FiniteDimensional ℝ E] (u : E) (hu : u ≠ 0) :
    ∃ res s x, lsqrSolve (Vec.op (row u)) (Vec.op (col u)) 7 (.fin (3:ℝ))
      (LsqrProblem.kw ⟨row u, col u, 3, 7, 0, 0, 0, 0, 0, 0, false, false, 5⟩) = .ok (res, s) ∧ res.optimal = true ∧ res.itn ≤ 2 ∧
      res.x = .fin x ∧ ⟪u, x⟫ = (3:ℝ) := by
  obtain ⟨res, s, h, h1, h2, h3⟩ := C71_lsqr (E := E) (F := ℝ) ⟨row u, col u, 3, 7, 0, 0, 0, 0, 0, 0, false, false, 5⟩
    ⟨row_adj u, le_rfl, le_rfl, by simp⟩ (by simp [col, hu]) (C71_low_rank _ _ _ (col_rank u)) (by simp) (by simp)
  obtain ⟨x, hx, hx'⟩ := h3 rfl rfl le_rfl
  refine ⟨res, s, x, h, h1, h2, hx, ?_⟩
  have : (3 - (⟪u, x⟫ : ℝ)) • u = 0 := by simpa [col, row] using hx'
  rcases smul_eq_zero.1 this with h | h
  · linarith
  · exact absurd h hu

/-- the hypotheses of `C71_lsqr_preconditioned` are met -/
example [FiniteDimensional ℝ E] (u v : E) (hu : u ≠ 0) :
    ∃ res s, lsqrSolve (Vec.op (row u)) (Vec.op (col u)) 7 (.fin (3:ℝ))
      { LsqrProblem.kw ⟨row u, col u, 3, 7, 0, 0, 0, 0, 0, 0, false, false, 5⟩ with N := some (Vec.op (rankOneUpdate v)) } =
        .ok (res, s) ∧ res.optimal = true ∧ res.itn ≤ 2 := by
  obtain ⟨res, s, h, h1, h2, -⟩ := C71_lsqr_preconditioned (E := E) (F := ℝ)
    ⟨row u, col u, 3, 7, 0, 0, 0, 0, 0, 0, false, false, 5⟩ ⟨row_adj u, le_rfl, le_rfl, by simp⟩ (d := 1) (by simp) (by simp)
    (rankOneUpdate v) ⟨rankOneUpdate_symm v, fun z hz => rankOneUpdate_pos v z hz⟩ LinearMap.id
    ⟨fun _ _ => rfl, fun z hz => real_inner_self_pos.2 hz⟩ (by simp [col, hu]) (C71_low_rank _ _ _ (col_rank u)) none _
    (PreconIs.none rfl) PreconIs.some
  exact ⟨res, s, h, h1, h2⟩

/-- the hypotheses of `C71_lsmr` are met: damping 1 -/
example [FiniteDimensional ℝ E] (u : E) (hu : u ≠ 0) :
    ∃ res s, lsmrSolve (Vec.op (row u)) (Vec.op (col u)) 1 7 (.fin (3:ℝ))
      (LsmrProblem.kw ⟨row u, col u, 3, 1, 7, 1, none, 0, 0, 0, 0, false, false, 5⟩) none = .ok (res, s) ∧ res.itn ≤ 1 := by
  obtain ⟨res, s, h, -, -, -, h1, -⟩ := C71_lsmr (E := E) (F := ℝ) ⟨row u, col u, 3, 1, 7, 1, none, 0, 0, 0, 0, false, false, 5⟩
    ⟨row_adj u, le_rfl, by simp⟩ none (by simp [col, hu]) (C71_low_rank _ _ _ (col_rank u)) (by simp)
    (fun x hx => by
      have h0 : x = 0 := by simpa using hx.2
      have h1 := hx.1
      rw [h0, map_zero] at h1
      norm_num at h1)
  exact ⟨res, s, h, h1⟩

/-- the hypotheses of `C71_lsmr_preconditioned` are met -/
example [FiniteDimensional ℝ E] (u v : E) (hu : u ≠ 0) :
    ∃ res s, lsmrSolve (Vec.op (row u)) (Vec.op (col u)) 1 7 (.fin (3:ℝ))
      { LsmrProblem.kw ⟨row u, col u, 3, 1, 7, 1, none, 0, 0, 0, 0, false, false, 5⟩ with
        N := some (Vec.op (rankOneUpdate v)) } none = .ok (res, s) ∧ res.itn ≤ 1 := by
  obtain ⟨res, s, h, -, -, -, h1, -⟩ := C71_lsmr_preconditioned (E := E) (F := ℝ)
    ⟨row u, col u, 3, 1, 7, 1, none, 0, 0, 0, 0, false, false, 5⟩ ⟨row_adj u, le_rfl, by simp⟩ none
    (fun x hx => by
      have h0 : x = 0 := by simpa using hx.2
      have h1 := hx.1
      rw [h0, map_zero] at h1
      norm_num at h1)
    (rankOneUpdate v) ⟨rankOneUpdate_symm v, fun z hz => rankOneUpdate_pos v z hz⟩ LinearMap.id
    ⟨fun _ _ => rfl, fun z hz => real_inner_self_pos.2 hz⟩ (by simp [col, hu]) (C71_low_rank _ _ _ (col_rank u)) (by simp) none _
    (PreconIs.none rfl) PreconIs.some
  exact ⟨res, s, h, h1⟩

/-- the hypotheses of `C71_craig_partial` are met -/
example [FiniteDimensional ℝ E] (u : E) :
    ∃ res s x r, craigSolve (Vec.op (row u)) (Vec.op (col u)) 7 (.fin (3:ℝ))
      (CraigProblem.kw ⟨row u, col u, 3, 7, 0, 1, 0, 0, 0, 0, false, false, 5⟩) = .ok (res, s) ∧ res.x = .fin x ∧
      res.r = .fin r ∧ x = col u r := by
  obtain ⟨res, s, x, r, h, h1, h2, h3, -⟩ := C71_craig_partial (E := E) (F := ℝ)
    ⟨row u, col u, 3, 7, 0, 1, 0, 0, 0, 0, false, false, 5⟩ ⟨row_adj u, by simp⟩ (by simp) (by simp [CraigProblem.limit])
    (C71_low_rank _ _ _ (col_rank u)) (by simp [CraigProblem.limit]) le_rfl le_rfl
  exact ⟨res, s, x, r, h, h1, h2, h3⟩

/-- the hypotheses of `C71_craig_preconditioned_partial` are met -/
example [FiniteDimensional ℝ E] (u v : E) :
    ∃ res s x r, craigSolve (Vec.op (row u)) (Vec.op (col u)) 7 (.fin (3:ℝ))
      { CraigProblem.kw ⟨row u, col u, 3, 7, 0, 1, 0, 0, 0, 0, false, false, 5⟩ with N := some (Vec.op (rankOneUpdate v)) } =
        .ok (res, s) ∧ res.x = .fin x ∧ res.r = .fin r ∧ x = rankOneUpdate v (col u r) := by
  obtain ⟨res, s, x, r, h, h1, h2, -, h3, -⟩ := C71_craig_preconditioned_partial (E := E) (F := ℝ)
    ⟨row u, col u, 3, 7, 0, 1, 0, 0, 0, 0, false, false, 5⟩ ⟨row_adj u, by simp⟩ (by simp) (by simp [CraigProblem.limit])
    (d := 1) (by simp [CraigProblem.limit]) le_rfl le_rfl
    (rankOneUpdate v) ⟨rankOneUpdate_symm v, fun z hz => rankOneUpdate_pos v z hz⟩ LinearMap.id
    ⟨fun _ _ => rfl, fun z hz => real_inner_self_pos.2 hz⟩ (C71_low_rank _ _ _ (col_rank u)) none _ (PreconIs.none rfl) PreconIs.some
  exact ⟨res, s, x, r, h, h1, h2, h3⟩

/-- the hypotheses of `C71_craigmr_preconditioned` are met -/
example [FiniteDimensional ℝ E] (u v : E) :
    ∃ res s t, craigmrSolve (Vec.op (row u)) (Vec.op (col u)) 1 7 (.fin (3:ℝ))
      { CraigmrProblem.kw ⟨row u, col u, 3, 1, 7, 0, some 2, 0, 0, 0, 0, false, false, 5⟩ with
        N := some (Vec.op (rankOneUpdate v)) } = .ok (res, s) ∧ res.x = .fin t ∧
      t + row u (rankOneUpdate v (col u t)) = 3 :=
  C71_craigmr_preconditioned (E := E) (F := ℝ) ⟨row u, col u, 3, 1, 7, 0, some 2, 0, 0, 0, 0, false, false, 5⟩
    ⟨row_adj u, by simp⟩ le_rfl (rankOneUpdate v) ⟨rankOneUpdate_symm v, fun z hz => rankOneUpdate_pos v z hz⟩ LinearMap.id
    ⟨fun _ _ => rfl, fun z hz => real_inner_self_pos.2 hz⟩ (C71_low_rank _ _ _ (col_rank u)) (by simp) none _
    (PreconIs.none rfl) PreconIs.some

/-- the hypotheses of `C71_craigmr` are met -/
example [FiniteDimensional ℝ E] (u : E) :
    ∃ res s x, craigmrSolve (Vec.op (row u)) (Vec.op (col u)) 1 7 (.fin (3:ℝ))
      (CraigmrProblem.kw ⟨row u, col u, 3, 1, 7, 0, some 2, 0, 0, 0, 0, false, false, 5⟩) = .ok (res, s) ∧ res.x = .fin x ∧
      x + row u (col u x) = 3 :=
  C71_craigmr (E := E) (F := ℝ) ⟨row u, col u, 3, 1, 7, 0, some 2, 0, 0, 0, 0, false, false, 5⟩ ⟨row_adj u, by simp⟩ le_rfl
    (C71_low_rank _ _ _ (col_rank u)) (by simp)

end Verif.Solver
