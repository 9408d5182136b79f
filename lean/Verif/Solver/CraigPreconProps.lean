import Verif.Solver.CraigPrecon
import Verif.Solver.CraigConv
import Verif.Solver.CraigmrExact

/-!
# C52 and C53 with preconditioners
-/

namespace Verif.Solver
open Scalar Vect
open scoped RealInnerProductSpace
open MinresMath (krylov)

variable {E F : Type} [NormedAddCommGroup E] [InnerProductSpace ℝ E] [NormedAddCommGroup F] [InnerProductSpace ℝ F]

/-- a list of vectors of the other space -/
theorem list_mk {M : E →ₗ[ℝ] E} {h : Spd M} (rs : List (Warp M h)) : ∃ ts : List E, rs = ts.map (Warp.mk M h) :=
  ⟨rs.map (Warp.mk M h).symm, by rw [List.map_map]; exact (List.map_id rs).symm⟩

theorem getLastD_mk {M : E →ₗ[ℝ] E} {h : Spd M} (ts : List E) :
    (ts.map (Warp.mk M h)).getLastD 0 = Warp.mk M h (ts.getLastD 0) := by
  cases ts with
  | nil => simp
  | cons a l => rw [List.getLastD_eq_getLast?, List.getLastD_eq_getLast?, List.getLast?_map]; simp [List.getLast?_cons]

theorem headD_mk {M : E →ₗ[ℝ] E} {h : Spd M} (ts : List E) : (ts.map (Warp.mk M h)).headD 0 = Warp.mk M h (ts.headD 0) := by
  cases ts <;> simp

theorem dual_P_fin {M : E →ₗ[ℝ] E} {h : Spd M} (u : E) : (Warp.dual M h).P (.fin (Warp.mk M h u)) = .fin (M u) := rfl

/-! ### CRAIG -/

/-- the problem in the other inner products -/
noncomputable def CraigProblem.warp (q : CraigProblem E F) (N : E →ₗ[ℝ] E) (hN : Spd N) (M : F →ₗ[ℝ] F) (hM : Spd M) :
    CraigProblem (Warp N hN) (Warp M hM) :=
  { A := warpMap q.A N hN M hM, B := warpMap q.B M hM N hN, b := Warp.mk M hM q.b, n := q.n, damp := q.damp, itnlim := q.itnlim,
    atol := q.atol, btol := q.btol, etol := q.etol, conlim := q.conlim, storeResids := q.storeResids,
    storeIterates := q.storeIterates, window := q.window }

theorem CraigProblem.warp_valid {q : CraigProblem E F} (hq : q.Valid) (N : E →ₗ[ℝ] E) (hN : Spd N) (M : F →ₗ[ℝ] F) (hM : Spd M) :
    (q.warp N hN M hM).Valid := ⟨warpMap_adj hq.adj N hN M hM, hq.window⟩

theorem CraigProblem.warp_solve (q : CraigProblem E F) (N : E →ₗ[ℝ] E) (hN : Spd N) (M : F →ₗ[ℝ] F) (hM : Spd M)
    {preM : Option (Vec F → Vec F)} {preN : Option (Vec E → Vec E)} (hpM : PreconIs M preM) (hpN : PreconIs N preN) :
    craigSolve (Vec.op q.A) (Vec.op q.B) q.n (.fin q.b) { q.kw with M := preM, N := preN } =
      (craigSolve (Vec.op (q.warp N hN M hM).A) (Vec.op (q.warp N hN M hM).B) (q.warp N hN M hM).n (.fin (q.warp N hN M hM).b)
        (q.warp N hN M hM).kw).map fun p =>
          (craigResMap (Warp.dual M hM) (Warp.dual N hN) p.1, craigLoopMap (Warp.dual M hM) (Warp.dual N hN) p.2) :=
  craigSolve_dual (kw := { q.kw with M := preM, N := preN }) (warp_sim q.A q.B N hN M hM hpM hpN) q.n (.fin (q.warp N hN M hM).b)

/-- **C52 with preconditioners.** In exact arithmetic, with symmetric positive definite preconditioners `M`, `N` (or without one or
both of them), for every operator, nonzero right-hand side and keywords with a positive iteration limit, CRAIG returns, and there
are vectors `ts 0, ..., ts itn` such that: `res.r` is `M` times the last one and `res.x = N A' res.r`; `ts i` is the best
approximation, in the energy norm, of the solution of `(A N A' M + I) t = b` in the span of `b, ..., (A N A' M)^i b`; the stored
iterates are `N A' M ts i` and `M ts i`; `r2norm` is `sqrt(t'Mt + (A'r)'N(A'r))` (the regularized residual norm
`sqrt(r'M⁻¹r + x'N⁻¹x)`), and the stored residual norms are the squares of these; the status 1 ("residual small") is reported only
after exactly one iteration, and says that this norm is at most `btol` times the norm `sqrt(b'Mb)` of the right-hand side; the status
8 is reported only if `etol` is positive. -/
theorem C52_preconditioned (q : CraigProblem E F) (hq : q.Valid) (hb : q.b ≠ 0) (hl : 1 ≤ q.limit)
    (N : E →ₗ[ℝ] E) (hN : Spd N) (M : F →ₗ[ℝ] F) (hM : Spd M)
    (preM : Option (Vec F → Vec F)) (preN : Option (Vec E → Vec E)) (hpM : PreconIs M preM) (hpN : PreconIs N preN) :
    ∃ res s, craigSolve (Vec.op q.A) (Vec.op q.B) q.n (.fin q.b) { q.kw with M := preM, N := preN } = .ok (res, s) ∧
    ∃ ts : List F, ts.length = res.itn + 1 ∧
      res.r = .fin (M (ts.getLastD 0)) ∧ res.x = .fin (N (q.B (M (ts.getLastD 0)))) ∧
      (∀ i (h : i < ts.length), ts[i] ∈ krylov (q.A ∘ₗ N ∘ₗ q.B ∘ₗ M) q.b (i+1) ∧
        ∀ y ∈ krylov (q.A ∘ₗ N ∘ₗ q.B ∘ₗ M) q.b (i+1), ∀ z, q.A (N (q.B (M z))) + z = q.b →
          pnorm N (q.B (M (ts[i] - z))) ^ 2 + pnorm M (ts[i] - z) ^ 2 ≤ pnorm N (q.B (M (y - z))) ^ 2 + pnorm M (y - z) ^ 2) ∧
      (q.storeIterates = true → res.iteratesD = ts.map (fun t => Vec.fin (M t)) ∧
        res.iteratesP = ts.map fun t => Vec.fin (N (q.B (M t)))) ∧
      res.r2norm = .fin (Real.sqrt (pnorm M (ts.getLastD 0) ^ 2 + pnorm N (q.B (M (ts.getLastD 0))) ^ 2)) ∧
      (q.storeResids = true → res.resids = ts.map (fun t => Fl.fin (pnorm M t ^ 2 + pnorm N (q.B (M t)) ^ 2)) ∧
        res.norms = ts.map (fun t => Fl.fin (pnorm M t ^ 2 + pnorm N (q.B (M t)) ^ 2 -
          (pnorm M (ts.headD 0) ^ 2 + pnorm N (q.B (M (ts.headD 0))) ^ 2)))) ∧
      res.istop ∈ [1, 7, 8] ∧
      (res.istop = 1 → res.itn = 1 ∧
        Real.sqrt (pnorm M (ts.getLastD 0) ^ 2 + pnorm N (q.B (M (ts.getLastD 0))) ^ 2) ≤ q.btol * pnorm M q.b) ∧
      (res.istop = 8 → 0 < q.etol) := by
  obtain ⟨res, s, hs, rs, h1, h2, h3, h4, h5, h6, h7, h8, h9, h10⟩ := C52_true_norms (q.warp N hN M hM) (q.warp_valid hq N hN M hM)
    ((LinearEquiv.map_ne_zero_iff _).2 hb) hl
  obtain ⟨ts, rfl⟩ := list_mk rs
  have hB : ∀ t, (q.warp N hN M hM).B (Warp.mk M hM t) = Warp.mk N hN (q.B (M t)) := fun _ => rfl
  have hA : ∀ t, (q.warp N hN M hM).A (Warp.mk N hN t) = Warp.mk M hM (q.A (N t)) := fun _ => rfl
  have hbb : (q.warp N hN M hM).b = Warp.mk M hM q.b := rfl
  have hC : ∀ u, ((q.warp N hN M hM).A ∘ₗ (q.warp N hN M hM).B) (Warp.mk M hM u) =
      Warp.mk M hM ((q.A ∘ₗ N ∘ₗ q.B ∘ₗ M) u) := fun _ => rfl
  refine ⟨craigResMap (Warp.dual M hM) (Warp.dual N hN) res, craigLoopMap (Warp.dual M hM) (Warp.dual N hN) s, (q.warp_solve N hN M hM hpM hpN).trans (by rw [hs]; rfl), ts, ?_, ?_, ?_, ?_, ?_, ?_, ?_, h8, ?_, h10⟩
  · rw [List.length_map] at h1; exact h1
  · change (Warp.dual M hM).P res.r = _
    rw [h2, getLastD_mk]; rfl
  · change (Warp.dual N hN).P res.x = _
    rw [h3, getLastD_mk]; rfl
  · intro i hi
    obtain ⟨k1, k2⟩ := h4 i (by rw [List.length_map]; exact hi)
    rw [List.getElem_map, hbb, krylov_mk hC] at k1
    refine ⟨k1, fun y hy z hz => ?_⟩
    have := k2 (Warp.mk M hM y) (by rw [hbb, krylov_mk hC]; exact hy) (Warp.mk M hM z)
      (by rw [hB, hA, ← map_add, hz, hbb])
    simpa only [List.getElem_map, ← map_sub, hB, Warp.norm_eq] using this
  · intro hk
    obtain ⟨k1, k2⟩ := h5 hk
    constructor
    · change res.iteratesD.map (Warp.dual M hM).P = _
      rw [k1, List.map_map, List.map_map]; rfl
    · change res.iteratesP.map (Warp.dual N hN).P = _
      rw [k2, List.map_map, List.map_map]; rfl
  · change res.r2norm = _
    rw [h6, getLastD_mk, hB, Warp.norm_eq, Warp.norm_eq]
  · intro hk
    obtain ⟨k1, k2⟩ := h7 hk
    constructor
    · change res.resids = _
      rw [k1, List.map_map]
      refine List.map_congr_left fun t _ => ?_
      rw [Function.comp_apply, hB, Warp.norm_eq, Warp.norm_eq]
    · change res.norms = _
      rw [k2, List.map_map]
      refine List.map_congr_left fun t _ => ?_
      rw [Function.comp_apply, headD_mk, hB, hB, Warp.norm_eq, Warp.norm_eq, Warp.norm_eq, Warp.norm_eq]
  · intro hk
    obtain ⟨k1, k2⟩ := h9 hk
    rw [getLastD_mk, hB, Warp.norm_eq, Warp.norm_eq, hbb, Warp.norm_eq] at k2
    exact ⟨k1, k2⟩

/-- C52 and C71 with preconditioners: `A'Mb` is confined to `d` dimensions under `A'MAN` -/
theorem craig_precon_confined [FiniteDimensional ℝ E] (q : CraigProblem E F) (hq : q.Valid) (hb : q.b ≠ 0) (hl : 1 ≤ q.limit)
    {d : ℕ} (hdl : (d : ℤ) ≤ q.limit) (hbt : q.btol ≤ 0) (het : q.etol ≤ 0)
    (N : E →ₗ[ℝ] E) (hN : Spd N) (M : F →ₗ[ℝ] F) (hM : Spd M)
    (hd : Confined (q.B ∘ₗ M ∘ₗ q.A ∘ₗ N) (q.B (M q.b)) d)
    (preM : Option (Vec F → Vec F)) (preN : Option (Vec E → Vec E)) (hpM : PreconIs M preM) (hpN : PreconIs N preN) :
    ∃ res s x r, craigSolve (Vec.op q.A) (Vec.op q.B) q.n (.fin q.b) { q.kw with M := preM, N := preN } = .ok (res, s) ∧
      res.x = .fin x ∧ res.r = .fin r ∧ r = M (q.b - q.A x) ∧ x = N (q.B r) ∧
      (∀ z, pnorm M (q.b - q.A x) ^ 2 + pnorm N (q.B r) ^ 2 ≤ pnorm M (q.b - q.A (N z)) ^ 2 + pnorm N z ^ 2) ∧
      (res.itn : ℤ) = q.limit ∧ res.status = "max iterations" ∧ res.optimal = false := by
  have hfin : FiniteDimensional ℝ (Warp N hN) := Module.Finite.equiv (Warp.mk N hN)
  obtain ⟨res, s, x, r, hs, h1, h2, h3, h4, h5, h6, h7, h8⟩ := craig_confined (q.warp N hN M hM) (q.warp_valid hq N hN M hM)
    ((LinearEquiv.map_ne_zero_iff _).2 hb) hl (hd.map (Warp.mk N hN) fun _ => rfl) hdl hbt het
  obtain ⟨x, rfl⟩ := (Warp.mk N hN).surjective x
  obtain ⟨r, rfl⟩ := (Warp.mk M hM).surjective r
  have hB : ∀ t, (q.warp N hN M hM).B (Warp.mk M hM t) = Warp.mk N hN (q.B (M t)) := fun _ => rfl
  have hA : ∀ t, (q.warp N hN M hM).A (Warp.mk N hN t) = Warp.mk M hM (q.A (N t)) := fun _ => rfl
  have hbb : (q.warp N hN M hM).b = Warp.mk M hM q.b := rfl
  rw [hB] at h4
  rw [hA, hbb, ← map_sub] at h5
  have h4 := (Warp.mk N hN).injective h4
  have h5 := (Warp.mk M hM).injective h5
  refine ⟨craigResMap (Warp.dual M hM) (Warp.dual N hN) res, craigLoopMap (Warp.dual M hM) (Warp.dual N hN) s, N x, M r, (q.warp_solve N hN M hM hpM hpN).trans (by rw [hs]; rfl), ?_, ?_, congrArg M h5, congrArg N h4, ?_, h7, h8⟩
  · change (Warp.dual N hN).P res.x = _
    rw [h1]; rfl
  · change (Warp.dual M hM).P res.r = _
    rw [h2]; rfl
  · intro z
    have := h6 (Warp.mk N hN z)
    simpa only [hA, hbb, ← map_sub, Warp.norm_eq, h4] using this

/-- **C52, convergence with preconditioners.** In exact arithmetic, if neither tolerance is positive and the limit is at least the
dimension of the domain of `A`, the result satisfies `r = M (b - A x)` and `x = N A' r`, and minimizes
`(b - Ay)'M(b - Ay) + y'N⁻¹y` over `y = N z`; such a call reports "max iterations". -/
theorem C52_preconditioned_converges [FiniteDimensional ℝ E] (q : CraigProblem E F) (hq : q.Valid) (hb : q.b ≠ 0) (hl : 1 ≤ q.limit)
    (hd : (Module.finrank ℝ E : ℤ) ≤ q.limit) (hbt : q.btol ≤ 0) (het : q.etol ≤ 0)
    (N : E →ₗ[ℝ] E) (hN : Spd N) (M : F →ₗ[ℝ] F) (hM : Spd M)
    (preM : Option (Vec F → Vec F)) (preN : Option (Vec E → Vec E)) (hpM : PreconIs M preM) (hpN : PreconIs N preN) :
    ∃ res s x r, craigSolve (Vec.op q.A) (Vec.op q.B) q.n (.fin q.b) { q.kw with M := preM, N := preN } = .ok (res, s) ∧
      res.x = .fin x ∧ res.r = .fin r ∧ r = M (q.b - q.A x) ∧ x = N (q.B r) ∧
      (∀ z, pnorm M (q.b - q.A x) ^ 2 + pnorm N (q.B r) ^ 2 ≤ pnorm M (q.b - q.A (N z)) ^ 2 + pnorm N z ^ 2) ∧
      (res.itn : ℤ) = q.limit ∧ res.status = "max iterations" ∧ res.optimal = false := by
  exact craig_precon_confined q hq hb hl hd hbt het N hN M hM (confined_of_finrank le_rfl) preM preN hpM hpN

/-! ### CRAIG-MR -/

/-- the problem in the other inner products -/
noncomputable def CraigmrProblem.warp (q : CraigmrProblem E F) (N : E →ₗ[ℝ] E) (hN : Spd N) (M : F →ₗ[ℝ] F) (hM : Spd M) :
    CraigmrProblem (Warp N hN) (Warp M hM) :=
  { A := warpMap q.A N hN M hM, B := warpMap q.B M hM N hN, b := Warp.mk M hM q.b, m := q.m, n := q.n, damp := q.damp,
    itnlim := q.itnlim, atol := q.atol, btol := q.btol, etol := q.etol, conlim := q.conlim, storeResids := q.storeResids,
    storeIterates := q.storeIterates, window := q.window }

theorem CraigmrProblem.warp_valid {q : CraigmrProblem E F} (hq : q.Valid) (N : E →ₗ[ℝ] E) (hN : Spd N) (M : F →ₗ[ℝ] F) (hM : Spd M) :
    (q.warp N hN M hM).Valid := ⟨warpMap_adj hq.adj N hN M hM, hq.window⟩

theorem CraigmrProblem.warp_solve (q : CraigmrProblem E F) (N : E →ₗ[ℝ] E) (hN : Spd N) (M : F →ₗ[ℝ] F) (hM : Spd M)
    {preM : Option (Vec F → Vec F)} {preN : Option (Vec E → Vec E)} (hpM : PreconIs M preM) (hpN : PreconIs N preN) :
    craigmrSolve (Vec.op q.A) (Vec.op q.B) q.m q.n (.fin q.b) { q.kw with M := preM, N := preN } =
      (craigmrSolve (Vec.op (q.warp N hN M hM).A) (Vec.op (q.warp N hN M hM).B) (q.warp N hN M hM).m (q.warp N hN M hM).n
        (.fin (q.warp N hN M hM).b) (q.warp N hN M hM).kw).map fun p =>
          (craigmrResMap (Warp.dual M hM) p.1, craigmrLoopMap (Warp.dual M hM) (Warp.dual N hN) p.2) :=
  craigmrSolve_dual (kw := { q.kw with M := preM, N := preN }) (warp_sim q.A q.B N hN M hM hpM hpN) q.m q.n
    (.fin (q.warp N hN M hM).b)

/-- **C53 with preconditioners.** In exact arithmetic, with symmetric positive definite preconditioners `M`, `N` (or without one or
both of them), for every operator, right-hand side (zero or not) and keywords, CRAIG-MR returns, and there are vectors
`ts 0, ..., ts itn` such that: `res.x` is `M` times the last one; `ts i` minimizes the `M`-norm of `b - (A N A' M + I) t` in the
span of `b, ..., (A N A' M)^(i-1) b`; the stored iterates are the `M ts i`; the stored norms are the squared `M`-norms of
`(A N A' M + I) ts i`, and the stored values `normal_eqns_resids` are the square roots of the decrease of the squared residual norm;
the status 8 is reported only if `etol` is positive. -/
theorem C53_preconditioned (q : CraigmrProblem E F) (hq : q.Valid) (N : E →ₗ[ℝ] E) (hN : Spd N) (M : F →ₗ[ℝ] F) (hM : Spd M)
    (preM : Option (Vec F → Vec F)) (preN : Option (Vec E → Vec E)) (hpM : PreconIs M preM) (hpN : PreconIs N preN) :
    ∃ res s, craigmrSolve (Vec.op q.A) (Vec.op q.B) q.m q.n (.fin q.b) { q.kw with M := preM, N := preN } = .ok (res, s) ∧
    ∃ ts : List F, ts.length = res.itn + 1 ∧ res.x = .fin (M (ts.getLastD 0)) ∧
      (∀ i (h : i < ts.length), ts[i] ∈ krylov (q.A ∘ₗ N ∘ₗ q.B ∘ₗ M) q.b i ∧
        ∀ y ∈ krylov (q.A ∘ₗ N ∘ₗ q.B ∘ₗ M) q.b i,
          pnorm M (q.b - (ts[i] + q.A (N (q.B (M ts[i]))))) ≤ pnorm M (q.b - (y + q.A (N (q.B (M y)))))) ∧
      (q.storeIterates = true → res.iterates = ts.map fun t => Vec.fin (M t)) ∧
      (q.storeResids = true → res.norms = ts.map (fun t => Fl.fin (pnorm M (t + q.A (N (q.B (M t)))) ^ 2)) ∧
        res.normalEqns = (ts.zip ts.tail).map (fun p =>
          Fl.fin (Real.sqrt (pnorm M (q.b - (p.1 + q.A (N (q.B (M p.1))))) ^ 2 -
            pnorm M (q.b - (p.2 + q.A (N (q.B (M p.2))))) ^ 2)))) ∧
      (res.istop = 8 → 0 < q.etol) := by
  obtain ⟨res, s, hs, rs, h1, h2, h3, h4, h5, h6⟩ := C53_minimizes (q.warp N hN M hM) (q.warp_valid hq N hN M hM)
  obtain ⟨ts, rfl⟩ := list_mk rs
  have hB : ∀ t, (q.warp N hN M hM).B (Warp.mk M hM t) = Warp.mk N hN (q.B (M t)) := fun _ => rfl
  have hA : ∀ t, (q.warp N hN M hM).A (Warp.mk N hN t) = Warp.mk M hM (q.A (N t)) := fun _ => rfl
  have hbb : (q.warp N hN M hM).b = Warp.mk M hM q.b := rfl
  have hC : ∀ u, ((q.warp N hN M hM).A ∘ₗ (q.warp N hN M hM).B) (Warp.mk M hM u) =
      Warp.mk M hM ((q.A ∘ₗ N ∘ₗ q.B ∘ₗ M) u) := fun _ => rfl
  refine ⟨craigmrResMap (Warp.dual M hM) res, craigmrLoopMap (Warp.dual M hM) (Warp.dual N hN) s, (q.warp_solve N hN M hM hpM hpN).trans (by rw [hs]; rfl), ts, ?_, ?_, ?_, ?_, ?_, h6⟩
  · rw [List.length_map] at h1; exact h1
  · change (Warp.dual M hM).P res.x = _
    rw [h2, getLastD_mk]; rfl
  · intro i hi
    obtain ⟨k1, k2⟩ := h3 i (by rw [List.length_map]; exact hi)
    rw [List.getElem_map, hbb, krylov_mk hC] at k1
    refine ⟨k1, fun y hy => ?_⟩
    have := k2 (Warp.mk M hM y) (by rw [hbb, krylov_mk hC]; exact hy)
    simpa only [List.getElem_map, hB, hA, hbb, ← map_add, ← map_sub, Warp.norm_eq] using this
  · intro hk
    change res.iterates.map (Warp.dual M hM).P = _
    rw [h4 hk, List.map_map, List.map_map]; rfl
  · intro hk
    obtain ⟨k1, k2⟩ := h5 hk
    constructor
    · change res.norms = _
      rw [k1, List.map_map]
      refine List.map_congr_left fun t _ => ?_
      rw [Function.comp_apply, hB, hA, ← map_add, Warp.norm_eq]
    · change res.normalEqns = _
      rw [k2, ← List.map_tail, List.zip_map, List.map_map]
      refine List.map_congr_left fun t _ => ?_
      simp only [Function.comp_apply, Prod.map, hB, hA, hbb, ← map_add, ← map_sub, Warp.norm_eq]

/-- C53 and C71 with preconditioners: `A'Mb` is confined to `d` dimensions under `A'MAN` -/
theorem craigmr_precon_confined [FiniteDimensional ℝ E] (q : CraigmrProblem E F) (hq : q.Valid) (he : q.etol ≤ 0)
    (N : E →ₗ[ℝ] E) (hN : Spd N) (M : F →ₗ[ℝ] F) (hM : Spd M) {d : ℕ}
    (hd : Confined (q.B ∘ₗ M ∘ₗ q.A ∘ₗ N) (q.B (M q.b)) d) (hl : (d : ℤ) + 1 ≤ q.itnlim.getD (min q.m q.n : ℕ))
    (preM : Option (Vec F → Vec F)) (preN : Option (Vec E → Vec E)) (hpM : PreconIs M preM) (hpN : PreconIs N preN) :
    ∃ res s t, craigmrSolve (Vec.op q.A) (Vec.op q.B) q.m q.n (.fin q.b) { q.kw with M := preM, N := preN } = .ok (res, s) ∧
      res.x = .fin (M t) ∧ t + q.A (N (q.B (M t))) = q.b := by
  have hfin : FiniteDimensional ℝ (Warp N hN) := Module.Finite.equiv (Warp.mk N hN)
  obtain ⟨res, s, x, hs, h1, h2⟩ := craigmr_confined (q.warp N hN M hM) (q.warp_valid hq N hN M hM) he
    (hd.map (Warp.mk N hN) fun _ => rfl) hl
  obtain ⟨x, rfl⟩ := (Warp.mk M hM).surjective x
  refine ⟨craigmrResMap (Warp.dual M hM) res, craigmrLoopMap (Warp.dual M hM) (Warp.dual N hN) s, x, (q.warp_solve N hN M hM hpM hpN).trans (by rw [hs]; rfl), ?_, ?_⟩
  · change (Warp.dual M hM).P res.x = _
    rw [h1]; rfl
  · exact (Warp.mk M hM).injective h2

/-- **C53, convergence with preconditioners.** In exact arithmetic, if `etol` is not positive and the iteration limit is at least the
dimension of the space of the right-hand side, or exceeds the dimension of the domain of `A`, then the result is `x = M t` for the
solution `t` of `t + A N A' M t = b`, that is, the solution of `(M⁻¹ + A N A') x = b`. -/
theorem C53_preconditioned_converges (q : CraigmrProblem E F) (hq : q.Valid) (he : q.etol ≤ 0)
    (hd : (∃ _ : FiniteDimensional ℝ F, (Module.finrank ℝ F : ℤ) ≤ q.itnlim.getD (min q.m q.n : ℕ)) ∨
      (∃ _ : FiniteDimensional ℝ E, (Module.finrank ℝ E : ℤ) + 1 ≤ q.itnlim.getD (min q.m q.n : ℕ)))
    (N : E →ₗ[ℝ] E) (hN : Spd N) (M : F →ₗ[ℝ] F) (hM : Spd M)
    (preM : Option (Vec F → Vec F)) (preN : Option (Vec E → Vec E)) (hpM : PreconIs M preM) (hpN : PreconIs N preN) :
    ∃ res s t, craigmrSolve (Vec.op q.A) (Vec.op q.B) q.m q.n (.fin q.b) { q.kw with M := preM, N := preN } = .ok (res, s) ∧
      res.x = .fin (M t) ∧ t + q.A (N (q.B (M t))) = q.b := by
  obtain ⟨res, s, x, hs, h1, h2⟩ := C53_converges (q.warp N hN M hM) (q.warp_valid hq N hN M hM) he (by
    rcases hd with ⟨hf, hd⟩ | ⟨hf, hd⟩
    · refine Or.inl ⟨Module.Finite.equiv (Warp.mk M hM), ?_⟩
      rw [(Warp.mk M hM).symm.finrank_eq]; exact hd
    · refine Or.inr ⟨Module.Finite.equiv (Warp.mk N hN), ?_⟩
      rw [(Warp.mk N hN).symm.finrank_eq]; exact hd)
  obtain ⟨x, rfl⟩ := (Warp.mk M hM).surjective x
  refine ⟨craigmrResMap (Warp.dual M hM) res, craigmrLoopMap (Warp.dual M hM) (Warp.dual N hN) s, x, (q.warp_solve N hN M hM hpM hpN).trans (by rw [hs]; rfl), ?_, ?_⟩
  · change (Warp.dual M hM).P res.x = _
    rw [h1]; rfl
  · exact (Warp.mk M hM).injective h2

/-! ### Instances -/

/-- multiplication by a positive number is symmetric positive definite -/
theorem Spd.scale {c : ℝ} (hc : 0 < c) : Spd (c • LinearMap.id : E →ₗ[ℝ] E) where
  symm u v := by simp [inner_smul_left, inner_smul_right]
  pos u hu := by
    rw [LinearMap.smul_apply, LinearMap.id_apply, inner_smul_right, real_inner_self_eq_norm_mul_norm]
    exact mul_pos hc (mul_self_pos.2 (norm_ne_zero_iff.2 hu))

/-- the hypotheses of `C52_preconditioned_converges` are met by `x = 2` with `M = 3`, `N = 5`: CRAIG returns the solution of
`x = 5 r`, `r = 3 (2 - x)` -/
example : ∃ res s, craigSolve (Vec.op craigExample.A) (Vec.op craigExample.B) 1 (.fin (2:ℝ))
    { craigExample.kw with M := some (Vec.op ((3:ℝ) • LinearMap.id : ℝ →ₗ[ℝ] ℝ)),
                           N := some (Vec.op ((5:ℝ) • LinearMap.id : ℝ →ₗ[ℝ] ℝ)) } = .ok (res, s) ∧
    res.x = .fin (15/8:ℝ) ∧ res.r = .fin (3/8:ℝ) := by
  obtain ⟨res, s, x, r, hs, hx, hr, h1, h2, -⟩ := C52_preconditioned_converges craigExample craigExample_valid
    (by norm_num [craigExample]) (by norm_num [craigExample, CraigProblem.limit]) (by norm_num [craigExample, CraigProblem.limit])
    (by norm_num [craigExample]) (by norm_num [craigExample]) _ (Spd.scale (by norm_num : (0:ℝ) < 5)) _
    (Spd.scale (by norm_num : (0:ℝ) < 3)) _ _ .some .some
  have h1' : r = 3 * (2 - x) := h1
  have h2' : x = 5 * r := h2
  refine ⟨res, s, hs, hx.trans ?_, hr.trans ?_⟩ <;> congr 1 <;> linarith

/-- the hypotheses of `C52_preconditioned` are met, also with only one preconditioner -/
example := C52_preconditioned craigExample craigExample_valid (by norm_num [craigExample])
  (by norm_num [craigExample, CraigProblem.limit]) _ Spd.id _ (Spd.scale (by norm_num : (0:ℝ) < 3)) _ _ .some (.none rfl)

/-- the hypotheses of `C53_preconditioned_converges` are met by `x = 2` with `M = 3` and no `N`: `x / 3 + x = 2` -/
example : ∃ res s, craigmrSolve (Vec.op craigmrExample.A) (Vec.op craigmrExample.B) 1 1 (.fin (2:ℝ))
    { craigmrExample.kw with M := some (Vec.op ((3:ℝ) • LinearMap.id : ℝ →ₗ[ℝ] ℝ)), N := none } = .ok (res, s) ∧
    res.x = .fin (3/2:ℝ) := by
  obtain ⟨res, s, t, hs, hx, h1⟩ := C53_preconditioned_converges craigmrExample craigmrExample_valid
    (by norm_num [craigmrExample]) (Or.inl ⟨inferInstance, by norm_num [craigmrExample]⟩) _ Spd.id _
    (Spd.scale (by norm_num : (0:ℝ) < 3)) _ _ .some (.none rfl)
  refine ⟨res, s, hs, hx.trans ?_⟩
  have h1' : t + 3 * t = 2 := h1
  change Vec.fin (3 * t) = _
  congr 1
  linarith

/-- the hypotheses of `C53_preconditioned` are met -/
example := C53_preconditioned craigmrShort craigmrShort_valid _ (Spd.scale (by norm_num : (0:ℝ) < 5)) _ diagOneFour_spd _ _ .some .some

end Verif.Solver
