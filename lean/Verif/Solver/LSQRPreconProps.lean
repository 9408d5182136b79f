import Verif.Solver.LSQRPrecon
import Verif.Solver.LSQRConv
import Verif.Solver.CraigPreconProps

/-!
# C37, C38 and C50 with preconditioners
-/

namespace Verif.Solver
open Scalar Vect
open scoped RealInnerProductSpace
open MinresMath (krylov)

variable {E F : Type} [NormedAddCommGroup E] [InnerProductSpace ℝ E] [NormedAddCommGroup F] [InnerProductSpace ℝ F]

/-- the problem in the other inner products -/
noncomputable def LsqrProblem.warp (q : LsqrProblem E F) (N : E →ₗ[ℝ] E) (hN : Spd N) (M : F →ₗ[ℝ] F) (hM : Spd M) :
    LsqrProblem (Warp N hN) (Warp M hM) :=
  { A := warpMap q.A N hN M hM, B := warpMap q.B M hM N hN, b := Warp.mk M hM q.b, n := q.n, damp := q.damp, itnlim := q.itnlim,
    atol := q.atol, btol := q.btol, etol := q.etol, conlim := q.conlim, storeResids := q.storeResids,
    storeIterates := q.storeIterates, window := q.window }

theorem LsqrProblem.warp_valid {q : LsqrProblem E F} (hq : q.Valid) (N : E →ₗ[ℝ] E) (hN : Spd N) (M : F →ₗ[ℝ] F) (hM : Spd M) :
    (q.warp N hN M hM).Valid := ⟨warpMap_adj hq.adj N hN M hM, hq.atol, hq.btol, hq.window⟩

/-- a result of the other solve gives one of this solve -/
theorem LsqrProblem.warp_solve (q : LsqrProblem E F) (N : E →ₗ[ℝ] E) (hN : Spd N) (M : F →ₗ[ℝ] F) (hM : Spd M)
    {preM : Option (Vec F → Vec F)} {preN : Option (Vec E → Vec E)} (hpM : PreconIs M preM) (hpN : PreconIs N preN)
    {res : LsqrRes Fl (Vec (Warp N hN))} {t : LsqrLoop Fl (Vec (Warp M hM)) (Vec (Warp N hN))}
    (h : lsqrSolve (Vec.op (q.warp N hN M hM).A) (Vec.op (q.warp N hN M hM).B) (q.warp N hN M hM).n (.fin (q.warp N hN M hM).b)
      (q.warp N hN M hM).kw = .ok (res, t)) :
    ∃ (res' : LsqrRes Fl (Vec E)) (s : LsqrLoop Fl (Vec F) (Vec E)),
      lsqrSolve (Vec.op q.A) (Vec.op q.B) q.n (.fin q.b) { q.kw with M := preM, N := preN } = .ok (res', s) ∧
      res'.x = (Warp.dual N hN).P res.x ∧ res'.istop = res.istop ∧ res'.itn = res.itn ∧ res'.optimal = res.optimal ∧
      res'.status = res.status ∧ res'.r1norm = res.r1norm ∧ res'.r2norm = res.r2norm ∧ res'.Arnorm = res.Arnorm ∧
      res'.xnorm = res.xnorm ∧ res'.resids = res.resids ∧ res'.normalEqns = res.normalEqns ∧
      res'.iterates = res.iterates.map (Warp.dual N hN).P := by
  have hsim := lsqrSolve_rel (kw := { q.kw with M := preM, N := preN }) (warp_sim q.A q.B N hN M hM hpM hpN) rfl q.n
    (.fin (q.warp N hN M hM).b)
  have h' : lsqrSolve (Vec.op (warpMap q.A N hN M hM)) (Vec.op (warpMap q.B M hM N hN)) q.n (.fin (q.warp N hN M hM).b)
    ({ q.kw with M := preM, N := preN } : LsqrKw Fl (Vec F) (Vec E)).unprec = .ok (res, t) := h
  rw [h'] at hsim
  generalize hQ : lsqrSolve (Vec.op q.A) (Vec.op q.B) q.n ((Warp.dual M hM).D (.fin (q.warp N hN M hM).b))
    { q.kw with M := preM, N := preN } = Q at hsim
  cases hsim with
  | @ok p _ hr =>
    obtain ⟨h1, h2, -, dd, ac, l, h3⟩ := hr
    refine ⟨p.1, p.2, hQ, ?_⟩
    rw [h1]
    have h2 : res = lsqrResult _ t := (Prod.mk.inj h2).1
    dsimp only at h3 ⊢
    rw [h2, h3]
    exact ⟨rfl, rfl, rfl, rfl, rfl, rfl, rfl, rfl, rfl, rfl, rfl, rfl⟩

theorem getLast_mk {M : E →ₗ[ℝ] E} {h : Spd M} (ts : List E) (h1 : 0 :: ts.map (Warp.mk M h) ≠ []) (h2 : 0 :: ts ≠ []) :
    (0 :: ts.map (Warp.mk M h)).getLast h1 = Warp.mk M h ((0 :: ts).getLast h2) := by
  have : 0 :: ts.map (Warp.mk M h) = (0 :: ts).map (Warp.mk M h) := by simp
  simp only [this, List.getLast_map]

/-- **C38 with preconditioners.** In exact arithmetic, with symmetric positive definite preconditioners `M`, `N` (or without one or
both of them), `solve` returns, and there is a list of vectors `ys` such that the iterates are `x = N y` for the elements `y` of
`0 :: ys`; with the options that store them, `resids` are the values `sqrt((b - Ax)'M(b - Ax) + damp^2 y'Ny)` and
`normal_eqns_resids` the `N`-norms of `A'M(b - Ax) - damp^2 y` at these; `r2norm`, `Arnorm` and `xnorm` are the values at the
returned `x`, and `r1norm` is at least the `M`-norm of `b - Ax`, and equal to it if `damp = 0`; and the `i`-th one
minimizes `(b - Ax)'M(b - Ax) + damp^2 x'N⁻¹x` over the images under `N` of the span of `A'Mb, (A'MAN)A'Mb, ..., (A'MAN)^(i-1)A'Mb`. -/
theorem C38_preconditioned (q : LsqrProblem E F) (hq : q.Valid) (N : E →ₗ[ℝ] E) (hN : Spd N) (M : F →ₗ[ℝ] F) (hM : Spd M)
    (preM : Option (Vec F → Vec F)) (preN : Option (Vec E → Vec E)) (hpM : PreconIs M preM) (hpN : PreconIs N preN) :
    ∃ res s, ∃ ys : List E, lsqrSolve (Vec.op q.A) (Vec.op q.B) q.n (.fin q.b) { q.kw with M := preM, N := preN } = .ok (res, s) ∧
      res.itn = ys.length ∧ res.x = .fin (N ((0 :: ys).getLast (by simp))) ∧
      (q.storeIterates = true → res.iterates = (0 :: ys).map fun y => Vec.fin (N y)) ∧
      (q.storeResids = true →
        res.resids = (0 :: ys).map (fun y =>
          Fl.fin (Real.sqrt (pnorm M (q.b - q.A (N y)) ^ 2 + q.damp ^ 2 * pnorm N y ^ 2))) ∧
        res.normalEqns = (0 :: ys).map (fun y => Fl.fin (pnorm N (q.B (M (q.b - q.A (N y))) - (q.damp * q.damp) • y)))) ∧
      (∀ y, y = (0 :: ys).getLast (by simp) →
        res.r2norm = .fin (Real.sqrt (pnorm M (q.b - q.A (N y)) ^ 2 + q.damp ^ 2 * pnorm N y ^ 2)) ∧
        res.Arnorm = .fin (pnorm N (q.B (M (q.b - q.A (N y))) - (q.damp * q.damp) • y)) ∧ res.xnorm = .fin (pnorm N y) ∧
        ∃ r1, res.r1norm = .fin r1 ∧ pnorm M (q.b - q.A (N y)) ≤ r1 ∧ (q.damp = 0 → r1 = pnorm M (q.b - q.A (N y)))) ∧
      ∀ i (h : i < ys.length), ys[i] ∈ krylov (q.B ∘ₗ M ∘ₗ q.A ∘ₗ N) (q.B (M q.b)) (i+1) ∧
        ∀ z ∈ krylov (q.B ∘ₗ M ∘ₗ q.A ∘ₗ N) (q.B (M q.b)) (i+1),
          pnorm M (q.b - q.A (N ys[i])) ^ 2 + q.damp ^ 2 * pnorm N ys[i] ^ 2 ≤
            pnorm M (q.b - q.A (N z)) ^ 2 + q.damp ^ 2 * pnorm N z ^ 2 := by
  obtain ⟨res, t, rs, hs, h1, h2, h3, h4, h5, h6⟩ := C38_true_norms (q.warp N hN M hM) (q.warp_valid hq N hN M hM)
  obtain ⟨ys, rfl⟩ := list_mk rs
  obtain ⟨res', s, hs', e1, e2, e3, e4, e5, e6, e7, e8, e9, e10, e11, e12⟩ := q.warp_solve N hN M hM hpM hpN hs
  have hB : ∀ t, (q.warp N hN M hM).B (Warp.mk M hM t) = Warp.mk N hN (q.B (M t)) := fun _ => rfl
  have hA : ∀ t, (q.warp N hN M hM).A (Warp.mk N hN t) = Warp.mk M hM (q.A (N t)) := fun _ => rfl
  have hbb : (q.warp N hN M hM).b = Warp.mk M hM q.b := rfl
  have hdd : (q.warp N hN M hM).damp = q.damp := rfl
  have hC : ∀ u, ((q.warp N hN M hM).B ∘ₗ (q.warp N hN M hM).A) (Warp.mk N hN u) =
      Warp.mk N hN ((q.B ∘ₗ M ∘ₗ q.A ∘ₗ N) u) := fun _ => rfl
  have hz : 0 :: ys.map (Warp.mk N hN) = (0 :: ys).map (Warp.mk N hN) := by simp
  refine ⟨res', s, ys, hs', ?_, ?_, ?_, ?_, ?_, ?_⟩
  · rw [e3, h1, List.length_map]
  · rw [e1, h2, getLast_mk ys _ (by simp)]; rfl
  · intro hk
    rw [e12, h3 hk, hz, List.map_map, List.map_map]; rfl
  · intro hk
    obtain ⟨k1, k2⟩ := h4 hk
    constructor
    · rw [e10, k1, hz, List.map_map]
      refine List.map_congr_left fun y _ => ?_
      simp only [Function.comp_apply, hA, hbb, hdd, ← map_sub, Warp.norm_eq]
    · rw [e11, k2, hz, List.map_map]
      refine List.map_congr_left fun y _ => ?_
      simp only [Function.comp_apply, hA, hB, hbb, hdd, ← map_sub, ← map_smul, Warp.norm_eq]
  · rintro y rfl
    obtain ⟨k1, k2, k3, r1, k4, k5, k6⟩ := h5 _ h2
    simp only [getLast_mk ys _ (show 0 :: ys ≠ [] by simp), hA, hB, hbb, hdd, ← map_sub, ← map_smul, Warp.norm_eq] at k1 k2 k3 k5 k6
    exact ⟨e7.trans k1, e8.trans k2, e9.trans k3, r1, e6.trans k4, k5, k6⟩
  · intro i hi
    obtain ⟨k1, k2⟩ := h6 i (by rw [List.length_map]; exact hi)
    rw [List.getElem_map, hbb, hB, krylov_mk hC] at k1
    refine ⟨k1, fun z hz => ?_⟩
    have := k2 (Warp.mk N hN z) (by rw [hbb, hB, krylov_mk hC]; exact hz)
    simpa only [List.getElem_map, hA, hbb, hdd, ← map_sub, Warp.norm_eq] using this

/-- C37 and C71 with preconditioners: `A'Mb` is confined to `d` dimensions under `A'MAN` -/
theorem lsqr_precon_confined [FiniteDimensional ℝ E] (q : LsqrProblem E F) (hq : q.Valid)
    {d : ℕ}
    (hl : (d : ℤ) ≤ if q.itnlim = 0 then 3 * (q.n : ℤ) else q.itnlim)
    (h2 : 2 ≤ if q.itnlim = 0 then 3 * (q.n : ℤ) else q.itnlim)
    (N : E →ₗ[ℝ] E) (hN : Spd N) (M : F →ₗ[ℝ] F) (hM : Spd M) (hb : q.B (M q.b) ≠ 0)
    (hd : Confined (q.B ∘ₗ M ∘ₗ q.A ∘ₗ N) (q.B (M q.b)) d)
    (preM : Option (Vec F → Vec F)) (preN : Option (Vec E → Vec E)) (hpM : PreconIs M preM) (hpN : PreconIs N preN) :
    ∃ res s, lsqrSolve (Vec.op q.A) (Vec.op q.B) q.n (.fin q.b) { q.kw with M := preM, N := preN } = .ok (res, s) ∧
      res.optimal = true ∧ res.itn ≤ max d 2 ∧
      (q.atol = 0 → q.btol = 0 → q.etol ≤ 0 →
        ∃ y, res.x = .fin (N y) ∧ q.B (M (q.b - q.A (N y))) - (q.damp * q.damp) • y = 0) := by
  have hfin : FiniteDimensional ℝ (Warp N hN) := Module.Finite.equiv (Warp.mk N hN)
  obtain ⟨res, t, hs, h3, h5, h4⟩ := lsqr_confined (q.warp N hN M hM) (q.warp_valid hq N hN M hM)
    ((LinearEquiv.map_ne_zero_iff (Warp.mk N hN)).2 hb) (hd.map (Warp.mk N hN) fun _ => rfl) hl h2
  obtain ⟨res', s, hs', e1, e2, e3, e4, -⟩ := q.warp_solve N hN M hM hpM hpN hs
  refine ⟨res', s, hs', e4.trans h3, e3.trans_le h5, fun ha hb he => ?_⟩
  obtain ⟨x, hx, hx'⟩ := h4 ha hb he
  obtain ⟨y, rfl⟩ := (Warp.mk N hN).surjective x
  exact ⟨y, by rw [e1, hx]; rfl, (Warp.mk N hN).injective (by rw [map_zero]; exact hx')⟩

/-- **C37, convergence with preconditioners.** In exact arithmetic, with symmetric positive definite preconditioners `M`, `N` (or
without one or both of them), for every operator on a space of dimension at most the iteration limit, which is at least 2, a right-hand side with `A'Mb ≠ 0`,
and nonnegative tolerances, `solve` reports success: `optimal` is `True`.  If the tolerances are zero the returned `x = N y`
satisfies the normal equations `A'M(b - Ax) = damp^2 N⁻¹x`. -/
theorem C37_preconditioned_converges [FiniteDimensional ℝ E] (q : LsqrProblem E F) (hq : q.Valid)
    (hl : (Module.finrank ℝ E : ℤ) ≤ if q.itnlim = 0 then 3 * (q.n : ℤ) else q.itnlim)
    (h2 : 2 ≤ if q.itnlim = 0 then 3 * (q.n : ℤ) else q.itnlim)
    (N : E →ₗ[ℝ] E) (hN : Spd N) (M : F →ₗ[ℝ] F) (hM : Spd M) (hb : q.B (M q.b) ≠ 0)
    (preM : Option (Vec F → Vec F)) (preN : Option (Vec E → Vec E)) (hpM : PreconIs M preM) (hpN : PreconIs N preN) :
    ∃ res s, lsqrSolve (Vec.op q.A) (Vec.op q.B) q.n (.fin q.b) { q.kw with M := preM, N := preN } = .ok (res, s) ∧
      res.optimal = true ∧
      (q.atol = 0 → q.btol = 0 → q.etol ≤ 0 →
        ∃ y, res.x = .fin (N y) ∧ q.B (M (q.b - q.A (N y))) - (q.damp * q.damp) • y = 0) := by
  obtain ⟨res, s, h1, h3, -, h4⟩ := lsqr_precon_confined q hq hl h2 N hN M hM hb (confined_of_finrank le_rfl) preM preN hpM hpN
  exact ⟨res, s, h1, h3, h4⟩

/-! ### Instances -/

/-- the hypotheses of `C38_preconditioned` are met -/
example := C38_preconditioned (lsqrDemo 1 0) (lsqrDemo_valid 1 0) _ (Spd.scale (by norm_num : (0:ℝ) < 5)) _ diagOneFour_spd _ _
  .some .some

/-- the hypotheses of `C37_preconditioned_converges` are met -/
example : ∃ res s, lsqrSolve (Vec.op (lsqrDemo 1 0).A) (Vec.op (lsqrDemo 1 0).B) 2 (.fin !₂[1, 1])
    { (lsqrDemo 1 0).kw with M := some (Vec.op diagOneFour), N := none } = .ok (res, s) ∧ res.optimal = true := by
  obtain ⟨res, s, hs, h, -⟩ := C37_preconditioned_converges (lsqrDemo 1 0) (lsqrDemo_valid 1 0) (by simp [lsqrDemo])
    (by simp [lsqrDemo]) _ Spd.id _ diagOneFour_spd (by
      intro h
      have := congrArg (fun z : EuclideanSpace ℝ (Fin 2) => z 0) h
      simp [lsqrDemo, diagOneFour, Matrix.toLpLin_apply, Matrix.mulVec, dotProduct] at this) _ _ .some (.none rfl)
  exact ⟨res, s, hs, h⟩

end Verif.Solver
