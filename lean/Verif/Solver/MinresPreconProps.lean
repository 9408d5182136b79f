import Verif.Solver.MinresPrecon
import Verif.Solver.MinresFindings

/-!
# C34 and C35 for preconditioned MINRES in exact arithmetic

The preconditioner `M` is symmetric positive definite.  Residuals are measured in the norm `|r|_M = sqrt(r'Mr)`; the Krylov
spaces are spanned by `Mb, (MB)Mb, ...`, where `B = A - shift I`.
-/

namespace Verif.Solver
open Scalar Vect
open scoped RealInnerProductSpace
open MinresMath (krylov)

variable {E : Type} [NormedAddCommGroup E] [InnerProductSpace ℝ E]

/-- `sqrt(r'Mr)` -/
noncomputable def pnorm (M : E →ₗ[ℝ] E) (r : E) : ℝ := Real.sqrt ⟪r, M r⟫

theorem Warp.norm_eq {M : E →ₗ[ℝ] E} {h : Spd M} (u : E) : ‖Warp.mk M h u‖ = pnorm M u := Warp.norm_mk u

/-- Krylov spaces of the other inner product space, mapped back with `M` -/
theorem krylov_warp {M : E →ₗ[ℝ] E} {h : Spd M} (B : E →ₗ[ℝ] E) (b : E) (k : ℕ) :
    (krylov ((Warp.mk M h).toLinearMap ∘ₗ (B ∘ₗ M) ∘ₗ (Warp.mk M h).symm.toLinearMap) (Warp.mk M h b) k).map
      (M ∘ₗ (Warp.mk M h).symm.toLinearMap) = krylov (M ∘ₗ B) (M b) k := by
  have hp : ∀ j, M ((Warp.mk M h).symm ((((Warp.mk M h).toLinearMap ∘ₗ (B ∘ₗ M) ∘ₗ (Warp.mk M h).symm.toLinearMap) ^ j)
      (Warp.mk M h b))) = ((M ∘ₗ B) ^ j) (M b) := by
    intro j
    induction j with
    | zero => simp
    | succ j ih =>
      rw [pow_succ', pow_succ', Module.End.mul_apply, Module.End.mul_apply, ← ih]
      simp
  unfold krylov
  rw [Submodule.map_span]
  congr 1
  ext z
  constructor
  · rintro ⟨u, ⟨j, hj, rfl⟩, rfl⟩; exact ⟨j, hj, hp j⟩
  · rintro ⟨j, hj, rfl⟩; exact ⟨_, ⟨j, hj, rfl⟩, hp j⟩

/-- the problem in the other inner product space -/
noncomputable def MinresProblem.warp (q : MinresProblem E) (M : E →ₗ[ℝ] E) (h : Spd M) : MinresProblem (Warp M h) :=
  { A := (Warp.mk M h).toLinearMap ∘ₗ (q.B ∘ₗ M) ∘ₗ (Warp.mk M h).symm.toLinearMap, b := Warp.mk M h q.b, shift := 0,
    check := q.check, itnlim := q.itnlim, rtol := q.rtol, etol := q.etol, storeIterates := q.storeIterates, window := q.window }

theorem MinresProblem.warp_B (q : MinresProblem E) (M : E →ₗ[ℝ] E) (h : Spd M) : (q.warp M h).B = (q.warp M h).A := by
  simp [MinresProblem.B, MinresProblem.warp]

theorem MinresProblem.warp_solve (q : MinresProblem E) (M : E →ₗ[ℝ] E) (h : Spd M) (eps : Fl) (n : ℕ)
    (self : MinresObj Fl (Vec E)) :
    minresSolve (Vec.op q.A) eps n self (.fin q.b) { q.kw with precon := some (Vec.op M) } =
      (minresSolve (Vec.op (q.warp M h).A) eps n ⟨self.residHistory⟩ (.fin (q.warp M h).b) (q.warp M h).kw).map
        fun p => ((Warp.dual M h).minresRes p.1, p.2.map (Warp.dual M h).P) := by
  refine minresSolve_dual (Warp.dual M h) (op := Vec.op q.A) (op' := Vec.op (q.warp M h).A)
    (kw := { q.kw with precon := some (Vec.op M) }) (shift := .fin 0) ?_ ?_ rfl eps n self (.fin (q.warp M h).b)
  · intro u
    cases u with
    | nan => simp [Warp.dual]
    | fin u => simp [Warp.dual, MinresProblem.warp, MinresProblem.kw, MinresProblem.B]
  · intro u
    cases u <;> rfl

theorem MinresProblem.warp_symm (q : MinresProblem E) (M : E →ₗ[ℝ] E) (h : Spd M) (hA : ∀ u v, ⟪q.A u, v⟫ = ⟪u, q.A v⟫)
    (u v : Warp M h) : (⟪(q.warp M h).A u, v⟫ : ℝ) = ⟪u, (q.warp M h).A v⟫ := by
  rw [Warp.inner_eq, Warp.inner_eq]
  simp only [MinresProblem.warp, LinearMap.comp_apply, LinearEquiv.coe_coe, LinearEquiv.symm_apply_apply]
  rw [q.B_symm hA, ← h.symm]

theorem MinresProblem.warp_low (q : MinresProblem E) (M : E →ₗ[ℝ] E) (h : Spd M) {ε : ℝ}
    (hlow : ∀ z, ε * pnorm M z ≤ pnorm M (q.A (M z) - q.shift • M z)) (z : Warp M h) :
    ε * ‖z‖ ≤ ‖(q.warp M h).A z - (q.warp M h).shift • z‖ := by
  have h1 : z = Warp.mk M h ((Warp.mk M h).symm z) := rfl
  have h2 : (q.warp M h).A z - (q.warp M h).shift • z = Warp.mk M h (q.A (M ((Warp.mk M h).symm z)) - q.shift • M ((Warp.mk M h).symm z)) := by
    simp [MinresProblem.warp, MinresProblem.B]
  rw [h2, Warp.norm_eq]
  conv_lhs => rw [h1, Warp.norm_eq]
  exact hlow _

/-- **C35 (partial).** In exact arithmetic, MINRES with a symmetric positive definite preconditioner `M` on a symmetric operator
`A`, when no singular value of `(A - shift I) M` in the `M`-norm is below the machine precision `ε`: unless the solve breaks
down, which only happens with `istop = -1`, there are vectors `xs`, one per iteration, of which the last is the returned `x`
(and which are the stored iterates if these are requested), such that the residual norm recorded by each iteration is the
`M`-norm of `b - (A - shift I) x`; these never increase; and each is the smallest that can be had in the Krylov space of its
iteration.  Missing, because the code violates it: smaller singular values (`C35_clipped`). -/
theorem C35_preconditioned_partial (q : MinresProblem E) (hA : ∀ u v, ⟪q.A u, v⟫ = ⟪u, q.A v⟫) (M : E →ₗ[ℝ] E) (hM : Spd M)
    (ε : ℝ) (hε : 0 < ε) (hlow : ∀ z, ε * pnorm M z ≤ pnorm M (q.A (M z) - q.shift • M z)) (hw : q.window ≠ 0) (n : ℕ)
    (self : MinresObj Fl (Vec E)) :
    ∃ res products, minresSolve (Vec.op q.A) (.fin ε) n self (.fin q.b) { q.kw with precon := some (Vec.op M) } =
        .ok (res, products) ∧
      (res.istop ≠ -1 → res.x ≠ .nan) ∧
      ∀ x, res.x = .fin x → ∃ xs : List E, xs.length = products.length ∧ (0 :: xs).getLast? = some x ∧
        res.residHistory = self.residHistory ++ xs.map (fun x => Fl.fin (pnorm M (q.b - (q.A x - q.shift • x)))) ∧
        (q.storeIterates = true → res.iterates = (0 :: xs).map Vec.fin) ∧
        (products ≠ [] → res.rnorm = .fin (pnorm M (q.b - (q.A x - q.shift • x)))) ∧
        (0 :: xs).IsChain (fun u v => pnorm M (q.b - (q.A v - q.shift • v)) ≤ pnorm M (q.b - (q.A u - q.shift • u))) ∧
        ∀ i y, (0 :: xs)[i]? = some y →
          y ∈ krylov (M ∘ₗ (q.A - q.shift • LinearMap.id)) (M q.b) i ∧
          ∀ z ∈ krylov (M ∘ₗ (q.A - q.shift • LinearMap.id)) (M q.b) i,
            pnorm M (q.b - (q.A y - q.shift • y)) ≤ pnorm M (q.b - (q.A z - q.shift • z)) := by
  have hBd : q.A - q.shift • LinearMap.id = q.B := rfl
  obtain ⟨res, products, h1, h2, h3⟩ := C35_residual_partial (q.warp M hM) (q.warp_symm M hM hA) ε hε (q.warp_low M hM hlow) hw n
    ⟨self.residHistory⟩
  have hsol := q.warp_solve M hM (.fin ε) n self
  rw [h1] at hsol
  have hres : ∀ u : Warp M hM, ‖(q.warp M hM).b - ((q.warp M hM).A u - (q.warp M hM).shift • u)‖ =
      pnorm M (q.b - (q.A (M ((Warp.mk M hM).symm u)) - q.shift • M ((Warp.mk M hM).symm u))) := by
    intro u
    rw [← Warp.norm_eq (h := hM)]
    simp [MinresProblem.warp, MinresProblem.B]
  refine ⟨_, _, hsol, ?_, ?_⟩
  · intro hi hn
    refine h2 hi ?_
    have hn : (Warp.dual M hM).P res.x = .nan := hn
    cases hx : res.x with
    | nan => rfl
    | fin x => rw [hx] at hn; cases hn
  · intro x hx
    have hx : (Warp.dual M hM).P res.x = .fin x := hx
    obtain ⟨x', hx', rfl⟩ := Vec.op_eq_fin hx
    obtain ⟨xs, e1, e2, e3, e4, e5, e6, e7⟩ := h3 x' hx'
    simp only [hres] at e3 e5 e6 e7
    have hk : krylov ((q.warp M hM).A - (q.warp M hM).shift • LinearMap.id) (q.warp M hM).b =
        krylov (q.warp M hM).A (q.warp M hM).b := by
      have : (q.warp M hM).A - (q.warp M hM).shift • LinearMap.id = (q.warp M hM).A := q.warp_B M hM
      rw [this]
    rw [hk] at e7
    have h0 : (0 : E) :: xs.map (fun u => M ((Warp.mk M hM).symm u)) = (0 :: xs).map (fun u => M ((Warp.mk M hM).symm u)) := by
      simp
    refine ⟨xs.map (fun u => M ((Warp.mk M hM).symm u)), ?_, ?_, ?_, ?_, ?_, ?_, ?_⟩
    · simp [e1]
    · rw [h0, List.getLast?_map, e2]; rfl
    · rw [List.map_map]; exact e3
    · intro hs
      have : (Warp.dual M hM).minresRes res = (Warp.dual M hM).minresRes res := rfl
      change res.iterates.map (Warp.dual M hM).P = _
      rw [e4 hs, h0, List.map_map, List.map_map]; rfl
    · intro hp
      exact e5 (fun h => hp (by rw [h]; rfl))
    · rw [h0, List.isChain_map]; exact e6
    · intro i y hy
      rw [h0, List.getElem?_map] at hy
      cases hy' : (0 :: xs)[i]? with
      | none => rw [hy'] at hy; cases hy
      | some u =>
        rw [hy'] at hy
        simp only [Option.map_some, Option.some.injEq] at hy
        subst hy
        obtain ⟨f1, f2⟩ := e7 i u hy'
        rw [hBd, ← krylov_warp (h := hM) q.B q.b i]
        refine ⟨⟨u, f1, rfl⟩, ?_⟩
        rintro z ⟨v, hv, rfl⟩
        exact f2 v hv

/-- C34 and C71 with a preconditioner: `b` is confined to `d` dimensions under `(A - shift I) M` -/
theorem minres_precon_confined [FiniteDimensional ℝ E] (q : MinresProblem E) (hA : ∀ u v, ⟪q.A u, v⟫ = ⟪u, q.A v⟫)
    (M : E →ₗ[ℝ] E) (hM : Spd M) (ε : ℝ) (hε : 0 < ε)
    (hlow : ∀ z, ε * pnorm M z ≤ pnorm M (q.A (M z) - q.shift • M z)) (hw : q.window ≠ 0) (hrt : 0 ≤ q.rtol)
    (hb : q.b ≠ 0) {n d : ℕ} (hd : Confined (q.A ∘ₗ M - q.shift • M) q.b d) (hlim : d ≤ q.itnlim.getD (5 * n))
    (self : MinresObj Fl (Vec E)) :
    ∃ res products, minresSolve (Vec.op q.A) (.fin ε) n self (.fin q.b) { q.kw with precon := some (Vec.op M) } =
        .ok (res, products) ∧
      (res.istop = -1 ∨ res.converged = true ∧ products.length ≤ d) := by
  have hfin : FiniteDimensional ℝ (Warp M hM) := Module.Finite.equiv (Warp.mk M hM)
  obtain ⟨res, products, h1, h2⟩ := minres_confined (q.warp M hM) (q.warp_symm M hM hA) ε hε (q.warp_low M hM hlow) hw hrt
    ((LinearEquiv.map_ne_zero_iff _).2 hb) (n := n) (hd.map (Warp.mk M hM) fun z => by
      simp [MinresProblem.warp, MinresProblem.B]) hlim ⟨self.residHistory⟩
  have hsol := q.warp_solve M hM (.fin ε) n self
  rw [h1] at hsol
  exact ⟨_, _, hsol, h2.imp id fun h => ⟨h.1, by rw [List.length_map]; exact h.2⟩⟩

/-- **C34 (partial)** for preconditioned MINRES in exact arithmetic: on a symmetric operator on a space of dimension `n`, with a
symmetric positive definite preconditioner, when no singular value of `(A - shift I) M` is below the machine precision, with
`rtol ≥ 0` and at least `n` iterations allowed (the default is `5n`), MINRES either ends with `istop = -1` or converges within
`n` iterations. -/
theorem C34_preconditioned_partial [FiniteDimensional ℝ E] (q : MinresProblem E) (hA : ∀ u v, ⟪q.A u, v⟫ = ⟪u, q.A v⟫)
    (M : E →ₗ[ℝ] E) (hM : Spd M) (ε : ℝ) (hε : 0 < ε)
    (hlow : ∀ z, ε * pnorm M z ≤ pnorm M (q.A (M z) - q.shift • M z)) (hw : q.window ≠ 0) (hrt : 0 ≤ q.rtol)
    (hb : q.b ≠ 0) (hlim : ∀ m, q.itnlim = some m → Module.finrank ℝ E ≤ m) (self : MinresObj Fl (Vec E)) :
    ∃ res products, minresSolve (Vec.op q.A) (.fin ε) (Module.finrank ℝ E) self (.fin q.b)
        { q.kw with precon := some (Vec.op M) } = .ok (res, products) ∧
      (res.istop = -1 ∨ res.converged = true ∧ products.length ≤ Module.finrank ℝ E) := by
  have hfin : FiniteDimensional ℝ (Warp M hM) := Module.Finite.equiv (Warp.mk M hM)
  have hrank : Module.finrank ℝ (Warp M hM) = Module.finrank ℝ E := (Warp.mk M hM).symm.finrank_eq
  obtain ⟨res, products, h1, h2⟩ := C34_converges_partial (q.warp M hM) (q.warp_symm M hM hA) ε hε (q.warp_low M hM hlow) hw hrt
    ((LinearEquiv.map_ne_zero_iff _).2 hb) (by rw [hrank]; exact hlim) ⟨self.residHistory⟩
  have hsol := q.warp_solve M hM (.fin ε) (Module.finrank ℝ E) self
  rw [← hrank, h1] at hsol
  rw [hrank] at hsol h2
  refine ⟨_, _, hsol, ?_⟩
  rcases h2 with h2 | h2
  · exact Or.inl h2
  · exact Or.inr ⟨h2.1, by rw [List.length_map]; exact h2.2⟩

/-- **C34** for preconditioned MINRES: every solve that allows `n` iterations converges, and needs at most `n`, if the
right-hand side is not close to an eigenvector of `(A - shift I) M`. -/
theorem C34_preconditioned_generic [FiniteDimensional ℝ E] (q : MinresProblem E) (hA : ∀ u v, ⟪q.A u, v⟫ = ⟪u, q.A v⟫)
    (M : E →ₗ[ℝ] E) (hM : Spd M) (ε : ℝ) (hε : 0 < ε)
    (hlow : ∀ z, ε * pnorm M z ≤ pnorm M (q.A (M z) - q.shift • M z)) (hw : q.window ≠ 0) (hrt : 0 ≤ q.rtol)
    (hb : q.b ≠ 0) (hlim : ∀ m, q.itnlim = some m → Module.finrank ℝ E ≤ m)
    (hgen : ∀ l : ℝ, 10 * ε * (pnorm M q.b * pnorm M q.b) < pnorm M ((q.A (M q.b) - q.shift • M q.b) - l • q.b))
    (self : MinresObj Fl (Vec E)) :
    ∃ res products, minresSolve (Vec.op q.A) (.fin ε) (Module.finrank ℝ E) self (.fin q.b)
        { q.kw with precon := some (Vec.op M) } = .ok (res, products) ∧
      res.converged = true ∧ products.length ≤ Module.finrank ℝ E := by
  have hfin : FiniteDimensional ℝ (Warp M hM) := Module.Finite.equiv (Warp.mk M hM)
  have hrank : Module.finrank ℝ (Warp M hM) = Module.finrank ℝ E := (Warp.mk M hM).symm.finrank_eq
  obtain ⟨res, products, h1, h2⟩ := C34_converges_generic (q.warp M hM) (q.warp_symm M hM hA) ε hε (q.warp_low M hM hlow) hw hrt
    ((LinearEquiv.map_ne_zero_iff _).2 hb) (by rw [hrank]; exact hlim) (by
      intro l
      have e1 : ‖(q.warp M hM).b‖ = pnorm M q.b := Warp.norm_eq _
      have e2 : ((q.warp M hM).A (q.warp M hM).b - (q.warp M hM).shift • (q.warp M hM).b) - l • (q.warp M hM).b =
          Warp.mk M hM ((q.A (M q.b) - q.shift • M q.b) - l • q.b) := by
        simp [MinresProblem.warp, MinresProblem.B]
      rw [e1, e2, Warp.norm_eq]
      exact hgen l) ⟨self.residHistory⟩
  have hsol := q.warp_solve M hM (.fin ε) (Module.finrank ℝ E) self
  rw [← hrank, h1] at hsol
  rw [hrank] at hsol h2
  exact ⟨_, _, hsol, h2.1, by rw [List.length_map]; exact h2.2⟩

/-! ## Instances -/

/-- the preconditioner `diag(1, 4)` -/
noncomputable def diagOneFour : EuclideanSpace ℝ (Fin 2) →ₗ[ℝ] EuclideanSpace ℝ (Fin 2) where
  toFun x := !₂[x 0, 4 * x 1]
  map_add' x y := by ext i; fin_cases i <;> simp; ring
  map_smul' c x := by ext i; fin_cases i <;> simp; ring

theorem diagOneFour_spd : Spd diagOneFour where
  symm u v := by simp [diagOneFour, PiLp.inner_apply, Fin.sum_univ_two]; ring
  pos u hu := by
    have h : u 0 ≠ 0 ∨ u 1 ≠ 0 := by
      by_contra h
      push Not at h
      exact hu (by ext i; fin_cases i <;> simp [h.1, h.2])
    simp only [diagOneFour, PiLp.inner_apply, Fin.sum_univ_two, LinearMap.coe_mk, AddHom.coe_mk]
    simp
    rcases h with h | h <;> have := mul_self_pos.2 h <;> nlinarith [mul_self_nonneg (u 0), mul_self_nonneg (u 1)]

theorem pnorm_diagOneFour (u : EuclideanSpace ℝ (Fin 2)) : pnorm diagOneFour u = Real.sqrt (u 0 ^ 2 + 4 * u 1 ^ 2) := by
  unfold pnorm
  congr 1
  simp [diagOneFour, PiLp.inner_apply, Fin.sum_univ_two]; ring

theorem swapPrecon_low (z : EuclideanSpace ℝ (Fin 2)) : (1 / 100 : ℝ) * pnorm diagOneFour z ≤
    pnorm diagOneFour (swapProblem.A (diagOneFour z) - swapProblem.shift • diagOneFour z) := by
  have h1 : swapProblem.A (diagOneFour z) - swapProblem.shift • diagOneFour z = !₂[4 * z 1, z 0] := by
    ext i; fin_cases i <;> simp [swapProblem, swapOp, diagOneFour]
  rw [h1, pnorm_diagOneFour, pnorm_diagOneFour]
  have h2 : Real.sqrt (z 0 ^ 2 + 4 * z 1 ^ 2) ≤ Real.sqrt ((4 * z 1) ^ 2 + 4 * z 0 ^ 2) :=
    Real.sqrt_le_sqrt (by nlinarith [sq_nonneg (z 0), sq_nonneg (z 1)])
  have := Real.sqrt_nonneg (z 0 ^ 2 + 4 * z 1 ^ 2)
  simpa using le_trans (by linarith) h2

theorem swapPrecon_generic (l : ℝ) : 10 * (1 / 100 : ℝ) * (pnorm diagOneFour swapProblem.b * pnorm diagOneFour swapProblem.b) <
    pnorm diagOneFour ((swapProblem.A (diagOneFour swapProblem.b) - swapProblem.shift • diagOneFour swapProblem.b) -
      l • swapProblem.b) := by
  have h1 : (swapProblem.A (diagOneFour swapProblem.b) - swapProblem.shift • diagOneFour swapProblem.b) - l • swapProblem.b =
      !₂[-l, 1] := by
    ext i; fin_cases i <;> simp [swapProblem, swapOp, diagOneFour]
  have h2 : pnorm diagOneFour swapProblem.b = 1 := by rw [pnorm_diagOneFour]; simp [swapProblem]
  rw [h1, h2, pnorm_diagOneFour]
  apply Real.lt_sqrt_of_sq_lt
  simp
  nlinarith [sq_nonneg l]

/-- the hypotheses of the two theorems on convergence are met -/
example (self : MinresObj Fl (Vec (EuclideanSpace ℝ (Fin 2)))) :
    ∃ res products, minresSolve (Vec.op swapOp) (.fin (1 / 100)) 2 self (.fin !₂[1, 0])
      { swapProblem.kw with precon := some (Vec.op diagOneFour) } = .ok (res, products) ∧
      res.converged = true ∧ products.length ≤ 2 := by
  have := C34_preconditioned_generic swapProblem swapOp_symm diagOneFour diagOneFour_spd (1 / 100) (by norm_num) swapPrecon_low
    (by decide) (by change (0 : ℝ) ≤ 1 / 1000; norm_num) swapProblem_b (fun m h => nomatch h) swapPrecon_generic self
  simpa [show swapProblem.A = swapOp from rfl, show swapProblem.b = !₂[1, 0] from rfl] using this

/-- the hypotheses of `C35_preconditioned_partial` are met by the same system -/
example (self : MinresObj Fl (Vec (EuclideanSpace ℝ (Fin 2)))) :=
  C35_preconditioned_partial swapProblem swapOp_symm diagOneFour diagOneFour_spd (1 / 100) (by norm_num) swapPrecon_low
    (by decide) 2 self

end Verif.Solver
