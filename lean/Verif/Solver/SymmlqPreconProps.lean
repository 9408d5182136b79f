import Verif.Solver.SymmlqPrecon

/-!
# Properties of SYMMLQ with a preconditioner in exact arithmetic: C56, C57

`pnorm M r` is `sqrt(r'Mr)`.  The code returns `x = M y`; `pnorm M y = sqrt(x'y)` is the norm of `x` in the inner product of the
inverse of the preconditioner.
-/

namespace Verif.Solver
open Scalar Vect
open scoped RealInnerProductSpace
open MinresMath (krylov)

variable {E : Type} [NormedAddCommGroup E] [InnerProductSpace ℝ E]

/-- `M y` is the Galerkin point of the preconditioned Krylov space `M span(b, BM b, ..., (BM)^(k-1) b)`: the residual is orthogonal
to the space -/
def PreconGalerkinPoint (B M : E →ₗ[ℝ] E) (b : E) (k : ℕ) (y : E) : Prop :=
  y ∈ krylov (B ∘ₗ M) b k ∧ ∀ z ∈ krylov (B ∘ₗ M) b k, ⟪b - B (M y), M z⟫ = 0

/-- `M y` is the point of `M (BM) span(b, ..., (BM)^(k-2) b)` closest to the solution in the inner product of the inverse of `M` -/
def PreconLeastErrorPoint (B M : E →ₗ[ℝ] E) (b : E) (k : ℕ) (y : E) : Prop :=
  y ∈ (krylov (B ∘ₗ M) b (k-1)).map (B ∘ₗ M) ∧
    ∀ ys, B (M ys) = b → ∀ z ∈ (krylov (B ∘ₗ M) b (k-1)).map (B ∘ₗ M), pnorm M (ys - y) ≤ pnorm M (ys - z)

theorem SymmlqProblem.warp_krylov (q : SymmlqProblem E) (M : E →ₗ[ℝ] E) (h : Spd M) (u : E) (k : ℕ) :
    Warp.mk M h u ∈ krylov (q.warp M h).B (q.warp M h).b k ↔ u ∈ krylov (q.B ∘ₗ M) q.b k := by
  rw [q.warp_B]
  exact krylov_mk (M := M) (h := h) (C := (q.warp M h).A) (B := q.B ∘ₗ M) (fun _ => rfl) q.b u k

theorem SymmlqProblem.warp_krylov_map (q : SymmlqProblem E) (M : E →ₗ[ℝ] E) (h : Spd M) (u : E) (k : ℕ) :
    Warp.mk M h u ∈ (krylov (q.warp M h).B (q.warp M h).b k).map (q.warp M h).B ↔
      u ∈ (krylov (q.B ∘ₗ M) q.b k).map (q.B ∘ₗ M) := by
  constructor
  · rintro ⟨w, hw, hwu⟩
    obtain ⟨w, rfl⟩ := (Warp.mk M h).surjective w
    exact ⟨w, (q.warp_krylov M h w k).1 hw, by rw [q.warp_B] at hwu; exact (Warp.mk M h).injective hwu⟩
  · rintro ⟨w, hw, rfl⟩
    exact ⟨Warp.mk M h w, (q.warp_krylov M h w k).2 hw, by rw [q.warp_B]; rfl⟩

/-- C56, C57 and C71: `b` is confined to `d` dimensions under `BM` -/
theorem symmlq_precon_confined [FiniteDimensional ℝ E] (q : SymmlqProblem E) (n : ℕ) (hn : n ≠ 0)
    (hA : ∀ u v, ⟪q.A u, v⟫ = ⟪u, q.A v⟫) (M : E →ₗ[ℝ] E) (hM : Spd M) (pre : Option (Vec E → Vec E)) (hp : PreconIs M pre)
    (hb : q.b ≠ 0) (hrt : 0 ≤ q.rtol) (he : 0 < q.eps) (he3 : 0 ≤ q.eps3)
    {d : ℕ} (hd : Confined (q.B ∘ₗ M) q.b d) (hlim : d < q.matvecMax.getD (2 * n + 2)) :
    ∃ res products, symmlqSolve (q.objP pre) n (.fin q.b) q.kw = .ok (res, products) ∧ ∃ (y : E) (a : ℝ) (k : ℕ),
      res.x = .fin (M y) ∧ res.residNorm = .fin ‖q.b - q.B (M y)‖ ∧ res.xNorm = .fin ‖M y‖ ∧ res.anorm = .fin a ∧
      res.nMatvec = k + 1 ∧ 0 < k ∧ k ≤ d ∧
      0 ≤ a ∧ (∀ C, (∀ z, pnorm M (q.B (M z)) ≤ C * pnorm M z) → a ^ 2 ≤ k * C ^ 2) ∧
      ((∃ u ∈ krylov (q.B ∘ₗ M) q.b k, u ≠ 0 ∧ ∀ z ∈ krylov (q.B ∘ₗ M) q.b k, ⟪q.B (M u), M z⟫ = 0) ∨
       (PreconGalerkinPoint q.B M q.b k y ∨ PreconLeastErrorPoint q.B M q.b k y) ∧
       (pnorm M (q.b - q.B (M y)) ≤ q.rtol * a * pnorm M y ∨ pnorm M (q.b - q.B (M y)) ≤ q.eps * a * pnorm M y ∨
        pnorm M q.b ≤ q.eps * a * pnorm M y ∨ (∃ c, res.acond = .fin c ∧ 1 / 10 / q.eps ≤ c) ∨
        pnorm M (q.b - q.B (M y)) * |⟪M q.b, q.B (M q.b)⟫| ≤ q.eps * pnorm M q.b ^ 3)) := by
  have hfin : FiniteDimensional ℝ (Warp M hM) := Module.Finite.equiv (Warp.mk M hM)
  obtain ⟨res, products, h, y, a, k, e1, e2, e3, e4, e5, e6, e7, e8, e9, e10⟩ :=
    symmlq_confined (q.warp M hM) n hn (q.warp_symm M hM hA) ((LinearEquiv.map_ne_zero_iff _).2 hb) hrt he he3
      (hd.map (Warp.mk M hM) fun z => by rw [q.warp_B]; rfl) hlim
  obtain ⟨y, rfl⟩ := (Warp.mk M hM).surjective y
  have hBy : ∀ z, (q.warp M hM).B (Warp.mk M hM z) = Warp.mk M hM (q.B (M z)) := fun z => by rw [q.warp_B]; rfl
  have hbm : (q.warp M hM).b = Warp.mk M hM q.b := rfl
  have hry : (q.warp M hM).b - (q.warp M hM).B (Warp.mk M hM y) = Warp.mk M hM (q.b - q.B (M y)) := by
    rw [hBy, map_sub]; rfl
  refine ⟨_, _, symmlqSolve_precon q hA M hM hp he he3 hb n h, y, a, k, ?_, ?_, ?_, e4, e5, e6, e7, e8, ?_, ?_⟩
  · rw [e1]; rfl
  · rw [e1, Vec.op_fin, Vec.fin_sub, ← q.warp_B, hry]
    exact Vec.fin_norm _
  · rw [e1]
    exact Vec.fin_norm _
  · intro C hC
    refine e9 C fun z => ?_
    obtain ⟨z, rfl⟩ := (Warp.mk M hM).surjective z
    rw [hBy, Warp.norm_eq, Warp.norm_eq]
    exact hC z
  · rw [hry, Warp.norm_eq, Warp.norm_eq, hbm, Warp.norm_eq, hBy] at e10
    rcases e10 with ⟨u, hu, hu0, hz⟩ | ⟨hpt, hstop⟩
    · left
      obtain ⟨u, rfl⟩ := (Warp.mk M hM).surjective u
      refine ⟨u, (q.warp_krylov M hM u k).1 hu, fun h0 => hu0 (by rw [h0, map_zero]), fun z hz' => ?_⟩
      have := hz _ ((q.warp_krylov M hM z k).2 hz')
      rw [hBy] at this
      exact this
    · right
      refine ⟨?_, ?_⟩
      · rcases hpt with ⟨h1, h2⟩ | ⟨h1, h2⟩
        · left
          refine ⟨(q.warp_krylov M hM y k).1 h1, fun z hz => ?_⟩
          have := h2 _ ((q.warp_krylov M hM z k).2 hz)
          rw [← hbm, hry] at this
          exact this
        · right
          refine ⟨(q.warp_krylov_map M hM y _).1 h1, fun ys hys z hz => ?_⟩
          have := h2 (Warp.mk M hM ys) (by rw [hBy, hys]) _ ((q.warp_krylov_map M hM z _).2 hz)
          rw [← map_sub, ← map_sub, Warp.norm_eq, Warp.norm_eq] at this
          exact this
      · have hin : (⟪Warp.mk M hM q.b, Warp.mk M hM (q.B (M q.b))⟫ : ℝ) = ⟪M q.b, q.B (M q.b)⟫ := by
          rw [Warp.inner_mk, hM.symm]
        rw [hin] at hstop
        exact hstop

/-- **C56, C57 (partial).** In exact arithmetic, let `A` be symmetric, `M` symmetric and positive definite, `b` nonzero, the budget
larger than the dimension, and let the client have given the solver object the missing attribute `matvec`.  Then `solve` with the
preconditioner `M` returns after at most one product more than the dimension.  The returned vector is `x = M y` for a `y` in the
Krylov space of `BM` and `b`, `B = A - shift I`; `residNorm` and `xNorm` are the Euclidean norms of `b - Bx` and `x`.  Either
the compression of `B` to the preconditioned Krylov space is singular, or `x` is the Galerkin point or the least-error point, and one of the
stopping tests holds, in the norms of the preconditioner: the residual norm is at most `rtol anorm ‖x‖` or `eps anorm ‖x‖`;
`‖b‖` is at most `eps anorm ‖x‖`; `acond` is at least `0.1/eps`; `b` is nearly an eigenvector of `BM` and the residual norm at most
`eps ‖b‖³ / |b'MBMb|`.
Missing: the case of a smaller budget, in which the code violates the property (`C56_budget_wrong`). -/
theorem C56_preconditioned_partial [FiniteDimensional ℝ E] (q : SymmlqProblem E) (n : ℕ) (hn : n ≠ 0)
    (hA : ∀ u v, ⟪q.A u, v⟫ = ⟪u, q.A v⟫) (M : E →ₗ[ℝ] E) (hM : Spd M) (pre : Option (Vec E → Vec E)) (hp : PreconIs M pre)
    (hb : q.b ≠ 0) (hrt : 0 ≤ q.rtol) (he : 0 < q.eps) (he3 : 0 ≤ q.eps3)
    (hlim : Module.finrank ℝ E < q.matvecMax.getD (2 * n + 2)) :
    ∃ res products, symmlqSolve (q.objP pre) n (.fin q.b) q.kw = .ok (res, products) ∧ ∃ (y : E) (a : ℝ) (k : ℕ),
      res.x = .fin (M y) ∧ res.residNorm = .fin ‖q.b - q.B (M y)‖ ∧ res.xNorm = .fin ‖M y‖ ∧ res.anorm = .fin a ∧
      res.nMatvec = k + 1 ∧ 0 < k ∧ k ≤ Module.finrank ℝ E ∧
      0 ≤ a ∧ (∀ C, (∀ z, pnorm M (q.B (M z)) ≤ C * pnorm M z) → a ^ 2 ≤ k * C ^ 2) ∧
      ((∃ u ∈ krylov (q.B ∘ₗ M) q.b k, u ≠ 0 ∧ ∀ z ∈ krylov (q.B ∘ₗ M) q.b k, ⟪q.B (M u), M z⟫ = 0) ∨
       (PreconGalerkinPoint q.B M q.b k y ∨ PreconLeastErrorPoint q.B M q.b k y) ∧
       (pnorm M (q.b - q.B (M y)) ≤ q.rtol * a * pnorm M y ∨ pnorm M (q.b - q.B (M y)) ≤ q.eps * a * pnorm M y ∨
        pnorm M q.b ≤ q.eps * a * pnorm M y ∨ (∃ c, res.acond = .fin c ∧ 1 / 10 / q.eps ≤ c) ∨
        pnorm M (q.b - q.B (M y)) * |⟪M q.b, q.B (M q.b)⟫| ≤ q.eps * pnorm M q.b ^ 3)) := by
  exact symmlq_precon_confined q n hn hA M hM pre hp hb hrt he he3 (confined_of_finrank le_rfl) hlim

/-- **C56, C57 (partial).** The same for a positive or negative definite `B = A - shift I`, where the compressions are never
singular: the returned vector satisfies one of the stopping tests and is the Galerkin or the least-error point. -/
theorem C56_preconditioned_definite_partial [FiniteDimensional ℝ E] (q : SymmlqProblem E) (n : ℕ) (hn : n ≠ 0)
    (hA : ∀ u v, ⟪q.A u, v⟫ = ⟪u, q.A v⟫) (hdef : ∀ u, u ≠ 0 → ⟪q.B u, u⟫ ≠ 0) (M : E →ₗ[ℝ] E) (hM : Spd M)
    (pre : Option (Vec E → Vec E)) (hp : PreconIs M pre) (hb : q.b ≠ 0) (hrt : 0 ≤ q.rtol) (he : 0 < q.eps) (he3 : 0 ≤ q.eps3)
    (hlim : Module.finrank ℝ E < q.matvecMax.getD (2 * n + 2)) :
    ∃ res products, symmlqSolve (q.objP pre) n (.fin q.b) q.kw = .ok (res, products) ∧ ∃ (y : E) (a : ℝ) (k : ℕ),
      res.x = .fin (M y) ∧ res.residNorm = .fin ‖q.b - q.B (M y)‖ ∧ res.xNorm = .fin ‖M y‖ ∧ res.anorm = .fin a ∧
      res.nMatvec = k + 1 ∧ k ≤ Module.finrank ℝ E ∧
      (∀ C, (∀ z, pnorm M (q.B (M z)) ≤ C * pnorm M z) → a ^ 2 ≤ k * C ^ 2) ∧
      (PreconGalerkinPoint q.B M q.b k y ∨ PreconLeastErrorPoint q.B M q.b k y) ∧
      (pnorm M (q.b - q.B (M y)) ≤ q.rtol * a * pnorm M y ∨ pnorm M (q.b - q.B (M y)) ≤ q.eps * a * pnorm M y ∨
       pnorm M q.b ≤ q.eps * a * pnorm M y ∨ (∃ c, res.acond = .fin c ∧ 1 / 10 / q.eps ≤ c) ∨
       pnorm M (q.b - q.B (M y)) * |⟪M q.b, q.B (M q.b)⟫| ≤ q.eps * pnorm M q.b ^ 3) := by
  obtain ⟨res, products, h, y, a, k, e1, e2, e3, e4, e5, e6, e7, e8, e9, e10⟩ :=
    C56_preconditioned_partial q n hn hA M hM pre hp hb hrt he he3 hlim
  refine ⟨res, products, h, y, a, k, e1, e2, e3, e4, e5, e7, e9, ?_⟩
  rcases e10 with ⟨u, hu, hu0, hz⟩ | h
  · refine absurd (hz u hu) (hdef _ fun h0 => ?_)
    have := hM.pos u hu0
    rw [h0, inner_zero_right] at this
    exact lt_irrefl _ this
  · exact h

theorem planeTwoOne_spd : Spd planeTwoOne :=
  ⟨planeTwoOne_symm, fun u hu => by rw [← planeTwoOne_symm]; exact planeTwoOne_pos u hu⟩

/-- the hypotheses of `C56_preconditioned_partial` and `C56_preconditioned_definite_partial` are met: the matrix `[[2, 1], [1, 2]]`
as operator and as preconditioner -/
example : ∃ res products, symmlqSolve ((planeProblem (1/1000) (1/10) none).objP (some (Vec.op planeTwoOne))) 2 (.fin 1)
    (planeProblem (1/1000) (1/10) none).kw = .ok (res, products) ∧ res.nMatvec ≤ 3 := by
  obtain ⟨res, products, h, y, a, k, -, -, -, -, h1, h2, -⟩ := C56_preconditioned_definite_partial
    (planeProblem (1/1000) (1/10) none) 2 (by decide) planeTwoOne_symm
    (fun u hu => by rw [planeProblem_B]; exact (planeTwoOne_pos u hu).ne') planeTwoOne planeTwoOne_spd _ PreconIs.some one_ne_zero
    (by norm_num [planeProblem]) (by norm_num [planeProblem]) (le_refl _)
    (by rw [Complex.finrank_real_complex]; decide)
  rw [Complex.finrank_real_complex] at h2
  exact ⟨res, products, h, by omega⟩

end Verif.Solver
