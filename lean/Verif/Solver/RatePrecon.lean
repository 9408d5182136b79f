import Verif.Solver.RateProps
import Verif.Solver.MinresPreconProps
import Verif.Solver.LSMRPreconProps

/-!
# Rates of convergence with preconditioners (C72)

The preconditioners `M`, `N` are symmetric positive definite. A preconditioned method is the method without preconditioner in other
inner products (`Warp`), so that the condition number which matters is that of the preconditioned operator, in these inner products.
-/

namespace Verif.Solver
open Scalar Vect
open scoped RealInnerProductSpace
open MinresMath (krylov)

variable {E F : Type} [NormedAddCommGroup E] [InnerProductSpace ℝ E] [NormedAddCommGroup F] [InnerProductSpace ℝ F]

/-- **C72 (partial), MINRES with a preconditioner.** In exact arithmetic, with a symmetric positive definite preconditioner `M`, on a
symmetric operator, if the absolute values of the eigenvalues of `(A - shift I) M` lie between `lo > 0` and `hi`, where `lo` is at
least the machine precision `ε`: unless the solve breaks down with `istop = -1`, the `M`-norm of the residual of the iterate `2 k`
is at most `2 ((κ - 1) / (κ + 1))^k` times that of the right-hand side, where `κ = hi / lo`; and if `A - shift I` is positive
semidefinite, that of the iterate `k` is at most `2 ((sqrt(κ) - 1) / (sqrt(κ) + 1))^k` times it. The recorded residual norms are
these. Missing, because the code violates it: smaller eigenvalues (`C35_clipped`). -/
theorem C72_minres_preconditioned_partial [FiniteDimensional ℝ E] (q : MinresProblem E) (hA : ∀ u v, ⟪q.A u, v⟫ = ⟪u, q.A v⟫)
    (M : E →ₗ[ℝ] E) (hM : Spd M) (ε : ℝ) (hε : 0 < ε) {lo hi : ℝ} (hlo : ε ≤ lo) (h : lo ≤ hi)
    (hs : ∀ z, lo * pnorm M z ≤ pnorm M (q.A (M z) - q.shift • M z) ∧ pnorm M (q.A (M z) - q.shift • M z) ≤ hi * pnorm M z)
    (hw : q.window ≠ 0) (n : ℕ) (self : MinresObj Fl (Vec E)) :
    ∃ res products, minresSolve (Vec.op q.A) (.fin ε) n self (.fin q.b) { q.kw with precon := some (Vec.op M) } =
        .ok (res, products) ∧
      (res.istop ≠ -1 → res.x ≠ .nan) ∧
      ∀ x, res.x = .fin x → ∃ xs : List E, xs.length = products.length ∧ (0 :: xs).getLast? = some x ∧
        res.residHistory = self.residHistory ++ xs.map (fun x => Fl.fin (pnorm M (q.b - (q.A x - q.shift • x)))) ∧
        ∀ (i : ℕ) (y : E), (0 :: xs)[i]? = some y →
          pnorm M (q.b - (q.A y - q.shift • y)) ≤ 2 * ((hi - lo) / (hi + lo)) ^ (i / 2) * pnorm M q.b ∧
          ((∀ z, 0 ≤ ⟪z, q.A z - q.shift • z⟫) →
            pnorm M (q.b - (q.A y - q.shift • y)) ≤ 2 * rate lo hi ^ i * pnorm M q.b) := by
  have hfin : FiniteDimensional ℝ (Warp M hM) := Module.Finite.equiv (Warp.mk M hM)
  have hB : ∀ u : E, (q.warp M hM).A (Warp.mk M hM u) - (q.warp M hM).shift • Warp.mk M hM u =
      Warp.mk M hM (q.A (M u) - q.shift • M u) := by
    intro u
    simp [MinresProblem.warp, MinresProblem.B]
  obtain ⟨res, products, h1, h2, h3⟩ := C72_minres_partial (q.warp M hM) (q.warp_symm M hM hA) ε hε (lo := lo) (hi := hi) hlo h
    (fun z => by
      obtain ⟨u, rfl⟩ := (Warp.mk M hM).surjective z
      rw [hB, Warp.norm_eq, Warp.norm_eq]
      exact hs u) hw n ⟨self.residHistory⟩
  have hsol := q.warp_solve M hM (.fin ε) n self
  rw [h1] at hsol
  have hres : ∀ u : E, ‖(q.warp M hM).b - ((q.warp M hM).A (Warp.mk M hM u) - (q.warp M hM).shift • Warp.mk M hM u)‖ =
      pnorm M (q.b - (q.A (M u) - q.shift • M u)) := by
    intro u
    rw [hB, ← Warp.norm_eq (h := hM), map_sub]; rfl
  have hbb : ‖(q.warp M hM).b‖ = pnorm M q.b := Warp.norm_eq _
  refine ⟨_, _, hsol, ?_, ?_⟩
  · intro hi hn
    refine h2 hi ?_
    have hn : (Warp.dual M hM).P res.x = .nan := hn
    cases hx : res.x with
    | nan => rfl
    | fin x => rw [hx] at hn; cases hn
  · intro x hx
    have hx : (Warp.dual M hM).P res.x = .fin x := hx
    obtain ⟨x', hx', rfl⟩ := Vec.op_eq_fin hx
    obtain ⟨us, e1, e2, e3, e4⟩ := h3 x' hx'
    obtain ⟨xs, rfl⟩ := list_mk us
    have hz : 0 :: xs.map (Warp.mk M hM) = (0 :: xs).map (Warp.mk M hM) := by simp
    have hz' : (0 : E) :: xs.map M = (0 :: xs).map M := by simp
    refine ⟨xs.map M, ?_, ?_, ?_, ?_⟩
    · rw [List.length_map] at e1 ⊢; rw [List.length_map]; exact e1
    · rw [hz, List.getLast?_map] at e2
      rw [hz', List.getLast?_map]
      cases hl : (0 :: xs).getLast? with
      | none => rw [hl] at e2; cases e2
      | some u =>
        rw [hl] at e2
        cases e2
        rfl
    · change res.residHistory = _
      rw [e3, List.map_map, List.map_map]
      congr 1
      refine List.map_congr_left fun u _ => ?_
      rw [Function.comp_apply, Function.comp_apply, hres]
    · intro i y hy
      rw [hz', List.getElem?_map] at hy
      cases hy' : (0 :: xs)[i]? with
      | none => rw [hy'] at hy; cases hy
      | some u =>
        rw [hy'] at hy
        cases hy
        obtain ⟨f1, f2⟩ := e4 i (Warp.mk M hM u) (by rw [hz, List.getElem?_map, hy']; rfl)
        rw [hres, hbb] at f1 f2
        refine ⟨f1, fun hpos => f2 fun z => ?_⟩
        obtain ⟨z, rfl⟩ := (Warp.mk M hM).surjective z
        rw [hB, Warp.inner_mk, ← hM.symm]
        exact hpos (M z)

/-- **C72, LSQR with preconditioners.** In exact arithmetic, with symmetric positive definite preconditioners `M`, `N` (or without one
or both of them), for every operator, right-hand side, damping and keywords: if the eigenvalues of `A'MAN + damp^2 I` lie between
`lo > 0` and `hi`, then there are vectors `ys`, starting with 0, such that the iterates are `x = N y` for the elements `y` of
`0 :: ys`, the last of which is returned; and at the `k`-th one the value `f(y) = (b - Ax)'M(b - Ax) + damp^2 y'Ny` exceeds its
minimum by at most `(2 ((sqrt(κ) - 1) / (sqrt(κ) + 1))^k)^2` times the excess of `f(0)`, where `κ = hi / lo`; and the squared
distance to the minimizer in the `N`-norm is at most `1 / lo` times that. -/
theorem C72_lsqr_preconditioned [FiniteDimensional ℝ E] (q : LsqrProblem E F) (hq : q.Valid) (N : E →ₗ[ℝ] E) (hN : Spd N)
    (M : F →ₗ[ℝ] F) (hM : Spd M) (preM : Option (Vec F → Vec F)) (preN : Option (Vec E → Vec E)) (hpM : PreconIs M preM)
    (hpN : PreconIs N preN) {lo hi : ℝ} (h0 : 0 < lo) (h : lo ≤ hi)
    (hs : ∀ z, lo * pnorm N z ^ 2 ≤ pnorm M (q.A (N z)) ^ 2 + q.damp ^ 2 * pnorm N z ^ 2 ∧
      pnorm M (q.A (N z)) ^ 2 + q.damp ^ 2 * pnorm N z ^ 2 ≤ hi * pnorm N z ^ 2) :
    let f : E → ℝ := fun y => pnorm M (q.b - q.A (N y)) ^ 2 + q.damp ^ 2 * pnorm N y ^ 2
    ∃ res s, ∃ ys : List E, lsqrSolve (Vec.op q.A) (Vec.op q.B) q.n (.fin q.b) { q.kw with M := preM, N := preN } = .ok (res, s) ∧
      res.itn = ys.length ∧ res.x = (0 :: ys).getLast?.elim .nan (fun y => Vec.fin (N y)) ∧
      (q.storeIterates = true → res.iterates = (0 :: ys).map fun y => Vec.fin (N y)) ∧
      ∃ sol : E, (∀ y, f sol ≤ f y) ∧ ∀ (k : ℕ) (y : E), (0 :: ys)[k]? = some y →
        f y - f sol ≤ (2 * rate lo hi ^ k) ^ 2 * (pnorm M q.b ^ 2 - f sol) ∧
        lo * pnorm N (y - sol) ^ 2 ≤ (2 * rate lo hi ^ k) ^ 2 * (pnorm M q.b ^ 2 - f sol) := by
  intro f
  have hfin : FiniteDimensional ℝ (Warp N hN) := Module.Finite.equiv (Warp.mk N hN)
  have hA : ∀ t, (q.warp N hN M hM).A (Warp.mk N hN t) = Warp.mk M hM (q.A (N t)) := fun _ => rfl
  have hbb : (q.warp N hN M hM).b = Warp.mk M hM q.b := rfl
  have hdd : (q.warp N hN M hM).damp = q.damp := rfl
  obtain ⟨res, t, us, hr, h1, h2, h3, sol, h4, h5⟩ := C72_lsqr (q.warp N hN M hM) (q.warp_valid hq N hN M hM) (lo := lo) (hi := hi)
    h0 h (fun z => by
      obtain ⟨z, rfl⟩ := (Warp.mk N hN).surjective z
      rw [hA, Warp.norm_eq, Warp.norm_eq]; exact hs z)
  obtain ⟨ys, rfl⟩ := list_mk us
  obtain ⟨res', s, hs', e1, -, e3, -, -, -, -, -, -, -, -, e12⟩ := q.warp_solve N hN M hM hpM hpN hr
  obtain ⟨sol, rfl⟩ := (Warp.mk N hN).surjective sol
  have hz : 0 :: ys.map (Warp.mk N hN) = (0 :: ys).map (Warp.mk N hN) := by simp
  have hf : ∀ y : E, ‖(q.warp N hN M hM).b - (q.warp N hN M hM).A (Warp.mk N hN y)‖ ^ 2 +
      (q.warp N hN M hM).damp ^ 2 * ‖Warp.mk N hN y‖ ^ 2 = f y := by
    intro y
    rw [hA, hbb, hdd, ← map_sub, Warp.norm_eq, Warp.norm_eq]
  refine ⟨res', s, ys, hs', by rw [e3, h1, List.length_map], ?_, ?_, sol, ?_, ?_⟩
  · rw [e1, h2, hz, List.getLast?_map]
    cases (0 :: ys).getLast? <;> rfl
  · intro hk
    rw [e12, h3 hk, hz, List.map_map, List.map_map]; rfl
  · intro y
    have := h4 (Warp.mk N hN y)
    simpa only [hf] using this
  · intro k y hy
    have := h5 k (Warp.mk N hN y) (by rw [hz, List.getElem?_map, hy]; rfl)
    simp only [hf] at this
    rwa [← map_sub, hbb, Warp.norm_eq, Warp.norm_eq] at this

/-- **C72, LSMR with preconditioners.** In exact arithmetic, with symmetric positive definite preconditioners `M`, `N` (or without one
or both of them), under the hypotheses of `C72_lsqr_preconditioned` on the operator: if `solve` returns (it may raise
`ZeroDivisionError`), then there are vectors `ys` such that the iterates are `x = N y` for the elements `y` of `0 :: ys`, the last of
which is returned, and the `N`-norm of `A'M(b - Ax) - damp^2 y` at the `k`-th one is at most
`2 ((sqrt(κ) - 1) / (sqrt(κ) + 1))^k` times that of `A'Mb`. -/
theorem C72_lsmr_preconditioned [FiniteDimensional ℝ E] (q : LsmrProblem E F) (hq : q.Valid) (selfX : Option (Vec E))
    (N : E →ₗ[ℝ] E) (hN : Spd N) (M : F →ₗ[ℝ] F) (hM : Spd M) (preM : Option (Vec F → Vec F)) (preN : Option (Vec E → Vec E))
    (hpM : PreconIs M preM) (hpN : PreconIs N preN) {lo hi : ℝ} (h0 : 0 < lo) (h : lo ≤ hi)
    (hs : ∀ z, lo * pnorm N z ^ 2 ≤ pnorm M (q.A (N z)) ^ 2 + q.damp ^ 2 * pnorm N z ^ 2 ∧
      pnorm M (q.A (N z)) ^ 2 + q.damp ^ 2 * pnorm N z ^ 2 ≤ hi * pnorm N z ^ 2) :
    lsmrSolve (Vec.op q.A) (Vec.op q.B) q.m q.n (.fin q.b) { q.kw with M := preM, N := preN } selfX = .error .zeroDivision ∨
    ∃ res s, ∃ ys : List E,
      lsmrSolve (Vec.op q.A) (Vec.op q.B) q.m q.n (.fin q.b) { q.kw with M := preM, N := preN } selfX = .ok (res, s) ∧
      res.itn = ys.length ∧ res.x = (0 :: ys).getLast?.elim .nan (fun y => Vec.fin (N y)) ∧
      (q.storeIterates = true → res.iterates = (0 :: ys).map fun y => Vec.fin (N y)) ∧
      ∀ (k : ℕ) (y : E), (0 :: ys)[k]? = some y →
        pnorm N (q.B (M (q.b - q.A (N y))) - (q.damp * q.damp) • y) ≤ 2 * rate lo hi ^ k * pnorm N (q.B (M q.b)) := by
  have hfin : FiniteDimensional ℝ (Warp N hN) := Module.Finite.equiv (Warp.mk N hN)
  rcases lsmrSolve_precon q hq selfX N hN M hM preM preN hpM hpN with
    ⟨res, s, ys, hr, h1, h2, h3, -, -, h4, -⟩ | ⟨he, -⟩
  swap
  · exact Or.inl he
  refine Or.inr ⟨res, s, ys, hr, h1, by rw [h2, List.getLast?_eq_some_getLast (by simp)]; rfl, h3, fun k y hy => ?_⟩
  have hmin : ∀ z ∈ krylov (q.B ∘ₗ M ∘ₗ q.A ∘ₗ N) (q.B (M q.b)) k,
      pnorm N (q.B (M (q.b - q.A (N y))) - (q.damp * q.damp) • y) ≤
        pnorm N (q.B (M (q.b - q.A (N z))) - (q.damp * q.damp) • z) := by
    cases k with
    | zero =>
      intro z hz
      have hz : z = 0 := by simpa [krylov] using hz
      have hy : y = 0 := by simpa using hy.symm
      rw [hz, hy]
    | succ i =>
      intro z hz
      rw [List.getElem?_cons_succ] at hy
      obtain ⟨hi', rfl⟩ := List.getElem?_eq_some_iff.1 hy
      exact (h4 i hi').2 z hz
  have hadj := (q.warp_valid hq N hN M hM).adj
  obtain ⟨z, hz, hz1, -⟩ := exists_krylov_point (normal_symm hadj (q.damp ^ 2)) h0 h (normal_spectrum hadj fun z => by
      obtain ⟨z, rfl⟩ := (Warp.mk N hN).surjective z
      have e1 : ‖(q.warp N hN M hM).A (Warp.mk N hN z)‖ = pnorm M (q.A (N z)) := Warp.norm_mk (h := hM) (q.A (N z))
      have e2 : ‖Warp.mk N hN z‖ = pnorm N z := Warp.norm_mk (h := hN) z
      rw [e1, e2]; exact hs z) ((q.warp N hN M hM).B (q.warp N hN M hM).b) k
  obtain ⟨z, rfl⟩ := (Warp.mk N hN).surjective z
  refine (hmin z ((q.warp_krylov N hN M hM z k).1 (krylov_shift _ _ _ _ hz))).trans ?_
  rw [← q.warp_normal N hN M hM z]
  have e : (q.warp N hN M hM).normal (Warp.mk N hN z) = ‖(q.warp N hN M hM).B (q.warp N hN M hM).b -
      ((q.warp N hN M hM).B ∘ₗ (q.warp N hN M hM).A + q.damp ^ 2 • LinearMap.id : Warp N hN →ₗ[ℝ] Warp N hN) (Warp.mk N hN z)‖ := by
    unfold LsmrProblem.normal
    congr 1
    rw [map_sub, LinearMap.add_apply, LinearMap.comp_apply, LinearMap.smul_apply, LinearMap.id_apply, sq]
    change _ - (q.damp * q.damp) • _ = _
    abel
  have e' : ‖(q.warp N hN M hM).B (q.warp N hN M hM).b‖ = pnorm N (q.B (M q.b)) := Warp.norm_mk (h := hN) (q.B (M q.b))
  rw [e, ← e']
  exact hz1

/-- **C72, CRAIG with preconditioners.** In exact arithmetic, with symmetric positive definite preconditioners `M`, `N` (or without
one or both of them), for every operator with `|A'Mz|_N ≤ σ |z|_M`, nonzero right-hand side and keywords with a positive iteration
limit: there are vectors `ts`, one for each iteration and one for the start, such that the returned `r` is `M` times the last one and
`x = N A' r`, and the error of `ts k`, in the norm `sqrt(|A'Mz|_N^2 + |z|_M^2)`, with respect to the solution of `(A N A' M + I) z = b`
is at most `2 ((sqrt(κ) - 1) / (sqrt(κ) + 1))^(k+1)` times the norm of that solution, where `κ = 1 + σ^2`. -/
theorem C72_craig_preconditioned [FiniteDimensional ℝ F] (q : CraigProblem E F) (hq : q.Valid) (hb : q.b ≠ 0) (hl : 1 ≤ q.limit)
    (N : E →ₗ[ℝ] E) (hN : Spd N) (M : F →ₗ[ℝ] F) (hM : Spd M)
    (preM : Option (Vec F → Vec F)) (preN : Option (Vec E → Vec E)) (hpM : PreconIs M preM) (hpN : PreconIs N preN) (σ : ℝ)
    (hσ : ∀ z, pnorm N (q.B (M z)) ^ 2 ≤ σ ^ 2 * pnorm M z ^ 2) :
    ∃ res s, craigSolve (Vec.op q.A) (Vec.op q.B) q.n (.fin q.b) { q.kw with M := preM, N := preN } = .ok (res, s) ∧
    ∃ ts : List F, ts.length = res.itn + 1 ∧
      res.r = .fin (M (ts.getLastD 0)) ∧ res.x = .fin (N (q.B (M (ts.getLastD 0)))) ∧
      ∃ sol : F, q.A (N (q.B (M sol))) + sol = q.b ∧ ∀ (k : ℕ) (t : F), ts[k]? = some t →
        pnorm N (q.B (M (t - sol))) ^ 2 + pnorm M (t - sol) ^ 2 ≤
          (2 * rate 1 (1 + σ ^ 2) ^ (k+1)) ^ 2 * (pnorm N (q.B (M sol)) ^ 2 + pnorm M sol ^ 2) := by
  have hfin : FiniteDimensional ℝ (Warp M hM) := Module.Finite.equiv (Warp.mk M hM)
  have hB : ∀ t, (q.warp N hN M hM).B (Warp.mk M hM t) = Warp.mk N hN (q.B (M t)) := fun _ => rfl
  obtain ⟨res, s, hs, rs, h1, h2, h3, sol, h4, h5⟩ := C72_craig (q.warp N hN M hM) (q.warp_valid hq N hN M hM)
    ((LinearEquiv.map_ne_zero_iff _).2 hb) hl σ (fun z => by
      obtain ⟨z, rfl⟩ := (Warp.mk M hM).surjective z
      rw [hB, Warp.norm_eq, Warp.norm_eq]; exact hσ z)
  obtain ⟨ts, rfl⟩ := list_mk rs
  obtain ⟨sol, rfl⟩ := (Warp.mk M hM).surjective sol
  refine ⟨craigResMap (Warp.dual M hM) (Warp.dual N hN) res, craigLoopMap (Warp.dual M hM) (Warp.dual N hN) s,
    (q.warp_solve N hN M hM hpM hpN).trans (by rw [hs]; rfl), ts, ?_, ?_, ?_, sol, ?_, ?_⟩
  · rw [List.length_map] at h1; exact h1
  · change (Warp.dual M hM).P res.r = _
    rw [h2, getLastD_mk]; rfl
  · change (Warp.dual N hN).P res.x = _
    rw [h3, getLastD_mk]; rfl
  · exact (Warp.mk M hM).injective h4
  · intro k t hk
    have := h5 k (Warp.mk M hM t) (by rw [List.getElem?_map, hk]; rfl)
    simpa only [hB, ← map_sub, Warp.norm_eq] using this

/-- **C72, CRAIG-MR with preconditioners.** In exact arithmetic, with symmetric positive definite preconditioners `M`, `N` (or without
one or both of them), for every operator with `|A'Mz|_N ≤ σ |z|_M`, right-hand side and keywords: there are vectors `ts`, one for
each iteration and one for the start, such that the returned `x` is `M` times the last one, and the `M`-norm of the residual of
`(A N A' M + I) t = b` at `ts k` is at most `2 ((sqrt(κ) - 1) / (sqrt(κ) + 1))^k` times that of `b`, where `κ = 1 + σ^2`. -/
theorem C72_craigmr_preconditioned [FiniteDimensional ℝ F] (q : CraigmrProblem E F) (hq : q.Valid)
    (N : E →ₗ[ℝ] E) (hN : Spd N) (M : F →ₗ[ℝ] F) (hM : Spd M)
    (preM : Option (Vec F → Vec F)) (preN : Option (Vec E → Vec E)) (hpM : PreconIs M preM) (hpN : PreconIs N preN) (σ : ℝ)
    (hσ : ∀ z, pnorm N (q.B (M z)) ^ 2 ≤ σ ^ 2 * pnorm M z ^ 2) :
    ∃ res s, craigmrSolve (Vec.op q.A) (Vec.op q.B) q.m q.n (.fin q.b) { q.kw with M := preM, N := preN } = .ok (res, s) ∧
    ∃ ts : List F, ts.length = res.itn + 1 ∧ res.x = .fin (M (ts.getLastD 0)) ∧
      (q.storeIterates = true → res.iterates = ts.map fun t => Vec.fin (M t)) ∧
      ∀ (k : ℕ) (t : F), ts[k]? = some t →
        pnorm M (q.b - (t + q.A (N (q.B (M t))))) ≤ 2 * rate 1 (1 + σ ^ 2) ^ k * pnorm M q.b := by
  have hfin : FiniteDimensional ℝ (Warp M hM) := Module.Finite.equiv (Warp.mk M hM)
  have hB : ∀ t, (q.warp N hN M hM).B (Warp.mk M hM t) = Warp.mk N hN (q.B (M t)) := fun _ => rfl
  have hA : ∀ t, (q.warp N hN M hM).A (Warp.mk N hN t) = Warp.mk M hM (q.A (N t)) := fun _ => rfl
  have hbb : (q.warp N hN M hM).b = Warp.mk M hM q.b := rfl
  obtain ⟨res, s, hs, rs, h1, h2, h3, h4⟩ := C72_craigmr (q.warp N hN M hM) (q.warp_valid hq N hN M hM) σ (fun z => by
      obtain ⟨z, rfl⟩ := (Warp.mk M hM).surjective z
      rw [hB, Warp.norm_eq, Warp.norm_eq]; exact hσ z)
  obtain ⟨ts, rfl⟩ := list_mk rs
  refine ⟨craigmrResMap (Warp.dual M hM) res, craigmrLoopMap (Warp.dual M hM) (Warp.dual N hN) s,
    (q.warp_solve N hN M hM hpM hpN).trans (by rw [hs]; rfl), ts, ?_, ?_, ?_, ?_⟩
  · rw [List.length_map] at h1; exact h1
  · change (Warp.dual M hM).P res.x = _
    rw [h2, getLastD_mk]; rfl
  · intro hk
    change res.iterates.map (Warp.dual M hM).P = _
    rw [h3 hk, List.map_map, List.map_map]; rfl
  · intro k t hk
    have := h4 k (Warp.mk M hM t) (by rw [List.getElem?_map, hk]; rfl)
    simpa only [hB, hA, hbb, ← map_add, ← map_sub, Warp.norm_eq] using this

/-! ### Instances -/

theorem pnorm_scale {c : ℝ} (hc : 0 ≤ c) (z : E) : pnorm (c • LinearMap.id : E →ₗ[ℝ] E) z = Real.sqrt c * ‖z‖ := by
  unfold pnorm
  rw [LinearMap.smul_apply, LinearMap.id_apply, inner_smul_right, real_inner_self_eq_norm_sq, Real.sqrt_mul hc,
    Real.sqrt_sq (norm_nonneg z)]

theorem pnorm_scale_sq {c : ℝ} (hc : 0 ≤ c) (z : E) : pnorm (c • LinearMap.id : E →ₗ[ℝ] E) z ^ 2 = c * ‖z‖ ^ 2 := by
  rw [pnorm_scale hc, mul_pow, Real.sq_sqrt hc]

/-- the hypotheses of `C72_minres_preconditioned_partial` are met: `I + u u'`, scaled by the preconditioner -/
example [FiniteDimensional ℝ E] (u b : E) (hu : ‖u‖ ^ 2 = 3) :=
  C72_minres_preconditioned_partial ⟨rankOneUpdate u, b, 0, false, none, 0, 0, false, 5⟩ (rankOneUpdate_symm u)
    _ (Spd.scale (by norm_num : (0:ℝ) < 2)) (1/1000) (by norm_num) (lo := 2) (hi := 8) (by norm_num) (by norm_num) (fun z => by
      have h1 := rankOneUpdate_norm u z
      have h2 : ‖rankOneUpdate u z‖ ≤ 4 * ‖z‖ := by
        change ‖z + (⟪u, z⟫ : ℝ) • u‖ ≤ _
        refine (norm_add_le _ _).trans ?_
        rw [norm_smul, Real.norm_eq_abs]
        have h1 := mul_le_mul_of_nonneg_right (abs_real_inner_le_norm u z) (norm_nonneg u)
        have e : ‖u‖ * ‖z‖ * ‖u‖ = 3 * ‖z‖ := by rw [← hu]; ring
        linarith
      have h3 := Real.sqrt_nonneg 2
      simp only [zero_smul, sub_zero]
      rw [pnorm_scale (by norm_num), pnorm_scale (by norm_num), LinearMap.smul_apply, LinearMap.id_apply, map_smul, norm_smul,
        Real.norm_eq_abs, abs_of_pos (by norm_num : (0:ℝ) < 2)]
      constructor
      · nlinarith [mul_le_mul_of_nonneg_left h1 h3]
      · nlinarith [mul_le_mul_of_nonneg_left h2 h3]) (by simp) (Module.finrank ℝ E) {}

theorem row_precon (u : E) (hu : ‖u‖ ^ 2 = 3) (z : E) :
    1 * pnorm ((5:ℝ) • LinearMap.id : E →ₗ[ℝ] E) z ^ 2 ≤
      pnorm ((2:ℝ) • LinearMap.id : ℝ →ₗ[ℝ] ℝ) (row u (((5:ℝ) • LinearMap.id : E →ₗ[ℝ] E) z)) ^ 2 +
        (1:ℝ) ^ 2 * pnorm ((5:ℝ) • LinearMap.id : E →ₗ[ℝ] E) z ^ 2 ∧
    pnorm ((2:ℝ) • LinearMap.id : ℝ →ₗ[ℝ] ℝ) (row u (((5:ℝ) • LinearMap.id : E →ₗ[ℝ] E) z)) ^ 2 +
        (1:ℝ) ^ 2 * pnorm ((5:ℝ) • LinearMap.id : E →ₗ[ℝ] E) z ^ 2 ≤
      31 * pnorm ((5:ℝ) • LinearMap.id : E →ₗ[ℝ] E) z ^ 2 := by
  have h1 : ‖row u z‖ ^ 2 ≤ 3 * ‖z‖ ^ 2 := by
    have h1 := abs_real_inner_le_norm u z
    rw [← hu, ← mul_pow]
    exact pow_le_pow_left₀ (norm_nonneg _) (by simpa [row] using h1) 2
  have h2 := sq_nonneg ‖row u z‖
  rw [pnorm_scale_sq (by norm_num), pnorm_scale_sq (by norm_num), LinearMap.smul_apply, LinearMap.id_apply, map_smul, norm_smul,
    Real.norm_eq_abs, abs_of_pos (by norm_num : (0:ℝ) < 5)]
  constructor <;> nlinarith

/-- the hypotheses of `C72_lsqr_preconditioned` are met, with both preconditioners -/
example [FiniteDimensional ℝ E] (u : E) (hu : ‖u‖ ^ 2 = 3) (b : ℝ) :=
  C72_lsqr_preconditioned (E := E) (F := ℝ) ⟨row u, col u, b, 7, 1, 9, 0, 0, 0, 0, false, false, 5⟩
    ⟨row_adj u, le_rfl, le_rfl, by simp⟩ _ (Spd.scale (by norm_num : (0:ℝ) < 5)) _ (Spd.scale (by norm_num : (0:ℝ) < 2)) _ _
    .some .some (lo := 1) (hi := 31) one_pos (by norm_num) (row_precon u hu)

/-- the hypotheses of `C72_lsmr_preconditioned` are met -/
example [FiniteDimensional ℝ E] (u : E) (hu : ‖u‖ ^ 2 = 3) (b : ℝ) :=
  C72_lsmr_preconditioned (E := E) (F := ℝ) ⟨row u, col u, b, 1, 7, 1, none, 0, 0, 0, 0, false, false, 5⟩
    ⟨row_adj u, le_rfl, by simp⟩ none _ (Spd.scale (by norm_num : (0:ℝ) < 5)) _ (Spd.scale (by norm_num : (0:ℝ) < 2)) _ _
    .some .some (lo := 1) (hi := 31) one_pos (by norm_num) (row_precon u hu)

theorem col_precon (u : E) (t : ℝ) :
    pnorm ((5:ℝ) • LinearMap.id : E →ₗ[ℝ] E) (col u (((2:ℝ) • LinearMap.id : ℝ →ₗ[ℝ] ℝ) t)) ^ 2 ≤
      (Real.sqrt 10 * ‖u‖) ^ 2 * pnorm ((2:ℝ) • LinearMap.id : ℝ →ₗ[ℝ] ℝ) t ^ 2 := by
  rw [pnorm_scale_sq (by norm_num), pnorm_scale_sq (by norm_num), mul_pow, Real.sq_sqrt (by norm_num)]
  simp only [col, LinearMap.toSpanSingleton_apply, norm_smul, mul_pow, LinearMap.smul_apply, LinearMap.id_apply, Real.norm_eq_abs,
    sq_abs, smul_eq_mul]
  nlinarith

/-- the hypotheses of `C72_craig_preconditioned` are met -/
example (u : E) :=
  C72_craig_preconditioned (E := E) (F := ℝ) ⟨row u, col u, 3, 7, 0, 1, 0, 0, 0, 0, false, false, 5⟩
    ⟨row_adj u, by simp⟩ (by simp) (by simp [CraigProblem.limit]) _ (Spd.scale (by norm_num : (0:ℝ) < 5)) _
    (Spd.scale (by norm_num : (0:ℝ) < 2)) _ _ .some .some (Real.sqrt 10 * ‖u‖) (col_precon u)

/-- the hypotheses of `C72_craigmr_preconditioned` are met -/
example (u : E) (b : ℝ) :=
  C72_craigmr_preconditioned (E := E) (F := ℝ) ⟨row u, col u, b, 1, 7, 0, some 2, 0, 0, 0, 0, false, false, 5⟩ ⟨row_adj u, by simp⟩
    _ (Spd.scale (by norm_num : (0:ℝ) < 5)) _ (Spd.scale (by norm_num : (0:ℝ) < 2)) _ _ .some .some (Real.sqrt 10 * ‖u‖)
    (col_precon u)

end Verif.Solver
