import Verif.Solver.Monotone
import Verif.Solver.RateSingular

/-!
# C87: every iteration brings the iterate closer to the solution
-/

namespace Verif.Solver
open Scalar Vect
open scoped RealInnerProductSpace
open MinresMath (krylov krylov_mono krylov_map)

variable {E F : Type} [NormedAddCommGroup E] [InnerProductSpace ℝ E] [NormedAddCommGroup F] [InnerProductSpace ℝ F]

/-- **Specification.** Each vector of the list is nearer to `sol` than the one before it, farther away from `start`, and has a smaller
value of `f`, unless both are `sol`. -/
def Approaches (start sol : E) (f : E → ℝ) (its : List E) : Prop :=
  ∀ (k : ℕ) (x x' : E), its[k]? = some x → its[k+1]? = some x' →
    (x = sol ∧ x' = sol) ∨ (‖x' - sol‖ < ‖x - sol‖ ∧ ‖x - start‖ < ‖x' - start‖ ∧ f x' < f x)

/-! ### CG -/

/-- **C87, CG.** In exact arithmetic, CG without preconditioner on a symmetric positive definite operator, for every right-hand side,
guess, state of the solver object, budget and options with `abstol ≥ 0`: the iterates, from the guess to the returned `x`, approach the
solution. Each one is nearer to the solution than the one before, in the norm of the space as in the energy norm, and farther from the
guess; only the last one can be the solution. -/
theorem C87_cg [FiniteDimensional ℝ E] (q : CGProblem E) (hspd : SPD q.A) (n : ℕ) (self : CGObj Fl (Vec E)) (kw : CGKw (Vec E))
    (hk : kw.Runs) (hg : kw.guess = q.guess.map Vec.fin) (hat : 0 ≤ q.abstol) :
    let res := (cgSolve (Vec.op q.A) q.opts n self (.fin q.b) kw).1
    ∃ (its : List E) (sol : E), q.A sol = q.b ∧ its.length + (if kw.guess.isSome then 1 else 0) = res.nMatvec + 1 ∧
      its.head? = some (startPoint q.guess) ∧ res.x = its.getLast?.map Vec.fin ∧
      (kw.storeIterates = true → res.iterates = self.iterates ++ its.map Vec.fin) ∧
      Approaches (startPoint q.guess) sol (fun x => ⟪x - sol, q.A (x - sol)⟫) its ∧
      ∀ k x', its[k]? = some sol → its[k+1]? ≠ some x' := by
  have hA : CGMath.SPD q.A := ⟨hspd.1, hspd.2⟩
  simp only
  rw [cgSolve_eq hk]
  have ht : (cgInit (Vec.op q.A) q.opts kw self (.fin q.b)).2 = .fin q.threshold := (cgInit_exact q kw self hg).2.2.2.2.2.2.2.2.2.2
  simp only [ht]
  obtain ⟨m, hs', -⟩ := cgSolve_atIter q hA hat (kw.matvecMax.getD (2 * n)) (confined_of_finrank le_rfl) self kw hg
  generalize cgLoop (Vec.op q.A) q.opts.precon kw (.fin q.threshold) (kw.matvecMax.getD (2 * n))
    (cgInit (Vec.op q.A) q.opts kw self (.fin q.b)).1 = s at hs' ⊢
  have hgc : kw.guessCost = if kw.guess.isSome then 1 else 0 := rfl
  obtain ⟨sol, hsol⟩ : ∃ sol, q.A sol = q.b :=
    (LinearMap.injective_iff_surjective.1 (fun u v h => hA.inj h) : Function.Surjective q.A) q.b
  have hat' : ∀ k x, ((List.range (m+1)).map fun j => CGMath.xs q.A q.it0 j)[k]? = some x → k ≤ m ∧ x = CGMath.xs q.A q.it0 k := by
    intro k x hx
    rw [List.getElem?_map] at hx
    obtain ⟨i, hi', rfl⟩ := Option.map_eq_some_iff.1 hx
    obtain ⟨hj, rfl⟩ := List.getElem?_eq_some_iff.1 hi'
    simp only [List.getElem_range, List.length_range] at hj ⊢
    exact ⟨by omega, trivial⟩
  have hns : ∀ k < m, CGMath.xs q.A q.it0 k ≠ sol := by
    intro k hk h
    refine hs'.ne k hk ?_
    rw [CGMath.resid q.A q.it0 q.b rfl k, h, hsol, sub_self]
  have e2 : q.b - q.A (startPoint q.guess) = -q.it0.r := (neg_sub _ _).symm
  have hmem : ∀ k, CGMath.xs q.A q.it0 k - startPoint q.guess ∈ krylov q.A (q.b - q.A (startPoint q.guess)) k := by
    intro k
    have h3 := CGMath.resSpan_le_krylov (A := q.A) (s0 := q.it0) rfl k (CGMath.xs_mem (A := q.A) rfl k)
    rw [e2]
    refine krylov_neg _ _ _ ?_
    rw [neg_neg]; exact h3
  have hsub : ∀ u : E, u - startPoint q.guess - (sol - startPoint q.guess) = u - sol := fun u => by abel
  have hmin : ∀ k ≤ m, ∀ z ∈ krylov q.A (q.b - q.A (startPoint q.guess)) k,
      ⟪CGMath.xs q.A q.it0 k - startPoint q.guess - (sol - startPoint q.guess),
        q.A (CGMath.xs q.A q.it0 k - startPoint q.guess - (sol - startPoint q.guess))⟫ ≤
      ⟪z - (sol - startPoint q.guess), q.A (z - (sol - startPoint q.guess))⟫ := by
    intro k hk z hz
    have hz' : z + startPoint q.guess - q.it0.x ∈ krylov q.A q.it0.r k := by
      rw [show z + startPoint q.guess - q.it0.x = z from add_sub_cancel_right _ _]
      rw [e2] at hz
      exact krylov_neg _ _ _ hz
    have := CGMath.optimal hA (s0 := q.it0) rfl q.b sol rfl hsol k (fun j hj => hs'.ne j (by omega)) hz'
    rw [hsub, show z - (sol - startPoint q.guess) = z + startPoint q.guess - sol by abel]
    exact this
  refine ⟨(List.range (m+1)).map (fun j => CGMath.xs q.A q.it0 j), sol, hsol, ?_, ?_, ?_, ?_, ?_, ?_⟩
  · rw [List.length_map, List.length_range, hs'.nm, hgc]; omega
  · rw [List.head?_map, List.range_succ_eq_map]; rfl
  · rw [List.getLast?_map, List.getLast?_range]; simp [hs'.x]
  · intro hst
    rw [hs'.its hst, List.map_map]; rfl
  · intro k x x' hx hx'
    obtain ⟨h1, rfl⟩ := hat' k x hx
    obtain ⟨h2, rfl⟩ := hat' (k+1) x' hx'
    have hgs : q.A (sol - startPoint q.guess) = q.b - q.A (startPoint q.guess) := by rw [map_sub, hsol]
    rcases CGMath.closer_energy hA hgs (hmem k) (hmin k h1) (hmem (k+1)) (hmin (k+1) h2) with ⟨h3, -⟩ | ⟨h3, h4, h5⟩
    · exact absurd (sub_left_injective h3) (hns k (by omega))
    · rw [hsub, hsub] at h3 h5
      exact Or.inr ⟨h3, h4, h5⟩
  · intro k x' hx hx'
    obtain ⟨h1, h3⟩ := hat' k sol hx
    obtain ⟨h2, -⟩ := hat' (k+1) x' hx'
    exact hns k (by omega) h3.symm

/-- the hypotheses of `C87_cg` are met -/
example [FiniteDimensional ℝ E] (u b g : E) (kw : CGKw (Vec E)) (hk : kw.Runs) (hg : kw.guess = some (.fin g)) :
    ∃ (its : List E) (sol : E), rankOneUpdate u sol = b ∧
      (cgSolve (Vec.op (rankOneUpdate u)) (CGProblem.opts ⟨rankOneUpdate u, b, some g, 0, 1/1000⟩) 7 {} (.fin b) kw).1.x =
        its.getLast?.map Vec.fin ∧ Approaches g sol (fun x => ⟪x - sol, rankOneUpdate u (x - sol)⟫) its := by
  obtain ⟨its, sol, h1, -, -, h2, -, h3, -⟩ := C87_cg ⟨rankOneUpdate u, b, some g, 0, 1/1000⟩
    ⟨rankOneUpdate_symm u, fun v hv => by
      have h := (rankOneUpdate_spectrum u v).1
      have := norm_pos_iff.2 hv
      nlinarith⟩ 7 {} kw hk hg le_rfl
  exact ⟨its, sol, h1, h2, h3⟩

/-! ### MINRES -/

/-- **C87, MINRES (partial).** In exact arithmetic, MINRES without preconditioner on a symmetric operator, for every right-hand side, shift,
options and state of the solver object, when `A - shift I` is positive definite with no eigenvalue below the machine precision `ε`: unless
the solve breaks down with `istop = -1` (`C34_beta2_nan`), the iterates, from 0 to the returned `x`, approach the solution. Each one is
nearer to the solution than the one before, in the norm of the space and in the energy norm, its residual norm is smaller and its norm
larger. Missing: smaller eigenvalues (`C35_clipped`). -/
theorem C87_minres_partial [FiniteDimensional ℝ E] (q : MinresProblem E) (hA : ∀ u v, ⟪q.A u, v⟫ = ⟪u, q.A v⟫) (ε : ℝ) (hε : 0 < ε)
    (hlow : ∀ z, ε * ‖z‖ ≤ ‖q.A z - q.shift • z‖) (hpos : ∀ z, 0 ≤ ⟪z, q.A z - q.shift • z⟫) (hw : q.window ≠ 0) (n : ℕ)
    (self : MinresObj Fl (Vec E)) :
    ∃ res products, minresSolve (Vec.op q.A) (.fin ε) n self (.fin q.b) q.kw = .ok (res, products) ∧
      (res.istop ≠ -1 → res.x ≠ .nan) ∧
      ∀ x, res.x = .fin x → ∃ (xs : List E) (sol : E), q.A sol - q.shift • sol = q.b ∧ xs.length = products.length ∧
        (0 :: xs).getLast? = some x ∧ (q.storeIterates = true → res.iterates = (0 :: xs).map Vec.fin) ∧
        Approaches 0 sol (fun x => ⟪x - sol, q.A (x - sol) - q.shift • (x - sol)⟫) (0 :: xs) ∧
        Approaches 0 sol (fun x => ‖q.b - (q.A x - q.shift • x)‖) (0 :: xs) := by
  obtain ⟨res, products, hr, hn, hx⟩ := C35_residual_partial q hA ε hε hlow hw n self
  refine ⟨res, products, hr, hn, fun x hx' => ?_⟩
  obtain ⟨xs, k1, k2, -, k3, -, -, k4⟩ := hx x hx'
  have hBx : ∀ x, q.A x - q.shift • x = q.B x := fun x => by simp [MinresProblem.B]
  have hBd : q.A - q.shift • LinearMap.id = q.B := rfl
  simp only [hBx, hBd] at hlow hpos k4 ⊢
  have hsym : ∀ u v, ⟪q.B u, v⟫ = ⟪u, q.B v⟫ := by
    intro u v
    rw [← hBx, ← hBx, inner_sub_left, inner_sub_right, hA, real_inner_smul_left, real_inner_smul_right]
  have hB : CGMath.SPD q.B := by
    refine ⟨hsym, fun u hu => lt_of_le_of_ne (hpos u) fun h => ?_⟩
    have h1 : q.B u = 0 := PSD.kernel ⟨hsym, hpos⟩ h.symm
    have h2 := hlow u
    rw [h1, norm_zero] at h2
    exact absurd h2 (not_le.2 (mul_pos hε (norm_pos_iff.2 hu)))
  obtain ⟨sol, hsol⟩ : ∃ sol, q.B sol = q.b :=
    (LinearMap.injective_iff_surjective.1 (fun u v h => hB.inj h) : Function.Surjective q.B) q.b
  have key := fun (k : ℕ) (x x' : E) (h : (0 :: xs)[k]? = some x) (h' : (0 :: xs)[k+1]? = some x') =>
    CGMath.closer_residual hB hsol (k4 k x h).1 (k4 k x h).2 (k4 (k+1) x' h').1 (k4 (k+1) x' h').2
  refine ⟨xs, sol, hsol, k1, k2, k3, fun k x x' h h' => ?_, fun k x x' h h' => ?_⟩ <;>
  · rw [sub_zero, sub_zero]
    rcases key k x x' h h' with h1 | ⟨h1, h2, h3, h4⟩
    · exact Or.inl h1
    · first
      | exact Or.inr ⟨h1, h2, h3⟩
      | exact Or.inr ⟨h1, h2, h4⟩

/-- the hypotheses of `C87_minres_partial` are met -/
example [FiniteDimensional ℝ E] (u b : E) :
    ∃ res products, minresSolve (Vec.op (rankOneUpdate u)) (.fin (1/1000)) (Module.finrank ℝ E) {} (.fin b)
      (MinresProblem.kw ⟨rankOneUpdate u, b, 0, false, none, 0, 0, false, 5⟩) = .ok (res, products) ∧
      ∀ x, res.x = .fin x → ∃ (xs : List E) (sol : E), rankOneUpdate u sol - (0:ℝ) • sol = b ∧ (0 :: xs).getLast? = some x ∧
        Approaches 0 sol (fun x => ‖b - (rankOneUpdate u x - (0:ℝ) • x)‖) (0 :: xs) := by
  obtain ⟨res, products, h1, -, h2⟩ := C87_minres_partial ⟨rankOneUpdate u, b, 0, false, none, 0, 0, false, 5⟩ (rankOneUpdate_symm u)
    (1/1000) (by norm_num) (fun z => by
      simp only [zero_smul, sub_zero]
      have := rankOneUpdate_norm u z
      linarith [norm_nonneg z]) (fun z => by
      simp only [zero_smul, sub_zero]
      have h := (rankOneUpdate_spectrum u z).1
      nlinarith [sq_nonneg ‖z‖]) (by simp) (Module.finrank ℝ E) {}
  refine ⟨res, products, h1, fun x hx => ?_⟩
  obtain ⟨xs, sol, k1, -, k2, -, -, k3⟩ := h2 x hx
  exact ⟨xs, sol, k1, k2, k3⟩

/-! ### Least-squares solvers -/

/-- `A'A + t I` on the range of `A'` -/
theorem normal_pos {A : E →ₗ[ℝ] F} {B : F →ₗ[ℝ] E} (adj : ∀ x y, ⟪A x, y⟫ = ⟪x, B y⟫) {t : ℝ} (ht : 0 ≤ t) {z : E}
    (hz : z ∈ LinearMap.range B) (hz0 : z ≠ 0) : 0 < ⟪z, (B ∘ₗ A + t • LinearMap.id : E →ₗ[ℝ] E) z⟫ := by
  have e : ⟪z, (B ∘ₗ A + t • LinearMap.id : E →ₗ[ℝ] E) z⟫ = ‖A z‖ ^ 2 + t * ‖z‖ ^ 2 := by
    rw [LinearMap.add_apply, LinearMap.comp_apply, LinearMap.smul_apply, LinearMap.id_apply, inner_add_right,
      real_inner_smul_right, ← adj, real_inner_self_eq_norm_sq, real_inner_self_eq_norm_sq]
  have hA : A z ≠ 0 := by
    intro h
    obtain ⟨w, rfl⟩ := hz
    have := adj (B w) w
    rw [h, inner_zero_left] at this
    exact hz0 (inner_self_eq_zero.1 this.symm)
  have := norm_pos_iff.2 hA
  rw [e]
  have := mul_nonneg ht (sq_nonneg ‖z‖)
  positivity

/-- the minimizer of the damped problem in the range of `A'` -/
theorem normal_solution [FiniteDimensional ℝ E] {A : E →ₗ[ℝ] F} {B : F →ₗ[ℝ] E} (adj : ∀ x y, ⟪A x, y⟫ = ⟪x, B y⟫) (damp : ℝ) (b : F) :
    ∃ sol ∈ LinearMap.range B, (B ∘ₗ A + damp ^ 2 • LinearMap.id : E →ₗ[ℝ] E) sol = B b ∧
      (∀ x, ‖b - A x‖ ^ 2 + damp ^ 2 * ‖x‖ ^ 2 = ‖b - A sol‖ ^ 2 + damp ^ 2 * ‖sol‖ ^ 2 +
        ⟪x - sol, (B ∘ₗ A + damp ^ 2 • LinearMap.id : E →ₗ[ℝ] E) (x - sol)⟫) ∧
      (∀ y, ‖b - A sol‖ ^ 2 + damp ^ 2 * ‖sol‖ ^ 2 ≤ ‖b - A y‖ ^ 2 + damp ^ 2 * ‖y‖ ^ 2) ∧
      (damp = 0 → MinimumNormLeastSquares A b sol) := by
  have hW : ∀ w ∈ LinearMap.range B, (B ∘ₗ A + damp ^ 2 • LinearMap.id : E →ₗ[ℝ] E) w ∈ LinearMap.range B := fun w hw =>
    Submodule.add_mem _ ⟨_, rfl⟩ (Submodule.smul_mem _ _ hw)
  have hsym := normal_symm adj (damp ^ 2)
  have hsur : Function.Surjective ((B ∘ₗ A + damp ^ 2 • LinearMap.id : E →ₗ[ℝ] E).restrict hW) := by
    have hS : CGMath.SPD ((B ∘ₗ A + damp ^ 2 • LinearMap.id : E →ₗ[ℝ] E).restrict hW) :=
      ⟨fun u v => hsym u v, fun u hu => normal_pos adj (sq_nonneg damp) u.2 fun h => hu (Subtype.ext h)⟩
    exact LinearMap.injective_iff_surjective.1 fun u v h => hS.inj h
  obtain ⟨⟨sol, hsm⟩, hs⟩ := hsur ⟨B b, ⟨b, rfl⟩⟩
  have hsol : (B ∘ₗ A + damp ^ 2 • LinearMap.id : E →ₗ[ℝ] E) sol = B b := congrArg Subtype.val hs
  have hGx : ∀ x, (B ∘ₗ A + damp ^ 2 • LinearMap.id : E →ₗ[ℝ] E) x = B (A x) + damp ^ 2 • x := fun x => rfl
  have hf : ∀ x, ‖b - A x‖ ^ 2 + damp ^ 2 * ‖x‖ ^ 2 = ‖b - A sol‖ ^ 2 + damp ^ 2 * ‖sol‖ ^ 2 +
        ⟪x - sol, (B ∘ₗ A + damp ^ 2 • LinearMap.id : E →ₗ[ℝ] E) (x - sol)⟫ := by
    intro x
    have e1 : ∀ x, ‖b - A x‖ ^ 2 + damp ^ 2 * ‖x‖ ^ 2 =
        ‖b‖ ^ 2 - 2 * ⟪x, B b⟫ + ⟪x, (B ∘ₗ A + damp ^ 2 • LinearMap.id : E →ₗ[ℝ] E) x⟫ := by
      intro x
      rw [hGx, ← real_inner_self_eq_norm_sq, inner_sub_left, inner_sub_right, inner_sub_right, inner_add_right, ← adj, ← adj,
        real_inner_smul_right, real_inner_self_eq_norm_sq, real_inner_self_eq_norm_sq, real_inner_self_eq_norm_sq,
        real_inner_comm (A x) b]
      ring
    have e2 : ⟪sol, (B ∘ₗ A + damp ^ 2 • LinearMap.id : E →ₗ[ℝ] E) x⟫ = ⟪x, B b⟫ := by
      rw [← hsol, ← hsym sol x, real_inner_comm]
    rw [e1 x, e1 sol, map_sub, inner_sub_left, inner_sub_right, inner_sub_right, e2, hsol]
    ring
  refine ⟨sol, hsm, hsol, hf, fun y => ?_, fun hd => ?_⟩
  · rw [hf y]
    have : 0 ≤ ⟪y - sol, (B ∘ₗ A + damp ^ 2 • LinearMap.id : E →ₗ[ℝ] E) (y - sol)⟫ := by
      rw [hGx, inner_add_right, ← adj, real_inner_smul_right, real_inner_self_eq_norm_sq, real_inner_self_eq_norm_sq]
      positivity
    linarith
  · refine minimumNorm_of_range adj ?_ hsm
    rw [map_sub, ← hsol, hGx, hd]; simp

theorem krylov_shift_eq (G : E →ₗ[ℝ] E) (t : ℝ) (c : E) (k : ℕ) : krylov (G + t • LinearMap.id) c k = krylov G c k := by
  refine le_antisymm (krylov_shift G t c k) ?_
  have := krylov_shift (G + t • LinearMap.id) (-t) c k
  rwa [show G + t • LinearMap.id + (-t) • LinearMap.id = G by rw [neg_smul]; abel] at this

/-- **C87, LSQR.** In exact arithmetic, without preconditioners, for every operator, of whatever rank, right-hand side, damping and
keywords: the iterates, from 0 to the returned `x`, approach the minimizer `sol` of `f(x) = |b - Ax|^2 + damp^2 |x|^2`, the one of smallest
norm if `damp = 0`. Each one is nearer to `sol` than the one before, its norm is larger and its value of `f` smaller. -/
theorem C87_lsqr [FiniteDimensional ℝ E] (q : LsqrProblem E F) (hq : q.Valid) :
    let f : E → ℝ := fun x => ‖q.b - q.A x‖ ^ 2 + q.damp ^ 2 * ‖x‖ ^ 2
    ∃ res s, ∃ (xs : List E) (sol : E), lsqrSolve (Vec.op q.A) (Vec.op q.B) q.n (.fin q.b) q.kw = .ok (res, s) ∧
      res.itn = xs.length ∧ res.x = (0 :: xs).getLast?.elim .nan Vec.fin ∧
      (q.storeIterates = true → res.iterates = (0 :: xs).map Vec.fin) ∧
      (∀ y, f sol ≤ f y) ∧ (q.damp = 0 → MinimumNormLeastSquares q.A q.b sol) ∧ Approaches 0 sol f (0 :: xs) := by
  intro f
  obtain ⟨res, s, xs, hr, hi1, hx, hst, -, -, hb⟩ := C38_true_norms q hq
  obtain ⟨sol, hsm, hsol, hf, hfm, hmn⟩ := normal_solution hq.adj q.damp q.b
  refine ⟨res, s, xs, sol, hr, hi1, by rw [hx, List.getLast?_eq_some_getLast (by simp)]; rfl, hst, hfm, hmn, fun k x x' h h' => ?_⟩
  have hmin : ∀ k x, (0 :: xs)[k]? = some x → x ∈ krylov (q.B ∘ₗ q.A + q.damp ^ 2 • LinearMap.id) (q.B q.b) k ∧
      ∀ y ∈ krylov (q.B ∘ₗ q.A + q.damp ^ 2 • LinearMap.id) (q.B q.b) k,
        ⟪x - sol, (q.B ∘ₗ q.A + q.damp ^ 2 • LinearMap.id : E →ₗ[ℝ] E) (x - sol)⟫ ≤
        ⟪y - sol, (q.B ∘ₗ q.A + q.damp ^ 2 • LinearMap.id : E →ₗ[ℝ] E) (y - sol)⟫ := by
    intro k x hx
    rw [krylov_shift_eq]
    cases k with
    | zero =>
      have hx : x = 0 := by simpa using hx.symm
      refine ⟨by rw [hx]; exact Submodule.zero_mem _, fun y hy => ?_⟩
      have hy : y = 0 := by simpa [krylov] using hy
      rw [hx, hy]
    | succ i =>
      rw [List.getElem?_cons_succ] at hx
      obtain ⟨hi', rfl⟩ := List.getElem?_eq_some_iff.1 hx
      refine ⟨(hb i hi').1, fun y hy => ?_⟩
      have := (hb i hi').2 y hy
      rw [hf xs[i], hf y] at this
      linarith
  obtain ⟨m1, m2⟩ := hmin k x h
  obtain ⟨m3, m4⟩ := hmin (k+1) x' h'
  rw [sub_zero, sub_zero]
  rcases CGMath.closer_energy_in (W := LinearMap.range q.B)
    (fun w hw => Submodule.add_mem _ (LinearMap.mem_range_self _ _) (Submodule.smul_mem _ _ hw)) (LinearMap.mem_range_self _ _) (normal_symm hq.adj (q.damp ^ 2))
    (fun z hz h0 => normal_pos hq.adj (sq_nonneg _) hz h0) hsm hsol m1 m3 m2 m4 with h1 | ⟨h1, h2, h3⟩
  · exact Or.inl h1
  · refine Or.inr ⟨h1, h2, ?_⟩
    change ‖q.b - q.A x'‖ ^ 2 + q.damp ^ 2 * ‖x'‖ ^ 2 < ‖q.b - q.A x‖ ^ 2 + q.damp ^ 2 * ‖x‖ ^ 2
    rw [hf x, hf x']
    linarith

/-- minimizers of the residual of the normal equations in Krylov spaces -/
theorem approaches_normal [FiniteDimensional ℝ E] {A : E →ₗ[ℝ] F} {B : F →ₗ[ℝ] E} (adj : ∀ x y, ⟪A x, y⟫ = ⟪x, B y⟫) (damp : ℝ)
    (b : F) (xs : List E) (hb : ∀ i (h : i < xs.length), xs[i] ∈ krylov (B ∘ₗ A) (B b) (i+1) ∧
      ∀ y ∈ krylov (B ∘ₗ A) (B b) (i+1),
        ‖B (b - A xs[i]) - (damp * damp) • xs[i]‖ ≤ ‖B (b - A y) - (damp * damp) • y‖) :
    let f : E → ℝ := fun x => ‖b - A x‖ ^ 2 + damp ^ 2 * ‖x‖ ^ 2
    ∃ sol : E, (∀ y, f sol ≤ f y) ∧ (damp = 0 → MinimumNormLeastSquares A b sol) ∧ Approaches 0 sol f (0 :: xs) ∧
      Approaches 0 sol (fun x => ‖B (b - A x) - (damp * damp) • x‖) (0 :: xs) := by
  intro f
  obtain ⟨sol, hsm, hsol, hf, hfm, hmn⟩ := normal_solution adj damp b
  have e : ∀ y, B (b - A y) - (damp * damp) • y =
      B b - (B ∘ₗ A + damp ^ 2 • LinearMap.id : E →ₗ[ℝ] E) y := by
    intro y
    rw [map_sub, LinearMap.add_apply, LinearMap.comp_apply, LinearMap.smul_apply, LinearMap.id_apply, sq]; abel
  have hmin : ∀ k x, (0 :: xs)[k]? = some x → x ∈ krylov (B ∘ₗ A + damp ^ 2 • LinearMap.id) (B b) k ∧
      ∀ y ∈ krylov (B ∘ₗ A + damp ^ 2 • LinearMap.id) (B b) k,
        ‖B b - (B ∘ₗ A + damp ^ 2 • LinearMap.id : E →ₗ[ℝ] E) x‖ ≤
        ‖B b - (B ∘ₗ A + damp ^ 2 • LinearMap.id : E →ₗ[ℝ] E) y‖ := by
    intro k x hx
    rw [krylov_shift_eq]
    cases k with
    | zero =>
      have hx : x = 0 := by simpa using hx.symm
      refine ⟨by rw [hx]; exact Submodule.zero_mem _, fun y hy => ?_⟩
      have hy : y = 0 := by simpa [krylov] using hy
      rw [hx, hy]
    | succ i =>
      rw [List.getElem?_cons_succ] at hx
      obtain ⟨hi', rfl⟩ := List.getElem?_eq_some_iff.1 hx
      refine ⟨(hb i hi').1, fun y hy => ?_⟩
      have := (hb i hi').2 y hy
      rwa [e, e] at this
  have key := fun (k : ℕ) (x x' : E) (h : (0 :: xs)[k]? = some x) (h' : (0 :: xs)[k+1]? = some x') =>
    CGMath.closer_residual_in (W := LinearMap.range B)
      (fun w hw => Submodule.add_mem _ (LinearMap.mem_range_self _ _) (Submodule.smul_mem _ _ hw)) (LinearMap.mem_range_self _ _) (normal_symm adj (damp ^ 2))
      (fun z hz h0 => normal_pos adj (sq_nonneg _) hz h0) hsm hsol (hmin k x h).1 (hmin (k+1) x' h').1 (hmin k x h).2
      (hmin (k+1) x' h').2
  refine ⟨sol, hfm, hmn,
    fun k x x' h h' => ?_, fun k x x' h h' => ?_⟩
  · rw [sub_zero, sub_zero]
    rcases key k x x' h h' with h1 | ⟨h1, h2, h3, -⟩
    · exact Or.inl h1
    · refine Or.inr ⟨h1, h2, ?_⟩
      change ‖b - A x'‖ ^ 2 + damp ^ 2 * ‖x'‖ ^ 2 < ‖b - A x‖ ^ 2 + damp ^ 2 * ‖x‖ ^ 2
      rw [hf x, hf x']
      linarith
  · rw [sub_zero, sub_zero]
    rcases key k x x' h h' with h1 | ⟨h1, h2, -, h3⟩
    · exact Or.inl h1
    · refine Or.inr ⟨h1, h2, ?_⟩
      simp only [e]
      exact h3

/-- **C87, LSMR.** In exact arithmetic, without preconditioners, for every operator, of whatever rank, right-hand side, damping and
keywords: if `solve` returns (it may raise `ZeroDivisionError`, see `C51_true_norms`), the iterates, from 0 to the returned `x`, approach the
minimizer `sol` of `f(x) = |b - Ax|^2 + damp^2 |x|^2`, the one of smallest norm if `damp = 0`. Each one is nearer to `sol` than the one
before, its norm is larger, and not only the residual norm of the normal equations, which LSMR minimizes, but also its value of `f` is
smaller. -/
theorem C87_lsmr [FiniteDimensional ℝ E] (q : LsmrProblem E F) (hq : q.Valid) (selfX : Option (Vec E)) :
    let f : E → ℝ := fun x => ‖q.b - q.A x‖ ^ 2 + q.damp ^ 2 * ‖x‖ ^ 2
    lsmrSolve (Vec.op q.A) (Vec.op q.B) q.m q.n (.fin q.b) q.kw selfX = .error .zeroDivision ∨
    ∃ res s, ∃ (xs : List E) (sol : E), lsmrSolve (Vec.op q.A) (Vec.op q.B) q.m q.n (.fin q.b) q.kw selfX = .ok (res, s) ∧
      res.itn = xs.length ∧ res.x = (0 :: xs).getLast?.elim .nan Vec.fin ∧
      (q.storeIterates = true → res.iterates = (0 :: xs).map Vec.fin) ∧
      (∀ y, f sol ≤ f y) ∧ (q.damp = 0 → MinimumNormLeastSquares q.A q.b sol) ∧ Approaches 0 sol f (0 :: xs) ∧
      Approaches 0 sol (fun x => ‖q.B (q.b - q.A x) - (q.damp * q.damp) • x‖) (0 :: xs) := by
  intro f
  rcases C51_true_norms q hq selfX with ⟨res, s, xs, hr, hi1, hx, hst, -, -, hb, -⟩ | ⟨he, -⟩
  swap
  · exact Or.inl he
  obtain ⟨sol, h⟩ := approaches_normal hq.adj q.damp q.b xs hb
  exact Or.inr ⟨res, s, xs, sol, hr, hi1, by rw [hx, List.getLast?_eq_some_getLast (by simp)]; rfl, hst, h⟩

/-- the operator of CRAIG and CRAIG-MR -/
theorem gram_spd {A : E →ₗ[ℝ] F} {B : F →ₗ[ℝ] E} (adj : ∀ x y, ⟪A x, y⟫ = ⟪x, B y⟫) :
    CGMath.SPD (A ∘ₗ B + (1:ℝ) • LinearMap.id : F →ₗ[ℝ] F) := by
  have adj' : ∀ x y, ⟪B x, y⟫ = ⟪x, A y⟫ := fun x y => by rw [real_inner_comm, ← adj, real_inner_comm]
  refine ⟨normal_symm adj' 1, fun u hu => ?_⟩
  have e : ⟪u, (A ∘ₗ B + (1:ℝ) • LinearMap.id : F →ₗ[ℝ] F) u⟫ = ‖B u‖ ^ 2 + ‖u‖ ^ 2 := by
    rw [LinearMap.add_apply, LinearMap.comp_apply, LinearMap.smul_apply, LinearMap.id_apply, one_smul, inner_add_right, ← adj',
      real_inner_self_eq_norm_sq, real_inner_self_eq_norm_sq]
  have := norm_pos_iff.2 hu
  rw [e]; positivity

/-- **C87, CRAIG.** In exact arithmetic, without preconditioners, for every operator, nonzero right-hand side and keywords with a positive
iteration limit: the vectors `r` of CRAIG, the last of which is returned, approach the solution `sol` of `(AA' + I) r = b`. Each one is nearer
to `sol` than the one before, in the norm of the space and in the energy norm, and its norm is larger. -/
theorem C87_craig [FiniteDimensional ℝ F] (q : CraigProblem E F) (hq : q.Valid) (hb : q.b ≠ 0) (hl : 1 ≤ q.limit) :
    ∃ res s, craigSolve (Vec.op q.A) (Vec.op q.B) q.n (.fin q.b) q.kw = .ok (res, s) ∧
    ∃ (rs : List F) (sol : F), q.A (q.B sol) + sol = q.b ∧ rs.length = res.itn + 1 ∧
      res.r = .fin (rs.getLastD 0) ∧ res.x = .fin (q.B (rs.getLastD 0)) ∧
      (q.storeIterates = true → res.iteratesD = rs.map Vec.fin) ∧
      Approaches 0 sol (fun r => ‖q.B (r - sol)‖ ^ 2 + ‖r - sol‖ ^ 2) rs := by
  obtain ⟨res, s, hr, rs, k1, k2, k3, k4, k5, -⟩ := C52_true_norms q hq hb hl
  have hS := gram_spd hq.adj
  have hK : ∀ z, (q.A ∘ₗ q.B + (1:ℝ) • LinearMap.id : F →ₗ[ℝ] F) z = q.A (q.B z) + z := fun z => by
    rw [LinearMap.add_apply, LinearMap.comp_apply, LinearMap.smul_apply, LinearMap.id_apply, one_smul]
  have hE : ∀ z, ⟪z, (q.A ∘ₗ q.B + (1:ℝ) • LinearMap.id : F →ₗ[ℝ] F) z⟫ = ‖q.B z‖ ^ 2 + ‖z‖ ^ 2 := by
    intro z
    rw [hK, inner_add_right, real_inner_comm, hq.adj, real_inner_self_eq_norm_sq, real_inner_self_eq_norm_sq]
  obtain ⟨sol, hsol⟩ : ∃ sol, (q.A ∘ₗ q.B + (1:ℝ) • LinearMap.id : F →ₗ[ℝ] F) sol = q.b :=
    (LinearMap.injective_iff_surjective.1 (fun u v h => hS.inj h) : Function.Surjective (q.A ∘ₗ q.B + (1:ℝ) • LinearMap.id : F →ₗ[ℝ] F)) q.b
  have hsol' : q.A (q.B sol) + sol = q.b := by rw [← hK]; exact hsol
  have hmin : ∀ k x, rs[k]? = some x → x ∈ krylov (q.A ∘ₗ q.B + (1:ℝ) • LinearMap.id) q.b (k+1) ∧
      ∀ y ∈ krylov (q.A ∘ₗ q.B + (1:ℝ) • LinearMap.id) q.b (k+1),
        ⟪x - sol, (q.A ∘ₗ q.B + (1:ℝ) • LinearMap.id : F →ₗ[ℝ] F) (x - sol)⟫ ≤
        ⟪y - sol, (q.A ∘ₗ q.B + (1:ℝ) • LinearMap.id : F →ₗ[ℝ] F) (y - sol)⟫ := by
    intro k x hx
    rw [krylov_shift_eq]
    obtain ⟨hi', rfl⟩ := List.getElem?_eq_some_iff.1 hx
    refine ⟨(k4 k hi').1, fun y hy => ?_⟩
    rw [hE, hE]
    exact (k4 k hi').2 y hy sol hsol'
  refine ⟨res, s, hr, rs, sol, hsol', k1, k2, k3, fun h => (k5 h).1, fun k x x' h h' => ?_⟩
  obtain ⟨m1, m2⟩ := hmin k x h
  obtain ⟨m3, m4⟩ := hmin (k+1) x' h'
  rw [sub_zero, sub_zero]
  rcases CGMath.closer_energy hS hsol m1 m2 m3 m4 with h1 | ⟨h1, h2, h3⟩
  · exact Or.inl h1
  · rw [hE, hE] at h3
    exact Or.inr ⟨h1, h2, h3⟩

/-- **C87, CRAIG-MR.** In exact arithmetic, without preconditioners, for every operator, right-hand side and keywords: the iterates of
CRAIG-MR, from 0 to the returned `x`, approach the solution `sol` of `(AA' + I) x = b`. Each one is nearer to `sol` than the one before, in the
norm of the space and in the energy norm, its norm is larger and its residual norm smaller. -/
theorem C87_craigmr [FiniteDimensional ℝ F] (q : CraigmrProblem E F) (hq : q.Valid) :
    ∃ res s, craigmrSolve (Vec.op q.A) (Vec.op q.B) q.m q.n (.fin q.b) q.kw = .ok (res, s) ∧
    ∃ (xs : List F) (sol : F), q.A (q.B sol) + sol = q.b ∧ xs.length = res.itn + 1 ∧ res.x = .fin (xs.getLastD 0) ∧
      (q.storeIterates = true → res.iterates = xs.map Vec.fin) ∧
      Approaches 0 sol (fun x => ‖q.B (x - sol)‖ ^ 2 + ‖x - sol‖ ^ 2) xs ∧
      Approaches 0 sol (fun x => ‖q.b - (x + q.A (q.B x))‖) xs := by
  obtain ⟨res, s, hr, xs, k1, k2, k4, k5, -⟩ := C53_minimizes q hq
  have hS := gram_spd hq.adj
  have hK : ∀ z, (q.A ∘ₗ q.B + (1:ℝ) • LinearMap.id : F →ₗ[ℝ] F) z = q.A (q.B z) + z := fun z => by
    rw [LinearMap.add_apply, LinearMap.comp_apply, LinearMap.smul_apply, LinearMap.id_apply, one_smul]
  have hE : ∀ z, ⟪z, (q.A ∘ₗ q.B + (1:ℝ) • LinearMap.id : F →ₗ[ℝ] F) z⟫ = ‖q.B z‖ ^ 2 + ‖z‖ ^ 2 := by
    intro z
    rw [hK, inner_add_right, real_inner_comm, hq.adj, real_inner_self_eq_norm_sq, real_inner_self_eq_norm_sq]
  have hR : ∀ z, q.b - (z + q.A (q.B z)) = q.b - (q.A ∘ₗ q.B + (1:ℝ) • LinearMap.id : F →ₗ[ℝ] F) z := fun z => by
    rw [hK, add_comm]
  obtain ⟨sol, hsol⟩ : ∃ sol, (q.A ∘ₗ q.B + (1:ℝ) • LinearMap.id : F →ₗ[ℝ] F) sol = q.b :=
    (LinearMap.injective_iff_surjective.1 (fun u v h => hS.inj h) : Function.Surjective (q.A ∘ₗ q.B + (1:ℝ) • LinearMap.id : F →ₗ[ℝ] F)) q.b
  have hsol' : q.A (q.B sol) + sol = q.b := by rw [← hK]; exact hsol
  have hmin : ∀ k x, xs[k]? = some x → x ∈ krylov (q.A ∘ₗ q.B + (1:ℝ) • LinearMap.id) q.b k ∧
      ∀ y ∈ krylov (q.A ∘ₗ q.B + (1:ℝ) • LinearMap.id) q.b k,
        ‖q.b - (q.A ∘ₗ q.B + (1:ℝ) • LinearMap.id : F →ₗ[ℝ] F) x‖ ≤
        ‖q.b - (q.A ∘ₗ q.B + (1:ℝ) • LinearMap.id : F →ₗ[ℝ] F) y‖ := by
    intro k x hx
    rw [krylov_shift_eq]
    obtain ⟨hi', rfl⟩ := List.getElem?_eq_some_iff.1 hx
    refine ⟨(k4 k hi').1, fun y hy => ?_⟩
    rw [← hR, ← hR]
    exact (k4 k hi').2 y hy
  have key := fun (k : ℕ) (x x' : F) (h : xs[k]? = some x) (h' : xs[k+1]? = some x') =>
    CGMath.closer_residual hS hsol (hmin k x h).1 (hmin k x h).2 (hmin (k+1) x' h').1 (hmin (k+1) x' h').2
  refine ⟨res, s, hr, xs, sol, hsol', k1, k2, k5, fun k x x' h h' => ?_, fun k x x' h h' => ?_⟩
  · rw [sub_zero, sub_zero]
    rcases key k x x' h h' with h1 | ⟨h1, h2, h3, -⟩
    · exact Or.inl h1
    · rw [hE, hE] at h3
      exact Or.inr ⟨h1, h2, h3⟩
  · rw [sub_zero, sub_zero]
    rcases key k x x' h h' with h1 | ⟨h1, h2, -, h3⟩
    · exact Or.inl h1
    · simp only [hR]
      exact Or.inr ⟨h1, h2, h3⟩

/-! ### Non-vacuity of the hypotheses of the least-squares theorems -/

/-- LSQR on the rank-deficient inconsistent system `x₁ = 1, 0 = 1` -/
example : ∃ res s, ∃ (xs : List ℂ) (sol : ℂ), lsqrSolve (Vec.op planeProj) (Vec.op planeProj) 2 (.fin ⟨1, 1⟩)
      (⟨planeProj, planeProj, ⟨1, 1⟩, 2, 0, 4, 0, 0, 0, 0, false, true, 5⟩ : LsqrProblem ℂ ℂ).kw = .ok (res, s) ∧
      res.iterates = (0 :: xs).map Vec.fin ∧ MinimumNormLeastSquares planeProj ⟨1, 1⟩ sol ∧
      Approaches 0 sol (fun x => ‖⟨1, 1⟩ - planeProj x‖ ^ 2 + (0:ℝ) ^ 2 * ‖x‖ ^ 2) (0 :: xs) := by
  obtain ⟨res, s, xs, sol, h1, -, -, h2, -, h3, h4⟩ := C87_lsqr
    (⟨planeProj, planeProj, ⟨1, 1⟩, 2, 0, 4, 0, 0, 0, 0, false, true, 5⟩ : LsqrProblem ℂ ℂ) ⟨planeProj_psd.1, le_rfl, le_rfl, by decide⟩
  exact ⟨res, s, xs, sol, h1, h2 rfl, h3 rfl, h4⟩

example : lsmrSolve (Vec.op planeProj) (Vec.op planeProj) 2 2 (.fin ⟨1, 1⟩)
      (⟨planeProj, planeProj, ⟨1, 1⟩, 2, 2, 0, none, 0, 0, 0, 0, false, false, 5⟩ : LsmrProblem ℂ ℂ).kw none = .error .zeroDivision ∨
    ∃ res s, lsmrSolve (Vec.op planeProj) (Vec.op planeProj) 2 2 (.fin ⟨1, 1⟩)
      (⟨planeProj, planeProj, ⟨1, 1⟩, 2, 2, 0, none, 0, 0, 0, 0, false, false, 5⟩ : LsmrProblem ℂ ℂ).kw none = .ok (res, s) := by
  rcases C87_lsmr (⟨planeProj, planeProj, ⟨1, 1⟩, 2, 2, 0, none, 0, 0, 0, 0, false, false, 5⟩ : LsmrProblem ℂ ℂ)
    ⟨planeProj_psd.1, le_rfl, by decide⟩ none with h | ⟨res, s, -, -, h, -⟩
  · exact Or.inl h
  · exact Or.inr ⟨res, s, h⟩

example (u : E) :
    ∃ res s, craigSolve (Vec.op (row u)) (Vec.op (col u)) 7 (.fin (3:ℝ))
      (CraigProblem.kw ⟨row u, col u, 3, 7, 0, 1, 0, 0, 0, 0, false, true, 5⟩) = .ok (res, s) ∧
    ∃ (rs : List ℝ) (sol : ℝ), row u (col u sol) + sol = 3 ∧ res.iteratesD = rs.map Vec.fin ∧
      Approaches 0 sol (fun r => ‖col u (r - sol)‖ ^ 2 + ‖r - sol‖ ^ 2) rs := by
  obtain ⟨res, s, h, rs, sol, h1, -, -, -, h2, h3⟩ := C87_craig (E := E) (F := ℝ)
    ⟨row u, col u, 3, 7, 0, 1, 0, 0, 0, 0, false, true, 5⟩ ⟨row_adj u, by simp⟩ (by simp) (by simp [CraigProblem.limit])
  exact ⟨res, s, h, rs, sol, h1, h2 rfl, h3⟩

example (u : E) (b : ℝ) :
    ∃ res s, craigmrSolve (Vec.op (row u)) (Vec.op (col u)) 1 7 (.fin b)
      (CraigmrProblem.kw ⟨row u, col u, b, 1, 7, 0, some 2, 0, 0, 0, 0, false, true, 5⟩) = .ok (res, s) ∧
    ∃ (xs : List ℝ) (sol : ℝ), row u (col u sol) + sol = b ∧ res.iterates = xs.map Vec.fin ∧
      Approaches 0 sol (fun x => ‖b - (x + row u (col u x))‖) xs := by
  obtain ⟨res, s, h, xs, sol, h1, -, -, h2, -, h3⟩ := C87_craigmr (E := E) (F := ℝ)
    ⟨row u, col u, b, 1, 7, 0, some 2, 0, 0, 0, 0, false, true, 5⟩ ⟨row_adj u, by simp⟩
  exact ⟨res, s, h, xs, sol, h1, h2 rfl, h3⟩

end Verif.Solver
