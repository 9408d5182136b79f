import Verif.Solver.CGOptimal
import Verif.Solver.ConfinedProps

/-!
# Rates of convergence (C72)

In exact arithmetic the number of iterations of the solvers based on short recurrences is bounded in terms of the condition number
of the operator. The specification is in `Verif.Solver.Rate`.
-/

namespace Verif.Solver
open Scalar Vect
open scoped RealInnerProductSpace
open MinresMath (krylov krylov_mono krylov_map)

variable {E F : Type} [NormedAddCommGroup E] [InnerProductSpace ℝ E] [NormedAddCommGroup F] [InnerProductSpace ℝ F]

/-! ### Helpers -/

theorem spd_of_spectrum {G : E →ₗ[ℝ] E} (hG : ∀ u v, ⟪G u, v⟫ = ⟪u, G v⟫) {lo hi : ℝ} (h0 : 0 < lo)
    (hs : SpectrumIn G lo hi) : CGMath.SPD G :=
  ⟨hG, fun z hz => lt_of_lt_of_le (by have := norm_pos_iff.2 hz; positivity) (hs z).1⟩

theorem surj_of_spectrum [FiniteDimensional ℝ E] {G : E →ₗ[ℝ] E} {lo hi : ℝ} (h0 : 0 < lo) (hs : SpectrumIn G lo hi) (c : E) :
    ∃ x, G x = c := by
  refine LinearMap.surjective_of_injective ((injective_iff_map_eq_zero G).2 fun z hz => ?_) c
  have h1 := (hs z).1
  rw [hz, inner_zero_right] at h1
  by_contra hne
  have := norm_pos_iff.2 hne
  have : 0 < lo * ‖z‖ ^ 2 := by positivity
  linarith

/-- the energy of an error and the norm of its residual -/
theorem energy_resid {G : E →ₗ[ℝ] E} (hG : ∀ u v, ⟪G u, v⟫ = ⟪u, G v⟫) {lo hi : ℝ} (h0 : 0 < lo) (h : lo ≤ hi)
    (hs : SpectrumIn G lo hi) (e : E) : ‖G e‖ ^ 2 ≤ hi * ⟪e, G e⟫ ∧ lo * ⟪e, G e⟫ ≤ ‖G e‖ ^ 2 := by
  have hh : 0 < hi := h0.trans_le h
  constructor
  · have h1 := (hs (e - hi⁻¹ • G e)).1
    have h2 := (hs (G e)).2
    have h3 : 0 ≤ lo * ‖e - hi⁻¹ • G e‖ ^ 2 := by positivity
    have e1 : ⟪e - hi⁻¹ • G e, G (e - hi⁻¹ • G e)⟫ = ⟪e, G e⟫ - 2 * hi⁻¹ * ‖G e‖ ^ 2 + hi⁻¹ * hi⁻¹ * ⟪G e, G (G e)⟫ := by
      rw [map_sub, map_smul, inner_sub_left, inner_sub_right, inner_sub_right, real_inner_smul_left, real_inner_smul_left,
        real_inner_smul_right, real_inner_smul_right, ← hG e (G e), real_inner_self_eq_norm_sq]
      ring
    rw [e1] at h1
    have h4 : hi⁻¹ * hi⁻¹ * ⟪G e, G (G e)⟫ ≤ hi⁻¹ * hi⁻¹ * (hi * ‖G e‖ ^ 2) := mul_le_mul_of_nonneg_left h2 (by positivity)
    have e2 : hi⁻¹ * hi⁻¹ * (hi * ‖G e‖ ^ 2) = hi⁻¹ * ‖G e‖ ^ 2 := by field_simp
    have h5 : hi⁻¹ * ‖G e‖ ^ 2 ≤ ⟪e, G e⟫ := by linarith
    have h6 := mul_le_mul_of_nonneg_left h5 hh.le
    rwa [← mul_assoc, mul_inv_cancel₀ hh.ne', one_mul] at h6
  · have h1 := (hs e).1
    have h2 := real_inner_le_norm e (G e)
    rcases eq_or_ne e 0 with rfl | hne
    · simp
    have hp := norm_pos_iff.2 hne
    have h3 : lo * ‖e‖ ≤ ‖G e‖ := by
      have : lo * ‖e‖ * ‖e‖ ≤ ‖G e‖ * ‖e‖ := by nlinarith
      exact le_of_mul_le_mul_right this hp
    calc lo * ⟪e, G e⟫ ≤ lo * (‖e‖ * ‖G e‖) := mul_le_mul_of_nonneg_left h2 h0.le
      _ = lo * ‖e‖ * ‖G e‖ := by ring
      _ ≤ ‖G e‖ * ‖G e‖ := mul_le_mul_of_nonneg_right h3 (norm_nonneg _)
      _ = _ := by ring

theorem krylov_neg (G : E →ₗ[ℝ] E) (c : E) (k : ℕ) : krylov G (-c) k ≤ krylov G c k := by
  refine Submodule.span_le.2 ?_
  rintro _ ⟨j, hj, rfl⟩
  rw [map_neg]
  exact Submodule.neg_mem _ (Submodule.subset_span ⟨j, hj, rfl⟩)

theorem krylov_shift (G : E →ₗ[ℝ] E) (t : ℝ) (c : E) (k : ℕ) : krylov (G + t • LinearMap.id) c k ≤ krylov G c k := by
  have h : ∀ j : ℕ, ((G + t • LinearMap.id : E →ₗ[ℝ] E) ^ j) c ∈ krylov G c (j+1) := by
    intro j
    induction j with
    | zero => exact Submodule.subset_span ⟨0, by omega, rfl⟩
    | succ j ih =>
      rw [pow_succ', Module.End.mul_apply, LinearMap.add_apply, LinearMap.smul_apply, LinearMap.id_apply]
      exact Submodule.add_mem _ (krylov_map G c _ ih) (Submodule.smul_mem _ _ (krylov_mono G c (by omega) ih))
  refine Submodule.span_le.2 ?_
  rintro _ ⟨j, hj, rfl⟩
  exact krylov_mono G c (by omega) (h j)

theorem krylov_square (G : E →ₗ[ℝ] E) (c : E) (k : ℕ) {y : E} (hy : y ∈ krylov (G ∘ₗ G) c k) : G y ∈ krylov G c (2 * k) := by
  have : krylov (G ∘ₗ G) c k ≤ (krylov G c (2 * k)).comap G := by
    refine Submodule.span_le.2 ?_
    rintro _ ⟨j, hj, rfl⟩
    change G _ ∈ krylov G c (2 * k)
    refine Submodule.subset_span ⟨2 * j + 1, by omega, ?_⟩
    have e : (G ∘ₗ G) = G ^ 2 := by rw [sq]; rfl
    rw [pow_succ', Module.End.mul_apply, e, ← pow_mul]
  exact this hy

/-! ### CG -/

/-- the bounds at the iterate `k` of the recurrences -/
theorem cg_rate [FiniteDimensional ℝ E] (q : CGProblem E) (hA : ∀ u v, ⟪q.A u, v⟫ = ⟪u, q.A v⟫) {lo hi : ℝ} (h0 : 0 < lo)
    (h : lo ≤ hi) (hs : SpectrumIn q.A lo hi) (k : ℕ) (hne : ∀ j < k, CGMath.rs q.A q.it0 j ≠ 0) :
    (∀ sol, q.A sol = q.b →
      ⟪CGMath.xs q.A q.it0 k - sol, q.A (CGMath.xs q.A q.it0 k - sol)⟫ ≤
        (2 * rate lo hi ^ k) ^ 2 * ⟪startPoint q.guess - sol, q.A (startPoint q.guess - sol)⟫) ∧
    ‖CGMath.rs q.A q.it0 k‖ ≤ 2 * Real.sqrt (hi / lo) * rate lo hi ^ k * ‖q.b - q.A (startPoint q.guess)‖ := by
  have hspd := spd_of_spectrum hA h0 hs
  have hM0 : 0 ≤ 2 * rate lo hi ^ k := mul_nonneg two_pos.le (pow_nonneg (rate_nonneg h) k)
  have hen : ∀ sol, q.A sol = q.b →
      ⟪CGMath.xs q.A q.it0 k - sol, q.A (CGMath.xs q.A q.it0 k - sol)⟫ ≤
        (2 * rate lo hi ^ k) ^ 2 * ⟪startPoint q.guess - sol, q.A (startPoint q.guess - sol)⟫ := by
    intro sol hsol
    obtain ⟨y, hy, -, hyb⟩ := exists_krylov_point hA h0 h hs (q.b - q.A (startPoint q.guess)) k
    have h1 := hyb (sol - startPoint q.guess) (by rw [map_sub, hsol])
    have hw : (startPoint q.guess + y) - q.it0.x ∈ krylov q.A q.it0.r k := by
      have e1 : (startPoint q.guess + y) - q.it0.x = y := add_sub_cancel_left _ _
      have e2 : q.b - q.A (startPoint q.guess) = -q.it0.r := (neg_sub _ _).symm
      rw [e1]; rw [e2] at hy
      exact krylov_neg _ _ _ hy
    have h2 := CGMath.optimal hspd (s0 := q.it0) rfl q.b sol rfl hsol k hne hw
    have e3 : ∀ u v : E, ⟪u - v, q.A (u - v)⟫ = ⟪v - u, q.A (v - u)⟫ := by
      intro u v
      rw [← neg_sub v u, map_neg, inner_neg_neg]
    rw [e3 _ (startPoint q.guess)] at h1
    have e4 : (startPoint q.guess + y) - sol = -(sol - startPoint q.guess - y) := by abel
    rw [e4, map_neg, inner_neg_neg] at h2
    exact h2.trans h1
  refine ⟨hen, ?_⟩
  obtain ⟨sol, hsol⟩ := surj_of_spectrum h0 hs q.b
  have h1 := hen sol hsol
  have e1 : q.A (CGMath.xs q.A q.it0 k - sol) = CGMath.rs q.A q.it0 k := by
    rw [map_sub, hsol, CGMath.resid q.A q.it0 q.b rfl k]
  have e2 : ‖q.A (startPoint q.guess - sol)‖ = ‖q.b - q.A (startPoint q.guess)‖ := by rw [map_sub, hsol, norm_sub_rev]
  have h2 := (energy_resid hA h0 h hs (CGMath.xs q.A q.it0 k - sol)).1
  have h3 := (energy_resid hA h0 h hs (startPoint q.guess - sol)).2
  rw [e1] at h2
  rw [e2] at h3
  have hh : 0 < hi := h0.trans_le h
  refine abs_le_of_sq_le_sq' ?_ (by positivity [rate_nonneg h]) |>.2
  rw [mul_pow, mul_pow, mul_pow, Real.sq_sqrt (by positivity)]
  calc ‖CGMath.rs q.A q.it0 k‖ ^ 2
      ≤ hi * ⟪CGMath.xs q.A q.it0 k - sol, q.A (CGMath.xs q.A q.it0 k - sol)⟫ := by rw [e1]; exact h2
    _ ≤ hi * ((2 * rate lo hi ^ k) ^ 2 * ⟪startPoint q.guess - sol, q.A (startPoint q.guess - sol)⟫) :=
        mul_le_mul_of_nonneg_left h1 hh.le
    _ ≤ hi * ((2 * rate lo hi ^ k) ^ 2 * (‖q.b - q.A (startPoint q.guess)‖ ^ 2 / lo)) := by
        refine mul_le_mul_of_nonneg_left (mul_le_mul_of_nonneg_left ?_ (sq_nonneg _)) hh.le
        rw [le_div_iff₀ h0, mul_comm]; exact h3
    _ = _ := by rw [mul_pow]; field_simp

/-- **C72, CG.** In exact arithmetic, CG without preconditioner on a symmetric operator with eigenvalues between `lo > 0` and `hi`,
for every right-hand side, guess, state of the solver object, budget and options with `abstol ≥ 0`: there is a list of iterates, from
the guess to the returned `x`, one for each product (the product with the guess not counted), stored if this is requested, the
residual norms of which are appended to `residHistory`; and the iterate `k` is the best one that `k` products can give, that is, no
other point of the guess plus the Krylov space of dimension `k` is closer to the solution in the energy norm; its error in the energy
norm is at most `2 ((sqrt(κ) - 1) / (sqrt(κ) + 1))^k` times the error of the guess; and its residual norm is at most
`2 sqrt(κ) ((sqrt(κ) - 1) / (sqrt(κ) + 1))^k` times the residual norm of the guess, where `κ = hi / lo`. -/
theorem C72_cg [FiniteDimensional ℝ E] (q : CGProblem E) (hA : ∀ u v, ⟪q.A u, v⟫ = ⟪u, q.A v⟫) {lo hi : ℝ} (h0 : 0 < lo)
    (h : lo ≤ hi) (hs : SpectrumIn q.A lo hi) (n : ℕ) (self : CGObj Fl (Vec E)) (kw : CGKw (Vec E)) (hk : kw.Runs)
    (hg : kw.guess = q.guess.map Vec.fin) (hat : 0 ≤ q.abstol) :
    let res := (cgSolve (Vec.op q.A) q.opts n self (.fin q.b) kw).1
    ∃ its : List E, its.length + (if kw.guess.isSome then 1 else 0) = res.nMatvec + 1 ∧
      its.head? = some (startPoint q.guess) ∧ res.x = its.getLast?.map Vec.fin ∧
      (kw.storeIterates = true → res.iterates = self.iterates ++ its.map Vec.fin) ∧
      res.residHistory = self.residHistory ++ its.map (fun x => Fl.fin ‖q.b - q.A x‖) ∧
      ∀ (k : ℕ) (x : E), its[k]? = some x →
        x - startPoint q.guess ∈ krylov q.A (q.b - q.A (startPoint q.guess)) k ∧
        (∀ sol, q.A sol = q.b →
          (∀ w, w - startPoint q.guess ∈ krylov q.A (q.b - q.A (startPoint q.guess)) k →
            ⟪x - sol, q.A (x - sol)⟫ ≤ ⟪w - sol, q.A (w - sol)⟫) ∧
          Real.sqrt ⟪x - sol, q.A (x - sol)⟫ ≤
            2 * rate lo hi ^ k * Real.sqrt ⟪startPoint q.guess - sol, q.A (startPoint q.guess - sol)⟫) ∧
        ‖q.b - q.A x‖ ≤ 2 * Real.sqrt (hi / lo) * rate lo hi ^ k * ‖q.b - q.A (startPoint q.guess)‖ := by
  have hspd := spd_of_spectrum hA h0 hs
  simp only
  rw [cgSolve_eq hk]
  have ht : (cgInit (Vec.op q.A) q.opts kw self (.fin q.b)).2 = .fin q.threshold := (cgInit_exact q kw self hg).2.2.2.2.2.2.2.2.2.2
  simp only [ht]
  obtain ⟨k, hs', -⟩ := cgSolve_atIter q hspd hat (kw.matvecMax.getD (2 * n)) (confined_of_finrank le_rfl) self kw hg
  generalize cgLoop (Vec.op q.A) q.opts.precon kw (.fin q.threshold) (kw.matvecMax.getD (2 * n))
    (cgInit (Vec.op q.A) q.opts kw self (.fin q.b)).1 = s at hs' ⊢
  have hgc : kw.guessCost = if kw.guess.isSome then 1 else 0 := rfl
  have hres : ∀ j, ‖q.b - q.A (CGMath.xs q.A q.it0 j)‖ = ‖CGMath.rs q.A q.it0 j‖ := by
    intro j
    rw [CGMath.resid q.A q.it0 q.b rfl j, norm_sub_rev]
  have e2 : q.b - q.A (startPoint q.guess) = -q.it0.r := (neg_sub _ _).symm
  refine ⟨(List.range (k+1)).map (fun j => CGMath.xs q.A q.it0 j), ?_, ?_, ?_, ?_, ?_, ?_⟩
  · rw [List.length_map, List.length_range, hs'.nm, hgc]; omega
  · rw [List.head?_map, List.range_succ_eq_map]; rfl
  · rw [List.getLast?_map, List.getLast?_range]; simp [hs'.x]
  · intro hst
    rw [hs'.its hst, List.map_map]; rfl
  · rw [hs'.rh, List.map_map]
    congr 1
    refine List.map_congr_left fun j _ => ?_
    simp only [Function.comp, hres]
  · intro j x hx
    rw [List.getElem?_map] at hx
    obtain ⟨i, hi', rfl⟩ := Option.map_eq_some_iff.1 hx
    obtain ⟨hj, rfl⟩ := List.getElem?_eq_some_iff.1 hi'
    simp only [List.getElem_range, List.length_range] at hj ⊢
    have hne : ∀ i < j, CGMath.rs q.A q.it0 i ≠ 0 := fun i hi => hs'.ne i (by omega)
    obtain ⟨h1, h2⟩ := cg_rate q hA h0 h hs j hne
    have hM0 : 0 ≤ 2 * rate lo hi ^ j := mul_nonneg two_pos.le (pow_nonneg (rate_nonneg h) j)
    refine ⟨?_, fun sol hsol => ⟨fun w hw => ?_, ?_⟩, ?_⟩
    · have h3 := CGMath.resSpan_le_krylov (A := q.A) (s0 := q.it0) rfl j (CGMath.xs_mem (A := q.A) rfl j)
      rw [e2]
      refine krylov_neg _ _ _ ?_
      rw [neg_neg]; exact h3
    · refine CGMath.optimal hspd (s0 := q.it0) rfl q.b sol rfl hsol j hne ?_
      rw [e2] at hw
      exact krylov_neg _ _ _ hw
    · rw [← Real.sqrt_sq hM0, ← Real.sqrt_mul (sq_nonneg _)]
      exact Real.sqrt_le_sqrt (h1 sol hsol)
    · rw [hres]; exact h2

/-- **C72, CG: the number of iterations.** Under the hypotheses of `C72_cg`, CG converges within `k` iterations as soon as
`2 sqrt(κ) ((sqrt(κ) - 1) / (sqrt(κ) + 1))^k ≤ reltol`, if the budget allows `k` iterations. -/
theorem C72_cg_iterations [FiniteDimensional ℝ E] (q : CGProblem E) (hA : ∀ u v, ⟪q.A u, v⟫ = ⟪u, q.A v⟫) {lo hi : ℝ}
    (h0 : 0 < lo) (h : lo ≤ hi) (hs : SpectrumIn q.A lo hi) (n : ℕ) (self : CGObj Fl (Vec E)) (kw : CGKw (Vec E)) (hk : kw.Runs)
    (hg : kw.guess = q.guess.map Vec.fin) (hat : 0 ≤ q.abstol) (k : ℕ)
    (hr : 2 * Real.sqrt (hi / lo) * rate lo hi ^ k ≤ q.reltol)
    (hm : k + (if kw.guess.isSome then 1 else 0) ≤ kw.matvecMax.getD (2 * n)) :
    let res := (cgSolve (Vec.op q.A) q.opts n self (.fin q.b) kw).1
    res.converged = true ∧ res.nMatvec ≤ k + (if kw.guess.isSome then 1 else 0) := by
  have hspd := spd_of_spectrum hA h0 hs
  simp only
  rw [cgSolve_eq hk]
  have ht : (cgInit (Vec.op q.A) q.opts kw self (.fin q.b)).2 = .fin q.threshold := (cgInit_exact q kw self hg).2.2.2.2.2.2.2.2.2.2
  simp only [ht]
  obtain ⟨m, hs', -, hc, hgt⟩ := cgSolve_atIter q hspd hat (kw.matvecMax.getD (2 * n)) (confined_of_finrank le_rfl) self kw hg
  generalize cgLoop (Vec.op q.A) q.opts.precon kw (.fin q.threshold) (kw.matvecMax.getD (2 * n))
    (cgInit (Vec.op q.A) q.opts kw self (.fin q.b)).1 = s at hs' hc ⊢
  have hgc : kw.guessCost = if kw.guess.isSome then 1 else 0 := rfl
  rw [← hgc] at hm ⊢
  have hkt : k ≤ m → ‖CGMath.rs q.A q.it0 k‖ ≤ q.threshold := by
    intro hkm
    refine (cg_rate q hA h0 h hs k fun j hj => hs'.ne j (by omega)).2.trans ?_
    exact (mul_le_mul_of_nonneg_right hr (norm_nonneg _)).trans (le_max_right _ _)
  have hmk : m ≤ k := by
    by_contra hlt
    exact absurd (hkt (by omega)) (not_le.2 (hgt k (by omega)))
  refine ⟨?_, by rw [hs'.nm]; omega⟩
  rw [hs'.rn]
  refine (Fl.fin_le _ _).2 ?_
  by_contra hgt'
  have hlt : ¬ s.nMatvec < kw.matvecMax.getD (2 * n) := by
    intro hlt
    have : cgCont (.fin q.threshold) (kw.matvecMax.getD (2 * n)) s = true := by
      simp only [cgCont, hs'.df, Bool.and_true, Bool.and_eq_true, decide_eq_true_eq, gt, hs'.rn, Fl.fin_lt]
      exact ⟨not_le.1 hgt', hlt⟩
    rw [this] at hc; cases hc
  have hnm := hs'.nm
  obtain rfl : m = k := by omega
  exact hgt' (hkt le_rfl)

/-- enough iterations for a given reduction -/
theorem rate_pow_le {lo hi c t : ℝ} (h0 : 0 < lo) (h : lo ≤ hi) (hc : 0 < c) (ht : 0 < t) (k : ℕ)
    (hk : (Real.sqrt (hi / lo) + 1) / 2 * Real.log (c / t) ≤ k) : c * rate lo hi ^ k ≤ t := by
  have hs : 0 < Real.sqrt (hi / lo) + 1 := by positivity
  have h1 : rate lo hi ^ k ≤ Real.exp (-(Real.log (c / t))) := by
    refine (pow_le_pow_left₀ (rate_nonneg h) (rate_le_exp h0 h) k).trans ?_
    rw [← Real.exp_nat_mul, Real.exp_le_exp, mul_neg, neg_le_neg_iff]
    calc Real.log (c / t) = (Real.sqrt (hi / lo) + 1) / 2 * Real.log (c / t) * (2 / (Real.sqrt (hi / lo) + 1)) := by
          field_simp
      _ ≤ k * (2 / (Real.sqrt (hi / lo) + 1)) := mul_le_mul_of_nonneg_right hk (by positivity)
  rw [Real.exp_neg, Real.exp_log (by positivity)] at h1
  calc c * rate lo hi ^ k ≤ c * (c / t)⁻¹ := mul_le_mul_of_nonneg_left h1 hc.le
    _ = t := by field_simp

/-- **C72, CG: the number of iterations in terms of the condition number.** Under the hypotheses of `C72_cg`, with `reltol > 0`, CG
converges within `k` iterations for every `k` that is at least `(sqrt(κ) + 1) / 2 * log(2 sqrt(κ) / reltol)`, if the budget allows
`k` iterations. The dimension of the space does not appear. -/
theorem C72_cg_condition [FiniteDimensional ℝ E] (q : CGProblem E) (hA : ∀ u v, ⟪q.A u, v⟫ = ⟪u, q.A v⟫) {lo hi : ℝ}
    (h0 : 0 < lo) (h : lo ≤ hi) (hs : SpectrumIn q.A lo hi) (n : ℕ) (self : CGObj Fl (Vec E)) (kw : CGKw (Vec E)) (hk : kw.Runs)
    (hg : kw.guess = q.guess.map Vec.fin) (hat : 0 ≤ q.abstol) (hrt : 0 < q.reltol) (k : ℕ)
    (hr : (Real.sqrt (hi / lo) + 1) / 2 * Real.log (2 * Real.sqrt (hi / lo) / q.reltol) ≤ k)
    (hm : k + (if kw.guess.isSome then 1 else 0) ≤ kw.matvecMax.getD (2 * n)) :
    let res := (cgSolve (Vec.op q.A) q.opts n self (.fin q.b) kw).1
    res.converged = true ∧ res.nMatvec ≤ k + (if kw.guess.isSome then 1 else 0) ∧
    ∃ x, res.x = some (.fin x) ∧ ‖q.b - q.A x‖ ≤ max q.abstol (q.reltol * ‖q.b - q.A (startPoint q.guess)‖) := by
  have hh : 0 < hi := h0.trans_le h
  obtain ⟨h1, h2⟩ := C72_cg_iterations q hA h0 h hs n self kw hk hg hat k
    (rate_pow_le h0 h (by positivity) hrt k hr) hm
  obtain ⟨x, hx, -, hxt⟩ := (C27_converged q n self kw hk hg).1 h1
  exact ⟨h1, h2, x, hx, hxt⟩

/-! ### MINRES -/

/-- **C72 (partial), MINRES.** In exact arithmetic, MINRES without preconditioner on a symmetric operator, if the absolute values of
the eigenvalues of `A - shift I` lie between `lo > 0` and `hi`, where `lo` is at least the machine precision `ε`: unless the solve
breaks down with `istop = -1` (`C34_beta2_nan`), the residual norm of the iterate `2 k` is at most
`2 ((κ - 1) / (κ + 1))^k` times the norm of the right-hand side, where `κ = hi / lo`; and if the eigenvalues are positive, the residual
norm of the iterate `k` is at most `2 ((sqrt(κ) - 1) / (sqrt(κ) + 1))^k` times that norm. The returned `x` is the last iterate.
Missing, because the code violates it: smaller eigenvalues (`C35_clipped`). -/
theorem C72_minres_partial [FiniteDimensional ℝ E] (q : MinresProblem E) (hA : ∀ u v, ⟪q.A u, v⟫ = ⟪u, q.A v⟫) (ε : ℝ)
    (hε : 0 < ε) {lo hi : ℝ} (hlo : ε ≤ lo) (h : lo ≤ hi)
    (hs : ∀ z, lo * ‖z‖ ≤ ‖q.A z - q.shift • z‖ ∧ ‖q.A z - q.shift • z‖ ≤ hi * ‖z‖) (hw : q.window ≠ 0) (n : ℕ)
    (self : MinresObj Fl (Vec E)) :
    ∃ res products, minresSolve (Vec.op q.A) (.fin ε) n self (.fin q.b) q.kw = .ok (res, products) ∧
      (res.istop ≠ -1 → res.x ≠ .nan) ∧
      ∀ x, res.x = .fin x → ∃ xs : List E, xs.length = products.length ∧ (0 :: xs).getLast? = some x ∧
        res.residHistory = self.residHistory ++ xs.map (fun x => Fl.fin ‖q.b - (q.A x - q.shift • x)‖) ∧
        ∀ (i : ℕ) (y : E), (0 :: xs)[i]? = some y →
          ‖q.b - (q.A y - q.shift • y)‖ ≤ 2 * ((hi - lo) / (hi + lo)) ^ (i / 2) * ‖q.b‖ ∧
          ((∀ z, 0 ≤ ⟪z, q.A z - q.shift • z⟫) → ‖q.b - (q.A y - q.shift • y)‖ ≤ 2 * rate lo hi ^ i * ‖q.b‖) := by
  have h0 : 0 < lo := hε.trans_le hlo
  have hh : 0 < hi := h0.trans_le h
  have hBx : ∀ x, q.A x - q.shift • x = q.B x := fun x => by simp [MinresProblem.B]
  have hB : ∀ u v, ⟪q.B u, v⟫ = ⟪u, q.B v⟫ := by
    intro u v
    rw [← hBx, ← hBx, inner_sub_left, inner_sub_right, hA, real_inner_smul_left, real_inner_smul_right]
  obtain ⟨res, products, hr, hn, hx⟩ := C35_residual_partial q hA ε hε
    (fun z => (mul_le_mul_of_nonneg_right hlo (norm_nonneg z)).trans (hs z).1) hw n self
  refine ⟨res, products, hr, hn, fun x hx' => ?_⟩
  obtain ⟨xs, k1, k2, k3, -, -, -, k4⟩ := hx x hx'
  refine ⟨xs, k1, k2, k3, fun i y hy => ?_⟩
  have hmin := (k4 i y hy).2
  have hBd : q.A - q.shift • LinearMap.id = q.B := rfl
  simp only [hBx, hBd] at hmin hs ⊢
  constructor
  · have hsq : SpectrumIn (q.B ∘ₗ q.B) (lo ^ 2) (hi ^ 2) := by
      intro z
      rw [LinearMap.comp_apply, ← hB, real_inner_self_eq_norm_sq, ← mul_pow, ← mul_pow]
      exact ⟨pow_le_pow_left₀ (by positivity) (hs z).1 2, pow_le_pow_left₀ (norm_nonneg _) (hs z).2 2⟩
    have hsym : ∀ u v, ⟪(q.B ∘ₗ q.B) u, v⟫ = ⟪u, (q.B ∘ₗ q.B) v⟫ := by
      intro u v
      rw [LinearMap.comp_apply, LinearMap.comp_apply, hB, hB]
    obtain ⟨w, hw1, hw2, -⟩ := exists_krylov_point hsym (by positivity) (pow_le_pow_left₀ h0.le h 2) hsq q.b (i / 2)
    have e : rate (lo ^ 2) (hi ^ 2) = (hi - lo) / (hi + lo) := by
      unfold rate
      rw [Real.sqrt_sq h0.le, Real.sqrt_sq hh.le]
    rw [e] at hw2
    exact (hmin _ (krylov_mono _ _ (by omega) (krylov_square q.B q.b (i / 2) hw1))).trans hw2
  · intro hpos
    -- a positive semidefinite map with these singular values has these eigenvalues
    have hsp : SpectrumIn q.B lo hi := by
      have hcs : ∀ z, ⟪z, q.B z⟫ ≤ hi * ‖z‖ ^ 2 := fun z => by
        have := (real_inner_le_norm z (q.B z)).trans (mul_le_mul_of_nonneg_left (hs z).2 (norm_nonneg z))
        nlinarith
      intro z
      refine ⟨?_, hcs z⟩
      have hsym : q.B.IsSymmetric := hB
      let e := hsym.eigenvectorBasis rfl
      let l : Fin (Module.finrank ℝ E) → ℝ := hsym.eigenvalues rfl
      have he : ∀ i, q.B (e i) = l i • e i := fun i => hsym.apply_eigenvectorBasis rfl i
      have hn : ∀ i, ‖e i‖ = 1 := fun i => e.norm_eq_one i
      have hl : ∀ i, lo ≤ l i := by
        intro i
        have h1 := hpos (e i)
        have h2 := (hs (e i)).1
        rw [he, real_inner_smul_right, real_inner_self_eq_norm_sq, hn] at h1
        rw [he, norm_smul, hn, Real.norm_eq_abs, abs_of_nonneg (by linarith)] at h2
        linarith
      have hnorm : ‖z‖ ^ 2 = ∑ i, (⟪e i, z⟫ : ℝ) ^ 2 := by
        rw [← e.sum_sq_norm_inner_right z]
        refine Finset.sum_congr rfl fun i _ => ?_
        rw [Real.norm_eq_abs, sq_abs]
      have henergy : (⟪z, q.B z⟫ : ℝ) = ∑ i, l i * (⟪e i, z⟫ : ℝ) ^ 2 := by
        rw [← e.sum_inner_mul_inner]
        refine Finset.sum_congr rfl fun i _ => ?_
        rw [← hB, he, real_inner_smul_left, real_inner_comm z]; ring
      rw [hnorm, henergy, Finset.mul_sum]
      exact Finset.sum_le_sum fun i _ => mul_le_mul_of_nonneg_right (hl i) (sq_nonneg _)
    obtain ⟨w, hw1, hw2, -⟩ := exists_krylov_point hB h0 h hsp q.b i
    exact (hmin w hw1).trans hw2

/-! ### Least-squares solvers -/

/-- `A'A + t I` -/
theorem normal_symm {A : E →ₗ[ℝ] F} {B : F →ₗ[ℝ] E} (adj : ∀ x y, ⟪A x, y⟫ = ⟪x, B y⟫) (t : ℝ) (u v : E) :
    ⟪(B ∘ₗ A + t • LinearMap.id : E →ₗ[ℝ] E) u, v⟫ = ⟪u, (B ∘ₗ A + t • LinearMap.id : E →ₗ[ℝ] E) v⟫ := by
  simp only [LinearMap.add_apply, LinearMap.comp_apply, LinearMap.smul_apply, LinearMap.id_apply, inner_add_left, inner_add_right,
    real_inner_smul_left, real_inner_smul_right]
  rw [← adj u, real_inner_comm, ← adj v, real_inner_comm]

theorem normal_spectrum {A : E →ₗ[ℝ] F} {B : F →ₗ[ℝ] E} (adj : ∀ x y, ⟪A x, y⟫ = ⟪x, B y⟫) {t lo hi : ℝ}
    (hs : ∀ z, lo * ‖z‖ ^ 2 ≤ ‖A z‖ ^ 2 + t * ‖z‖ ^ 2 ∧ ‖A z‖ ^ 2 + t * ‖z‖ ^ 2 ≤ hi * ‖z‖ ^ 2) :
    SpectrumIn (B ∘ₗ A + t • LinearMap.id) lo hi := by
  intro z
  have e : ⟪z, (B ∘ₗ A + t • LinearMap.id : E →ₗ[ℝ] E) z⟫ = ‖A z‖ ^ 2 + t * ‖z‖ ^ 2 := by
    simp only [LinearMap.add_apply, LinearMap.comp_apply, LinearMap.smul_apply, LinearMap.id_apply, inner_add_right,
      real_inner_smul_right]
    rw [← adj, real_inner_self_eq_norm_sq, real_inner_self_eq_norm_sq]
  rw [e]; exact hs z

/-- **C72, LSQR.** In exact arithmetic, without preconditioners, for every operator, right-hand side, damping and keywords: if the
eigenvalues of `A'A + damp^2 I` lie between `lo > 0` and `hi`, then there are iterates, starting with 0 and ending with the returned
`x` (stored if this is requested), such that the value `f(x) = |b - Ax|^2 + damp^2 |x|^2` at the iterate `k` exceeds its minimum
by at most `(2 ((sqrt(κ) - 1) / (sqrt(κ) + 1))^k)^2` times the excess of `f(0) = |b|^2`, where `κ = hi / lo`, the squared condition
number of `A` if `damp = 0`; and the squared distance to the minimizer is at most `1 / lo` times that. -/
theorem C72_lsqr [FiniteDimensional ℝ E] (q : LsqrProblem E F) (hq : q.Valid) {lo hi : ℝ} (h0 : 0 < lo) (h : lo ≤ hi)
    (hs : ∀ z, lo * ‖z‖ ^ 2 ≤ ‖q.A z‖ ^ 2 + q.damp ^ 2 * ‖z‖ ^ 2 ∧ ‖q.A z‖ ^ 2 + q.damp ^ 2 * ‖z‖ ^ 2 ≤ hi * ‖z‖ ^ 2) :
    let f : E → ℝ := fun x => ‖q.b - q.A x‖ ^ 2 + q.damp ^ 2 * ‖x‖ ^ 2
    ∃ res s, ∃ xs : List E, lsqrSolve (Vec.op q.A) (Vec.op q.B) q.n (.fin q.b) q.kw = .ok (res, s) ∧
      res.itn = xs.length ∧ res.x = (0 :: xs).getLast?.elim .nan Vec.fin ∧
      (q.storeIterates = true → res.iterates = (0 :: xs).map Vec.fin) ∧
      ∃ sol : E, (∀ y, f sol ≤ f y) ∧ ∀ (k : ℕ) (x : E), (0 :: xs)[k]? = some x →
        f x - f sol ≤ (2 * rate lo hi ^ k) ^ 2 * (‖q.b‖ ^ 2 - f sol) ∧
        lo * ‖x - sol‖ ^ 2 ≤ (2 * rate lo hi ^ k) ^ 2 * (‖q.b‖ ^ 2 - f sol) := by
  intro f
  obtain ⟨res, s, xs, hr, hi1, hx, hst, -, -, hb⟩ := C38_true_norms q hq
  refine ⟨res, s, xs, hr, hi1, by rw [hx, List.getLast?_eq_some_getLast (by simp)]; rfl, hst, ?_⟩
  set G : E →ₗ[ℝ] E := q.B ∘ₗ q.A + q.damp ^ 2 • LinearMap.id with hG
  have hsym := normal_symm hq.adj (q.damp ^ 2)
  have hsp := normal_spectrum hq.adj hs
  rw [← hG] at hsp
  obtain ⟨sol, hsol⟩ := surj_of_spectrum h0 hsp (q.B q.b)
  have hGx : ∀ x, G x = q.B (q.A x) + q.damp ^ 2 • x := fun x => rfl
  have hf : ∀ x, f x = f sol + ⟪x - sol, G (x - sol)⟫ := by
    intro x
    have e1 : ∀ x, f x = ‖q.b‖ ^ 2 - 2 * ⟪x, q.B q.b⟫ + ⟪x, G x⟫ := by
      intro x
      simp only [f, hGx]
      rw [← real_inner_self_eq_norm_sq, inner_sub_left, inner_sub_right, inner_sub_right, inner_add_right, ← hq.adj, ← hq.adj,
        real_inner_smul_right, real_inner_self_eq_norm_sq, real_inner_self_eq_norm_sq, real_inner_self_eq_norm_sq,
        real_inner_comm (q.A x) q.b]
      ring
    have e2 : ⟪sol, G x⟫ = ⟪x, q.B q.b⟫ := by
      rw [← hsol]
      have := hsym sol x
      rw [← hG] at this
      rw [← this, real_inner_comm]
    rw [e1 x, e1 sol, map_sub, inner_sub_left, inner_sub_right, inner_sub_right, e2, hsol]
    ring
  have hnn : ∀ z, 0 ≤ ⟪z, G z⟫ := fun z => le_trans (by positivity) (hsp z).1
  have hf0 : ‖q.b‖ ^ 2 - f sol = ⟪sol, G sol⟫ := by
    have h1 := hf 0
    have h2 : f 0 = ‖q.b‖ ^ 2 := by simp [f]
    rw [h2, zero_sub, map_neg, inner_neg_neg] at h1
    linarith
  refine ⟨sol, fun y => by rw [hf y]; linarith [hnn (y - sol)], fun k x hx => ?_⟩
  rw [hf0]
  have hmin : ∀ y ∈ krylov (q.B ∘ₗ q.A) (q.B q.b) k, f x ≤ f y := by
    cases k with
    | zero =>
      intro y hy
      have hy : y = 0 := by simpa [krylov] using hy
      have hx : x = 0 := by simpa using hx.symm
      rw [hx, hy]
    | succ i =>
      intro y hy
      rw [List.getElem?_cons_succ] at hx
      obtain ⟨hi', rfl⟩ := List.getElem?_eq_some_iff.1 hx
      exact (hb i hi').2 y hy
  obtain ⟨y, hy, -, hy2⟩ := exists_krylov_point hsym h0 h hsp (q.B q.b) k
  have h1 := hmin y (krylov_shift _ _ _ _ hy)
  have h2 := hy2 sol hsol
  have e3 : ⟪sol - y, G (sol - y)⟫ = ⟪y - sol, G (y - sol)⟫ := by
    rw [← neg_sub y sol, map_neg, inner_neg_neg]
  rw [← hG, e3] at h2
  rw [hf x, hf y] at h1
  have h3 : ⟪x - sol, G (x - sol)⟫ ≤ (2 * rate lo hi ^ k) ^ 2 * ⟪sol, G sol⟫ := by linarith
  exact ⟨by rw [hf x]; linarith, (hsp (x - sol)).1.trans h3⟩

/-- **C72, LSMR.** In exact arithmetic, without preconditioners, under the hypotheses of `C72_lsqr` on the operator: if `solve`
returns (it may raise `ZeroDivisionError`, see `C51_true_norms`), then there are iterates, starting with 0 and ending with the
returned `x` (stored if this is requested), such that the residual norm `|A'(b - Ax) - damp^2 x|` of the normal equations at the
iterate `k` is at most `2 ((sqrt(κ) - 1) / (sqrt(κ) + 1))^k` times the norm of `A'b`. -/
theorem C72_lsmr [FiniteDimensional ℝ E] (q : LsmrProblem E F) (hq : q.Valid) (selfX : Option (Vec E)) {lo hi : ℝ} (h0 : 0 < lo)
    (h : lo ≤ hi)
    (hs : ∀ z, lo * ‖z‖ ^ 2 ≤ ‖q.A z‖ ^ 2 + q.damp ^ 2 * ‖z‖ ^ 2 ∧ ‖q.A z‖ ^ 2 + q.damp ^ 2 * ‖z‖ ^ 2 ≤ hi * ‖z‖ ^ 2) :
    lsmrSolve (Vec.op q.A) (Vec.op q.B) q.m q.n (.fin q.b) q.kw selfX = .error .zeroDivision ∨
    ∃ res s, ∃ xs : List E, lsmrSolve (Vec.op q.A) (Vec.op q.B) q.m q.n (.fin q.b) q.kw selfX = .ok (res, s) ∧
      res.itn = xs.length ∧ res.x = (0 :: xs).getLast?.elim .nan Vec.fin ∧
      (q.storeIterates = true → res.iterates = (0 :: xs).map Vec.fin) ∧
      ∀ (k : ℕ) (x : E), (0 :: xs)[k]? = some x →
        ‖q.B (q.b - q.A x) - (q.damp * q.damp) • x‖ ≤ 2 * rate lo hi ^ k * ‖q.B q.b‖ := by
  rcases C51_true_norms q hq selfX with ⟨res, s, xs, hr, hi1, hx, hst, -, -, hb, -⟩ | ⟨he, -⟩
  · refine Or.inr ⟨res, s, xs, hr, hi1, by rw [hx, List.getLast?_eq_some_getLast (by simp)]; rfl, hst, fun k x hx => ?_⟩
    have hmin : ∀ y ∈ krylov (q.B ∘ₗ q.A) (q.B q.b) k,
        ‖q.B (q.b - q.A x) - (q.damp * q.damp) • x‖ ≤ ‖q.B (q.b - q.A y) - (q.damp * q.damp) • y‖ := by
      cases k with
      | zero =>
        intro y hy
        have hy : y = 0 := by simpa [krylov] using hy
        have hx : x = 0 := by simpa using hx.symm
        rw [hx, hy]
      | succ i =>
        intro y hy
        rw [List.getElem?_cons_succ] at hx
        obtain ⟨hi', rfl⟩ := List.getElem?_eq_some_iff.1 hx
        exact (hb i hi').2 y hy
    obtain ⟨y, hy, hy1, -⟩ := exists_krylov_point (normal_symm hq.adj (q.damp ^ 2)) h0 h (normal_spectrum hq.adj hs) (q.B q.b) k
    refine (hmin y (krylov_shift _ _ _ _ hy)).trans ?_
    have e : q.B (q.b - q.A y) - (q.damp * q.damp) • y =
        q.B q.b - (q.B ∘ₗ q.A + q.damp ^ 2 • LinearMap.id : E →ₗ[ℝ] E) y := by
      rw [map_sub, LinearMap.add_apply, LinearMap.comp_apply, LinearMap.smul_apply, LinearMap.id_apply, sq]; abel
    rw [e]; exact hy1
  · exact Or.inl he

/-- **C72, CRAIG.** In exact arithmetic, without preconditioners, for every operator with `|A'z| ≤ σ |z|`, nonzero right-hand side and
keywords with a positive iteration limit: there are vectors `rs`, one for each iteration and one for the start, the last of which is
the returned `r`, such that the error of `rs k`, in the norm `sqrt(|A'z|^2 + |z|^2)`, with respect to the solution of `(AA' + I) z = b`
is at most `2 ((sqrt(κ) - 1) / (sqrt(κ) + 1))^(k+1)` times the norm of that solution, where `κ = 1 + σ^2`; the returned `x` is `A'r`. -/
theorem C72_craig [FiniteDimensional ℝ F] (q : CraigProblem E F) (hq : q.Valid) (hb : q.b ≠ 0) (hl : 1 ≤ q.limit) (σ : ℝ)
    (hσ : ∀ z, ‖q.B z‖ ^ 2 ≤ σ ^ 2 * ‖z‖ ^ 2) :
    ∃ res s, craigSolve (Vec.op q.A) (Vec.op q.B) q.n (.fin q.b) q.kw = .ok (res, s) ∧
    ∃ rs : List F, rs.length = res.itn + 1 ∧
      res.r = .fin (rs.getLastD 0) ∧ res.x = .fin (q.B (rs.getLastD 0)) ∧
      ∃ sol : F, q.A (q.B sol) + sol = q.b ∧ ∀ (k : ℕ) (r : F), rs[k]? = some r →
        ‖q.B (r - sol)‖ ^ 2 + ‖r - sol‖ ^ 2 ≤ (2 * rate 1 (1 + σ ^ 2) ^ (k+1)) ^ 2 * (‖q.B sol‖ ^ 2 + ‖sol‖ ^ 2) := by
  obtain ⟨res, s, hr, rs, k1, k2, k3, k4, -⟩ := C52_true_norms q hq hb hl
  refine ⟨res, s, hr, rs, k1, k2, k3, ?_⟩
  have adj : ∀ x y, ⟪q.B x, y⟫ = ⟪x, q.A y⟫ := fun x y => by rw [real_inner_comm, ← hq.adj, real_inner_comm]
  have hsym := normal_symm adj 1
  have hsp : SpectrumIn (q.A ∘ₗ q.B + (1:ℝ) • LinearMap.id) 1 (1 + σ ^ 2) := normal_spectrum adj fun z => by
    have := hσ z
    have := sq_nonneg ‖q.B z‖
    constructor <;> linarith
  have hle : (1:ℝ) ≤ 1 + σ ^ 2 := by linarith [sq_nonneg σ]
  obtain ⟨sol, hsol⟩ := surj_of_spectrum one_pos hsp q.b
  have hK : ∀ z, (q.A ∘ₗ q.B + (1:ℝ) • LinearMap.id : F →ₗ[ℝ] F) z = q.A (q.B z) + z := fun z => by
    rw [LinearMap.add_apply, LinearMap.comp_apply, LinearMap.smul_apply, LinearMap.id_apply, one_smul]
  have hE : ∀ z, ⟪z, (q.A ∘ₗ q.B + (1:ℝ) • LinearMap.id : F →ₗ[ℝ] F) z⟫ = ‖q.B z‖ ^ 2 + ‖z‖ ^ 2 := by
    intro z
    rw [hK, inner_add_right, ← adj, real_inner_self_eq_norm_sq, real_inner_self_eq_norm_sq]
  refine ⟨sol, by rw [← hK]; exact hsol, fun k r hk => ?_⟩
  obtain ⟨hk', rfl⟩ := List.getElem?_eq_some_iff.1 hk
  obtain ⟨y, hy, -, hy2⟩ := exists_krylov_point hsym one_pos hle hsp q.b (k+1)
  have h1 := (k4 k hk').2 y (krylov_shift _ _ _ _ hy) sol (by rw [← hK]; exact hsol)
  have h2 := hy2 sol hsol
  rw [hE, hE, norm_sub_rev sol y, map_sub, norm_sub_rev (q.B sol), ← map_sub] at h2
  exact h1.trans h2

/-- **C72, CRAIG-MR.** In exact arithmetic, without preconditioners, for every operator with `|A'z| ≤ σ |z|`, right-hand side and
keywords: there are vectors `xs`, one for each iteration and one for the start, the last of which is the returned `x`, such that the
residual norm of `(AA' + I) x = b` at `xs k` is at most `2 ((sqrt(κ) - 1) / (sqrt(κ) + 1))^k` times the norm of `b`, where
`κ = 1 + σ^2`. -/
theorem C72_craigmr [FiniteDimensional ℝ F] (q : CraigmrProblem E F) (hq : q.Valid) (σ : ℝ)
    (hσ : ∀ z, ‖q.B z‖ ^ 2 ≤ σ ^ 2 * ‖z‖ ^ 2) :
    ∃ res s, craigmrSolve (Vec.op q.A) (Vec.op q.B) q.m q.n (.fin q.b) q.kw = .ok (res, s) ∧
    ∃ xs : List F, xs.length = res.itn + 1 ∧ res.x = .fin (xs.getLastD 0) ∧
      (q.storeIterates = true → res.iterates = xs.map Vec.fin) ∧
      ∀ (k : ℕ) (x : F), xs[k]? = some x → ‖q.b - (x + q.A (q.B x))‖ ≤ 2 * rate 1 (1 + σ ^ 2) ^ k * ‖q.b‖ := by
  obtain ⟨res, s, hr, xs, k1, k2, k3, k4, -⟩ := C53_minimizes q hq
  refine ⟨res, s, hr, xs, k1, k2, k4, fun k x hk => ?_⟩
  have adj : ∀ x y, ⟪q.B x, y⟫ = ⟪x, q.A y⟫ := fun x y => by rw [real_inner_comm, ← hq.adj, real_inner_comm]
  have hsym := normal_symm adj 1
  have hsp : SpectrumIn (q.A ∘ₗ q.B + (1:ℝ) • LinearMap.id) 1 (1 + σ ^ 2) := normal_spectrum adj fun z => by
    have := hσ z
    have := sq_nonneg ‖q.B z‖
    constructor <;> linarith
  have hle : (1:ℝ) ≤ 1 + σ ^ 2 := by linarith [sq_nonneg σ]
  obtain ⟨hk', rfl⟩ := List.getElem?_eq_some_iff.1 hk
  obtain ⟨y, hy, hy1, -⟩ := exists_krylov_point hsym one_pos hle hsp q.b k
  have h1 := (k3 k hk').2 y (krylov_shift _ _ _ _ hy)
  refine h1.trans ?_
  have e : y + q.A (q.B y) = (q.A ∘ₗ q.B + (1:ℝ) • LinearMap.id : F →ₗ[ℝ] F) y := by
    rw [LinearMap.add_apply, LinearMap.comp_apply, LinearMap.smul_apply, LinearMap.id_apply, one_smul, add_comm]
  rw [e]; exact hy1

/-! ### Instances

`I + u u'`, in a space of any dimension, has its eigenvalues between 1 and `1 + |u|^2`; for `|u|^2 = 3`, the factor is 1/3. -/

theorem rankOneUpdate_spectrum (u : E) : SpectrumIn (rankOneUpdate u) 1 (1 + ‖u‖ ^ 2) := by
  intro z
  rw [rankOneUpdate_inner]
  have h1 := abs_real_inner_le_norm u z
  have h2 : (⟪u, z⟫ : ℝ) ^ 2 ≤ (‖u‖ * ‖z‖) ^ 2 := sq_le_sq.2 (by rwa [abs_of_nonneg (by positivity : 0 ≤ ‖u‖ * ‖z‖)])
  constructor
  · nlinarith [sq_nonneg (⟪u, z⟫ : ℝ)]
  · rw [mul_pow] at h2; linarith

theorem rate_one_four : rate 1 (1 + 3) = 1 / 3 := by
  unfold rate
  have : Real.sqrt (1 + 3) = 2 := by
    rw [show (1 + 3 : ℝ) = 2 ^ 2 by norm_num]; exact Real.sqrt_sq (by norm_num)
  rw [this, Real.sqrt_one]; norm_num

/-- the hypotheses of `C72_cg` are met -/
example [FiniteDimensional ℝ E] (u b : E) (hu : ‖u‖ ^ 2 = 3) (kw : CGKw (Vec E)) (hk : kw.Runs) (hg : kw.guess = none) :
    let res := (cgSolve (Vec.op (rankOneUpdate u)) (CGProblem.opts ⟨rankOneUpdate u, b, none, 0, 1/1000⟩) (Module.finrank ℝ E)
      {} (.fin b) kw).1
    ∃ its : List E, res.residHistory = its.map (fun x => Fl.fin ‖b - rankOneUpdate u x‖) ∧
      ∀ (k : ℕ) (x : E), its[k]? = some x → ‖b - rankOneUpdate u x‖ ≤ 4 * (1 / 3) ^ k * ‖b‖ := by
  have hs := rankOneUpdate_spectrum u
  rw [hu] at hs
  obtain ⟨its, -, -, -, -, h1, h2⟩ := C72_cg ⟨rankOneUpdate u, b, none, 0, 1/1000⟩ (rankOneUpdate_symm u) one_pos (by norm_num) hs
    (Module.finrank ℝ E) {} kw hk hg le_rfl
  refine ⟨its, h1, fun k x hx => ?_⟩
  have h3 := (h2 k x hx).2.2
  have e : Real.sqrt ((1 + 3) / 1) = 2 := by
    rw [show ((1 + 3) / 1 : ℝ) = 2 ^ 2 by norm_num]; exact Real.sqrt_sq (by norm_num)
  rw [rate_one_four, e] at h3
  simp only [startPoint, Option.getD_none, map_zero, sub_zero] at h3
  linarith

/-- the hypotheses of `C72_cg_iterations` are met: `4 (1/3)^8 ≤ 1/1000`, in a space of any dimension from 4 on -/
example [FiniteDimensional ℝ E] (u b : E) (hu : ‖u‖ ^ 2 = 3) (hd : 4 ≤ Module.finrank ℝ E) :
    let res := (cgSolve (Vec.op (rankOneUpdate u)) (CGProblem.opts ⟨rankOneUpdate u, b, none, 0, 1/1000⟩) (Module.finrank ℝ E)
      {} (.fin b) {}).1
    res.converged = true ∧ res.nMatvec ≤ 8 := by
  have hs := rankOneUpdate_spectrum u
  rw [hu] at hs
  refine C72_cg_iterations ⟨rankOneUpdate u, b, none, 0, 1/1000⟩ (rankOneUpdate_symm u) one_pos (by norm_num) hs
    (Module.finrank ℝ E) {} {} rfl rfl le_rfl 8 ?_ ?_
  · have e : Real.sqrt ((1 + 3) / 1) = 2 := by
      rw [show ((1 + 3) / 1 : ℝ) = 2 ^ 2 by norm_num]; exact Real.sqrt_sq (by norm_num)
    rw [rate_one_four, e]; norm_num
  · change 8 ≤ 2 * Module.finrank ℝ E; omega

/-- the hypotheses of `C72_cg_condition` are met, with the budget that it asks for -/
example [FiniteDimensional ℝ E] (u b : E) (k : ℕ)
    (hk : (Real.sqrt ((1 + ‖u‖ ^ 2) / 1) + 1) / 2 * Real.log (2 * Real.sqrt ((1 + ‖u‖ ^ 2) / 1) / (1/1000)) ≤ k) :
    let res := (cgSolve (Vec.op (rankOneUpdate u)) (CGProblem.opts ⟨rankOneUpdate u, b, none, 0, 1/1000⟩) (Module.finrank ℝ E)
      {} (.fin b) { matvecMax := some k }).1
    res.converged = true ∧ res.nMatvec ≤ k := by
  obtain ⟨h1, h2, -⟩ := C72_cg_condition ⟨rankOneUpdate u, b, none, 0, 1/1000⟩ (rankOneUpdate_symm u) one_pos
    (by linarith [sq_nonneg ‖u‖]) (rankOneUpdate_spectrum u) (Module.finrank ℝ E) {} { matvecMax := some k } rfl rfl le_rfl
    (by norm_num) k hk le_rfl
  exact ⟨h1, h2⟩

/-- the hypotheses of `C72_minres_partial` are met -/
example [FiniteDimensional ℝ E] (u b : E) (hu : ‖u‖ ^ 2 = 3) :
    ∃ res products, minresSolve (Vec.op (rankOneUpdate u)) (.fin (1/1000)) (Module.finrank ℝ E) {} (.fin b)
      (MinresProblem.kw ⟨rankOneUpdate u, b, 0, false, none, 0, 0, false, 5⟩) = .ok (res, products) ∧
      ∀ x, res.x = .fin x → ‖b - rankOneUpdate u x‖ ≤ 2 * (1 / 3) ^ products.length * ‖b‖ := by
  obtain ⟨res, products, h1, -, h2⟩ := C72_minres_partial ⟨rankOneUpdate u, b, 0, false, none, 0, 0, false, 5⟩ (rankOneUpdate_symm u)
    (1/1000) (by norm_num) (lo := 1) (hi := 1 + 3) (by norm_num) (by norm_num) (fun z => by
      simp only [zero_smul, sub_zero]
      refine ⟨by rw [one_mul]; exact rankOneUpdate_norm u z, ?_⟩
      change ‖z + (⟪u, z⟫ : ℝ) • u‖ ≤ _
      refine (norm_add_le _ _).trans ?_
      rw [norm_smul, Real.norm_eq_abs]
      have h1 := mul_le_mul_of_nonneg_right (abs_real_inner_le_norm u z) (norm_nonneg u)
      have e : ‖u‖ * ‖z‖ * ‖u‖ = 3 * ‖z‖ := by rw [← hu]; ring
      linarith) (by simp) (Module.finrank ℝ E) {}
  refine ⟨res, products, h1, fun x hx => ?_⟩
  obtain ⟨xs, k1, k2, -, k3⟩ := h2 x hx
  have h3 := (k3 products.length x (by rw [← k1, ← k2, List.getLast?_eq_getElem?]; simp)).2 (fun z => by
    have := (rankOneUpdate_spectrum u z).1
    simp only [zero_smul, sub_zero]
    exact le_trans (by positivity) this)
  rw [rate_one_four] at h3
  simpa using h3

/-- the hypotheses of `C72_lsqr` are met: damping 1, and a row of squared norm 3 -/
example [FiniteDimensional ℝ E] (u : E) (hu : ‖u‖ ^ 2 = 3) (b : ℝ) :
    ∃ res s, ∃ xs : List E, lsqrSolve (Vec.op (row u)) (Vec.op (col u)) 7 (.fin b)
      (LsqrProblem.kw ⟨row u, col u, b, 7, 1, 9, 0, 0, 0, 0, false, false, 5⟩) = .ok (res, s) ∧ res.itn = xs.length ∧
      ∃ sol : E, ∀ (k : ℕ) (x : E), (0 :: xs)[k]? = some x → 1 * ‖x - sol‖ ^ 2 ≤ (2 * (1 / 3) ^ k) ^ 2 * ‖b‖ ^ 2 := by
  have hrow : ∀ z : E, ‖row u z‖ ^ 2 ≤ 3 * ‖z‖ ^ 2 := fun z => by
    have h1 := abs_real_inner_le_norm u z
    rw [← hu, ← mul_pow]
    exact pow_le_pow_left₀ (norm_nonneg _) (by simpa [row] using h1) 2
  obtain ⟨res, s, xs, h1, h2, -, -, sol, h3, h4⟩ := C72_lsqr (E := E) (F := ℝ) ⟨row u, col u, b, 7, 1, 9, 0, 0, 0, 0, false, false, 5⟩
    ⟨row_adj u, le_rfl, le_rfl, by simp⟩ (lo := 1) (hi := 1 + 3) one_pos (by norm_num) (fun z => by
      have := hrow z
      have := sq_nonneg ‖row u z‖
      constructor <;> linarith)
  refine ⟨res, s, xs, h1, h2, sol, fun k x hx => ((h4 k x hx).2).trans ?_⟩
  rw [rate_one_four]
  refine mul_le_mul_of_nonneg_left ?_ (sq_nonneg _)
  simp only
  have := sq_nonneg ‖b - row u sol‖
  have := sq_nonneg ‖sol‖
  linarith

/-- the hypotheses of `C72_lsmr` are met -/
example [FiniteDimensional ℝ E] (u : E) (hu : ‖u‖ ^ 2 = 3) (b : ℝ) :
    lsmrSolve (Vec.op (row u)) (Vec.op (col u)) 1 7 (.fin b)
      (LsmrProblem.kw ⟨row u, col u, b, 1, 7, 1, none, 0, 0, 0, 0, false, false, 5⟩) none = .error .zeroDivision ∨
    ∃ res s, ∃ xs : List E, lsmrSolve (Vec.op (row u)) (Vec.op (col u)) 1 7 (.fin b)
      (LsmrProblem.kw ⟨row u, col u, b, 1, 7, 1, none, 0, 0, 0, 0, false, false, 5⟩) none = .ok (res, s) ∧ res.itn = xs.length ∧
      ∀ (k : ℕ) (x : E), (0 :: xs)[k]? = some x →
        ‖col u (b - row u x) - ((1:ℝ) * 1) • x‖ ≤ 2 * rate 1 (1 + 3) ^ k * ‖col u b‖ := by
  have hrow : ∀ z : E, ‖row u z‖ ^ 2 ≤ 3 * ‖z‖ ^ 2 := fun z => by
    have h1 := abs_real_inner_le_norm u z
    rw [← hu, ← mul_pow]
    exact pow_le_pow_left₀ (norm_nonneg _) (by simpa [row] using h1) 2
  rcases C72_lsmr (E := E) (F := ℝ) ⟨row u, col u, b, 1, 7, 1, none, 0, 0, 0, 0, false, false, 5⟩
    ⟨row_adj u, le_rfl, by simp⟩ none (lo := 1) (hi := 1 + 3) one_pos (by norm_num) (fun z => by
      have := hrow z
      have := sq_nonneg ‖row u z‖
      constructor <;> linarith) with h | ⟨res, s, xs, h1, h2, -, -, h3⟩
  · exact Or.inl h
  · exact Or.inr ⟨res, s, xs, h1, h2, h3⟩

/-- the hypotheses of `C72_craig` are met -/
example (u : E) (hu : ‖u‖ ^ 2 = 3) :
    ∃ res s, craigSolve (Vec.op (row u)) (Vec.op (col u)) 7 (.fin (3:ℝ))
      (CraigProblem.kw ⟨row u, col u, 3, 7, 0, 1, 0, 0, 0, 0, false, false, 5⟩) = .ok (res, s) := by
  obtain ⟨res, s, h, -⟩ := C72_craig (E := E) (F := ℝ) ⟨row u, col u, 3, 7, 0, 1, 0, 0, 0, 0, false, false, 5⟩
    ⟨row_adj u, by simp⟩ (by simp) (by simp [CraigProblem.limit]) ‖u‖ (fun t => by
      simp only [col, LinearMap.toSpanSingleton_apply, norm_smul, mul_pow]; rw [mul_comm])
  exact ⟨res, s, h⟩

/-- the hypotheses of `C72_craigmr` are met -/
example (u : E) (b : ℝ) :
    ∃ res s, craigmrSolve (Vec.op (row u)) (Vec.op (col u)) 1 7 (.fin b)
      (CraigmrProblem.kw ⟨row u, col u, b, 1, 7, 0, some 2, 0, 0, 0, 0, false, false, 5⟩) = .ok (res, s) ∧
    ∃ xs : List ℝ, xs.length = res.itn + 1 ∧ ∀ (k : ℕ) (x : ℝ), xs[k]? = some x →
      ‖b - (x + row u (col u x))‖ ≤ 2 * rate 1 (1 + ‖u‖ ^ 2) ^ k * ‖b‖ := by
  obtain ⟨res, s, h, xs, h1, -, -, h2⟩ := C72_craigmr (E := E) (F := ℝ)
    ⟨row u, col u, b, 1, 7, 0, some 2, 0, 0, 0, 0, false, false, 5⟩ ⟨row_adj u, by simp⟩ ‖u‖ (fun t => by
      simp only [col, LinearMap.toSpanSingleton_apply, norm_smul, mul_pow]; rw [mul_comm])
  exact ⟨res, s, h, xs, h1, h2⟩

end Verif.Solver
