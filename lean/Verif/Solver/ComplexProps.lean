import Verif.Solver.ComplexMath
import Verif.Solver.CGExact

/-!
# C75: complex systems

Exact arithmetic with complex numbers (`Verif.Solver.Complex`).  `cdot u v` is the sum of the `u i * v i`, and `pseudo v` the square root of
the modulus of `cdot v v`; it is at most the norm of `v` and zero for some nonzero `v`, such as `(1, i)`.
-/

namespace Verif.Solver
open Scalar Vect

variable {ι : Type} [Fintype ι]

theorem pseudo_neg (v : EuclideanSpace ℂ ι) : pseudo (-v) = pseudo v := by
  simp [pseudo, cdot]

/-- A complex linear system and the options of a solver. -/
structure CxProblem (ι : Type) where
  A : EuclideanSpace ℂ ι →ₗ[ℂ] EuclideanSpace ℂ ι
  b : EuclideanSpace ℂ ι
  guess : Option (EuclideanSpace ℂ ι)
  abstol : ℝ
  reltol : ℝ
  precon : Option (CVec ι → CVec ι)

noncomputable def CxProblem.opts (q : CxProblem ι) : KrylovOpts Cx (CVec ι) :=
  { abstol := .fin q.abstol, reltol := .fin q.reltol, precon := q.precon }

/-- the guess, or zero -/
noncomputable def CxProblem.start (q : CxProblem ι) : EuclideanSpace ℂ ι := q.guess.getD 0

/-- the first residual -/
noncomputable def CxProblem.resid0 (q : CxProblem ι) : EuclideanSpace ℂ ι := q.b - q.A q.start

/-- the stopping threshold of the documentation -/
noncomputable def CxProblem.threshold (q : CxProblem ι) : ℝ := max q.abstol (q.reltol * ‖q.resid0‖)

/-- **C75 (CGS; partial).** For every complex linear operator, preconditioner, right-hand side, guess and options: if CGS sets
`converged`, the true residual norm of the returned `x` is at most `max(abstol, reltol * initial residual norm)`, unless `x` is the
starting point and no product was made; a finite `residNorm` is the true residual norm of `x` as soon as products were made.  Missing,
because the code violates it: the case without products (`C75_isotropic`). -/
theorem C75_cgs_partial (q : CxProblem ι) (n : Nat) (kw : KrylovKw (CVec ι)) (hg : kw.guess = q.guess.map CVec.fin) (hr : 0 ≤ q.reltol) :
    let res := (cgsSolve (CVec.op q.A) q.opts n (.fin q.b) kw).1
    (res.converged = true → ∃ x, res.x = .fin x ∧
      (‖q.b - q.A x‖ ≤ q.threshold ∨ x = q.start ∧ res.nMatvec = 0 ∧ pseudo q.resid0 ≤ max q.abstol (q.reltol * pseudo q.resid0))) ∧
    (∀ ρ, res.residNorm = .fin ρ → 0 < res.nMatvec → ∃ x, res.x = .fin x ∧ ρ = (‖q.b - q.A x‖ : ℂ)) := by
  have hthr : max q.abstol (q.reltol * pseudo q.resid0) ≤ q.threshold :=
    max_le_max_left _ (mul_le_mul_of_nonneg_left (pseudo_le_norm _) hr)
  have key : ∀ (mm : Nat) (r0 : CVec ι) (s0 : CGSLoop Cx (CVec ι)), CgsC q.A q.b q.start s0 →
      let s := cgsLoop (CVec.op q.A) q.precon (.fin ((max q.abstol (q.reltol * pseudo q.resid0) : ℝ) : ℂ)) mm r0 s0
      (le s.residNorm (.fin ((max q.abstol (q.reltol * pseudo q.resid0) : ℝ) : ℂ)) = true → ∃ x, s.x = .fin x ∧
        (‖q.b - q.A x‖ ≤ q.threshold ∨ x = q.start ∧ s.nMatvec = 0 ∧ pseudo q.resid0 ≤ max q.abstol (q.reltol * pseudo q.resid0))) ∧
      (∀ ρ, s.residNorm = .fin ρ → 0 < s.nMatvec → ∃ x, s.x = .fin x ∧ ρ = (‖q.b - q.A x‖ : ℂ)) := by
    intro mm r0 s0 h0 s
    have hinv : CgsC q.A q.b q.start s := (whileLoop_inv (CgsC q.A q.b q.start)
      (fun s hs _ => cgsStep_C q.precon _ mm r0 s hs) s0 h0).1
    constructor
    · intro hle
      obtain ⟨a, t', h1, h2, h3⟩ := Cx.le_iff.1 hle
      cases h2
      rcases hinv.res with h | ⟨h, h', h''⟩
      · obtain ⟨v, hv, he⟩ := h _ h1
        have he : a = ‖q.b - q.A v‖ := by exact_mod_cast he
        exact ⟨v, hv, .inl (he ▸ h3.trans hthr)⟩
      · rw [h1] at h'
        have h' : a = pseudo (q.b - q.A q.start) := by exact_mod_cast Cx.fin.inj h'
        exact ⟨_, h, .inr ⟨rfl, h'', by rw [h'] at h3; exact h3⟩⟩
    · intro ρ hρ hlt
      rcases hinv.res with h | ⟨-, -, h⟩
      · exact h ρ hρ
      · omega
  unfold cgsSolve
  cases hq : q.guess with
  | none =>
    have e : q.resid0 = q.b := by simp [CxProblem.resid0, CxProblem.start, hq]
    have hs : q.start = 0 := by simp [CxProblem.start, hq]
    rw [hq] at hg
    simp only [hg, Option.map_none, Option.getD_none, CxProblem.opts, abs_sqrt_dot, CVec.zeros_eq, Cx.fin_mul, ← Complex.ofReal_mul,
      Cx.fin_pymax]
    rw [e] at key
    rw [e]
    refine key _ _ _ ⟨?_, .inr ⟨by rw [hs], ?_, rfl⟩⟩
    · intro a ha; cases ha; exact ⟨0, rfl, by simp⟩
    · simp [hs]
  | some g =>
    have e : q.resid0 = q.b - q.A g := by simp [CxProblem.resid0, CxProblem.start, hq]
    have hs : q.start = g := by simp [CxProblem.start, hq]
    rw [hq] at hg
    simp only [hg, Option.map_some, Option.getD_some, CxProblem.opts, CVec.op_fin, CVec.fin_sub, abs_sqrt_dot, Cx.fin_mul,
      ← Complex.ofReal_mul, Cx.fin_pymax]
    rw [e] at key
    rw [e]
    refine key _ _ _ ⟨?_, .inr ⟨by rw [hs], ?_, rfl⟩⟩
    · intro a ha; cases ha; exact ⟨g, rfl, rfl⟩
    · rw [hs]

/-- **C75 (Bi-CGSTAB; partial).** As `C75_cgs_partial`. -/
theorem C75_bicgstab_partial (q : CxProblem ι) (n : Nat) (kw : KrylovKw (CVec ι)) (hg : kw.guess = q.guess.map CVec.fin)
    (hr : 0 ≤ q.reltol) :
    let res := (biSolve (CVec.op q.A) q.opts n (.fin q.b) kw).1
    res.converged = true → ∃ x, res.x = .fin x ∧
      (‖q.b - q.A x‖ ≤ q.threshold ∨ x = q.start ∧ pseudo q.resid0 ≤ max q.abstol (q.reltol * pseudo q.resid0)) := by
  have hthr : max q.abstol (q.reltol * pseudo q.resid0) ≤ q.threshold :=
    max_le_max_left _ (mul_le_mul_of_nonneg_left (pseudo_le_norm _) hr)
  have key : ∀ (mm : Nat) (r0 : CVec ι) (s0 : BiLoop Cx (CVec ι)),
      BiC q.A q.b q.start (.fin ((max q.abstol (q.reltol * pseudo q.resid0) : ℝ) : ℂ)) s0 →
      let s := biLoop (CVec.op q.A) q.precon (.fin ((max q.abstol (q.reltol * pseudo q.resid0) : ℝ) : ℂ)) mm r0 s0
      le s.residNorm (.fin ((max q.abstol (q.reltol * pseudo q.resid0) : ℝ) : ℂ)) = true → ∃ x, s.x = .fin x ∧
        (‖q.b - q.A x‖ ≤ q.threshold ∨ x = q.start ∧ pseudo q.resid0 ≤ max q.abstol (q.reltol * pseudo q.resid0)) := by
    intro mm r0 s0 h0 s hle
    have hinv : BiC q.A q.b q.start _ s := (whileLoop_inv (BiC q.A q.b q.start _)
      (fun s hs hc => biStep_C q.precon _ mm r0 s hs (by simpa using hc)) s0 h0).1
    obtain ⟨a, t', h1, h2, h3⟩ := Cx.le_iff.1 hle
    cases h2
    rcases hinv.res with h | h | ⟨h, h'⟩
    · obtain ⟨v, hv, he⟩ := h _ h1
      have he : a = ‖q.b - q.A v‖ := by exact_mod_cast he
      exact ⟨v, hv, .inl (he ▸ h3.trans hthr)⟩
    · rw [h] at hle; cases hle
    · rw [h1] at h'
      have h' : a = pseudo (q.b - q.A q.start) := by exact_mod_cast Cx.fin.inj h'
      exact ⟨_, h, .inr ⟨rfl, by rw [h'] at h3; exact h3⟩⟩
  unfold biSolve
  cases hq : q.guess with
  | none =>
    have e : q.resid0 = q.b := by simp [CxProblem.resid0, CxProblem.start, hq]
    have hs : q.start = 0 := by simp [CxProblem.start, hq]
    rw [hq] at hg
    simp only [hg, Option.map_none, Option.getD_none, CxProblem.opts, abs_sqrt_dot, CVec.zeros_eq, Cx.fin_mul, ← Complex.ofReal_mul,
      Cx.fin_pymax]
    rw [e] at key
    rw [e]
    refine key _ _ _ ⟨fun _ => ?_, .inr (.inr ⟨by rw [hs], ?_⟩)⟩
    · intro a ha; cases ha; exact ⟨0, rfl, by simp⟩
    · simp [hs]
  | some g =>
    have e : q.resid0 = q.b - q.A g := by simp [CxProblem.resid0, CxProblem.start, hq]
    have hs : q.start = g := by simp [CxProblem.start, hq]
    rw [hq] at hg
    simp only [hg, Option.map_some, Option.getD_some, CxProblem.opts, CVec.op_fin, CVec.fin_sub, abs_sqrt_dot, Cx.fin_mul,
      ← Complex.ofReal_mul, Cx.fin_pymax]
    rw [e] at key
    rw [e]
    refine key _ _ _ ⟨fun _ => ?_, .inr (.inr ⟨by rw [hs], ?_⟩)⟩
    · intro a ha; cases ha; exact ⟨g, rfl, rfl⟩
    · rw [hs]

/-- **C75 (TFQMR; partial).** If TFQMR returns a finite `x` and sets `converged`, the residual norm of `x` is at most
`max(abstol, reltol * pseudo r0)` times `‖r0‖ / pseudo r0`; in particular, with `abstol = 0`, at most `reltol * ‖r0‖`.  Missing, because
the code violates it: the bound `max(abstol, reltol * ‖r0‖)` (`C75_tfqmr_violated`). -/
theorem C75_tfqmr_partial (q : CxProblem ι) (n : Nat) (kw : KrylovKw (CVec ι)) (hg : kw.guess = q.guess.map CVec.fin)
    (res : KrylovRes Cx (CVec ι)) (products : List (CVec ι))
    (h : tfSolve (CVec.op q.A) q.opts n (.fin q.b) kw = .ok (res, products)) (x : EuclideanSpace ℂ ι) (hx : res.x = .fin x)
    (hc : res.converged = true) :
    pseudo q.resid0 * ‖q.b - q.A x‖ ≤ ‖q.resid0‖ * max q.abstol (q.reltol * pseudo q.resid0) := by
  have key : ∀ (t : ℝ) (mm : Nat) (r0 : CVec ι) (s0 : TFLoop Cx (CVec ι)) (r : Cx),
      TfC q.A q.b (pseudo q.resid0) ‖q.resid0‖ s0 →
      tfResult (Cx.fin (t : ℂ)) r (tfLoop (CVec.op q.A) q.precon (Cx.fin (t : ℂ)) mm r0 s0) = .ok (res, products) →
      pseudo q.resid0 * ‖q.b - q.A x‖ ≤ ‖q.resid0‖ * t := by
    intro t mm r0 s0 r hok hres
    have hinv : TfC q.A q.b (pseudo q.resid0) ‖q.resid0‖ (tfLoop (CVec.op q.A) q.precon (Cx.fin (t : ℂ)) mm r0 s0) ∧
        (!(tfLoop (CVec.op q.A) q.precon (Cx.fin (t : ℂ)) mm r0 s0).finished) = false :=
      whileLoop_inv (TfC q.A q.b (pseudo q.resid0) ‖q.resid0‖)
        (fun s hs hc => tfStep_C (pseudo_nonneg _) q.precon _ mm r0 s hs (by simpa using hc)) s0 hok
    generalize tfLoop (CVec.op q.A) q.precon (Cx.fin (t : ℂ)) mm r0 s0 = s at hinv hres
    unfold tfResult at hres
    cases hm : s.m with
    | none => rw [hm] at hres; cases hres
    | some m =>
      rw [hm] at hres
      simp only [Except.ok.injEq, Prod.mk.injEq] at hres
      obtain ⟨rfl, -⟩ := hres
      obtain ⟨k, hk, hq⟩ := hinv.1.fin (by simpa using hinv.2) (by rw [hm]; simp)
      rw [hm] at hk
      cases hk
      obtain ⟨w, d, θ, τ, η, -, -, -, -, hτ, hτ0, -, hb⟩ := hq x hx
      simp only at hc
      have e1 : Scalar.sqrt (Cx.fin (k : ℂ) + lit 1) = Cx.fin (Real.sqrt (k + 1) : ℂ) := by
        rw [Cx.lit_eq, Cx.fin_add, ← Cx.sqrt_real (by positivity)]; congr 2; push_cast; rfl
      rw [hτ, e1, Cx.fin_mul, ← Complex.ofReal_mul, Cx.fin_lt] at hc
      refine hb.trans ?_
      have hP := pseudo_le_norm q.resid0
      have hP0 := pseudo_nonneg q.resid0
      have e2 : Real.sqrt (k * pseudo q.resid0 ^ 2 + ‖q.resid0‖ ^ 2) ≤ ‖q.resid0‖ * Real.sqrt (k + 1) := by
        apply Real.sqrt_le_iff.2
        refine ⟨by positivity, ?_⟩
        rw [mul_pow, Real.sq_sqrt (by positivity)]
        have : pseudo q.resid0 ^ 2 ≤ ‖q.resid0‖ ^ 2 := by gcongr
        nlinarith [Nat.cast_nonneg (α := ℝ) k]
      calc _ ≤ ‖q.resid0‖ * Real.sqrt (k + 1) * τ := by gcongr
        _ = ‖q.resid0‖ * (τ * Real.sqrt (k + 1)) := by ring
        _ ≤ _ := by gcongr
  have start : ∀ (g r0 : EuclideanSpace ℂ ι) (z u v y : CVec ι) (ρ : Cx) (c : List (CVec ι)) (nm : ℕ) (fin : Bool),
      r0 = q.b - q.A g → q.resid0 = r0 → (u = CVec.op q.A z) → TfC q.A q.b (pseudo q.resid0) ‖q.resid0‖
      { x := .fin g, y := y, w := .fin r0, d := .fin 0, z := z, u := u, v := v, rho := ρ, theta := lit 0, eta := lit 0,
        residNorm := .fin (pseudo r0 : ℂ), k := 0, m := none, nMatvec := nm, finished := fin, calls := c } := by
    intro g r0 z u v y ρ c nm fin h1 h3 h2
    refine ⟨fun _ => ⟨?_, h2⟩, fun _ h => absurd rfl h⟩
    intro x hx
    cases hx
    refine ⟨r0, 0, 0, pseudo r0, 0, rfl, rfl, by simp, by simp, rfl, pseudo_nonneg _, by rw [h1]; simp, ?_⟩
    rw [h3, ← h1]
    simp only [mul_zero, Nat.cast_zero, zero_mul, zero_add, Real.sqrt_sq (norm_nonneg _)]
    rw [mul_comm]
  have trivial : ∀ (s0 : TFLoop Cx (CVec ι)), s0.finished = true → s0.m = none → TfC q.A q.b (pseudo q.resid0) ‖q.resid0‖ s0 := by
    intro s0 h1 h2
    exact ⟨fun h => (by rw [h1] at h; cases h), fun _ h => absurd h2 h⟩
  unfold tfSolve at h
  cases hq : q.guess with
  | none =>
    have e : q.resid0 = q.b := by simp [CxProblem.resid0, CxProblem.start, hq]
    rw [hq] at hg
    simp only [hg, Option.map_none, Option.getD_none, CxProblem.opts, abs_sqrt_dot, CVec.zeros_eq, Cx.fin_mul, ← Complex.ofReal_mul,
      Cx.fin_pymax] at h
    refine key _ _ _ _ _ ?_ (by rw [e]; exact h)
    split
    · exact trivial _ rfl rfl
    · exact start 0 q.b _ _ _ _ _ _ _ _ (by simp) e rfl
  | some g =>
    have e : q.resid0 = q.b - q.A g := by simp [CxProblem.resid0, CxProblem.start, hq]
    rw [hq] at hg
    simp only [hg, Option.map_some, Option.getD_some, CxProblem.opts, CVec.op_fin, CVec.fin_sub, abs_sqrt_dot, Cx.fin_mul,
      ← Complex.ofReal_mul, Cx.fin_pymax] at h
    refine key _ _ _ _ _ ?_ (by rw [e]; exact h)
    split
    · exact trivial _ rfl rfl
    · exact start g (q.b - q.A g) _ _ _ _ _ _ _ _ rfl e rfl

/-! ## CG -/

theorem cgInit_C (q : CxProblem ι) (hp : q.precon = none) (kw : CGKw (CVec ι)) (self : CGObj Cx (CVec ι))
    (hg : kw.guess = q.guess.map CVec.fin) :
    let s := cgInit (CVec.op q.A) q.opts kw self (.fin q.b)
    s.1.x = .fin q.start ∧ s.1.r = .fin (-q.resid0) ∧ s.1.p = .fin q.resid0 ∧ s.1.ry = .fin (cdot q.resid0 q.resid0) ∧
    s.1.residNorm = .fin (pseudo q.resid0 : ℂ) ∧ s.1.nMatvec = kw.guessCost ∧ s.1.definite = true ∧
    s.2 = .fin ((max q.abstol (q.reltol * pseudo q.resid0) : ℝ) : ℂ) := by
  have hd : ∀ v : EuclideanSpace ℂ ι, dot (CVec.fin (-v)) (CVec.fin (-v)) = Cx.fin (cdot v v) := by
    intro v; rw [CVec.fin_dot]; simp [cdot]
  have ha : ∀ z : ℂ, Scalar.abs (sqrt (Cx.fin z)) = Cx.fin (Real.sqrt ‖z‖ : ℂ) := Cx.abs_sqrt
  cases hq : q.guess with
  | none =>
    have e : q.resid0 = q.b := by simp [CxProblem.resid0, CxProblem.start, hq]
    have hs : q.start = 0 := by simp [CxProblem.start, hq]
    rw [hq] at hg
    simp only [cgInit, hg, Option.map_none, applyPrecon, CxProblem.opts, hp, Option.getD_none, CVec.fin_neg, CVec.zeros_eq, hd, ha,
      Cx.fin_mul, ← Complex.ofReal_mul, Cx.fin_pymax, CGKw.guessCost, e, hs, neg_neg]
    simp [pseudo]
  | some g =>
    have e : -q.resid0 = -q.b + q.A g := by simp [CxProblem.resid0, CxProblem.start, hq]; abel
    have hs : q.start = g := by simp [CxProblem.start, hq]
    rw [hq] at hg
    simp only [cgInit, hg, Option.map_some, applyPrecon, CxProblem.opts, hp, Option.getD_some, CVec.fin_neg, CVec.op_fin, CVec.fin_add,
      ← e, hd, ha, Cx.fin_mul, ← Complex.ofReal_mul, Cx.fin_pymax, CGKw.guessCost, hs, neg_neg]
    simp [pseudo]

/-- **C75 (CG; partial).** For every complex linear operator, right-hand side, guess and options: if CG without preconditioner sets
`converged`, then `x` is finite and its residual `r` has `|r'r|` (without conjugation) at most the square of the threshold.  Missing,
because the code violates it: that the norm of the residual is small (`C75_isotropic`). -/
theorem C75_cg_partial (q : CxProblem ι) (hp : q.precon = none) (n : Nat) (self : CGObj Cx (CVec ι)) (kw : CGKw (CVec ι)) (hk : kw.Runs)
    (hg : kw.guess = q.guess.map CVec.fin) :
    let res := (cgSolve (CVec.op q.A) q.opts n self (.fin q.b) kw).1
    res.converged = true → ∃ x, res.x = some (.fin x) ∧ res.residNorm = some (.fin (pseudo (q.b - q.A x) : ℂ)) ∧
      pseudo (q.b - q.A x) ≤ max q.abstol (q.reltol * pseudo q.resid0) := by
  rw [cgSolve_eq hk]
  obtain ⟨hx, hr, hp', hry, hrn, -, -, ht⟩ := cgInit_C q hp kw self hg
  simp only
  have h0 : CgTrue q.A q.b (cgInit (CVec.op q.A) q.opts kw self (.fin q.b)).1 := by
    refine ⟨?_, ?_, ?_⟩
    · rw [hrn, hry, Cx.abs_sqrt]; rfl
    · rw [hry, hr, CVec.fin_dot]; simp [cdot]
    · intro r h; rw [hr] at h; cases h; exact ⟨_, hx, by simp [CxProblem.resid0]⟩
  have hpn : q.opts.precon = none := hp
  have hinv := (cgLoop_inv (CVec.op q.A) q.opts.precon kw (cgInit (CVec.op q.A) q.opts kw self (.fin q.b)).2
    (kw.matvecMax.getD (2 * n)) (CgTrue q.A q.b) (fun s hs _ => by rw [hpn]; exact cgStep_C kw s hs) _ h0).1
  generalize cgLoop (CVec.op q.A) _ kw _ _ _ = s at hinv ⊢
  rw [ht]
  intro h
  obtain ⟨z, t, h1, h2, h3⟩ := Cx.le_iff.1 h
  cases h2
  obtain ⟨e1, e2, e3⟩ := hinv
  cases hsr : s.r with
  | nan => rw [e1, e2, hsr, CVec.nan_dot] at h1; cases h1
  | fin r =>
    obtain ⟨x, hx, rfl⟩ := e3 r hsr
    have hps : pseudo (q.A x - q.b) = pseudo (q.b - q.A x) := by
      rw [← neg_sub (q.b) (q.A x), pseudo_neg]
    rw [e2, hsr, abs_sqrt_dot, hps] at e1
    rw [e1] at h1
    have h1 : pseudo (q.b - q.A x) = z := by exact_mod_cast Cx.fin.inj h1
    exact ⟨x, by rw [hx], by rw [e1], h1 ▸ h3⟩

/-! ### Complex symmetric operators -/

/-- `cdot` as a bilinear form -/
noncomputable def cform : EuclideanSpace ℂ ι →ₗ[ℂ] EuclideanSpace ℂ ι →ₗ[ℂ] ℂ :=
  LinearMap.mk₂ ℂ cdot
    (fun u v w => by simp [cdot, add_mul, Finset.sum_add_distrib])
    (fun c u v => by simp [cdot, Finset.mul_sum, mul_assoc])
    (fun u v w => by simp [cdot, mul_add, Finset.sum_add_distrib])
    (fun c u v => by simp only [cdot, PiLp.smul_apply, smul_eq_mul, Finset.mul_sum]; exact Finset.sum_congr rfl fun i _ => by ring)

theorem cform_apply (u v : EuclideanSpace ℂ ι) : cform u v = cdot u v := rfl

theorem cform_symm (u v : EuclideanSpace ℂ ι) : cform u v = cform v u := by
  simp only [cform_apply, cdot]; exact Finset.sum_congr rfl fun i _ => mul_comm _ _

/-- CG after `k` steps without breakdown -/
structure CgAt (A : EuclideanSpace ℂ ι →ₗ[ℂ] EuclideanSpace ℂ ι) (r0 x0 : EuclideanSpace ℂ ι) (gc k : Nat) (s : CGLoop Cx (CVec ι)) :
    Prop where
  x : s.x = .fin (cseq cform A r0 x0 k).x
  r : s.r = .fin (crs cform A r0 x0 k)
  p : s.p = .fin (cps cform A r0 x0 k)
  ry : s.ry = .fin (cform (crs cform A r0 x0 k) (crs cform A r0 x0 k))
  rn : s.residNorm = .fin (pseudo (crs cform A r0 x0 k) : ℂ)
  nm : s.nMatvec = gc + k
  ne : ∀ j < k, cform (crs cform A r0 x0 j) (crs cform A r0 x0 j) ≠ 0
  pe : ∀ j < k, cform (cps cform A r0 x0 j) (A (cps cform A r0 x0 j)) ≠ 0

/-- the state of CG on a complex symmetric operator -/
def CgSym (A : EuclideanSpace ℂ ι →ₗ[ℂ] EuclideanSpace ℂ ι) (r0 x0 : EuclideanSpace ℂ ι) (gc : Nat) (s : CGLoop Cx (CVec ι)) : Prop :=
  s.definite = true ∧ s.nMatvec ≤ gc + Fintype.card ι ∧ (s.residNorm = .nan ∨ ∃ k, CgAt A r0 x0 gc k s)

theorem CgAt.dim {A : EuclideanSpace ℂ ι →ₗ[ℂ] EuclideanSpace ℂ ι} {r0 x0 : EuclideanSpace ℂ ι} {gc k : Nat} {s : CGLoop Cx (CVec ι)}
    (h : CgAt A r0 x0 gc k s) (hA : ∀ u v, cdot (A u) v = cdot u (A v)) (h0 : 0 < pseudo (crs cform A r0 x0 k)) :
    k + 1 ≤ Fintype.card ι ∧ cform (crs cform A r0 x0 k) (crs cform A r0 x0 k) ≠ 0 := by
  have hne : cform (crs cform A r0 x0 k) (crs cform A r0 x0 k) ≠ 0 := by
    intro h; rw [cform_apply] at h; rw [pseudo, h] at h0; simp at h0
  have := cterminates (B := cform) (A := A) (r0 := r0) (x0 := x0) cform_symm (fun u v => hA u v) k
    (fun j hj => by rcases Nat.lt_or_eq_of_le hj with h' | rfl; exacts [h.ne j h', hne]) h.pe
  rw [finrank_euclideanSpace] at this
  exact ⟨this, hne⟩

theorem cgStep_sym {A : EuclideanSpace ℂ ι →ₗ[ℂ] EuclideanSpace ℂ ι} {r0 x0 : EuclideanSpace ℂ ι} {gc mm : Nat} {t : ℝ}
    (hA : ∀ u v, cdot (A u) v = cdot u (A v)) (ht : 0 ≤ t) (kw : CGKw (CVec ι)) (hc : kw.checkCurvature = false)
    (s : CGLoop Cx (CVec ι)) (hs : CgSym A r0 x0 gc s) (hgo : cgCont (Cx.fin (t : ℂ)) mm s = true) :
    CgSym A r0 x0 gc (cgStep (CVec.op A) none kw s) := by
  simp only [cgCont, gt, Bool.and_eq_true, decide_eq_true_eq] at hgo
  obtain ⟨⟨hgt, -⟩, -⟩ := hgo
  obtain ⟨hd, -, hs⟩ := hs
  rcases hs with hs | ⟨k, hk⟩
  · rw [hs] at hgt; simp at hgt
  · rw [hk.rn, Cx.fin_lt] at hgt
    obtain ⟨hdim, hne⟩ := hk.dim hA (ht.trans_lt hgt)
    rw [cgStep_def (by rw [hc]; rfl)]
    refine ⟨hd, by rw [hk.nm]; simp only; omega, ?_⟩
    by_cases hp : cform (cps cform A r0 x0 k) (A (cps cform A r0 x0 k)) = 0
    · left
      have : dot s.p (CVec.op A s.p) = Cx.fin 0 := by rw [hk.p, CVec.op_fin, CVec.fin_dot]; exact congrArg _ hp
      simp only [this, hk.ry, Cx.div_zero, CVec.nan_smul, CVec.add_nan, applyPrecon, CVec.nan_dot, Cx.sqrt_nan, Cx.abs_nan]
    · right
      have e1 : s.ry / dot s.p (CVec.op A s.p) = Cx.fin (cal cform A r0 x0 k) := by
        rw [hk.p, CVec.op_fin, CVec.fin_dot, hk.ry]; exact Cx.fin_div _ hp
      have e2 : s.r + smul (s.ry / dot s.p (CVec.op A s.p)) (CVec.op A s.p) = .fin (crs cform A r0 x0 (k + 1)) := by
        rw [e1, hk.r, hk.p, CVec.op_fin, CVec.fin_smul, CVec.fin_add]; rfl
      have e3 : dot (CVec.fin (crs cform A r0 x0 (k + 1))) (CVec.fin (crs cform A r0 x0 (k + 1))) =
          Cx.fin (cform (crs cform A r0 x0 (k+1)) (crs cform A r0 x0 (k+1))) := rfl
      refine ⟨k + 1, ?_, ?_, ?_, ?_, ?_, ?_, ?_, ?_⟩
      · simp only [e1]; simp only [hk.x, hk.p, CVec.fin_smul, CVec.fin_add]; rfl
      · exact e2
      · simp only [e2, applyPrecon, e3]; simp only [hk.ry, hk.p, Cx.fin_div _ hne, CVec.fin_smul, CVec.fin_sub]; rfl
      · simp only [e2, applyPrecon, e3]
      · simp only [e2, applyPrecon, e3, Cx.abs_sqrt]; rfl
      · simp only [hk.nm]; omega
      · intro j hj; rcases Nat.lt_or_eq_of_le (Nat.le_of_lt_succ hj) with h | rfl; exacts [hk.ne j h, hne]
      · intro j hj; rcases Nat.lt_or_eq_of_le (Nat.le_of_lt_succ hj) with h | rfl; exacts [hk.pe j h, hp]

/-- **C75 (CG on complex symmetric operators).** For every complex symmetric operator (equal to its transpose), right-hand side and
guess: with `check_curvature=False`, no preconditioner, a nonnegative `abstol` and a budget of at least the dimension, CG either sets
`converged` or meets a division by zero (its residual norm is not a number); it makes at most as many iterations as the dimension. -/
theorem C75_cg_symmetric (q : CxProblem ι) (hA : ∀ u v, cdot (q.A u) v = cdot u (q.A v)) (hp : q.precon = none) (ha : 0 ≤ q.abstol)
    (n : Nat) (self : CGObj Cx (CVec ι)) (kw : CGKw (CVec ι)) (hk : kw.Runs) (hg : kw.guess = q.guess.map CVec.fin)
    (hc : kw.checkCurvature = false) (hm : kw.guessCost + Fintype.card ι ≤ kw.matvecMax.getD (2 * n)) :
    let res := (cgSolve (CVec.op q.A) q.opts n self (.fin q.b) kw).1
    res.nMatvec ≤ kw.guessCost + Fintype.card ι ∧ (res.converged = true ∨ res.residNorm = some .nan) := by
  rw [cgSolve_eq hk]
  obtain ⟨hx, hr, hp', hry, hrn, hnm, hd, ht⟩ := cgInit_C q hp kw self hg
  simp only
  have h0 : CgSym q.A (-q.resid0) q.start kw.guessCost (cgInit (CVec.op q.A) q.opts kw self (.fin q.b)).1 := by
    refine ⟨hd, by rw [hnm]; omega, .inr ⟨0, hx, hr, ?_, ?_, ?_, hnm, by simp, by simp⟩⟩
    · rw [hp']; simp [cps, cseq]
    · rw [hry]; change _ = Cx.fin (cform (-_) (-_)); simp only [map_neg, LinearMap.neg_apply, neg_neg]; rfl
    · rw [hrn]; simp [crs, cseq, pseudo_neg]
  have hpn : q.opts.precon = none := hp
  have hinv := cgLoop_inv (CVec.op q.A) q.opts.precon kw (cgInit (CVec.op q.A) q.opts kw self (.fin q.b)).2
    (kw.matvecMax.getD (2 * n)) (CgSym q.A (-q.resid0) q.start kw.guessCost)
    (fun s hs hgo => by rw [hpn]; rw [ht] at hgo; exact cgStep_sym hA (ha.trans (le_max_left _ _)) kw hc s hs hgo) _ h0
  generalize cgLoop (CVec.op q.A) _ kw _ _ _ = s at hinv ⊢
  rw [ht] at hinv ⊢
  obtain ⟨⟨hd, hn, hs⟩, hstop⟩ := hinv
  refine ⟨hn, ?_⟩
  rcases hs with hs | ⟨k, hk⟩
  · right; rw [hs]
  · left
    rw [hk.rn, Cx.fin_le]
    by_contra hlt
    rw [not_le] at hlt
    have hdim := (hk.dim hA ((ha.trans (le_max_left _ _)).trans_lt hlt)).1
    simp only [cgCont, gt, hd, Bool.and_true, hk.nm, hk.rn, (Cx.fin_lt _ _).2 hlt, Bool.true_and, decide_eq_false_iff_not] at hstop
    omega

end Verif.Solver
