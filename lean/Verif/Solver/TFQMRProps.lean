import Verif.Solver.TFQMR
import Verif.Solver.KrylovProps
import Mathlib.Tactic.LinearCombination
import Mathlib.Tactic.Module

/-!
# Properties of TFQMR: C33
-/

namespace Verif.Solver
open Scalar Vect

section Any
variable {S V : Type} [Scalar S] [Vect S V]

theorem tfStep_calls (op : V → V) (precon : Option (V → V)) (threshold : S) (mm : Nat) (r0 : V) (s : TFLoop S V) :
    s.calls <+: (tfStep op precon threshold mm r0 s).calls ∧
    ((tfStep op precon threshold mm r0 s).calls.length - s.calls.length =
      (tfStep op precon threshold mm r0 s).nMatvec - s.nMatvec) ∧
    s.nMatvec ≤ (tfStep op precon threshold mm r0 s).nMatvec ∧
    (tfStep op precon threshold mm r0 s).m ≠ none := by
  unfold tfStep
  simp only
  split
  · exact ⟨List.prefix_refl _, by simp [tfPass], le_refl s.nMatvec, by simp⟩
  · split
    · exact ⟨List.prefix_append s.calls _, by simp [tfPass, tfMid], Nat.le_succ s.nMatvec, by simp [tfPass, tfMid]⟩
    · refine ⟨(List.prefix_append s.calls _).trans (List.prefix_append _ _), by simp [tfPass, tfMid, tfFinal]; omega, ?_,
        by simp [tfPass, tfMid, tfFinal]⟩
      change s.nMatvec ≤ s.nMatvec + 1 + 1
      omega

/-- what the loop guarantees in every arithmetic -/
theorem tfLoop_count (op : V → V) (precon : Option (V → V)) (t : S) (mm : Nat) (r0 : V) (s : TFLoop S V) (g : Nat)
    (h1 : s.calls.length = s.nMatvec + g) (h2 : s.nMatvec ≤ mm) (h3 : s.finished = true → s.m ≠ none) :
    (tfLoop op precon t mm r0 s).calls.length = (tfLoop op precon t mm r0 s).nMatvec + g ∧
    (tfLoop op precon t mm r0 s).nMatvec ≤ mm ∧ (tfLoop op precon t mm r0 s).m ≠ none := by
  have := whileLoop_inv (cont := fun s : TFLoop S V => !s.finished) (step := tfStep op precon t mm r0)
    (μ := fun s => mm - s.nMatvec) (h := by
      intro s _ h
      have h1 := (tfStep_nMatvec op precon t mm r0 s).1 (by simpa using h)
      omega)
    (fun s => s.calls.length = s.nMatvec + g ∧ s.nMatvec ≤ mm ∧ (s.finished = true → s.m ≠ none))
    (fun s hs _ => by
      have hn := (tfStep_nMatvec op precon t mm r0 s).2
      obtain ⟨c1, c2, c3, c4⟩ := tfStep_calls op precon t mm r0 s
      have := c1.length_le
      exact ⟨by omega, by omega, fun _ => c4⟩) s ⟨h1, h2, h3⟩
  refine ⟨this.1.1, this.1.2.1, this.1.2.2 ?_⟩
  have := this.2
  simpa using this

/-- **C33 (partial, counters).** For every arithmetic, operator, preconditioner, right-hand side and keywords: `solve`
raises `UnboundLocalError` exactly if the initial residual is already within the threshold or the budget is zero (this
violates the property, see `C33_zero_rhs_raises`); otherwise `nMatvec` is at most `matvec_max` and is the number of
products, except that the product spent on an initial guess is not counted. -/
theorem C33_budget_partial (op : V → V) (o : KrylovOpts S V) (n : Nat) (rhs : V) (kw : KrylovKw V) :
    let r0 := match kw.guess with
      | some g => rhs - op g
      | none => rhs
    let residNorm0 := Scalar.abs (sqrt (dot r0 r0))
    let trivialStart := le residNorm0 (pymax o.abstol (o.reltol * residNorm0)) = true ∨ kw.matvecMax.getD (2 * n) = 0
    (trivialStart → tfSolve op o n rhs kw = .error (.unboundLocal "m")) ∧
    (¬ trivialStart → ∃ res products, tfSolve op o n rhs kw = .ok (res, products) ∧
      products.length = res.nMatvec + (if kw.guess.isSome then 1 else 0) ∧
      res.nMatvec ≤ kw.matvecMax.getD (2 * n)) := by
  have key : ∀ (t : S) (r0 : V) (s0 : TFLoop S V) (g : Nat) (r : S), s0.calls.length = s0.nMatvec + g →
      s0.nMatvec ≤ kw.matvecMax.getD (2 * n) → s0.finished = false →
      ∃ res products, tfResult t r (tfLoop op o.precon t (kw.matvecMax.getD (2 * n)) r0 s0) = .ok (res, products) ∧
        products.length = res.nMatvec + g ∧ res.nMatvec ≤ kw.matvecMax.getD (2 * n) := by
    intro t r0 s0 g r h1 h2 h3
    obtain ⟨k1, k2, k3⟩ := tfLoop_count op o.precon t (kw.matvecMax.getD (2 * n)) r0 s0 g h1 h2 (by simp [h3])
    cases hm : (tfLoop op o.precon t (kw.matvecMax.getD (2 * n)) r0 s0).m with
    | none => exact absurd hm k3
    | some m => exact ⟨_, _, by unfold tfResult; rw [hm], k1, k2⟩
  have bad : ∀ (t : S) (mm : Nat) (r0 : V) (s0 : TFLoop S V), s0.finished = true → tfLoop op o.precon t mm r0 s0 = s0 := by
    intro t mm r0 s0 h
    exact whileLoop_of_not (by simp [h])
  unfold tfSolve
  cases hg : kw.guess with
  | none =>
    simp only
    constructor
    · intro h
      rw [if_pos (by
        rcases h with h | h
        · simp [h]
        · simp [h])]
      rw [bad _ _ _ _ rfl]; rfl
    · intro h
      push Not at h
      rw [if_neg (by
        simp only [ge_iff_le, Nat.le_zero_eq, Bool.or_eq_true, decide_eq_true_eq, not_or]
        exact ⟨h.1, h.2⟩)]
      exact key _ _ _ 0 _ (by simp) (by have := h.2; simp only; omega) rfl
  | some g =>
    simp only
    constructor
    · intro h
      rw [if_pos (by
        rcases h with h | h
        · simp [h]
        · simp [h])]
      rw [bad _ _ _ _ rfl]; rfl
    · intro h
      push Not at h
      rw [if_neg (by
        simp only [ge_iff_le, Nat.le_zero_eq, Bool.or_eq_true, decide_eq_true_eq, not_or]
        exact ⟨h.1, h.2⟩)]
      exact key _ _ _ 1 _ (by simp) (by have := h.2; simp only; omega) rfl

end Any

/-! ## Convergence, exact arithmetic -/
section ExactArith
open scoped RealInnerProductSpace
variable {E : Type} [NormedAddCommGroup E] [InnerProductSpace ℝ E]

/-- The quasi-residual invariant after `m` half-steps: if `x` is finite, then with `r = b - A x` and `τ` the value of
`residNorm`, `w = r - (θ² η) A d` and `‖r‖ ≤ √(m+1) τ`. -/
def QuasiOK (A : E →ₗ[ℝ] E) (b : E) (m : ℕ) (s : TFLoop Fl (Vec E)) : Prop :=
  ∀ x, s.x = .fin x → ∃ w d θ η τ, s.w = .fin w ∧ s.d = .fin d ∧ s.theta = .fin θ ∧ s.eta = .fin η ∧ s.residNorm = .fin τ ∧
    0 ≤ τ ∧ w = (b - A x) - (θ * θ * η) • A d ∧ ‖b - A x‖ ≤ Real.sqrt (m + 1) * τ

theorem tfPass_quasi (A : E →ₗ[ℝ] E) (b : E) (m : ℕ) (α : Fl) (s : TFLoop Fl (Vec E)) (hs : QuasiOK A b m s)
    (hu : s.u = Vec.op A s.z) : QuasiOK A b (m+1) (tfPass α s) := by
  intro x' hx'
  simp only [tfPass] at hx' ⊢
  obtain ⟨x, ηd, hx, h1, rfl⟩ := Vec.add_fin hx'
  obtain ⟨η', d', hη, hd, rfl⟩ := Vec.smul_fin h1
  obtain ⟨w, d, θ, η, τ, hw, hdd, hθ, hηη, hτ, hτ0, hwr, hb⟩ := hs x hx
  -- d' = (θ² η / α) d + z
  obtain ⟨d1, z, h2, hz, rfl⟩ := Vec.add_fin hd
  obtain ⟨c1, d0, h3, h4, rfl⟩ := Vec.smul_fin h2
  rw [hdd] at h4
  cases h4
  obtain ⟨n1, a, h5, rfl, ha, rfl⟩ := Fl.div_fin h3
  rw [hθ, hηη, Fl.fin_mul, Fl.fin_mul] at h5
  cases h5
  -- η' = c² α
  obtain ⟨cc, a', h6, h7, rfl⟩ := Fl.mul_fin hη
  cases h7
  obtain ⟨c, c', h8, h9, rfl⟩ := Fl.mul_fin h6
  rw [h8] at h9
  cases h9
  have hc0 := h8
  obtain ⟨one, q, h10, h11, hq0, rfl⟩ := Fl.div_fin h8
  rw [Fl.lit_eq] at h10
  cases h10
  obtain ⟨q', h12, hq', rfl⟩ := Fl.sqrt_fin h11
  obtain ⟨one, t2, h13, h14, rfl⟩ := Fl.add_fin h12
  rw [Fl.lit_eq] at h13
  cases h13
  obtain ⟨θ', θ'', h15, h16, rfl⟩ := Fl.mul_fin h14
  rw [h15] at h16
  cases h16
  have hθ' := h15
  obtain ⟨nw, τ', h17, h18, hτne, rfl⟩ := Fl.div_fin h15
  rw [hτ] at h18
  cases h18
  obtain ⟨w', hw', rfl⟩ := Vec.norm_fin h17
  -- the new w
  have hw'' : w' = w - a • A z := by
    rw [hw, hu, hz, Vec.op_fin, Vec.fin_smul, Vec.fin_sub] at hw'
    cases hw'; rfl
  have hτpos : 0 < τ := lt_of_le_of_ne hτ0 (Ne.symm hτne)
  set θ' : ℝ := ‖w'‖ / τ with hθdef
  have hθ0 : 0 ≤ θ' := by positivity
  set sq : ℝ := Real.sqrt (((1:ℚ):ℝ) + θ' * θ') with hsq
  have hsq2 : sq * sq = 1 + θ' * θ' := by
    rw [hsq, Real.mul_self_sqrt (by push_cast; positivity)]; push_cast; ring
  have hsqpos : 0 < sq := lt_of_le_of_ne (Real.sqrt_nonneg _) (Ne.symm hq0)
  set c : ℝ := ((1:ℚ):ℝ) / sq with hcdef
  have hc : c * sq = 1 := by rw [hcdef]; push_cast; field_simp
  have hcpos : 0 < c := by rw [hcdef]; push_cast; positivity
  have hc2 : c * c * (1 + θ' * θ') = 1 := by rw [← hsq2]; linear_combination (c * sq + 1) * hc
  have hAd : A (((θ * θ * η) / a) • d + z) = (1 / a) • ((b - A x) - w') := by
    rw [map_add, map_smul, hw'', hwr]
    have e : (1 / a) • (b - A x - (b - A x - (θ * θ * η) • A d - a • A z)) =
        (θ * θ * η / a) • A d + ((1 / a) * a) • A z := by module
    rw [e, one_div_mul_cancel ha, one_smul]
  have hr' : b - A (x + (c * c * a) • (((θ * θ * η) / a) • d + z)) =
      (b - A x) - (c * c) • ((b - A x) - w') := by
    rw [map_add, map_smul, hAd, smul_smul, show c * c * a * (1 / a) = c * c by field_simp]
    abel
  refine ⟨w', _, θ', c * c * a, τ * (θ' * c), hw', hd, hθ', ?_, ?_, by positivity, ?_, ?_⟩
  · rw [hc0, Fl.fin_mul, Fl.fin_mul]
  · rw [hc0, hθ', hτ, Fl.fin_mul, Fl.fin_mul]
  · rw [hr', hAd, smul_smul, show θ' * θ' * (c * c * a) * (1 / a) = θ' * θ' * (c * c) by field_simp]
    have e : θ' * θ' * (c * c) = 1 - c * c := by linear_combination hc2
    rw [e]
    module
  · rw [hr']
    have e1 : (b - A x) - (c * c) • ((b - A x) - w') = ((θ' * c) * (θ' * c)) • (b - A x) + (c * c) • w' := by
      have e : (θ' * c) * (θ' * c) = 1 - c * c := by linear_combination hc2
      rw [e]; module
    have hnw : ‖w'‖ = θ' * τ := by rw [hθdef]; field_simp
    have hsc : (θ' * c) * (θ' * c) + c * c = 1 := by linear_combination hc2
    have hm0 : (0:ℝ) ≤ m + 1 := by positivity
    calc ‖(b - A x) - (c * c) • ((b - A x) - w')‖
        ≤ ((θ' * c) * (θ' * c)) * ‖b - A x‖ + (c * c) * ‖w'‖ := by
          rw [e1]
          refine (norm_add_le _ _).trans ?_
          rw [norm_smul, norm_smul, Real.norm_of_nonneg (by positivity), Real.norm_of_nonneg (by positivity)]
      _ ≤ ((θ' * c) * (θ' * c)) * (Real.sqrt (m + 1) * τ) + (c * c) * (θ' * τ) := by
          rw [hnw]; gcongr
      _ = (Real.sqrt (m + 1) * (θ' * c) + 1 * c) * (τ * (θ' * c)) := by ring
      _ ≤ Real.sqrt ((m + 1 : ℕ) + 1) * (τ * (θ' * c)) := by
          gcongr
          apply Real.le_sqrt_of_sq_le
          push_cast
          have h1 : Real.sqrt (m + 1) * Real.sqrt (m + 1) = m + 1 := Real.mul_self_sqrt hm0
          nlinarith [sq_nonneg (Real.sqrt (m + 1) * c - θ' * c)]

theorem tfMid_quasi (A : E →ₗ[ℝ] E) (b : E) (n : ℕ) (precon : Option (Vec E → Vec E)) (α m : Fl) (s : TFLoop Fl (Vec E))
    (hs : QuasiOK A b n s) : QuasiOK A b n (tfMid (Vec.op A) precon α m s) := hs

/-- loop invariant -/
structure TFOK (A : E →ₗ[ℝ] E) (b : E) (s : TFLoop Fl (Vec E)) : Prop where
  top : s.finished = false → QuasiOK A b (2 * s.k) s ∧ s.u = Vec.op A s.z
  fin : s.finished = true → s.m ≠ none → ∃ m : ℕ, s.m = some (.fin m) ∧ QuasiOK A b m s

theorem tfStep_ok (A : E →ₗ[ℝ] E) (b : E) (precon : Option (Vec E → Vec E)) (t : Fl) (mm : Nat) (r0 : Vec E)
    (s : TFLoop Fl (Vec E)) (hs : TFOK A b s) (hf : s.finished = false) :
    TFOK A b (tfStep (Vec.op A) precon t mm r0 s) := by
  obtain ⟨h1, hu⟩ := hs.top hf
  have hm : (lit 2 * lit ((s.k + 1 : Nat) : ℚ) - lit 1 : Fl) = .fin ((2 * s.k + 1 : ℕ) : ℝ) := by
    simp only [Fl.lit_eq, Fl.fin_mul, Fl.fin_sub]; congr 1; push_cast; ring
  have hm2 : (Fl.fin ((2 * s.k + 1 : ℕ) : ℝ) + lit 1 : Fl) = .fin ((2 * s.k + 2 : ℕ) : ℝ) := by
    simp only [Fl.lit_eq, Fl.fin_add]; congr 1; push_cast; ring
  unfold tfStep
  simp only [hm, hm2]
  have p1 := tfPass_quasi A b (2 * s.k) (s.rho / dot r0 s.v) s h1 hu
  split
  · exact ⟨fun h => (by cases h), fun _ _ => ⟨2 * s.k + 1, rfl, p1⟩⟩
  · have p2 := tfPass_quasi A b (2 * s.k + 1) (s.rho / dot r0 s.v)
      (tfMid (Vec.op A) precon (s.rho / dot r0 s.v) (.fin ((2 * s.k + 2 : ℕ) : ℝ))
        { tfPass (s.rho / dot r0 s.v) s with k := s.k + 1, m := some (.fin ((2 * s.k + 1 : ℕ) : ℝ)) }) p1 rfl
    split
    · exact ⟨fun h => (by cases h), fun _ _ => ⟨2 * s.k + 2, rfl, p2⟩⟩
    · refine ⟨fun _ => ⟨?_, rfl⟩, fun h => ?_⟩
      · exact p2
      · change s.finished = true at h
        rw [hf] at h; cases h

/-- **C33 (partial, convergence).** In exact arithmetic, for every linear operator, preconditioner (not even linear),
right-hand side, guess and options: if `solve` returns with `converged` set and the returned `x` is finite, then its true
residual norm is below `max(abstol, reltol * initial residual norm)`.  Missing, because the code violates it: `converged`
may be set although `x` is not finite (`C33_converged_nan`). -/
theorem C33_converged_partial (q : LinProblem E) (n : Nat) (kw : KrylovKw (Vec E)) (hg : kw.guess = q.guess.map Vec.fin)
    (res : KrylovRes Fl (Vec E)) (products : List (Vec E))
    (h : tfSolve (Vec.op q.A) q.opts n (.fin q.b) kw = .ok (res, products)) (x : E) (hx : res.x = .fin x)
    (hc : res.converged = true) : ‖q.b - q.A x‖ < max q.abstol (q.reltol * ‖q.b - q.A q.start‖) := by
  have key : ∀ (t : ℝ) (mm : Nat) (r0 : Vec E) (s0 : TFLoop Fl (Vec E)) (r : Fl), TFOK q.A q.b s0 →
      tfResult (Fl.fin t) r (tfLoop (Vec.op q.A) q.precon (Fl.fin t) mm r0 s0) = .ok (res, products) → ‖q.b - q.A x‖ < t := by
    intro t mm r0 s0 r hok hres
    have hinv := whileLoop_inv (cont := fun s : TFLoop Fl (Vec E) => !s.finished)
      (step := tfStep (Vec.op q.A) q.precon (Fl.fin t) mm r0)
      (μ := fun s => mm - s.nMatvec) (h := by
        intro s _ h
        have h1 := (tfStep_nMatvec (Vec.op q.A) q.precon (Fl.fin t) mm r0 s).1 (by simpa using h)
        omega) (TFOK q.A q.b) (fun s hs hc => tfStep_ok q.A q.b q.precon (Fl.fin t) mm r0 s hs (by simpa using hc)) s0 hok
    change TFOK q.A q.b (tfLoop (Vec.op q.A) q.precon (Fl.fin t) mm r0 s0) ∧
      (!(tfLoop (Vec.op q.A) q.precon (Fl.fin t) mm r0 s0).finished) = false at hinv
    generalize tfLoop (Vec.op q.A) q.precon (Fl.fin t) mm r0 s0 = s at hinv hres
    unfold tfResult at hres
    cases hm : s.m with
    | none => rw [hm] at hres; cases hres
    | some m =>
      rw [hm] at hres
      simp only [Except.ok.injEq, Prod.mk.injEq] at hres
      obtain ⟨rfl, -⟩ := hres
      obtain ⟨k, hk, hq⟩ := hinv.1.fin (by simpa using hinv.2) (by rw [hm]; simp)
      rw [hm] at hk
      cases hk
      obtain ⟨w, d, θ, η, τ, -, -, -, -, hτ, hτ0, -, hb⟩ := hq x hx
      simp only at hc
      rw [hτ, Fl.lit_eq, Fl.fin_add, Fl.fin_sqrt (by push_cast; positivity), Fl.fin_mul, Fl.fin_lt] at hc
      push_cast at hc
      linarith [mul_comm τ (Real.sqrt ((k:ℝ) + 1))]
  have start : ∀ (g r0 : E) (z u v y : Vec E) (ρ : Fl) (c : List (Vec E)) (nm : ℕ) (fin : Bool), r0 = q.b - q.A g →
      (u = Vec.op q.A z) → TFOK q.A q.b
      { x := .fin g, y := y, w := .fin r0, d := .fin 0, z := z, u := u, v := v, rho := ρ, theta := lit 0, eta := lit 0,
        residNorm := .fin ‖r0‖, k := 0, m := none, nMatvec := nm, finished := fin, calls := c } := by
    intro g r0 z u v y ρ c nm fin h1 h2
    refine ⟨fun _ => ⟨?_, h2⟩, fun _ h => absurd rfl h⟩
    intro x hx
    cases hx
    exact ⟨r0, 0, 0, 0, ‖r0‖, rfl, rfl, by simp, by simp, rfl, norm_nonneg _, by rw [h1]; simp, by rw [h1]; simp⟩
  have trivial : ∀ (s0 : TFLoop Fl (Vec E)), s0.finished = true → s0.m = none → TFOK q.A q.b s0 := by
    intro s0 h1 h2
    exact ⟨fun h => (by rw [h1] at h; cases h), fun _ h => absurd h2 h⟩
  unfold tfSolve at h
  cases hq : q.guess with
  | none =>
    rw [hq] at hg
    simp only [hg, Option.map_none, Option.getD_none, LinProblem.opts, Vec.fin_dot, abs_sqrt_inner,
      Fl.fin_mul, Fl.fin_pymax, Vec.zeros_eq] at h
    simp only [LinProblem.start, hq, Option.getD_none, map_zero, sub_zero]
    refine key _ _ _ _ _ ?_ h
    split
    · exact trivial _ rfl rfl
    · exact start 0 q.b _ _ _ _ _ _ _ _ (by simp) rfl
  | some g =>
    rw [hq] at hg
    simp only [hg, Option.map_some, Option.getD_some, LinProblem.opts, Vec.op_fin, Vec.fin_sub, Vec.fin_dot,
      abs_sqrt_inner, Fl.fin_mul, Fl.fin_pymax] at h
    simp only [LinProblem.start, hq, Option.getD_some]
    refine key _ _ _ _ _ ?_ h
    split
    · exact trivial _ rfl rfl
    · exact start g (q.b - q.A g) _ _ _ _ _ _ _ _ rfl rfl

end ExactArith

end Verif.Solver
