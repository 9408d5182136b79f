import Verif.Solver.CGS
import Verif.Solver.BiCGSTAB
import Verif.Solver.Exact
import Mathlib.Tactic.Abel

/-!
# Properties of CGS and Bi-CGSTAB: C31, C32
-/

namespace Verif.Solver
open Scalar Vect

/-! ## Counters, any arithmetic -/
section Any
variable {S V : Type} [Scalar S] [Vect S V]

/-- 1 if an initial guess is given: its residual costs one product -/
def KrylovKw.guessCost (kw : KrylovKw V) : Nat := if kw.guess.isSome then 1 else 0

theorem cgsStep_calls (op : V → V) (precon : Option (V → V)) (threshold : S) (matvecMax : Nat) (r0 : V) (s : CGSLoop S V) :
    (cgsStep op precon threshold matvecMax r0 s).calls =
      s.calls ++ [applyPrecon precon s.p,
        applyPrecon precon (s.u + (s.u - smul (s.rho / dot r0 (op (applyPrecon precon s.p))) (op (applyPrecon precon s.p))))] := by
  unfold cgsStep; simp only; split <;> rfl

/-- **C31 (partial, counters).** For every arithmetic, operator, preconditioner, right-hand side and keywords: at most
`matvec_max + 1` products are counted in `nMatvec`, which is the number of products with the operator during the
iterations.  Missing, because the code violates it: the product spent on the residual of an initial guess is not counted
(`C31_guess_not_counted`). -/
theorem C31_budget_partial (op : V → V) (o : KrylovOpts S V) (n : Nat) (rhs : V) (kw : KrylovKw V) :
    let res := (cgsSolve op o n rhs kw).1
    let products := (cgsSolve op o n rhs kw).2
    products.length = res.nMatvec + (if kw.guess.isSome then 1 else 0) ∧
    res.nMatvec ≤ kw.matvecMax.getD (2 * n) + 1 := by
  have key : ∀ (t : S) (mm : Nat) (r0 : V) (s : CGSLoop S V) (g : Nat), s.calls.length = s.nMatvec + g →
      (s.finished = false → s.nMatvec < mm) → s.nMatvec ≤ mm + 1 →
      (cgsLoop op o.precon t mm r0 s).calls.length = (cgsLoop op o.precon t mm r0 s).nMatvec + g ∧
      (cgsLoop op o.precon t mm r0 s).nMatvec ≤ mm + 1 := by
    intro t mm r0 s g h1 h2 h3
    have := (whileLoop_inv (cont := fun s : CGSLoop S V => !s.finished) (step := cgsStep op o.precon t mm r0)
      (μ := fun s => mm - s.nMatvec) (h := by
        intro s _ h
        have h1 := cgsStep_nMatvec op o.precon t mm r0 s
        have h2 := h1.2 (by simpa using h)
        omega)
      (fun s => s.calls.length = s.nMatvec + g ∧ (s.finished = false → s.nMatvec < mm) ∧ s.nMatvec ≤ mm + 1)
      (fun s hs hc => by
        have hn := cgsStep_nMatvec op o.precon t mm r0 s
        have := hs.2.1 (by simpa using hc)
        refine ⟨?_, hn.2, by omega⟩
        rw [cgsStep_calls, hn.1]
        simp only [List.length_append, List.length_cons, List.length_nil]
        omega) s ⟨h1, h2, h3⟩).1
    exact ⟨this.1, this.2.2⟩
  unfold cgsSolve
  cases hg : kw.guess <;>
  · simp only
    refine key _ _ _ _ _ (by simp) (fun h => ?_) (by simp)
    simp only [ge_iff_le, Nat.le_zero_eq, Bool.or_eq_false_iff, decide_eq_false_iff_not] at h
    exact Nat.pos_of_ne_zero h.2

/-- **C31** (the recorded products are all there are). -/
theorem C31_products_complete (op op' : V → V) (o : KrylovOpts S V) (n : Nat) (rhs : V) (kw : KrylovKw V)
    (h : ∀ v ∈ (cgsSolve op o n rhs kw).2, op' v = op v) : cgsSolve op' o n rhs kw = cgsSolve op o n rhs kw := by
  have key : ∀ (t : S) (mm : Nat) (r0 : V) (s : CGSLoop S V),
      (∀ v ∈ (cgsLoop op o.precon t mm r0 s).calls, op' v = op v) →
      cgsLoop op' o.precon t mm r0 s = cgsLoop op o.precon t mm r0 s ∧ ∀ v ∈ s.calls, op' v = op v := by
    intro t mm r0 s hs
    refine whileLoop_congr (agree := fun s : CGSLoop S V => ∀ v ∈ s.calls, op' v = op v) ?_ ?_ s hs
    · intro s h v hv
      exact h v (by rw [cgsStep_calls]; exact List.mem_append_left _ hv)
    · intro s h
      rw [cgsStep_calls] at h
      have h1 := h _ (List.mem_append_right _ List.mem_cons_self)
      have h2 := h _ (List.mem_append_right _ (List.mem_cons_of_mem _ List.mem_cons_self))
      unfold cgsStep
      simp only [h1, h2]
  unfold cgsSolve at h ⊢
  cases hg : kw.guess with
  | none =>
    simp only [hg] at h ⊢
    rw [(key _ _ _ _ h).1]
  | some g =>
    simp only [hg] at h ⊢
    have := (key _ _ _ _ h).2 g (by simp)
    rw [this, (key _ _ _ _ h).1]

theorem biStep_calls (op : V → V) (precon : Option (V → V)) (threshold : S) (mm : Nat) (r0 : V) (s : BiLoop S V) :
    s.calls <+: (biStep op precon threshold mm r0 s).calls ∧
    ((biStep op precon threshold mm r0 s).calls.length - s.calls.length =
      (biStep op precon threshold mm r0 s).nMatvec - s.nMatvec) ∧
    (s.nMatvec < mm → (biStep op precon threshold mm r0 s).nMatvec ≤ mm) := by
  unfold biStep
  simp only
  split
  · refine ⟨List.prefix_append _ _, by simp, fun h => by simp only; omega⟩
  · split
    · refine ⟨List.prefix_append _ _, by simp, fun h => by simp only; omega⟩
    · refine ⟨List.prefix_append _ _, by simp, fun h => by simp only; omega⟩

/-- **C32 (counters).** For every arithmetic, operator, preconditioner, right-hand side and keywords: `nMatvec` is the
number of products with the operator, which is at most `matvec_max`, or one if the guess already exceeds the budget. -/
theorem C32_budget (op : V → V) (o : KrylovOpts S V) (n : Nat) (rhs : V) (kw : KrylovKw V) :
    let res := (biSolve op o n rhs kw).1
    let products := (biSolve op o n rhs kw).2
    res.nMatvec = products.length ∧ products.length ≤ max (kw.matvecMax.getD (2 * n)) 1 ∧
    (kw.guess = none → products.length ≤ kw.matvecMax.getD (2 * n)) := by
  have key : ∀ (t : S) (mm : Nat) (r0 : V) (s : BiLoop S V) (g : Nat), s.calls.length = s.nMatvec →
      (s.finished = false → s.nMatvec < mm) → s.nMatvec ≤ max mm g →
      (biLoop op o.precon t mm r0 s).nMatvec = (biLoop op o.precon t mm r0 s).calls.length ∧
      (biLoop op o.precon t mm r0 s).calls.length ≤ max mm g := by
    intro t mm r0 s g h1 h2 h3
    have := (whileLoop_inv (cont := fun s : BiLoop S V => !s.finished) (step := biStep op o.precon t mm r0)
      (μ := fun s => mm - s.nMatvec) (h := by
        intro s _ h
        have h1 := biStep_nMatvec op o.precon t mm r0 s
        have h2 := h1.2 (by simpa using h)
        omega)
      (fun s => s.calls.length = s.nMatvec ∧ (s.finished = false → s.nMatvec < mm) ∧ s.nMatvec ≤ max mm g)
      (fun s hs hc => by
        have hn := biStep_nMatvec op o.precon t mm r0 s
        have hl := hs.2.1 (by simpa using hc)
        obtain ⟨c1, c2, c3⟩ := biStep_calls op o.precon t mm r0 s
        have c3 := c3 hl
        have := c1.length_le
        refine ⟨by omega, hn.2, by omega⟩) s ⟨h1, h2, h3⟩).1
    have e : biLoop op o.precon t mm r0 s = whileLoop (fun s => !s.finished) (biStep op o.precon t mm r0)
      (fun s => mm - s.nMatvec) _ s := rfl
    rw [e]
    refine ⟨this.1.symm, ?_⟩
    rw [this.1]; exact this.2.2
  unfold biSolve
  cases hg : kw.guess with
  | none =>
    simp only
    have := key (pymax o.abstol (o.reltol * abs (sqrt (dot rhs rhs)))) (kw.matvecMax.getD (2 * n)) rhs
      { x := zeros, r := rhs, p := zeros, v := zeros, rho := lit 1, rhoNext := dot rhs rhs, alpha := lit 1, omega := lit 1,
        residNorm := abs (sqrt (dot rhs rhs)), nMatvec := 0,
        finished := le (abs (sqrt (dot rhs rhs))) (pymax o.abstol (o.reltol * abs (sqrt (dot rhs rhs)))) ||
          decide (0 ≥ kw.matvecMax.getD (2 * n)), calls := [] } 0 rfl
      (fun h => by
        simp only [ge_iff_le, Nat.le_zero_eq, Bool.or_eq_false_iff, decide_eq_false_iff_not] at h
        exact Nat.pos_of_ne_zero h.2) (by simp)
    exact ⟨this.1, by have := this.2; simp only [Option.getD_none] at this ⊢; omega, fun _ => by
      have := this.2; simp only [Option.getD_none] at this ⊢; omega⟩
  | some g =>
    simp only
    have := key (pymax o.abstol (o.reltol * abs (sqrt (dot (rhs - op g) (rhs - op g))))) (kw.matvecMax.getD (2 * n)) (rhs - op g)
      { x := g, r := rhs - op g, p := zeros, v := zeros, rho := lit 1, rhoNext := dot (rhs - op g) (rhs - op g),
        alpha := lit 1, omega := lit 1, residNorm := abs (sqrt (dot (rhs - op g) (rhs - op g))), nMatvec := 1,
        finished := le (abs (sqrt (dot (rhs - op g) (rhs - op g))))
          (pymax o.abstol (o.reltol * abs (sqrt (dot (rhs - op g) (rhs - op g))))) ||
          decide (1 ≥ kw.matvecMax.getD (2 * n)), calls := [g] } 1 rfl
      (fun h => by
        simp only [ge_iff_le, Bool.or_eq_false_iff, decide_eq_false_iff_not] at h
        exact Nat.lt_of_not_le h.2) (by simp)
    exact ⟨this.1, this.2, fun h => by cases h⟩

/-- **C32** (the recorded products are all there are). -/
theorem C32_products_complete (op op' : V → V) (o : KrylovOpts S V) (n : Nat) (rhs : V) (kw : KrylovKw V)
    (h : ∀ v ∈ (biSolve op o n rhs kw).2, op' v = op v) : biSolve op' o n rhs kw = biSolve op o n rhs kw := by
  have key : ∀ (t : S) (mm : Nat) (r0 : V) (s : BiLoop S V),
      (∀ v ∈ (biLoop op o.precon t mm r0 s).calls, op' v = op v) →
      biLoop op' o.precon t mm r0 s = biLoop op o.precon t mm r0 s ∧ ∀ v ∈ s.calls, op' v = op v := by
    intro t mm r0 s hs
    refine whileLoop_congr (agree := fun s : BiLoop S V => ∀ v ∈ s.calls, op' v = op v) ?_ ?_ s hs
    · intro s h v hv
      exact h v ((biStep_calls op o.precon t mm r0 s).1.subset hv)
    · intro s h
      have hq : ∀ v, v = applyPrecon o.precon (smul (s.rhoNext / s.rho * s.alpha / s.omega) s.p -
          smul (s.rhoNext / s.rho * s.alpha / s.omega * s.omega) s.v + s.r) → op' v = op v := by
        rintro v rfl
        apply h
        unfold biStep
        simp only
        split
        · simp
        · split <;> simp
      unfold biStep at h ⊢
      simp only at h ⊢
      rw [hq _ rfl]
      split
      · rfl
      · rename_i h1
        rw [if_neg h1] at h
        split
        · rfl
        · rename_i h2
          rw [if_neg h2] at h
          rw [h _ (List.mem_append_right _ (List.mem_cons_of_mem _ List.mem_cons_self))]
  unfold biSolve at h ⊢
  cases hg : kw.guess with
  | none =>
    simp only [hg] at h ⊢
    rw [(key _ _ _ _ h).1]
  | some g =>
    simp only [hg] at h ⊢
    have := (key _ _ _ _ h).2 g (by simp)
    rw [this, (key _ _ _ _ h).1]

end Any

/-! ## Convergence, exact arithmetic -/
section ExactArith
open scoped RealInnerProductSpace
variable {E : Type} [NormedAddCommGroup E] [InnerProductSpace ℝ E]

/-- A linear system with an initial guess and finite tolerances; `precon` is arbitrary. -/
structure LinProblem (E : Type) [NormedAddCommGroup E] [InnerProductSpace ℝ E] where
  A : E →ₗ[ℝ] E
  b : E
  guess : Option E
  abstol : ℝ
  reltol : ℝ
  precon : Option (Vec E → Vec E)

noncomputable def LinProblem.opts (q : LinProblem E) : KrylovOpts Fl (Vec E) :=
  { abstol := .fin q.abstol, reltol := .fin q.reltol, precon := q.precon }

/-- the initial point: the guess, or zero -/
def LinProblem.start (q : LinProblem E) : E := q.guess.getD 0

/-- the stopping threshold of the documentation -/
noncomputable def LinProblem.threshold (q : LinProblem E) : ℝ := max q.abstol (q.reltol * ‖q.b - q.A q.start‖)

/-- `ρ`, if finite, is the norm of the residual of `x`, which is finite too -/
def TrueResid (A : E →ₗ[ℝ] E) (b : E) (x : Vec E) (ρ : Fl) : Prop :=
  ∀ a, ρ = .fin a → ∃ v, x = .fin v ∧ a = ‖b - A v‖

/-- `r`, if finite, is the residual of `x`, which is finite too -/
def TrueVec (A : E →ₗ[ℝ] E) (b : E) (x r : Vec E) : Prop :=
  ∀ a, r = .fin a → ∃ v, x = .fin v ∧ a = b - A v

theorem TrueVec.norm {A : E →ₗ[ℝ] E} {b : E} {x r : Vec E} (h : TrueVec A b x r) : TrueResid A b x (Vect.norm r) := by
  intro a ha
  obtain ⟨v, rfl, rfl⟩ := Vec.norm_fin ha
  obtain ⟨x, hx, rfl⟩ := h v rfl
  exact ⟨x, hx, rfl⟩

/-- a step along `z` -/
theorem TrueVec.step {A : E →ₗ[ℝ] E} {b : E} {x r : Vec E} (h : TrueVec A b x r) (α : Fl) (z : Vec E) :
    TrueVec A b (x + smul α z) (r - smul α (Vec.op A z)) := by
  intro a ha
  obtain ⟨r', d, h1, h2, rfl⟩ := Vec.sub_fin ha
  obtain ⟨α', az, rfl, h4, rfl⟩ := Vec.smul_fin h2
  obtain ⟨z', rfl, rfl⟩ := Vec.op_eq_fin h4
  obtain ⟨v, rfl, rfl⟩ := h r' h1
  exact ⟨v + α' • z', rfl, by rw [map_add, map_smul]; abel⟩

theorem abs_sqrt_inner (v : E) : Scalar.abs (Scalar.sqrt (Fl.fin ⟪v, v⟫)) = Fl.fin ‖v‖ := by
  rw [Fl.fin_sqrt real_inner_self_nonneg, Fl.fin_abs, real_inner_self_eq_norm_sq, Real.sqrt_sq (norm_nonneg _), abs_norm]

theorem cgsStep_true (A : E →ₗ[ℝ] E) (b : E) (precon : Option (Vec E → Vec E)) (t : Fl) (mm : Nat) (r0 : Vec E)
    (s : CGSLoop Fl (Vec E)) (hs : TrueVec A b s.x s.r) :
    TrueVec A b (cgsStep (Vec.op A) precon t mm r0 s).x (cgsStep (Vec.op A) precon t mm r0 s).r ∧
    TrueResid A b (cgsStep (Vec.op A) precon t mm r0 s).x (cgsStep (Vec.op A) precon t mm r0 s).residNorm := by
  unfold cgsStep
  simp only
  have := hs.step (s.rho / dot r0 (Vec.op A (applyPrecon precon s.p)))
    (applyPrecon precon (s.u + (s.u - smul (s.rho / dot r0 (Vec.op A (applyPrecon precon s.p)))
      (Vec.op A (applyPrecon precon s.p)))))
  split <;> exact ⟨this, this.norm⟩

theorem cgsLoop_true (A : E →ₗ[ℝ] E) (b : E) (precon : Option (Vec E → Vec E)) (t : Fl) (mm : Nat) (r0 : Vec E)
    (s : CGSLoop Fl (Vec E)) (h1 : TrueVec A b s.x s.r) (h2 : TrueResid A b s.x s.residNorm) :
    TrueResid A b (cgsLoop (Vec.op A) precon t mm r0 s).x (cgsLoop (Vec.op A) precon t mm r0 s).residNorm :=
  (whileLoop_inv (fun s : CGSLoop Fl (Vec E) => TrueVec A b s.x s.r ∧ TrueResid A b s.x s.residNorm)
    (fun s hs _ => cgsStep_true A b precon t mm r0 s hs.1) s ⟨h1, h2⟩).1.2

/-- **C31 (convergence).** In exact arithmetic, for every linear operator, every preconditioner (not even linear),
right-hand side, guess and options: whenever `residNorm` is finite, it is the true residual norm of the returned `x`,
and `converged` is set exactly if it is within `max(abstol, reltol * initial residual norm)`. -/
theorem C31_converged (q : LinProblem E) (n : Nat) (kw : KrylovKw (Vec E)) (hg : kw.guess = q.guess.map Vec.fin) :
    let res := (cgsSolve (Vec.op q.A) q.opts n (.fin q.b) kw).1
    (∀ ρ, res.residNorm = .fin ρ → ∃ x, res.x = .fin x ∧ ρ = ‖q.b - q.A x‖) ∧
    (res.converged = true ↔ ∃ x, res.x = .fin x ∧ res.residNorm = .fin ‖q.b - q.A x‖ ∧
      ‖q.b - q.A x‖ ≤ max q.abstol (q.reltol * ‖q.b - q.A q.start‖)) := by
  have key : ∀ (t : ℝ) (x : Vec E) (ρ : Fl), TrueResid q.A q.b x ρ →
      (∀ a, ρ = .fin a → ∃ x', x = .fin x' ∧ a = ‖q.b - q.A x'‖) ∧
      (le ρ (.fin t) = true ↔ ∃ x', x = .fin x' ∧ ρ = .fin ‖q.b - q.A x'‖ ∧ ‖q.b - q.A x'‖ ≤ t) := by
    intro t x ρ h
    refine ⟨h, fun hle => ?_, ?_⟩
    · obtain ⟨a, t', h1, h2, h3⟩ := Fl.le_iff.1 hle
      cases h2
      obtain ⟨v, hv, rfl⟩ := h a h1
      exact ⟨v, hv, h1, h3⟩
    · rintro ⟨v, -, rfl, hv⟩
      exact (Fl.fin_le _ _).2 hv
  unfold cgsSolve
  cases hq : q.guess with
  | none =>
    rw [hq] at hg
    simp only [hg, Option.map_none, Option.getD_none, LinProblem.opts, LinProblem.start, hq, Vec.fin_dot, abs_sqrt_inner,
      Fl.fin_mul, Fl.fin_pymax, map_zero, sub_zero, Vec.zeros_eq]
    refine key _ _ _ (cgsLoop_true q.A q.b _ _ _ _ _ ?_ ?_)
    · intro a ha; cases ha; exact ⟨0, rfl, by simp⟩
    · intro a ha; cases ha; exact ⟨0, rfl, by simp⟩
  | some g =>
    rw [hq] at hg
    simp only [hg, Option.map_some, Option.getD_some, LinProblem.opts, LinProblem.start, hq, Vec.op_fin, Vec.fin_sub, Vec.fin_dot,
      abs_sqrt_inner, Fl.fin_mul, Fl.fin_pymax]
    refine key _ _ _ (cgsLoop_true q.A q.b _ _ _ _ _ ?_ ?_)
    · intro a ha; cases ha; exact ⟨g, rfl, rfl⟩
    · intro a ha; cases ha; exact ⟨g, rfl, rfl⟩

/-- invariant of the Bi-CGSTAB loop -/
structure BiOK (A : E →ₗ[ℝ] E) (b : E) (t : Fl) (mm : Nat) (s : BiLoop Fl (Vec E)) : Prop where
  vec : s.finished = false → TrueVec A b s.x s.r
  res : TrueResid A b s.x s.residNorm ∨ le s.residNorm t = false ∧ mm ≤ s.nMatvec

theorem biStep_true (A : E →ₗ[ℝ] E) (b : E) (precon : Option (Vec E → Vec E)) (t : Fl) (mm : Nat) (r0 : Vec E)
    (s : BiLoop Fl (Vec E)) (hs : BiOK A b t mm s) (hf : s.finished = false) :
    BiOK A b t mm (biStep (Vec.op A) precon t mm r0 s) := by
  have hv := hs.vec hf
  unfold biStep
  simp only
  generalize applyPrecon precon (smul _ s.p - smul _ s.v + s.r) = q
  generalize (s.rhoNext / dot r0 (Vec.op A q)) = α
  have h1 := hv.step α q
  split
  · exact ⟨fun h => (by cases h), Or.inl h1.norm⟩
  · rename_i hle
    split
    · rename_i hmm
      exact ⟨fun h => (by cases h), Or.inr ⟨by simpa using hle, hmm⟩⟩
    · generalize applyPrecon precon (s.r - smul α (Vec.op A q)) = z
      generalize dot (Vec.op A z) _ / dot (Vec.op A z) _ = ω
      have h2 := h1.step ω z
      have e : s.x + smul ω z + smul α q = s.x + smul α q + smul ω z := by
        cases s.x <;> cases smul ω z <;> cases smul α q <;> simp
        abel
      rw [e]
      exact ⟨fun _ => h2, Or.inl h2.norm⟩

theorem biLoop_true (A : E →ₗ[ℝ] E) (b : E) (precon : Option (Vec E → Vec E)) (t : Fl) (mm : Nat) (r0 : Vec E)
    (s : BiLoop Fl (Vec E)) (hs : BiOK A b t mm s) : BiOK A b t mm (biLoop (Vec.op A) precon t mm r0 s) :=
  (whileLoop_inv (BiOK A b t mm) (fun s hs hc => biStep_true A b precon t mm r0 s hs (by simpa using hc)) s hs).1

/-- **C32 (convergence; partial).** In exact arithmetic, for every linear operator, every preconditioner, right-hand side,
guess and options: `converged` is set only if the returned `x` is finite, `residNorm` is its true residual norm, and it is
within `max(abstol, reltol * initial residual norm)`; and a finite `residNorm` is the true residual norm of `x` unless the
budget is exhausted.  Missing, because the code violates it: when the budget runs out in the middle of an
iteration, `residNorm` is not the residual norm of the returned `x` (`C32_wrong_residNorm`). -/
theorem C32_converged_partial (q : LinProblem E) (n : Nat) (kw : KrylovKw (Vec E)) (hg : kw.guess = q.guess.map Vec.fin) :
    let res := (biSolve (Vec.op q.A) q.opts n (.fin q.b) kw).1
    (res.converged = true → ∃ x, res.x = .fin x ∧ res.residNorm = .fin ‖q.b - q.A x‖ ∧
      ‖q.b - q.A x‖ ≤ max q.abstol (q.reltol * ‖q.b - q.A q.start‖)) ∧
    (∀ ρ, res.residNorm = .fin ρ → res.nMatvec < kw.matvecMax.getD (2 * n) → ∃ x, res.x = .fin x ∧ ρ = ‖q.b - q.A x‖) := by
  have key : ∀ (t : ℝ) (mm : Nat) (s : BiLoop Fl (Vec E)), BiOK q.A q.b (.fin t) mm s →
      (le s.residNorm (.fin t) = true → ∃ x', s.x = .fin x' ∧ s.residNorm = .fin ‖q.b - q.A x'‖ ∧ ‖q.b - q.A x'‖ ≤ t) ∧
      (∀ ρ, s.residNorm = .fin ρ → s.nMatvec < mm → ∃ x, s.x = .fin x ∧ ρ = ‖q.b - q.A x‖) := by
    intro t mm s h
    constructor
    · intro hle
      rcases h.res with h | ⟨h, -⟩
      · obtain ⟨a, t', h1, h2, h3⟩ := Fl.le_iff.1 hle
        cases h2
        obtain ⟨v, hv, rfl⟩ := h a h1
        exact ⟨v, hv, h1, h3⟩
      · rw [h] at hle; cases hle
    · intro ρ hρ hlt
      rcases h.res with h | ⟨-, h⟩
      · exact h ρ hρ
      · omega
  unfold biSolve
  cases hq : q.guess with
  | none =>
    rw [hq] at hg
    simp only [hg, Option.map_none, Option.getD_none, LinProblem.opts, LinProblem.start, hq, Vec.fin_dot, abs_sqrt_inner,
      Fl.fin_mul, Fl.fin_pymax, map_zero, sub_zero, Vec.zeros_eq]
    refine key _ _ _ (biLoop_true q.A q.b _ _ _ _ _ ⟨fun _ => ?_, Or.inl ?_⟩)
    · intro a ha; cases ha; exact ⟨0, rfl, by simp⟩
    · intro a ha; cases ha; exact ⟨0, rfl, by simp⟩
  | some g =>
    rw [hq] at hg
    simp only [hg, Option.map_some, Option.getD_some, LinProblem.opts, LinProblem.start, hq, Vec.op_fin, Vec.fin_sub, Vec.fin_dot,
      abs_sqrt_inner, Fl.fin_mul, Fl.fin_pymax]
    refine key _ _ _ (biLoop_true q.A q.b _ _ _ _ _ ⟨fun _ => ?_, Or.inl ?_⟩)
    · intro a ha; cases ha; exact ⟨g, rfl, rfl⟩
    · intro a ha; cases ha; exact ⟨g, rfl, rfl⟩

end ExactArith

end Verif.Solver
