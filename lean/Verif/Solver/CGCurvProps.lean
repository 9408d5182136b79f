import Verif.Solver.CGCurv
import Verif.Solver.SingularProps

/-!
# C81: CG on symmetric operators that may be indefinite or singular

The contract on which truncated Newton methods rely: `solve` ends with a solution or with a direction along which the quadratic objective
decreases without bound.
-/

namespace Verif.Solver
open Scalar Vect
open scoped RealInnerProductSpace

variable {E : Type} [NormedAddCommGroup E] [InnerProductSpace ℝ E]

/-- **Specification.** The quadratic whose gradient is `A x - b`. -/
noncomputable def objective (A : E →ₗ[ℝ] E) (b x : E) : ℝ := 1 / 2 * ⟪x, A x⟫ - ⟪b, x⟫

/-- **Specification.** Starting from `x`, `f` decreases along `p`, below every bound. -/
def FallsForever (f : E → ℝ) (x p : E) : Prop :=
  (∀ s t : ℝ, 0 ≤ s → s < t → f (x + t • p) < f (x + s • p)) ∧ ∀ M : ℝ, ∃ t : ℝ, 0 ≤ t ∧ f (x + t • p) < M

theorem objective_along {A : E →ₗ[ℝ] E} (hA : ∀ u v, ⟪A u, v⟫ = ⟪u, A v⟫) (b x p : E) (t : ℝ) :
    objective A b (x + t • p) = objective A b x - t * ⟪b - A x, p⟫ + t * t / 2 * ⟪p, A p⟫ := by
  have h : ⟪x, A p⟫ = ⟪A x, p⟫ := (hA x p).symm
  have h' : ⟪p, A x⟫ = ⟪A x, p⟫ := real_inner_comm _ _
  simp only [objective, map_add, map_smul, inner_add_left, inner_add_right, inner_smul_left, inner_smul_right, inner_sub_left, conj_trivial, h, h']
  ring

theorem fallsForever {A : E →ₗ[ℝ] E} (hA : ∀ u v, ⟪A u, v⟫ = ⟪u, A v⟫) {b x p : E} (h1 : ⟪p, A p⟫ ≤ 0) (h2 : 0 < ⟪b - A x, p⟫) :
    FallsForever (objective A b) x p := by
  refine ⟨fun s t hs hst => ?_, fun M => ?_⟩
  · rw [objective_along hA, objective_along hA]
    have h3 : t * t / 2 * ⟪p, A p⟫ ≤ s * s / 2 * ⟪p, A p⟫ := mul_le_mul_of_nonpos_right (by nlinarith) h1
    have h4 := mul_lt_mul_of_pos_right hst h2
    linarith
  · refine ⟨(|objective A b x - M| + 1) / ⟪b - A x, p⟫, div_nonneg (add_nonneg (abs_nonneg _) zero_le_one) h2.le, ?_⟩
    rw [objective_along hA, div_mul_cancel₀ _ h2.ne']
    generalize (|objective A b x - M| + 1) / ⟪b - A x, p⟫ = t
    have h3 : t * t / 2 * ⟪p, A p⟫ ≤ 0 := mul_nonpos_of_nonneg_of_nonpos (div_nonneg (mul_self_nonneg t) zero_le_two) h1
    have h4 := le_abs_self (objective A b x - M)
    linarith

theorem cgStep_atIter_curv (q : CGProblem E) (kw : CGKw (Vec E)) (self : CGObj Fl (Vec E)) (k : ℕ)
    (s : CGLoop Fl (Vec E)) (hs : AtIter q kw self k s) (hr : CGMath.rs q.A q.it0 k ≠ 0)
    (hpos : 0 < ⟪CGMath.ps q.A q.it0 k, q.A (CGMath.ps q.A q.it0 k)⟫) :
    AtIter q kw self (k+1) (cgStep (Vec.op q.A) none kw s) := by
  have hrr : ⟪CGMath.rs q.A q.it0 k, CGMath.rs q.A q.it0 k⟫ ≠ 0 := by simpa using hr
  have h : (kw.checkCurvature && notPositive (dot s.p (Vec.op q.A s.p))) = false := by
    rw [hs.p, Vec.op_fin, Vec.fin_dot]
    have : notPositive (Fl.fin ⟪CGMath.ps q.A q.it0 k, q.A (CGMath.ps q.A q.it0 k)⟫) = false := by
      rw [← Bool.not_eq_true, notPositive_fin]; exact not_le.2 hpos
    rw [this]; simp
  rw [cgStep_def h]
  have e1 : s.r + smul (s.ry / dot s.p (Vec.op q.A s.p)) (Vec.op q.A s.p) = .fin (CGMath.rs q.A q.it0 (k+1)) := by
    rw [hs.r, hs.ry, hs.p, Vec.op_fin, Vec.fin_dot, Fl.fin_div _ hpos.ne', Vec.fin_smul, Vec.fin_add]; rfl
  have e2 : s.x + smul (s.ry / dot s.p (Vec.op q.A s.p)) s.p = .fin (CGMath.xs q.A q.it0 (k+1)) := by
    rw [hs.x, hs.ry, hs.p, Vec.op_fin, Vec.fin_dot, Fl.fin_div _ hpos.ne', Vec.fin_smul, Vec.fin_add]; rfl
  rw [e1, e2]
  refine ⟨?_, rfl, rfl, ?_, rfl, ?_, ?_, hs.df, hs.id, ?_, ?_⟩
  · intro j hj
    rcases Nat.lt_or_ge j k with h | h
    · exact hs.ne j h
    · obtain rfl : j = k := by omega
      exact hr
  · simp only [applyPrecon]
    rw [hs.ry, hs.p, Vec.fin_dot, Fl.fin_div _ hrr, Vec.fin_smul, Vec.fin_sub]; rfl
  · simp only [applyPrecon, Vec.fin_dot, abs_sqrt_self]
  · simp only [hs.nm]; omega
  · simp only [applyPrecon, Vec.fin_dot, abs_sqrt_self, hs.rh]
    rw [List.range_succ (n := k+1), List.map_append, List.append_assoc]; rfl
  · intro hst
    simp only [hst, if_true, hs.its hst]
    rw [List.range_succ (n := k+1), List.map_append, List.append_assoc]; rfl

/-- the state after the step that found a direction without positive curvature -/
structure Ended (q : CGProblem E) (kw : CGKw (Vec E)) (old : CGObj Fl (Vec E)) (k : ℕ) (s : CGLoop Fl (Vec E)) : Prop where
  x : s.x = .fin (CGMath.xs q.A q.it0 k)
  rn : s.residNorm = .fin ‖CGMath.rs q.A q.it0 k‖
  nm : s.nMatvec = kw.guessCost + k + 1
  df : s.definite = false
  id : s.infiniteDescent = some (.fin (CGMath.ps q.A q.it0 k))
  curv : ⟪CGMath.ps q.A q.it0 k, q.A (CGMath.ps q.A q.it0 k)⟫ ≤ 0
  its : kw.storeIterates = true →
    s.iterates = old.iterates ++ (List.range (k+1)).map (fun j => Vec.fin (CGMath.xs q.A q.it0 j))

/-- what holds after `k` steps along directions of positive curvature -/
structure Steps (q : CGProblem E) (k : ℕ) : Prop where
  gt : ∀ j < k, q.threshold < ‖CGMath.rs q.A q.it0 j‖
  curv : ∀ j < k, 0 < ⟪CGMath.ps q.A q.it0 j, q.A (CGMath.ps q.A q.it0 j)⟫

theorem Steps.succ {q : CGProblem E} {k : ℕ} (h : Steps q k) (h1 : q.threshold < ‖CGMath.rs q.A q.it0 k‖)
    (h2 : 0 < ⟪CGMath.ps q.A q.it0 k, q.A (CGMath.ps q.A q.it0 k)⟫) : Steps q (k + 1) := by
  constructor <;> intro j hj <;> rcases Nat.lt_succ_iff_lt_or_eq.1 hj with hj | rfl
  · exact h.gt j hj
  · exact h1
  · exact h.curv j hj
  · exact h2

theorem cgSolve_curv (q : CGProblem E) (hat : 0 ≤ q.abstol) (mm : Nat)
    (self : CGObj Fl (Vec E)) (kw : CGKw (Vec E)) (hg : kw.guess = q.guess.map Vec.fin) (hcc : kw.checkCurvature = true) :
    let s := cgLoop (Vec.op q.A) q.opts.precon kw (.fin q.threshold) mm (cgInit (Vec.op q.A) q.opts kw self (.fin q.b)).1
    cgCont (.fin q.threshold) mm s = false ∧
    ∃ k, Steps q k ∧ (AtIter q kw self k s ∨ Ended q kw self k s ∧ q.threshold < ‖CGMath.rs q.A q.it0 k‖) := by
  obtain ⟨hx, hr, hp, hry, hrn, hnm, hd0, hid, hrh, hit, ht⟩ := cgInit_exact q kw self hg
  have ht0 : 0 ≤ q.threshold := le_trans hat (le_max_left _ _)
  have hinv := cgLoop_inv (Vec.op q.A) q.opts.precon kw (.fin q.threshold) mm
    (fun s => ∃ k, Steps q k ∧ (AtIter q kw self k s ∨ Ended q kw self k s ∧ q.threshold < ‖CGMath.rs q.A q.it0 k‖))
    (fun s hs hc => by
      obtain ⟨k, hst, hk | ⟨hk, -⟩⟩ := hs
      · obtain ⟨a, ρ, h1, h2, h3⟩ := Fl.lt_iff.1 (cgCont_gt hc)
        cases h1
        rw [hk.rn] at h2
        cases h2
        have hr0 : CGMath.rs q.A q.it0 k ≠ 0 := by intro h; rw [h, norm_zero] at h3; linarith
        by_cases hpos : 0 < ⟪CGMath.ps q.A q.it0 k, q.A (CGMath.ps q.A q.it0 k)⟫
        · exact ⟨k + 1, hst.succ h3 hpos, Or.inl (cgStep_atIter_curv q kw self k s hk hr0 hpos)⟩
        · have h : (kw.checkCurvature && notPositive (dot s.p (Vec.op q.A s.p))) = true := by
            rw [hk.p, Vec.op_fin, Vec.fin_dot, hcc, Bool.true_and, notPositive_fin]
            exact not_lt.1 hpos
          refine ⟨k, hst, Or.inr ⟨?_, h3⟩⟩
          have e : q.opts.precon = none := rfl
          rw [e, cgStep_indef h]
          exact ⟨hk.x, hk.rn, by simp [hk.nm], rfl, by simp [hk.p], not_lt.1 hpos, hk.its⟩
      · simp [cgCont, hk.df] at hc)
    (cgInit (Vec.op q.A) q.opts kw self (.fin q.b)).1
    ⟨0, ⟨by intro j hj; omega, by intro j hj; omega⟩, Or.inl ⟨by intro j hj; omega, hx, hr, hp, hry, hrn, by simpa using hnm, hd0, hid, hrh,
      fun h => by rw [hit, h]; rfl⟩⟩
  exact ⟨hinv.2, hinv.1⟩

/-- **C81.** In exact arithmetic, CG without preconditioner, with the check of the curvature and `abstol ≥ 0`, on every symmetric operator
(definite or not, singular or not) of order `n`, for every right-hand side, guess, tolerances, state of the object and budget that allows `n`
products (such as the default) and one for the guess: after at most that many products one of these holds.
- `converged` and `definite` are true, and `x` satisfies the stopping test;
- `converged` and `definite` are false, and along `infiniteDescent`, starting from `x`, the quadratic `x'Ax/2 - b'x` decreases below every
  bound.
Along the stored iterates, of which the last is `x`, the quadratic strictly decreases and the distance from the guess strictly
increases. -/
theorem C81_cg [FiniteDimensional ℝ E] (q : CGProblem E) (hA : ∀ u v, ⟪q.A u, v⟫ = ⟪u, q.A v⟫) (self : CGObj Fl (Vec E)) (kw : CGKw (Vec E))
    (hk : kw.Runs) (hg : kw.guess = q.guess.map Vec.fin) (hcc : kw.checkCurvature = true) (hat : 0 ≤ q.abstol)
    (hm : ∀ m, kw.matvecMax = some m → Module.finrank ℝ E + (if kw.guess.isSome then 1 else 0) ≤ m) :
    let res := (cgSolve (Vec.op q.A) q.opts (Module.finrank ℝ E) self (.fin q.b) kw).1
    ∃ x, res.x = some (.fin x) ∧ res.nMatvec ≤ Module.finrank ℝ E + (if kw.guess.isSome then 1 else 0) ∧
      (res.converged = true ∧ res.definite = some true ∧ res.infiniteDescent = self.infiniteDescent ∧
        ‖q.b - q.A x‖ ≤ max q.abstol (q.reltol * ‖q.b - q.A (startPoint q.guess)‖) ∨
       res.converged = false ∧ res.definite = some false ∧ ∃ p, res.infiniteDescent = some (.fin p) ∧
        ⟪p, q.A p⟫ ≤ 0 ∧ 0 < ⟪q.b - q.A x, p⟫ ∧ FallsForever (objective q.A q.b) x p) ∧
      (kw.storeIterates = true → ∃ its : List E, res.iterates = self.iterates ++ its.map Vec.fin ∧ its.head? = some (startPoint q.guess) ∧
        its.getLast? = some x ∧ its.IsChain (fun u v => objective q.A q.b v < objective q.A q.b u) ∧
        its.IsChain (fun u v => ‖u - startPoint q.guess‖ < ‖v - startPoint q.guess‖)) := by
  have hbound : Module.finrank ℝ E + kw.guessCost ≤ kw.matvecMax.getD (2 * Module.finrank ℝ E) ∨ Module.finrank ℝ E = 0 := by
    have hgc : kw.guessCost = if kw.guess.isSome then 1 else 0 := rfl
    cases hmm : kw.matvecMax with
    | none => rw [Option.getD_none, hgc]; split <;> omega
    | some m => left; exact hm m hmm
  have ht : (cgInit (Vec.op q.A) q.opts kw self (.fin q.b)).2 = .fin q.threshold := (cgInit_exact q kw self hg).2.2.2.2.2.2.2.2.2.2
  simp only
  rw [cgSolve_eq hk]
  simp only [ht]
  obtain ⟨hc, k, hst, hs⟩ := cgSolve_curv q hat (kw.matvecMax.getD (2 * Module.finrank ℝ E)) self kw hg hcc
  generalize cgLoop (Vec.op q.A) q.opts.precon kw (.fin q.threshold) (kw.matvecMax.getD (2 * Module.finrank ℝ E))
    (cgInit (Vec.op q.A) q.opts kw self (.fin q.b)).1 = s at hs hc ⊢
  have ht0 : 0 ≤ q.threshold := le_trans hat (le_max_left _ _)
  have hne : ∀ j, q.threshold < ‖CGMath.rs q.A q.it0 j‖ → CGMath.rs q.A q.it0 j ≠ 0 := by
    intro j h h0; rw [h0, norm_zero] at h; linarith
  have hgc : (if kw.guess.isSome then 1 else 0) = kw.guessCost := rfl
  rw [hgc]
  have hres : CGMath.rs q.A q.it0 k = q.A (CGMath.xs q.A q.it0 k) - q.b := CGMath.resid q.A q.it0 q.b rfl k
  have hnorm : ‖CGMath.rs q.A q.it0 k‖ = ‖q.b - q.A (CGMath.xs q.A q.it0 k)‖ := by rw [hres, norm_sub_rev]
  have hits : ∀ i, i = self.iterates ++ (List.range (k+1)).map (fun j => Vec.fin (CGMath.xs q.A q.it0 j)) →
      ∃ its : List E, i = self.iterates ++ its.map Vec.fin ∧ its.head? = some (startPoint q.guess) ∧
        its.getLast? = some (CGMath.xs q.A q.it0 k) ∧ its.IsChain (fun u v => objective q.A q.b v < objective q.A q.b u) ∧
        its.IsChain (fun u v => ‖u - startPoint q.guess‖ < ‖v - startPoint q.guess‖) := by
    intro i hi
    refine ⟨(List.range (k+1)).map (fun j => CGMath.xs q.A q.it0 j), ?_, ?_, ?_, ?_, ?_⟩
    · rw [hi, List.map_map]; rfl
    · rw [List.range_succ_eq_map]; rfl
    · rw [List.range_succ]; simp
    · rw [List.isChain_map, List.isChain_range]
      intro j hj
      exact CGMath.objective_lt hA (s0 := q.it0) rfl q.b rfl j (fun i hi => hne i (hst.gt i (by omega))) (fun i hi => hst.curv i (by omega))
    · rw [List.isChain_map, List.isChain_range]
      intro j hj
      exact CGMath.away_lt hA (s0 := q.it0) rfl j (fun i hi => hne i (hst.gt i (by omega))) (fun i hi => hst.curv i (by omega))
  have hcount : ∀ j, Steps q j → q.threshold < ‖CGMath.rs q.A q.it0 j‖ → j + 1 ≤ Module.finrank ℝ E := by
    intro j hj hgt
    refine CGMath.terminates_curv hA (s0 := q.it0) rfl j (fun i hi => hne i ?_) hj.curv
    rcases Nat.lt_or_eq_of_le hi with h | rfl
    · exact hj.gt i h
    · exact hgt
  refine ⟨CGMath.xs q.A q.it0 k, ?_, ?_, ?_, ?_⟩
  · rcases hs with hs | ⟨hs, -⟩ <;> rw [hs.x]
  · rcases hs with hs | ⟨hs, hgt⟩
    · rw [hs.nm]
      rcases Nat.eq_zero_or_pos k with rfl | h
      · omega
      · obtain ⟨j, rfl⟩ : ∃ j, k = j + 1 := ⟨k - 1, by omega⟩
        have := hcount j ⟨fun i hi => hst.gt i (by omega), fun i hi => hst.curv i (by omega)⟩ (hst.gt j (by omega))
        omega
    · rw [hs.nm]
      have := hcount k hst hgt
      omega
  · rcases hs with hs | ⟨hs, hgt⟩
    · left
      have hle : ‖CGMath.rs q.A q.it0 k‖ ≤ q.threshold := by
        by_contra hgt
        have hk1 := hcount k hst (not_le.1 hgt)
        have hlt : ¬ s.nMatvec < kw.matvecMax.getD (2 * Module.finrank ℝ E) := by
          intro hlt
          have : cgCont (.fin q.threshold) (kw.matvecMax.getD (2 * Module.finrank ℝ E)) s = true := by
            simp only [cgCont, hs.df, Bool.and_true, Bool.and_eq_true, decide_eq_true_eq, gt, hs.rn, Fl.fin_lt]
            exact ⟨not_le.1 hgt, hlt⟩
          rw [this] at hc; cases hc
        have hnm := hs.nm
        omega
      refine ⟨by rw [hs.rn]; exact (Fl.fin_le _ _).2 hle, by rw [hs.df], hs.id, ?_⟩
      rw [← hnorm]
      refine hle.trans_eq ?_
      rfl
    · right
      have hprr := (CGMath.orth_curv hA (s0 := q.it0) rfl k (fun j hj => hne j (hst.gt j hj)) hst.curv).prr
      have h2 : 0 < ⟪q.b - q.A (CGMath.xs q.A q.it0 k), CGMath.ps q.A q.it0 k⟫ := by
        rw [← neg_sub, ← hres, inner_neg_left, real_inner_comm, hprr, neg_neg]
        exact real_inner_self_pos.2 (hne k hgt)
      refine ⟨?_, by rw [hs.df], _, hs.id, hs.curv, h2, fallsForever hA hs.curv h2⟩
      rw [hs.rn, ← Bool.not_eq_true, Fl.fin_le]
      exact not_le.2 hgt
  · intro h
    rcases hs with hs | ⟨hs, -⟩
    · exact hits _ (hs.its h)
    · exact hits _ (hs.its h)

/-- **C81 (semidefinite operators).** In exact arithmetic, with tolerances zero and the other options as in `C81_cg`, on every symmetric positive
semidefinite operator CG decides whether the system has a solution: `definite` is true if it has one, and `x` solves it; `definite` is false
if it has none, and then `infiniteDescent` is a certificate `p` with `Ap = 0` and `p'b > 0`. -/
theorem C81_consistent [FiniteDimensional ℝ E] (q : CGProblem E) (hA : PSD q.A) (self : CGObj Fl (Vec E)) (kw : CGKw (Vec E))
    (hk : kw.Runs) (hg : kw.guess = q.guess.map Vec.fin) (hcc : kw.checkCurvature = true) (ha : q.abstol = 0) (hr : q.reltol = 0)
    (hm : ∀ m, kw.matvecMax = some m → Module.finrank ℝ E + (if kw.guess.isSome then 1 else 0) ≤ m) :
    let res := (cgSolve (Vec.op q.A) q.opts (Module.finrank ℝ E) self (.fin q.b) kw).1
    (q.b ∈ LinearMap.range q.A → res.definite = some true ∧ res.converged = true ∧ ∃ x, res.x = some (.fin x) ∧ q.A x = q.b) ∧
    (q.b ∉ LinearMap.range q.A → res.definite = some false ∧ res.converged = false ∧
      ∃ p, res.infiniteDescent = some (.fin p) ∧ q.A p = 0 ∧ 0 < ⟪q.b, p⟫) := by
  obtain ⟨x, hx, -, h, -⟩ := C81_cg q hA.1 self kw hk hg hcc ha.ge hm
  simp only at hx h ⊢
  have key : ∀ y p, ⟪p, q.A p⟫ ≤ 0 → 0 < ⟪q.b - q.A y, p⟫ → q.A p = 0 ∧ 0 < ⟪q.b, p⟫ := by
    intro y p h1 h2
    have h3 : q.A p = 0 := hA.kernel (le_antisymm h1 (hA.2 p))
    rw [inner_sub_left, hA.1, h3, inner_zero_right, sub_zero] at h2
    exact ⟨h3, h2⟩
  rcases h with ⟨h1, h2, -, h3⟩ | ⟨h1, h2, p, h3, h4, h5, -⟩
  · have h4 : q.A x = q.b := by
      rw [ha, hr, zero_mul, max_self, norm_le_zero_iff, sub_eq_zero] at h3
      exact h3.symm
    exact ⟨fun _ => ⟨h2, h1, x, hx, h4⟩, fun hb => absurd ⟨x, h4⟩ hb⟩
  · obtain ⟨h6, h7⟩ := key x p h4 h5
    refine ⟨fun ⟨z, hz⟩ => ?_, fun _ => ⟨h2, h1, p, h3, h6, h7⟩⟩
    rw [← hz, hA.1, h6, inner_zero_right] at h7
    exact absurd h7 (lt_irrefl _)

/-! ### The hypotheses are met -/

/-- the reflection of the plane in its first axis, an indefinite operator -/
noncomputable def planeFlip : ℂ →ₗ[ℝ] ℂ where
  toFun z := ⟨z.re, -z.im⟩
  map_add' u v := by apply Complex.ext <;> simp; ring
  map_smul' a u := by apply Complex.ext <;> simp

/-- CG on an indefinite system: it ends within two products, with a solution or a direction -/
example : ∃ x, (cgSolve (Vec.op planeFlip) (CGProblem.opts (⟨planeFlip, ⟨2, 1⟩, none, 0, 0⟩ : CGProblem ℂ)) 2 {} (.fin ⟨2, 1⟩) {}).1.x =
    some (.fin x) := by
  have := C81_cg (⟨planeFlip, ⟨2, 1⟩, none, 0, 0⟩ : CGProblem ℂ) (fun u v => by simp [planeFlip, Complex.inner]) {} {} rfl rfl rfl le_rfl
    (by simp)
  rw [Complex.finrank_real_complex] at this
  obtain ⟨x, hx, -⟩ := this
  exact ⟨x, hx⟩

/-- CG on the inconsistent system `x₁ = 1, 0 = 1` -/
example : ∃ p : ℂ, (cgSolve (Vec.op planeProj) (CGProblem.opts (⟨planeProj, ⟨1, 1⟩, none, 0, 0⟩ : CGProblem ℂ)) 2 {} (.fin ⟨1, 1⟩)
    {}).1.infiniteDescent = some (.fin p) ∧ p.re = 0 ∧ 0 < p.im := by
  have := (C81_consistent (⟨planeProj, ⟨1, 1⟩, none, 0, 0⟩ : CGProblem ℂ) planeProj_psd {} {} rfl rfl rfl rfl rfl (by simp)).2
    (fun h => by simpa using planeProj_mem.1 h)
  rw [Complex.finrank_real_complex] at this
  obtain ⟨-, -, p, hp, h1, h2⟩ := this
  have h3 : p.re = 0 := by simpa using congrArg Complex.re h1
  refine ⟨p, hp, h3, ?_⟩
  simpa [Complex.inner, h3] using h2

end Verif.Solver
