import Verif.Solver.CGProps
import Mathlib.Data.List.Range

/-!
# Properties of CG in exact arithmetic: C27, C28, C29 and the violations of C28, C29, C30

The operator is a linear map `A` on a real inner product space `E`; `Vec.fin` embeds vectors of `E` into the exact
arithmetic with an undefined value, see `Verif.Solver.Exact`.
-/

namespace Verif.Solver
open Scalar Vect
open scoped RealInnerProductSpace

variable {E : Type} [NormedAddCommGroup E] [InnerProductSpace ℝ E]

/-- The initial point: the guess, or zero. -/
def startPoint (guess : Option E) : E := guess.getD 0

/-- A CG problem in exact arithmetic with finite data. -/
structure CGProblem (E : Type) [NormedAddCommGroup E] [InnerProductSpace ℝ E] where
  A : E →ₗ[ℝ] E
  b : E
  guess : Option E
  abstol : ℝ
  reltol : ℝ

/-- the options object of a problem without preconditioner -/
noncomputable def CGProblem.opts (q : CGProblem E) : KrylovOpts Fl (Vec E) :=
  { abstol := .fin q.abstol, reltol := .fin q.reltol, precon := none }

/-- the stopping threshold of the documentation: `max(abstol, reltol * initial residual norm)` -/
noncomputable def CGProblem.threshold (q : CGProblem E) : ℝ :=
  max q.abstol (q.reltol * ‖q.b - q.A (startPoint q.guess)‖)

theorem cgInit_exact (q : CGProblem E) (kw : CGKw (Vec E)) (self : CGObj Fl (Vec E)) (hg : kw.guess = q.guess.map Vec.fin) :
    let s := cgInit (Vec.op q.A) q.opts kw self (.fin q.b)
    let r := q.A (startPoint q.guess) - q.b
    s.1.x = .fin (startPoint q.guess) ∧ s.1.r = .fin r ∧ s.1.p = .fin (-r) ∧ s.1.ry = .fin ⟪r, r⟫ ∧
    s.1.residNorm = .fin ‖r‖ ∧ s.1.nMatvec = kw.guessCost ∧ s.1.definite = true ∧
    s.1.infiniteDescent = self.infiniteDescent ∧ s.1.residHistory = self.residHistory ++ [.fin ‖r‖] ∧
    s.1.iterates = (if kw.storeIterates then self.iterates ++ [.fin (startPoint q.guess)] else self.iterates) ∧
    s.2 = .fin q.threshold := by
  have hr : (-q.b + q.A (startPoint q.guess)) = q.A (startPoint q.guess) - q.b := by abel
  have hn : ‖q.A (startPoint q.guess) - q.b‖ = ‖q.b - q.A (startPoint q.guess)‖ := norm_sub_rev _ _
  cases hq : q.guess with
  | none =>
    have h0 : q.A (startPoint none) - q.b = -q.b := by simp [startPoint]
    rw [hq] at hn
    simp only [cgInit, hg, hq, Option.map_none, applyPrecon, CGProblem.opts, Option.getD_none, h0, Vec.fin_neg,
      Vec.zeros_eq, Vec.fin_dot, abs_sqrt_self, Fl.fin_mul, Fl.fin_pymax, CGProblem.threshold, CGKw.guessCost]
    rw [h0] at hn
    simp [startPoint, hn]
  | some g =>
    have h0 : -q.b + q.A g = q.A g - q.b := by abel
    rw [hq] at hn
    simp only [cgInit, hg, hq, Option.map_some, applyPrecon, CGProblem.opts, Option.getD_some, Vec.fin_neg,
      Vec.op_fin, Vec.fin_add, h0, Vec.fin_dot, abs_sqrt_self, Fl.fin_mul, Fl.fin_pymax, CGProblem.threshold,
      CGKw.guessCost, startPoint]
    simp only [startPoint, Option.getD_some] at hn
    simp [hn]

/-! ## C27 -/

/-- invariant: the residual is exact unless the computation has broken down -/
def ResidOK (A : E →ₗ[ℝ] E) (b : E) (s : CGLoop Fl (Vec E)) : Prop :=
  (∀ r, s.r = .fin r → ∃ x, s.x = .fin x ∧ r = A x - b) ∧ s.residNorm = Scalar.abs (sqrt (dot s.r s.r))

theorem cgStep_residOK (A : E →ₗ[ℝ] E) (b : E) (kw : CGKw (Vec E)) (s : CGLoop Fl (Vec E)) (hs : ResidOK A b s) :
    ResidOK A b (cgStep (Vec.op A) none kw s) := by
  cases h : (kw.checkCurvature && notPositive (dot s.p (Vec.op A s.p)))
  · rw [cgStep_def h]
    refine ⟨?_, rfl⟩
    simp only
    intro r hr
    obtain ⟨r0, d, h1, h2, rfl⟩ := Vec.add_fin hr
    obtain ⟨α, ap, h3, h4, rfl⟩ := Vec.smul_fin h2
    obtain ⟨p, h5, rfl⟩ := Vec.op_eq_fin h4
    obtain ⟨x, hx, rfl⟩ := hs.1 r0 h1
    refine ⟨x + α • p, ?_, ?_⟩
    · rw [hx, h3, h5]; simp
    · rw [map_add, map_smul]; abel
  · rw [cgStep_indef h]; exact hs

theorem residNorm_eq {r : Vec E} {z : ℝ} (h : Scalar.abs (sqrt (dot r r)) = Fl.fin z) : ∃ v, r = .fin v ∧ z = ‖v‖ := by
  obtain ⟨y, hy, rfl⟩ := Fl.abs_fin h
  obtain ⟨w, hw, _, rfl⟩ := Fl.sqrt_fin hy
  obtain ⟨u, v, rfl, hv, rfl⟩ := Vec.dot_fin hw
  cases hv
  exact ⟨u, rfl, by rw [real_inner_self_eq_norm_sq, Real.sqrt_sq (norm_nonneg _), abs_norm]⟩

/-- **C27.** In exact arithmetic, for every linear operator (symmetric or not), right-hand side, guess, options and state
of the solver object: if CG without preconditioner sets `converged`, then the returned `x` is a vector whose residual
norm is `residNorm` and is at most `max(abstol, reltol * initial residual norm)`; if it does not, then `residNorm` is not
within the threshold. -/
theorem C27_converged (q : CGProblem E) (n : Nat) (self : CGObj Fl (Vec E)) (kw : CGKw (Vec E)) (hk : kw.Runs)
    (hg : kw.guess = q.guess.map Vec.fin) :
    let res := (cgSolve (Vec.op q.A) q.opts n self (.fin q.b) kw).1
    (res.converged = true → ∃ x, res.x = some (.fin x) ∧ res.residNorm = some (.fin ‖q.b - q.A x‖) ∧
      ‖q.b - q.A x‖ ≤ max q.abstol (q.reltol * ‖q.b - q.A (startPoint q.guess)‖)) ∧
    (res.converged = false → ¬ ∃ ρ ≤ max q.abstol (q.reltol * ‖q.b - q.A (startPoint q.guess)‖),
      res.residNorm = some (.fin ρ)) := by
  rw [cgSolve_eq hk]
  obtain ⟨hx, hr, hp, hry, hrn, -, -, -, -, -, ht⟩ := cgInit_exact q kw self hg
  simp only
  have h0 : ResidOK q.A q.b (cgInit (Vec.op q.A) q.opts kw self (.fin q.b)).1 := by
    refine ⟨?_, ?_⟩
    · intro r h; rw [hr] at h; cases h; exact ⟨_, hx, rfl⟩
    · rw [hr, hrn, Vec.fin_dot, abs_sqrt_self]
  have hinv := (cgLoop_inv (Vec.op q.A) q.opts.precon kw (cgInit (Vec.op q.A) q.opts kw self (.fin q.b)).2
    (kw.matvecMax.getD (2 * n)) (ResidOK q.A q.b) (fun s hs _ => cgStep_residOK q.A q.b kw s hs) _ h0).1
  generalize cgLoop (Vec.op q.A) _ kw _ _ _ = s at hinv ⊢
  rw [ht]
  constructor
  · intro h
    obtain ⟨z, t, h1, h2, h3⟩ := Fl.le_iff.1 h
    cases h2
    obtain ⟨v, hv, rfl⟩ := residNorm_eq (hinv.2 ▸ h1)
    obtain ⟨x, hx, rfl⟩ := hinv.1 v hv
    refine ⟨x, by rw [hx], by rw [h1, norm_sub_rev], ?_⟩
    rw [norm_sub_rev]; exact h3
  · rintro h ⟨ρ, hρ, h1⟩
    rw [Option.some.inj h1] at h
    have : Scalar.le (Fl.fin ρ) (Fl.fin q.threshold) = true := (Fl.fin_le _ _).2 hρ
    rw [this] at h; cases h

/-! ## C29 -/

/-- **C29 (partial).** For every operator and every preconditioner: whenever `definite` is set to `False`,
`infiniteDescent` is a vector `p` with `p'Ap ≤ 0`; and with `check_curvature=False`, `definite` is `True`.
Missing for preconditioned solves, because the code violates it: `p ≠ 0` (`C29_zero_direction`). -/
theorem C29_direction_partial (A : E → E) (o : KrylovOpts Fl (Vec E)) (n : Nat) (self : CGObj Fl (Vec E)) (rhs : Vec E)
    (kw : CGKw (Vec E)) (hk : kw.Runs) :
    let res := (cgSolve (Vec.op A) o n self rhs kw).1
    (res.definite = some true ∨ res.definite = some false) ∧
    (res.definite = some false → ∃ p, res.infiniteDescent = some (.fin p) ∧ ⟪p, A p⟫ ≤ 0) ∧
    (kw.checkCurvature = false → res.definite = some true) := by
  rw [cgSolve_eq hk]
  simp only
  have hinv := (cgLoop_inv (Vec.op A) o.precon kw (cgInit (Vec.op A) o kw self rhs).2
    (kw.matvecMax.getD (2 * n))
    (fun s => (s.definite = false → ∃ p, s.infiniteDescent = some (.fin p) ∧ ⟪p, A p⟫ ≤ 0) ∧
      (kw.checkCurvature = false → s.definite = true))
    (fun s hs hc => ?_) (cgInit (Vec.op A) o kw self rhs).1 ?_).1
  · generalize cgLoop (Vec.op A) _ kw _ _ _ = s at hinv ⊢
    refine ⟨?_, ?_, ?_⟩
    · cases s.definite <;> simp
    · intro h; exact hinv.1 (Option.some.inj h)
    · intro h; rw [hinv.2 h]
  · cases h : (kw.checkCurvature && notPositive (dot s.p (Vec.op A s.p)))
    · rw [cgStep_def h]; exact hs
    · rw [cgStep_indef h]
      simp only [Bool.and_eq_true] at h
      refine ⟨fun _ => ?_, fun h' => by rw [h'] at h; simp at h⟩
      cases hp : s.p with
      | nan => rw [hp, Vec.op_nan, Vec.nan_dot, notPositive_nan] at h; simp at h
      | fin p =>
        rw [hp, Vec.op_fin, Vec.fin_dot] at h
        exact ⟨p, rfl, (notPositive_fin _).1 h.2⟩
  · have hd0 : (cgInit (Vec.op A) o kw self rhs).1.definite = true := by
      unfold cgInit; cases kw.guess <;> rfl
    exact ⟨fun h => (by rw [hd0] at h; exact absurd h (by simp)), fun _ => hd0⟩

/-- invariant of the unpreconditioned loop with nonnegative threshold: `<p, r> = -<r, r>` -/
def DescentOK (s : CGLoop Fl (Vec E)) : Prop :=
  s.r = .nan ∧ s.residNorm = .nan ∨
  ∃ r p, s.r = .fin r ∧ s.ry = .fin ⟪r, r⟫ ∧ s.residNorm = .fin ‖r‖ ∧ (r ≠ 0 → s.p = .fin p ∧ ⟪p, r⟫ = -⟪r, r⟫)

theorem cgStep_descentOK (A : E →ₗ[ℝ] E) (kw : CGKw (Vec E)) (t : ℝ) (ht : 0 ≤ t) (mm : ℕ) (s : CGLoop Fl (Vec E))
    (hs : DescentOK s) (hc : cgCont (Fl.fin t) mm s = true) : DescentOK (cgStep (Vec.op A) none kw s) := by
  obtain ⟨a, ρ, h1, h2, h3⟩ := Fl.lt_iff.1 (cgCont_gt hc)
  cases h1
  rcases hs with ⟨-, h⟩ | ⟨r, p, hr, hry, hrn, hp⟩
  · rw [h] at h2; cases h2
  rw [hrn] at h2
  cases h2
  have hr0 : r ≠ 0 := by rintro rfl; simp at h3; linarith
  obtain ⟨hp, hpr⟩ := hp hr0
  have hrr : ⟪r, r⟫ ≠ 0 := by simpa using hr0
  cases h : (kw.checkCurvature && notPositive (dot s.p (Vec.op A s.p)))
  · rw [cgStep_def h]
    simp only [hr, hry, hp, Vec.op_fin, Vec.fin_dot, applyPrecon]
    by_cases hpAp : ⟪p, A p⟫ = 0
    · left
      have : (Fl.fin ⟪r, r⟫ / Fl.fin ⟪p, A p⟫ : Fl) = .nan := by
        rw [hpAp]; change Fl.div _ _ = _; simp [Fl.div]
      rw [this]
      simp only [Vec.nan_smul, Vec.add_nan, Vec.nan_dot, Fl.sqrt_nan, Fl.abs_nan, and_self]
    · right
      have hα := Fl.fin_div ⟪r, r⟫ hpAp
      rw [hα]
      simp only [Vec.fin_smul, Vec.fin_add, Vec.fin_dot, abs_sqrt_self]
      rw [Fl.fin_div _ hrr]
      refine ⟨r + (⟪r, r⟫ / ⟪p, A p⟫) • A p,
        (⟪r + (⟪r, r⟫ / ⟪p, A p⟫) • A p, r + (⟪r, r⟫ / ⟪p, A p⟫) • A p⟫ / ⟪r, r⟫) • p - (r + (⟪r, r⟫ / ⟪p, A p⟫) • A p),
        rfl, rfl, rfl, fun _ => ⟨rfl, ?_⟩⟩
      have : ⟪p, r + (⟪r, r⟫ / ⟪p, A p⟫) • A p⟫ = 0 := by
        rw [inner_add_right, inner_smul_right, hpr]; field_simp; ring
      rw [inner_sub_left, inner_smul_left, this]; simp
  · rw [cgStep_indef h]
    right
    exact ⟨r, p, hr, hry, hrn, fun _ => ⟨hp, hpr⟩⟩

/-- **C29** for CG without preconditioner: when `definite` is set to `False`, `infiniteDescent` is a *nonzero* vector `p`
with `p'Ap ≤ 0` (any linear operator, right-hand side, guess, options with `abstol ≥ 0`). -/
theorem C29_direction (q : CGProblem E) (n : Nat) (self : CGObj Fl (Vec E)) (kw : CGKw (Vec E)) (hk : kw.Runs)
    (hg : kw.guess = q.guess.map Vec.fin) (hat : 0 ≤ q.abstol) :
    let res := (cgSolve (Vec.op q.A) q.opts n self (.fin q.b) kw).1
    res.definite = some false → ∃ p, res.infiniteDescent = some (.fin p) ∧ p ≠ 0 ∧ ⟪p, q.A p⟫ ≤ 0 := by
  have h29 := (C29_direction_partial q.A q.opts n self (.fin q.b) kw hk).2.1
  simp only at h29 ⊢
  intro hd
  obtain ⟨p, hp1, hp2⟩ := h29 hd
  refine ⟨p, hp1, ?_, hp2⟩
  rw [cgSolve_eq hk] at hd hp1
  obtain ⟨hx, hr, hp, hry, hrn, -, hd0, -, -, -, ht⟩ := cgInit_exact q kw self hg
  simp only at hd hp1
  have ht0 : 0 ≤ q.threshold := le_trans hat (le_max_left _ _)
  have hinv := (cgLoop_inv (Vec.op q.A) q.opts.precon kw (cgInit (Vec.op q.A) q.opts kw self (.fin q.b)).2
    (kw.matvecMax.getD (2 * n))
    (fun s => DescentOK s ∧ (s.definite = false → ∀ p, s.infiniteDescent = some (.fin p) → p ≠ 0))
    (fun s hs hc => ?_) (cgInit (Vec.op q.A) q.opts kw self (.fin q.b)).1 ?_).1
  · exact hinv.2 (Option.some.inj hd) p hp1
  · rw [ht] at hc
    refine ⟨cgStep_descentOK q.A kw q.threshold ht0 _ s hs.1 hc, ?_⟩
    cases h : (kw.checkCurvature && notPositive (dot s.p (Vec.op q.A s.p)))
    · rw [cgStep_def h]; exact hs.2
    · rw [cgStep_indef h]
      rintro - p hp rfl
      obtain ⟨a, ρ, h1, h2, h3⟩ := Fl.lt_iff.1 (cgCont_gt hc)
      cases h1
      rcases hs.1 with ⟨-, h⟩ | ⟨r, p, -, -, hrn, hp'⟩
      · rw [h] at h2; cases h2
      · rw [hrn] at h2
        cases h2
        have hr0 : r ≠ 0 := by rintro rfl; simp at h3; linarith
        obtain ⟨h4, h5⟩ := hp' hr0
        have hp := Option.some.inj hp
        rw [h4] at hp
        cases hp
        rw [inner_zero_left] at h5
        exact hr0 (by simpa using h5)
  · refine ⟨Or.inr ⟨_, _, hr, hry, hrn, fun _ => ⟨hp, inner_neg_left _ _⟩⟩, fun h => (by rw [hd0] at h; cases h)⟩

/-! ## C28 -/

open CGMath (SPD)

/-- first CG iterate of the mathematical recurrences -/
noncomputable def CGProblem.it0 (q : CGProblem E) : CGMath.It E :=
  let r := q.A (startPoint q.guess) - q.b
  ⟨startPoint q.guess, r, -r⟩

/-- the loop state after `k` iterations -/
structure AtIter (q : CGProblem E) (kw : CGKw (Vec E)) (old : CGObj Fl (Vec E)) (k : ℕ) (s : CGLoop Fl (Vec E)) : Prop where
  ne : ∀ j < k, CGMath.rs q.A q.it0 j ≠ 0
  x : s.x = .fin (CGMath.xs q.A q.it0 k)
  r : s.r = .fin (CGMath.rs q.A q.it0 k)
  p : s.p = .fin (CGMath.ps q.A q.it0 k)
  ry : s.ry = .fin ⟪CGMath.rs q.A q.it0 k, CGMath.rs q.A q.it0 k⟫
  rn : s.residNorm = .fin ‖CGMath.rs q.A q.it0 k‖
  nm : s.nMatvec = kw.guessCost + k
  df : s.definite = true
  id : s.infiniteDescent = old.infiniteDescent
  rh : s.residHistory = old.residHistory ++ (List.range (k+1)).map (fun j => Fl.fin ‖CGMath.rs q.A q.it0 j‖)
  its : kw.storeIterates = true →
    s.iterates = old.iterates ++ (List.range (k+1)).map (fun j => Vec.fin (CGMath.xs q.A q.it0 j))

theorem cgStep_atIter (q : CGProblem E) (hA : SPD q.A) (kw : CGKw (Vec E)) (self : CGObj Fl (Vec E)) (k : ℕ)
    (s : CGLoop Fl (Vec E)) (hs : AtIter q kw self k s) (hr : CGMath.rs q.A q.it0 k ≠ 0) :
    AtIter q kw self (k+1) (cgStep (Vec.op q.A) none kw s) := by
  have hpos := CGMath.curv_pos hA (s0 := q.it0) rfl k hs.ne hr
  have hrr : ⟪CGMath.rs q.A q.it0 k, CGMath.rs q.A q.it0 k⟫ ≠ 0 := by simpa using hr
  have h : (kw.checkCurvature && notPositive (dot s.p (Vec.op q.A s.p))) = false := by
    rw [hs.p, Vec.op_fin, Vec.fin_dot]
    have : notPositive (Fl.fin ⟪CGMath.ps q.A q.it0 k, q.A (CGMath.ps q.A q.it0 k)⟫) = false := by
      rw [← Bool.not_eq_true, notPositive_fin]; exact not_le.2 hpos
    rw [this]; simp
  rw [cgStep_def h]
  have e1 : s.r + smul (s.ry / dot s.p (Vec.op q.A s.p)) (Vec.op q.A s.p) = .fin (CGMath.rs q.A q.it0 (k+1)) := by
    rw [hs.r, hs.ry, hs.p, Vec.op_fin, Vec.fin_dot, Fl.fin_div _ hpos.ne', Vec.fin_smul, Vec.fin_add]; rfl
  have e2 : s.x + smul (s.ry / dot s.p (Vec.op q.A s.p)) s.p = .fin (CGMath.xs q.A q.it0 (k+1)) := by
    rw [hs.x, hs.ry, hs.p, Vec.op_fin, Vec.fin_dot, Fl.fin_div _ hpos.ne', Vec.fin_smul, Vec.fin_add]; rfl
  rw [e1, e2]
  refine ⟨?_, rfl, rfl, ?_, rfl, ?_, ?_, hs.df, hs.id, ?_, ?_⟩
  · intro j hj
    rcases Nat.lt_or_ge j k with h | h
    · exact hs.ne j h
    · obtain rfl : j = k := by omega
      exact hr
  · simp only [applyPrecon]
    rw [hs.ry, hs.p, Vec.fin_dot, Fl.fin_div _ hrr, Vec.fin_smul, Vec.fin_sub]; rfl
  · simp only [applyPrecon, Vec.fin_dot, abs_sqrt_self]
  · simp only [hs.nm]; omega
  · simp only [applyPrecon, Vec.fin_dot, abs_sqrt_self, hs.rh]
    rw [List.range_succ (n := k+1), List.map_append, List.append_assoc]; rfl
  · intro hst
    simp only [hst, if_true, hs.its hst]
    rw [List.range_succ (n := k+1), List.map_append, List.append_assoc]; rfl

/-- the solve of an SPD problem ends at some iterate `k ≤ d` -/
theorem cgSolve_atIter [FiniteDimensional ℝ E] (q : CGProblem E) (hA : SPD q.A) (hat : 0 ≤ q.abstol) (mm : Nat)
    {d : ℕ} (hd : Confined q.A (q.A (startPoint q.guess) - q.b) d)
    (self : CGObj Fl (Vec E)) (kw : CGKw (Vec E)) (hg : kw.guess = q.guess.map Vec.fin) :
    let s := cgLoop (Vec.op q.A) q.opts.precon kw (.fin q.threshold) mm (cgInit (Vec.op q.A) q.opts kw self (.fin q.b)).1
    ∃ k, AtIter q kw self k s ∧ k ≤ d ∧ cgCont (.fin q.threshold) mm s = false ∧
      ∀ j < k, q.threshold < ‖CGMath.rs q.A q.it0 j‖ := by
  obtain ⟨hx, hr, hp, hry, hrn, hnm, hd0, hid, hrh, hit, ht⟩ := cgInit_exact q kw self hg
  have ht0 : 0 ≤ q.threshold := le_trans hat (le_max_left _ _)
  have hinv := cgLoop_inv (Vec.op q.A) q.opts.precon kw (.fin q.threshold) mm
    (fun s => ∃ k, AtIter q kw self k s ∧ ∀ j < k, q.threshold < ‖CGMath.rs q.A q.it0 j‖)
    (fun s hs hc => by
      obtain ⟨k, hk, hgt⟩ := hs
      obtain ⟨a, ρ, h1, h2, h3⟩ := Fl.lt_iff.1 (cgCont_gt hc)
      cases h1
      rw [hk.rn] at h2
      cases h2
      refine ⟨k+1, cgStep_atIter q hA kw self k s hk ?_, fun j hj => ?_⟩
      · intro h; rw [h, norm_zero] at h3; linarith
      · rcases Nat.lt_or_ge j k with h | h
        · exact hgt j h
        · obtain rfl : j = k := by omega
          exact h3)
    (cgInit (Vec.op q.A) q.opts kw self (.fin q.b)).1
    ⟨0, ⟨by intro j hj; omega, hx, hr, hp, hry, hrn, by simpa using hnm, hd0, hid, hrh,
      fun h => by rw [hit, h]; rfl⟩, by intro j hj; omega⟩
  obtain ⟨⟨k, hk, hgt⟩, hc⟩ := hinv
  exact ⟨k, hk, CGMath.terminates hA (s0 := q.it0) rfl hd k hk.ne, hc, hgt⟩

/-- C28 and C71: the order `n` of the operator sets the default budget, and the first residual is confined to `d` dimensions -/
theorem cg_confined [FiniteDimensional ℝ E] (q : CGProblem E) (hA : SPD q.A) (self : CGObj Fl (Vec E))
    (kw : CGKw (Vec E)) (hk : kw.Runs) (hg : kw.guess = q.guess.map Vec.fin) (hat : 0 ≤ q.abstol)
    {n d : ℕ}
    (hd : Confined q.A (q.A (startPoint q.guess) - q.b) d)
    (hm : 0 < d → d + (if kw.guess.isSome then 1 else 0) ≤ kw.matvecMax.getD (2 * n)) :
    let res := (cgSolve (Vec.op q.A) q.opts n self (.fin q.b) kw).1
    res.converged = true ∧
    res.nMatvec ≤ d + (if kw.guess.isSome then 1 else 0) ∧
    (∃ x, res.x = some (.fin x) ∧ ‖q.b - q.A x‖ ≤ max q.abstol (q.reltol * ‖q.b - q.A (startPoint q.guess)‖) ∧
      (q.abstol = 0 → q.reltol = 0 → q.A x = q.b)) ∧
    res.definite = some true ∧ res.infiniteDescent = self.infiniteDescent ∧
    (kw.storeIterates = true → ∃ its : List E, res.iterates = self.iterates ++ its.map Vec.fin ∧
      its.length + (if kw.guess.isSome then 1 else 0) = res.nMatvec + 1 ∧
      ∀ sol, q.A sol = q.b → its.IsChain (fun u v => ⟪v - sol, q.A (v - sol)⟫ < ⟪u - sol, q.A (u - sol)⟫)) := by
  have h27 := (C27_converged q n self kw hk hg).1
  simp only at h27 ⊢
  rw [cgSolve_eq hk] at h27 ⊢
  have ht : (cgInit (Vec.op q.A) q.opts kw self (.fin q.b)).2 = .fin q.threshold := (cgInit_exact q kw self hg).2.2.2.2.2.2.2.2.2.2
  simp only [ht] at h27 ⊢
  obtain ⟨k, hs, hkn, hc, -⟩ := cgSolve_atIter q hA hat (kw.matvecMax.getD (2 * n)) hd self kw hg
  have ht0 : 0 ≤ q.threshold := le_trans hat (le_max_left _ _)
  generalize cgLoop (Vec.op q.A) q.opts.precon kw (.fin q.threshold) (kw.matvecMax.getD (2 * n))
    (cgInit (Vec.op q.A) q.opts kw self (.fin q.b)).1 = s at hs hc h27 ⊢
  have hgc : kw.guessCost = if kw.guess.isSome then 1 else 0 := rfl
  rw [← hgc] at hm ⊢
  -- the residual is within the threshold
  have hle : ‖CGMath.rs q.A q.it0 k‖ ≤ q.threshold := by
    by_contra hgt
    have hlt : ¬ s.nMatvec < kw.matvecMax.getD (2 * n) := by
      intro hlt
      have : cgCont (.fin q.threshold) (kw.matvecMax.getD (2 * n)) s = true := by
        simp only [cgCont, hs.df, Bool.and_true, Bool.and_eq_true, decide_eq_true_eq, gt, hs.rn, Fl.fin_lt]
        exact ⟨not_le.1 hgt, hlt⟩
      rw [this] at hc; cases hc
    have hrk : CGMath.rs q.A q.it0 k ≠ 0 := by
      intro h; rw [h, norm_zero] at hgt; exact hgt ht0
    have hk1 : k + 1 ≤ d := CGMath.terminates hA (s0 := q.it0) rfl hd (k+1) (by
      intro j hj
      rcases Nat.lt_or_ge j k with h | h
      · exact hs.ne j h
      · obtain rfl : j = k := by omega
        exact hrk)
    have hnm := hs.nm
    have := hm (by omega)
    omega
  have hconv : le s.residNorm (Fl.fin q.threshold) = true := by rw [hs.rn]; exact (Fl.fin_le _ _).2 hle
  refine ⟨hconv, by rw [hs.nm]; omega, ?_, by rw [hs.df], hs.id, ?_⟩
  · obtain ⟨x, hx, _, hxt⟩ := h27 hconv
    refine ⟨x, hx, hxt, ?_⟩
    intro h1 h2
    rw [h1, h2, zero_mul, max_self] at hxt
    exact (sub_eq_zero.1 (norm_le_zero_iff.1 hxt)).symm
  · intro hst
    refine ⟨(List.range (k+1)).map (fun j => CGMath.xs q.A q.it0 j), ?_, ?_, ?_⟩
    · rw [hs.its hst, List.map_map]; rfl
    · rw [List.length_map, List.length_range, hs.nm]; omega
    · intro sol hsol
      rw [List.isChain_map, List.isChain_range]
      intro j hj
      exact CGMath.energy hA (s0 := q.it0) rfl q.b sol rfl hsol j (fun i hi => hs.ne i (by omega)) (hs.ne j (by omega))

/-- **C28 (partial).** In exact arithmetic, CG without preconditioner on a symmetric positive definite operator `A` of
order `n`, for every right-hand side `b`, guess, tolerances with `abstol ≥ 0`, and a budget that allows `n` iterations
(such as the default): the solve converges after at most `n` iterations; `x` satisfies the stopping test, and solves the
system exactly if the tolerances are zero; indefiniteness is never reported; and along the stored iterates the energy
norm of the error strictly decreases.
Missing, because the code violates it: the same with a symmetric positive definite preconditioner
(`C28_preconditioned_fails`). -/
theorem C28_terminates_partial [FiniteDimensional ℝ E] (q : CGProblem E) (hA : SPD q.A) (self : CGObj Fl (Vec E))
    (kw : CGKw (Vec E)) (hk : kw.Runs) (hg : kw.guess = q.guess.map Vec.fin) (hat : 0 ≤ q.abstol)
    (hm : ∀ m, kw.matvecMax = some m → Module.finrank ℝ E + (if kw.guess.isSome then 1 else 0) ≤ m) :
    let res := (cgSolve (Vec.op q.A) q.opts (Module.finrank ℝ E) self (.fin q.b) kw).1
    res.converged = true ∧
    res.nMatvec ≤ Module.finrank ℝ E + (if kw.guess.isSome then 1 else 0) ∧
    (∃ x, res.x = some (.fin x) ∧ ‖q.b - q.A x‖ ≤ max q.abstol (q.reltol * ‖q.b - q.A (startPoint q.guess)‖) ∧
      (q.abstol = 0 → q.reltol = 0 → q.A x = q.b)) ∧
    res.definite = some true ∧ res.infiniteDescent = self.infiniteDescent ∧
    (kw.storeIterates = true → ∃ its : List E, res.iterates = self.iterates ++ its.map Vec.fin ∧
      its.length + (if kw.guess.isSome then 1 else 0) = res.nMatvec + 1 ∧
      ∀ sol, q.A sol = q.b → its.IsChain (fun u v => ⟪v - sol, q.A (v - sol)⟫ < ⟪u - sol, q.A (u - sol)⟫)) := by
  refine cg_confined q hA self kw hk hg hat (confined_of_finrank le_rfl) fun h0 => ?_
  cases hmm : kw.matvecMax with
  | none => rw [Option.getD_none]; split <;> omega
  | some m => exact hm m hmm

end Verif.Solver
