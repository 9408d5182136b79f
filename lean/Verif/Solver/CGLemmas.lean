import Verif.Solver.CG
import Verif.Solver.CGMath
import Verif.Solver.Exact

/-!
# Helper lemmas about the CG loop
-/

namespace Verif.Solver
open Scalar Vect

section Any
variable {S V : Type} [Scalar S] [Vect S V]
variable (op : V → V) (precon : Option (V → V)) (kw : CGKw V) (threshold : S) (mm : Nat)

/-- An invariant of the loop body holds at the exit, where the loop condition is false. -/
theorem cgLoop_inv (P : CGLoop S V → Prop) (hstep : ∀ s, P s → cgCont threshold mm s = true → P (cgStep op precon kw s)) :
    ∀ s, P s → P (cgLoop op precon kw threshold mm s) ∧ cgCont threshold mm (cgLoop op precon kw threshold mm s) = false
  | s, hs => by
    rw [cgLoop]
    split
    · rename_i h
      exact cgLoop_inv P hstep _ (hstep s hs h)
    · rename_i h
      exact ⟨hs, by simpa using h⟩
termination_by s => mm - s.nMatvec
decreasing_by
  rename_i h
  simp only [cgCont, Bool.and_eq_true, decide_eq_true_eq] at h
  rw [cgStep_nMatvec]; omega

variable {op precon kw threshold mm}

omit [Vect S V] in
theorem cgCont_lt {s : CGLoop S V} (h : cgCont threshold mm s = true) : s.nMatvec < mm := by
  simp only [cgCont, Bool.and_eq_true, decide_eq_true_eq] at h; exact h.1.2

omit [Vect S V] in
theorem cgCont_gt {s : CGLoop S V} (h : cgCont threshold mm s = true) : gt s.residNorm threshold = true := by
  simp only [cgCont, Bool.and_eq_true, decide_eq_true_eq] at h; exact h.1.1

omit [Vect S V] in
theorem cgCont_def {s : CGLoop S V} (h : cgCont threshold mm s = true) : s.definite = true := by
  simp only [cgCont, Bool.and_eq_true, decide_eq_true_eq] at h; exact h.2

theorem cgStep_calls (s : CGLoop S V) : (cgStep op precon kw s).calls = s.calls ++ [s.p] := by
  unfold cgStep; simp only; split <;> rfl

theorem cgStep_indef {s : CGLoop S V} (h : (kw.checkCurvature && notPositive (dot s.p (op s.p))) = true) :
    cgStep op precon kw s =
      { s with nMatvec := s.nMatvec + 1, calls := s.calls ++ [s.p], infiniteDescent := some s.p, definite := false } := by
  unfold cgStep; simp only [h, if_true]

theorem cgStep_def {s : CGLoop S V} (h : (kw.checkCurvature && notPositive (dot s.p (op s.p))) = false) :
    cgStep op precon kw s =
      { x := s.x + smul (s.ry / dot s.p (op s.p)) s.p
        r := s.r + smul (s.ry / dot s.p (op s.p)) (op s.p)
        p := smul (dot (s.r + smul (s.ry / dot s.p (op s.p)) (op s.p))
            (applyPrecon precon (s.r + smul (s.ry / dot s.p (op s.p)) (op s.p))) / s.ry) s.p -
              (s.r + smul (s.ry / dot s.p (op s.p)) (op s.p))
        ry := dot (s.r + smul (s.ry / dot s.p (op s.p)) (op s.p))
            (applyPrecon precon (s.r + smul (s.ry / dot s.p (op s.p)) (op s.p)))
        residNorm := Scalar.abs (sqrt (dot (s.r + smul (s.ry / dot s.p (op s.p)) (op s.p))
            (applyPrecon precon (s.r + smul (s.ry / dot s.p (op s.p)) (op s.p)))))
        nMatvec := s.nMatvec + 1
        definite := s.definite
        infiniteDescent := s.infiniteDescent
        residHistory := s.residHistory ++ [Scalar.abs (sqrt (dot (s.r + smul (s.ry / dot s.p (op s.p)) (op s.p))
            (applyPrecon precon (s.r + smul (s.ry / dot s.p (op s.p)) (op s.p)))))]
        resids := if kw.storeResids then s.resids ++ [applyPrecon precon (s.r + smul (s.ry / dot s.p (op s.p)) (op s.p))]
          else s.resids
        iterates := if kw.storeIterates then s.iterates ++ [s.x + smul (s.ry / dot s.p (op s.p)) s.p] else s.iterates
        calls := s.calls ++ [s.p] } := by
  unfold cgStep; simp only [h]; rfl

/-- Unfolding of `solve` when the symmetry check does not abort it. -/
theorem cgSolve_eq {op : V → V} {o : KrylovOpts S V} {n : Nat} {self : CGObj S V} {rhs : V} {kw : CGKw V}
    (h : (kw.checkSymmetric && !kw.symOK) = false) :
    cgSolve op o n self rhs kw =
      (let s := cgLoop op o.precon kw (cgInit op o kw self rhs).2 (kw.matvecMax.getD (2 * n)) (cgInit op o kw self rhs).1
       ({ residHistory := s.residHistory, resids := s.resids, iterates := s.iterates,
          infiniteDescent := s.infiniteDescent, converged := le s.residNorm (cgInit op o kw self rhs).2,
          definite := some s.definite,
          nMatvec := s.nMatvec, x := some s.x, residNorm := some s.residNorm,
          residNorm0 := some (cgInit op o kw self rhs).1.residNorm },
        s.calls)) := by
  unfold cgSolve
  rw [h]
  rfl

end Any

section ExactCG
open scoped RealInnerProductSpace
variable {E : Type} [NormedAddCommGroup E] [InnerProductSpace ℝ E]

theorem abs_sqrt_self (v : E) : Scalar.abs (Scalar.sqrt (Fl.fin ⟪v, v⟫)) = Fl.fin ‖v‖ := by
  rw [Fl.fin_sqrt real_inner_self_nonneg, Fl.fin_abs, real_inner_self_eq_norm_sq, Real.sqrt_sq (norm_nonneg _), abs_norm]

theorem notPositive_fin (a : ℝ) : notPositive (Fl.fin a) = true ↔ a ≤ 0 := by
  simp only [notPositive, gt, Fl.re_eq, Fl.im_eq, Fl.lit_eq, Fl.fin_abs, Fl.fin_mul, Bool.or_eq_true, Fl.fin_lt, Fl.fin_le]
  constructor
  · rintro (h | h)
    · exfalso
      have : 0 ≤ |a| := abs_nonneg a
      have : (0:ℝ) ≤ ((1/100000000 : ℚ) : ℝ) * |a| := by positivity
      push_cast at h this
      linarith
    · simpa using h
  · intro h; right; simpa using h

theorem notPositive_nan : notPositive Fl.nan = false := by
  simp [notPositive, gt]

end ExactCG
end Verif.Solver
