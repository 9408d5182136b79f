import Verif.Solver.Rounding
import Verif.Solver.CGS

/-!
# C90: what the reported residual norm says in floating-point arithmetic

The solvers do not compute the residual of the iterate; they update a vector that would be the residual in exact arithmetic.  The theorems
bound the difference of the two for every arithmetic that meets `Rounding` (`Verif.Solver.Rounding`).
-/

namespace Verif.Solver
open Scalar Vect

variable {S V E : Type} [Scalar S] [Vect S V] [NormedAddCommGroup E] [InnerProductSpace ℝ E]

/-- the bound on the difference of the updated residual and the residual, along the loop of CG -/
def CGDrift (F : Rounding S V E) (op : V → V) (A : E →ₗ[ℝ] E) (N c theta : ℝ) (rhs : V) (old : ℕ) (s : CGLoop S V) : Prop :=
  old ≤ s.iterates.length ∧
  (F.Computes op A N c s.calls → (∀ y ∈ s.iterates.drop old, ‖F.vec y‖ ≤ theta) → F.finV s.x → F.finV s.r →
    F.finV rhs ∧ ‖F.vec s.x‖ ≤ theta ∧ ‖F.vec s.r - (A (F.vec s.x) - F.vec rhs)‖ ≤ F.drift N c theta ‖F.vec rhs‖ s.nMatvec)

theorem cgDrift_step (F : Rounding S V E) {op : V → V} {A : E →ₗ[ℝ] E} {N c theta : ℝ} {rhs : V} {old : ℕ}
    {precon : Option (V → V)} {kw : CGKw V} (hst : kw.storeIterates = true) {s : CGLoop S V} (h : CGDrift F op A N c theta rhs old s) :
    CGDrift F op A N c theta rhs old (cgStep op precon kw s) := by
  by_cases hd : (kw.checkCurvature && notPositive (dot s.p (op s.p))) = true
  · rw [cgStep_indef hd]
    refine ⟨h.1, fun hop h1 h2 h3 => ?_⟩
    obtain ⟨e1, e2, e3⟩ := h.2 (hop.mono fun v hv => List.mem_append_left _ hv) h1 h2 h3
    exact ⟨e1, e2, e3.trans (F.drift_mono hop.N_nonneg hop.c_nonneg ((norm_nonneg _).trans e2) (norm_nonneg _) (Nat.le_succ _))⟩
  · rw [cgStep_def (by simpa using hd)]
    simp only [hst, if_true]
    refine ⟨by rw [List.length_append]; exact h.1.trans (Nat.le_add_right _ _), fun hop h1 h2 h3 => ?_⟩
    dsimp only at h1 h2 h3 ⊢
    rw [List.drop_append_of_le_length h.1] at h1
    obtain ⟨fx, ft⟩ := F.add_fin _ _ h2
    obtain ⟨fr, fs⟩ := F.add_fin _ _ h3
    have fp := F.smul_fin _ _ ft
    have fq := F.smul_fin _ _ fs
    obtain ⟨e1, e2, e3⟩ := h.2 (hop.mono fun v hv => List.mem_append_left _ hv) (fun y hy => h1 y (List.mem_append_left _ hy)) fx fr
    have e4 := h1 _ (List.mem_append_right _ (List.mem_singleton_self _))
    refine ⟨e1, e4, ?_⟩
    refine (round_step F.u_nonneg F.u_le F.tiny_nonneg hop.N_nonneg hop.c_nonneg A hop.bound (F.vec rhs) (F.vec s.x) _
      (F.vec (smul (s.ry / dot s.p (op s.p)) s.p)) (F.vec s.p) (F.vec (op s.p)) (F.vec (smul (s.ry / dot s.p (op s.p)) (op s.p)))
      (F.vec s.r) _ (F.num (s.ry / dot s.p (op s.p))) ?_ (F.add_err _ _ h2) (hop.err _ (List.mem_append_right _ (List.mem_singleton_self _)) fp fq) ?_ (F.add_err _ _ h3) e2 e4).trans
      (F.drift_step hop.N_nonneg hop.c_nonneg ((norm_nonneg _).trans e2) (norm_nonneg _) e3)
    · exact (F.smul_err _ _ ft).trans (by gcongr; exacts [F.u_nonneg, min_le_right _ _])
    · exact (F.smul_err _ _ fs).trans (by gcongr; exacts [F.u_nonneg, min_le_left _ _])

theorem cgDrift_init (F : Rounding S V E) {op : V → V} {A : E →ₗ[ℝ] E} {N c theta : ℝ} {rhs : V}
    {o : KrylovOpts S V} {kw : CGKw V} (hst : kw.storeIterates = true) (self : CGObj S V) :
    CGDrift F op A N c theta rhs self.iterates.length (cgInit op o kw self rhs).1 := by
  unfold CGDrift cgInit
  cases hg : kw.guess with
  | none =>
    simp only [hst, if_true, Option.getD_none]
    refine ⟨by simp, fun hop h1 h2 h3 => ?_⟩
    rw [List.drop_left] at h1
    have h0 := h1 _ (List.mem_singleton_self _)
    refine ⟨F.neg_fin _ h3, h0, ?_⟩
    rw [F.neg_eq _ h3, F.zeros_eq, map_zero, zero_sub, sub_self, norm_zero]
    exact F.drift_nonneg hop.N_nonneg hop.c_nonneg ((norm_nonneg _).trans h0) (norm_nonneg _) _
  | some g =>
    simp only [hst, if_true, Option.getD_some]
    refine ⟨by simp, fun hop h1 h2 h3 => ?_⟩
    rw [List.drop_left] at h1
    have h0 := h1 _ (List.mem_singleton_self _)
    obtain ⟨f1, f2⟩ := F.add_fin _ _ h3
    refine ⟨F.neg_fin _ f1, h0, ?_⟩
    have he := F.add_err _ _ h3
    rw [F.neg_eq _ f1] at he
    exact (round_start F.u_nonneg F.u_le F.tiny_nonneg hop.N_nonneg hop.c_nonneg A hop.bound (F.vec rhs) (F.vec g) (F.vec (op g)) _
      (hop.err g (List.mem_singleton_self _) h2 f2) he h0).trans
      (F.drift_start hop.N_nonneg hop.c_nonneg ((norm_nonneg _).trans h0) (norm_nonneg _) _)

/-- without a preconditioner the residual norm of the loop is the computed norm of `r` -/
theorem cgStep_root {op : V → V} {kw : CGKw V} {s : CGLoop S V} (h : s.residNorm = Scalar.abs (sqrt (dot s.r s.r))) :
    (cgStep op none kw s).residNorm = Scalar.abs (sqrt (dot (cgStep op none kw s).r (cgStep op none kw s).r)) := by
  by_cases hd : (kw.checkCurvature && notPositive (dot s.p (op s.p))) = true
  · rw [cgStep_indef hd]; exact h
  · rw [cgStep_def (by simpa using hd)]; rfl

/-- **C90 for CG (partial).**  In floating-point arithmetic: if `CG.solve` returns finite numbers, then all numbers on the way to them were finite,
and the reported residual norm differs from the norm of `b - A x` for the returned `x` by the relative error of the computed norm and the drift of
the rounding errors.  The operator is any linear one, the options are any; `theta` bounds the iterates of this call (`store_iterates`).
Missing: preconditioners, for which the code reports another quantity. -/
theorem C90_cg_partial (F : Rounding S V E) (op : V → V) (A : E →ₗ[ℝ] E) (N c : ℝ) (o : KrylovOpts S V)
    (hpre : o.precon = none) (n : ℕ) (self : CGObj S V) (rhs : V) (kw : CGKw V) (hsym : kw.checkSymmetric = true → kw.symOK = true)
    (hst : kw.storeIterates = true) :
    let res := (cgSolve op o n self rhs kw).1
    ∃ x rho, res.x = some x ∧ res.residNorm = some rho ∧
      (F.Computes op A N c (cgSolve op o n self rhs kw).2 → F.finV x → F.finS rho → ∀ theta, (∀ y ∈ res.iterates.drop self.iterates.length, ‖F.vec y‖ ≤ theta) →
        F.finV rhs ∧ ‖F.vec x‖ ≤ theta ∧
        |F.num rho - ‖F.vec rhs - A (F.vec x)‖| ≤ F.uNorm * F.num rho + F.tinyNorm + F.drift N c theta ‖F.vec rhs‖ res.nMatvec) ∧
      (res.converged = true → F.finS rho → F.finS (pymax o.abstol (o.reltol * res.residNorm0.getD rho)) →
        F.num rho ≤ F.num (pymax o.abstol (o.reltol * res.residNorm0.getD rho))) := by
  have hk : (kw.checkSymmetric && !kw.symOK) = false := by
    cases h1 : kw.checkSymmetric
    · rfl
    · simp [hsym h1]
  intro res
  have hres : res = (cgSolve op o n self rhs kw).1 := rfl
  rw [cgSolve_eq hk] at hres
  set s := cgLoop op o.precon kw (cgInit op o kw self rhs).2 (kw.matvecMax.getD (2 * n)) (cgInit op o kw self rhs).1 with hs
  have hroot : s.residNorm = Scalar.abs (sqrt (dot s.r s.r)) := by
    refine (cgLoop_inv op o.precon kw _ _ (fun s => s.residNorm = Scalar.abs (sqrt (dot s.r s.r))) (fun s h _ => ?_) _ ?_).1
    · rw [hpre]
      exact cgStep_root h
    · unfold cgInit
      rw [hpre]
      cases kw.guess <;> rfl
  refine ⟨s.x, s.residNorm, by rw [hres], by rw [hres], fun hop hx hr theta hth => ?_, fun hc h1 h2 => ?_⟩
  · have hd := (cgLoop_inv op o.precon kw (cgInit op o kw self rhs).2 (kw.matvecMax.getD (2 * n))
      (CGDrift F op A N c theta rhs self.iterates.length) (fun s h _ => cgDrift_step F hst h) _ (cgDrift_init (o := o) F hst self)).1
    rw [← hs] at hd
    have hit : res.iterates = s.iterates := by rw [hres]
    have hnm : res.nMatvec = s.nMatvec := by rw [hres]
    rw [hit] at hth
    rw [cgSolve_eq hk] at hop
    rw [hroot] at hr
    obtain ⟨e1, e2, e3⟩ := hd.2 hop hth hx (F.root_fin _ hr)
    refine ⟨e1, e2, ?_⟩
    rw [hnm, hroot]
    have e4 := F.root_err _ hr
    have e5 : |‖F.vec s.r‖ - ‖F.vec rhs - A (F.vec s.x)‖| ≤ ‖F.vec s.r - (A (F.vec s.x) - F.vec rhs)‖ := by
      rw [norm_sub_rev (F.vec rhs)]
      exact abs_norm_sub_norm_le _ _
    calc _ ≤ |F.num (Scalar.abs (sqrt (dot s.r s.r))) - ‖F.vec s.r‖| + |‖F.vec s.r‖ - ‖F.vec rhs - A (F.vec s.x)‖| :=
          abs_sub_le _ _ _
      _ ≤ _ := add_le_add e4 (e5.trans e3)
  · have h0 : res.residNorm0 = some (cgInit op o kw self rhs).1.residNorm := by rw [hres]
    have hc' : le s.residNorm (cgInit op o kw self rhs).2 = true := by rw [hres] at hc; exact hc
    have ht : (cgInit op o kw self rhs).2 = pymax o.abstol (o.reltol * (cgInit op o kw self rhs).1.residNorm) := by
      unfold cgInit
      cases kw.guess <;> rfl
    rw [h0, Option.getD_some] at h2 ⊢
    rw [ht] at hc'
    exact F.le_num _ _ h1 h2 hc'

end Verif.Solver
