import Verif.Solver.TypedMath
import Verif.Solver.CGExamples
import Verif.Solver.TFQMRProps

/-!
# C73: dtypes of the right-hand side, the operator and the preconditioner

`op.dtype`, `P.dtype`, `rhs.kind` are the dtype classes (integer, real, complex) of the operator, the preconditioner and the
right-hand side; `a.fits b` says that `a` is not wider than `b`.  The models with dtypes are in `Verif.Solver.Typed`.
-/

set_option linter.unusedSectionVars false

namespace Verif.Solver
open Scalar Vect Linop

variable {S V : Type} [Scalar S] [Vect S V] [Casts S V]

/-- the preconditioner, if there is one, is not wider than `k` -/
def PreFits (precon : Option (TOp V)) (k : DKind) : Prop := ∀ P, precon = some P → P.dtype.fits k

omit [Scalar S] [Vect S V] [Casts S V] in
theorem preFits_iff {precon : Option (TOp V)} {k : DKind} : PreFits precon k ↔ (preKind precon).fits k := by
  unfold PreFits preKind
  cases precon with
  | none => simp [int_fits]
  | some P => simp

/-- **C73 (CG).** If the right-hand side is not an array of integers and the operator and the preconditioner are not wider
than it, the dtypes do not matter: `solve` raises nothing and does what the model without dtypes does (in any arithmetic),
and the solution has the dtype of the right-hand side. -/
theorem C73_cg (op : TOp V) (o : TOpts S V) (n : Nat) (self : CGObj (TNum S V) (TArr V)) (rhs : TArr V) (kw : CGKw (TArr V))
    (hk : rhs.kind ≠ .int) (hA : op.dtype.fits rhs.kind) (hP : PreFits o.precon rhs.kind) :
    ∃ res calls, cgSolveT op o n self rhs kw = .ok (res, calls) ∧
      (res.vals, calls.map TArr.val) = cgSolve op.fn o.vals n self.vals rhs.val (CGKw.vals S rhs.kind kw) ∧
      (¬ (kw.checkSymmetric = true ∧ kw.symOK = false) → ∃ x, res.x = some x ∧ x.kind = rhs.kind) := by
  have hP' : (preKind o.precon).fits rhs.kind := preFits_iff.mp hP
  have hD : op.dtype.join rhs.kind = rhs.kind := hA
  unfold cgSolveT cgSolve
  by_cases he : (kw.checkSymmetric && !kw.symOK) = true
  · rw [if_pos he, if_pos (by exact he)]
    refine ⟨_, _, rfl, rfl, fun h => ?_⟩
    simp only [Bool.and_eq_true, Bool.not_eq_true'] at he
    exact absurd he h
  · rw [if_neg he, if_neg (by exact he)]
    obtain ⟨s0, thr, h1, h2, kx, kr, kp, kry⟩ := cgInitT_ok (op := op) (o := o) (kw := kw) (self := self) (rhs := rhs)
      (Or.inr hA)
    rw [hD] at h2 kx
    have hs0 : CGKinds rhs.kind s0 := ⟨kx, kr, kp, by
      rw [kry, show (preKind o.precon).join rhs.kind = rhs.kind from hP', DKind.join_self]⟩
    obtain ⟨s', l1, l2, l3⟩ := cgLoopT_ok (D := rhs.kind) (kw := kw) (threshold := thr)
      (matvecMax := kw.matvecMax.getD (2 * n)) hk hA hP' hs0
    rw [h1, except_bind_ok' rfl]
    simp only
    rw [l1, except_bind_ok' rfl]
    refine ⟨_, _, rfl, ?_, fun _ => ⟨s'.x, rfl, l2.x⟩⟩
    rw [h2]
    simp only
    have l3' : cgLoop op.fn o.vals.precon (CGKw.vals S rhs.kind kw) thr.val ((CGKw.vals S rhs.kind kw).matvecMax.getD (2 * n))
        s0.vals = s'.vals := l3.symm
    rw [l3']
    rfl

/-- **C73 (CG).** If the operator or the preconditioner is wider than the right-hand side, `solve` raises `TypeError`: with an
initial guess at once if the operator is wider, and otherwise as soon as an iterate has to be updated.  It returns, with the
same results as the model without dtypes, only if there is nothing to update, that is if the model without dtypes stores no
residual norm but the initial one. -/
theorem C73_cg_raises (op : TOp V) (o : TOpts S V) (n : Nat) (self : CGObj (TNum S V) (TArr V)) (rhs : TArr V)
    (kw : CGKw (TArr V)) (hAP : ¬ (op.dtype.fits rhs.kind ∧ PreFits o.precon rhs.kind))
    (he : ¬ (kw.checkSymmetric = true ∧ kw.symOK = false)) :
    (kw.guess ≠ none ∧ ¬ op.dtype.fits rhs.kind → cgSolveT op o n self rhs kw = .error .typeError) ∧
    (¬ (kw.guess ≠ none ∧ ¬ op.dtype.fits rhs.kind) →
      let plain := cgSolve op.fn o.vals n self.vals rhs.val (CGKw.vals S (op.dtype.join rhs.kind) kw)
      (plain.1.residHistory.length = self.residHistory.length + 1 →
        ∃ res calls, cgSolveT op o n self rhs kw = .ok (res, calls) ∧ (res.vals, calls.map TArr.val) = plain) ∧
      (plain.1.residHistory.length ≠ self.residHistory.length + 1 → cgSolveT op o n self rhs kw = .error .typeError)) := by
  rw [preFits_iff] at hAP
  have he' : ¬ (kw.checkSymmetric && !kw.symOK) = true := by simpa using he
  refine ⟨fun h => ?_, fun h => ?_⟩
  · unfold cgSolveT
    rw [if_neg he', cgInitT_error h.1 h.2]
    rfl
  · obtain ⟨s0, thr, h1, h2, kx, kr, kp, kry⟩ := cgInitT_ok (op := op) (o := o) (kw := kw) (self := self) (rhs := rhs)
      (by tauto)
    have hlen : s0.residHistory.length = self.residHistory.length + 1 := by
      have := congrArg (fun z => z.1.residHistory.length) h2
      simp only [cgInit, CGLoop.vals, CGObj.vals, List.length_append, List.length_map, List.length_cons, List.length_nil] at this
      exact this.symm
    intro plain
    have hplain : plain = cgSolve op.fn o.vals n self.vals rhs.val (CGKw.vals S (op.dtype.join rhs.kind) kw) := rfl
    clear_value plain
    unfold cgSolve at hplain
    rw [if_neg (by exact he'), h2] at hplain
    simp only at hplain
    unfold cgSolveT
    rw [if_neg he', h1, except_bind_ok' rfl]
    simp only
    generalize hmm : kw.matvecMax.getD (2 * n) = mm at *
    have hmm' : (CGKw.vals S (op.dtype.join rhs.kind) kw).matvecMax.getD (2 * n) = mm := hmm
    rw [hmm', cgLoop_eq _ _ _ _ _ (cgDec _ _ _ _ _)] at hplain
    unfold cgLoopT
    rcases Bool.eq_false_or_eq_true (cgCont thr mm s0) with hc | hc
    · have hc' : cgCont thr.val mm s0.vals = true := hc
      by_cases hcur : (kw.checkCurvature && notPositive (dot s0.p (op.mul s0.p))) = true
      · -- the curvature test ends the loop
        have e1 : cgStepT op o.precon kw s0 = .ok
            { s0 with nMatvec := s0.nMatvec + 1, calls := s0.calls ++ [s0.p], infiniteDescent := some s0.p,
                      definite := false } := by
          unfold cgStepT; simp only; rw [if_pos hcur]
        have e2 : cgStep op.fn o.vals.precon (CGKw.vals S (op.dtype.join rhs.kind) kw) s0.vals =
            ({ s0 with nMatvec := s0.nMatvec + 1, calls := s0.calls ++ [s0.p], infiniteDescent := some s0.p,
                       definite := false } : CGLoop (TNum S V) (TArr V)).vals := by
          unfold cgStep; simp only; rw [if_pos (by exact hcur)]; simp [CGLoop.vals]
        have c1 : ∀ t : CGLoop (TNum S V) (TArr V), t.definite = false → cgCont thr mm t = false := by
          intro t ht; simp [cgCont, ht]
        have c2 : ∀ t : CGLoop S V, t.definite = false → cgCont thr.val mm t = false := by
          intro t ht; simp [cgCont, ht]
        rw [whileLoop_of_cont hc', e2, whileLoop_of_not (c2 _ rfl)] at hplain
        rw [exceptLoop_of_cont hc e1, exceptLoop_of_not (c1 _ rfl), except_bind_ok' rfl]
        refine ⟨fun _ => ⟨_, _, rfl, ?_⟩, fun hne => ?_⟩
        · rw [hplain]; rfl
        · rw [hplain] at hne
          simp only [CGLoop.vals, List.length_map] at hne
          exact absurd hlen hne
      · rw [exceptLoop_of_error hc (cgStepT_error hAP kr kry hcur)]
        refine ⟨fun hl => ?_, fun _ => rfl⟩
        exfalso
        rw [hplain] at hl
        simp only at hl
        rw [whileLoop_of_cont hc'] at hl
        rw [← cgLoop_eq] at hl
        have h3 := cgLoop_history op.fn o.vals.precon (CGKw.vals S (op.dtype.join rhs.kind) kw) thr.val mm
          (cgStep op.fn o.vals.precon (CGKw.vals S (op.dtype.join rhs.kind) kw) s0.vals)
        have h4 : (cgStep op.fn o.vals.precon (CGKw.vals S (op.dtype.join rhs.kind) kw) s0.vals).residHistory.length =
            s0.residHistory.length + 1 := by
          unfold cgStep; simp only; rw [if_neg (by exact hcur)]; simp [CGLoop.vals]
        omega
    · have hc' : cgCont thr.val mm s0.vals = false := hc
      rw [whileLoop_of_not hc'] at hplain
      rw [exceptLoop_of_not hc, except_bind_ok' rfl]
      refine ⟨fun _ => ⟨_, _, rfl, ?_⟩, fun hne => ?_⟩
      · rw [hplain]; rfl
      · rw [hplain] at hne
        simp only [CGLoop.vals, List.length_map] at hne
        exact absurd hlen hne

/-- **C73 (CGS).** `startKind op rhs kw` is the dtype of the initial residual: that of the right-hand side, or the common type
of operator and right-hand side if there is a guess.  If it is not integer, and the operator and the preconditioner are not
wider, the dtypes do not matter. -/
theorem C73_cgs (op : TOp V) (o : TOpts S V) (n : Nat) (rhs : TArr V) (kw : KrylovKw (TArr V))
    (hk : startKind op rhs kw ≠ .int) (hA : op.dtype.fits (startKind op rhs kw)) (hP : PreFits o.precon (startKind op rhs kw)) :
    ∃ res calls, cgsSolveT op o n rhs kw = .ok (res, calls) ∧
      (res.vals, calls.map TArr.val) = cgsSolve op.fn o.vals n rhs.val (KrylovKw.vals S (op.dtype.join rhs.kind) kw) ∧
      res.x.kind = op.dtype.join rhs.kind := by
  obtain ⟨r0, thr, rn, s0, k0, kx, kr, ku, kp, kh, -, e1, e2⟩ := cgsSolve_split op o n rhs kw
  rw [preFits_iff] at hP
  have hD := startKind_eq hA
  rw [← k0] at hk hA hP hD
  have hs0 : CGSKinds r0.kind s0 := ⟨by rw [kx, hD], kr, ku, kp, kh⟩
  obtain ⟨s', l1, l2, l3⟩ := exceptLoop_sim
    (step := cgsStepT op o.precon thr (kw.matvecMax.getD (2 * n)) r0)
    (μ := fun s => kw.matvecMax.getD (2 * n) - s.nMatvec)
    (h := fun s t _ h2 h3 => by
      have h1 := cgsStepT_nMatvec h2
      have h4 := h1.2 (by simpa using h3)
      omega)
    (step' := cgsStep op.fn (o.precon.map TOp.fn) thr.val (kw.matvecMax.getD (2 * n)) r0.val)
    (μ' := fun s => kw.matvecMax.getD (2 * n) - s.nMatvec)
    (h' := fun s _ h => by
      have h1 := cgsStep_nMatvec op.fn (o.precon.map TOp.fn) thr.val (kw.matvecMax.getD (2 * n)) r0.val s
      have h2 := h1.2 (by simpa using h)
      omega)
    (fun (s : CGSLoop (TNum S V) (TArr V)) t => CGSKinds r0.kind s ∧ s.vals = t)
    (cont := fun s => !s.finished) (cont' := fun s => !s.finished)
    (fun s t h => by rw [← h.2]; rfl)
    (fun s t h _ => by
      obtain ⟨s', h1, h2, h3⟩ := cgsStepT_ok (threshold := thr) (matvecMax := kw.matvecMax.getD (2 * n)) hk hA hP rfl h.1
      exact ⟨s', h1, h2, by rw [h3, h.2]⟩) s0 _ ⟨hs0, rfl⟩
  have l1' : cgsLoopT op o.precon thr (kw.matvecMax.getD (2 * n)) r0 s0 = .ok s' := l1
  have l3' : cgsLoop op.fn (o.precon.map TOp.fn) thr.val (kw.matvecMax.getD (2 * n)) r0.val s0.vals = s'.vals := l3.symm
  rw [e1, l1', e2]
  refine ⟨_, _, rfl, ?_, by rw [hD]; exact l2.x⟩
  simp only [l3']
  rfl

/-- **C73 (CGS).** If the operator or the preconditioner is wider than the initial residual, `solve` raises `TypeError` as soon
as there is an iteration to perform. -/
theorem C73_cgs_raises (op : TOp V) (o : TOpts S V) (n : Nat) (rhs : TArr V) (kw : KrylovKw (TArr V))
    (hAP : ¬ (op.dtype.fits (startKind op rhs kw) ∧ PreFits o.precon (startKind op rhs kw))) :
    let plain := cgsSolve op.fn o.vals n rhs.val (KrylovKw.vals S (op.dtype.join rhs.kind) kw)
    (plain.1.nMatvec = 0 →
      ∃ res calls, cgsSolveT op o n rhs kw = .ok (res, calls) ∧ (res.vals, calls.map TArr.val) = plain) ∧
    (plain.1.nMatvec ≠ 0 → cgsSolveT op o n rhs kw = .error .typeError) := by
  obtain ⟨r0, thr, rn, s0, k0, kx, kr, ku, kp, kh, kn, e1, e2⟩ := cgsSolve_split op o n rhs kw
  rw [preFits_iff, ← k0] at hAP
  intro plain
  have hplain : plain = _ := e2
  clear_value plain
  rw [e1]
  rcases Bool.eq_false_or_eq_true s0.finished with hf | hf
  · have l1 : cgsLoopT op o.precon thr (kw.matvecMax.getD (2 * n)) r0 s0 = .ok s0 := exceptLoop_of_not (by simp [hf])
    have l2 : cgsLoop op.fn (o.precon.map TOp.fn) thr.val (kw.matvecMax.getD (2 * n)) r0.val s0.vals = s0.vals :=
      whileLoop_of_not (by simp [CGSLoop.vals, hf])
    rw [l2] at hplain
    rw [l1]
    refine ⟨fun _ => ⟨_, _, rfl, by rw [hplain]; rfl⟩, fun h => ?_⟩
    rw [hplain] at h
    exact absurd kn h
  · have l1 : cgsLoopT op o.precon thr (kw.matvecMax.getD (2 * n)) r0 s0 = .error .typeError :=
      exceptLoop_of_error (by simp [hf]) (cgsStepT_error hAP kr)
    have l2 : 2 ≤ (cgsLoop op.fn (o.precon.map TOp.fn) thr.val (kw.matvecMax.getD (2 * n)) r0.val s0.vals).nMatvec := by
      unfold cgsLoop
      rw [whileLoop_of_cont (by simp [CGSLoop.vals, hf])]
      refine (whileLoop_inv (fun t : CGSLoop S V => 2 ≤ t.nMatvec) (fun t ht _ => ?_) _ ?_).1
      · rw [(cgsStep_nMatvec _ _ _ _ _ _).1]; omega
      · rw [(cgsStep_nMatvec _ _ _ _ _ _).1]; omega
    rw [l1]
    refine ⟨fun h => ?_, fun _ => rfl⟩
    rw [hplain] at h
    simp only at h
    omega

/-- **C73 (Bi-CGSTAB).** If the operator or the right-hand side is not of an integer type, and the preconditioner is not wider
than both, the dtypes do not matter; the solution has the common type of the operator and the right-hand side. -/
theorem C73_bicgstab (op : TOp V) (o : TOpts S V) (n : Nat) (rhs : TArr V) (kw : KrylovKw (TArr V))
    (hk : op.dtype.join rhs.kind ≠ .int) (hP : PreFits o.precon (op.dtype.join rhs.kind)) :
    ∃ res calls, biSolveT op o n rhs kw = .ok (res, calls) ∧
      (res.vals, calls.map TArr.val) = biSolve op.fn o.vals n rhs.val (KrylovKw.vals S (op.dtype.join rhs.kind) kw) ∧
      res.x.kind = op.dtype.join rhs.kind := by
  obtain ⟨r0, thr, rn, s0, k0, kx, kr, kp, kv, khn, kh, ka, ko, -, e1, e2⟩ := biSolve_split op o n rhs kw
  rw [preFits_iff] at hP
  have h0 : r0.kind.fits (op.dtype.join rhs.kind) := by rw [k0]; exact startKind_fits op rhs kw
  have hre := real_fits hk
  have hs0 : BiKinds (op.dtype.join rhs.kind) s0 := ⟨kx, by rw [kr]; exact h0, kp, kv, by rw [kh]; exact hre,
    by rw [khn]; exact h0, by rw [ka]; exact hre, by rw [ko]; exact hre, fun _ => Or.inl (by rw [kh]; simp)⟩
  obtain ⟨s', l1, l2, l3⟩ := exceptLoop_sim
    (step := biStepT op o.precon thr (kw.matvecMax.getD (2 * n)) r0)
    (μ := fun s => kw.matvecMax.getD (2 * n) - s.nMatvec)
    (h := fun s t _ h2 h3 => by
      have h1 := biStepT_nMatvec h2
      have h4 := h1.2 (by simpa using h3)
      omega)
    (step' := biStep op.fn (o.precon.map TOp.fn) thr.val (kw.matvecMax.getD (2 * n)) r0.val)
    (μ' := fun s => kw.matvecMax.getD (2 * n) - s.nMatvec)
    (h' := fun s _ h => by
      have h1 := biStep_nMatvec op.fn (o.precon.map TOp.fn) thr.val (kw.matvecMax.getD (2 * n)) r0.val s
      have h2 := h1.2 (by simpa using h)
      omega)
    (fun (s : BiLoop (TNum S V) (TArr V)) t => BiKinds (op.dtype.join rhs.kind) s ∧ s.vals = t)
    (cont := fun s => !s.finished) (cont' := fun s => !s.finished)
    (fun s t h => by rw [← h.2]; rfl)
    (fun s t h hc => by
      obtain ⟨s', h1, h2, h3⟩ := biStepT_ok (threshold := thr) (matvecMax := kw.matvecMax.getD (2 * n)) hk
        (fits_left _ _) hP h0 h.1 (by simpa using hc)
      exact ⟨s', h1, h2, by rw [h3, h.2]⟩) s0 _ ⟨hs0, rfl⟩
  have l1' : biLoopT op o.precon thr (kw.matvecMax.getD (2 * n)) r0 s0 = .ok s' := l1
  have l3' : biLoop op.fn (o.precon.map TOp.fn) thr.val (kw.matvecMax.getD (2 * n)) r0.val s0.vals = s'.vals := l3.symm
  rw [e1, l1', e2]
  refine ⟨_, _, rfl, ?_, l2.x⟩
  simp only [l3']
  rfl

/-- **C73 (Bi-CGSTAB).** With an integer operator and an integer right-hand side, `solve` raises `TypeError` as soon as there
is an iteration to perform (even if a solution is close), whatever the preconditioner. -/
theorem C73_bicgstab_integers (op : TOp V) (o : TOpts S V) (n : Nat) (rhs : TArr V) (kw : KrylovKw (TArr V))
    (hA : op.dtype = .int) (hb : rhs.kind = .int) :
    let plain := biSolve op.fn o.vals n rhs.val (KrylovKw.vals S .int kw)
    let start := if kw.guess.isSome then 1 else 0
    (plain.1.nMatvec = start →
      ∃ res calls, biSolveT op o n rhs kw = .ok (res, calls) ∧ (res.vals, calls.map TArr.val) = plain) ∧
    (plain.1.nMatvec ≠ start → biSolveT op o n rhs kw = .error .typeError) := by
  obtain ⟨r0, thr, rn, s0, k0, kx, kr, kp, kv, khn, kh, ka, ko, kn, e1, e2⟩ := biSolve_split op o n rhs kw
  intro plain start
  have hD : op.dtype.join rhs.kind = .int := by rw [hA, hb]; rfl
  rw [hD] at e2 kp
  have hplain : plain = _ := e2
  have hstart : s0.nMatvec = start := kn
  clear_value plain start
  rw [e1]
  rcases Bool.eq_false_or_eq_true s0.finished with hf | hf
  · have l1 : biLoopT op o.precon thr (kw.matvecMax.getD (2 * n)) r0 s0 = .ok s0 := exceptLoop_of_not (by simp [hf])
    have l2 : biLoop op.fn (o.precon.map TOp.fn) thr.val (kw.matvecMax.getD (2 * n)) r0.val s0.vals = s0.vals :=
      whileLoop_of_not (by simp [BiLoop.vals, hf])
    rw [l2] at hplain
    rw [l1]
    refine ⟨fun _ => ⟨_, _, rfl, by rw [hplain]; rfl⟩, fun h => ?_⟩
    rw [hplain] at h
    exact absurd hstart h
  · have l1 : biLoopT op o.precon thr (kw.matvecMax.getD (2 * n)) r0 s0 = .error .typeError :=
      exceptLoop_of_error (by simp [hf]) (biStepT_int kp kh)
    have l2 : s0.nMatvec < (biLoop op.fn (o.precon.map TOp.fn) thr.val (kw.matvecMax.getD (2 * n)) r0.val s0.vals).nMatvec := by
      unfold biLoop
      rw [whileLoop_of_cont (by simp [BiLoop.vals, hf])]
      refine (whileLoop_inv (fun t : BiLoop S V => s0.nMatvec < t.nMatvec) (fun t ht _ => ?_) _ ?_).1
      · exact ht.trans (biStep_nMatvec _ _ _ _ _ _).1
      · exact (biStep_nMatvec op.fn (o.precon.map TOp.fn) thr.val (kw.matvecMax.getD (2 * n)) r0.val s0.vals).1
    rw [l1]
    refine ⟨fun h => ?_, fun _ => rfl⟩
    rw [hplain] at h
    simp only at h
    omega

/-- **C73 (Bi-CGSTAB).** With a preconditioner that is wider than the operator and the right-hand side, `solve` raises
`TypeError` when the solution is to be updated for the first time.  It returns, with the same results as the model without
dtypes, only if there is no iteration to perform or the budget allows for no more than the first product, which does not reach
the threshold. -/
theorem C73_bicgstab_precon (op : TOp V) (o : TOpts S V) (n : Nat) (rhs : TArr V) (kw : KrylovKw (TArr V))
    (hk : op.dtype.join rhs.kind ≠ .int) (hP : ¬ PreFits o.precon (op.dtype.join rhs.kind)) :
    let plain := biSolve op.fn o.vals n rhs.val (KrylovKw.vals S (op.dtype.join rhs.kind) kw)
    let start := if kw.guess.isSome then 1 else 0
    (plain.1.nMatvec = start ∨ plain.1.nMatvec = start + 1 ∧ plain.1.converged = false →
      ∃ res calls, biSolveT op o n rhs kw = .ok (res, calls) ∧ (res.vals, calls.map TArr.val) = plain) ∧
    (¬ (plain.1.nMatvec = start ∨ plain.1.nMatvec = start + 1 ∧ plain.1.converged = false) →
      biSolveT op o n rhs kw = .error .typeError) := by
  obtain ⟨r0, thr, rn, s0, k0, kx, kr, kp, kv, khn, kh, ka, ko, kn, e1, e2⟩ := biSolve_split op o n rhs kw
  rw [preFits_iff] at hP
  have h0 : r0.kind.fits (op.dtype.join rhs.kind) := by rw [k0]; exact startKind_fits op rhs kw
  have hre := real_fits hk
  have hs0 : BiKinds (op.dtype.join rhs.kind) s0 := ⟨kx, by rw [kr]; exact h0, kp, kv, by rw [kh]; exact hre,
    by rw [khn]; exact h0, by rw [ka]; exact hre, by rw [ko]; exact hre, fun _ => Or.inl (by rw [kh]; simp)⟩
  intro plain start
  have hplain : plain = _ := e2
  have hstart : s0.nMatvec = start := kn
  clear_value plain start
  rw [e1]
  rcases Bool.eq_false_or_eq_true s0.finished with hf | hf
  · have l1 : biLoopT op o.precon thr (kw.matvecMax.getD (2 * n)) r0 s0 = .ok s0 := exceptLoop_of_not (by simp [hf])
    have l2 : biLoop op.fn (o.precon.map TOp.fn) thr.val (kw.matvecMax.getD (2 * n)) r0.val s0.vals = s0.vals :=
      whileLoop_of_not (by simp [BiLoop.vals, hf])
    rw [l2] at hplain
    rw [l1]
    refine ⟨fun _ => ⟨_, _, rfl, by rw [hplain]; rfl⟩, fun h => ?_⟩
    rw [hplain] at h
    exact absurd (Or.inl hstart) h
  · have hpre := biStepT_pre (op := op) (threshold := thr) (matvecMax := kw.matvecMax.getD (2 * n)) (r0 := r0) hP hs0 hf
    simp only at hpre
    generalize ht : biStep op.fn (o.precon.map TOp.fn) thr.val (kw.matvecMax.getD (2 * n)) r0.val s0.vals = t at hpre
    have hnt := biStep_nMatvec op.fn (o.precon.map TOp.fn) thr.val (kw.matvecMax.getD (2 * n)) r0.val s0.vals
    rw [ht] at hnt
    have hnt1 : s0.nMatvec < t.nMatvec := hnt.1
    by_cases hc : le t.residNorm thr.val = false ∧ t.nMatvec = s0.nMatvec + 1
    · obtain ⟨s', h1, h2, h3⟩ := hpre.1 hc
      have hsf : s'.finished = true := by rw [← h2] at h3; exact h3
      have l1 : biLoopT op o.precon thr (kw.matvecMax.getD (2 * n)) r0 s0 = .ok s' := by
        unfold biLoopT
        rw [exceptLoop_of_cont (by simp [hf]) h1, exceptLoop_of_not (by simp [hsf])]
      have l2 : biLoop op.fn (o.precon.map TOp.fn) thr.val (kw.matvecMax.getD (2 * n)) r0.val s0.vals = t := by
        unfold biLoop
        rw [whileLoop_of_cont (by simp [BiLoop.vals, hf]), ht, whileLoop_of_not (by simp [h3])]
      rw [l2] at hplain
      rw [l1]
      refine ⟨fun _ => ⟨_, _, rfl, ?_⟩, fun h => absurd (Or.inr ?_) h⟩
      · rw [hplain, ← h2]; rfl
      · rw [hplain, ← hstart]; exact ⟨hc.2, hc.1⟩
    · have l1 : biLoopT op o.precon thr (kw.matvecMax.getD (2 * n)) r0 s0 = .error .typeError :=
        exceptLoop_of_error (by simp [hf]) (hpre.2 hc)
      rw [l1]
      refine ⟨fun h => ?_, fun _ => rfl⟩
      exfalso
      -- the loop without dtypes either stops converged, or goes on and performs further products
      by_cases hft : t.finished = true
      · have l2 : biLoop op.fn (o.precon.map TOp.fn) thr.val (kw.matvecMax.getD (2 * n)) r0.val s0.vals = t := by
          unfold biLoop
          rw [whileLoop_of_cont (by simp [BiLoop.vals, hf]), ht, whileLoop_of_not (by simp [hft])]
        rw [l2] at hplain
        rw [hplain, ← hstart] at h
        simp only at h
        rcases h with h | h
        · omega
        · exact hc ⟨h.2, h.1⟩
      · have l2 : t.nMatvec < (biLoop op.fn (o.precon.map TOp.fn) thr.val (kw.matvecMax.getD (2 * n)) r0.val s0.vals).nMatvec := by
          unfold biLoop
          rw [whileLoop_of_cont (by simp [BiLoop.vals, hf]), ht, whileLoop_of_cont (by simpa using hft)]
          refine (whileLoop_inv (fun u : BiLoop S V => t.nMatvec < u.nMatvec) (fun u hu _ => ?_) _ ?_).1
          · exact hu.trans (biStep_nMatvec _ _ _ _ _ _).1
          · exact (biStep_nMatvec op.fn (o.precon.map TOp.fn) thr.val (kw.matvecMax.getD (2 * n)) r0.val t).1
        rw [hplain, ← hstart] at h
        simp only at h
        omega

/-- **C73 (TFQMR).** If the initial residual is not of an integer type, and the operator and the preconditioner are not wider
than it, the dtypes do not matter. -/
theorem C73_tfqmr (op : TOp V) (o : TOpts S V) (n : Nat) (rhs : TArr V) (kw : KrylovKw (TArr V))
    (hk : startKind op rhs kw ≠ .int) (hA : op.dtype.fits (startKind op rhs kw)) (hP : PreFits o.precon (startKind op rhs kw)) :
    (tfSolveT op o n rhs kw).map (fun rc => (rc.1.vals, rc.2.map TArr.val)) =
      tfSolve op.fn o.vals n rhs.val (KrylovKw.vals S (op.dtype.join rhs.kind) kw) := by
  obtain ⟨r0, thr, rn, s0, k0, km, kf, -, e1, e2⟩ := tfSolve_split op o n rhs kw
  rw [preFits_iff] at hP
  have hD := startKind_eq hA
  rw [← k0] at hk hA hP hD
  have hres : ∀ s : TFLoop (TNum S V) (TArr V),
      (tfResult thr rn s).map (fun rc => (rc.1.vals, rc.2.map TArr.val)) = tfResult thr.val rn.val s.vals := by
    intro s
    unfold tfResult
    cases hm : s.m with
    | none => simp only [TFLoop.vals, hm, Option.map_none]; rfl
    | some m => simp only [TFLoop.vals, hm, Option.map_some]; rfl
  rcases Bool.eq_false_or_eq_true s0.finished with hf | hf
  · have l1 : tfLoopT op o.precon thr (kw.matvecMax.getD (2 * n)) r0 s0 = .ok s0 := exceptLoop_of_not (by simp [hf])
    have l2 : tfLoop op.fn (o.precon.map TOp.fn) thr.val (kw.matvecMax.getD (2 * n)) r0.val s0.vals = s0.vals :=
      whileLoop_of_not (by simp [TFLoop.vals, hf])
    rw [e1, e2, l1, l2]
    exact hres s0
  · obtain ⟨kx, ky, kw', kd, kz, ku, kv, kh, kt, ke, kn, -⟩ := kf hf
    have hA' : op.dtype.join r0.kind = r0.kind := hA
    have hP' : (preKind o.precon).join r0.kind = r0.kind := hP
    have hs0 : TFKinds r0.kind s0 := ⟨by rw [kx, hD], by rw [ky], by rw [kw'], by rw [kd, hD], by rw [kz, hP'],
      by rw [ku, hP', hA'], by rw [kv, ku, hP', hA'], kh, kt, by rw [ke]; exact real_fits hk, kn⟩
    obtain ⟨s', l1, l2, l3⟩ := exceptLoop_sim
      (step := tfStepT op o.precon thr (kw.matvecMax.getD (2 * n)) r0)
      (μ := fun s => kw.matvecMax.getD (2 * n) - s.nMatvec)
      (h := fun s t _ h2 h3 => by
        have h1 := tfStepT_nMatvec h2 (by simpa using h3)
        omega)
      (step' := tfStep op.fn (o.precon.map TOp.fn) thr.val (kw.matvecMax.getD (2 * n)) r0.val)
      (μ' := fun s => kw.matvecMax.getD (2 * n) - s.nMatvec)
      (h' := fun s _ h => by
        have h1 := (tfStep_nMatvec op.fn (o.precon.map TOp.fn) thr.val (kw.matvecMax.getD (2 * n)) r0.val s).1 (by simpa using h)
        omega)
      (fun (s : TFLoop (TNum S V) (TArr V)) t => TFKinds r0.kind s ∧ s.vals = t)
      (cont := fun s => !s.finished) (cont' := fun s => !s.finished)
      (fun s t h => by rw [← h.2]; rfl)
      (fun s t h _ => by
        obtain ⟨s', h1, h2, h3⟩ := tfStepT_ok (threshold := thr) (matvecMax := kw.matvecMax.getD (2 * n)) hk hA hP rfl h.1
        exact ⟨s', h1, h2, by rw [h3, h.2]⟩) s0 _ ⟨hs0, rfl⟩
    have l1' : tfLoopT op o.precon thr (kw.matvecMax.getD (2 * n)) r0 s0 = .ok s' := l1
    have l3' : tfLoop op.fn (o.precon.map TOp.fn) thr.val (kw.matvecMax.getD (2 * n)) r0.val s0.vals = s'.vals := l3.symm
    rw [e1, e2, l1', l3']
    exact hres s'

/-- **C73 (TFQMR).** If the initial residual is of an integer type, or the operator or the preconditioner is wider than it,
`solve` never returns: it raises the exception of the model without dtypes if that raises one, and otherwise `TypeError`. -/
theorem C73_tfqmr_raises (op : TOp V) (o : TOpts S V) (n : Nat) (rhs : TArr V) (kw : KrylovKw (TArr V))
    (hAP : ¬ (op.dtype.fits (startKind op rhs kw) ∧ PreFits o.precon (startKind op rhs kw) ∧ startKind op rhs kw ≠ .int)) :
    let plain := tfSolve op.fn o.vals n rhs.val (KrylovKw.vals S (op.dtype.join rhs.kind) kw)
    (∀ e, plain = .error e → tfSolveT op o n rhs kw = .error e) ∧
    (∀ r, plain = .ok r → tfSolveT op o n rhs kw = .error .typeError) := by
  obtain ⟨r0, thr, rn, s0, k0, km, kf, kb, e1, e2⟩ := tfSolve_split op o n rhs kw
  rw [preFits_iff, ← k0] at hAP
  intro plain
  have hplain : plain = _ := e2
  clear_value plain
  rw [e1]
  rcases Bool.eq_false_or_eq_true s0.finished with hf | hf
  · have l1 : tfLoopT op o.precon thr (kw.matvecMax.getD (2 * n)) r0 s0 = .ok s0 := exceptLoop_of_not (by simp [hf])
    have l2 : tfLoop op.fn (o.precon.map TOp.fn) thr.val (kw.matvecMax.getD (2 * n)) r0.val s0.vals = s0.vals :=
      whileLoop_of_not (by simp [TFLoop.vals, hf])
    rw [l2] at hplain
    have l4 : tfResult thr.val rn.val s0.vals = .error (.unboundLocal "m") := by
      unfold tfResult; simp only [TFLoop.vals, km, Option.map_none]
    rw [l4] at hplain
    rw [l1, hplain]
    refine ⟨fun e he => ?_, fun r hr => by cases hr⟩
    cases he
    change tfResult thr rn s0 = _
    unfold tfResult
    rw [km]
  · obtain ⟨kx, ky, kw', kd, kz, ku, kv, kh, kt, ke, kn, hn⟩ := kf hf
    have hd : s0.d.kind.fits (op.dtype.join r0.kind) := by
      rw [kd, k0]
      unfold startKind
      split <;> cases op.dtype <;> cases rhs.kind <;> decide
    have l1 : tfLoopT op o.precon thr (kw.matvecMax.getD (2 * n)) r0 s0 = .error .typeError :=
      exceptLoop_of_error (by simp [hf]) (tfStepT_error (by rw [kw']) hd ku kt hAP)
    rw [l1]
    refine ⟨fun e he => ?_, fun r hr => rfl⟩
    exfalso
    have hc : (tfLoop op.fn (o.precon.map TOp.fn) thr.val (kw.matvecMax.getD (2 * n)) r0.val s0.vals).m ≠ none := by
      unfold tfLoop
      rw [whileLoop_of_cont (by simp [TFLoop.vals, hf])]
      exact (whileLoop_inv (fun t : TFLoop S V => t.m ≠ none) (fun t _ _ => (tfStep_calls _ _ _ _ _ _).2.2.2) _
        (tfStep_calls _ _ _ _ _ _).2.2.2).1
    rw [hplain] at he
    unfold tfResult at he
    split at he
    · rename_i h; exact hc h
    · cases he

end Verif.Solver
