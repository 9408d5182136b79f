import Verif.Solver.TypedProps

/-!
# C73: systems of integers, and instances of the theorems
-/

namespace Verif.Solver
open Scalar Vect Linop
open CGMath (SPD)

section
variable {S V : Type} [Scalar S] [Vect S V] [Casts S V]

/-- **C73 (CG).** With an integer right-hand side, an integer operator and, if there is a preconditioner, an integer
preconditioner, `solve` does not raise, and what it stores as the solution is an array of integers. -/
theorem C73_cg_integers (op : TOp V) (o : TOpts S V) (n : Nat) (self : CGObj (TNum S V) (TArr V)) (rhs : TArr V)
    (kw : CGKw (TArr V)) (hA : op.dtype = .int) (hb : rhs.kind = .int) (hP : PreFits o.precon .int)
    (he : ¬ (kw.checkSymmetric = true ∧ kw.symOK = false)) :
    ∃ res calls x, cgSolveT op o n self rhs kw = .ok (res, calls) ∧ res.x = some x ∧ x.kind = .int := by
  have hP' : (preKind o.precon).join .int = .int := preFits_iff.mp hP
  have he' : ¬ (kw.checkSymmetric && !kw.symOK) = true := by simpa using he
  obtain ⟨s0, thr, h1, -, kx, kr, kp, kry⟩ := cgInitT_ok (op := op) (o := o) (kw := kw) (self := self) (rhs := rhs)
    (Or.inr (by rw [hA, hb]; exact fits_refl _))
  have hs0 : CGKinds .int s0 := ⟨by rw [kx, hA, hb]; rfl, by rw [kr, hb], by rw [kp, hb], by rw [kry, hb, hP']; rfl⟩
  unfold cgSolveT
  rw [if_neg he', h1, except_bind_ok' rfl]
  simp only
  obtain ⟨s', l1, l2, -⟩ := exceptLoop_total (cont := cgCont thr (kw.matvecMax.getD (2 * n)))
    (step := cgStepT op o.precon kw) (μ := fun s => kw.matvecMax.getD (2 * n) - s.nMatvec)
    (h := fun s t h1 h2 _ => by
      simp only [cgCont, Bool.and_eq_true, decide_eq_true_eq] at h1
      rw [cgStepT_nMatvec h2]; omega)
    (CGKinds .int) (fun s hs _ => by
      unfold cgStepT
      simp only
      split
      · exact ⟨_, rfl, hs.x, hs.r, hs.p, hs.ry⟩
      · have e1 : (s.ry / dot s.p (op.mul s.p) : TNum S V).kind = .int := by
          simp only [TNum.div_kind, TArr.dot_kind, TOp.mul_kind, hs.p, hs.ry, hA]; rfl
        have f : DKind.int.fits .int := fits_refl _
        rw [iadd_ok (by rw [TArr.smul_kind, e1, hs.p, hs.x]; exact f), except_bind_ok' rfl,
          iadd_ok (by rw [TArr.smul_kind, e1, TOp.mul_kind, hs.p, hs.r, hA]; exact f), except_bind_ok' rfl]
        generalize hr : (⟨s.r.kind, s.r.val + (smul (s.ry / dot s.p (op.mul s.p)) (op.mul s.p)).val⟩ : TArr V) = r
        have r1 : r.kind = .int := by rw [← hr]; exact hs.r
        have b1 : (dot r (applyPreconT o.precon r) / s.ry : TNum S V).kind = .int := by
          simp only [TNum.div_kind, TArr.dot_kind, applyPreconT_kind, r1, hs.ry, hP']; rfl
        rw [imul_ok (by rw [b1, hs.p]; exact f), except_bind_ok' rfl,
          isub_ok (by change r.kind.fits s.p.kind; rw [r1, hs.p]; exact f), except_bind_ok' rfl]
        exact ⟨_, rfl, hs.x, r1, hs.p, by simp only [TArr.dot_kind, applyPreconT_kind, r1, hP']; rfl⟩) s0 hs0
  have l1' : cgLoopT op o.precon kw thr (kw.matvecMax.getD (2 * n)) s0 = .ok s' := l1
  rw [l1', except_bind_ok' rfl]
  exact ⟨_, _, _, rfl, rfl, l2.x⟩

end

/-- **C73 (finding).** An array of integers as right-hand side of a symmetric positive definite operator that has the default
dtype (or a complex one): unless zero is already accepted as the solution, `CG.solve` raises `TypeError`.  The same with a real
right-hand side and a complex operator. -/
theorem C73_cg_narrow_rhs {E : Type} [NormedAddCommGroup E] [InnerProductSpace ℝ E] [Casts Fl (Vec E)] (q : CGProblem E)
    (hA : SPD q.A) (hg : q.guess = none) (k kA : DKind) (hk : ¬ kA.fits k) (n : Nat) (self : CGObj (TNum Fl (Vec E)) (TArr (Vec E)))
    (kw : CGKw (TArr (Vec E))) (he : ¬ (kw.checkSymmetric = true ∧ kw.symOK = false)) (hkg : kw.guess = none)
    (hm : 0 < kw.matvecMax.getD (2 * n)) (hb : q.threshold < ‖q.b‖) (h0 : 0 ≤ q.abstol) :
    cgSolveT ⟨kA, Vec.op q.A⟩ ⟨.fin q.abstol, .fin q.reltol, none⟩ n self ⟨k, .fin q.b⟩ kw = .error .typeError := by
  refine ((C73_cg_raises _ _ n self _ kw (fun h => hk h.1) he).2 (by simp [hkg])).2 ?_
  simp only
  have hg' : (CGKw.vals Fl (kA.join k) kw).guess = q.guess.map Vec.fin := by simp [CGKw.vals, hkg, hg]
  have he' : (CGKw.vals Fl (kA.join k) kw).Runs := by
    simp only [CGKw.Runs, CGKw.vals]
    simpa using he
  have hbne : q.b ≠ 0 := by
    rintro h
    rw [h, norm_zero] at hb
    exact absurd hb (not_lt.mpr (le_trans h0 (le_max_left _ _)))
  rw [show (⟨.fin q.abstol, .fin q.reltol, none⟩ : TOpts Fl (Vec E)).vals = q.opts from rfl]
  rw [cgSolve_eq he']
  obtain ⟨hx, hr, hp, hry, hrn, hnm, hd, -, hh, -, ht⟩ := cgInit_exact q (CGKw.vals Fl (kA.join k) kw) self.vals hg'
  generalize hi : cgInit (Vec.op q.A) q.opts (CGKw.vals Fl (kA.join k) kw) self.vals (.fin q.b) = s0 at hx hr hp hry hrn hnm hd hh ht ⊢
  simp only [hg, startPoint, Option.getD_none, map_zero, zero_sub, neg_neg, norm_neg] at hx hr hp hry hrn
  have hc : cgCont s0.2 (kw.matvecMax.getD (2 * n)) s0.1 = true := by
    have : s0.1.nMatvec = 0 := by rw [hnm]; simp [CGKw.guessCost, CGKw.vals, hkg]
    simp only [cgCont, hrn, ht, this, hd, Bool.and_eq_true, decide_eq_true_eq, gt]
    exact ⟨⟨by rw [Fl.fin_lt]; exact hb, hm⟩, trivial⟩
  have hnp : ((CGKw.vals Fl (kA.join k) kw).checkCurvature && notPositive (dot s0.1.p (Vec.op q.A s0.1.p) : Fl)) = false := by
    have : ¬ notPositive (Fl.fin (inner ℝ q.b (q.A q.b))) = true := by
      rw [notPositive_fin]; exact not_le.mpr (hA.pos _ hbne)
    rw [hp, Vec.op_fin, Vec.fin_dot]
    simp [this]
  have h1 : (cgStep (Vec.op q.A) q.opts.precon (CGKw.vals Fl (kA.join k) kw) s0.1).residHistory.length =
      self.vals.residHistory.length + 2 := by
    rw [cgStep_def hnp]
    simp only [hh, List.length_append, List.length_cons, List.length_nil]
  have h2 := cgLoop_history (Vec.op q.A) q.opts.precon (CGKw.vals Fl (kA.join k) kw) s0.2 (kw.matvecMax.getD (2 * n))
    (cgStep (Vec.op q.A) q.opts.precon (CGKw.vals Fl (kA.join k) kw) s0.1)
  change (cgLoop (Vec.op q.A) q.opts.precon (CGKw.vals Fl (kA.join k) kw) s0.2 (kw.matvecMax.getD (2 * n)) s0.1).residHistory.length ≠ _
  rw [cgLoop, dif_pos hc]
  have h3 : self.vals.residHistory.length = self.residHistory.length := by simp [CGObj.vals]
  omega

/-- exact arithmetic: quotients of integers are rounded down (and are 0 if the divisor is 0), conversion to integers rounds
towards zero, and a real array has no imaginary part to lose -/
noncomputable instance : Casts Fl (Vec ℝ) where
  floorDiv
    | .fin a, .fin b => .fin ⌊a / b⌋
    | _, _ => .nan
  trunc
    | .int, .fin v => .fin (if 0 ≤ v then ⌊v⌋ else ⌈v⌉)
    | _, v => v
  trunc_zeros k := by
    cases k
    · change Vec.fin _ = Vec.fin _; simp
    · rfl
    · rfl

theorem floorDiv_fin (a b : ℝ) : Casts.floorDiv (Vec ℝ) (Fl.fin a) (Fl.fin b) = Fl.fin ⌊a / b⌋ := rfl

/-- the operator `2` of order 1 with the dtype class `k` -/
noncomputable def twoOp (k : DKind) : TOp (Vec ℝ) := ⟨k, Vec.op (fun v : ℝ => 2 * v)⟩

/-- tolerances 1e-6, no preconditioner -/
noncomputable def twoOpts : TOpts Fl (Vec ℝ) := { abstol := .fin (1/1000000), reltol := .fin (1/1000000) }

/-- the state of CG on `2 x = 1` with integers -/
structure TwoState (s : CGLoop (TNum Fl (Vec ℝ)) (TArr (Vec ℝ))) : Prop where
  x : s.x = ⟨.int, .fin 0⟩
  r : s.r = ⟨.int, .fin (-1)⟩
  p : ∃ q : ℝ, 1 ≤ q ∧ s.p = ⟨.int, .fin q⟩
  ry : s.ry = ⟨.int, .fin 1⟩
  residNorm : s.residNorm = ⟨.real, .fin 1⟩
  definite : s.definite = true

theorem abs_sqrt_one {k : DKind} (hk : k = .int) :
    Scalar.abs (Scalar.sqrt (⟨k, .fin 1⟩ : TNum Fl (Vec ℝ))) = ⟨.real, .fin 1⟩ := by
  subst hk
  change (⟨.real, Scalar.abs (Scalar.sqrt (Fl.fin 1))⟩ : TNum Fl (Vec ℝ)) = _
  rw [Fl.fin_sqrt zero_le_one, Real.sqrt_one, Fl.fin_abs, abs_one]

theorem two_step (kw : CGKw (TArr (Vec ℝ))) {s : CGLoop (TNum Fl (Vec ℝ)) (TArr (Vec ℝ))} (hs : TwoState s) :
    ∃ t, cgStepT (twoOp .int) none kw s = .ok t ∧ TwoState t ∧ t.nMatvec = s.nMatvec + 1 := by
  obtain ⟨q, hq, hp⟩ := hs.p
  have h2 : (0:ℝ) < q * (2 * q) := by nlinarith
  have hpAp : (dot s.p ((twoOp .int).mul s.p) : TNum Fl (Vec ℝ)) = ⟨.int, .fin (q * (2 * q))⟩ := by
    rw [hp]
    change (⟨.int, dot (Vec.fin q) (Vec.op (fun v : ℝ => 2 * v) (Vec.fin q))⟩ : TNum Fl (Vec ℝ)) = _
    rw [Vec.op_fin, Vec.fin_dot, inner1]
  have hnp : ¬ ((kw.checkCurvature &&
      notPositive (dot s.p ((twoOp .int).mul s.p) : TNum Fl (Vec ℝ))) = true) := by
    rw [hpAp, notPositive_val]
    have : ¬ (notPositive (Fl.fin (q * (2 * q))) = true) := by rw [notPositive_fin]; linarith
    simp [this]
  have hal : (s.ry / dot s.p ((twoOp .int).mul s.p) : TNum Fl (Vec ℝ)) = ⟨.int, .fin 0⟩ := by
    rw [hpAp, hs.ry]
    change (⟨.int, Casts.floorDiv (Vec ℝ) (Fl.fin 1) (Fl.fin (q * (2 * q)))⟩ : TNum Fl (Vec ℝ)) = _
    have : ⌊1 / (q * (2 * q))⌋ = 0 := by
      rw [Int.floor_eq_zero_iff]
      constructor
      · positivity
      · rw [div_lt_one h2]; nlinarith
    rw [floorDiv_fin, this]; norm_num
  have f : DKind.int.fits .int := fits_refl _
  unfold cgStepT
  simp only
  rw [if_neg hnp, hal]
  rw [iadd_ok (by rw [TArr.smul_kind, hp, hs.x]; exact f), except_bind_ok' rfl,
    iadd_ok (by rw [TArr.smul_kind, TOp.mul_kind, hp, hs.r]; exact f), except_bind_ok' rfl]
  have hx : (⟨s.x.kind, s.x.val + (smul (⟨.int, .fin 0⟩ : TNum Fl (Vec ℝ)) s.p).val⟩ : TArr (Vec ℝ)) = ⟨.int, .fin 0⟩ := by
    rw [hs.x, hp]; simp
  have hr : (⟨s.r.kind, s.r.val + (smul (⟨.int, .fin 0⟩ : TNum Fl (Vec ℝ)) ((twoOp .int).mul s.p)).val⟩ : TArr (Vec ℝ)) =
      ⟨.int, .fin (-1)⟩ := by
    rw [hs.r, hp]; simp [twoOp]
  rw [hx, hr]
  have hrn : (dot (⟨.int, .fin (-1)⟩ : TArr (Vec ℝ)) (applyPreconT none ⟨.int, .fin (-1)⟩) : TNum Fl (Vec ℝ)) =
      ⟨.int, .fin 1⟩ := by
    change (⟨.int, dot (Vec.fin (-1 : ℝ)) (Vec.fin (-1 : ℝ))⟩ : TNum Fl (Vec ℝ)) = _
    rw [Vec.fin_dot, inner1]; norm_num
  rw [hrn]
  have hbe : ((⟨.int, .fin 1⟩ : TNum Fl (Vec ℝ)) / s.ry) = ⟨.int, .fin 1⟩ := by
    rw [hs.ry]
    change (⟨.int, Casts.floorDiv (Vec ℝ) (Fl.fin 1) (Fl.fin 1)⟩ : TNum Fl (Vec ℝ)) = _
    rw [floorDiv_fin]; norm_num
  rw [hbe, imul_ok (by rw [hp]; exact f), except_bind_ok' rfl, isub_ok (by rw [hp]; exact f), except_bind_ok' rfl]
  refine ⟨_, rfl, ⟨rfl, rfl, ⟨q + 1, by linarith, ?_⟩, rfl, abs_sqrt_one rfl, hs.definite⟩, rfl⟩
  simp only [hp]
  simp

/-- the state before the loop -/
noncomputable def twoInit : CGLoop (TNum Fl (Vec ℝ)) (TArr (Vec ℝ)) :=
  { x := ⟨.int, .fin 0⟩, r := ⟨.int, .fin (-1)⟩, p := ⟨.int, .fin 1⟩, ry := ⟨.int, .fin 1⟩, residNorm := ⟨.real, .fin 1⟩,
    nMatvec := 0, definite := true, infiniteDescent := none, residHistory := [⟨.real, .fin 1⟩], resids := [], iterates := [],
    calls := [] }

theorem two_init (m : Option Nat) :
    cgInitT (twoOp .int) twoOpts { matvecMax := m } {} ⟨.int, .fin 1⟩ = .ok (twoInit, ⟨.real, .fin (1/1000000)⟩) := by
  have hr : (-(⟨.int, .fin 1⟩ : TArr (Vec ℝ))) = ⟨.int, .fin (-1)⟩ := rfl
  have hp : (-(⟨.int, .fin (-1)⟩ : TArr (Vec ℝ))) = ⟨.int, .fin 1⟩ := by
    change (⟨.int, -Vec.fin (-1 : ℝ)⟩ : TArr (Vec ℝ)) = _
    rw [Vec.fin_neg, neg_neg]
  have hrn : (dot (⟨.int, .fin (-1)⟩ : TArr (Vec ℝ)) (⟨.int, .fin (-1)⟩ : TArr (Vec ℝ)) : TNum Fl (Vec ℝ)) =
      ⟨.int, .fin 1⟩ := by
    change (⟨.int, dot (Vec.fin (-1 : ℝ)) (Vec.fin (-1 : ℝ))⟩ : TNum Fl (Vec ℝ)) = _
    rw [Vec.fin_dot, inner1]; norm_num
  have ht : pymax (⟨.real, .fin (1/1000000)⟩ : TNum Fl (Vec ℝ)) (⟨.real, .fin (1/1000000)⟩ * ⟨.real, .fin 1⟩) =
      ⟨.real, .fin (1/1000000)⟩ := by
    have : ((⟨.real, .fin (1/1000000)⟩ : TNum Fl (Vec ℝ)) * ⟨.real, .fin 1⟩) = ⟨.real, .fin (1/1000000)⟩ := by
      change (⟨.real, Fl.fin (1/1000000) * Fl.fin 1⟩ : TNum Fl (Vec ℝ)) = _
      rw [Fl.fin_mul, mul_one]
    rw [this]
    unfold pymax
    split <;> rfl
  have hx : TArr.astype Fl .int (zeros : TArr (Vec ℝ)) = ⟨.int, .fin 0⟩ := by
    have h := astype_zeros (S := Fl) (V := Vec ℝ) .int
    exact congrArg (TArr.mk DKind.int) h
  unfold cgInitT
  simp only [Option.getD_none, Bool.false_eq_true, if_false, Option.isSome_none]
  rw [hr, except_bind_ok' rfl]
  change Except.ok (_, _) = Except.ok (_, _)
  simp only [applyPreconT, twoOpts]
  rw [hrn, hp, abs_sqrt_one rfl, ht]
  change Except.ok (({ x := TArr.astype Fl .int (zeros : TArr (Vec ℝ)), .. } : CGLoop _ _), _) = _
  rw [hx]
  rfl

/-- **C73 is violated by systems of integers (finding).**  The operator `2` of order 1 is symmetric positive definite.  With
the right-hand side `1.0` and the default keywords `solve` converges to `1/2`; with the right-hand side `1` and an integer
operator it stores the solution 0 and does not converge, whatever the maximum number of products. -/
theorem C73_integers_violated :
    (∃ res calls, cgSolveT (twoOp .int) twoOpts 1 {} ⟨.real, .fin 1⟩ {} = .ok (res, calls) ∧ res.converged = true ∧
      ∃ x : ℝ, res.x = some ⟨.real, .fin x⟩ ∧ |1 - 2 * x| ≤ 1/1000000) ∧
    ∀ m, ∃ res calls, cgSolveT (twoOp .int) twoOpts 1 {} ⟨.int, .fin 1⟩ { matvecMax := m } = .ok (res, calls) ∧
      res.converged = false ∧ res.x = some ⟨.int, .fin 0⟩ ∧ res.definite = some true := by
  constructor
  · obtain ⟨res, calls, h1, h2, h3⟩ := C73_cg (twoOp .int) twoOpts 1 {} ⟨.real, .fin 1⟩ {} (by decide)
      (by decide) (by intro P h; cases h)
    obtain ⟨x, hx, hk⟩ := h3 (by simp)
    have h4 := C28_terminates_partial (E := ℝ) ⟨(2:ℝ) • LinearMap.id, 1, none, 1/1000000, 1/1000000⟩ (spd_smul 2 two_pos) {} {}
      rfl rfl (by norm_num) (by intro m h; cases h)
    rw [Module.finrank_self] at h4
    have e : (cgSolve (twoOp .int).fn twoOpts.vals 1 (CGObj.vals ({} : CGObj (TNum Fl (Vec ℝ)) (TArr (Vec ℝ)))) (.fin 1)
      (CGKw.vals Fl .real {})).1 = res.vals := by rw [← h2]
    have e' : (cgSolve (Vec.op ⇑((2:ℝ) • (LinearMap.id : ℝ →ₗ[ℝ] ℝ)))
      (CGProblem.opts ⟨(2:ℝ) • LinearMap.id, 1, none, 1/1000000, 1/1000000⟩) 1 {} (.fin (1:ℝ)) {}).1 = res.vals := e
    simp only [e'] at h4
    obtain ⟨c, -, ⟨y, hy, hn, -⟩, -⟩ := h4
    refine ⟨res, calls, h1, c, y, ?_, ?_⟩
    · have : res.x.map TArr.val = some (.fin y) := hy
      rw [hx, Option.map_some, Option.some.injEq] at this
      rw [hx, ← this]; cases x; cases hk; rfl
    · simpa [startPoint] using hn
  · intro m
    unfold cgSolveT
    rw [if_neg (by simp), two_init, except_bind_ok' rfl]
    simp only
    obtain ⟨s', l1, l2, -⟩ := exceptLoop_total (cont := cgCont (⟨.real, .fin (1/1000000)⟩ : TNum Fl (Vec ℝ)) (m.getD (2 * 1)))
      (step := cgStepT (twoOp .int) none { matvecMax := m }) (μ := fun s => m.getD (2 * 1) - s.nMatvec)
      (h := fun s t h1 h2 _ => by
        simp only [cgCont, Bool.and_eq_true, decide_eq_true_eq] at h1
        rw [cgStepT_nMatvec h2]; omega)
      TwoState (fun s hs _ => by
        obtain ⟨t, h1, h2, -⟩ := two_step { matvecMax := m } hs
        exact ⟨t, h1, h2⟩) twoInit ⟨rfl, rfl, ⟨1, le_rfl, rfl⟩, rfl, rfl, rfl⟩
    have l1' : cgLoopT (twoOp .int) twoOpts.precon { matvecMax := m } (⟨.real, .fin (1/1000000)⟩ : TNum Fl (Vec ℝ))
      (m.getD (2 * 1)) twoInit = .ok s' := l1
    rw [l1', except_bind_ok' rfl]
    refine ⟨_, _, rfl, ?_, by rw [l2.x], by rw [l2.definite]⟩
    simp only [l2.residNorm]
    change le (Fl.fin 1) (Fl.fin (1/1000000)) = false
    rw [← Bool.not_eq_true, Fl.fin_le]; norm_num

/-- the operator `2` of the default dtype with the right-hand side `[1]` -/
example : cgSolveT (twoOp .real) twoOpts 1 {} ⟨.int, .fin 1⟩ {} = .error .typeError :=
  C73_cg_narrow_rhs ⟨(2:ℝ) • LinearMap.id, 1, none, 1/1000000, 1/1000000⟩ (spd_smul 2 two_pos) rfl .int .real (by decide) 1 {} {}
    (by simp) rfl (by decide) (by norm_num [CGProblem.threshold, startPoint]) (by norm_num)

/-- a complex operator with a real right-hand side -/
example : cgSolveT (twoOp .complex) twoOpts 1 {} ⟨.real, .fin 1⟩ {} = .error .typeError :=
  C73_cg_narrow_rhs ⟨(2:ℝ) • LinearMap.id, 1, none, 1/1000000, 1/1000000⟩ (spd_smul 2 two_pos) rfl .real .complex (by decide) 1 {} {}
    (by simp) rfl (by decide) (by norm_num [CGProblem.threshold, startPoint]) (by norm_num)

/-- the hypotheses of `C73_cg_integers`, `C73_cgs`, `C73_bicgstab`, `C73_tfqmr` are met -/
example : ∃ res calls x, cgSolveT (twoOp .int) twoOpts 1 {} ⟨.int, .fin 1⟩ {} = .ok (res, calls) ∧ res.x = some x ∧ x.kind = .int :=
  C73_cg_integers _ _ _ _ _ _ rfl rfl (by intro P h; cases h) (by simp)
example : ∃ res calls, cgsSolveT (twoOp .real) twoOpts 1 ⟨.real, .fin 1⟩ {} = .ok (res, calls) ∧ res.x.kind = .real := by
  obtain ⟨res, calls, h1, -, h3⟩ := C73_cgs (twoOp .real) twoOpts 1 ⟨.real, .fin 1⟩ {} (by decide) (by decide) (by intro P h; cases h)
  exact ⟨res, calls, h1, h3⟩
example : ∃ res calls, biSolveT (twoOp .real) twoOpts 1 ⟨.int, .fin 1⟩ {} = .ok (res, calls) ∧ res.x.kind = .real := by
  obtain ⟨res, calls, h1, -, h3⟩ := C73_bicgstab (twoOp .real) twoOpts 1 ⟨.int, .fin 1⟩ {} (by decide) (by intro P h; cases h)
  exact ⟨res, calls, h1, h3⟩
example : (tfSolveT (twoOp .real) twoOpts 1 ⟨.real, .fin 1⟩ {}).map (fun rc => (rc.1.vals, rc.2.map TArr.val)) =
    tfSolve (twoOp .real).fn twoOpts.vals 1 (.fin 1) {} :=
  C73_tfqmr (twoOp .real) twoOpts 1 ⟨.real, .fin 1⟩ {} (by decide) (by decide) (by intro P h; cases h)

/-- the hypotheses of `C73_cgs_raises`, `C73_tfqmr_raises` and `C73_bicgstab_precon` are met -/
example : ¬ ((twoOp .real).dtype.fits (startKind (twoOp .real) ⟨.int, .fin 1⟩ {}) ∧
    PreFits twoOpts.precon (startKind (twoOp .real) ⟨.int, .fin 1⟩ {})) := fun h => absurd h.1 (by decide)
example : ¬ PreFits (some (twoOp .complex)) ((twoOp .real).dtype.join .real) := fun h => absurd (h _ rfl) (by decide)

end Verif.Solver
