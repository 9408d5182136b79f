import Verif.Solver.Complex
import Verif.Solver.Exact
import Verif.Solver.CGLemmas
import Mathlib.Tactic.NormNum
import Mathlib.Tactic.Positivity

/-!
# C75: real systems stored in complex arrays

`toC` and `toCV` are the conversions of a real number and of an array of real numbers to complex ones.
-/

namespace Verif.Solver
open Scalar Vect

variable {ι : Type} [Fintype ι]

/-- a real number as a complex number -/
def toC : Fl → Cx
  | .fin a => .fin (a : ℂ)
  | .nan => .nan

/-- an array of real numbers as an array of complex numbers -/
def toCV : Vec (EuclideanSpace ℝ ι) → CVec ι
  | .fin v => .fin (WithLp.toLp 2 fun i => ((v i : ℝ) : ℂ))
  | .nan => .nan

section scalars

theorem toC_add (a b : Fl) : toC (a + b) = toC a + toC b := by cases a <;> cases b <;> simp [toC]
theorem toC_sub (a b : Fl) : toC (a - b) = toC a - toC b := by cases a <;> cases b <;> simp [toC]
theorem toC_mul (a b : Fl) : toC (a * b) = toC a * toC b := by cases a <;> cases b <;> simp [toC]
theorem toC_neg (a : Fl) : toC (-a) = -toC a := by cases a <;> simp [toC]
theorem toC_abs (a : Fl) : toC (Scalar.abs a) = Scalar.abs (toC a) := by cases a <;> simp [toC]
theorem toC_lit (q : ℚ) : toC (lit q) = lit q := by simp [toC]
theorem toC_div (a b : Fl) : toC (a / b) = toC a / toC b := by
  cases a with
  | nan => simp [toC]
  | fin a =>
    cases b with
    | nan => simp [toC]
    | fin b =>
      by_cases hb : b = 0
      · subst hb
        have : (Fl.fin a / Fl.fin 0 : Fl) = .nan := by change Fl.div _ _ = _; simp [Fl.div]
        rw [this]
        simp only [toC, Complex.ofReal_zero, Cx.div_zero]
      · rw [Fl.fin_div _ hb]
        simp only [toC]
        rw [Cx.fin_div _ (by exact_mod_cast hb), Complex.ofReal_div]
theorem toC_le (a b : Fl) : le (toC a) (toC b) = le a b := by
  cases a <;> cases b <;> simp only [toC, Cx.le_nan, Cx.nan_le, Fl.le_nan, Fl.nan_le]
  rw [Bool.eq_iff_iff, Cx.fin_le, Fl.fin_le]
theorem toC_lt (a b : Fl) : lt (toC a) (toC b) = lt a b := by
  cases a <;> cases b <;> simp only [toC, Cx.lt_nan, Cx.nan_lt, Fl.lt_nan, Fl.nan_lt]
  rw [Bool.eq_iff_iff, Cx.fin_lt, Fl.fin_lt]
theorem toC_gt (a b : Fl) : gt (toC a) (toC b) = gt a b := toC_lt b a
theorem toC_pymax (a b : Fl) : pymax (toC a) (toC b) = toC (pymax a b) := by
  unfold pymax; rw [toC_lt]; split <;> rfl
theorem toC_re (a : Fl) : toC (re a) = re (toC a) := by cases a <;> simp [toC]
/-- the imaginary part of a real number is zero -/
theorem toC_im {a : ℝ} : toC (im (Fl.fin a)) = im (toC (.fin a)) := by simp [toC]

/-- square roots agree for numbers that are not negative -/
theorem toC_sqrt {a : Fl} (h : ∀ x, a = .fin x → 0 ≤ x) : toC (sqrt a) = sqrt (toC a) := by
  cases a with
  | nan => rfl
  | fin a =>
    have := h a rfl
    rw [Fl.fin_sqrt this]
    simp only [toC]
    rw [Cx.sqrt_real this]

theorem notPositive_toC (a : Fl) : notPositive (toC a) = notPositive a := by
  cases a with
  | nan => simp [notPositive, gt, toC]
  | fin a =>
    unfold notPositive
    rw [← toC_re, ← toC_im, ← toC_abs, ← toC_lit, ← toC_lit, ← toC_mul, toC_gt, toC_le]

end scalars

section vectors

theorem toCV_add (u v : Vec (EuclideanSpace ℝ ι)) : toCV (u + v) = toCV u + toCV v := by
  cases u <;> cases v <;> simp only [toCV, Vec.nan_add, Vec.add_nan, CVec.nan_add, CVec.add_nan, Vec.fin_add, CVec.fin_add]
  congr 1; ext i; simp
theorem toCV_sub (u v : Vec (EuclideanSpace ℝ ι)) : toCV (u - v) = toCV u - toCV v := by
  cases u <;> cases v <;> simp only [toCV, Vec.nan_sub, Vec.sub_nan, CVec.nan_sub, CVec.sub_nan, Vec.fin_sub, CVec.fin_sub]
  congr 1; ext i; simp
theorem toCV_neg (u : Vec (EuclideanSpace ℝ ι)) : toCV (-u) = -toCV u := by
  cases u <;> simp only [toCV, Vec.neg_nan, CVec.neg_nan, Vec.fin_neg, CVec.fin_neg]
  congr 1; ext i; simp
theorem toCV_zeros : toCV (zeros : Vec (EuclideanSpace ℝ ι)) = zeros := by
  rw [Vec.zeros_eq, CVec.zeros_eq]; simp only [toCV]; congr 1
theorem toCV_smul (a : Fl) (v : Vec (EuclideanSpace ℝ ι)) : toCV (smul a v) = smul (toC a) (toCV v) := by
  cases a <;> cases v <;> simp only [toC, toCV, Vec.nan_smul, Vec.smul_nan, CVec.nan_smul, CVec.smul_nan, Vec.fin_smul, CVec.fin_smul]
  congr 1; ext i; simp
theorem toCV_dot (u v : Vec (EuclideanSpace ℝ ι)) : toC (dot u v) = dot (toCV u) (toCV v) := by
  cases u <;> cases v <;> simp only [toC, toCV, Vec.nan_dot, Vec.dot_nan, CVec.nan_dot, CVec.dot_nan, Vec.fin_dot, CVec.fin_dot]
  congr 1
  rw [PiLp.inner_apply]
  push_cast
  exact Finset.sum_congr rfl fun i _ => by simp [mul_comm]
theorem toCV_norm (u : Vec (EuclideanSpace ℝ ι)) : toC (norm u) = norm (toCV u) := by
  cases u <;> simp only [toC, toCV, Vec.norm_nan, CVec.norm_nan, Vec.fin_norm, CVec.fin_norm]
  congr 2
  rw [EuclideanSpace.norm_eq, EuclideanSpace.norm_eq]
  congr 1
  exact Finset.sum_congr rfl fun i _ => by simp

theorem toC_abs_sqrt_dot (v : Vec (EuclideanSpace ℝ ι)) : toC (Scalar.abs (sqrt (dot v v))) = Scalar.abs (sqrt (toC (dot v v))) := by
  rw [toC_abs, toC_sqrt]
  intro x hx
  cases v with
  | nan => simp at hx
  | fin v => rw [Vec.fin_dot] at hx; cases hx; exact real_inner_self_nonneg

end vectors

/-- the same preconditioner for complex arrays -/
def SameM (M : Option (Vec (EuclideanSpace ℝ ι) → Vec (EuclideanSpace ℝ ι))) (M' : Option (CVec ι → CVec ι)) : Prop :=
  match M, M' with
  | none, none => True
  | some f, some f' => ∀ v, f' (toCV v) = toCV (f v)
  | _, _ => False

omit [Fintype ι] in
theorem SameM.apply {M : Option (Vec (EuclideanSpace ℝ ι) → Vec (EuclideanSpace ℝ ι))} {M' : Option (CVec ι → CVec ι)} (h : SameM M M')
    (v : Vec (EuclideanSpace ℝ ι)) : applyPrecon M' (toCV v) = toCV (applyPrecon M v) := by
  cases M <;> cases M' <;> simp only [SameM] at h
  · rfl
  · exact h v

def KrylovOpts.toC (o : KrylovOpts Fl (Vec (EuclideanSpace ℝ ι))) (M' : Option (CVec ι → CVec ι)) : KrylovOpts Cx (CVec ι) :=
  { abstol := Verif.Solver.toC o.abstol, reltol := Verif.Solver.toC o.reltol, precon := M' }

def KrylovKw.toC (kw : KrylovKw (Vec (EuclideanSpace ℝ ι))) : KrylovKw (CVec ι) :=
  { guess := kw.guess.map toCV, matvecMax := kw.matvecMax }

def KrylovRes.toC (r : KrylovRes Fl (Vec (EuclideanSpace ℝ ι))) : KrylovRes Cx (CVec ι) :=
  { residNorm0 := Verif.Solver.toC r.residNorm0, converged := r.converged, nMatvec := r.nMatvec, x := toCV r.x,
    residNorm := Verif.Solver.toC r.residNorm }

def CGSLoop.toC (s : CGSLoop Fl (Vec (EuclideanSpace ℝ ι))) : CGSLoop Cx (CVec ι) :=
  { x := toCV s.x, r := toCV s.r, u := toCV s.u, p := toCV s.p, rho := Verif.Solver.toC s.rho,
    residNorm := Verif.Solver.toC s.residNorm, nMatvec := s.nMatvec, finished := s.finished, calls := s.calls.map toCV }

def BiLoop.toC (s : BiLoop Fl (Vec (EuclideanSpace ℝ ι))) : BiLoop Cx (CVec ι) :=
  { x := toCV s.x, r := toCV s.r, p := toCV s.p, v := toCV s.v, rho := Verif.Solver.toC s.rho, rhoNext := Verif.Solver.toC s.rhoNext,
    alpha := Verif.Solver.toC s.alpha, omega := Verif.Solver.toC s.omega,
    residNorm := Verif.Solver.toC s.residNorm, nMatvec := s.nMatvec, finished := s.finished, calls := s.calls.map toCV }

def TFLoop.toC (s : TFLoop Fl (Vec (EuclideanSpace ℝ ι))) : TFLoop Cx (CVec ι) :=
  { x := toCV s.x, y := toCV s.y, w := toCV s.w, d := toCV s.d, z := toCV s.z, u := toCV s.u, v := toCV s.v,
    rho := Verif.Solver.toC s.rho, theta := Verif.Solver.toC s.theta, eta := Verif.Solver.toC s.eta,
    residNorm := Verif.Solver.toC s.residNorm, k := s.k, m := s.m.map Verif.Solver.toC, nMatvec := s.nMatvec, finished := s.finished,
    calls := s.calls.map toCV }

def CGLoop.toC (s : CGLoop Fl (Vec (EuclideanSpace ℝ ι))) : CGLoop Cx (CVec ι) :=
  { x := toCV s.x, r := toCV s.r, p := toCV s.p, ry := Verif.Solver.toC s.ry, residNorm := Verif.Solver.toC s.residNorm,
    nMatvec := s.nMatvec, definite := s.definite, infiniteDescent := s.infiniteDescent.map toCV,
    residHistory := s.residHistory.map Verif.Solver.toC, resids := s.resids.map toCV, iterates := s.iterates.map toCV,
    calls := s.calls.map toCV }

def CGKw.toC (kw : CGKw (Vec (EuclideanSpace ℝ ι))) : CGKw (CVec ι) :=
  { guess := kw.guess.map toCV, matvecMax := kw.matvecMax, checkSymmetric := kw.checkSymmetric, symOK := kw.symOK,
    checkCurvature := kw.checkCurvature, storeResids := kw.storeResids, storeIterates := kw.storeIterates }

def CGObj.toC (r : CGObj Fl (Vec (EuclideanSpace ℝ ι))) : CGObj Cx (CVec ι) :=
  { residHistory := r.residHistory.map Verif.Solver.toC, resids := r.resids.map toCV, iterates := r.iterates.map toCV,
    infiniteDescent := r.infiniteDescent.map toCV, converged := r.converged, definite := r.definite, nMatvec := r.nMatvec,
    x := r.x.map toCV, residNorm := r.residNorm.map Verif.Solver.toC, residNorm0 := r.residNorm0.map Verif.Solver.toC }

variable {op : Vec (EuclideanSpace ℝ ι) → Vec (EuclideanSpace ℝ ι)} {op' : CVec ι → CVec ι}
  {M : Option (Vec (EuclideanSpace ℝ ι) → Vec (EuclideanSpace ℝ ι))} {M' : Option (CVec ι → CVec ι)}

theorem cgsStep_toC (hop : ∀ v, op' (toCV v) = toCV (op v)) (hM : SameM M M') (t : Fl) (mm : Nat) (r0 : Vec (EuclideanSpace ℝ ι))
    (s : CGSLoop Fl (Vec (EuclideanSpace ℝ ι))) :
    cgsStep op' M' (toC t) mm (toCV r0) s.toC = (cgsStep op M t mm r0 s).toC := by
  unfold cgsStep
  simp only [apply_ite CGSLoop.toC]
  simp only [CGSLoop.toC, List.map_append, List.map_cons, List.map_nil, hM.apply, hop, ← toCV_dot, ← toC_div, ← toCV_smul, ← toCV_sub, ← toCV_add, ← toCV_norm, toC_le]
  rfl

theorem cgs_real (hop : ∀ v, op' (toCV v) = toCV (op v)) (o : KrylovOpts Fl (Vec (EuclideanSpace ℝ ι))) (hM : SameM o.precon M') (n : Nat)
    (rhs : Vec (EuclideanSpace ℝ ι)) (kw : KrylovKw (Vec (EuclideanSpace ℝ ι))) :
    cgsSolve op' (o.toC M') n (toCV rhs) kw.toC =
      ((cgsSolve op o n rhs kw).1.toC, (cgsSolve op o n rhs kw).2.map toCV) := by
  have loop : ∀ t mm r0 s, cgsLoop op' M' (toC t) mm (toCV r0) s.toC = (cgsLoop op o.precon t mm r0 s).toC := by
    intro t mm r0 s
    exact (whileLoop_sim (fun (s : CGSLoop Fl (Vec (EuclideanSpace ℝ ι))) s' => s' = s.toC) (fun _ _ h => by rw [h]; rfl)
      (fun s s' h _ => by rw [h]; exact cgsStep_toC hop hM t mm r0 s) s _ rfl)
  unfold cgsSolve
  cases hg : kw.guess with
  | none =>
    simp only [KrylovKw.toC, hg, Option.map_none, Option.getD_none, KrylovOpts.toC, ← toC_abs_sqrt_dot, ← toCV_dot, ← toC_mul, toC_pymax,
      toC_le]
    rw [← toCV_zeros]
    have := loop (pymax o.abstol (o.reltol * Scalar.abs (sqrt (dot rhs rhs)))) (kw.matvecMax.getD (2 * n)) rhs
      { x := zeros, r := rhs, u := rhs, p := rhs, rho := dot rhs rhs, residNorm := Scalar.abs (sqrt (dot rhs rhs)), nMatvec := 0,
        finished := le (Scalar.abs (sqrt (dot rhs rhs))) (pymax o.abstol (o.reltol * Scalar.abs (sqrt (dot rhs rhs)))) ||
          decide (0 ≥ kw.matvecMax.getD (2 * n)), calls := [] }
    simp only [CGSLoop.toC, List.map_nil] at this
    rw [this]
    simp only [toC_le, KrylovRes.toC]
  | some g =>
    simp only [KrylovKw.toC, hg, Option.map_some, Option.getD_some, KrylovOpts.toC, hop, ← toCV_sub, ← toC_abs_sqrt_dot, ← toCV_dot,
      ← toC_mul, toC_pymax, toC_le]
    have := loop (pymax o.abstol (o.reltol * Scalar.abs (sqrt (dot (rhs - op g) (rhs - op g))))) (kw.matvecMax.getD (2 * n)) (rhs - op g)
      { x := g, r := rhs - op g, u := rhs - op g, p := rhs - op g, rho := dot (rhs - op g) (rhs - op g),
        residNorm := Scalar.abs (sqrt (dot (rhs - op g) (rhs - op g))), nMatvec := 0,
        finished := le (Scalar.abs (sqrt (dot (rhs - op g) (rhs - op g))))
          (pymax o.abstol (o.reltol * Scalar.abs (sqrt (dot (rhs - op g) (rhs - op g))))) ||
          decide (0 ≥ kw.matvecMax.getD (2 * n)), calls := [g] }
    simp only [CGSLoop.toC, List.map_cons, List.map_nil] at this
    rw [this]
    simp only [toC_le, KrylovRes.toC]

theorem biStep_toC (hop : ∀ v, op' (toCV v) = toCV (op v)) (hM : SameM M M') (t : Fl) (mm : Nat) (r0 : Vec (EuclideanSpace ℝ ι))
    (s : BiLoop Fl (Vec (EuclideanSpace ℝ ι))) :
    biStep op' M' (toC t) mm (toCV r0) s.toC = (biStep op M t mm r0 s).toC := by
  unfold biStep
  simp only [apply_ite BiLoop.toC]
  simp only [BiLoop.toC, List.map_append, List.map_cons, List.map_nil, hM.apply, hop, ← toCV_dot, ← toC_div, ← toC_mul, ← toC_neg,
    ← toCV_smul, ← toCV_sub, ← toCV_add, ← toCV_norm, toC_le]
  rfl

theorem bi_real (hop : ∀ v, op' (toCV v) = toCV (op v)) (o : KrylovOpts Fl (Vec (EuclideanSpace ℝ ι))) (hM : SameM o.precon M') (n : Nat)
    (rhs : Vec (EuclideanSpace ℝ ι)) (kw : KrylovKw (Vec (EuclideanSpace ℝ ι))) :
    biSolve op' (o.toC M') n (toCV rhs) kw.toC =
      ((biSolve op o n rhs kw).1.toC, (biSolve op o n rhs kw).2.map toCV) := by
  have loop : ∀ t mm r0 s, biLoop op' M' (toC t) mm (toCV r0) s.toC = (biLoop op o.precon t mm r0 s).toC := by
    intro t mm r0 s
    exact (whileLoop_sim (fun (s : BiLoop Fl (Vec (EuclideanSpace ℝ ι))) s' => s' = s.toC) (fun _ _ h => by rw [h]; rfl)
      (fun s s' h _ => by rw [h]; exact biStep_toC hop hM t mm r0 s) s _ rfl)
  have main : ∀ (r0 x : Vec (EuclideanSpace ℝ ι)) (nm mm : Nat) (c : List (Vec (EuclideanSpace ℝ ι))) (t : Fl) (fin : Bool),
      biLoop op' M' (toC t) mm (toCV r0)
        { x := toCV x, r := toCV r0, p := toCV zeros, v := toCV zeros, rho := toC (lit 1), rhoNext := toC (dot r0 r0),
          alpha := toC (lit 1), omega := toC (lit 1), residNorm := toC (Scalar.abs (sqrt (dot r0 r0))), nMatvec := nm, finished := fin,
          calls := c.map toCV } =
      (biLoop op o.precon t mm r0
        { x := x, r := r0, p := zeros, v := zeros, rho := lit 1, rhoNext := dot r0 r0, alpha := lit 1, omega := lit 1,
          residNorm := Scalar.abs (sqrt (dot r0 r0)), nMatvec := nm, finished := fin, calls := c }).toC :=
    fun r0 x nm mm c t fin => loop t mm r0
      { x := x, r := r0, p := zeros, v := zeros, rho := lit 1, rhoNext := dot r0 r0, alpha := lit 1, omega := lit 1,
        residNorm := Scalar.abs (sqrt (dot r0 r0)), nMatvec := nm, finished := fin, calls := c }
  unfold biSolve
  rw [← toC_lit, ← toCV_zeros]
  cases hg : kw.guess with
  | none =>
    simp only [KrylovKw.toC, hg, Option.map_none, Option.getD_none, KrylovOpts.toC, ← toC_abs_sqrt_dot, ← toCV_dot, ← toC_mul, toC_pymax,
      toC_le]
    rw [show ([] : List (CVec ι)) = ([] : List (Vec (EuclideanSpace ℝ ι))).map toCV from rfl, main]
    simp only [toC_le, KrylovRes.toC, BiLoop.toC]
  | some g =>
    simp only [KrylovKw.toC, hg, Option.map_some, Option.getD_some, KrylovOpts.toC, hop, ← toCV_sub, ← toC_abs_sqrt_dot, ← toCV_dot,
      ← toC_mul, toC_pymax, toC_le]
    rw [show ([toCV g] : List (CVec ι)) = [g].map toCV from rfl, main]
    simp only [toC_le, KrylovRes.toC, BiLoop.toC]

theorem sq_nonneg_fl (θ : Fl) : ∀ x, lit 1 + θ * θ = Fl.fin x → 0 ≤ x := by
  intro x h
  cases θ with
  | nan => simp at h
  | fin a =>
    simp only [Fl.lit_eq, Fl.fin_mul, Fl.fin_add, Rat.cast_one, Fl.fin.injEq] at h
    rw [← h]; exact add_nonneg zero_le_one (mul_self_nonneg a)

theorem tfPass_toC (a : Fl) (s : TFLoop Fl (Vec (EuclideanSpace ℝ ι))) : tfPass (toC a) s.toC = (tfPass a s).toC := by
  unfold tfPass
  simp only [TFLoop.toC, ← toCV_smul, ← toCV_sub, ← toCV_norm, ← toC_div, ← toC_mul, ← toCV_add]
  rw [← toC_lit, ← toC_add, ← toC_sqrt (sq_nonneg_fl _)]
  simp only [← toC_div, ← toC_mul, ← toCV_smul, ← toCV_add]

/-- the counter `m` is a natural number -/
def NatM (m : Fl) : Prop := ∃ k : ℕ, m = .fin k

theorem NatM.sqrt {m : Fl} (h : NatM m) : toC (Scalar.sqrt (m + lit 1)) = Scalar.sqrt (toC m + lit 1) := by
  rw [← toC_lit, ← toC_add, toC_sqrt]
  obtain ⟨k, rfl⟩ := h
  intro x hx
  simp at hx; rw [← hx]; positivity

theorem tfTest_toC (t : Fl) (mm : Nat) {m : Fl} (hm : NatM m) (s : TFLoop Fl (Vec (EuclideanSpace ℝ ι))) :
    tfTest (toC t) mm (toC m) s.toC = tfTest t mm m s := by
  unfold tfTest
  rw [← hm.sqrt]
  simp only [TFLoop.toC, ← toC_mul, toC_lt]
  rfl

theorem tfMid_toC (hop : ∀ v, op' (toCV v) = toCV (op v)) (hM : SameM M M') (a m : Fl) (s : TFLoop Fl (Vec (EuclideanSpace ℝ ι))) :
    tfMid op' M' (toC a) (toC m) s.toC = (tfMid op M a m s).toC := by
  unfold tfMid
  simp only [TFLoop.toC, ← toCV_smul, ← toCV_sub, hM.apply, hop, List.map_append, List.map_cons, List.map_nil, Option.map_some]

theorem tfFinal_toC (hop : ∀ v, op' (toCV v) = toCV (op v)) (hM : SameM M M') (r0 : Vec (EuclideanSpace ℝ ι))
    (s : TFLoop Fl (Vec (EuclideanSpace ℝ ι))) : tfFinal op' M' (toCV r0) s.toC = (tfFinal op M r0 s).toC := by
  unfold tfFinal
  simp only [TFLoop.toC, ← toCV_dot, ← toC_div, ← toCV_smul, ← toCV_add, hM.apply, hop, List.map_append, List.map_cons, List.map_nil]

theorem tfStep_toC (hop : ∀ v, op' (toCV v) = toCV (op v)) (hM : SameM M M') (t : Fl) (mm : Nat) (r0 : Vec (EuclideanSpace ℝ ι))
    (s : TFLoop Fl (Vec (EuclideanSpace ℝ ι))) :
    tfStep op' M' (toC t) mm (toCV r0) s.toC = (tfStep op M t mm r0 s).toC ∧ ∀ m, (tfStep op M t mm r0 s).m = some m → NatM m := by
  have hm1 : (lit 2 * lit ((s.k + 1 : Nat) : ℚ) - lit 1 : Fl) = .fin ((2 * s.k + 1 : ℕ) : ℝ) := by
    simp only [Fl.lit_eq, Fl.fin_mul, Fl.fin_sub]; congr 1; push_cast; ring
  have hm2 : (lit 2 * lit ((s.k + 1 : Nat) : ℚ) - lit 1 + lit 1 : Fl) = .fin ((2 * s.k + 2 : ℕ) : ℝ) := by
    rw [hm1]; simp only [Fl.lit_eq, Fl.fin_add]; congr 1; push_cast; ring
  have n1 : NatM (lit 2 * lit ((s.k + 1 : Nat) : ℚ) - lit 1) := ⟨_, hm1⟩
  have n2 : NatM (lit 2 * lit ((s.k + 1 : Nat) : ℚ) - lit 1 + lit 1) := ⟨_, hm2⟩
  have hk : s.toC.k = s.k := rfl
  have ha : s.toC.rho / dot (toCV r0) s.toC.v = toC (s.rho / dot r0 s.v) := by
    simp only [TFLoop.toC, ← toCV_dot, ← toC_div]
  have hl : (lit 2 * lit ((s.k + 1 : Nat) : ℚ) - lit 1 : Cx) = toC (lit 2 * lit ((s.k + 1 : Nat) : ℚ) - lit 1) := by
    rw [toC_sub, toC_mul, toC_lit, toC_lit, toC_lit]
  have hl2 : (toC (lit 2 * lit ((s.k + 1 : Nat) : ℚ) - lit 1) + lit 1 : Cx) = toC (lit 2 * lit ((s.k + 1 : Nat) : ℚ) - lit 1 + lit 1) := by
    rw [toC_add, toC_lit]
  unfold tfStep
  simp only [ha, hk, hl, hl2]
  generalize (lit 2 * lit ((s.k + 1 : Nat) : ℚ) - lit 1 : Fl) = m at *
  have e1 : ({ tfPass (toC (s.rho / dot r0 s.v)) s.toC with k := s.k + 1, m := some (toC m) } : TFLoop Cx (CVec ι)) =
      ({ tfPass (s.rho / dot r0 s.v) s with k := s.k + 1, m := some m } : TFLoop Fl (Vec (EuclideanSpace ℝ ι))).toC := by
    rw [tfPass_toC]; rfl
  rw [e1, tfTest_toC t mm n1, tfMid_toC hop hM]
  simp only [tfPass_toC]
  rw [tfTest_toC t mm n2]
  split
  · exact ⟨rfl, fun m' h => by cases h; exact n1⟩
  · split
    · exact ⟨rfl, fun m' h => by cases h; exact n2⟩
    · exact ⟨tfFinal_toC hop hM r0 _, fun m' h => by cases h; exact n2⟩

theorem tf_real (hop : ∀ v, op' (toCV v) = toCV (op v)) (o : KrylovOpts Fl (Vec (EuclideanSpace ℝ ι))) (hM : SameM o.precon M') (n : Nat)
    (rhs : Vec (EuclideanSpace ℝ ι)) (kw : KrylovKw (Vec (EuclideanSpace ℝ ι))) :
    tfSolve op' (o.toC M') n (toCV rhs) kw.toC = (tfSolve op o n rhs kw).map fun p => (p.1.toC, p.2.map toCV) := by
  have loop : ∀ t mm r0 (s : TFLoop Fl (Vec (EuclideanSpace ℝ ι))), s.m = none →
      tfLoop op' M' (toC t) mm (toCV r0) s.toC = (tfLoop op o.precon t mm r0 s).toC ∧
      ∀ m, (tfLoop op o.precon t mm r0 s).m = some m → NatM m := by
    intro t mm r0 s hs
    exact whileLoop_sim (fun (s : TFLoop Fl (Vec (EuclideanSpace ℝ ι))) s' => s' = s.toC ∧ ∀ m, s.m = some m → NatM m)
      (fun _ _ h => by rw [h.1]; rfl) (fun s s' h _ => by rw [h.1]; exact tfStep_toC hop hM t mm r0 s) s _
      ⟨rfl, fun m h => by rw [hs] at h; cases h⟩
  have result : ∀ (t r : Fl) (s : TFLoop Fl (Vec (EuclideanSpace ℝ ι))), (∀ m, s.m = some m → NatM m) →
      tfResult (toC t) (toC r) s.toC = (tfResult t r s).map fun p => (p.1.toC, p.2.map toCV) := by
    intro t r s hs
    unfold tfResult
    cases hm : s.m with
    | none => simp only [TFLoop.toC, hm, Option.map_none]; rfl
    | some m =>
      have : s.toC.m = some (toC m) := by simp [TFLoop.toC, hm]
      simp only [this]
      rw [← (hs m hm).sqrt]
      simp only [TFLoop.toC, ← toC_mul, toC_lt, Except.map, KrylovRes.toC]
  have main : ∀ (t r : Fl) (mm : Nat) (r0 : Vec (EuclideanSpace ℝ ι)) (s : TFLoop Fl (Vec (EuclideanSpace ℝ ι))) (s' : TFLoop Cx (CVec ι)),
      s.m = none → s' = s.toC → tfResult (toC t) (toC r) (tfLoop op' M' (toC t) mm (toCV r0) s') =
        (tfResult t r (tfLoop op o.precon t mm r0 s)).map fun p => (p.1.toC, p.2.map toCV) := by
    intro t r mm r0 s s' hs h
    rw [h, (loop t mm r0 s hs).1, result _ _ _ (loop t mm r0 s hs).2]
  unfold tfSolve
  cases hg : kw.guess with
  | none =>
    simp only [KrylovKw.toC, hg, Option.map_none, Option.getD_none, KrylovOpts.toC, ← toC_abs_sqrt_dot, ← toCV_dot, ← toC_mul, toC_pymax,
      toC_le, hM.apply, hop]
    apply main
    · split <;> rfl
    · split <;> simp only [TFLoop.toC, toC_lit, toCV_zeros, List.map_nil, Option.map_none, List.map_append, List.map_cons]
  | some g =>
    simp only [KrylovKw.toC, hg, Option.map_some, Option.getD_some, KrylovOpts.toC, hop, ← toCV_sub, ← toC_abs_sqrt_dot, ← toCV_dot,
      ← toC_mul, toC_pymax, toC_le, hM.apply]
    apply main
    · split <;> rfl
    · split <;> simp only [TFLoop.toC, toC_lit, toCV_zeros, List.map_nil, Option.map_none, List.map_append, List.map_cons]

theorem cgStep_toC (hop : ∀ v, op' (toCV v) = toCV (op v)) (hM : SameM M M') (hM0 : ∀ v x, dot v (applyPrecon M v) = Fl.fin x → 0 ≤ x)
    (kw : CGKw (Vec (EuclideanSpace ℝ ι))) (s : CGLoop Fl (Vec (EuclideanSpace ℝ ι))) :
    cgStep op' M' kw.toC s.toC = (cgStep op M kw s).toC := by
  unfold cgStep
  simp only [apply_ite CGLoop.toC]
  simp only [CGLoop.toC, CGKw.toC, List.map_append, List.map_cons, List.map_nil, hM.apply, hop, ← toCV_dot, notPositive_toC, ← toC_div,
    ← toCV_smul, ← toCV_sub, ← toCV_add, Option.map_some, ← toC_abs, ← toC_sqrt (hM0 _)]
  simp only [apply_ite (List.map toCV), List.map_append, List.map_cons, List.map_nil]

theorem cgInit_toC (hop : ∀ v, op' (toCV v) = toCV (op v)) (o : KrylovOpts Fl (Vec (EuclideanSpace ℝ ι))) (hM : SameM o.precon M')
    (hM0 : ∀ v x, dot v (applyPrecon o.precon v) = Fl.fin x → 0 ≤ x)
    (kw : CGKw (Vec (EuclideanSpace ℝ ι))) (self : CGObj Fl (Vec (EuclideanSpace ℝ ι))) (rhs : Vec (EuclideanSpace ℝ ι)) :
    cgInit op' (o.toC M') kw.toC self.toC (toCV rhs) = ((cgInit op o kw self rhs).1.toC, toC (cgInit op o kw self rhs).2) := by
  unfold cgInit
  cases hg : kw.guess with
  | none =>
    simp only [CGKw.toC, CGObj.toC, hg, Option.map_none, Option.getD_none, KrylovOpts.toC, hM.apply, ← toCV_neg, ← toCV_dot,
      ← toC_sqrt (hM0 _), ← toC_abs, ← toC_mul, toC_pymax]
    simp only [CGLoop.toC, apply_ite (List.map toCV), List.map_append, List.map_cons, List.map_nil, toCV_zeros]
  | some g =>
    simp only [CGKw.toC, CGObj.toC, hg, Option.map_some, Option.getD_some, KrylovOpts.toC, hM.apply, hop, ← toCV_neg, ← toCV_add, ← toCV_dot,
      ← toC_sqrt (hM0 _), ← toC_abs, ← toC_mul, toC_pymax]
    simp only [CGLoop.toC, apply_ite (List.map toCV), List.map_append, List.map_cons, List.map_nil]

theorem cgLoop_toC (hop : ∀ v, op' (toCV v) = toCV (op v)) (hM : SameM M M') (hM0 : ∀ v x, dot v (applyPrecon M v) = Fl.fin x → 0 ≤ x)
    (kw : CGKw (Vec (EuclideanSpace ℝ ι))) (t : Fl) (mm : Nat) (s : CGLoop Fl (Vec (EuclideanSpace ℝ ι))) :
    cgLoop op' M' kw.toC (toC t) mm s.toC = (cgLoop op M kw t mm s).toC := by
  have hc : cgCont (toC t) mm s.toC = cgCont t mm s := by
    simp only [cgCont, CGLoop.toC, toC_gt]; rfl
  rw [cgLoop.eq_1 op, cgLoop.eq_1 op']
  by_cases h : cgCont t mm s = true
  · rw [dif_pos h, dif_pos (hc.trans h), cgStep_toC hop hM hM0]
    exact cgLoop_toC hop hM hM0 kw t mm _
  · rw [dif_neg h, dif_neg (hc ▸ h)]
termination_by mm - s.nMatvec
decreasing_by
  simp only [cgCont, Bool.and_eq_true, decide_eq_true_eq] at h
  rw [cgStep_nMatvec]; omega

theorem cg_real (hop : ∀ v, op' (toCV v) = toCV (op v)) (o : KrylovOpts Fl (Vec (EuclideanSpace ℝ ι))) (hM : SameM o.precon M')
    (hM0 : ∀ v x, dot v (applyPrecon o.precon v) = Fl.fin x → 0 ≤ x) (n : Nat) (self : CGObj Fl (Vec (EuclideanSpace ℝ ι)))
    (rhs : Vec (EuclideanSpace ℝ ι)) (kw : CGKw (Vec (EuclideanSpace ℝ ι))) :
    cgSolve op' (o.toC M') n self.toC (toCV rhs) kw.toC =
      ((cgSolve op o n self rhs kw).1.toC, (cgSolve op o n self rhs kw).2.map toCV) := by
  unfold cgSolve
  by_cases h : (kw.checkSymmetric && !kw.symOK) = true
  · rw [if_pos h, if_pos (show (kw.toC.checkSymmetric && !kw.toC.symOK) = true from h)]; rfl
  · rw [if_neg h, if_neg (show ¬ (kw.toC.checkSymmetric && !kw.toC.symOK) = true from h)]
    rw [cgInit_toC hop o hM hM0]
    simp only [show (o.toC M').precon = M' from rfl, show kw.toC.matvecMax = kw.matvecMax from rfl]
    rw [cgLoop_toC hop hM hM0]
    simp only [CGLoop.toC, CGObj.toC, toC_le, Option.map_some]

/-- **C75 (real systems).** For every real operator `op`, preconditioner, options, right-hand side, guess and keywords, converted
to complex arrays (`op'` and `M'` act on converted arrays as `op` and the preconditioner do): CGS and Bi-CGSTAB leave the converted
results of the real run in the solver object and perform the converted products; TFQMR does too, or raises the same exception; so does CG,
with its histories, if the preconditioner is positive semidefinite. -/
theorem C75_real (op : Vec (EuclideanSpace ℝ ι) → Vec (EuclideanSpace ℝ ι)) (op' : CVec ι → CVec ι) (hop : ∀ v, op' (toCV v) = toCV (op v))
    (o : KrylovOpts Fl (Vec (EuclideanSpace ℝ ι))) (M' : Option (CVec ι → CVec ι)) (hM : SameM o.precon M') (n : Nat)
    (rhs : Vec (EuclideanSpace ℝ ι)) (kw : KrylovKw (Vec (EuclideanSpace ℝ ι))) :
    cgsSolve op' (o.toC M') n (toCV rhs) kw.toC = ((cgsSolve op o n rhs kw).1.toC, (cgsSolve op o n rhs kw).2.map toCV) ∧
    biSolve op' (o.toC M') n (toCV rhs) kw.toC = ((biSolve op o n rhs kw).1.toC, (biSolve op o n rhs kw).2.map toCV) ∧
    tfSolve op' (o.toC M') n (toCV rhs) kw.toC = (tfSolve op o n rhs kw).map (fun p => (p.1.toC, p.2.map toCV)) ∧
    ∀ (self : CGObj Fl (Vec (EuclideanSpace ℝ ι))) (kc : CGKw (Vec (EuclideanSpace ℝ ι))),
      (∀ v x, dot v (applyPrecon o.precon v) = Fl.fin x → 0 ≤ x) →
      cgSolve op' (o.toC M') n self.toC (toCV rhs) kc.toC =
        ((cgSolve op o n self rhs kc).1.toC, (cgSolve op o n self rhs kc).2.map toCV) :=
  ⟨cgs_real hop o hM n rhs kw, bi_real hop o hM n rhs kw, tf_real hop o hM n rhs kw,
    fun self kc hM0 => cg_real hop o hM hM0 n self rhs kc⟩

/-- The hypotheses are met by the matrix `A` of a real linear map stored as a complex matrix, here `diag(2, 3)`, without preconditioner. -/
example : ∃ (op : Vec (EuclideanSpace ℝ (Fin 2)) → Vec (EuclideanSpace ℝ (Fin 2))) (op' : CVec (Fin 2) → CVec (Fin 2)),
    (∀ v, op' (toCV v) = toCV (op v)) ∧ SameM (ι := Fin 2) none none ∧ op (.fin !₂[1, 1]) = .fin !₂[2, 3] ∧
    op' (.fin !₂[1, Complex.I]) = .fin !₂[2, 3 * Complex.I] ∧
    ∀ (v : Vec (EuclideanSpace ℝ (Fin 2))) x, dot v (applyPrecon none v) = Fl.fin x → 0 ≤ x := by
  refine ⟨Vec.op fun v => !₂[2 * v 0, 3 * v 1], CVec.op fun v => !₂[2 * v 0, 3 * v 1], ?_, trivial, ?_, ?_, ?_⟩
  · intro v
    cases v with
    | nan => rfl
    | fin v => simp only [toCV, CVec.op_fin, Vec.op_fin]; congr 1; ext i; fin_cases i <;> simp
  · simp
  · simp
  · intro v x h
    cases v with
    | nan => simp [applyPrecon] at h
    | fin v => rw [applyPrecon, Vec.fin_dot] at h; cases h; exact real_inner_self_nonneg

end Verif.Solver
