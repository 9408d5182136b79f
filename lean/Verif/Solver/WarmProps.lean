import Verif.Solver.Warm

/-!
# C77: starting from a guess, theorems
-/

namespace Verif.Solver
open Scalar Vect

variable {E : Type} [NormedAddCommGroup E] [InnerProductSpace ℝ E]

/-- **Specification.** `r` are the results `r'` of the solve for the correction, with the guess added; the `k` products for the initial
residual are counted. -/
structure Corrects (g : Vec E) (k : Nat) (r r' : KrylovRes Fl (Vec E)) : Prop where
  x : r.x = g + r'.x
  residNorm : r.residNorm = r'.residNorm
  residNorm0 : r.residNorm0 = r'.residNorm0
  converged : r.converged = r'.converged
  nMatvec : r.nMatvec = r'.nMatvec + k

/-- **C77 (CGS).** Exact arithmetic: for every operator, options, right-hand side, guess and limit, CGS from the guess `g` returns `g`
plus what it returns for the right-hand side `b - A g` without a guess, and the same norms, verdict and count; the products are those of
the other run after the one with `g`. -/
theorem C77_cgs (op : Vec E → Vec E) (o : KrylovOpts Fl (Vec E)) (n : Nat) (b g : Vec E) (mm : Option Nat) :
    let run := cgsSolve op o n b { guess := some g, matvecMax := mm }
    let run' := cgsSolve op o n (b - op g) { guess := none, matvecMax := mm }
    Corrects g 0 run.1 run'.1 ∧ run.2 = g :: run'.2 := by
  unfold cgsSolve
  simp only [Option.getD_some, Option.getD_none]
  generalize b - op g = r
  generalize (mm.getD (2 * n)) = mm
  generalize Scalar.abs (sqrt (dot r r)) = rn
  generalize pymax o.abstol (o.reltol * rn) = t
  have := cgsLoop_warm (op := op) (M := o.precon) g t mm r
    { x := zeros, r := r, u := r, p := r, rho := dot r r, residNorm := rn, nMatvec := 0, finished := le rn t || decide (0 ≥ mm), calls := [] }
  simp only [CGSLoop.warm, Vec.shift_zeros] at this
  rw [this]
  exact ⟨⟨rfl, rfl, rfl, rfl, rfl⟩, rfl⟩

/-- **C77 (Bi-CGSTAB).** As `C77_cgs`; the product with the guess is counted and charged to the limit. -/
theorem C77_bicgstab (op : Vec E → Vec E) (o : KrylovOpts Fl (Vec E)) (n : Nat) (b g : Vec E) (mm : Nat) :
    let run := biSolve op o n b { guess := some g, matvecMax := some (mm + 1) }
    let run' := biSolve op o n (b - op g) { guess := none, matvecMax := some mm }
    Corrects g 1 run.1 run'.1 ∧ run.2 = g :: run'.2 := by
  unfold biSolve
  simp only [Option.getD_some, Option.getD_none]
  generalize b - op g = r
  generalize Scalar.abs (sqrt (dot r r)) = rn
  generalize pymax o.abstol (o.reltol * rn) = t
  have e : decide (1 ≥ mm + 1) = decide (0 ≥ mm) := decide_eq_decide.2 (by omega)
  have := biLoop_warm (op := op) (M := o.precon) g t mm r
    { x := zeros, r := r, p := zeros, v := zeros, rho := lit 1, rhoNext := dot r r, alpha := lit 1, omega := lit 1,
      residNorm := rn, nMatvec := 0, finished := le rn t || decide (0 ≥ mm), calls := [] }
  simp only [BiLoop.warm, Vec.shift_zeros, Nat.zero_add] at this
  rw [e, this]
  exact ⟨⟨rfl, rfl, rfl, rfl, rfl⟩, rfl⟩

/-- **C77 (TFQMR).** As `C77_cgs`; if one of the solves raises, the other one raises the same error. -/
theorem C77_tfqmr (op : Vec E → Vec E) (o : KrylovOpts Fl (Vec E)) (n : Nat) (b g : Vec E) (mm : Option Nat) :
    match tfSolve op o n b { guess := some g, matvecMax := mm }, tfSolve op o n (b - op g) { guess := none, matvecMax := mm } with
    | .ok run, .ok run' => Corrects g 0 run.1 run'.1 ∧ run.2 = g :: run'.2
    | .error e, .error e' => e = e'
    | _, _ => False := by
  unfold tfSolve
  simp only [Option.getD_some, Option.getD_none]
  generalize b - op g = r
  generalize (mm.getD (2 * n)) = mm
  generalize Scalar.abs (sqrt (dot r r)) = rn
  generalize pymax o.abstol (o.reltol * rn) = t
  generalize (le rn t || decide (0 ≥ mm)) = f
  have fin : ∀ s : TFLoop Fl (Vec E),
      match tfResult t rn (s.warm g), tfResult t rn s with
      | .ok run, .ok run' => Corrects g 0 run.1 run'.1 ∧ run.2 = g :: run'.2
      | .error e, .error e' => e = e'
      | _, _ => False := by
    intro s
    unfold tfResult
    have : (s.warm g).m = s.m := rfl
    rw [this]
    cases s.m with
    | none => rfl
    | some m => exact ⟨⟨rfl, rfl, rfl, rfl, rfl⟩, rfl⟩
  cases f with
  | true =>
    have := tfLoop_warm (op := op) (M := o.precon) g t mm r
      { x := zeros, y := zeros, w := zeros, d := zeros, z := zeros, u := zeros, v := zeros, rho := dot r r, theta := lit 0,
        eta := lit 0, residNorm := rn, k := 0, m := none, nMatvec := 0, finished := true, calls := [] }
    simp only [if_true]
    simp only [TFLoop.warm, Vec.shift_zeros] at this
    rw [this]
    exact fin _
  | false =>
    have := tfLoop_warm (op := op) (M := o.precon) g t mm r
      { x := zeros, y := r, w := r, d := zeros, z := applyPrecon o.precon r, u := op (applyPrecon o.precon r),
        v := op (applyPrecon o.precon r), rho := dot r r, theta := lit 0, eta := lit 0,
        residNorm := rn, k := 0, m := none, nMatvec := 1, finished := false, calls := [applyPrecon o.precon r] }
    simp only [Bool.false_eq_true, if_false, List.cons_append, List.nil_append]
    simp only [TFLoop.warm, Vec.shift_zeros] at this
    rw [this]
    exact fin _

/-- **C77 (CG).** As `C77_cgs`, for every combination of keywords and a solver that has not been used; the product with the guess is
counted and charged to the limit; histories of residuals, verdict on definiteness and direction of infinite descent are the same, the
stored iterates are those of the other run plus the guess. -/
theorem C77_cg (op : Vec E → Vec E) (o : KrylovOpts Fl (Vec E)) (n : Nat) (b g : Vec E) (kw : CGKw (Vec E)) (mm : Nat)
    (hs : kw.checkSymmetric = true → kw.symOK = true) :
    let run := cgSolve op o n {} b { kw with guess := some g, matvecMax := some (mm + 1) }
    let run' := cgSolve op o n {} (b - op g) { kw with guess := none, matvecMax := some mm }
    run.1.x = run'.1.x.map (g + ·) ∧ run.1.residNorm = run'.1.residNorm ∧ run.1.residNorm0 = run'.1.residNorm0 ∧
    run.1.converged = run'.1.converged ∧ run.1.definite = run'.1.definite ∧ run.1.nMatvec = run'.1.nMatvec + 1 ∧
    run.1.infiniteDescent = run'.1.infiniteDescent ∧ run.1.residHistory = run'.1.residHistory ∧ run.1.resids = run'.1.resids ∧
    run.1.iterates = run'.1.iterates.map (g + ·) ∧ run.2 = g :: run'.2 := by
  have hf : (kw.checkSymmetric && !kw.symOK) = false := by
    cases h : kw.checkSymmetric with
    | false => rfl
    | true => simp [hs h]
  unfold cgSolve cgInit
  simp only [hf, Bool.false_eq_true, if_false, Option.getD_some, Option.getD_none, Vec.shift_neg]
  generalize -b + op g = r
  generalize dot r (applyPrecon o.precon r) = ry
  generalize Scalar.abs (sqrt ry) = rn
  generalize pymax o.abstol (o.reltol * rn) = t
  have := cgLoop_warm (op := op) (M := o.precon) g { kw with guess := none, matvecMax := some mm }
    { kw with guess := some g, matvecMax := some (mm + 1) } rfl rfl rfl t mm
    { x := zeros, r := r, p := -r, ry := ry, residNorm := rn, nMatvec := 0, definite := true, infiniteDescent := none,
      residHistory := [] ++ [rn], resids := if kw.storeResids then [] ++ [applyPrecon o.precon r] else [],
      iterates := if kw.storeIterates then [] ++ [zeros] else [], calls := [] }
  have e : List.map (fun x : Vec E => g + x) (if kw.storeIterates then [] ++ [zeros] else []) =
      if kw.storeIterates then [] ++ [g] else [] := by
    split
    · rw [List.nil_append, List.map_cons, List.map_nil, Vec.shift_zeros, List.nil_append]
    · rfl
  simp only [CGLoop.warm, Vec.shift_zeros, Nat.zero_add, e] at this
  rw [this]
  exact ⟨rfl, rfl, trivial, rfl, rfl, rfl, rfl, rfl, rfl, rfl, rfl⟩

/-- `C77_cg`: `3 x = 7` from the guess 2 is `3 x = 1`, with the stored iterates and at most 6 products -/
example : (cgSolve (Vec.op (fun v : ℝ => 3 * v)) { abstol := .fin (1/100), reltol := .fin 0 } 1 {} (.fin 7)
      { guess := some (.fin 2), matvecMax := some 6, storeIterates := true }).1.iterates =
    (cgSolve (Vec.op (fun v : ℝ => 3 * v)) { abstol := .fin (1/100), reltol := .fin 0 } 1 {} (.fin 1)
      { guess := none, matvecMax := some 5, storeIterates := true }).1.iterates.map (.fin 2 + ·) := by
  have h := (C77_cg (Vec.op (fun v : ℝ => 3 * v)) { abstol := .fin (1/100), reltol := .fin 0 } 1 (.fin 7) (.fin 2)
    { storeIterates := true } 5 (fun h => by cases h)).2.2.2.2.2.2.2.2.2.1
  have e : (Vec.fin (7:ℝ) - Vec.op (fun v : ℝ => 3 * v) (.fin 2)) = .fin 1 := by simp; norm_num
  rw [e] at h
  exact h

end Verif.Solver
