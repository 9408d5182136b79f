import Verif.Solver.CGS

/-!
# Model of `pykrylov/tfqmr/tfqmr.py`

Simplifications as in `Verif.Solver.CG`.
-/

namespace Verif.Solver
open Scalar Vect

variable {S V : Type} [Scalar S] [Vect S V]

/-- Exceptions the solvers can raise. -/
inductive PyError
  | unboundLocal (name : String)
  | attribute (name : String)
  | typeError
  | valueError
  | shapeError
  | indexError
  | zeroDivision
  deriving DecidableEq, Repr

/-- Local variables of the loop of `TFQMR.solve`.  `m` is unbound before the first pass. -/
structure TFLoop (S V : Type) where
  x : V
  y : V
  w : V
  d : V
  z : V
  u : V
  v : V
  rho : S
  theta : S
  eta : S
  residNorm : S
  k : Nat
  m : Option S
  nMatvec : Nat
  finished : Bool
  calls : List V

/-- The part common to both passes, `tfqmr.py:92-99` and `115-122`: update of `w, d, theta, residNorm, eta, x`. -/
def tfPass (alpha : S) (s : TFLoop S V) : TFLoop S V :=
  let w := s.w - smul alpha s.u
  let d := smul (s.theta * s.theta * s.eta / alpha) s.d + s.z
  let theta := norm w / s.residNorm
  let c := lit 1 / sqrt (lit 1 + theta * theta)
  let eta := c * c * alpha
  { s with w := w, d := d, theta := theta, residNorm := s.residNorm * (theta * c), eta := eta, x := s.x + smul eta d }

/-- the stopping test, `tfqmr.py:101, 123` -/
def tfTest (threshold : S) (matvecMax : Nat) (m : S) (s : TFLoop S V) : Bool :=
  lt (s.residNorm * sqrt (m + lit 1)) threshold || decide (s.nMatvec ≥ matvecMax)

/-- second pass: new `y`, `z`, `u`, `tfqmr.py:106-114` -/
def tfMid (op : V → V) (precon : Option (V → V)) (alpha m : S) (s : TFLoop S V) : TFLoop S V :=
  let y := s.y - smul alpha s.v
  let z := applyPrecon precon y
  { s with y := y, z := z, u := op z, m := some m, nMatvec := s.nMatvec + 1, calls := s.calls ++ [z] }

/-- final updates, `tfqmr.py:128-150` -/
def tfFinal (op : V → V) (precon : Option (V → V)) (r0 : V) (s : TFLoop S V) : TFLoop S V :=
  let rhoNext := dot r0 s.w
  let beta := rhoNext / s.rho
  let y := smul beta s.y + s.w
  let v := smul beta (smul beta s.v + s.u)
  let z := applyPrecon precon y
  let u := op z
  { s with rho := rhoNext, y := y, z := z, u := u, v := v + u, nMatvec := s.nMatvec + 1, calls := s.calls ++ [z] }

/-- One pass through the loop, `tfqmr.py:85-150`. -/
def tfStep (op : V → V) (precon : Option (V → V)) (threshold : S) (matvecMax : Nat) (r0 : V) (s : TFLoop S V) :
    TFLoop S V :=
  let alpha := s.rho / dot r0 s.v
  let m := lit 2 * lit ((s.k + 1 : Nat) : ℚ) - lit 1
  let s1 := { tfPass alpha s with k := s.k + 1, m := some m }
  if tfTest threshold matvecMax m s1 then { s1 with finished := true }
  else
    let s2 := tfPass alpha (tfMid op precon alpha (m + lit 1) s1)
    if tfTest threshold matvecMax (m + lit 1) s2 then { s2 with finished := true }
    else tfFinal op precon r0 s2

omit [Vect S V] in
theorem tfTest_false {threshold : S} {matvecMax : Nat} {m : S} {s : TFLoop S V}
    (h : ¬ tfTest threshold matvecMax m s = true) : s.nMatvec < matvecMax := by
  simp only [tfTest, ge_iff_le, Bool.or_eq_true, decide_eq_true_eq, not_or, not_le] at h
  exact h.2

theorem tfStep_nMatvec (op : V → V) (precon : Option (V → V)) (threshold : S) (matvecMax : Nat) (r0 : V)
    (s : TFLoop S V) :
    ((tfStep op precon threshold matvecMax r0 s).finished = false →
      (tfStep op precon threshold matvecMax r0 s).nMatvec = s.nMatvec + 2 ∧ s.nMatvec + 2 ≤ matvecMax) ∧
    (tfStep op precon threshold matvecMax r0 s).nMatvec ≤ max s.nMatvec matvecMax := by
  unfold tfStep
  simp only
  split
  · exact ⟨fun h => (by cases h), le_max_left _ _⟩
  · rename_i h1
    have h1 := tfTest_false h1
    change s.nMatvec < matvecMax at h1
    split
    · refine ⟨fun h => (by cases h), ?_⟩
      change s.nMatvec + 1 ≤ _
      omega
    · rename_i h2
      have h2 := tfTest_false h2
      change s.nMatvec + 1 < matvecMax at h2
      change (s.finished = false → s.nMatvec + 1 + 1 = s.nMatvec + 2 ∧ _) ∧ s.nMatvec + 1 + 1 ≤ _
      exact ⟨fun _ => by omega, by omega⟩

/-- The loop, `tfqmr.py:85-150`. -/
def tfLoop (op : V → V) (precon : Option (V → V)) (threshold : S) (matvecMax : Nat) (r0 : V) : TFLoop S V → TFLoop S V :=
  whileLoop (fun s => !s.finished) (tfStep op precon threshold matvecMax r0) (fun s => matvecMax - s.nMatvec)
    (fun s _ h => by
      have h1 := (tfStep_nMatvec op precon threshold matvecMax r0 s).1 (by simpa using h)
      omega)

/-- The end of `solve`, `tfqmr.py:156-159`.  If the loop was not entered, `m` is unbound. -/
def tfResult (threshold residNorm0 : S) (s : TFLoop S V) : Except PyError (KrylovRes S V × List V) :=
  match s.m with
  | none => .error (.unboundLocal "m")
  | some m =>
    .ok ({ residNorm0 := residNorm0, converged := lt (s.residNorm * sqrt (m + lit 1)) threshold, nMatvec := s.nMatvec,
           x := s.x, residNorm := s.residNorm }, s.calls)

/-- `TFQMR.solve`, `tfqmr.py:39-159`.  The second component is the list of vectors the operator was applied to. -/
def tfSolve (op : V → V) (o : KrylovOpts S V) (n : Nat) (rhs : V) (kw : KrylovKw V) :
    Except PyError (KrylovRes S V × List V) :=
  let x := kw.guess.getD zeros
  let matvecMax := kw.matvecMax.getD (2 * n)
  let (r0, calls) := match kw.guess with
    | some g => (rhs - op g, [g])
    | none => (rhs, [])
  let rho := dot r0 r0
  let residNorm := abs (sqrt rho)
  let threshold := pymax o.abstol (o.reltol * residNorm)
  let finished := le residNorm threshold || decide (0 ≥ matvecMax)
  let z := applyPrecon o.precon r0
  let s0 : TFLoop S V :=
    if finished then
      { x := x, y := zeros, w := zeros, d := zeros, z := zeros, u := zeros, v := zeros, rho := rho, theta := lit 0, eta := lit 0,
        residNorm := residNorm, k := 0, m := none, nMatvec := 0, finished := true, calls := calls }
    else
      { x := x, y := r0, w := r0, d := zeros, z := z, u := op z, v := op z, rho := rho, theta := lit 0, eta := lit 0,
        residNorm := residNorm, k := 0, m := none, nMatvec := 1, finished := false, calls := calls ++ [z] }
  let s := tfLoop op o.precon threshold matvecMax r0 s0
  tfResult threshold residNorm s

end Verif.Solver
