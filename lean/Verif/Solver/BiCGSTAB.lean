import Verif.Solver.CGS

/-!
# Model of `pykrylov/bicgstab/bicgstab.py`

Simplifications as in `Verif.Solver.CG`.
-/

namespace Verif.Solver
open Scalar Vect

variable {S V : Type} [Scalar S] [Vect S V]

/-- Local variables of the loop of `BiCGSTAB.solve`. -/
structure BiLoop (S V : Type) where
  x : V
  r : V
  p : V
  v : V
  rho : S
  rhoNext : S
  alpha : S
  omega : S
  residNorm : S
  nMatvec : Nat
  finished : Bool
  calls : List V

/-- One pass through the loop, `bicgstab.py:85-145`. -/
def biStep (op : V → V) (precon : Option (V → V)) (threshold : S) (matvecMax : Nat) (r0 : V) (s : BiLoop S V) :
    BiLoop S V :=
  let beta := s.rhoNext / s.rho * s.alpha / s.omega
  let rho := s.rhoNext
  let p := smul beta s.p - smul (beta * s.omega) s.v + s.r
  let q := applyPrecon precon p
  let v := op q
  let alpha := rho / dot r0 v
  let ss := s.r - smul alpha v
  let residNorm := norm ss
  if le residNorm threshold then
    { s with x := s.x + smul alpha q, p := p, v := v, rho := rho, alpha := alpha, residNorm := residNorm,
             nMatvec := s.nMatvec + 1, finished := true, calls := s.calls ++ [q] }
  else if s.nMatvec + 1 ≥ matvecMax then
    { s with p := p, v := v, rho := rho, alpha := alpha, residNorm := residNorm, nMatvec := s.nMatvec + 1,
             finished := true, calls := s.calls ++ [q] }
  else
    let z := applyPrecon precon ss
    let t := op z
    let nMatvec := s.nMatvec + 2
    let omega := dot t ss / dot t t
    let rhoNext := -omega * dot r0 t
    let r := ss - smul omega t
    let x := s.x + smul omega z + smul alpha q
    let residNorm := norm r
    { x := x, r := r, p := p, v := v, rho := rho, rhoNext := rhoNext, alpha := alpha, omega := omega,
      residNorm := residNorm, nMatvec := nMatvec,
      finished := le residNorm threshold || decide (nMatvec ≥ matvecMax), calls := s.calls ++ [q, z] }

theorem biStep_nMatvec (op : V → V) (precon : Option (V → V)) (threshold : S) (matvecMax : Nat) (r0 : V)
    (s : BiLoop S V) : s.nMatvec < (biStep op precon threshold matvecMax r0 s).nMatvec ∧
      ((biStep op precon threshold matvecMax r0 s).finished = false →
        (biStep op precon threshold matvecMax r0 s).nMatvec < matvecMax) := by
  unfold biStep
  simp only
  split
  · exact ⟨Nat.lt_succ_self _, fun h => by cases h⟩
  · split
    · exact ⟨Nat.lt_succ_self _, fun h => by cases h⟩
    · refine ⟨by simp only; omega, fun h => ?_⟩
      simp only [ge_iff_le, Bool.or_eq_false_iff, decide_eq_false_iff_not, not_le] at h
      exact h.2

/-- The loop, `bicgstab.py:85-145`. -/
def biLoop (op : V → V) (precon : Option (V → V)) (threshold : S) (matvecMax : Nat) (r0 : V) : BiLoop S V → BiLoop S V :=
  whileLoop (fun s => !s.finished) (biStep op precon threshold matvecMax r0) (fun s => matvecMax - s.nMatvec)
    (fun s _ h => by
      have h1 := biStep_nMatvec op precon threshold matvecMax r0 s
      have h2 := h1.2 (by simpa using h)
      omega)

/-- `BiCGSTAB.solve`, `bicgstab.py:43-151`.  The second component is the list of vectors the operator was applied to. -/
def biSolve (op : V → V) (o : KrylovOpts S V) (n : Nat) (rhs : V) (kw : KrylovKw V) : KrylovRes S V × List V :=
  let x := kw.guess.getD zeros
  let matvecMax := kw.matvecMax.getD (2 * n)
  let (r0, nMatvec, calls) := match kw.guess with
    | some g => (rhs - op g, 1, [g])
    | none => (rhs, 0, [])
  let rhoNext := dot r0 r0
  let residNorm := abs (sqrt rhoNext)
  let threshold := pymax o.abstol (o.reltol * residNorm)
  let finished := le residNorm threshold || decide (nMatvec ≥ matvecMax)
  let s := biLoop op o.precon threshold matvecMax r0
    { x := x, r := r0, p := zeros, v := zeros, rho := lit 1, rhoNext := rhoNext, alpha := lit 1, omega := lit 1,
      residNorm := residNorm, nMatvec := nMatvec, finished := finished, calls := calls }
  ({ residNorm0 := residNorm, converged := le s.residNorm threshold, nMatvec := s.nMatvec, x := s.x,
     residNorm := s.residNorm }, s.calls)

end Verif.Solver
