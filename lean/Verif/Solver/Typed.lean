import Verif.Solver.CG
import Verif.Solver.CGS
import Verif.Solver.BiCGSTAB
import Verif.Solver.TFQMR
import Verif.Linop.Sound

/-!
# Dtypes of arrays in the solvers: `cg.py`, `cgs.py`, `bicgstab.py`, `tfqmr.py`

Arrays and NumPy scalars carry their dtype class (`DKind`: integer, real, complex).  An operation that makes a new array has
the common type of its operands; an in-place operation (`x += y`) keeps the type of its target and raises `TypeError` if the
result is of a wider class (NumPy's casting rule `same_kind`, the default for in-place operations since NumPy 1.10).  The
quotient of two integers is rounded down (the package is Python 2 code without `from __future__ import division`).

Simplifications: the values of all classes live in one arithmetic, `floorDiv` is its quotient for integers and `trunc k v`
is what `v.astype(k)` makes of a `v` of a wider class, which for zeros is zeros; no distinction between `float32` and `float64`; no integer overflow.
In `cg.py:120` the test is the one for real scalars, as in `Verif.Solver.CG`.
-/

namespace Verif.Solver
open Scalar Vect Linop

/-- `a / b` for two integers, and `v.astype(k)` where the type `k` is narrower than that of `v` -/
class Casts (S V : Type) [Scalar S] [Vect S V] where
  floorDiv : S → S → S
  trunc : DKind → V → V
  trunc_zeros : ∀ k, trunc k zeros = zeros

/-- a number with its dtype class -/
structure TNum (S V : Type) where
  kind : DKind
  val : S

/-- an array with its dtype class -/
structure TArr (V : Type) where
  kind : DKind
  val : V

/-- `a` can be stored in an array of type `b` without loss: `np.can_cast(a, b, 'same_kind')` -/
def _root_.Verif.Linop.DKind.fits (a b : DKind) : Prop := a.join b = b

instance (a b : DKind) : Decidable (a.fits b) := inferInstanceAs (Decidable (a.join b = b))

/-- the dtype class of `np.abs`: that of the argument, and real for a complex argument -/
def _root_.Verif.Linop.DKind.abs : DKind → DKind
  | .complex => .real
  | k => k

variable {S V : Type} [Scalar S] [Vect S V] [Casts S V]

/-- Operations on Python and NumPy numbers.  A literal is a Python float. -/
instance : Scalar (TNum S V) where
  add a b := ⟨a.kind.join b.kind, a.val + b.val⟩
  sub a b := ⟨a.kind.join b.kind, a.val - b.val⟩
  mul a b := ⟨a.kind.join b.kind, a.val * b.val⟩
  div a b := ⟨a.kind.join b.kind, if a.kind.join b.kind = .int then Casts.floorDiv V a.val b.val else a.val / b.val⟩
  neg a := ⟨a.kind, -a.val⟩
  sqrt a := ⟨a.kind.join .real, sqrt a.val⟩
  abs a := ⟨a.kind.abs, abs a.val⟩
  lit q := ⟨.real, lit q⟩
  le a b := le a.val b.val
  lt a b := lt a.val b.val
  re a := ⟨a.kind.abs, re a.val⟩
  im a := ⟨a.kind.abs, im a.val⟩

/-- Operations that make a new array; `np.zeros(n)` is an array of floats. -/
instance : Vect (TNum S V) (TArr V) where
  add u v := ⟨u.kind.join v.kind, u.val + v.val⟩
  sub u v := ⟨u.kind.join v.kind, u.val - v.val⟩
  neg u := ⟨u.kind, -u.val⟩
  zeros := ⟨.real, zeros⟩
  smul a u := ⟨a.kind.join u.kind, smul a.val u.val⟩
  vdiv u a := ⟨u.kind.join a.kind, vdiv u.val a.val⟩
  dot u v := ⟨u.kind.join v.kind, dot u.val v.val⟩
  norm u := ⟨.real, norm u.val⟩

/-- `u += v` -/
def iadd (u v : TArr V) : Except PyError (TArr V) :=
  if v.kind.fits u.kind then .ok ⟨u.kind, u.val + v.val⟩ else .error .typeError

/-- `u -= v` -/
def isub (u v : TArr V) : Except PyError (TArr V) :=
  if v.kind.fits u.kind then .ok ⟨u.kind, u.val - v.val⟩ else .error .typeError

/-- `u *= a` -/
def imul (u : TArr V) (a : TNum S V) : Except PyError (TArr V) :=
  if a.kind.fits u.kind then .ok ⟨u.kind, smul a.val u.val⟩ else .error .typeError

variable (S) in
/-- `u.astype(k)` -/
def TArr.astype (k : DKind) (u : TArr V) : TArr V :=
  ⟨k, if u.kind.fits k then u.val else Casts.trunc S k u.val⟩

/-- a linear operator with its attribute `dtype` -/
structure TOp (V : Type) where
  dtype : DKind
  fn : V → V

/-- `op * x`: the result is converted to the common type of the operator and `x`, `linop.py:358-360` -/
def TOp.mul (op : TOp V) (x : TArr V) : TArr V := ⟨op.dtype.join x.kind, op.fn x.val⟩

/-- `self.precon * r` or `r` -/
def applyPreconT (precon : Option (TOp V)) (r : TArr V) : TArr V :=
  match precon with
  | some M => M.mul r
  | none => r

/-- Constructor options (`generic.py:64-85`). -/
structure TOpts (S V : Type) where
  abstol : S
  reltol : S
  precon : Option (TOp V) := none

/-! ### CG -/

/-- One pass through the loop body, `cg.py:115-158`. -/
def cgStepT (op : TOp V) (precon : Option (TOp V)) (kw : CGKw (TArr V)) (s : CGLoop (TNum S V) (TArr V)) :
    Except PyError (CGLoop (TNum S V) (TArr V)) :=
  let Ap := op.mul s.p
  let nMatvec := s.nMatvec + 1
  let calls := s.calls ++ [s.p]
  let pAp := dot s.p Ap
  if kw.checkCurvature && notPositive pAp then
    .ok { s with nMatvec := nMatvec, calls := calls, infiniteDescent := some s.p, definite := false }
  else do
    let alpha := s.ry / pAp
    let x ← iadd s.x (smul alpha s.p)
    let r ← iadd s.r (smul alpha Ap)
    let y := applyPreconT precon r
    let ryNext := dot r y
    let beta := ryNext / s.ry
    let p ← imul s.p beta
    let p ← isub p r
    let residNorm := abs (sqrt ryNext)
    .ok { x := x, r := r, p := p, ry := ryNext, residNorm := residNorm, nMatvec := nMatvec, definite := s.definite,
          infiniteDescent := s.infiniteDescent, residHistory := s.residHistory ++ [residNorm],
          resids := if kw.storeResids then s.resids ++ [y] else s.resids,
          iterates := if kw.storeIterates then s.iterates ++ [x] else s.iterates, calls := calls }

theorem cgStepT_nMatvec {op : TOp V} {precon : Option (TOp V)} {kw : CGKw (TArr V)}
    {s t : CGLoop (TNum S V) (TArr V)} (h : cgStepT op precon kw s = .ok t) : t.nMatvec = s.nMatvec + 1 := by
  unfold cgStepT at h
  simp only at h
  split at h
  · cases h; rfl
  · obtain ⟨x, _, h⟩ := except_bind_ok h
    obtain ⟨r, _, h⟩ := except_bind_ok h
    obtain ⟨p, _, h⟩ := except_bind_ok h
    obtain ⟨q, _, h⟩ := except_bind_ok h
    cases h; rfl

/-- The loop, `cg.py:113-158`. -/
def cgLoopT (op : TOp V) (precon : Option (TOp V)) (kw : CGKw (TArr V)) (threshold : TNum S V) (matvecMax : Nat) :
    CGLoop (TNum S V) (TArr V) → Except PyError (CGLoop (TNum S V) (TArr V)) :=
  exceptLoop (cgCont threshold matvecMax) (cgStepT op precon kw) (fun s => matvecMax - s.nMatvec)
    (fun s t h1 h2 _ => by
      simp only [cgCont, Bool.and_eq_true, decide_eq_true_eq] at h1
      rw [cgStepT_nMatvec h2]; omega)

/-- The state before the loop and the threshold, `cg.py:75-104`. -/
def cgInitT (op : TOp V) (o : TOpts S V) (kw : CGKw (TArr V)) (self : CGObj (TNum S V) (TArr V)) (rhs : TArr V) :
    Except PyError (CGLoop (TNum S V) (TArr V) × TNum S V) := do
  let x := TArr.astype S (op.dtype.join rhs.kind) (kw.guess.getD zeros)
  let iterates := if kw.storeIterates then self.iterates ++ [x] else self.iterates
  let r ← match kw.guess with
    | some _ => iadd (-rhs) (op.mul x)
    | none => .ok (-rhs)
  let nMatvec := if kw.guess.isSome then 1 else 0
  let calls := if kw.guess.isSome then [x] else []
  let y := applyPreconT o.precon r
  let resids := if kw.storeResids then self.resids ++ [y] else self.resids
  let ry := dot r y
  let residNorm := abs (sqrt ry)
  let threshold := pymax ⟨.real, o.abstol⟩ (⟨.real, o.reltol⟩ * residNorm)
  .ok ({ x := x, r := r, p := -r, ry := ry, residNorm := residNorm, nMatvec := nMatvec, definite := true,
         infiniteDescent := self.infiniteDescent, residHistory := self.residHistory ++ [residNorm],
         resids := resids, iterates := iterates, calls := calls }, threshold)

/-- `CG.solve`, `cg.py:45-165`. -/
def cgSolveT (op : TOp V) (o : TOpts S V) (n : Nat) (self : CGObj (TNum S V) (TArr V)) (rhs : TArr V)
    (kw : CGKw (TArr V)) : Except PyError (CGObj (TNum S V) (TArr V) × List (TArr V)) :=
  if kw.checkSymmetric && !kw.symOK then .ok (self, [])
  else do
    let (s0, threshold) ← cgInitT op o kw self rhs
    let s ← cgLoopT op o.precon kw threshold (kw.matvecMax.getD (2 * n)) s0
    .ok ({ residHistory := s.residHistory, resids := s.resids, iterates := s.iterates,
           infiniteDescent := s.infiniteDescent, converged := le s.residNorm threshold, definite := some s.definite,
           nMatvec := s.nMatvec, x := some s.x, residNorm := some s.residNorm, residNorm0 := some s0.residNorm },
         s.calls)

/-! ### CGS -/

/-- One pass through the loop body, `cgs.py:80-124`. -/
def cgsStepT (op : TOp V) (precon : Option (TOp V)) (threshold : TNum S V) (matvecMax : Nat) (r0 : TArr V)
    (s : CGSLoop (TNum S V) (TArr V)) : Except PyError (CGSLoop (TNum S V) (TArr V)) := do
  let y := applyPreconT precon s.p
  let v := op.mul y
  let sigma := dot r0 v
  let alpha := s.rho / sigma
  let q := s.u - smul alpha v
  let z := applyPreconT precon (s.u + q)
  let x ← iadd s.x (smul alpha z)
  let Az := op.mul z
  let nMatvec := s.nMatvec + 2
  let calls := s.calls ++ [y, z]
  let r ← isub s.r (smul alpha Az)
  let residNorm := norm r
  if le residNorm threshold || decide (nMatvec ≥ matvecMax) then
    .ok { s with x := x, r := r, residNorm := residNorm, nMatvec := nMatvec, finished := true, calls := calls }
  else do
    let rhoNext := dot r0 r
    let beta := rhoNext / s.rho
    let u := r + smul beta q
    let p ← imul s.p beta
    let p ← iadd p q
    let p ← imul p beta
    let p ← iadd p u
    .ok { x := x, r := r, u := u, p := p, rho := rhoNext, residNorm := residNorm, nMatvec := nMatvec, finished := false,
          calls := calls }

theorem cgsStepT_nMatvec {op : TOp V} {precon : Option (TOp V)} {threshold : TNum S V} {matvecMax : Nat} {r0 : TArr V}
    {s t : CGSLoop (TNum S V) (TArr V)} (h : cgsStepT op precon threshold matvecMax r0 s = .ok t) :
    t.nMatvec = s.nMatvec + 2 ∧ (t.finished = false → t.nMatvec < matvecMax) := by
  unfold cgsStepT at h
  simp only at h
  obtain ⟨x, _, h⟩ := except_bind_ok h
  obtain ⟨r, _, h⟩ := except_bind_ok h
  split at h
  · cases h; exact ⟨rfl, fun h => by cases h⟩
  · rename_i hc
    obtain ⟨p, _, h⟩ := except_bind_ok h
    obtain ⟨p, _, h⟩ := except_bind_ok h
    obtain ⟨p, _, h⟩ := except_bind_ok h
    obtain ⟨p, _, h⟩ := except_bind_ok h
    cases h
    refine ⟨rfl, fun _ => ?_⟩
    simp only [ge_iff_le, Bool.or_eq_true, decide_eq_true_eq, not_or, not_le] at hc
    exact hc.2

/-- The loop, `cgs.py:78-124`. -/
def cgsLoopT (op : TOp V) (precon : Option (TOp V)) (threshold : TNum S V) (matvecMax : Nat) (r0 : TArr V) :
    CGSLoop (TNum S V) (TArr V) → Except PyError (CGSLoop (TNum S V) (TArr V)) :=
  exceptLoop (fun s => !s.finished) (cgsStepT op precon threshold matvecMax r0) (fun s => matvecMax - s.nMatvec)
    (fun s t _ h2 h3 => by
      have h1 := cgsStepT_nMatvec h2
      have h4 := h1.2 (by simpa using h3)
      omega)

/-- `CGS.solve`, `cgs.py:40-130`. -/
def cgsSolveT (op : TOp V) (o : TOpts S V) (n : Nat) (rhs : TArr V) (kw : KrylovKw (TArr V)) :
    Except PyError (KrylovRes (TNum S V) (TArr V) × List (TArr V)) := do
  let x := TArr.astype S (op.dtype.join rhs.kind) (kw.guess.getD zeros)
  let matvecMax := kw.matvecMax.getD (2 * n)
  let r0 := if kw.guess.isSome then rhs - op.mul x else rhs
  let calls := if kw.guess.isSome then [x] else []
  let rho := dot r0 r0
  let residNorm := abs (sqrt rho)
  let threshold := pymax ⟨.real, o.abstol⟩ (⟨.real, o.reltol⟩ * residNorm)
  let finished := le residNorm threshold || decide (0 ≥ matvecMax)
  let s ← cgsLoopT op o.precon threshold matvecMax r0
    { x := x, r := r0, u := r0, p := r0, rho := rho, residNorm := residNorm, nMatvec := 0, finished := finished,
      calls := calls }
  .ok ({ residNorm0 := residNorm, converged := le s.residNorm threshold, nMatvec := s.nMatvec, x := s.x,
         residNorm := s.residNorm }, s.calls)

/-! ### Bi-CGSTAB -/

/-- One pass through the loop body, `bicgstab.py:86-147`. -/
def biStepT (op : TOp V) (precon : Option (TOp V)) (threshold : TNum S V) (matvecMax : Nat) (r0 : TArr V)
    (s : BiLoop (TNum S V) (TArr V)) : Except PyError (BiLoop (TNum S V) (TArr V)) := do
  let beta := s.rhoNext / s.rho * s.alpha / s.omega
  let rho := s.rhoNext
  let p ← imul s.p beta
  let p ← isub p (smul (beta * s.omega) s.v)
  let p ← iadd p s.r
  let q := applyPreconT precon p
  let v := op.mul q
  let alpha := rho / dot r0 v
  let ss := s.r - smul alpha v
  let residNorm := norm ss
  if le residNorm threshold then do
    let x ← iadd s.x (smul alpha q)
    .ok { s with x := x, p := p, v := v, rho := rho, alpha := alpha, residNorm := residNorm,
                 nMatvec := s.nMatvec + 1, finished := true, calls := s.calls ++ [q] }
  else if s.nMatvec + 1 ≥ matvecMax then
    .ok { s with p := p, v := v, rho := rho, alpha := alpha, residNorm := residNorm, nMatvec := s.nMatvec + 1,
                 finished := true, calls := s.calls ++ [q] }
  else do
    let z := applyPreconT precon ss
    let t := op.mul z
    let nMatvec := s.nMatvec + 2
    let omega := dot t ss / dot t t
    let rhoNext := -omega * dot r0 t
    let r := ss - smul omega t
    let zo ← imul z omega
    let x ← iadd s.x zo
    let x ← iadd x (smul alpha q)
    let residNorm := norm r
    .ok { x := x, r := r, p := p, v := v, rho := rho, rhoNext := rhoNext, alpha := alpha, omega := omega,
          residNorm := residNorm, nMatvec := nMatvec,
          finished := le residNorm threshold || decide (nMatvec ≥ matvecMax), calls := s.calls ++ [q, z] }

theorem biStepT_nMatvec {op : TOp V} {precon : Option (TOp V)} {threshold : TNum S V} {matvecMax : Nat} {r0 : TArr V}
    {s t : BiLoop (TNum S V) (TArr V)} (h : biStepT op precon threshold matvecMax r0 s = .ok t) :
    s.nMatvec < t.nMatvec ∧ (t.finished = false → t.nMatvec < matvecMax) := by
  unfold biStepT at h
  simp only at h
  obtain ⟨p, _, h⟩ := except_bind_ok h
  obtain ⟨p, _, h⟩ := except_bind_ok h
  obtain ⟨p, _, h⟩ := except_bind_ok h
  split at h
  · obtain ⟨x, _, h⟩ := except_bind_ok h
    cases h; exact ⟨Nat.lt_succ_self _, fun h => by cases h⟩
  · split at h
    · cases h; exact ⟨Nat.lt_succ_self _, fun h => by cases h⟩
    · obtain ⟨z, _, h⟩ := except_bind_ok h
      obtain ⟨x, _, h⟩ := except_bind_ok h
      obtain ⟨x, _, h⟩ := except_bind_ok h
      cases h
      refine ⟨by simp only; omega, fun h => ?_⟩
      simp only [ge_iff_le, Bool.or_eq_false_iff, decide_eq_false_iff_not, not_le] at h
      exact h.2

/-- The loop, `bicgstab.py:84-147`. -/
def biLoopT (op : TOp V) (precon : Option (TOp V)) (threshold : TNum S V) (matvecMax : Nat) (r0 : TArr V) :
    BiLoop (TNum S V) (TArr V) → Except PyError (BiLoop (TNum S V) (TArr V)) :=
  exceptLoop (fun s => !s.finished) (biStepT op precon threshold matvecMax r0) (fun s => matvecMax - s.nMatvec)
    (fun s t _ h2 h3 => by
      have h1 := biStepT_nMatvec h2
      have h4 := h1.2 (by simpa using h3)
      omega)

/-- `BiCGSTAB.solve`, `bicgstab.py:43-153`. -/
def biSolveT (op : TOp V) (o : TOpts S V) (n : Nat) (rhs : TArr V) (kw : KrylovKw (TArr V)) :
    Except PyError (KrylovRes (TNum S V) (TArr V) × List (TArr V)) := do
  let D := op.dtype.join rhs.kind
  let x := TArr.astype S D (kw.guess.getD zeros)
  let matvecMax := kw.matvecMax.getD (2 * n)
  let r0 := if kw.guess.isSome then rhs - op.mul x else rhs
  let nMatvec := if kw.guess.isSome then 1 else 0
  let calls := if kw.guess.isSome then [x] else []
  let rhoNext := dot r0 r0
  let residNorm := abs (sqrt rhoNext)
  let threshold := pymax ⟨.real, o.abstol⟩ (⟨.real, o.reltol⟩ * residNorm)
  let finished := le residNorm threshold || decide (nMatvec ≥ matvecMax)
  let s ← biLoopT op o.precon threshold matvecMax r0
    { x := x, r := r0, p := ⟨D, zeros⟩, v := ⟨D, zeros⟩, rho := lit 1, rhoNext := rhoNext, alpha := lit 1, omega := lit 1,
      residNorm := residNorm, nMatvec := nMatvec, finished := finished, calls := calls }
  .ok ({ residNorm0 := residNorm, converged := le s.residNorm threshold, nMatvec := s.nMatvec, x := s.x,
         residNorm := s.residNorm }, s.calls)

/-! ### TFQMR -/

/-- The statements common to both passes, `tfqmr.py:92-99` and `tfqmr.py:117-124`.  `k` and `m` are Python numbers. -/
def tfPassT (alpha : TNum S V) (s : TFLoop (TNum S V) (TArr V)) : Except PyError (TFLoop (TNum S V) (TArr V)) := do
  let w ← isub s.w (smul alpha s.u)
  let d ← imul s.d (s.theta * s.theta * s.eta / alpha)
  let d ← iadd d s.z
  let theta := norm w / s.residNorm
  let c := lit 1 / sqrt (lit 1 + theta * theta)
  let eta := c * c * alpha
  let x ← iadd s.x (smul eta d)
  .ok { s with w := w, d := d, theta := theta, residNorm := s.residNorm * (theta * c), eta := eta, x := x }

/-- `tfqmr.py:107-116` -/
def tfMidT (op : TOp V) (precon : Option (TOp V)) (alpha m : TNum S V) (s : TFLoop (TNum S V) (TArr V)) :
    Except PyError (TFLoop (TNum S V) (TArr V)) := do
  let y ← isub s.y (smul alpha s.v)
  let z := applyPreconT precon y
  .ok { s with y := y, z := z, u := op.mul z, m := some m, nMatvec := s.nMatvec + 1, calls := s.calls ++ [z] }

/-- `tfqmr.py:129-153` -/
def tfFinalT (op : TOp V) (precon : Option (TOp V)) (r0 : TArr V) (s : TFLoop (TNum S V) (TArr V)) :
    Except PyError (TFLoop (TNum S V) (TArr V)) := do
  let rhoNext := dot r0 s.w
  let beta := rhoNext / s.rho
  let y ← imul s.y beta
  let y ← iadd y s.w
  let v ← imul s.v beta
  let v ← iadd v s.u
  let v ← imul v beta
  let z := applyPreconT precon y
  let u := op.mul z
  let v ← iadd v u
  .ok { s with rho := rhoNext, y := y, z := z, u := u, v := v, nMatvec := s.nMatvec + 1, calls := s.calls ++ [z] }

/-- One pass through the loop body, `tfqmr.py:87-156`. -/
def tfStepT (op : TOp V) (precon : Option (TOp V)) (threshold : TNum S V) (matvecMax : Nat) (r0 : TArr V)
    (s : TFLoop (TNum S V) (TArr V)) : Except PyError (TFLoop (TNum S V) (TArr V)) := do
  let alpha := s.rho / dot r0 s.v
  let m := lit 2 * lit ((s.k + 1 : Nat) : ℚ) - lit 1
  let s1 ← tfPassT alpha s
  let s1 := { s1 with k := s.k + 1, m := some m }
  if tfTest threshold matvecMax m s1 then .ok { s1 with finished := true }
  else do
    let s2 ← tfMidT op precon alpha (m + lit 1) s1
    let s2 ← tfPassT alpha s2
    if tfTest threshold matvecMax (m + lit 1) s2 then .ok { s2 with finished := true }
    else tfFinalT op precon r0 s2

theorem tfPassT_keeps {alpha : TNum S V} {s t : TFLoop (TNum S V) (TArr V)} (h : tfPassT alpha s = .ok t) :
    t.nMatvec = s.nMatvec ∧ t.finished = s.finished := by
  unfold tfPassT at h
  simp only at h
  obtain ⟨_, _, h⟩ := except_bind_ok h
  obtain ⟨_, _, h⟩ := except_bind_ok h
  obtain ⟨_, _, h⟩ := except_bind_ok h
  obtain ⟨_, _, h⟩ := except_bind_ok h
  cases h; exact ⟨rfl, rfl⟩

theorem tfStepT_nMatvec {op : TOp V} {precon : Option (TOp V)} {threshold : TNum S V} {matvecMax : Nat} {r0 : TArr V}
    {s t : TFLoop (TNum S V) (TArr V)} (h : tfStepT op precon threshold matvecMax r0 s = .ok t) (hf : t.finished = false) :
    t.nMatvec = s.nMatvec + 2 ∧ s.nMatvec + 2 ≤ matvecMax := by
  unfold tfStepT at h
  simp only at h
  obtain ⟨s1, hs1, h⟩ := except_bind_ok h
  split at h
  · cases h; cases hf
  · rename_i h1
    obtain ⟨s2, hs2, h⟩ := except_bind_ok h
    obtain ⟨s3, hs3, h3⟩ := except_bind_ok h
    unfold tfMidT at hs2
    simp only at hs2
    obtain ⟨_, _, hs2⟩ := except_bind_ok hs2
    clear h
    have h := h3
    clear h3
    cases hs2
    split at h
    · cases h; cases hf
    · rename_i h2
      have h2 := tfTest_false h2
      unfold tfFinalT at h
      simp only at h
      obtain ⟨_, _, h⟩ := except_bind_ok h
      obtain ⟨_, _, h⟩ := except_bind_ok h
      obtain ⟨_, _, h⟩ := except_bind_ok h
      obtain ⟨_, _, h⟩ := except_bind_ok h
      obtain ⟨_, _, h⟩ := except_bind_ok h
      obtain ⟨_, _, h⟩ := except_bind_ok h
      cases h
      have e1 := (tfPassT_keeps hs1).1
      have e2 := (tfPassT_keeps hs3).1
      simp only at e1 e2 ⊢
      omega

/-- The loop, `tfqmr.py:85-156`. -/
def tfLoopT (op : TOp V) (precon : Option (TOp V)) (threshold : TNum S V) (matvecMax : Nat) (r0 : TArr V) :
    TFLoop (TNum S V) (TArr V) → Except PyError (TFLoop (TNum S V) (TArr V)) :=
  exceptLoop (fun s => !s.finished) (tfStepT op precon threshold matvecMax r0) (fun s => matvecMax - s.nMatvec)
    (fun s t _ h2 h3 => by
      have h1 := tfStepT_nMatvec h2 (by simpa using h3)
      omega)

/-- `TFQMR.solve`, `tfqmr.py:39-162`.  Variables that are not assigned when `finished` holds at the start are not read. -/
def tfSolveT (op : TOp V) (o : TOpts S V) (n : Nat) (rhs : TArr V) (kw : KrylovKw (TArr V)) :
    Except PyError (KrylovRes (TNum S V) (TArr V) × List (TArr V)) := do
  let D := op.dtype.join rhs.kind
  let x := TArr.astype S D (kw.guess.getD zeros)
  let matvecMax := kw.matvecMax.getD (2 * n)
  let r0 := if kw.guess.isSome then rhs - op.mul x else rhs
  let calls := if kw.guess.isSome then [x] else []
  let rho := dot r0 r0
  let residNorm := abs (sqrt rho)
  let threshold := pymax ⟨.real, o.abstol⟩ (⟨.real, o.reltol⟩ * residNorm)
  let finished := le residNorm threshold || decide (0 ≥ matvecMax)
  let z := applyPreconT o.precon r0
  let s0 : TFLoop (TNum S V) (TArr V) :=
    if finished then
      { x := x, y := zeros, w := zeros, d := zeros, z := zeros, u := zeros, v := zeros, rho := rho, theta := lit 0, eta := lit 0,
        residNorm := residNorm, k := 0, m := none, nMatvec := 0, finished := true, calls := calls }
    else
      { x := x, y := r0, w := r0, d := ⟨D, zeros⟩, z := z, u := op.mul z, v := op.mul z, rho := rho, theta := lit 0,
        eta := lit 0, residNorm := residNorm, k := 0, m := none, nMatvec := 1, finished := false, calls := calls ++ [z] }
  let s ← tfLoopT op o.precon threshold matvecMax r0 s0
  tfResult threshold residNorm s

end Verif.Solver
