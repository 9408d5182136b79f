import Verif.Solver.HeapLSQR
import Verif.Solver.Symmlq

/-!
# `Symmlq.solve` on the heap

A second model of `symmlq.py:65-400`, with arrays as addresses; scalars are treated as in `Verif.Solver.Symmlq`.  As created by its
constructor the object has no attribute `matvec` and `solve` raises in line 162 or line 225; the model also covers objects on which
the caller has set this attribute.
-/

namespace Verif.Solver
open Scalar Vect

variable {S W : Type} [Scalar S] [Vect S W]

/-- the attributes that `solve` reads, as operators on arrays -/
structure SymmlqObjH (W : Type) where
  op : HOp W
  precon : Option (HOp W)
  matvec : Option (HOp W)

/-- `if shift is not None: y -= shift * v`, `symmlq.py:177, 303, 379` -/
def subShiftH (shift : Option S) (y v : Nat) : HeapE W Unit :=
  match shift with
  | none => pure ()
  | some s => do hwr y ((← hrd y) - smul s (← hrd v))

/-- the symmetry test of the preconditioner, `symmlq.py:138-146` -/
def symmlqPreconCheckH (kw : SymmlqKw S) (r1 y : Nat) : Option (HOp W) → HeapE W (Int × Bool)
  | some M => if kw.check then do
      let r2 ← hcall M y                                   -- r2 = self.precon * y
      let bad := symmlqUnsym kw (← hrd y) (← hrd r1) (← hrd r2)
      return if bad then (7, true) else (0, false)
    else return (0, false)
  | none => return (0, false)

/-- `istop` and `done` after line 155: lines 138-155 (`symmlq.py`) -/
def symmlqEntryH (self : SymmlqObjH W) (kw : SymmlqKw S) (r1 y : Nat) (beta1 : S) : HeapE W (Int × Bool) := do
  let st ← symmlqPreconCheckH kw r1 y self.precon
  let st : Int × Bool := if lt beta1 (lit 0) then (8, true) else st
  return if feq beta1 (lit 0) then (st.1, true) else st

/-- the symmetry test of the operator, `symmlq.py:163-170` -/
def symmlqCheckH (self : SymmlqObjH W) (kw : SymmlqKw S) (y v : Nat) (st : Int × Bool) : HeapE W (Int × Bool) :=
  if kw.check then do
    let r2 ← hcall self.op y                               -- r2 = self.op * y
    let bad := symmlqUnsym kw (← hrd y) (← hrd v) (← hrd r2)
    return if bad then (6, true) else st
  else return st

/-- `if self.precon is not None: y = self.precon * r2`, `symmlq.py:188, 308` -/
def nextY (o : Option (HOp W)) (r2 y : Nat) : HeapE W Nat :=
  match o with
  | some M => hcall M r2
  | none => pure y

/-- the block `if beta1 > 0`, `symmlq.py:157-217` -/
def symmlqStartH (self : SymmlqObjH W) (kw : SymmlqKw S) (mv : HOp W) (x w r1 y0 : Nat) (iterates : List Nat) (bb : S) (st : Int × Bool) :
    HeapE W (SymmlqLoop S Nat × S × Bool) := do
  let beta1 := sqrt bb
  let v ← hnew (smul (lit 1 / beta1) (← hrd y0))           -- v = s * y
  let y ← hcall mv v                                       -- y = self.matvec(v)
  let st ← symmlqCheckH self kw y v st
  subShiftH (symmlqShift kw) y v
  let alfa := dot (← hrd v) (← hrd y)
  hwr y ((← hrd y) - smul (alfa / beta1) (← hrd r1))       -- y -= (alfa / beta1) * r1
  let z := dot (← hrd v) (← hrd y)
  let s := dot (← hrd v) (← hrd v)
  hwr y ((← hrd y) - smul (z / s) (← hrd v))               -- y -= (z / s) * v
  let r2 ← hnew (← hrd y)                                  -- r2 = y.copy()
  let y ← nextY self.precon r2 y                           -- if self.precon is not None: y = self.precon * r2
  let bb := dot (← hrd r2) (← hrd y)
  let st : Int × Bool := if lt bb (lit 0) then (8, true) else st
  let beta := sqrt bb
  let istop : Int := if le beta kw.eps then -1 else st.1
  return ({ x := x, w := w, y := y, r1 := r1, r2 := r2, oldb := beta1, beta := beta, cgnorm := beta1, lqDiag := none,
            rhs1 := beta1, rhs2 := lit 0, tnorm := alfa * alfa + beta * beta, gbar := alfa, dbar := beta, bstep := lit 0,
            snprod := lit 1, ynorm2 := lit 0, gmax := Scalar.abs alfa + kw.eps, gmin := Scalar.abs alfa + kw.eps, anorm := lit 0,
            acond := lit 0, istop := istop, itn := 0, nMatvec := 1, broke := false, iterates := iterates, calls := [] }, beta1, st.2)

/-- `symmlqTest` for a state whose vectors are addresses, `symmlq.py:236-295` -/
def symmlqTestH (kw : SymmlqKw S) (matvecMax : Nat) (beta1 : S) (s : SymmlqLoop S Nat) : SymmlqLoop S Nat :=
  let anorm := sqrt s.tnorm
  let ynorm := sqrt s.ynorm2
  let epsa := anorm * kw.eps
  let epsx := anorm * ynorm * kw.eps
  let epsr := anorm * ynorm * kw.rtol
  let diag := if feq s.gbar (lit 0) then epsa else s.gbar
  let lqnorm := sqrt (s.rhs1 * s.rhs1 + s.rhs2 * s.rhs2)
  let cgnorm := s.snprod * beta1 * s.beta / Scalar.abs diag
  let acond := if lt lqnorm cgnorm then s.gmax / s.gmin else s.gmax / pymin s.gmin (Scalar.abs diag)
  let istop := symmlqTests kw matvecMax s.nMatvec acond epsx epsr cgnorm beta1 s.istop
  { s with itn := s.itn + 1, anorm := anorm, lqDiag := some (lqnorm, diag), cgnorm := cgnorm, acond := acond,
           istop := istop, broke := decide (istop ≠ 0) }

/-- the Lanczos step, `symmlq.py:300-311`: `v`, `alfa`, `r1`, `r2`, `y`, `dot(r2, y)` -/
def symmlqLanczosH (self : SymmlqObjH W) (kw : SymmlqKw S) (s : SymmlqLoop S Nat) : HeapE W (Nat × S × Nat × Nat × Nat × S) := do
  let v ← hnew (smul (lit 1 / s.beta) (← hrd s.y))         -- v = s * y
  let y ← hcall self.op v                                  -- y = self.op * v
  subShiftH (symmlqShift kw) y v
  hwr y ((← hrd y) - smul (s.beta / s.oldb) (← hrd s.r1))  -- y -= (beta / oldb) * r1
  let alfa := dot (← hrd v) (← hrd y)
  hwr y ((← hrd y) - smul (alfa / s.beta) (← hrd s.r2))    -- y -= (alfa / beta) * r2
  let r1 ← hnew (← hrd s.r2)                               -- r1 = r2.copy()
  let r2 ← hnew (← hrd y)                                  -- r2 = y.copy()
  let y ← nextY self.precon r2 y
  let bb := dot (← hrd r2) (← hrd y)
  return (v, alfa, r1, r2, y, bb)

/-- the second half of an iteration, `symmlq.py:300-349` -/
def symmlqUpdateH (self : SymmlqObjH W) (kw : SymmlqKw S) (s : SymmlqLoop S Nat) : HeapE W (SymmlqLoop S Nat) := do
  let (v, alfa, r1, r2, y, bb) ← symmlqLanczosH self kw s
  if lt bb (lit 0) then
    return { s with y := y, r1 := r1, r2 := r2, oldb := s.beta, beta := bb, istop := 6, broke := true, nMatvec := s.nMatvec + 1 }
  else
    let oldb := s.beta
    let beta := sqrt bb
    let tnorm := s.tnorm + alfa * alfa + oldb * oldb + beta * beta
    let gamma := sqrt (s.gbar * s.gbar + oldb * oldb)
    let cs := s.gbar / gamma
    let sn := oldb / gamma
    let delta := cs * s.dbar + sn * alfa
    let gbar := sn * s.dbar - cs * alfa
    let epsln := sn * beta
    let dbar := -cs * beta
    let z := s.rhs1 / gamma
    hwr s.x ((← hrd s.x) + (smul (z * cs) (← hrd s.w) + smul (z * sn) (← hrd v)))    -- x += s*w + t*v
    hwr s.w (smul sn (← hrd s.w))                                                    -- w *= sn
    hwr s.w ((← hrd s.w) - smul cs (← hrd v))                                        -- w -= cs*v
    let iterates ← happend kw.storeIterates s.iterates s.x                           -- self.iterates.append(x.copy())
    return { s with y := y, r1 := r1, r2 := r2, oldb := oldb, beta := beta,
                    tnorm := tnorm, gbar := gbar, dbar := dbar, bstep := s.snprod * cs * z + s.bstep, snprod := s.snprod * sn,
                    gmax := pymax s.gmax gamma, gmin := pymin s.gmin gamma, ynorm2 := z * z + s.ynorm2,
                    rhs1 := s.rhs2 - delta * z, rhs2 := -epsln * z, nMatvec := s.nMatvec + 1, iterates := iterates }

/-- one iteration, `symmlq.py:236-349` -/
def symmlqStepH (self : SymmlqObjH W) (kw : SymmlqKw S) (matvecMax : Nat) (beta1 : S) (s : SymmlqLoop S Nat) :
    HeapE W (SymmlqLoop S Nat) :=
  if (symmlqTestH kw matvecMax beta1 s).broke then pure (symmlqTestH kw matvecMax beta1 s)
  else symmlqUpdateH self kw (symmlqTestH kw matvecMax beta1 s)

/-- the loop condition, `symmlq.py:235`, and `break` -/
def symmlqContH (matvecMax : Nat) (s : SymmlqLoop S Nat) : Bool := !s.broke && decide (s.nMatvec < matvecMax)

theorem symmlqStepH_nMatvec {self : SymmlqObjH W} {kw : SymmlqKw S} {matvecMax : Nat} {beta1 : S} {s t : SymmlqLoop S Nat}
    {g g' : Heap W} (h : symmlqStepH self kw matvecMax beta1 s g = (.ok t, g')) : t.broke = true ∨ t.nMatvec = s.nMatvec + 1 := by
  unfold symmlqStepH at h
  cases hb : (symmlqTestH kw matvecMax beta1 s).broke with
  | true =>
    rw [hb] at h
    cases h
    exact .inl hb
  | false =>
    rw [hb] at h
    change symmlqUpdateH self kw _ g = _ at h
    unfold symmlqUpdateH at h
    obtain ⟨⟨v, alfa, r1, r2, y, bb⟩, _, -, h⟩ := heapE_bind_ok h
    dsimp only at h
    cases hbb : lt bb (lit 0) with
    | true =>
      rw [hbb] at h
      cases h
      exact .inl rfl
    | false =>
      rw [hbb] at h
      change (do let _ ← _; _ : HeapE W _) _ = _ at h
      obtain ⟨_, _, -, h⟩ := heapE_bind_ok h
      obtain ⟨_, _, -, h⟩ := heapE_bind_ok h
      obtain ⟨_, _, -, h⟩ := heapE_bind_ok h
      obtain ⟨_, _, -, h⟩ := heapE_bind_ok h
      obtain ⟨_, _, -, h⟩ := heapE_bind_ok h
      obtain ⟨_, _, -, h⟩ := heapE_bind_ok h
      obtain ⟨_, _, -, h⟩ := heapE_bind_ok h
      obtain ⟨_, _, -, h⟩ := heapE_bind_ok h
      obtain ⟨_, _, -, h⟩ := heapE_bind_ok h
      obtain ⟨_, _, -, h⟩ := heapE_bind_ok h
      cases h
      exact .inr rfl

/-- the loop, `symmlq.py:235-350` -/
def symmlqLoopH (self : SymmlqObjH W) (kw : SymmlqKw S) (matvecMax : Nat) (beta1 : S) (s : SymmlqLoop S Nat) :
    HeapE W (SymmlqLoop S Nat) :=
  heapLoop (symmlqContH matvecMax) (symmlqStepH self kw matvecMax beta1) (fun s => matvecMax - s.nMatvec)
    (fun s g t g' h ht h' => by
      simp only [symmlqContH, Bool.and_eq_true, decide_eq_true_eq, Bool.not_eq_true'] at h h'
      rcases symmlqStepH_nMatvec ht with hb | hn
      · rw [hb] at h'; exact absurd h'.1 (by simp)
      · omega) s

/-- `if cgnorm < lqnorm: x += zbar * w`, `symmlq.py:361-365` -/
def symmlqToCGH (toCG : Bool) (zbar : S) (x w : Nat) : HeapE W Unit :=
  if toCG then do hwr x ((← hrd x) + smul zbar (← hrd w)) else pure ()

/-- `y = self.precon * rhs`, or `y = rhs.copy()`, `symmlq.py:370-373` (and `130-133`) -/
def preconOrCopy (o : Option (HOp W)) (b : Nat) : HeapE W Nat :=
  match o with
  | some M => hcall M b
  | none => do hnew (← hrd b)

/-- the end, `symmlq.py:361-400` -/
def symmlqFinishH (self : SymmlqObjH W) (kw : SymmlqKw S) (beta1 : S) (b : Nat) (s : SymmlqLoop S Nat) (lqnorm diag : S) :
    HeapE W (SymmlqRes S Nat) := do
  let zbar := s.rhs1 / diag
  let toCG := lt s.cgnorm lqnorm
  let bstep := if toCG then s.snprod * zbar + s.bstep else s.bstep
  symmlqToCGH toCG zbar s.x s.w
  let y ← preconOrCopy self.precon b
  hwr s.x ((← hrd s.x) + smul (bstep / beta1) (← hrd y))   -- x += bstep * y
  let y ← hcall self.op s.x                                -- y = self.op * x
  subShiftH (symmlqShift kw) y s.x                         -- if shift is not None: y -= shift * x
  let r1 ← hnew ((← hrd b) - (← hrd y))                    -- r1 = rhs - y
  let rn := norm (← hrd r1)
  let xn := norm (← hrd s.x)
  return { x := s.x, residNorm := rn, xNorm := xn, nMatvec := s.nMatvec + 1, acond := s.acond, anorm := s.anorm,
           iterates := s.iterates }

/-- `if not done: while ...`, `symmlq.py:234-350` -/
def symmlqMainH (self : SymmlqObjH W) (kw : SymmlqKw S) (matvecMax : Nat) (beta1 : S) (s : SymmlqLoop S Nat) (done : Bool) :
    HeapE W (SymmlqLoop S Nat) :=
  if done then pure s else symmlqLoopH self kw matvecMax beta1 s

/-- lines 218-400 (`symmlq.py`) after the block `if beta1 > 0` -/
def symmlqRunH (self : SymmlqObjH W) (kw : SymmlqKw S) (matvecMax : Nat) (b : Nat) (s : SymmlqLoop S Nat) (beta1 : S) (done : Bool) :
    HeapE W (SymmlqRes S Nat) := do
  let s ← symmlqMainH self kw matvecMax beta1 s done
  match s.lqDiag with
  | none => hexc (.error (.unboundLocal "lqnorm"))
  | some (lqnorm, diag) => symmlqFinishH self kw beta1 b s lqnorm diag

/-- the first `y`, `symmlq.py:130-133` -/
def symmlqFirstYH (o : Option (HOp W)) (r1 b : Nat) : HeapE W Nat :=
  match o with
  | some M => hcall M r1                                   -- y = self.precon * r1
  | none => do hnew (← hrd b)                              -- y = rhs.copy()

/-- lines 134-400 (`symmlq.py`), for a vector with entries -/
def symmlqBodyH (self : SymmlqObjH W) (kw : SymmlqKw S) (matvecMax : Nat) (b x w r1 y : Nat) (iterates : List Nat) :
    HeapE W (SymmlqRes S Nat) := do
  let bb := dot (← hrd r1) (← hrd y)
  let st ← symmlqEntryH self kw r1 y bb
  if gt bb (lit 0) then
    match self.matvec with
    | none => do
      let _ ← hnew (smul (lit 1 / sqrt bb) (← hrd y))      -- v = s * y
      hexc (.error (.attribute "matvec"))
    | some mv => do
      let (s, beta1, done) ← symmlqStartH self kw mv x w r1 y iterates bb st
      symmlqRunH self kw matvecMax b s beta1 done
  else hexc (.error (.unboundLocal "x1cg"))

/-- `Symmlq.solve(rhs, **kwargs)`, `symmlq.py:65-400`; `n` is the length of `rhs`, `b` its address. -/
def symmlqSolveH (self : SymmlqObjH W) (n : Nat) (b : Nat) (kw : SymmlqKw S) : HeapE W (SymmlqRes S Nat) := do
  let matvecMax := kw.matvecMax.getD (2 * n + 2)
  let w ← hnew zeros                                       -- w = np.zeros(n)
  let x ← hnew zeros                                       -- x = np.zeros(n)
  let iterates ← happend kw.storeIterates [] x             -- self.iterates.append(x.copy())
  let r1 ← hnew (← hrd b)                                  -- r1 = rhs.copy()
  let y ← symmlqFirstYH self.precon r1 b
  if n = 0 then hexc (.error .indexError)                  -- b1 = y[0]
  else symmlqBodyH self kw matvecMax b x w r1 y iterates

/-! ### Arrays that existed before are not modified -/

theorem Keeps.error {α : Type} {h0 : Heap W} {e : PyError} {Q : α → Prop} : Keeps h0 (hexc (.error e)) Q :=
  fun _ he => ⟨he, fun _ ha => by cases ha⟩

omit [Scalar S] in
theorem subShiftH_keeps {h0 : Heap W} {shift : Option S} {y v : Nat} (hy : h0.next ≤ y) :
    Keeps h0 (subShiftH (W := W) shift y v) (fun _ => True) := by
  unfold subShiftH
  cases shift with
  | none => exact .pure trivial
  | some s => exact .bind .rd fun _ _ => .bind .rd fun _ _ => .wr hy

theorem symmlqEntryH_keeps {h0 : Heap W} (self : SymmlqObjH W) (kw : SymmlqKw S) (r1 y : Nat) (beta1 : S) :
    Keeps h0 (symmlqEntryH self kw r1 y beta1) (fun _ => True) := by
  unfold symmlqEntryH
  refine .bind (Q := fun _ => True) ?_ fun _ _ => .pure trivial
  unfold symmlqPreconCheckH
  cases self.precon with
  | none => exact .pure trivial
  | some M =>
    refine .ite (fun _ => ?_) fun _ => .pure trivial
    exact .bind .call' fun _ _ => .bind .rd fun _ _ => .bind .rd fun _ _ => .bind .rd fun _ _ => .pure trivial

theorem symmlqCheckH_keeps {h0 : Heap W} (self : SymmlqObjH W) (kw : SymmlqKw S) (y v : Nat) (st : Int × Bool) :
    Keeps h0 (symmlqCheckH self kw y v st) (fun _ => True) :=
  .ite (fun _ => .bind .call' fun _ _ => .bind .rd fun _ _ => .bind .rd fun _ _ => .bind .rd fun _ _ => .pure trivial)
    fun _ => .pure trivial

theorem nextY_keeps {h0 : Heap W} (o : Option (HOp W)) (r2 y : Nat) : Keeps h0 (nextY o r2 y) (fun _ => True) := by
  unfold nextY
  cases o with
  | none => exact .pure trivial
  | some M => exact .call'

/-- the arrays of the loop that are modified in place are newer than `h0` -/
def SymmlqNew (h0 : Heap W) (s : SymmlqLoop S Nat) : Prop := h0.next ≤ s.x ∧ h0.next ≤ s.w

theorem symmlqStartH_keeps {h0 : Heap W} (self : SymmlqObjH W) (kw : SymmlqKw S) (mv : HOp W) (x w r1 y0 : Nat) (iterates : List Nat)
    (bb : S) (st : Int × Bool) (hx : h0.next ≤ x) (hw : h0.next ≤ w) :
    Keeps h0 (symmlqStartH self kw mv x w r1 y0 iterates bb st) (fun r => SymmlqNew h0 r.1) := by
  unfold symmlqStartH
  exact .bind .rd fun _ _ => .bind .new fun v hv => .bind (.call hv) fun y hy => .bind (symmlqCheckH_keeps _ _ _ _ _) fun _ _ =>
    .bind (subShiftH_keeps hy) fun _ _ => .bind .rd fun _ _ => .bind .rd fun _ _ => .bind .rd fun _ _ => .bind .rd fun _ _ =>
    .bind (.wr hy) fun _ _ => .bind .rd fun _ _ => .bind .rd fun _ _ => .bind .rd fun _ _ => .bind .rd fun _ _ => .bind .rd fun _ _ =>
    .bind .rd fun _ _ => .bind (.wr hy) fun _ _ => .bind .rd fun _ _ => .bind .new fun _ _ => .bind (nextY_keeps _ _ _) fun _ _ =>
    .bind .rd fun _ _ => .bind .rd fun _ _ => .pure ⟨hx, hw⟩

theorem symmlqLanczosH_keeps {h0 : Heap W} (self : SymmlqObjH W) (kw : SymmlqKw S) (s : SymmlqLoop S Nat) :
    Keeps h0 (symmlqLanczosH self kw s) (fun _ => True) := by
  unfold symmlqLanczosH
  exact .bind .rd fun _ _ => .bind .new fun v hv => .bind (.call hv) fun y hy => .bind (subShiftH_keeps hy) fun _ _ =>
    .bind .rd fun _ _ => .bind .rd fun _ _ => .bind (.wr hy) fun _ _ => .bind .rd fun _ _ => .bind .rd fun _ _ =>
    .bind .rd fun _ _ => .bind .rd fun _ _ => .bind (.wr hy) fun _ _ => .bind .rd fun _ _ => .bind .new fun _ _ =>
    .bind .rd fun _ _ => .bind .new fun _ _ => .bind (nextY_keeps _ _ _) fun _ _ => .bind .rd fun _ _ => .bind .rd fun _ _ =>
    .pure trivial

theorem symmlqStepH_keeps {h0 : Heap W} (self : SymmlqObjH W) (kw : SymmlqKw S) (matvecMax : Nat) (beta1 : S) (s : SymmlqLoop S Nat)
    (hs : SymmlqNew h0 s) : Keeps h0 (symmlqStepH self kw matvecMax beta1 s) (SymmlqNew h0) := by
  unfold symmlqStepH
  refine .ite (fun _ => .pure hs) fun _ => ?_
  have ht : SymmlqNew h0 (symmlqTestH kw matvecMax beta1 s) := hs
  generalize symmlqTestH kw matvecMax beta1 s = t at ht
  unfold symmlqUpdateH
  refine .bind (symmlqLanczosH_keeps self kw t) ?_
  rintro ⟨v, alfa, r1, r2, y, bb⟩ -
  refine .ite (fun _ => .pure ht) fun _ => ?_
  exact .bind .rd fun _ _ => .bind .rd fun _ _ => .bind .rd fun _ _ => .bind (.wr ht.1) fun _ _ => .bind .rd fun _ _ =>
    .bind (.wr ht.2) fun _ _ => .bind .rd fun _ _ => .bind .rd fun _ _ => .bind (.wr ht.2) fun _ _ => .bind .append fun _ _ => .pure ht

theorem symmlqFinishH_keeps {h0 : Heap W} (self : SymmlqObjH W) (kw : SymmlqKw S) (beta1 : S) (b : Nat) (s : SymmlqLoop S Nat)
    (lqnorm diag : S) (hs : SymmlqNew h0 s) : Keeps h0 (symmlqFinishH self kw beta1 b s lqnorm diag) (fun r => h0.next ≤ r.x) := by
  unfold symmlqFinishH symmlqToCGH
  refine .bind (Q := fun _ => True) (.ite (fun _ => .bind .rd fun _ _ => .bind .rd fun _ _ => .wr hs.1) fun _ => .pure trivial) fun _ _ =>
    .bind (Q := fun _ => True) ?_ fun _ _ => .bind .rd fun _ _ => .bind .rd fun _ _ => .bind (.wr hs.1) fun _ _ =>
    .bind (.call hs.1) fun y hy => .bind (subShiftH_keeps hy) fun _ _ => .bind .rd fun _ _ => .bind .rd fun _ _ => .bind .new fun _ _ =>
    .bind .rd fun _ _ => .bind .rd fun _ _ => .pure hs.1
  unfold preconOrCopy
  cases self.precon with
  | none => exact .bind .rd fun _ _ => (Keeps.new).mono fun _ _ => trivial
  | some M => exact .call'

theorem symmlqSolveH_keeps (self : SymmlqObjH W) (n : Nat) (b : Nat) (kw : SymmlqKw S) (h0 : Heap W) :
    Keeps h0 (symmlqSolveH self n b kw) (fun r => h0.next ≤ r.x) := by
  unfold symmlqSolveH
  refine .bind .new fun w hw => .bind .new fun x hx => .bind .append fun _ _ => .bind .rd fun _ _ => .bind .new fun r1 hr1 =>
    .bind (Q := fun _ => True) ?_ fun y _ => .ite (fun _ => Keeps.error) fun _ => ?_
  · unfold symmlqFirstYH
    cases self.precon with
    | none => exact .bind .rd fun _ _ => (Keeps.new).mono fun _ _ => trivial
    | some M => exact .call'
  unfold symmlqBodyH
  refine .bind .rd fun _ _ => .bind .rd fun _ _ => .bind (symmlqEntryH_keeps _ _ _ _ _) fun st _ => .ite (fun _ => ?_) fun _ => Keeps.error
  cases self.matvec with
  | none => exact .bind .rd fun _ _ => .bind .new fun _ _ => Keeps.error
  | some mv =>
    refine .bind (symmlqStartH_keeps self kw mv x w r1 y _ _ st hx hw) ?_
    rintro ⟨s, beta1, done⟩ hs
    dsimp only
    unfold symmlqRunH
    refine .bind (Q := SymmlqNew h0) ?_ fun s hs => ?_
    · exact .ite (fun _ => .pure hs) fun _ => heapLoop_keeps _ (fun s hs => symmlqStepH_keeps self kw _ beta1 s hs) s hs
    · cases s.lqDiag with
      | none => exact Keeps.error
      | some p => exact symmlqFinishH_keeps self kw beta1 b s _ _ hs

end Verif.Solver
