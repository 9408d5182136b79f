import Verif.Solver.HeapBi
import Verif.Solver.TFQMR

/-!
# `TFQMR.solve` on the heap

A second model of `tfqmr.py:39-159`, with arrays as addresses.  The relation to the model with values needs an operator or a
preconditioner that returns new arrays: otherwise `u` and `y` may be one array, and `y *= beta` changes `u` before `v += u`.
-/

namespace Verif.Solver
open Scalar Vect

variable {S V : Type} [Scalar S] [Vect S V]

/-- local variables of `TFQMR.solve`; `x`, `y`, `w`, `d`, `z`, `u`, `v` are addresses -/
structure TFLoopH (S V : Type) where
  x : Nat
  y : Nat
  w : Nat
  d : Nat
  z : Nat
  u : Nat
  v : Nat
  rho : S
  theta : S
  eta : S
  residNorm : S
  k : Nat
  m : Option S
  nMatvec : Nat
  finished : Bool
  calls : List V

/-- the part common to both passes, `tfqmr.py:92-99` and `115-122` -/
def tfPassH (alpha : S) (s : TFLoopH S V) : HeapM V (TFLoopH S V) := do
  wr s.w ((← rd s.w) - smul alpha (← rd s.u))                            -- w -= alpha * u
  wr s.d (smul (s.theta * s.theta * s.eta / alpha) (← rd s.d))           -- d *= theta * theta * eta / alpha
  wr s.d ((← rd s.d) + (← rd s.z))                                       -- d += z
  let theta := norm (← rd s.w) / s.residNorm
  let c := lit 1 / sqrt (lit 1 + theta * theta)
  let eta := c * c * alpha
  wr s.x ((← rd s.x) + smul eta (← rd s.d))                              -- x += eta * d
  return { s with theta := theta, residNorm := s.residNorm * (theta * c), eta := eta }

/-- the stopping test, `tfqmr.py:101, 123` -/
def tfTestH (threshold : S) (matvecMax : Nat) (m : S) (s : TFLoopH S V) : Bool :=
  lt (s.residNorm * sqrt (m + lit 1)) threshold || decide (s.nMatvec ≥ matvecMax)

/-- second pass, `tfqmr.py:106-114` -/
def tfMidH (op : HOp V) (precon : Option (HOp V)) (alpha m : S) (s : TFLoopH S V) : HeapM V (TFLoopH S V) := do
  wr s.y ((← rd s.y) - smul alpha (← rd s.v))                            -- y -= alpha * v
  let z ← callPrecon precon s.y                                          -- z = self.precon * y
  let arg ← rd z
  let u ← call op z                                                      -- u = self.op * z
  return { s with z := z, u := u, m := some m, nMatvec := s.nMatvec + 1, calls := s.calls ++ [arg] }

/-- final updates, `tfqmr.py:128-150` -/
def tfFinalH (op : HOp V) (precon : Option (HOp V)) (r0 : Nat) (s : TFLoopH S V) : HeapM V (TFLoopH S V) := do
  let rhoNext := dot (← rd r0) (← rd s.w)
  let beta := rhoNext / s.rho
  wr s.y (smul beta (← rd s.y))                                          -- y *= beta
  wr s.y ((← rd s.y) + (← rd s.w))                                       -- y += w
  wr s.v (smul beta (← rd s.v))                                          -- v *= beta
  wr s.v ((← rd s.v) + (← rd s.u))                                       -- v += u
  wr s.v (smul beta (← rd s.v))                                          -- v *= beta
  let z ← callPrecon precon s.y                                          -- z = self.precon * y
  let arg ← rd z
  let u ← call op z                                                      -- u = self.op * z
  wr s.v ((← rd s.v) + (← rd u))                                         -- v += u
  return { s with rho := rhoNext, z := z, u := u, nMatvec := s.nMatvec + 1, calls := s.calls ++ [arg] }

/-- the loop body, `tfqmr.py:85-150` -/
def tfStepH (op : HOp V) (precon : Option (HOp V)) (threshold : S) (matvecMax : Nat) (r0 : Nat) (s : TFLoopH S V) :
    HeapM V (TFLoopH S V) := do
  let alpha := s.rho / dot (← rd r0) (← rd s.v)
  let m := lit 2 * lit ((s.k + 1 : Nat) : ℚ) - lit 1
  let s1 ← tfPassH alpha s
  let s1 := { s1 with k := s.k + 1, m := some m }
  if tfTestH threshold matvecMax m s1 then return { s1 with finished := true }
  else
    let s2 ← tfMidH op precon alpha (m + lit 1) s1
    let s2 ← tfPassH alpha s2
    if tfTestH threshold matvecMax (m + lit 1) s2 then return { s2 with finished := true }
    else tfFinalH op precon r0 s2

theorem bind_tfPassH {β : Type} (alpha : S) (s : TFLoopH S V) (f : TFLoopH S V → HeapM V β) (h : Heap V) :
    (tfPassH alpha s >>= f) h = f (tfPassH alpha s h).1 (tfPassH alpha s h).2 := rfl

omit [Scalar S] in
theorem bind_tfMidH {β : Type} (op : HOp V) (precon : Option (HOp V)) (alpha m : S) (s : TFLoopH S V)
    (f : TFLoopH S V → HeapM V β) (h : Heap V) :
    (tfMidH op precon alpha m s >>= f) h = f (tfMidH op precon alpha m s h).1 (tfMidH op precon alpha m s h).2 := rfl

omit [Vect S V] in
theorem tfTestH_false {threshold : S} {matvecMax : Nat} {m : S} {s : TFLoopH S V}
    (h : ¬ tfTestH threshold matvecMax m s = true) : s.nMatvec < matvecMax := by
  simp only [tfTestH, ge_iff_le, Bool.or_eq_true, decide_eq_true_eq, not_or, not_le] at h
  exact h.2

theorem tfPassH_nMatvec (alpha : S) (s : TFLoopH S V) (h : Heap V) : (tfPassH alpha s h).1.nMatvec = s.nMatvec := rfl
omit [Scalar S] in
theorem tfMidH_nMatvec (op : HOp V) (precon : Option (HOp V)) (alpha m : S) (s : TFLoopH S V) (h : Heap V) :
    (tfMidH op precon alpha m s h).1.nMatvec = s.nMatvec + 1 := rfl
theorem tfFinalH_nMatvec (op : HOp V) (precon : Option (HOp V)) (r0 : Nat) (s : TFLoopH S V) (h : Heap V) :
    (tfFinalH op precon r0 s h).1.nMatvec = s.nMatvec + 1 := rfl

theorem tfStepH_nMatvec (op : HOp V) (precon : Option (HOp V)) (threshold : S) (matvecMax : Nat) (r0 : Nat) (s : TFLoopH S V)
    (h : Heap V) : (tfStepH op precon threshold matvecMax r0 s h).1.finished = false →
      (tfStepH op precon threshold matvecMax r0 s h).1.nMatvec = s.nMatvec + 2 ∧ s.nMatvec + 2 ≤ matvecMax := by
  unfold tfStepH
  simp only [bind_rd, bind_tfPassH, bind_tfMidH, HeapM.ite_apply, HeapM.pure_apply]
  split
  · exact fun h => by cases h
  · split
    · exact fun h => by cases h
    · rename_i h2
      have h2 := tfTestH_false h2
      rw [tfPassH_nMatvec, tfMidH_nMatvec] at h2
      simp only [tfPassH_nMatvec] at h2
      intro _
      exact ⟨rfl, by omega⟩

/-- the loop, `tfqmr.py:85-150` -/
def tfLoopH (op : HOp V) (precon : Option (HOp V)) (threshold : S) (matvecMax : Nat) (r0 : Nat) (s : TFLoopH S V) :
    HeapM V (TFLoopH S V) := fun h =>
  whileLoop (fun t : TFLoopH S V × Heap V => !t.1.finished) (fun t => tfStepH op precon threshold matvecMax r0 t.1 t.2)
    (fun t => matvecMax - t.1.nMatvec)
    (fun t _ h => by
      have h1 := tfStepH_nMatvec op precon threshold matvecMax r0 t.1 t.2 (by simpa using h)
      omega) (s, h)

/-- the end of `solve`, `tfqmr.py:156-159` -/
def tfResultH (threshold residNorm0 : S) (s : TFLoopH S V) : Except PyError (KrylovRes S Nat × List V) :=
  match s.m with
  | none => .error (.unboundLocal "m")
  | some m =>
    .ok ({ residNorm0 := residNorm0, converged := lt (s.residNorm * sqrt (m + lit 1)) threshold, nMatvec := s.nMatvec,
           x := s.x, residNorm := s.residNorm }, s.calls)

/-- `TFQMR.solve` on the heap, `tfqmr.py:39-159`; `rhs` and `kw.guess` are addresses -/
def tfSolveH (op : HOp V) (o : HOpts S V) (n : Nat) (rhs : Nat) (kw : KrylovKw Nat) :
    HeapM V (Except PyError (KrylovRes S Nat × List V)) := do
  let x ← startGuess kw.guess
  let matvecMax := kw.matvecMax.getD (2 * n)
  let (r0, calls) ← startResidH op kw.guess.isSome x rhs
  let rho := dot (← rd r0) (← rd r0)
  let residNorm := abs (sqrt rho)
  let threshold := pymax o.abstol (o.reltol * residNorm)
  if le residNorm threshold || decide (0 ≥ matvecMax) then
    return .error (.unboundLocal "m")
  else
    let y ← new (← rd r0)                                                -- y = r0.copy()
    let w ← new (← rd r0)                                                -- w = r0.copy()
    let d ← new zeros
    let z ← callPrecon o.precon y                                        -- z = self.precon * y
    let arg ← rd z
    let u ← call op z                                                    -- u = self.op * z
    let v ← new (← rd u)                                                 -- v = u.copy()
    let s ← tfLoopH op o.precon threshold matvecMax r0
      { x := x, y := y, w := w, d := d, z := z, u := u, v := v, rho := rho, theta := lit 0, eta := lit 0, residNorm := residNorm,
        k := 0, m := none, nMatvec := 1, finished := false, calls := calls ++ [arg] }
    return tfResultH threshold residNorm s

/-! ### No array of the caller is modified -/

/-- the arrays the loop of TFQMR writes to are newer than `h0`, and nothing older has been modified -/
structure TFFrame (h0 : Heap V) (s : TFLoopH S V) (h : Heap V) : Prop where
  ext : h0.Ext h
  x : h0.next ≤ s.x
  y : h0.next ≤ s.y
  w : h0.next ≤ s.w
  d : h0.next ≤ s.d
  v : h0.next ≤ s.v

theorem tfPassH_frame (h0 : Heap V) (alpha : S) (s : TFLoopH S V) (h : Heap V) (hs : TFFrame h0 s h) :
    TFFrame h0 (tfPassH alpha s h).1 (tfPassH alpha s h).2 := by
  obtain ⟨ext, hx, hy, hw, hd, hv⟩ := hs
  unfold tfPassH
  simp only [bind_rd, bind_wr, HeapM.pure_apply]
  exact ⟨(((ext.upd hw _).upd hd _).upd hd _).upd hx _, hx, hy, hw, hd, hv⟩

omit [Scalar S] in
theorem tfMidH_frame (h0 : Heap V) (op : HOp V) (precon : Option (HOp V)) (alpha m : S) (s : TFLoopH S V) (h : Heap V)
    (hs : TFFrame h0 s h) : TFFrame h0 (tfMidH op precon alpha m s h).1 (tfMidH op precon alpha m s h).2 := by
  obtain ⟨ext, hx, hy, hw, hd, hv⟩ := hs
  unfold tfMidH
  simp only [bind_rd, bind_wr, bind_call, bind_callPrecon, HeapM.pure_apply]
  exact ⟨((ext.upd hy _).trans (callPrecon_ext _ _ _).1).trans (call_ext _ _ _).1, hx, hy, hw, hd, hv⟩

theorem tfFinalH_frame (h0 : Heap V) (op : HOp V) (precon : Option (HOp V)) (r0 : Nat) (s : TFLoopH S V) (h : Heap V)
    (hs : TFFrame h0 s h) : TFFrame h0 (tfFinalH op precon r0 s h).1 (tfFinalH op precon r0 s h).2 := by
  obtain ⟨ext, hx, hy, hw, hd, hv⟩ := hs
  unfold tfFinalH
  simp only [bind_rd, bind_wr, bind_call, bind_callPrecon, HeapM.pure_apply]
  exact ⟨((((((((ext.upd hy _).upd hy _).upd hv _).upd hv _).upd hv _).trans (callPrecon_ext _ _ _).1).trans
    (call_ext _ _ _).1).upd hv _), hx, hy, hw, hd, hv⟩

theorem tfStepH_frame (op : HOp V) (precon : Option (HOp V)) (threshold : S) (mm : Nat) (h0 : Heap V) (r0 : Nat)
    (s : TFLoopH S V) (h : Heap V) (hs : TFFrame h0 s h) :
    TFFrame h0 (tfStepH op precon threshold mm r0 s h).1 (tfStepH op precon threshold mm r0 s h).2 := by
  unfold tfStepH
  simp only [bind_rd, bind_tfPassH, bind_tfMidH, HeapM.ite_apply, HeapM.pure_apply]
  have re : ∀ {a : TFLoopH S V} {g : Heap V} (k : Nat) (m : Option S) (f : Bool), TFFrame h0 a g →
      TFFrame h0 { a with k := k, m := m, finished := f } g := fun _ _ _ H => ⟨H.ext, H.x, H.y, H.w, H.d, H.v⟩
  have h1 := tfPassH_frame h0 (s.rho / dot (h.mem r0) (h.mem s.v)) s h hs
  split
  · exact re _ _ _ h1
  · have h2 := tfPassH_frame h0 (s.rho / dot (h.mem r0) (h.mem s.v)) _ _
      (tfMidH_frame h0 op precon (s.rho / dot (h.mem r0) (h.mem s.v)) (lit 2 * lit ((s.k + 1 : Nat) : ℚ) - lit 1 + lit 1) _ _
        (re (s.k + 1) (some (lit 2 * lit ((s.k + 1 : Nat) : ℚ) - lit 1)) s.finished h1))
    split
    · exact re _ _ _ h2
    · exact tfFinalH_frame h0 op precon r0 _ _ h2

theorem tfLoopH_frame (op : HOp V) (precon : Option (HOp V)) (threshold : S) (mm : Nat) (h0 : Heap V) (r0 : Nat)
    (s : TFLoopH S V) (h : Heap V) (hs : TFFrame h0 s h) :
    TFFrame h0 (tfLoopH op precon threshold mm r0 s h).1 (tfLoopH op precon threshold mm r0 s h).2 := by
  unfold tfLoopH
  exact (whileLoop_inv (fun a : TFLoopH S V × Heap V => TFFrame h0 a.1 a.2)
    (fun a ha _ => tfStepH_frame op precon threshold mm h0 r0 a.1 a.2 ha) (s, h) hs).1

theorem bind_tfLoopH {β : Type} (op : HOp V) (precon : Option (HOp V)) (threshold : S) (mm : Nat) (r0 : Nat) (s : TFLoopH S V)
    (f : TFLoopH S V → HeapM V β) (h : Heap V) : (tfLoopH op precon threshold mm r0 s >>= f) h =
      f (tfLoopH op precon threshold mm r0 s h).1 (tfLoopH op precon threshold mm r0 s h).2 := rfl

omit [Vect S V] in
theorem tfResultH_x {threshold residNorm0 : S} {s : TFLoopH S V} {r : KrylovRes S Nat × List V}
    (h : tfResultH threshold residNorm0 s = .ok r) : r.1.x = s.x := by
  unfold tfResultH at h
  split at h
  · cases h
  · cases h
    rfl

/-- `TFQMR.solve` modifies no array that existed before, and returns a new array. -/
theorem tfSolveH_frame (op : HOp V) (o : HOpts S V) (n : Nat) (rhs : Nat) (kw : KrylovKw Nat) (h : Heap V) :
    h.Ext (tfSolveH op o n rhs kw h).2 ∧ ∀ r, (tfSolveH op o n rhs kw h).1 = .ok r → h.next ≤ r.1.x := by
  unfold tfSolveH
  simp only [bind_rd, bind_new, bind_call, bind_callPrecon, bind_startGuess, bind_startResidH, bind_tfLoopH, HeapM.ite_apply,
    HeapM.pure_apply]
  have e0 := fun x0 => (h.ext_alloc x0).trans (startResidH_ext op kw.guess.isSome h.next rhs (h.alloc x0))
  split
  · exact ⟨e0 _, fun r hr => by cases hr⟩
  · generalize hth : pymax o.abstol _ = th
    generalize hhb : (startResidH op kw.guess.isSome h.next rhs _).2 = hb
    generalize hr0 : (startResidH op kw.guess.isSome h.next rhs _).1 = rc
    have e1 : h.Ext hb := by rw [← hhb]; exact e0 _
    have n1 := e1.next
    have e2 := fun v v' => ((e1.trans (hb.ext_alloc v)).trans (Heap.ext_alloc _ v')).trans (Heap.ext_alloc _ zeros)
    have e3 := fun v v' l => ((e2 v v').trans (callPrecon_ext o.precon hb.next _).1).trans (call_ext op l _).1
    refine (fun H => ⟨TFFrame.ext H, fun r hr => by rw [tfResultH_x hr]; exact TFFrame.x H⟩)
      (tfLoopH_frame op o.precon th (kw.matvecMax.getD (2 * n)) h rc.1 _ _ ?_)
    refine ⟨(e3 _ _ _).trans (Heap.ext_alloc _ _), le_refl _, n1, ?_, ?_, (e3 _ _ _).next⟩
    · simp only [Heap.next_alloc]
      omega
    · simp only [Heap.next_alloc]
      omega

/-! ### Relation to the model with values -/

/-- the two loops are at the same point; `z` may be the same array as `y`, all others are different -/
structure TFSim (h0 : Heap V) (r0 : Nat) (r0v : V) (s : TFLoopH S V) (h : Heap V) (t : TFLoop S V) : Prop where
  x : h.mem s.x = t.x
  y : h.mem s.y = t.y
  w : h.mem s.w = t.w
  d : h.mem s.d = t.d
  z : h.mem s.z = t.z
  u : h.mem s.u = t.u
  v : h.mem s.v = t.v
  r0v : h.mem r0 = r0v
  rho : s.rho = t.rho
  theta : s.theta = t.theta
  eta : s.eta = t.eta
  residNorm : s.residNorm = t.residNorm
  k : s.k = t.k
  m : s.m = t.m
  nMatvec : s.nMatvec = t.nMatvec
  finished : s.finished = t.finished
  calls : s.calls = t.calls
  hx : s.x < h.next ∧ s.x ≠ s.y ∧ s.x ≠ s.w ∧ s.x ≠ s.d ∧ s.x ≠ s.v
  hy : s.y < h.next ∧ s.y ≠ s.w ∧ s.y ≠ s.d ∧ s.y ≠ s.v
  hw : s.w < h.next ∧ s.w ≠ s.d ∧ s.w ≠ s.v
  hd : s.d < h.next ∧ s.d ≠ s.v
  hv : s.v < h.next
  hz : s.z < h.next ∧ s.z ≠ s.x ∧ s.z ≠ s.w ∧ s.z ≠ s.d ∧ s.z ≠ s.v
  hu : s.u < h.next ∧ s.u ≠ s.x ∧ s.u ≠ s.y ∧ s.u ≠ s.w ∧ s.u ≠ s.d ∧ s.u ≠ s.v
  hr0 : r0 < h.next ∧ r0 ≠ s.x ∧ r0 ≠ s.y ∧ r0 ≠ s.w ∧ r0 ≠ s.d ∧ r0 ≠ s.v

theorem tfPassH_sim (h0 : Heap V) (r0 : Nat) (r0v : V) (alpha : S) (s : TFLoopH S V) (h : Heap V) (t : TFLoop S V)
    (hs : TFSim h0 r0 r0v s h t) :
    TFSim h0 r0 r0v (tfPassH alpha s h).1 (tfPassH alpha s h).2 (tfPass alpha t) := by
  obtain ⟨ex, ey, ew, ed, ez, eu, ev, er0, erho, eth, eeta, ern, ek, em, enm, efin, ecalls, ⟨hx, xy, xw, xd, xv⟩, ⟨hy, yw, yd, yv⟩,
    ⟨hw, wd, wv⟩, ⟨hd, dv⟩, hv, ⟨hz, zx, zw, zd, zv⟩, ⟨hu, ux, uy, uw, ud, uv⟩, ⟨hr0, r0x, r0y, r0w, r0d, r0v'⟩⟩ := hs
  unfold tfPassH tfPass
  simp only [bind_rd, bind_wr, HeapM.pure_apply]
  simp only [Heap.mem_upd, if_true, if_neg wd, if_neg wd.symm, if_neg zd, if_neg zw, if_neg xd, if_neg xw, ex, ew, ed, ez, eu,
    eth, eeta, ern]
  constructor
  · simp only [Heap.mem_upd, if_true]
  · simp only [Heap.mem_upd, if_neg xy.symm, if_neg yd, if_neg yw]
    exact ey
  · simp only [Heap.mem_upd, if_neg xw.symm, if_neg wd, if_true]
  · simp only [Heap.mem_upd, if_neg xd.symm, if_true]
  · simp only [Heap.mem_upd, if_neg zx, if_neg zd, if_neg zw]
    exact ez
  · simp only [Heap.mem_upd, if_neg ux, if_neg ud, if_neg uw]
    exact eu
  · simp only [Heap.mem_upd, if_neg xv.symm, if_neg dv.symm, if_neg wv.symm]
    exact ev
  · simp only [Heap.mem_upd, if_neg r0x, if_neg r0d, if_neg r0w]
    exact er0
  · exact erho
  · rfl
  · rfl
  · rfl
  · exact ek
  · exact em
  · exact enm
  · exact efin
  · exact ecalls
  · exact ⟨hx, xy, xw, xd, xv⟩
  · exact ⟨hy, yw, yd, yv⟩
  · exact ⟨hw, wd, wv⟩
  · exact ⟨hd, dv⟩
  · exact hv
  · exact ⟨hz, zx, zw, zd, zv⟩
  · exact ⟨hu, ux, uy, uw, ud, uv⟩
  · exact ⟨hr0, r0x, r0y, r0w, r0d, r0v'⟩

theorem fresh_or {y z u n nb : Nat} (a4 : z = y ∨ z = n) (b4 : u = z ∨ u = nb) (hn : n ≤ nb) :
    ∀ k, k < n → k ≠ y → z ≠ k ∧ u ≠ k := by
  intro k hk hky
  have hz : z ≠ k := by
    rcases a4 with rfl | rfl
    · exact hky.symm
    · exact (Nat.ne_of_lt hk).symm
  refine ⟨hz, ?_⟩
  rcases b4 with rfl | rfl
  · exact hz
  · exact (Nat.ne_of_lt (Nat.lt_of_lt_of_le hk hn)).symm

omit [Scalar S] in
theorem tfMidH_sim (h0 : Heap V) (op : HOp V) (precon : Option (HOp V)) (hsep : Separate op precon) (r0 : Nat) (r0v : V)
    (alpha m : S) (s : TFLoopH S V) (h : Heap V) (t : TFLoop S V) (hs : TFSim h0 r0 r0v s h t) :
    TFSim h0 r0 r0v (tfMidH op precon alpha m s h).1 (tfMidH op precon alpha m s h).2
      (tfMid op.fn (HOp.fn? precon) alpha m t) := by
  obtain ⟨ex, ey, ew, ed, ez, eu, ev, er0, erho, eth, eeta, ern, ek, em, enm, efin, ecalls, ⟨hx, xy, xw, xd, xv⟩, ⟨hy, yw, yd, yv⟩,
    ⟨hw, wd, wv⟩, ⟨hd, dv⟩, hv, ⟨hz, zx, zw, zd, zv⟩, ⟨hu, ux, uy, uw, ud, uv⟩, ⟨hr0, r0x, r0y, r0w, r0d, r0v'⟩⟩ := hs
  unfold tfMidH tfMid
  simp only [bind_rd, bind_wr, bind_call, bind_callPrecon, HeapM.pure_apply, ey, ev]
  generalize t.y - smul alpha t.v = Y
  have p1 : (h.upd s.y Y).mem s.y = Y := Heap.mem_upd_self _ _ _
  have p2 : ∀ k, k ≠ s.y → (h.upd s.y Y).mem k = h.mem k := fun k hk => Heap.mem_upd_ne _ _ hk
  have p3 : (h.upd s.y Y).next = h.next := rfl
  generalize h.upd s.y Y = ha at p1 p2 p3 ⊢
  obtain ⟨a1, a2, a3, a4⟩ := callPrecon_spec precon s.y ha (by omega)
  have hne := hsep.ne s.y ha (by omega)
  generalize (callPrecon precon s.y ha).1 = z at a1 a3 a4 hne ⊢
  generalize (callPrecon precon s.y ha).2 = hb at a1 a2 a3 hne ⊢
  have an := a2.next
  obtain ⟨b1, b2, b3, b4⟩ := call_spec op z hb a3
  generalize (call op z hb).1 = u at b1 b3 b4 hne ⊢
  generalize (call op z hb).2 = hc at b1 b2 b3 ⊢
  have bn := b2.next
  have lt : ∀ k < h.next, k < hc.next := fun k hk =>
    Nat.lt_of_lt_of_le hk ((Nat.le_of_eq p3.symm).trans (an.trans bn))
  have lta : ∀ k < h.next, k < ha.next := fun k hk => Nat.lt_of_lt_of_le hk (Nat.le_of_eq p3.symm)
  have ne := fresh_or a4 b4 an
  rw [p1] at a1
  rw [a1] at b1
  have old : ∀ k < h.next, k ≠ s.y → hc.mem k = h.mem k := fun k hk hky => by
    rw [(a2.trans b2).mem k (lta k hk), p2 k hky]
  constructor
  · exact (old _ hx xy).trans ex
  · exact ((a2.trans b2).mem _ (lta _ hy)).trans p1
  · exact (old _ hw yw.symm).trans ew
  · exact (old _ hd yd.symm).trans ed
  · exact (b2.mem _ a3).trans a1
  · exact b1
  · exact (old _ hv yv.symm).trans ev
  · exact (old _ hr0 r0y).trans er0
  · exact erho
  · exact eth
  · exact eeta
  · exact ern
  · exact ek
  · rfl
  · simp only [enm]
  · exact efin
  · simp only [ecalls, a1]
  · exact ⟨lt _ hx, xy, xw, xd, xv⟩
  · exact ⟨lt _ hy, yw, yd, yv⟩
  · exact ⟨lt _ hw, wd, wv⟩
  · exact ⟨lt _ hd, dv⟩
  · exact lt _ hv
  · exact ⟨Nat.lt_of_lt_of_le a3 bn, (ne _ (lta _ hx) xy).1, (ne _ (lta _ hw) yw.symm).1, (ne _ (lta _ hd) yd.symm).1,
      (ne _ (lta _ hv) yv.symm).1⟩
  · exact ⟨b3, (ne _ (lta _ hx) xy).2, hne, (ne _ (lta _ hw) yw.symm).2, (ne _ (lta _ hd) yd.symm).2,
      (ne _ (lta _ hv) yv.symm).2⟩
  · exact ⟨lt _ hr0, r0x, r0y, r0w, r0d, r0v'⟩

theorem tfFinalH_sim (h0 : Heap V) (op : HOp V) (precon : Option (HOp V)) (hsep : Separate op precon) (r0 : Nat) (r0v : V)
    (s : TFLoopH S V) (h : Heap V) (t : TFLoop S V) (hs : TFSim h0 r0 r0v s h t) :
    TFSim h0 r0 r0v (tfFinalH op precon r0 s h).1 (tfFinalH op precon r0 s h).2
      (tfFinal op.fn (HOp.fn? precon) r0v t) := by
  obtain ⟨ex, ey, ew, ed, ez, eu, ev, er0, erho, eth, eeta, ern, ek, em, enm, efin, ecalls, ⟨hx, xy, xw, xd, xv⟩, ⟨hy, yw, yd, yv⟩,
    ⟨hw, wd, wv⟩, ⟨hd, dv⟩, hv, ⟨hz, zx, zw, zd, zv⟩, ⟨hu, ux, uy, uw, ud, uv⟩, ⟨hr0, r0x, r0y, r0w, r0d, r0v'⟩⟩ := hs
  unfold tfFinalH tfFinal
  simp only [bind_rd, bind_wr, bind_call, bind_callPrecon, HeapM.pure_apply, er0, ew, erho]
  generalize dot r0v t.w = rn
  generalize rn / t.rho = beta
  simp only [Heap.mem_upd, if_true, if_neg yw.symm, if_neg yv.symm, if_neg uv, if_neg uy, ey, ew, ev, eu]
  generalize smul beta t.y + t.w = Y
  generalize smul beta (smul beta t.v + t.u) = W
  generalize hha : ((((h.upd s.y _).upd s.y Y).upd s.v _).upd s.v _).upd s.v W = ha
  have p1 : ha.mem s.y = Y := by
    rw [← hha]
    simp only [Heap.mem_upd, if_neg yv, if_true]
  have p2 : ha.mem s.v = W := by
    rw [← hha]
    exact Heap.mem_upd_self _ _ _
  have p3 : ∀ k, k ≠ s.y → k ≠ s.v → ha.mem k = h.mem k := by
    intro k hk hk'
    rw [← hha]
    simp only [Heap.mem_upd, if_neg hk, if_neg hk']
  have p4 : ha.next = h.next := by rw [← hha]; rfl
  clear hha
  obtain ⟨a1, a2, a3, a4⟩ := callPrecon_spec precon s.y ha (by omega)
  have hne := hsep.ne s.y ha (by omega)
  generalize (callPrecon precon s.y ha).1 = z at a1 a3 a4 hne ⊢
  generalize (callPrecon precon s.y ha).2 = hb at a1 a2 a3 hne ⊢
  have an := a2.next
  obtain ⟨b1, b2, b3, b4⟩ := call_spec op z hb a3
  generalize (call op z hb).1 = u at b1 b3 b4 hne ⊢
  generalize (call op z hb).2 = hc at b1 b2 b3 ⊢
  have bn := b2.next
  have lt : ∀ k < h.next, k < hc.next := fun k hk =>
    Nat.lt_of_lt_of_le hk ((Nat.le_of_eq p4.symm).trans (an.trans bn))
  have lta : ∀ k < h.next, k < ha.next := fun k hk => Nat.lt_of_lt_of_le hk (Nat.le_of_eq p4.symm)
  have ne := fresh_or a4 b4 an
  rw [p1] at a1
  rw [a1] at b1
  have old : ∀ k < h.next, k ≠ s.y → k ≠ s.v → hc.mem k = h.mem k := fun k hk h1 h2 => by
    rw [(a2.trans b2).mem k (lta k hk), p3 k h1 h2]
  have c1 : hc.mem s.v = W := by rw [(a2.trans b2).mem _ (lta _ hv), p2]
  simp only [c1, b1]
  have fin : ∀ k, k ≠ s.v → (hc.upd s.v (W + op.fn (applyPrecon (HOp.fn? precon) Y))).mem k = hc.mem k :=
    fun k hk => Heap.mem_upd_ne _ _ hk
  constructor
  · exact (fin _ xv).trans ((old _ hx xy xv).trans ex)
  · exact (fin _ yv).trans (((a2.trans b2).mem _ (lta _ hy)).trans p1)
  · exact (fin _ wv).trans ((old _ hw yw.symm wv).trans ew)
  · exact (fin _ dv).trans ((old _ hd yd.symm dv).trans ed)
  · exact (fin _ (ne _ (lta _ hv) yv.symm).1).trans ((b2.mem _ a3).trans a1)
  · exact (fin _ (ne _ (lta _ hv) yv.symm).2).trans b1
  · exact Heap.mem_upd_self _ _ _
  · exact (fin _ r0v').trans ((old _ hr0 r0y r0v').trans er0)
  · rfl
  · exact eth
  · exact eeta
  · exact ern
  · exact ek
  · exact em
  · simp only [enm]
  · exact efin
  · simp only [ecalls, a1]
  · exact ⟨lt _ hx, xy, xw, xd, xv⟩
  · exact ⟨lt _ hy, yw, yd, yv⟩
  · exact ⟨lt _ hw, wd, wv⟩
  · exact ⟨lt _ hd, dv⟩
  · exact lt _ hv
  · exact ⟨Nat.lt_of_lt_of_le a3 bn, (ne _ (lta _ hx) xy).1, (ne _ (lta _ hw) yw.symm).1, (ne _ (lta _ hd) yd.symm).1,
      (ne _ (lta _ hv) yv.symm).1⟩
  · exact ⟨b3, (ne _ (lta _ hx) xy).2, hne, (ne _ (lta _ hw) yw.symm).2, (ne _ (lta _ hd) yd.symm).2,
      (ne _ (lta _ hv) yv.symm).2⟩
  · exact ⟨lt _ hr0, r0x, r0y, r0w, r0d, r0v'⟩

omit [Scalar S] [Vect S V] in
theorem TFSim.with {h0 : Heap V} {r0 : Nat} {r0v : V} {s : TFLoopH S V} {h : Heap V} {t : TFLoop S V} (hs : TFSim h0 r0 r0v s h t)
    (k : Nat) (m : Option S) (f : Bool) :
    TFSim h0 r0 r0v { s with k := k, m := m, finished := f } h { t with k := k, m := m, finished := f } := by
  obtain ⟨ex, ey, ew, ed, ez, eu, ev, er0, erho, eth, eeta, ern, ek, em, enm, efin, ecalls, a1, a2, a3, a4, a5, a6, a7, a8⟩ := hs
  exact ⟨ex, ey, ew, ed, ez, eu, ev, er0, erho, eth, eeta, ern, rfl, rfl, enm, rfl, ecalls, a1, a2, a3, a4, a5, a6, a7, a8⟩

theorem tfStepH_sim (op : HOp V) (precon : Option (HOp V)) (hsep : Separate op precon) (threshold : S) (mm : Nat) (h0 : Heap V)
    (r0 : Nat) (r0v : V) (s : TFLoopH S V) (h : Heap V) (t : TFLoop S V) (hs : TFSim h0 r0 r0v s h t) :
    TFSim h0 r0 r0v (tfStepH op precon threshold mm r0 s h).1 (tfStepH op precon threshold mm r0 s h).2
      (tfStep op.fn (HOp.fn? precon) threshold mm r0v t) := by
  unfold tfStepH tfStep
  simp only [bind_rd, bind_tfPassH, bind_tfMidH, HeapM.ite_apply, HeapM.pure_apply, hs.rho, hs.r0v, hs.v, hs.k]
  generalize t.rho / dot r0v t.v = alpha
  generalize (lit 2 * lit ((t.k + 1 : Nat) : ℚ) - lit 1 : S) = m
  have test : ∀ {a : TFLoopH S V} {g : Heap V} {b : TFLoop S V} (m : S), TFSim h0 r0 r0v a g b →
      tfTestH threshold mm m a = tfTest threshold mm m b := fun m H => by
    unfold tfTestH tfTest
    rw [H.residNorm, H.nMatvec]
  have h1 := (tfPassH_sim h0 r0 r0v alpha s h t hs).with (t.k + 1) (some m) s.finished
  have h2 : TFSim h0 r0 r0v { (tfPassH alpha s h).1 with k := t.k + 1, m := some m } (tfPassH alpha s h).2
      { tfPass alpha t with k := t.k + 1, m := some m } := by
    have := hs.finished
    exact ⟨h1.x, h1.y, h1.w, h1.d, h1.z, h1.u, h1.v, h1.r0v, h1.rho, h1.theta, h1.eta, h1.residNorm, rfl, rfl, h1.nMatvec, this,
      h1.calls, h1.hx, h1.hy, h1.hw, h1.hd, h1.hv, h1.hz, h1.hu, h1.hr0⟩
  rw [test m h2]
  cases tfTest threshold mm m { tfPass alpha t with k := t.k + 1, m := some m }
  · simp only [Bool.false_eq_true, if_false]
    have h3 := tfPassH_sim h0 r0 r0v alpha _ _ _ (tfMidH_sim h0 op precon hsep r0 r0v alpha (m + lit 1) _ _ _ h2)
    rw [test _ h3]
    cases tfTest threshold mm (m + lit 1) _
    · simp only [Bool.false_eq_true, if_false]
      exact tfFinalH_sim h0 op precon hsep r0 r0v _ _ _ h3
    · simp only [if_true]
      exact ⟨h3.x, h3.y, h3.w, h3.d, h3.z, h3.u, h3.v, h3.r0v, h3.rho, h3.theta, h3.eta, h3.residNorm, h3.k, h3.m, h3.nMatvec, rfl,
        h3.calls, h3.hx, h3.hy, h3.hw, h3.hd, h3.hv, h3.hz, h3.hu, h3.hr0⟩
  · simp only [if_true]
    exact h1.with _ _ _

theorem tfLoopH_sim (op : HOp V) (precon : Option (HOp V)) (hsep : Separate op precon) (threshold : S) (mm : Nat) (h0 : Heap V)
    (r0 : Nat) (r0v : V) (s : TFLoopH S V) (h : Heap V) (t : TFLoop S V) (hs : TFSim h0 r0 r0v s h t) :
    TFSim h0 r0 r0v (tfLoopH op precon threshold mm r0 s h).1 (tfLoopH op precon threshold mm r0 s h).2
      (tfLoop op.fn (HOp.fn? precon) threshold mm r0v t) := by
  unfold tfLoopH tfLoop
  exact whileLoop_sim (R := fun (a : TFLoopH S V × Heap V) b => TFSim h0 r0 r0v a.1 a.2 b)
    (fun a b hab => by rw [hab.finished])
    (fun a b hab _ => tfStepH_sim op precon hsep threshold mm h0 r0 r0v a.1 a.2 b hab) (s, h) t hs

theorem tf_tail (op : V → V) (precon : Option (V → V)) (threshold : S) (mm : Nat) (r0 : V) (rn : S) (c : Bool) (A B : TFLoop S V)
    (hA : A.finished = true) (hm : A.m = none) :
    tfResult threshold rn (tfLoop op precon threshold mm r0 (if c = true then A else B)) =
      if c = true then .error (.unboundLocal "m") else tfResult threshold rn (tfLoop op precon threshold mm r0 B) := by
  cases c
  · rfl
  · simp only [if_true]
    unfold tfLoop
    rw [whileLoop_of_not (by simp only [hA]; rfl)]
    unfold tfResult
    rw [hm]

/-- `tfSolve` with the case distinction on the guess inside -/
theorem tfSolve_form (op : V → V) (o : KrylovOpts S V) (n : Nat) (rhs : V) (kw : KrylovKw V) :
    tfSolve op o n rhs kw =
      let x := kw.guess.getD zeros
      let matvecMax := kw.matvecMax.getD (2 * n)
      let r0 := if kw.guess.isSome then rhs - op x else rhs
      let calls := if kw.guess.isSome then [x] else []
      let rho := dot r0 r0
      let residNorm := abs (sqrt rho)
      let threshold := pymax o.abstol (o.reltol * residNorm)
      let z := applyPrecon o.precon r0
      if le residNorm threshold || decide (0 ≥ matvecMax) then .error (.unboundLocal "m")
      else tfResult threshold residNorm (tfLoop op o.precon threshold matvecMax r0
        { x := x, y := r0, w := r0, d := zeros, z := z, u := op z, v := op z, rho := rho, theta := lit 0, eta := lit 0,
          residNorm := residNorm, k := 0, m := none, nMatvec := 1, finished := false, calls := calls ++ [z] }) := by
  unfold tfSolve
  cases kw.guess
  · exact tf_tail op o.precon _ _ _ _ _ _ _ rfl rfl
  · exact tf_tail op o.precon _ _ _ _ _ _ _ rfl rfl

/-- the contents of the arrays in a result -/
def tfAt (h : Heap V) : Except PyError (KrylovRes S Nat × List V) → Except PyError (KrylovRes S V × List V)
  | .error e => .error e
  | .ok r => .ok (r.1.at h, r.2)

/-- `TFQMR.solve` on the heap computes what the model with values computes, if the operator or the preconditioner always
returns a new array. -/
theorem tfSolveH_refines (op : HOp V) (o : HOpts S V) (hsep : Separate op o.precon) (n : Nat) (rhs : Nat) (kw : KrylovKw Nat)
    (h : Heap V) (hv : KrylovValid h rhs kw) :
    tfAt (tfSolveH op o n rhs kw h).2 (tfSolveH op o n rhs kw h).1 = tfSolve op.fn o.toOpts n (h.mem rhs) (kw.at h) := by
  rw [tfSolve_form]
  unfold tfSolveH
  obtain ⟨hrhs, hguess⟩ := hv
  have hmm : (kw.at h).matvecMax = kw.matvecMax := rfl
  have hg : (kw.at h).guess = kw.guess.map h.mem := rfl
  have hgs : (kw.guess.map h.mem).isSome = kw.guess.isSome := by cases kw.guess <;> rfl
  obtain ⟨x0, hx0⟩ : ∃ x0 : V, x0 = (kw.guess.map h.mem).getD zeros := ⟨_, rfl⟩
  simp only [bind_rd, bind_new, bind_call, bind_callPrecon, bind_startGuess, bind_startResidH, bind_tfLoopH, HeapM.ite_apply,
    HeapM.pure_apply, hmm, hg, hgs, ← hx0]
  have e0 := h.ext_alloc x0
  have n0 : (h.alloc x0).next = h.next + 1 := rfl
  have hx1 : (h.alloc x0).mem h.next = x0 := h.mem_alloc_self x0
  generalize h.alloc x0 = ha at e0 n0 hx1 ⊢
  obtain ⟨c1, c2, c3, c4, c5⟩ := startResidH_spec op kw.guess.isSome h.next rhs ha (by omega) (by omega)
  generalize (startResidH op kw.guess.isSome h.next rhs ha).1 = rc at c1 c2 c4 c5 ⊢
  generalize (startResidH op kw.guess.isSome h.next rhs ha).2 = hb at c1 c3 c4 ⊢
  obtain ⟨r0, calls⟩ := rc
  simp only at c1 c2 c4 c5 ⊢
  have cn := c3.next
  rw [hx1, e0.mem rhs hrhs] at c1
  rw [hx1] at c2
  obtain ⟨R, hR⟩ : ∃ R, R = (if kw.guess.isSome then h.mem rhs - op.fn x0 else h.mem rhs) := ⟨_, rfl⟩
  rw [← hR] at c1
  simp only [c1, ← hR, ← c2]
  have hx2 : hb.mem h.next = x0 := by rw [c3.mem _ (by omega), hx1]
  have ha1 : o.toOpts.abstol = o.abstol := rfl
  have ha2 : o.toOpts.reltol = o.reltol := rfl
  have ha3 : o.toOpts.precon = HOp.fn? o.precon := rfl
  rw [ha1, ha2, ha3]
  generalize hth : pymax o.abstol (o.reltol * abs (sqrt (dot R R))) = th
  generalize hml : kw.matvecMax.getD (2 * n) = mm
  cases hfin : (le (abs (sqrt (dot R R))) th || decide (0 ≥ mm))
  · simp only [Bool.false_eq_true, if_false]
    have m0 : (hb.alloc R).mem r0 = R := by rw [hb.mem_alloc_lt _ c4, c1]
    rw [m0]
    have n1 : (((hb.alloc R).alloc R).alloc zeros).next = hb.next + 3 := rfl
    have n2 : (hb.alloc R).next = hb.next + 1 := rfl
    have n3 : ((hb.alloc R).alloc R).next = hb.next + 2 := rfl
    have m1 : (((hb.alloc R).alloc R).alloc zeros).mem hb.next = R := by
      rw [Heap.mem_alloc_lt _ _ (by rw [n3]; omega), Heap.mem_alloc_lt _ _ (by rw [n2]; omega), hb.mem_alloc_self]
    have m2 : (((hb.alloc R).alloc R).alloc zeros).mem (hb.next + 1) = R := by
      rw [Heap.mem_alloc_lt _ _ (by rw [n3]; omega), ← n2, Heap.mem_alloc_self]
    have m3 : (((hb.alloc R).alloc R).alloc zeros).mem (hb.next + 2) = (zeros : V) := by
      rw [← n3, Heap.mem_alloc_self]
    have m4 : ∀ k < hb.next, (((hb.alloc R).alloc R).alloc zeros).mem k = hb.mem k := by
      intro k hk
      rw [Heap.mem_alloc_lt _ _ (by rw [n3]; omega), Heap.mem_alloc_lt _ _ (by rw [n2]; omega), hb.mem_alloc_lt _ hk]
    rw [n2, n3]
    generalize ((hb.alloc R).alloc R).alloc zeros = hc at n1 m1 m2 m3 m4 ⊢
    obtain ⟨a1, a2, a3, a4⟩ := callPrecon_spec o.precon hb.next hc (by omega)
    have hne := hsep.ne hb.next hc (by omega)
    generalize (callPrecon o.precon hb.next hc).1 = z at a1 a3 a4 hne ⊢
    generalize (callPrecon o.precon hb.next hc).2 = hd at a1 a2 a3 hne ⊢
    have an := a2.next
    obtain ⟨b1, b2, b3, b4⟩ := call_spec op z hd a3
    generalize (call op z hd).1 = u at b1 b3 b4 hne ⊢
    generalize (call op z hd).2 = he at b1 b2 b3 ⊢
    have bn := b2.next
    rw [m1] at a1
    rw [a1] at b1
    rw [a1, b1]
    generalize applyPrecon (HOp.fn? o.precon) R = Z at a1 b1 ⊢
    have old : ∀ k < hc.next, (he.alloc (op.fn Z)).mem k = hc.mem k := fun k hk => by
      rw [he.mem_alloc_lt _ (by omega), (a2.trans b2).mem k hk]
    have nn : (he.alloc (op.fn Z)).next = he.next + 1 := rfl
    have h3 := tfLoopH_sim op o.precon hsep th mm h r0 R
      { x := h.next, y := hb.next, w := hb.next + 1, d := hb.next + 2, z := z, u := u, v := he.next, rho := dot R R,
        theta := lit 0, eta := lit 0, residNorm := abs (sqrt (dot R R)), k := 0, m := none, nMatvec := 1, finished := false,
        calls := calls ++ [Z] } (he.alloc (op.fn Z))
      { x := x0, y := R, w := R, d := zeros, z := Z, u := op.fn Z, v := op.fn Z, rho := dot R R, theta := lit 0, eta := lit 0,
        residNorm := abs (sqrt (dot R R)), k := 0, m := none, nMatvec := 1, finished := false, calls := calls ++ [Z] }
      ⟨by rw [old _ (by simp only; omega), m4 _ (by simp only; omega), hx2], by rw [old _ (by simp only; omega), m1],
       by rw [old _ (by simp only; omega), m2], by rw [old _ (by simp only; omega), m3],
       by rw [he.mem_alloc_lt _ (by simp only; omega), b2.mem _ a3, a1], by rw [he.mem_alloc_lt _ b3, b1],
       he.mem_alloc_self _, by rw [old _ (by omega), m4 _ c4, c1], rfl, rfl, rfl, rfl, rfl, rfl, rfl, rfl, rfl,
       by simp only; omega, by simp only; omega, by simp only; omega, by simp only; omega, by simp only; omega,
       by simp only; omega, by simp only; omega, by simp only; omega⟩
    unfold tfResultH tfResult
    rw [h3.m]
    generalize tfLoop op.fn (HOp.fn? o.precon) th mm R _ = out at h3 ⊢
    cases out.m
    · rfl
    · simp only [tfAt, KrylovRes.at, h3.residNorm, h3.nMatvec, h3.calls, h3.x]
  · simp only [if_true]
    rfl

end Verif.Solver
