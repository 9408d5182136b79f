import Verif.Solver.HeapCG
import Verif.Solver.CGS

/-!
# `CGS.solve` on the heap

A second model of `cgs.py:40-123`, with arrays as addresses, and its relation to the model with values.
-/

namespace Verif.Solver
open Scalar Vect

variable {S V : Type} [Scalar S] [Vect S V]

/-- local variables of `CGS.solve`; `x`, `r`, `u`, `p` are addresses -/
structure CGSLoopH (S V : Type) where
  x : Nat
  r : Nat
  u : Nat
  p : Nat
  rho : S
  residNorm : S
  nMatvec : Nat
  finished : Bool
  calls : List V

/-- the loop body, `cgs.py:76-114` -/
def cgsStepH (op : HOp V) (precon : Option (HOp V)) (threshold : S) (matvecMax : Nat) (r0 : Nat) (s : CGSLoopH S V) :
    HeapM V (CGSLoopH S V) := do
  let y ← callPrecon precon s.p                        -- y = self.precon * p
  let arg1 ← rd y
  let v ← call op y                                    -- v = self.op * y
  let alpha := s.rho / dot (← rd r0) (← rd v)
  let q ← new ((← rd s.u) - smul alpha (← rd v))       -- q = u - alpha * v
  let uq ← new ((← rd s.u) + (← rd q))
  let z ← callPrecon precon uq                         -- z = self.precon * (u+q)
  wr s.x ((← rd s.x) + smul alpha (← rd z))            -- x += alpha * z
  let arg2 ← rd z
  let Az ← call op z                                   -- Az = self.op * z
  wr s.r ((← rd s.r) - smul alpha (← rd Az))           -- r -= alpha * Az
  let residNorm := norm (← rd s.r)
  let calls := s.calls ++ [arg1, arg2]
  if le residNorm threshold || decide (s.nMatvec + 2 ≥ matvecMax) then
    return { s with residNorm := residNorm, nMatvec := s.nMatvec + 2, finished := true, calls := calls }
  else
    let rhoNext := dot (← rd r0) (← rd s.r)
    let beta := rhoNext / s.rho
    let u ← new ((← rd s.r) + smul beta (← rd q))      -- u = r + beta * q
    wr s.p (smul beta (← rd s.p))                      -- p *= beta
    wr s.p ((← rd s.p) + (← rd q))                     -- p += q
    wr s.p (smul beta (← rd s.p))                      -- p *= beta
    wr s.p ((← rd s.p) + (← rd u))                     -- p += u
    return { s with u := u, rho := rhoNext, residNorm := residNorm, nMatvec := s.nMatvec + 2, finished := false,
                    calls := calls }

theorem cgsStepH_nMatvec (op : HOp V) (precon : Option (HOp V)) (threshold : S) (matvecMax : Nat) (r0 : Nat) (s : CGSLoopH S V)
    (h : Heap V) : (cgsStepH op precon threshold matvecMax r0 s h).1.nMatvec = s.nMatvec + 2 ∧
      ((cgsStepH op precon threshold matvecMax r0 s h).1.finished = false →
        (cgsStepH op precon threshold matvecMax r0 s h).1.nMatvec < matvecMax) := by
  unfold cgsStepH
  simp only [bind_rd, bind_wr, bind_new, bind_call, bind_callPrecon, HeapM.ite_apply, HeapM.pure_apply]
  split
  · exact ⟨rfl, fun h => by cases h⟩
  · rename_i h
    refine ⟨rfl, fun _ => ?_⟩
    simp only [ge_iff_le, Bool.or_eq_true, decide_eq_true_eq, not_or, not_le] at h
    exact h.2

/-- the loop, `cgs.py:76-114` -/
def cgsLoopH (op : HOp V) (precon : Option (HOp V)) (threshold : S) (matvecMax : Nat) (r0 : Nat) (s : CGSLoopH S V) :
    HeapM V (CGSLoopH S V) := fun h =>
  whileLoop (fun t : CGSLoopH S V × Heap V => !t.1.finished) (fun t => cgsStepH op precon threshold matvecMax r0 t.1 t.2)
    (fun t => matvecMax - t.1.nMatvec)
    (fun t _ h => by
      have h1 := cgsStepH_nMatvec op precon threshold matvecMax r0 t.1 t.2
      have h2 := h1.2 (by simpa using h)
      omega) (s, h)

/-- `r0 = rhs; if guess_supplied: r0 = rhs - self.op * x`, `cgs.py:58-60`; the second component is bookkeeping -/
def startResidH (op : HOp V) (supplied : Bool) (x rhs : Nat) : HeapM V (Nat × List V) :=
  match supplied with
  | true => do
    let Ax ← call op x
    let arg ← rd x
    let r0 ← new ((← rd rhs) - (← rd Ax))
    return (r0, [arg])
  | false => return (rhs, [])

/-- `CGS.solve` on the heap, `cgs.py:40-123`; `rhs` and `kw.guess` are addresses -/
def cgsSolveH (op : HOp V) (o : HOpts S V) (n : Nat) (rhs : Nat) (kw : KrylovKw Nat) : HeapM V (KrylovRes S Nat × List V) := do
  let x ← startGuess kw.guess
  let matvecMax := kw.matvecMax.getD (2 * n)
  let (r0, calls) ← startResidH op kw.guess.isSome x rhs
  let rho := dot (← rd r0) (← rd r0)
  let residNorm := abs (sqrt rho)
  let threshold := pymax o.abstol (o.reltol * residNorm)
  if le residNorm threshold || decide (0 ≥ matvecMax) then
    return ({ residNorm0 := residNorm, converged := le residNorm threshold, nMatvec := 0, x := x, residNorm := residNorm }, calls)
  else
    let r ← new (← rd r0)                              -- r = r0.copy()
    let p ← new (← rd r0)                              -- u = r0; p = r0.copy()
    let s ← cgsLoopH op o.precon threshold matvecMax r0
      { x := x, r := r, u := r0, p := p, rho := rho, residNorm := residNorm, nMatvec := 0, finished := false, calls := calls }
    return ({ residNorm0 := residNorm, converged := le s.residNorm threshold, nMatvec := s.nMatvec, x := s.x,
              residNorm := s.residNorm }, s.calls)

/-! ### Relation to the model with values -/

/-- the contents of the arrays in a result -/
def KrylovRes.at (h : Heap V) (res : KrylovRes S Nat) : KrylovRes S V :=
  { residNorm0 := res.residNorm0, converged := res.converged, nMatvec := res.nMatvec, x := h.mem res.x, residNorm := res.residNorm }

/-- the contents of the arrays in the keywords -/
def KrylovKw.at (h : Heap V) (kw : KrylovKw Nat) : KrylovKw V := { guess := kw.guess.map h.mem, matvecMax := kw.matvecMax }

/-- the two loops are at the same point, and no array older than `h0` has been modified -/
structure CGSSim (h0 : Heap V) (r0 : Nat) (r0v : V) (s : CGSLoopH S V) (h : Heap V) (t : CGSLoop S V) : Prop where
  x : h.mem s.x = t.x
  r : h.mem s.r = t.r
  p : h.mem s.p = t.p
  u : h.mem s.u = t.u
  r0v : h.mem r0 = r0v
  rho : s.rho = t.rho
  residNorm : s.residNorm = t.residNorm
  nMatvec : s.nMatvec = t.nMatvec
  finished : s.finished = t.finished
  calls : s.calls = t.calls
  ext : h0.Ext h
  hx : h0.next ≤ s.x ∧ s.x < h.next
  hr : h0.next ≤ s.r ∧ s.r < h.next
  hp : h0.next ≤ s.p ∧ s.p < h.next
  hu : s.u < h.next ∧ s.u ≠ s.x ∧ s.u ≠ s.r ∧ s.u ≠ s.p
  hr0 : r0 < h.next ∧ r0 ≠ s.x ∧ r0 ≠ s.r ∧ r0 ≠ s.p
  xr : s.x ≠ s.r
  xp : s.x ≠ s.p
  rp : s.r ≠ s.p

set_option maxHeartbeats 1000000 in
theorem cgsStepH_sim (op : HOp V) (precon : Option (HOp V)) (threshold : S) (mm : Nat) (h0 : Heap V) (r0 : Nat) (r0v : V)
    (s : CGSLoopH S V) (h : Heap V) (t : CGSLoop S V) (hs : CGSSim h0 r0 r0v s h t) :
    CGSSim h0 r0 r0v (cgsStepH op precon threshold mm r0 s h).1 (cgsStepH op precon threshold mm r0 s h).2
      (cgsStep op.fn (HOp.fn? precon) threshold mm r0v t) := by
  obtain ⟨ex, er, ep, eu, er0, erho, ern, enm, efin, ecalls, ext, ⟨hx, hx'⟩, ⟨hr, hr'⟩, ⟨hp, hp'⟩, ⟨hu, ux, ur, up⟩,
    ⟨hr0, r0x, r0r, r0p⟩, xr, xp, rp⟩ := hs
  unfold cgsStepH cgsStep
  simp only [bind_rd, bind_wr, bind_new, bind_call, bind_callPrecon, HeapM.ite_apply, HeapM.pure_apply]
  -- y, v
  obtain ⟨a1, a2, a3, a4⟩ := callPrecon_spec precon s.p h hp'
  generalize (callPrecon precon s.p h).1 = y at a1 a3 a4 ⊢
  generalize (callPrecon precon s.p h).2 = ha at a1 a2 a3 ⊢
  have an := a2.next
  obtain ⟨b1, b2, b3, b4⟩ := call_spec op y ha a3
  generalize (call op y ha).1 = v at b1 b3 b4 ⊢
  generalize (call op y ha).2 = hb at b1 b2 b3 ⊢
  have bn := b2.next
  rw [a1, ep] at b1
  have old : ∀ k < h.next, hb.mem k = h.mem k := (a2.trans b2).mem
  have e1 : hb.mem s.u = t.u := (old _ hu).trans eu
  have e2 : hb.mem r0 = r0v := (old _ hr0).trans er0
  rw [a1, ep]
  simp only [e1, e2, b1, erho]
  generalize hY : applyPrecon (HOp.fn? precon) t.p = Y
  generalize halpha : t.rho / dot r0v (op.fn Y) = alpha
  generalize hQ : t.u - smul alpha (op.fn Y) = Q
  -- q, uq
  have e3 : (hb.alloc Q).mem s.u = t.u := by rw [hb.mem_alloc_lt _ (by omega), e1]
  have e4 : (hb.alloc Q).mem hb.next = Q := hb.mem_alloc_self _
  rw [e3, e4]
  obtain ⟨hc, hhc⟩ : ∃ hc, hc = (hb.alloc Q).alloc (t.u + Q) := ⟨_, rfl⟩
  rw [← hhc]
  have cn : hc.next = hb.next + 2 := by rw [hhc]; rfl
  have cn' : (hb.alloc Q).next = hb.next + 1 := rfl
  have cq : hc.mem hb.next = Q := by rw [hhc, Heap.mem_alloc_lt _ _ (by rw [cn']; omega), e4]
  have cuq : hc.mem (hb.alloc Q).next = t.u + Q := by rw [hhc, Heap.mem_alloc_self]
  have co : hb.Ext hc := by rw [hhc]; exact (hb.ext_alloc _).trans (Heap.ext_alloc _ _)
  rw [cn'] at cuq ⊢
  -- z
  obtain ⟨d1, d2, d3, d4⟩ := callPrecon_spec precon (hb.next + 1) hc (by omega)
  generalize (callPrecon precon (hb.next + 1) hc).1 = z at d1 d3 d4 ⊢
  generalize (callPrecon precon (hb.next + 1) hc).2 = hd at d1 d2 d3 ⊢
  have dn := d2.next
  rw [cuq] at d1
  generalize hZ : applyPrecon (HOp.fn? precon) (t.u + Q) = Z at d1 ⊢
  have f1 : hd.mem s.x = t.x := by rw [d2.mem _ (by omega), co.mem _ (by omega), old _ hx', ex]
  simp only [f1, d1]
  have hzx : z ≠ s.x := by omega
  have f2 : (hd.upd s.x (t.x + smul alpha Z)).mem z = Z := by rw [Heap.mem_upd_ne _ _ hzx, d1]
  obtain ⟨X, hX⟩ : ∃ X, X = t.x + smul alpha Z := ⟨_, rfl⟩
  rw [← hX] at f2 ⊢
  simp only [f2]
  -- Az
  have dn' : (hd.upd s.x X).next = hd.next := rfl
  obtain ⟨g1, g2, g3, g4⟩ := call_spec op z (hd.upd s.x X) d3
  generalize (call op z (hd.upd s.x X)).1 = Az at g1 g3 g4 ⊢
  generalize (call op z (hd.upd s.x X)).2 = hg at g1 g2 g3 ⊢
  have gn := g2.next
  rw [dn'] at gn g4
  rw [f2] at g1
  have o1 : ∀ k < hd.next, hg.mem k = (hd.upd s.x X).mem k := g2.mem
  have o2 : ∀ k < h.next, k ≠ s.x → hg.mem k = h.mem k := by
    intro k hk hkx
    rw [o1 k (by omega), Heap.mem_upd_ne _ _ hkx, d2.mem k (by omega), co.mem k (by omega), old k hk]
  have i1 : hg.mem s.r = t.r := by rw [o2 _ hr' xr.symm, er]
  have i2 : hg.mem s.x = X := by rw [o1 _ (by omega), Heap.mem_upd_self]
  have i3 : hg.mem hb.next = Q := by
    rw [o1 _ (by omega), Heap.mem_upd_ne _ _ (by omega), d2.mem _ (by omega), cq]
  have ge : h0.Ext hg := by
    refine Heap.Ext.trans ?_ g2
    exact ((((ext.trans a2).trans b2).trans co).trans d2).upd hx _
  simp only [i1, g1]
  generalize hR : t.r - smul alpha (op.fn Z) = R
  -- after r
  have j1 : (hg.upd s.r R).mem s.r = R := Heap.mem_upd_self _ _ _
  have j0 : (hg.upd s.r R).next = hg.next := rfl
  have j2 : ∀ k < h.next, k ≠ s.x → k ≠ s.r → (hg.upd s.r R).mem k = h.mem k := by
    intro k hk h1 h2
    rw [Heap.mem_upd_ne _ _ h2, o2 k hk h1]
  have j3 : (hg.upd s.r R).mem s.x = X := by rw [Heap.mem_upd_ne _ _ xr, i2]
  have j4 : (hg.upd s.r R).mem hb.next = Q := by rw [Heap.mem_upd_ne _ _ (by omega), i3]
  have je : h0.Ext (hg.upd s.r R) := ge.upd hr _
  generalize hg.upd s.r R = hh at j0 j1 j2 j3 j4 je ⊢
  simp only [j1, enm, ecalls]
  cases hfin : (le (norm R) threshold || decide (t.nMatvec + 2 ≥ mm))
  · simp only [Bool.false_eq_true, if_false]
    have k1 : hh.mem r0 = r0v := by rw [j2 _ hr0 r0x r0r, er0]
    simp only [k1, j4]
    generalize hbeta : dot r0v R / t.rho = beta
    obtain ⟨U, hU⟩ : ∃ U, U = R + smul beta Q := ⟨_, rfl⟩
    rw [← hU]
    have l0 : (hh.alloc U).next = hh.next + 1 := rfl
    have l1 : (hh.alloc U).mem hh.next = U := hh.mem_alloc_self _
    have l2 : ∀ k < hh.next, (hh.alloc U).mem k = hh.mem k := fun k hk => hh.mem_alloc_lt _ hk
    have le' : h0.Ext (hh.alloc U) := je.trans (hh.ext_alloc _)
    generalize hh.alloc U = hi at l0 l1 l2 le' ⊢
    have m1 : hi.mem s.p = t.p := by rw [l2 _ (by omega), j2 _ hp' xp.symm rp.symm, ep]
    have m2 : hi.mem hb.next = Q := by rw [l2 _ (by omega), j4]
    have n1 : hb.next ≠ s.p := by omega
    have n2 : hh.next ≠ s.p := by omega
    simp only [Heap.mem_upd, if_true, m1, m2, l1, if_neg n1, if_neg n2]
    constructor
    · simp only [Heap.mem_upd, if_neg xp]
      rw [l2 _ (by omega), j3, hX]
    · simp only [Heap.mem_upd, if_neg rp]
      rw [l2 _ (by omega), j1]
    · simp only [Heap.mem_upd, if_true]
    · simp only [Heap.mem_upd, if_neg n2, l1]
    · simp only [Heap.mem_upd, if_neg r0p]
      rw [l2 _ (by omega), k1]
    · rfl
    · rfl
    · rfl
    · rfl
    · rfl
    · exact (((le'.upd hp _).upd hp _).upd hp _).upd hp _
    · exact ⟨hx, by simp only [Heap.next_upd]; omega⟩
    · exact ⟨hr, by simp only [Heap.next_upd]; omega⟩
    · exact ⟨hp, by simp only [Heap.next_upd]; omega⟩
    · simp only [Heap.next_upd]
      exact ⟨by omega, by omega, by omega, by omega⟩
    · simp only [Heap.next_upd]
      exact ⟨by omega, r0x, r0r, r0p⟩
    · exact xr
    · exact xp
    · exact rp
  · simp only [if_true]
    constructor
    · rw [j3, hX]
    · exact j1
    · exact (j2 _ hp' xp.symm rp.symm).trans ep
    · exact (j2 _ hu ux ur).trans eu
    · rw [j2 _ hr0 r0x r0r, er0]
    · rfl
    · rfl
    · rfl
    · rfl
    · rfl
    · exact je
    · exact ⟨hx, by simp only; omega⟩
    · exact ⟨hr, by simp only; omega⟩
    · exact ⟨hp, by simp only; omega⟩
    · exact ⟨by simp only; omega, ux, ur, up⟩
    · exact ⟨by omega, r0x, r0r, r0p⟩
    · exact xr
    · exact xp
    · exact rp

theorem cgsLoopH_sim (op : HOp V) (precon : Option (HOp V)) (threshold : S) (mm : Nat) (h0 : Heap V) (r0 : Nat) (r0v : V)
    (s : CGSLoopH S V) (h : Heap V) (t : CGSLoop S V) (hs : CGSSim h0 r0 r0v s h t) :
    CGSSim h0 r0 r0v (cgsLoopH op precon threshold mm r0 s h).1 (cgsLoopH op precon threshold mm r0 s h).2
      (cgsLoop op.fn (HOp.fn? precon) threshold mm r0v t) := by
  unfold cgsLoopH cgsLoop
  exact whileLoop_sim (R := fun (a : CGSLoopH S V × Heap V) b => CGSSim h0 r0 r0v a.1 a.2 b)
    (fun a b hab => by rw [hab.finished])
    (fun a b hab _ => cgsStepH_sim op precon threshold mm h0 r0 r0v a.1 a.2 b hab) (s, h) t hs

theorem bind_cgsLoopH {β : Type} (op : HOp V) (precon : Option (HOp V)) (threshold : S) (mm : Nat) (r0 : Nat) (s : CGSLoopH S V)
    (f : CGSLoopH S V → HeapM V β) (h : Heap V) : (cgsLoopH op precon threshold mm r0 s >>= f) h =
      f (cgsLoopH op precon threshold mm r0 s h).1 (cgsLoopH op precon threshold mm r0 s h).2 := rfl

omit [Scalar S] in
theorem bind_startResidH {β : Type} (op : HOp V) (supplied : Bool) (x rhs : Nat) (f : Nat × List V → HeapM V β) (h : Heap V) :
    (startResidH op supplied x rhs >>= f) h = f (startResidH op supplied x rhs h).1 (startResidH op supplied x rhs h).2 := rfl

omit [Scalar S] in
theorem startResidH_spec (op : HOp V) (supplied : Bool) (x rhs : Nat) (h : Heap V) (hx : x < h.next) (hr : rhs < h.next) :
    (startResidH op supplied x rhs h).2.mem (startResidH op supplied x rhs h).1.1 =
      (if supplied then h.mem rhs - op.fn (h.mem x) else h.mem rhs) ∧
    (startResidH op supplied x rhs h).1.2 = (if supplied then [h.mem x] else []) ∧
    h.Ext (startResidH op supplied x rhs h).2 ∧
    (startResidH op supplied x rhs h).1.1 < (startResidH op supplied x rhs h).2.next ∧
    ((startResidH op supplied x rhs h).1.1 = rhs ∨ h.next ≤ (startResidH op supplied x rhs h).1.1) := by
  cases supplied
  · exact ⟨rfl, rfl, .refl h, hr, .inl rfl⟩
  · obtain ⟨c1, c2, c3, c4⟩ := call_spec op x h hx
    simp only [startResidH, bind_call, bind_rd, bind_new, HeapM.pure_apply, if_true]
    refine ⟨?_, by rw [c2.mem x hx], c2.trans (Heap.ext_alloc _ _), ?_, .inr c2.next⟩
    · rw [Heap.mem_alloc_self, c2.mem rhs hr, c1]
    · exact Nat.lt_succ_self _

/-- `cgsSolve` with the case distinction on the guess inside -/
theorem cgsSolve_form (op : V → V) (o : KrylovOpts S V) (n : Nat) (rhs : V) (kw : KrylovKw V) :
    cgsSolve op o n rhs kw =
      let x := kw.guess.getD zeros
      let matvecMax := kw.matvecMax.getD (2 * n)
      let r0 := if kw.guess.isSome then rhs - op x else rhs
      let rho := dot r0 r0
      let residNorm := abs (sqrt rho)
      let threshold := pymax o.abstol (o.reltol * residNorm)
      let finished := le residNorm threshold || decide (0 ≥ matvecMax)
      let s := cgsLoop op o.precon threshold matvecMax r0
        { x := x, r := r0, u := r0, p := r0, rho := rho, residNorm := residNorm, nMatvec := 0, finished := finished,
          calls := if kw.guess.isSome then [x] else [] }
      ({ residNorm0 := residNorm, converged := le s.residNorm threshold, nMatvec := s.nMatvec, x := s.x,
         residNorm := s.residNorm }, s.calls) := by
  unfold cgsSolve
  cases kw.guess <;> rfl

/-- the arrays of the keywords exist -/
structure KrylovValid (h : Heap V) (rhs : Nat) (kw : KrylovKw Nat) : Prop where
  rhs : rhs < h.next
  guess : ∀ g, kw.guess = some g → g < h.next

/-- `CGS.solve` on the heap computes what the model with values computes, whatever the operator and the preconditioner return
themselves, modifies no array that existed before, and returns a new array. -/
theorem cgsSolveH_refines (op : HOp V) (o : HOpts S V) (n : Nat) (rhs : Nat) (kw : KrylovKw Nat) (h : Heap V)
    (hv : KrylovValid h rhs kw) :
    h.Ext (cgsSolveH op o n rhs kw h).2 ∧
    ((cgsSolveH op o n rhs kw h).1.1.at (cgsSolveH op o n rhs kw h).2, (cgsSolveH op o n rhs kw h).1.2) =
      cgsSolve op.fn o.toOpts n (h.mem rhs) (kw.at h) ∧
    h.next ≤ (cgsSolveH op o n rhs kw h).1.1.x := by
  rw [cgsSolve_form]
  unfold cgsSolveH
  obtain ⟨hrhs, hguess⟩ := hv
  have hmm : (kw.at h).matvecMax = kw.matvecMax := rfl
  have hg : (kw.at h).guess = kw.guess.map h.mem := rfl
  have hgs : (kw.guess.map h.mem).isSome = kw.guess.isSome := by cases kw.guess <;> rfl
  obtain ⟨x0, hx0⟩ : ∃ x0 : V, x0 = (kw.guess.map h.mem).getD zeros := ⟨_, rfl⟩
  simp only [bind_rd, bind_new, bind_startGuess, bind_startResidH, bind_cgsLoopH, HeapM.ite_apply, HeapM.pure_apply, hmm, hg,
    hgs, ← hx0]
  have e0 := h.ext_alloc x0
  have n0 : (h.alloc x0).next = h.next + 1 := rfl
  have hx1 : (h.alloc x0).mem h.next = x0 := h.mem_alloc_self x0
  generalize h.alloc x0 = ha at e0 n0 hx1 ⊢
  obtain ⟨c1, c2, c3, c4, c5⟩ := startResidH_spec op kw.guess.isSome h.next rhs ha (by omega) (by omega)
  generalize (startResidH op kw.guess.isSome h.next rhs ha).1 = rc at c1 c2 c4 c5 ⊢
  generalize (startResidH op kw.guess.isSome h.next rhs ha).2 = hb at c1 c3 c4 ⊢
  obtain ⟨r0, calls⟩ := rc
  simp only at c1 c2 c4 c5 ⊢
  have cn := c3.next
  rw [hx1, e0.mem rhs hrhs] at c1
  rw [hx1] at c2
  obtain ⟨R, hR⟩ : ∃ R, R = (if kw.guess.isSome then h.mem rhs - op.fn x0 else h.mem rhs) := ⟨_, rfl⟩
  rw [← hR] at c1
  simp only [c1, ← hR, ← c2]
  have hx2 : hb.mem h.next = x0 := by rw [c3.mem _ (by omega), hx1]
  have ha1 : o.toOpts.abstol = o.abstol := rfl
  have ha2 : o.toOpts.reltol = o.reltol := rfl
  have ha3 : o.toOpts.precon = HOp.fn? o.precon := rfl
  rw [ha1, ha2, ha3]
  generalize hth : pymax o.abstol (o.reltol * abs (sqrt (dot R R))) = th
  generalize hml : kw.matvecMax.getD (2 * n) = mm
  cases hfin : (le (abs (sqrt (dot R R))) th || decide (0 ≥ mm))
  · simp only [Bool.false_eq_true, if_false]
    have n1 : (hb.alloc R).next = hb.next + 1 := rfl
    have v1 : (hb.alloc R).mem r0 = R := by rw [hb.mem_alloc_lt _ c4, c1]
    have m1 : (hb.alloc R).mem hb.next = R := hb.mem_alloc_self _
    have x1 : (hb.alloc R).mem h.next = x0 := by rw [hb.mem_alloc_lt _ (by omega), hx2]
    have e1 := hb.ext_alloc R
    generalize hb.alloc R = hc at n1 v1 m1 x1 e1 ⊢
    rw [v1]
    have h3 := cgsLoopH_sim op o.precon th mm h r0 R
      { x := h.next, r := hb.next, u := r0, p := hc.next, rho := dot R R, residNorm := abs (sqrt (dot R R)), nMatvec := 0,
        finished := false, calls := calls } (hc.alloc R)
      { x := x0, r := R, u := R, p := R, rho := dot R R, residNorm := abs (sqrt (dot R R)), nMatvec := 0, finished := false,
        calls := calls }
      ⟨by rw [hc.mem_alloc_lt _ (by simp only; omega), x1], by rw [hc.mem_alloc_lt _ (by simp only; omega), m1],
       hc.mem_alloc_self _, by rw [hc.mem_alloc_lt _ (by simp only; omega), v1], by rw [hc.mem_alloc_lt _ (by omega), v1],
       rfl, rfl, rfl, rfl, rfl, ((e0.trans c3).trans e1).trans (hc.ext_alloc _),
       ⟨le_refl _, by simp only [Heap.next_alloc]; omega⟩, ⟨by simp only; omega, by simp only [Heap.next_alloc]; omega⟩,
       ⟨by simp only; omega, by simp only [Heap.next_alloc]; omega⟩,
       ⟨by simp only [Heap.next_alloc]; omega, by simp only; omega, by simp only; omega, by simp only; omega⟩,
       ⟨by simp only [Heap.next_alloc]; omega, by simp only; omega, by simp only; omega, by simp only; omega⟩,
       by simp only; omega, by simp only; omega, by simp only; omega⟩
    refine ⟨h3.ext, ?_, h3.hx.1⟩
    simp only [KrylovRes.at, h3.residNorm, h3.nMatvec, h3.calls, h3.x]
  · simp only [if_true]
    refine ⟨e0.trans c3, ?_, le_refl _⟩
    unfold cgsLoop
    rw [whileLoop_of_not (by rfl)]
    simp only [KrylovRes.at, hx2]

end Verif.Solver
