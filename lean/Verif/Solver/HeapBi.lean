import Verif.Solver.HeapCGS
import Verif.Solver.BiCGSTAB

/-!
# `BiCGSTAB.solve` on the heap

A second model of `bicgstab.py:43-151`, with arrays as addresses.  The relation to the model with values needs an operator or a
preconditioner that returns new arrays: otherwise `v` and `p` may be one array, and `p *= beta` changes `v`.
-/

namespace Verif.Solver
open Scalar Vect

variable {S V : Type} [Scalar S] [Vect S V]

/-- local variables of `BiCGSTAB.solve`; `x`, `r`, `p`, `v` are addresses -/
structure BiLoopH (S V : Type) where
  x : Nat
  r : Nat
  p : Nat
  v : Nat
  rho : S
  rhoNext : S
  alpha : S
  omega : S
  residNorm : S
  nMatvec : Nat
  finished : Bool
  calls : List V

/-- the loop body, `bicgstab.py:85-145` -/
def biStepH (op : HOp V) (precon : Option (HOp V)) (threshold : S) (matvecMax : Nat) (r0 : Nat) (s : BiLoopH S V) :
    HeapM V (BiLoopH S V) := do
  let beta := s.rhoNext / s.rho * s.alpha / s.omega
  let rho := s.rhoNext
  wr s.p (smul beta (← rd s.p))                                       -- p *= beta
  wr s.p ((← rd s.p) - smul (beta * s.omega) (← rd s.v))              -- p -= beta * omega * v
  wr s.p ((← rd s.p) + (← rd s.r))                                    -- p += r
  let q ← callPrecon precon s.p                                       -- q = self.precon * p
  let arg1 ← rd q
  let v ← call op q                                                   -- v = self.op * q
  let alpha := rho / dot (← rd r0) (← rd v)
  let ss ← new ((← rd s.r) - smul alpha (← rd v))                     -- s = r - alpha * v
  let residNorm := norm (← rd ss)
  if le residNorm threshold then
    wr s.x ((← rd s.x) + smul alpha (← rd q))                         -- x += alpha * q
    return { s with v := v, rho := rho, alpha := alpha, residNorm := residNorm, nMatvec := s.nMatvec + 1, finished := true,
                    calls := s.calls ++ [arg1] }
  else if s.nMatvec + 1 ≥ matvecMax then
    return { s with v := v, rho := rho, alpha := alpha, residNorm := residNorm, nMatvec := s.nMatvec + 1, finished := true,
                    calls := s.calls ++ [arg1] }
  else
    let z ← callPrecon precon ss                                      -- z = self.precon * s
    let arg2 ← rd z
    let t ← call op z                                                 -- t = self.op * z
    let omega := dot (← rd t) (← rd ss) / dot (← rd t) (← rd t)
    let rhoNext := -omega * dot (← rd r0) (← rd t)
    let r ← new ((← rd ss) - smul omega (← rd t))                     -- r = s - omega * t
    wr z (smul omega (← rd z))                                        -- z *= omega
    wr s.x ((← rd s.x) + (← rd z))                                    -- x += z
    wr s.x ((← rd s.x) + smul alpha (← rd q))                         -- x += alpha * q
    let residNorm := norm (← rd r)
    return { x := s.x, r := r, p := s.p, v := v, rho := rho, rhoNext := rhoNext, alpha := alpha, omega := omega,
             residNorm := residNorm, nMatvec := s.nMatvec + 2,
             finished := le residNorm threshold || decide (s.nMatvec + 2 ≥ matvecMax), calls := s.calls ++ [arg1, arg2] }

theorem biStepH_nMatvec (op : HOp V) (precon : Option (HOp V)) (threshold : S) (matvecMax : Nat) (r0 : Nat) (s : BiLoopH S V)
    (h : Heap V) : s.nMatvec < (biStepH op precon threshold matvecMax r0 s h).1.nMatvec ∧
      ((biStepH op precon threshold matvecMax r0 s h).1.finished = false →
        (biStepH op precon threshold matvecMax r0 s h).1.nMatvec < matvecMax) := by
  unfold biStepH
  simp only [bind_rd, bind_wr, bind_new, bind_call, bind_callPrecon, HeapM.ite_apply, HeapM.pure_apply]
  split
  · exact ⟨Nat.lt_succ_self _, fun h => by cases h⟩
  · split
    · exact ⟨Nat.lt_succ_self _, fun h => by cases h⟩
    · refine ⟨by simp only; omega, fun h => ?_⟩
      simp only [ge_iff_le, Bool.or_eq_false_iff, decide_eq_false_iff_not, not_le] at h
      exact h.2

/-- the loop, `bicgstab.py:85-145` -/
def biLoopH (op : HOp V) (precon : Option (HOp V)) (threshold : S) (matvecMax : Nat) (r0 : Nat) (s : BiLoopH S V) :
    HeapM V (BiLoopH S V) := fun h =>
  whileLoop (fun t : BiLoopH S V × Heap V => !t.1.finished) (fun t => biStepH op precon threshold matvecMax r0 t.1 t.2)
    (fun t => matvecMax - t.1.nMatvec)
    (fun t _ h => by
      have h1 := biStepH_nMatvec op precon threshold matvecMax r0 t.1 t.2
      have h2 := h1.2 (by simpa using h)
      omega) (s, h)

/-- `BiCGSTAB.solve` on the heap, `bicgstab.py:43-151`; `rhs` and `kw.guess` are addresses -/
def biSolveH (op : HOp V) (o : HOpts S V) (n : Nat) (rhs : Nat) (kw : KrylovKw Nat) : HeapM V (KrylovRes S Nat × List V) := do
  let x ← startGuess kw.guess
  let matvecMax := kw.matvecMax.getD (2 * n)
  let (r0, calls) ← startResidH op kw.guess.isSome x rhs
  let nMatvec := if kw.guess.isSome then 1 else 0
  let rhoNext := dot (← rd r0) (← rd r0)
  let residNorm := abs (sqrt rhoNext)
  let threshold := pymax o.abstol (o.reltol * residNorm)
  if le residNorm threshold || decide (nMatvec ≥ matvecMax) then
    return ({ residNorm0 := residNorm, converged := le residNorm threshold, nMatvec := nMatvec, x := x, residNorm := residNorm },
      calls)
  else
    let r ← new (← rd r0)                              -- r = r0.copy()
    let p ← new zeros
    let v ← new zeros
    let s ← biLoopH op o.precon threshold matvecMax r0
      { x := x, r := r, p := p, v := v, rho := lit 1, rhoNext := rhoNext, alpha := lit 1, omega := lit 1, residNorm := residNorm,
        nMatvec := nMatvec, finished := false, calls := calls }
    return ({ residNorm0 := residNorm, converged := le s.residNorm threshold, nMatvec := s.nMatvec, x := s.x,
              residNorm := s.residNorm }, s.calls)

/-! ### No array of the caller is modified -/

omit [Scalar S] [Vect S V] in
theorem call_ext (f : HOp V) (l : Nat) (h : Heap V) : h.Ext (call f l h).2 ∧ ((call f l h).1 = l ∨ (call f l h).1 = h.next) := by
  unfold call
  split
  · exact ⟨.refl h, .inl rfl⟩
  · exact ⟨h.ext_alloc _, .inr rfl⟩

omit [Scalar S] [Vect S V] in
theorem callPrecon_ext (f : Option (HOp V)) (l : Nat) (h : Heap V) :
    h.Ext (callPrecon f l h).2 ∧ ((callPrecon f l h).1 = l ∨ (callPrecon f l h).1 = h.next) := by
  cases f with
  | none => exact ⟨.refl h, .inl rfl⟩
  | some f => exact call_ext f l h

/-- the arrays the loop of BiCGSTAB writes to are newer than `h0`, and nothing older has been modified -/
structure BiFrame (h0 : Heap V) (s : BiLoopH S V) (h : Heap V) : Prop where
  ext : h0.Ext h
  x : h0.next ≤ s.x
  p : h0.next ≤ s.p

theorem biStepH_frame (op : HOp V) (precon : Option (HOp V)) (threshold : S) (mm : Nat) (h0 : Heap V) (r0 : Nat)
    (s : BiLoopH S V) (h : Heap V) (hs : BiFrame h0 s h) :
    BiFrame h0 (biStepH op precon threshold mm r0 s h).1 (biStepH op precon threshold mm r0 s h).2 := by
  obtain ⟨ext, hx, hp⟩ := hs
  unfold biStepH
  simp only [bind_rd, bind_wr, bind_new, bind_call, bind_callPrecon, HeapM.ite_apply, HeapM.pure_apply]
  generalize hhp : ((h.upd s.p _).upd s.p _).upd s.p _ = ha
  have e1 : h0.Ext ha := by rw [← hhp]; exact ((ext.upd hp _).upd hp _).upd hp _
  obtain ⟨a1, -⟩ := callPrecon_ext precon s.p ha
  generalize (callPrecon precon s.p ha).1 = q
  generalize (callPrecon precon s.p ha).2 = hb at a1 ⊢
  obtain ⟨b1, -⟩ := call_ext op q hb
  generalize (call op q hb).1 = v
  generalize (call op q hb).2 = hc at b1 ⊢
  have e2 := (e1.trans a1).trans b1
  have e3 := fun w => e2.trans (hc.ext_alloc w)
  have ns := e2.next
  generalize hc.mem s.r - smul (s.rhoNext / dot (hc.mem r0) (hc.mem v)) (hc.mem v) = ss
  have e4 := e3 ss
  generalize hc.alloc ss = hd at e4 ⊢
  obtain ⟨c1, c2⟩ := callPrecon_ext precon hc.next hd
  have nd := e4.next
  generalize (callPrecon precon hc.next hd).1 = z at c2 ⊢
  generalize (callPrecon precon hc.next hd).2 = he at c1 ⊢
  have hz : h0.next ≤ z := by omega
  obtain ⟨d1, -⟩ := call_ext op z he
  generalize (call op z he).1 = t
  generalize (call op z he).2 = hf at d1 ⊢
  have e5 := (e4.trans c1).trans d1
  split
  · exact ⟨e4.upd hx _, hx, hp⟩
  · split
    · exact ⟨e4, hx, hp⟩
    · exact ⟨(((e5.trans (hf.ext_alloc _)).upd hz _).upd hx _).upd hx _, hx, hp⟩

theorem biLoopH_frame (op : HOp V) (precon : Option (HOp V)) (threshold : S) (mm : Nat) (h0 : Heap V) (r0 : Nat)
    (s : BiLoopH S V) (h : Heap V) (hs : BiFrame h0 s h) :
    BiFrame h0 (biLoopH op precon threshold mm r0 s h).1 (biLoopH op precon threshold mm r0 s h).2 := by
  unfold biLoopH
  exact (whileLoop_inv (fun a : BiLoopH S V × Heap V => BiFrame h0 a.1 a.2)
    (fun a ha _ => biStepH_frame op precon threshold mm h0 r0 a.1 a.2 ha) (s, h) hs).1

theorem bind_biLoopH {β : Type} (op : HOp V) (precon : Option (HOp V)) (threshold : S) (mm : Nat) (r0 : Nat) (s : BiLoopH S V)
    (f : BiLoopH S V → HeapM V β) (h : Heap V) : (biLoopH op precon threshold mm r0 s >>= f) h =
      f (biLoopH op precon threshold mm r0 s h).1 (biLoopH op precon threshold mm r0 s h).2 := rfl

omit [Scalar S] in
theorem startResidH_ext (op : HOp V) (supplied : Bool) (x rhs : Nat) (h : Heap V) : h.Ext (startResidH op supplied x rhs h).2 := by
  cases supplied
  · exact .refl h
  · simp only [startResidH, bind_call, bind_rd, bind_new, HeapM.pure_apply]
    exact (call_ext op x h).1.trans (Heap.ext_alloc _ _)

/-- `BiCGSTAB.solve` modifies no array that existed before, and returns a new array. -/
theorem biSolveH_frame (op : HOp V) (o : HOpts S V) (n : Nat) (rhs : Nat) (kw : KrylovKw Nat) (h : Heap V) :
    h.Ext (biSolveH op o n rhs kw h).2 ∧ h.next ≤ (biSolveH op o n rhs kw h).1.1.x := by
  unfold biSolveH
  simp only [bind_rd, bind_new, bind_startGuess, bind_startResidH, bind_biLoopH, HeapM.ite_apply, HeapM.pure_apply]
  have e0 := fun x0 => (h.ext_alloc x0).trans (startResidH_ext op kw.guess.isSome h.next rhs (h.alloc x0))
  generalize (if kw.guess.isSome = true then 1 else 0) = nm
  split
  · exact ⟨e0 _, le_refl _⟩
  · generalize hth : pymax o.abstol _ = th
    generalize hhb : (startResidH op kw.guess.isSome h.next rhs _).2 = hb
    generalize hr0 : (startResidH op kw.guess.isSome h.next rhs _).1 = rc
    have e1 : h.Ext hb := by rw [← hhb]; exact e0 _
    have n1 := e1.next
    refine (fun H => ⟨BiFrame.ext H, BiFrame.x H⟩) (biLoopH_frame op o.precon th (kw.matvecMax.getD (2 * n)) h rc.1 _ _ ?_)
    refine ⟨((e1.trans (hb.ext_alloc _)).trans (Heap.ext_alloc _ _)).trans (Heap.ext_alloc _ _), le_refl _, ?_⟩
    simp only [Heap.next_alloc]
    omega

/-! ### Relation to the model with values -/

/-- the operator or the preconditioner always returns a new array -/
def Separate (op : HOp V) (precon : Option (HOp V)) : Prop :=
  (∀ h l, op.same h l = false) ∨ ∃ M, precon = some M ∧ ∀ h l, M.same h l = false

omit [Scalar S] [Vect S V] in
theorem Separate.ne {op : HOp V} {precon : Option (HOp V)} (hs : Separate op precon) (l : Nat) (h : Heap V) (hl : l < h.next) :
    (call op (callPrecon precon l h).1 (callPrecon precon l h).2).1 ≠ l := by
  obtain ⟨a1, a2⟩ := callPrecon_ext precon l h
  have := a1.next
  rcases hs with hs | ⟨M, rfl, hM⟩
  · rw [call_fresh _ _ _ (hs _ _)]
    simp only
    omega
  · have e : callPrecon (some M) l h = (h.next, h.alloc (M.fn (h.mem l))) := call_fresh _ _ _ (hM _ _)
    rw [e]
    have := call_ext op h.next (h.alloc (M.fn (h.mem l)))
    simp only [Heap.next_alloc] at this
    simp only
    omega

/-- the two loops are at the same point, and no array older than `h0` has been modified -/
structure BiSim (h0 : Heap V) (r0 : Nat) (r0v : V) (s : BiLoopH S V) (h : Heap V) (t : BiLoop S V) : Prop where
  x : h.mem s.x = t.x
  r : h.mem s.r = t.r
  p : h.mem s.p = t.p
  v : h.mem s.v = t.v
  r0v : h.mem r0 = r0v
  rho : s.rho = t.rho
  rhoNext : s.rhoNext = t.rhoNext
  alpha : s.alpha = t.alpha
  omega : s.omega = t.omega
  residNorm : s.residNorm = t.residNorm
  nMatvec : s.nMatvec = t.nMatvec
  finished : s.finished = t.finished
  calls : s.calls = t.calls
  hx : h0.next ≤ s.x ∧ s.x < h.next
  hp : h0.next ≤ s.p ∧ s.p < h.next
  hr : s.r < h.next ∧ s.r ≠ s.x ∧ s.r ≠ s.p
  hv : s.v < h.next ∧ s.v ≠ s.x ∧ s.v ≠ s.p
  hr0 : r0 < h.next ∧ r0 ≠ s.x ∧ r0 ≠ s.p
  xp : s.x ≠ s.p

set_option maxHeartbeats 1000000 in
theorem biStepH_sim (op : HOp V) (precon : Option (HOp V)) (hsep : Separate op precon) (threshold : S) (mm : Nat) (h0 : Heap V)
    (r0 : Nat) (r0v : V) (s : BiLoopH S V) (h : Heap V) (t : BiLoop S V) (hs : BiSim h0 r0 r0v s h t) :
    BiSim h0 r0 r0v (biStepH op precon threshold mm r0 s h).1 (biStepH op precon threshold mm r0 s h).2
      (biStep op.fn (HOp.fn? precon) threshold mm r0v t) := by
  obtain ⟨ex, er, ep, ev, er0, erho, erhon, ealpha, eomega, ern, enm, efin, ecalls, ⟨hx, hx'⟩, ⟨hp, hp'⟩, ⟨hr, rx, rp⟩,
    ⟨hv, vx, vp⟩, ⟨hr0, r0x, r0p⟩, xp⟩ := hs
  unfold biStepH biStep
  simp only [bind_rd, bind_wr, bind_new, bind_call, bind_callPrecon, HeapM.ite_apply, HeapM.pure_apply]
  simp only [Heap.mem_upd, if_true, if_neg rp, if_neg vp, ep, er, ev, erho, erhon, ealpha, eomega]
  generalize t.rhoNext / t.rho * t.alpha / t.omega = beta
  generalize hP : smul beta t.p - smul (beta * t.omega) t.v + t.r = P
  generalize hha : ((h.upd s.p _).upd s.p _).upd s.p P = ha
  have p1 : ha.mem s.p = P := by rw [← hha]; exact Heap.mem_upd_self _ _ _
  have p2 : ∀ k, k ≠ s.p → ha.mem k = h.mem k := by
    intro k hk
    rw [← hha, Heap.mem_upd_ne _ _ hk, Heap.mem_upd_ne _ _ hk, Heap.mem_upd_ne _ _ hk]
  have p3 : ha.next = h.next := by rw [← hha]; rfl
  clear hha
  -- q, v
  obtain ⟨a1, a2, a3, a4⟩ := callPrecon_spec precon s.p ha (by omega)
  have hne := hsep.ne s.p ha (by omega)
  generalize (callPrecon precon s.p ha).1 = q at a1 a3 a4 hne ⊢
  generalize (callPrecon precon s.p ha).2 = hb at a1 a2 a3 hne ⊢
  have an := a2.next
  obtain ⟨b1, b2, b3, b4⟩ := call_spec op q hb a3
  generalize (call op q hb).1 = v at b1 b3 b4 hne ⊢
  generalize (call op q hb).2 = hc at b1 b2 b3 ⊢
  have bn := b2.next
  rw [a1, p1] at b1
  have old : ∀ k < h.next, k ≠ s.p → hc.mem k = h.mem k := fun k hk hkp => by
    rw [(a2.trans b2).mem k (by omega), p2 k hkp]
  have c1 : hc.mem r0 = r0v := (old _ hr0 r0p).trans er0
  have c2 : hc.mem s.r = t.r := (old _ hr rp).trans er
  have c3 : hc.mem s.x = t.x := (old _ hx' xp).trans ex
  have c4 : hc.mem s.p = P := by rw [(a2.trans b2).mem _ (by omega), p1]
  have c5 : hc.mem q = applyPrecon (HOp.fn? precon) P := by rw [b2.mem q a3, a1, p1]
  rw [a1, p1]
  simp only [c1, c2, b1]
  generalize applyPrecon (HOp.fn? precon) P = Q at b1 c5 ⊢
  generalize t.rhoNext / dot r0v (op.fn Q) = alpha
  generalize t.r - smul alpha (op.fn Q) = SS
  -- s
  have n1 : (hc.alloc SS).next = hc.next + 1 := rfl
  have d1 : (hc.alloc SS).mem hc.next = SS := hc.mem_alloc_self _
  have d2 : ∀ k < hc.next, (hc.alloc SS).mem k = hc.mem k := fun k hk => hc.mem_alloc_lt _ hk
  generalize hc.alloc SS = hd at n1 d1 d2 ⊢
  simp only [d1, enm, ecalls]
  have d3 : hd.mem s.x = t.x := by rw [d2 _ (by omega), c3]
  have d4 : hd.mem q = Q := by rw [d2 _ (by omega), c5]
  cases le (norm SS) threshold
  · simp only [Bool.false_eq_true, if_false]
    by_cases hmm : t.nMatvec + 1 ≥ mm
    · simp only [if_pos hmm]
      constructor
      · exact d3
      · exact (d2 _ (by simp only; omega)).trans c2
      · exact (d2 _ (by simp only; omega)).trans c4
      · exact (d2 _ (by simp only; omega)).trans b1
      · exact (d2 _ (by omega)).trans c1
      · rfl
      · rfl
      · rfl
      · rfl
      · rfl
      · rfl
      · rfl
      · rfl
      · exact ⟨hx, by simp only; omega⟩
      · exact ⟨hp, by simp only; omega⟩
      · exact ⟨by simp only; omega, rx, rp⟩
      · exact ⟨by simp only; omega, by simp only; omega, hne⟩
      · exact ⟨by omega, r0x, r0p⟩
      · exact xp
    · simp only [if_neg hmm]
      -- z, t
      obtain ⟨f1, f2, f3, f4⟩ := callPrecon_spec precon hc.next hd (by omega)
      generalize (callPrecon precon hc.next hd).1 = z at f1 f3 f4 ⊢
      generalize (callPrecon precon hc.next hd).2 = he at f1 f2 f3 ⊢
      have fn := f2.next
      obtain ⟨g1, g2, g3, g4⟩ := call_spec op z he f3
      generalize (call op z he).1 = tt at g1 g3 g4 ⊢
      generalize (call op z he).2 = hf at g1 g2 g3 ⊢
      have gn := g2.next
      rw [f1, d1] at g1
      rw [f1, d1]
      have o2 : ∀ k < hd.next, hf.mem k = hd.mem k := (f2.trans g2).mem
      have i1 : hf.mem hc.next = SS := (o2 _ (by omega)).trans d1
      have i2 : hf.mem z = applyPrecon (HOp.fn? precon) SS := by rw [g2.mem z f3, f1, d1]
      have i3 : hf.mem r0 = r0v := by rw [o2 _ (by omega), d2 _ (by omega), c1]
      simp only [g1, i1, i3]
      generalize applyPrecon (HOp.fn? precon) SS = Z at i2 g1 ⊢
      generalize dot (op.fn Z) SS / dot (op.fn Z) (op.fn Z) = om
      generalize hR : SS - smul om (op.fn Z) = R
      -- r
      have j0 : (hf.alloc R).next = hf.next + 1 := rfl
      have j1 : (hf.alloc R).mem hf.next = R := hf.mem_alloc_self _
      have j2 : ∀ k < hf.next, (hf.alloc R).mem k = hf.mem k := fun k hk => hf.mem_alloc_lt _ hk
      generalize hf.alloc R = hg at j0 j1 j2 ⊢
      have k1 : hg.mem z = Z := by rw [j2 _ (by omega), i2]
      have k2 : hg.mem s.x = t.x := by rw [j2 _ (by omega), o2 _ (by omega), d3]
      have k3 : hg.mem q = Q := by rw [j2 _ (by omega), o2 _ (by omega), d4]
      have k4 : ∀ k < hc.next, hg.mem k = hc.mem k := fun k hk => by
        rw [j2 k (by omega), o2 k (by omega), d2 k hk]
      have zx : z ≠ s.x := by omega
      have qz : q ≠ z := by omega
      have qx : q ≠ s.x := by omega
      have nz : hf.next ≠ z := by omega
      have nx : hf.next ≠ s.x := by omega
      simp only [Heap.mem_upd, if_true, if_neg zx, if_neg zx.symm, if_neg qz, if_neg qx, if_neg nz, if_neg nx, k1, k2, k3, j1]
      constructor
      · simp only [Heap.mem_upd, if_true]
      · simp only [Heap.mem_upd, if_neg nz, if_neg nx, j1]
      · have h1 : s.p ≠ z := by omega
        simp only [Heap.mem_upd, if_neg h1, if_neg xp.symm]
        rw [k4 _ (by omega), c4]
      · have h1 : v ≠ z := by omega
        have h2 : v ≠ s.x := by omega
        simp only [Heap.mem_upd, if_neg h1, if_neg h2]
        rw [k4 _ (by omega), b1]
      · have h1 : r0 ≠ z := by omega
        simp only [Heap.mem_upd, if_neg h1, if_neg r0x]
        rw [k4 _ (by omega), c1]
      · rfl
      · rfl
      · rfl
      · rfl
      · rfl
      · rfl
      · rfl
      · rfl
      · exact ⟨hx, by simp only [Heap.next_upd]; omega⟩
      · exact ⟨hp, by simp only [Heap.next_upd]; omega⟩
      · exact ⟨by simp only [Heap.next_upd]; omega, nx, by simp only; omega⟩
      · exact ⟨by simp only [Heap.next_upd]; omega, by simp only; omega, hne⟩
      · exact ⟨by simp only [Heap.next_upd]; omega, r0x, r0p⟩
      · exact xp
  · simp only [if_true]
    have qx : q ≠ s.x := by omega
    rw [d3, d4]
    constructor
    · exact Heap.mem_upd_self _ _ _
    · exact (Heap.mem_upd_ne _ _ rx).trans ((d2 _ (by omega)).trans c2)
    · exact (Heap.mem_upd_ne _ _ xp.symm).trans ((d2 _ (by omega)).trans c4)
    · exact (Heap.mem_upd_ne _ _ (by simp only; omega)).trans ((d2 _ (by simp only; omega)).trans b1)
    · exact (Heap.mem_upd_ne _ _ r0x).trans ((d2 _ (by omega)).trans c1)
    · rfl
    · rfl
    · rfl
    · rfl
    · rfl
    · rfl
    · rfl
    · rfl
    · exact ⟨hx, by simp only [Heap.next_upd]; omega⟩
    · exact ⟨hp, by simp only [Heap.next_upd]; omega⟩
    · exact ⟨by simp only [Heap.next_upd]; omega, rx, rp⟩
    · exact ⟨by simp only [Heap.next_upd]; omega, by simp only; omega, hne⟩
    · exact ⟨by simp only [Heap.next_upd]; omega, r0x, r0p⟩
    · exact xp

theorem biLoopH_sim (op : HOp V) (precon : Option (HOp V)) (hsep : Separate op precon) (threshold : S) (mm : Nat) (h0 : Heap V)
    (r0 : Nat) (r0v : V) (s : BiLoopH S V) (h : Heap V) (t : BiLoop S V) (hs : BiSim h0 r0 r0v s h t) :
    BiSim h0 r0 r0v (biLoopH op precon threshold mm r0 s h).1 (biLoopH op precon threshold mm r0 s h).2
      (biLoop op.fn (HOp.fn? precon) threshold mm r0v t) := by
  unfold biLoopH biLoop
  exact whileLoop_sim (R := fun (a : BiLoopH S V × Heap V) b => BiSim h0 r0 r0v a.1 a.2 b)
    (fun a b hab => by rw [hab.finished])
    (fun a b hab _ => biStepH_sim op precon hsep threshold mm h0 r0 r0v a.1 a.2 b hab) (s, h) t hs

/-- `biSolve` with the case distinction on the guess inside -/
theorem biSolve_form (op : V → V) (o : KrylovOpts S V) (n : Nat) (rhs : V) (kw : KrylovKw V) :
    biSolve op o n rhs kw =
      let x := kw.guess.getD zeros
      let matvecMax := kw.matvecMax.getD (2 * n)
      let r0 := if kw.guess.isSome then rhs - op x else rhs
      let nMatvec := if kw.guess.isSome then 1 else 0
      let rhoNext := dot r0 r0
      let residNorm := abs (sqrt rhoNext)
      let threshold := pymax o.abstol (o.reltol * residNorm)
      let finished := le residNorm threshold || decide (nMatvec ≥ matvecMax)
      let s := biLoop op o.precon threshold matvecMax r0
        { x := x, r := r0, p := zeros, v := zeros, rho := lit 1, rhoNext := rhoNext, alpha := lit 1, omega := lit 1,
          residNorm := residNorm, nMatvec := nMatvec, finished := finished, calls := if kw.guess.isSome then [x] else [] }
      ({ residNorm0 := residNorm, converged := le s.residNorm threshold, nMatvec := s.nMatvec, x := s.x,
         residNorm := s.residNorm }, s.calls) := by
  unfold biSolve
  cases kw.guess <;> rfl

/-- `BiCGSTAB.solve` on the heap computes what the model with values computes, if the operator or the preconditioner always
returns a new array. -/
theorem biSolveH_refines (op : HOp V) (o : HOpts S V) (hsep : Separate op o.precon) (n : Nat) (rhs : Nat) (kw : KrylovKw Nat)
    (h : Heap V) (hv : KrylovValid h rhs kw) :
    ((biSolveH op o n rhs kw h).1.1.at (biSolveH op o n rhs kw h).2, (biSolveH op o n rhs kw h).1.2) =
      biSolve op.fn o.toOpts n (h.mem rhs) (kw.at h) := by
  rw [biSolve_form]
  unfold biSolveH
  obtain ⟨hrhs, hguess⟩ := hv
  have hmm : (kw.at h).matvecMax = kw.matvecMax := rfl
  have hg : (kw.at h).guess = kw.guess.map h.mem := rfl
  have hgs : (kw.guess.map h.mem).isSome = kw.guess.isSome := by cases kw.guess <;> rfl
  obtain ⟨x0, hx0⟩ : ∃ x0 : V, x0 = (kw.guess.map h.mem).getD zeros := ⟨_, rfl⟩
  simp only [bind_rd, bind_new, bind_startGuess, bind_startResidH, bind_biLoopH, HeapM.ite_apply, HeapM.pure_apply, hmm, hg,
    hgs, ← hx0]
  have e0 := h.ext_alloc x0
  have n0 : (h.alloc x0).next = h.next + 1 := rfl
  have hx1 : (h.alloc x0).mem h.next = x0 := h.mem_alloc_self x0
  generalize h.alloc x0 = ha at e0 n0 hx1 ⊢
  obtain ⟨c1, c2, c3, c4, c5⟩ := startResidH_spec op kw.guess.isSome h.next rhs ha (by omega) (by omega)
  generalize (startResidH op kw.guess.isSome h.next rhs ha).1 = rc at c1 c2 c4 c5 ⊢
  generalize (startResidH op kw.guess.isSome h.next rhs ha).2 = hb at c1 c3 c4 ⊢
  obtain ⟨r0, calls⟩ := rc
  simp only at c1 c2 c4 c5 ⊢
  have cn := c3.next
  rw [hx1, e0.mem rhs hrhs] at c1
  rw [hx1] at c2
  obtain ⟨R, hR⟩ : ∃ R, R = (if kw.guess.isSome then h.mem rhs - op.fn x0 else h.mem rhs) := ⟨_, rfl⟩
  rw [← hR] at c1
  simp only [c1, ← hR, ← c2]
  have hx2 : hb.mem h.next = x0 := by rw [c3.mem _ (by omega), hx1]
  have ha1 : o.toOpts.abstol = o.abstol := rfl
  have ha2 : o.toOpts.reltol = o.reltol := rfl
  have ha3 : o.toOpts.precon = HOp.fn? o.precon := rfl
  rw [ha1, ha2, ha3]
  generalize (if kw.guess.isSome = true then 1 else 0) = nm
  generalize hth : pymax o.abstol (o.reltol * abs (sqrt (dot R R))) = th
  generalize hml : kw.matvecMax.getD (2 * n) = mm
  cases hfin : (le (abs (sqrt (dot R R))) th || decide (nm ≥ mm))
  · simp only [Bool.false_eq_true, if_false]
    have n1 : (((hb.alloc R).alloc zeros).alloc zeros).next = hb.next + 3 := rfl
    have n2 : (hb.alloc R).next = hb.next + 1 := rfl
    have n3 : ((hb.alloc R).alloc zeros).next = hb.next + 2 := rfl
    have m1 : (((hb.alloc R).alloc zeros).alloc zeros).mem hb.next = R := by
      rw [Heap.mem_alloc_lt _ _ (by rw [n3]; omega), Heap.mem_alloc_lt _ _ (by rw [n2]; omega), hb.mem_alloc_self]
    have m2 : (((hb.alloc R).alloc zeros).alloc zeros).mem (hb.next + 1) = (zeros : V) := by
      rw [Heap.mem_alloc_lt _ _ (by rw [n3]; omega), ← n2, Heap.mem_alloc_self]
    have m3 : (((hb.alloc R).alloc zeros).alloc zeros).mem (hb.next + 2) = (zeros : V) := by
      rw [← n3, Heap.mem_alloc_self]
    have m4 : ∀ k < hb.next, (((hb.alloc R).alloc zeros).alloc zeros).mem k = hb.mem k := by
      intro k hk
      rw [Heap.mem_alloc_lt _ _ (by rw [n3]; omega), Heap.mem_alloc_lt _ _ (by rw [n2]; omega), hb.mem_alloc_lt _ hk]
    rw [n2, n3]
    generalize ((hb.alloc R).alloc zeros).alloc zeros = hc at n1 m1 m2 m3 m4 ⊢
    have h3 := biLoopH_sim op o.precon hsep th mm h r0 R
      { x := h.next, r := hb.next, p := hb.next + 1, v := hb.next + 2, rho := lit 1, rhoNext := dot R R, alpha := lit 1,
        omega := lit 1, residNorm := abs (sqrt (dot R R)), nMatvec := nm, finished := false, calls := calls } hc
      { x := x0, r := R, p := zeros, v := zeros, rho := lit 1, rhoNext := dot R R, alpha := lit 1, omega := lit 1,
        residNorm := abs (sqrt (dot R R)), nMatvec := nm, finished := false, calls := calls }
      ⟨by rw [m4 _ (by simp only; omega), hx2], m1, m2, m3, by rw [m4 _ c4, c1], rfl, rfl, rfl, rfl, rfl, rfl, rfl, rfl,
       ⟨le_refl _, by simp only; omega⟩, ⟨by simp only; omega, by simp only; omega⟩,
       ⟨by simp only; omega, by simp only; omega, by simp only; omega⟩,
       ⟨by simp only; omega, by simp only; omega, by simp only; omega⟩,
       ⟨by omega, by simp only; omega, by simp only; omega⟩, by simp only; omega⟩
    simp only [KrylovRes.at, h3.residNorm, h3.nMatvec, h3.calls, h3.x]
  · simp only [if_true]
    unfold biLoop
    rw [whileLoop_of_not (by rfl)]
    simp only [KrylovRes.at, hx2]

end Verif.Solver
