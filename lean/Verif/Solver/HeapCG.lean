import Verif.Solver.Heap
import Verif.Solver.CGProps

/-!
# `CG.solve` on the heap

A second model of `cg.py:45-165`, statement by statement, with arrays as addresses.  `cgSolveH_refines` relates it to the model
of `Verif.Solver.CG`, in which vectors are values.
-/

namespace Verif.Solver
open Scalar Vect

variable {S V : Type} [Scalar S] [Vect S V]

/-- the options of the constructor, with the preconditioner as an operator on arrays (`generic.py:74-76`) -/
structure HOpts (S V : Type) where
  abstol : S
  reltol : S
  precon : Option (HOp V) := none

/-- the options with the preconditioner as a function on values -/
def HOpts.toOpts (o : HOpts S V) : KrylovOpts S V := { abstol := o.abstol, reltol := o.reltol, precon := HOp.fn? o.precon }

/-- local variables of `CG.solve`; `x`, `r`, `p` and the lists hold addresses.  `calls` is bookkeeping: the contents of the
arguments of the products. -/
structure CGLoopH (S V : Type) where
  x : Nat
  r : Nat
  p : Nat
  ry : S
  residNorm : S
  nMatvec : Nat
  definite : Bool
  infiniteDescent : Option Nat
  residHistory : List S
  resids : List Nat
  iterates : List Nat
  calls : List V

/-- the loop body, `cg.py:115-158` -/
def cgStepH (op : HOp V) (precon : Option (HOp V)) (kw : CGKw Nat) (s : CGLoopH S V) : HeapM V (CGLoopH S V) := do
  let Ap ← call op s.p                                 -- Ap = self.op * p
  let calls := s.calls ++ [← rd s.p]
  let pAp := dot (← rd s.p) (← rd Ap)                  -- pAp = np.dot(p, Ap)
  if kw.checkCurvature && notPositive pAp then
    return { s with nMatvec := s.nMatvec + 1, calls := calls, infiniteDescent := some s.p, definite := false }
  else
    let alpha := s.ry / pAp
    wr s.x ((← rd s.x) + smul alpha (← rd s.p))        -- x += alpha * p
    wr s.r ((← rd s.r) + smul alpha (← rd Ap))         -- r += alpha * Ap
    let iterates ← appendCopy kw.storeIterates s.iterates s.x
    let y ← callPrecon precon s.r
    let resids ← appendCopy kw.storeResids s.resids y
    let ryNext := dot (← rd s.r) (← rd y)
    let beta := ryNext / s.ry
    wr s.p (smul beta (← rd s.p))                      -- p *= beta
    wr s.p ((← rd s.p) - (← rd s.r))                   -- p -= r
    let residNorm := abs (sqrt ryNext)
    return { s with ry := ryNext, residNorm := residNorm, nMatvec := s.nMatvec + 1,
                    residHistory := s.residHistory ++ [residNorm], resids := resids, iterates := iterates, calls := calls }

/-- the loop condition, `cg.py:113` -/
def cgContH (threshold : S) (matvecMax : Nat) (s : CGLoopH S V) : Bool :=
  gt s.residNorm threshold && decide (s.nMatvec < matvecMax) && s.definite

theorem cgStepH_nMatvec (op : HOp V) (precon : Option (HOp V)) (kw : CGKw Nat) (s : CGLoopH S V) (h : Heap V) :
    (cgStepH op precon kw s h).1.nMatvec = s.nMatvec + 1 := by
  unfold cgStepH
  simp only [bind_rd, bind_wr, bind_call, bind_callPrecon, bind_appendCopy, HeapM.ite_apply, HeapM.pure_apply]
  split <;> rfl

/-- the loop, `cg.py:113-158` -/
def cgLoopH (op : HOp V) (precon : Option (HOp V)) (kw : CGKw Nat) (threshold : S) (matvecMax : Nat) (s : CGLoopH S V) :
    HeapM V (CGLoopH S V) := fun h =>
  whileLoop (fun t : CGLoopH S V × Heap V => cgContH threshold matvecMax t.1) (fun t => cgStepH op precon kw t.1 t.2)
    (fun t => matvecMax - t.1.nMatvec)
    (fun t h1 h2 => by
      simp only [cgContH, Bool.and_eq_true, decide_eq_true_eq, cgStepH_nMatvec] at h1 h2
      simp only [cgStepH_nMatvec]
      omega) (s, h)

/-- `x = kwargs.get('guess', np.zeros(n)).astype(result_type)`, `cg.py:77`: `astype` makes a new array -/
def startGuess (guess : Option Nat) : HeapM V Nat :=
  match guess with
  | some g => do
    let v ← rd g
    new v
  | none => new zeros

/-- `if guess_supplied: r += self.op * x`, `cg.py:86-88` -/
def addProduct (op : HOp V) (supplied : Bool) (x r : Nat) : HeapM V (List V) :=
  match supplied with
  | true => do
    let Ax ← call op x
    let arg ← rd x
    wr r ((← rd r) + (← rd Ax))
    return [arg]
  | false => return []

/-- the code before the loop, `cg.py:75-104` -/
def cgInitH (op : HOp V) (o : HOpts S V) (kw : CGKw Nat) (self : CGObj S Nat) (rhs : Nat) : HeapM V (CGLoopH S V × S) := do
  let x ← startGuess kw.guess
  let iterates ← appendCopy kw.storeIterates self.iterates x
  let r ← new (-(← rd rhs))                            -- r = -rhs
  let calls ← addProduct op kw.guess.isSome x r
  let y ← callPrecon o.precon r
  let resids ← appendCopy kw.storeResids self.resids y
  let ry := dot (← rd r) (← rd y)
  let residNorm := abs (sqrt ry)
  let threshold := pymax o.abstol (o.reltol * residNorm)
  let p ← new (-(← rd r))                              -- p = -r
  return ({ x := x, r := r, p := p, ry := ry, residNorm := residNorm, nMatvec := if kw.guess.isSome then 1 else 0,
            definite := true, infiniteDescent := self.infiniteDescent, residHistory := self.residHistory ++ [residNorm],
            resids := resids, iterates := iterates, calls := calls }, threshold)

/-- `CG.solve` on the heap, `cg.py:45-165`; `rhs`, `kw.guess` and the arrays in the solver object are addresses.  The second
component is bookkeeping: the contents of the arguments of the products. -/
def cgSolveH (op : HOp V) (o : HOpts S V) (n : Nat) (self : CGObj S Nat) (rhs : Nat) (kw : CGKw Nat) :
    HeapM V (CGObj S Nat × List V) := do
  if kw.checkSymmetric && !kw.symOK then return (self, [])
  else
    let (s0, threshold) ← cgInitH op o kw self rhs
    let s ← cgLoopH op o.precon kw threshold (kw.matvecMax.getD (2 * n)) s0
    return ({ residHistory := s.residHistory, resids := s.resids, iterates := s.iterates,
              infiniteDescent := s.infiniteDescent, converged := le s.residNorm threshold, definite := some s.definite,
              nMatvec := s.nMatvec, x := some s.x, residNorm := some s.residNorm, residNorm0 := some s0.residNorm },
            s.calls)

/-! ### Relation to the model with values -/

/-- the contents of the arrays in a solver object -/
def CGObj.at (h : Heap V) (o : CGObj S Nat) : CGObj S V :=
  { residHistory := o.residHistory, resids := o.resids.map h.mem, iterates := o.iterates.map h.mem,
    infiniteDescent := o.infiniteDescent.map h.mem, converged := o.converged, definite := o.definite,
    nMatvec := o.nMatvec, x := o.x.map h.mem, residNorm := o.residNorm, residNorm0 := o.residNorm0 }

/-- the contents of the arrays in the keywords -/
def CGKw.at (h : Heap V) (kw : CGKw Nat) : CGKw V :=
  { guess := kw.guess.map h.mem, matvecMax := kw.matvecMax, checkSymmetric := kw.checkSymmetric, symOK := kw.symOK,
    checkCurvature := kw.checkCurvature, storeResids := kw.storeResids, storeIterates := kw.storeIterates }

theorem callPrecon_spec (o : Option (HOp V)) (l : Nat) (h : Heap V) (hl : l < h.next) :
    (callPrecon o l h).2.mem (callPrecon o l h).1 = applyPrecon (HOp.fn? o) (h.mem l) ∧ h.Ext (callPrecon o l h).2 ∧
    (callPrecon o l h).1 < (callPrecon o l h).2.next ∧ ((callPrecon o l h).1 = l ∨ (callPrecon o l h).1 = h.next) := by
  cases o with
  | none => exact ⟨rfl, .refl h, hl, .inl rfl⟩
  | some f => exact call_spec f l h hl

/-- the loop of the heap model at `s`, `h` is where the loop of the model with values is at `t`, and no array older than `h0`
has been modified -/
structure CGSim (h0 : Heap V) (s : CGLoopH S V) (h : Heap V) (t : CGLoop S V) : Prop where
  x : h.mem s.x = t.x
  r : h.mem s.r = t.r
  p : h.mem s.p = t.p
  ry : s.ry = t.ry
  residNorm : s.residNorm = t.residNorm
  nMatvec : s.nMatvec = t.nMatvec
  definite : s.definite = t.definite
  descent : s.infiniteDescent.map h.mem = t.infiniteDescent
  hist : s.residHistory = t.residHistory
  resids : s.resids.map h.mem = t.resids
  iterates : s.iterates.map h.mem = t.iterates
  calls : s.calls = t.calls
  ext : h0.Ext h
  hx : h0.next ≤ s.x ∧ s.x < h.next
  hr : h0.next ≤ s.r ∧ s.r < h.next
  hp : h0.next ≤ s.p ∧ s.p < h.next
  xr : s.x ≠ s.r
  xp : s.x ≠ s.p
  rp : s.r ≠ s.p
  old : ∀ k, k ∈ s.resids ∨ k ∈ s.iterates ∨ (s.infiniteDescent = some k ∧ s.definite = true) →
    k < h.next ∧ k ≠ s.x ∧ k ≠ s.r ∧ k ≠ s.p
  old' : ∀ k, s.infiniteDescent = some k → k < h.next

theorem cgStepH_sim (op : HOp V) (precon : Option (HOp V)) (kw : CGKw Nat) (h1 : Heap V) (h0 : Heap V) (s : CGLoopH S V)
    (h : Heap V) (t : CGLoop S V) (hs : CGSim h0 s h t) (hdf : s.definite = true) :
    CGSim h0 (cgStepH op precon kw s h).1 (cgStepH op precon kw s h).2 (cgStep op.fn (HOp.fn? precon) (kw.at h1) t) := by
  obtain ⟨ex, er, ep, ery, ern, enm, edef, edes, ehist, eres, eit, ecalls, ext, ⟨hx, hx'⟩, ⟨hr, hr'⟩, ⟨hp, hp'⟩, xr, xp, rp, old, old'⟩ := hs
  obtain ⟨c1, c2, c3, c4⟩ := call_spec op s.p h hp'
  unfold cgStepH cgStep
  simp only [bind_rd, bind_wr, bind_call, bind_callPrecon, bind_appendCopy, HeapM.ite_apply, HeapM.pure_apply]
  generalize (call op s.p h).1 = Ap at c1 c3 c4 ⊢
  generalize (call op s.p h).2 = ha at c1 c2 c3 c4 ⊢
  have hpa : ha.mem s.p = t.p := (c2.mem _ hp').trans ep
  have hxa : ha.mem s.x = t.x := (c2.mem _ hx').trans ex
  have hra : ha.mem s.r = t.r := (c2.mem _ hr').trans er
  have hna := c2.next
  rw [ep] at c1
  have hck : (kw.at h1).checkCurvature = kw.checkCurvature := rfl
  have hsi : (kw.at h1).storeIterates = kw.storeIterates := rfl
  have hsr : (kw.at h1).storeResids = kw.storeResids := rfl
  simp only [hpa, c1, hck, hsi, hsr]
  cases hc : (kw.checkCurvature && notPositive (dot t.p (op.fn t.p)))
  · have hAx : Ap ≠ s.x := by rcases c4 with rfl | rfl <;> omega
    simp only [Bool.false_eq_true, if_false, Heap.mem_upd, xr.symm, hAx, hxa, hra, c1, ery]
    generalize t.ry / dot t.p (op.fn t.p) = alpha
    obtain ⟨X, hX⟩ : ∃ X, X = t.x + smul alpha t.p := ⟨_, rfl⟩
    obtain ⟨R, hR⟩ : ∃ R, R = t.r + smul alpha (op.fn t.p) := ⟨_, rfl⟩
    obtain ⟨hb, ehb⟩ : ∃ hb, hb = (ha.upd s.x X).upd s.r R := ⟨_, rfl⟩
    rw [← hX, ← hR, ← ehb]
    have bn : hb.next = ha.next := by rw [ehb]; rfl
    have bx : hb.mem s.x = X := by rw [ehb, Heap.mem_upd_ne _ _ xr, Heap.mem_upd_self]
    have br : hb.mem s.r = R := by rw [ehb, Heap.mem_upd_self]
    have bp : hb.mem s.p = t.p := by rw [ehb, Heap.mem_upd_ne _ _ rp.symm, Heap.mem_upd_ne _ _ xp.symm, hpa]
    have bo : ∀ k < h.next, k ≠ s.x → k ≠ s.r → hb.mem k = h.mem k := by
      intro k hk h1 h2
      rw [ehb, Heap.mem_upd_ne _ _ h2, Heap.mem_upd_ne _ _ h1, c2.mem k hk]
    have be : h0.Ext hb := by rw [ehb]; exact ((ext.trans c2).upd hx _).upd hr _
    obtain ⟨a1, a2, a3⟩ := appendCopy_spec kw.storeIterates s.iterates s.x hb (fun k hk => by
      have := (old k (.inr (.inl hk))).1; omega)
    generalize (appendCopy kw.storeIterates s.iterates s.x hb).1 = its at a1 a3 ⊢
    generalize (appendCopy kw.storeIterates s.iterates s.x hb).2 = hc at a1 a2 a3 ⊢
    have an := a2.next
    obtain ⟨d1, d2, d3, d4⟩ := callPrecon_spec precon s.r hc (by omega)
    generalize (callPrecon precon s.r hc).1 = y at d1 d3 d4 ⊢
    generalize (callPrecon precon s.r hc).2 = hd at d1 d2 d3 ⊢
    have dn := d2.next
    obtain ⟨e1, e2, e3⟩ := appendCopy_spec kw.storeResids s.resids y hd (fun k hk => by
      have := (old k (.inl hk)).1; omega)
    generalize (appendCopy kw.storeResids s.resids y hd).1 = rss at e1 e3 ⊢
    generalize (appendCopy kw.storeResids s.resids y hd).2 = he at e1 e2 e3 ⊢
    have en := e2.next
    have all : ∀ k < hb.next, he.mem k = hb.mem k := ((a2.trans d2).trans e2).mem
    have ey : he.mem y = applyPrecon (HOp.fn? precon) R := by rw [e2.mem y d3, d1, a2.mem s.r (by omega), br]
    simp only [all s.r (by omega), all s.p (by omega), br, bp, ey, if_true, if_neg rp]
    generalize dot R (applyPrecon (HOp.fn? precon) R) = ry'
    have fin : ∀ v w : V, ∀ k, k ≠ s.p → ((he.upd s.p v).upd s.p w).mem k = he.mem k := by
      intro v w k hk
      rw [Heap.mem_upd_ne _ _ hk, Heap.mem_upd_ne _ _ hk]
    have its_ne : ∀ k ∈ its, k < hc.next ∧ k ≠ s.x ∧ k ≠ s.r ∧ k ≠ s.p := by
      intro k hk
      obtain ⟨h1, h2 | h2⟩ := a3 k hk
      · have := old k (.inr (.inl h2)); exact ⟨h1, this.2⟩
      · exact ⟨h1, by omega, by omega, by omega⟩
    have rss_ne : ∀ k ∈ rss, k < he.next ∧ k ≠ s.x ∧ k ≠ s.r ∧ k ≠ s.p := by
      intro k hk
      obtain ⟨h1, h2 | h2⟩ := e3 k hk
      · have := old k (.inl h2); exact ⟨h1, this.2⟩
      · exact ⟨h1, by omega, by omega, by omega⟩
    have hnb : ∀ k < h.next, k < hb.next := fun k hk => by omega
    constructor
    · rw [fin _ _ _ xp, all _ (by omega), bx]
    · rw [fin _ _ _ rp, all _ (by omega), br]
    · exact Heap.mem_upd_self _ _ _
    · rfl
    · rfl
    · simp only [enm]
    · exact edef
    · rw [← edes]
      cases hi : s.infiniteDescent with
      | none => rfl
      | some k =>
        have := old k (.inr (.inr ⟨hi, hdf⟩))
        simp only [Option.map_some]
        rw [fin _ _ _ this.2.2.2, all k (by omega), bo k this.1 this.2.1 this.2.2.1]
    · rw [ehist]
    · rw [List.map_congr_left (fun k hk => fin _ _ k (rss_ne k hk).2.2.2), e1]
      have : s.resids.map hd.mem = t.resids := by
        rw [← eres]
        refine List.map_congr_left fun k hk => ?_
        have := old k (.inl hk)
        rw [(a2.trans d2).mem k (by omega), bo k this.1 this.2.1 this.2.2.1]
      rw [this, d1, a2.mem _ (by omega), br]
      cases kw.storeResids <;> simp
    · rw [List.map_congr_left (fun k hk => fin _ _ k (its_ne k hk).2.2.2),
        List.map_congr_left (fun k hk => (d2.trans e2).mem k (its_ne k hk).1), a1]
      have : s.iterates.map hb.mem = t.iterates := by
        rw [← eit]
        refine List.map_congr_left fun k hk => ?_
        have := old k (.inr (.inl hk))
        rw [bo k this.1 this.2.1 this.2.2.1]
      rw [this, bx]
      cases kw.storeIterates <;> simp
    · rw [ecalls]
    · exact ((be.trans ((a2.trans d2).trans e2)).upd hp _).upd hp _
    · exact ⟨hx, by simp only [Heap.next_upd]; omega⟩
    · exact ⟨hr, by simp only [Heap.next_upd]; omega⟩
    · exact ⟨hp, by simp only [Heap.next_upd]; omega⟩
    · exact xr
    · exact xp
    · exact rp
    · simp only [Heap.next_upd]
      rintro k (hk | hk | ⟨hk, -⟩)
      · exact rss_ne k hk
      · have := its_ne k hk
        exact ⟨by omega, this.2⟩
      · have := old k (.inr (.inr ⟨hk, hdf⟩))
        exact ⟨by omega, this.2⟩
    · simp only [Heap.next_upd]
      intro k hk
      have := old' k hk
      omega
  · simp only [if_true]
    have hm : ∀ k < h.next, ha.mem k = h.mem k := c2.mem
    constructor
    · exact hxa
    · exact hra
    · exact hpa
    · exact ery
    · exact ern
    · simp only [enm]
    · rfl
    · simp only [Option.map_some, hpa]
    · exact ehist
    · rw [← eres]
      exact List.map_congr_left fun k hk => hm k (old k (.inl hk)).1
    · rw [← eit]
      exact List.map_congr_left fun k hk => hm k (old k (.inr (.inl hk))).1
    · rw [ecalls]
    · exact ext.trans c2
    · exact ⟨hx, by simp only; omega⟩
    · exact ⟨hr, by simp only; omega⟩
    · exact ⟨hp, by simp only; omega⟩
    · exact xr
    · exact xp
    · exact rp
    · simp only [Bool.false_eq_true, and_false, or_false]
      rintro k (hk | hk)
      · have := old k (.inl hk)
        exact ⟨by omega, this.2⟩
      · have := old k (.inr (.inl hk))
        exact ⟨by omega, this.2⟩
    · simp only [Option.some.injEq]
      intro k hk
      omega

theorem cgLoopH_sim (op : HOp V) (precon : Option (HOp V)) (kw : CGKw Nat) (threshold : S) (mm : Nat) (h1 h0 : Heap V)
    (s : CGLoopH S V) (h : Heap V) (t : CGLoop S V) (hs : CGSim h0 s h t) :
    CGSim h0 (cgLoopH op precon kw threshold mm s h).1 (cgLoopH op precon kw threshold mm s h).2
      (cgLoop op.fn (HOp.fn? precon) (kw.at h1) threshold mm t) := by
  induction hm : mm - t.nMatvec using Nat.strongRecOn generalizing s h t with
  | ind m ih =>
    have hcont : cgContH threshold mm s = cgCont threshold mm t := by
      unfold cgContH cgCont
      rw [hs.residNorm, hs.nMatvec, hs.definite]
    rw [cgLoop]
    cases hc : cgCont threshold mm t
    · have : cgLoopH op precon kw threshold mm s h = (s, h) := by
        unfold cgLoopH
        exact whileLoop_of_not (by simp only [hcont, hc])
      rw [this]
      simpa using hs
    · have : cgLoopH op precon kw threshold mm s h =
          cgLoopH op precon kw threshold mm (cgStepH op precon kw s h).1 (cgStepH op precon kw s h).2 := by
        unfold cgLoopH
        exact whileLoop_of_cont (by simp only [hcont, hc])
      rw [this, dif_pos rfl]
      have hc' := hc
      simp only [cgCont, Bool.and_eq_true, decide_eq_true_eq] at hc'
      refine ih _ ?_ _ _ _ (cgStepH_sim op precon kw h1 h0 s h t hs (hs.definite.trans hc'.2)) rfl
      rw [cgStep_nMatvec]
      omega

/-- the arrays of the solver object and the keywords exist -/
structure CGValid (h : Heap V) (self : CGObj S Nat) (rhs : Nat) (kw : CGKw Nat) : Prop where
  rhs : rhs < h.next
  guess : ∀ g, kw.guess = some g → g < h.next
  resids : ∀ k ∈ self.resids, k < h.next
  iterates : ∀ k ∈ self.iterates, k < h.next
  descent : ∀ k, self.infiniteDescent = some k → k < h.next

omit [Scalar S] in
theorem bind_startGuess {β : Type} (guess : Option Nat) (f : Nat → HeapM V β) (h : Heap V) :
    (startGuess guess >>= f) h = f h.next (h.alloc ((guess.map h.mem).getD zeros)) := by
  cases guess <;> rfl

omit [Scalar S] in
theorem bind_addProduct {β : Type} (op : HOp V) (supplied : Bool) (x r : Nat) (f : List V → HeapM V β) (h : Heap V) :
    (addProduct op supplied x r >>= f) h = f (addProduct op supplied x r h).1 (addProduct op supplied x r h).2 := rfl

omit [Scalar S] in
theorem addProduct_spec (op : HOp V) (supplied : Bool) (x r : Nat) (h : Heap V) (hx : x < h.next) (hr : r < h.next) :
    (addProduct op supplied x r h).1 = (if supplied then [h.mem x] else []) ∧
    (addProduct op supplied x r h).2.mem r = (if supplied then h.mem r + op.fn (h.mem x) else h.mem r) ∧
    h.next ≤ (addProduct op supplied x r h).2.next ∧
    (∀ k < h.next, k ≠ r → (addProduct op supplied x r h).2.mem k = h.mem k) ∧
    ∀ h0 : Heap V, h0.Ext h → h0.next ≤ r → h0.Ext (addProduct op supplied x r h).2 := by
  cases supplied
  · exact ⟨rfl, rfl, le_refl _, fun _ _ _ => rfl, fun _ he _ => he⟩
  · obtain ⟨c1, c2, c3, c4⟩ := call_spec op x h hx
    simp only [addProduct, bind_call, bind_rd, bind_wr, HeapM.pure_apply, if_true]
    refine ⟨by rw [c2.mem x hx], ?_, ?_, ?_, ?_⟩
    · rw [Heap.mem_upd_self, c2.mem r hr, c1]
    · exact c2.next
    · intro k hk hkr
      rw [Heap.mem_upd_ne _ _ hkr, c2.mem k hk]
    · exact fun h0 he hr => (he.trans c2).upd hr _

/-- `cgInit` with the case distinction on the guess inside -/
theorem cgInit_form (op : V → V) (o : KrylovOpts S V) (kw : CGKw V) (self : CGObj S V) (rhs : V) :
    cgInit op o kw self rhs =
      let x := kw.guess.getD zeros
      let r := if kw.guess.isSome then -rhs + op x else -rhs
      let y := applyPrecon o.precon r
      let residNorm := abs (sqrt (dot r y))
      ({ x := x, r := r, p := -r, ry := dot r y, residNorm := residNorm, nMatvec := if kw.guess.isSome then 1 else 0,
         definite := true, infiniteDescent := self.infiniteDescent, residHistory := self.residHistory ++ [residNorm],
         resids := if kw.storeResids then self.resids ++ [y] else self.resids,
         iterates := if kw.storeIterates then self.iterates ++ [x] else self.iterates,
         calls := if kw.guess.isSome then [x] else [] }, pymax o.abstol (o.reltol * residNorm)) := by
  unfold cgInit
  cases kw.guess <;> rfl

theorem cgInitH_sim (op : HOp V) (o : HOpts S V) (kw : CGKw Nat) (self : CGObj S Nat) (rhs : Nat) (h : Heap V)
    (hv : CGValid h self rhs kw) :
    CGSim h (cgInitH op o kw self rhs h).1.1 (cgInitH op o kw self rhs h).2
      (cgInit op.fn o.toOpts (kw.at h) (self.at h) (h.mem rhs)).1 ∧
    (cgInitH op o kw self rhs h).1.2 = (cgInit op.fn o.toOpts (kw.at h) (self.at h) (h.mem rhs)).2 := by
  obtain ⟨hrhs, hguess, hres, hit, hdes⟩ := hv
  rw [cgInit_form]
  unfold cgInitH
  obtain ⟨x0, hx0⟩ : ∃ x0 : V, x0 = (kw.guess.map h.mem).getD zeros := ⟨_, rfl⟩
  simp only [bind_rd, bind_new, bind_startGuess, bind_addProduct, bind_callPrecon, bind_appendCopy, HeapM.pure_apply, ← hx0]
  have hsi : (kw.at h).storeIterates = kw.storeIterates := rfl
  have hsr : (kw.at h).storeResids = kw.storeResids := rfl
  have hg : (kw.at h).guess = kw.guess.map h.mem := rfl
  have hgs : (kw.guess.map h.mem).isSome = kw.guess.isSome := by cases kw.guess <;> rfl
  simp only [hsi, hsr, hg, hgs, ← hx0]
  have e0 := h.ext_alloc x0
  have n0 : (h.alloc x0).next = h.next + 1 := rfl
  have hx1 : (h.alloc x0).mem h.next = x0 := h.mem_alloc_self x0
  generalize h.alloc x0 = ha at e0 n0 hx1 ⊢
  obtain ⟨a1, a2, a3⟩ := appendCopy_spec kw.storeIterates self.iterates h.next ha (fun k hk => by have := hit k hk; omega)
  generalize (appendCopy kw.storeIterates self.iterates h.next ha).1 = its at a1 a3 ⊢
  generalize (appendCopy kw.storeIterates self.iterates h.next ha).2 = hb at a1 a2 a3 ⊢
  have a4 := a2.next
  have hrhs' : hb.mem rhs = h.mem rhs := (e0.trans a2).mem _ hrhs
  rw [hrhs']
  have e1 := hb.ext_alloc (-h.mem rhs)
  have n1 : (hb.alloc (-h.mem rhs)).next = hb.next + 1 := rfl
  have hr1 : (hb.alloc (-h.mem rhs)).mem hb.next = -h.mem rhs := hb.mem_alloc_self _
  generalize hb.alloc (-h.mem rhs) = hc at e1 n1 hr1 ⊢
  obtain ⟨c1, c2, c3, c4, c5⟩ := addProduct_spec op kw.guess.isSome h.next hb.next hc (by omega) (by omega)
  replace c5 := c5 h ((e0.trans a2).trans e1) (by omega)
  generalize (addProduct op kw.guess.isSome h.next hb.next hc).1 = calls at c1 ⊢
  generalize (addProduct op kw.guess.isSome h.next hb.next hc).2 = hd at c2 c3 c4 c5 ⊢
  have hx2 : hc.mem h.next = x0 := by rw [e1.mem _ (by omega), a2.mem _ (by omega), hx1]
  rw [hr1, hx2] at c2
  rw [hx2] at c1
  obtain ⟨R, hR⟩ : ∃ R, R = (if kw.guess.isSome then -h.mem rhs + op.fn x0 else -h.mem rhs) := ⟨_, rfl⟩
  rw [← hR] at c2
  obtain ⟨d1, d2, d3, d4⟩ := callPrecon_spec o.precon hb.next hd (by omega)
  generalize (callPrecon o.precon hb.next hd).1 = y at d1 d3 d4 ⊢
  generalize (callPrecon o.precon hb.next hd).2 = he at d1 d2 d3 ⊢
  have dn := d2.next
  obtain ⟨e1', e2, e3⟩ := appendCopy_spec kw.storeResids self.resids y he (fun k hk => by have := hres k hk; omega)
  generalize (appendCopy kw.storeResids self.resids y he).1 = rss at e1' e3 ⊢
  generalize (appendCopy kw.storeResids self.resids y he).2 = hf at e1' e2 e3 ⊢
  have en := e2.next
  simp only [← hR]
  have hrf : hf.mem hb.next = R := by rw [(d2.trans e2).mem _ (by omega), c2]
  have hyf : hf.mem y = applyPrecon o.toOpts.precon R := by rw [e2.mem y d3, d1, c2]; rfl
  simp only [hrf, hyf]
  have old : ∀ k < h.next, hf.mem k = h.mem k := by
    intro k hk
    rw [(d2.trans e2).mem k (by omega), c4 k (by omega) (by omega), e1.mem k (by omega), a2.mem k (by omega), e0.mem k hk]
  have hdm : ∀ k < hb.next, hd.mem k = hb.mem k := fun k hk => by
    rw [c4 k (by omega) (by omega), e1.mem k (by omega)]
  have its_lt : ∀ k ∈ its, k < hb.next ∧ k ≠ h.next := by
    intro k hk
    obtain ⟨h1, h2 | h2⟩ := a3 k hk
    · have := hit k h2; exact ⟨h1, by omega⟩
    · exact ⟨h1, by omega⟩
  have rss_lt : ∀ k ∈ rss, k < hf.next ∧ k ≠ h.next ∧ k ≠ hb.next := by
    intro k hk
    obtain ⟨h1, h2 | h2⟩ := e3 k hk
    · have := hres k h2; exact ⟨h1, by omega, by omega⟩
    · exact ⟨h1, by omega, by omega⟩
  have fin : ∀ k < hf.next, (hf.alloc (-R)).mem k = hf.mem k := fun k hk => hf.mem_alloc_lt _ hk
  refine ⟨?_, rfl⟩
  constructor
  · simp only
    rw [fin _ (by omega), (d2.trans e2).mem _ (by omega), c4 _ (by omega) (by omega), hx2]
  · simp only
    rw [fin _ (by omega), hrf]
  · exact hf.mem_alloc_self _
  · rfl
  · rfl
  · rfl
  · rfl
  · change self.infiniteDescent.map _ = self.infiniteDescent.map h.mem
    cases hi : self.infiniteDescent with
    | none => rfl
    | some k =>
      have := hdes k hi
      simp only [Option.map_some]
      rw [fin k (by omega), old k this]
  · rfl
  · simp only
    rw [List.map_congr_left (fun k hk => fin k (rss_lt k hk).1), e1']
    have : self.resids.map he.mem = (self.at h).resids := by
      refine List.map_congr_left fun k hk => ?_
      have := hres k hk
      rw [d2.mem k (by omega), hdm k (by omega), a2.mem k (by omega), e0.mem k this]
    rw [this, d1, c2]
    cases kw.storeResids <;> simp <;> rfl
  · simp only
    rw [List.map_congr_left (fun k hk => fin k (by have := (its_lt k hk).1; omega)),
      List.map_congr_left (fun k hk => (d2.trans e2).mem k (by have := (its_lt k hk).1; omega)),
      List.map_congr_left (fun k hk => hdm k (its_lt k hk).1), a1]
    have : self.iterates.map ha.mem = (self.at h).iterates :=
      List.map_congr_left fun k hk => e0.mem k (hit k hk)
    rw [this, hx1]
    cases kw.storeIterates <;> simp
  · exact c1
  · exact ((c5.trans d2).trans e2).trans (hf.ext_alloc _)
  · exact ⟨le_refl _, by simp only [Heap.next_alloc]; omega⟩
  · exact ⟨by simp only; omega, by simp only [Heap.next_alloc]; omega⟩
  · exact ⟨by simp only; omega, by simp only [Heap.next_alloc]; omega⟩
  · simp only; omega
  · simp only; omega
  · simp only; omega
  · simp only [Heap.next_alloc]
    rintro k (hk | hk | ⟨hk, -⟩)
    · have := rss_lt k hk
      exact ⟨by omega, this.2.1, this.2.2, by omega⟩
    · have := its_lt k hk
      exact ⟨by omega, this.2, by omega, by omega⟩
    · have := hdes k hk
      exact ⟨by omega, by omega, by omega, by omega⟩
  · simp only [Heap.next_alloc]
    intro k hk
    have := hdes k hk
    omega

/-- `CG.solve` on the heap computes what the model with values computes, whatever the operator and the preconditioner return
themselves, and modifies no array that existed before. -/
theorem cgSolveH_refines (op : HOp V) (o : HOpts S V) (n : Nat) (self : CGObj S Nat) (rhs : Nat) (kw : CGKw Nat) (h : Heap V)
    (hv : CGValid h self rhs kw) (hx : ∀ k, self.x = some k → k < h.next) :
    h.Ext (cgSolveH op o n self rhs kw h).2 ∧
    ((cgSolveH op o n self rhs kw h).1.1.at (cgSolveH op o n self rhs kw h).2, (cgSolveH op o n self rhs kw h).1.2) =
      cgSolve op.fn o.toOpts n (self.at h) (h.mem rhs) (kw.at h) ∧
    ∀ k, (cgSolveH op o n self rhs kw h).1.1.x = some k → k < (cgSolveH op o n self rhs kw h).2.next ∧
      (h.next ≤ k ∨ (self.x = some k ∧ kw.checkSymmetric = true ∧ kw.symOK = false)) := by
  unfold cgSolveH cgSolve
  have hck : (kw.at h).checkSymmetric = kw.checkSymmetric := rfl
  have hsy : (kw.at h).symOK = kw.symOK := rfl
  have hmm : (kw.at h).matvecMax = kw.matvecMax := rfl
  rw [hck, hsy, hmm]
  cases hcs : kw.checkSymmetric && !kw.symOK
  · simp only [Bool.false_eq_true, if_false, HeapM.bind_apply, HeapM.pure_apply]
    obtain ⟨h1, h2⟩ := cgInitH_sim op o kw self rhs h hv
    have h3 := cgLoopH_sim op o.precon kw (cgInitH op o kw self rhs h).1.2 (kw.matvecMax.getD (2 * n)) h h _ _ _ h1
    rw [h2] at h3 ⊢
    have hto : o.toOpts.precon = HOp.fn? o.precon := rfl
    rw [hto]
    generalize cgInit op.fn o.toOpts (kw.at h) (self.at h) (h.mem rhs) = ci at h1 h3 ⊢
    generalize cgLoopH op o.precon kw ci.2 _ _ _ = out at h3 ⊢
    refine ⟨h3.ext, ?_, ?_⟩
    · simp only [CGObj.at, h3.hist, h3.resids, h3.iterates, h3.descent, h3.residNorm, h3.definite, h3.nMatvec, h3.calls,
        Option.map_some, h3.x, h1.residNorm]
    · rintro k hk
      cases hk
      exact ⟨h3.hx.2, .inl h3.hx.1⟩
  · refine ⟨.refl h, rfl, fun k hk => ⟨hx k hk, .inr ⟨hk, ?_⟩⟩⟩
    simpa using hcs

end Verif.Solver
