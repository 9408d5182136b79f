import Verif.Solver.HeapBi
import Verif.Solver.Minres

/-!
# `Minres.solve` on the heap

A second model of `minres.py:115-410`, with arrays as addresses.  Scalars, and printing, are treated as in
`Verif.Solver.Minres`.  The relation to the model with values needs an operator that returns new arrays: otherwise
`y -= shift*v` (`minres.py:240`) changes `v`.
-/

namespace Verif.Solver
open Scalar Vect

variable {S V : Type} [Scalar S] [Vect S V]

/-- keywords of `Minres.solve`, with the preconditioner as an operator on arrays -/
structure MinresKwH (S V : Type) where
  precon : Option (HOp V) := none
  shift : S
  check : Bool := true
  symOK : Bool := true
  preconSymOK : Bool := true
  itnlim : Option Nat := none
  rtol : S
  etol : S
  storeIterates : Bool := false
  window : Nat := 5

/-- the keywords with the preconditioner as a function on values -/
def MinresKwH.toKw (kw : MinresKwH S V) : MinresKw S V :=
  { precon := HOp.fn? kw.precon, shift := kw.shift, check := kw.check, symOK := kw.symOK, preconSymOK := kw.preconSymOK,
    itnlim := kw.itnlim, rtol := kw.rtol, etol := kw.etol, storeIterates := kw.storeIterates, window := kw.window }

/-- local variables of the loop: the vectors of `MinresLoop` are addresses.  `calls` is bookkeeping: the contents of the
arguments of the products (the field of the same name in `vars` is not used). -/
structure MinresLoopH (S V : Type) where
  vars : MinresLoop S Nat
  calls : List V

/-- `precon * l` if there is a preconditioner -/
def preconOr (o : Option (HOp V)) (l : Nat) (alt : HeapM V Nat) : HeapM V Nat :=
  match o with
  | some M => call M l
  | none => alt

/-- `if itn >= 2: y = y - (beta/oldb)*r1`, `minres.py:242-243` -/
def minresSubH (c : Bool) (coef : S) (y r1 : Nat) : HeapM V Nat :=
  match c with
  | true => do new ((← rd y) - smul coef (← rd r1))
  | false => return y

/-- the Lanczos step, `minres.py:236-251`: `v`, `alfa`, the new `r1`, the new `r2`, the new `y`, `dot(r2, y)`, and the contents
of `v` when the product is computed -/
def minresLanczosH (op : HOp V) (kw : MinresKwH S V) (itn : Nat) (s : MinresLoop S Nat) :
    HeapM V (Nat × S × Nat × Nat × Nat × S × V) := do
  let v ← new (smul (lit 1 / s.beta) (← rd s.y))                     -- v = s*y
  let arg ← rd v
  let y ← call op v                                                  -- y = A * v
  wr y ((← rd y) - smul kw.shift (← rd v))                           -- y -= shift*v
  let y ← minresSubH (decide (itn ≥ 2)) (s.beta / s.oldb) y s.r1     -- y = y - (beta/oldb)*r1
  let alfa := dot (← rd v) (← rd y)
  let y ← new (smul (-alfa / s.beta) (← rd s.r2) + (← rd y))         -- y = (- alfa/beta)*r2 + y
  let r1 ← new (← rd s.r2)                                           -- r1 = r2.copy()
  let r2 ← new (← rd y)                                              -- r2 = y.copy()
  let y ← preconOr kw.precon r2 (pure y)                             -- if precon is not None: y = precon * r2
  return (v, alfa, r1, r2, y, dot (← rd r2) (← rd y), arg)

/-- one iteration, `minres.py:221-383` -/
def minresStepH (op : HOp V) (eps : S) (kw : MinresKwH S V) (itnlim : Nat) (beta1 : S) (st : MinresLoopH S V) :
    HeapM V (MinresLoopH S V) := do
  let s := st.vars
  let itn := s.itn + 1
  let (v, alfa, r1, r2, y, bb, arg) ← minresLanczosH op kw itn s
  let calls := st.calls ++ [arg]
  if lt bb (lit 0) then return ⟨{ s with itn := itn, istop := 6, broke := true }, calls⟩
  else
    let oldb := s.beta
    let beta := sqrt bb
    let tnorm2 := s.tnorm2 + alfa * alfa + oldb * oldb + beta * beta
    let istop := minresBeta2 eps beta1 beta itn s.istop
    let gmax := if itn = 1 then Scalar.abs alfa else s.gmax
    let gmin := if itn = 1 then Scalar.abs alfa else s.gmin
    let delta := s.cs * s.dbar + s.sn * alfa
    let gbar := s.sn * s.dbar - s.cs * alfa
    let epsln := s.sn * beta
    let dbar := -s.cs * beta
    let root := normof2 gbar dbar
    let gamma := pymax (normof2 gbar beta) eps
    let cs := gbar / gamma
    let sn := beta / gamma
    let phi := cs * s.phibar
    let phibar := sn * s.phibar
    let w1 ← new (← rd s.w2)                                         -- w1 = w2.copy()
    let w2 ← new (← rd s.w)                                          -- w2 = w.copy()
    let w ← new (smul (lit 1 / gamma) ((← rd v) - smul s.epsln (← rd w1) - smul delta (← rd w2)))
    wr s.x ((← rd s.x) + smul phi (← rd w))                          -- x += phi*w
    let iterates ← appendCopy kw.storeIterates s.iterates s.x
    let xNrgNorm2 := s.xNrgNorm2 + phi * phi
    let dErr := s.dErr.set (itn % kw.window) phi
    let trnc := normList dErr
    let xNrgNorm := sqrt xNrgNorm2
    let istop := minresDirErr kw.etol trnc xNrgNorm kw.window itn istop
    let gmax := pymax gmax gamma
    let gmin := pymin gmin gamma
    let z := s.rhs1 / gamma
    let ynorm2 := z * z + s.ynorm2
    let Anorm := sqrt tnorm2
    let ynorm := sqrt ynorm2
    let test1 := phibar / (Anorm * ynorm)
    let test2 := root / Anorm
    let Acond := gmax / gmin
    let istop := minresTests eps kw.rtol beta1 itnlim itn test1 test2 Acond (Anorm * ynorm * eps) istop
    let vars : MinresLoop S Nat :=
      { x := s.x, y := y, r1 := r1, r2 := r2, w := w, w2 := w2, oldb := oldb, beta := beta, dbar := dbar, epsln := epsln,
        phibar := phibar, rhs1 := s.rhs2 - delta * z, rhs2 := -epsln * z, tnorm2 := tnorm2, ynorm2 := ynorm2, cs := cs,
        sn := sn, gmax := gmax, gmin := gmin, xNrgNorm2 := xNrgNorm2, dErr := dErr, Anorm := Anorm, Acond := Acond,
        rnorm := phibar, ynorm := ynorm, Arnorm := s.phibar * root, istop := istop, itn := itn,
        broke := decide (istop > 0), residHistory := s.residHistory ++ [phibar],
        dirErrors := if itn > kw.window then s.dirErrors ++ [trnc / xNrgNorm] else s.dirErrors,
        iterates := iterates, calls := [] }
    return ⟨vars, calls⟩

theorem bind_minresLanczosH {β : Type} (op : HOp V) (kw : MinresKwH S V) (itn : Nat) (s : MinresLoop S Nat)
    (f : Nat × S × Nat × Nat × Nat × S × V → HeapM V β) (h : Heap V) :
    (minresLanczosH op kw itn s >>= f) h = f (minresLanczosH op kw itn s h).1 (minresLanczosH op kw itn s h).2 := rfl

theorem minresStepH_itn (op : HOp V) (eps : S) (kw : MinresKwH S V) (itnlim : Nat) (beta1 : S) (st : MinresLoopH S V) (h : Heap V) :
    (minresStepH op eps kw itnlim beta1 st h).1.vars.itn = st.vars.itn + 1 := by
  unfold minresStepH
  simp only [bind_rd, bind_wr, bind_new, bind_appendCopy, bind_minresLanczosH, HeapM.ite_apply, HeapM.pure_apply]
  split <;> rfl

/-- the loop, `minres.py:219-383` -/
def minresLoopH (op : HOp V) (eps : S) (kw : MinresKwH S V) (itnlim : Nat) (beta1 : S) (st : MinresLoopH S V) :
    HeapM V (MinresLoopH S V) := fun h =>
  whileLoop (fun t : MinresLoopH S V × Heap V => minresCont itnlim t.1.vars)
    (fun t => minresStepH op eps kw itnlim beta1 t.1 t.2) (fun t => itnlim - t.1.vars.itn)
    (fun t h _ => by
      simp only [minresCont, Bool.and_eq_true, decide_eq_true_eq] at h
      have := minresStepH_itn op eps kw itnlim beta1 t.1 t.2
      omega) (st, h)

/-- the code before the loop, `minres.py:132-208`: the variables, `beta1` and `done` -/
def minresInitH (kw : MinresKwH S V) (self : MinresObj S V) (b : Nat) : HeapM V (MinresLoopH S V × S × Bool) := do
  let x ← new zeros
  let iterates ← appendCopy kw.storeIterates [] x
  let y ← preconOr kw.precon b (do new (← rd b))                     -- y = precon * b, or y = b.copy()
  let b0 := dot (← rd b) (← rd y)
  let e : Int × Bool := if lt b0 (lit 0) then (9, true) else (0, false)
  let e := if feq b0 (lit 0) then (e.1, true) else e
  let beta1 := if gt b0 (lit 0) then sqrt b0 else b0
  let e := if kw.check && !kw.symOK then (7, true) else e
  let e := if kw.check && kw.precon.isSome && !kw.preconSymOK then (8, true) else e
  let w ← new zeros
  let w2 ← new zeros
  let r2 ← new (← rd b)                                              -- r1 = b; r2 = r1.copy()
  let vars : MinresLoop S Nat :=
    { x := x, y := y, r1 := b, r2 := r2, w := w, w2 := w2, oldb := lit 0, beta := beta1, dbar := lit 0,
      epsln := lit 0, phibar := beta1, rhs1 := beta1, rhs2 := lit 0, tnorm2 := lit 0, ynorm2 := lit 0, cs := lit (-1),
      sn := lit 0, gmax := lit 0, gmin := lit 0, xNrgNorm2 := lit 0, dErr := List.replicate kw.window (lit 0),
      Anorm := lit 0, Acond := lit 0, rnorm := lit 0, ynorm := lit 0, Arnorm := lit 0,
      istop := e.1, itn := 0, broke := false, residHistory := self.residHistory, dirErrors := [],
      iterates := iterates, calls := [] }
  return (⟨vars, []⟩, beta1, e.2)

/-- the attributes set at the end, `minres.py:395-408` -/
def minresResultH (beta1 : S) (s : MinresLoop S Nat) : MinresRes S Nat :=
  { converged := minresConverged s.istop, x := s.x, istop := s.istop, itn := s.itn, nMatvec := s.itn, rnorm := s.rnorm,
    residNorm0 := beta1, Arnorm := s.Arnorm, Anorm := s.Anorm, Acond := s.Acond, ynorm := s.ynorm,
    residHistory := s.residHistory, dirErrors := s.dirErrors, iterates := s.iterates }

/-- `Minres.solve` on the heap, `minres.py:115-410`; `b` is an address.  As in `minresSolve`, an empty window raises in the first
iteration (`minres.py:304`). -/
def minresSolveH (op : HOp V) (eps : S) (n : Nat) (self : MinresObj S V) (b : Nat) (kw : MinresKwH S V) :
    HeapM V (Except PyError (MinresRes S Nat × List V)) := do
  let itnlim := kw.itnlim.getD (5 * n)
  let (st, beta1, done) ← minresInitH kw self b
  if done then return .ok (minresResultH beta1 st.vars, st.calls)
  else if kw.window = 0 ∧ 0 < itnlim then
    let (_, _, _, _, _, bb, arg) ← minresLanczosH op kw 1 st.vars
    if lt bb (lit 0) then
      return .ok (minresResultH beta1 { st.vars with itn := 1, istop := 6, broke := true }, [arg])
    else return .error .zeroDivision
  else
    let st' ← minresLoopH op eps kw itnlim beta1 st
    return .ok (minresResultH beta1 st'.vars, st'.calls)

/-! ### No array of the caller is modified -/

omit [Scalar S] in
theorem bind_minresSubH {β : Type} (c : Bool) (coef : S) (y r1 : Nat) (f : Nat → HeapM V β) (h : Heap V) :
    (minresSubH c coef y r1 >>= f) h = f (minresSubH c coef y r1 h).1 (minresSubH c coef y r1 h).2 := rfl

omit [Scalar S] [Vect S V] in
theorem bind_preconOr {β : Type} (o : Option (HOp V)) (l : Nat) (alt : HeapM V Nat) (f : Nat → HeapM V β) (h : Heap V) :
    (preconOr o l alt >>= f) h = f (preconOr o l alt h).1 (preconOr o l alt h).2 := rfl

omit [Scalar S] in
theorem minresSubH_ext (c : Bool) (coef : S) (y r1 : Nat) (h : Heap V) : h.Ext (minresSubH c coef y r1 h).2 := by
  cases c
  · exact .refl h
  · exact h.ext_alloc _

omit [Scalar S] [Vect S V] in
theorem preconOr_ext (o : Option (HOp V)) (l : Nat) (alt : HeapM V Nat) (h : Heap V) (ha : h.Ext (alt h).2) :
    h.Ext (preconOr o l alt h).2 := by
  cases o
  · exact ha
  · exact (call_ext _ _ _).1

omit [Scalar S] [Vect S V] in
theorem appendCopy_ext (flag : Bool) (lst : List Nat) (l : Nat) (h : Heap V) : h.Ext (appendCopy flag lst l h).2 := by
  cases flag
  · exact .refl h
  · exact h.ext_alloc _

theorem minresLanczosH_ext (op : HOp V) (kw : MinresKwH S V) (itn : Nat) (s : MinresLoop S Nat) (h : Heap V) :
    h.Ext (minresLanczosH op kw itn s h).2 := by
  unfold minresLanczosH
  simp only [bind_rd, bind_wr, bind_new, bind_call, bind_minresSubH, bind_preconOr, HeapM.pure_apply]
  generalize smul (lit 1 / s.beta) (h.mem s.y) = v
  have e1 := h.ext_alloc v
  have n1 : h.next ≤ h.next := le_refl _
  obtain ⟨e2, e3⟩ := call_ext op h.next (h.alloc v)
  generalize (call op h.next (h.alloc v)).2 = ha at e2 ⊢
  generalize (call op h.next (h.alloc v)).1 = y at e3 ⊢
  have hy : h.next ≤ y := by
    rcases e3 with rfl | rfl
    · exact n1
    · exact e1.next
  have e4 : ∀ w, h.Ext (ha.upd y w) := fun w => (e1.trans e2).upd hy w
  generalize hhb : ha.upd y _ = hb
  have e5 : h.Ext hb := by rw [← hhb]; exact e4 _
  refine Heap.Ext.trans ?_ (preconOr_ext _ _ _ _ (.refl _))
  exact ((((e5.trans (minresSubH_ext _ _ _ _ _)).trans (Heap.ext_alloc _ _)).trans (Heap.ext_alloc _ _)).trans (Heap.ext_alloc _ _))

/-- what the loop writes to is newer than `h0`, and nothing older has been modified -/
structure MinresFrame (h0 : Heap V) (st : MinresLoopH S V) (h : Heap V) : Prop where
  ext : h0.Ext h
  x : h0.next ≤ st.vars.x

theorem minresStepH_frame (op : HOp V) (eps : S) (kw : MinresKwH S V) (itnlim : Nat) (beta1 : S) (h0 : Heap V)
    (st : MinresLoopH S V) (h : Heap V) (hs : MinresFrame h0 st h) :
    MinresFrame h0 (minresStepH op eps kw itnlim beta1 st h).1 (minresStepH op eps kw itnlim beta1 st h).2 := by
  obtain ⟨ext, hx⟩ := hs
  unfold minresStepH
  simp only [bind_rd, bind_wr, bind_new, bind_appendCopy, bind_minresLanczosH, HeapM.ite_apply, HeapM.pure_apply]
  have e1 := ext.trans (minresLanczosH_ext op kw (st.vars.itn + 1) st.vars h)
  generalize minresLanczosH op kw (st.vars.itn + 1) st.vars h = out at e1 ⊢
  obtain ⟨⟨v, alfa, r1, r2, y, bb, arg⟩, ha⟩ := out
  simp only at e1 ⊢
  split
  · exact ⟨e1, hx⟩
  · refine ⟨?_, hx⟩
    refine Heap.Ext.trans (Heap.Ext.upd ?_ hx _) (appendCopy_ext _ _ _ _)
    exact ((e1.trans (Heap.ext_alloc _ _)).trans (Heap.ext_alloc _ _)).trans (Heap.ext_alloc _ _)

theorem minresLoopH_frame (op : HOp V) (eps : S) (kw : MinresKwH S V) (itnlim : Nat) (beta1 : S) (h0 : Heap V)
    (st : MinresLoopH S V) (h : Heap V) (hs : MinresFrame h0 st h) :
    MinresFrame h0 (minresLoopH op eps kw itnlim beta1 st h).1 (minresLoopH op eps kw itnlim beta1 st h).2 := by
  unfold minresLoopH
  exact (whileLoop_inv (fun a : MinresLoopH S V × Heap V => MinresFrame h0 a.1 a.2)
    (fun a ha _ => minresStepH_frame op eps kw itnlim beta1 h0 a.1 a.2 ha) (st, h) hs).1

theorem minresInitH_frame (kw : MinresKwH S V) (self : MinresObj S V) (b : Nat) (h : Heap V) :
    MinresFrame h (minresInitH kw self b h).1.1 (minresInitH kw self b h).2 := by
  unfold minresInitH
  simp only [bind_rd, bind_new, bind_appendCopy, bind_preconOr, HeapM.pure_apply]
  refine ⟨?_, le_refl _⟩
  refine Heap.Ext.trans (Heap.Ext.trans (Heap.Ext.trans ?_ (Heap.ext_alloc _ _)) (Heap.ext_alloc _ _)) (Heap.ext_alloc _ _)
  exact ((h.ext_alloc _).trans (appendCopy_ext _ _ _ _)).trans (preconOr_ext _ _ _ _ (Heap.ext_alloc _ _))

theorem bind_minresInitH {β : Type} (kw : MinresKwH S V) (self : MinresObj S V) (b : Nat)
    (f : MinresLoopH S V × S × Bool → HeapM V β) (h : Heap V) :
    (minresInitH kw self b >>= f) h = f (minresInitH kw self b h).1 (minresInitH kw self b h).2 := rfl

theorem bind_minresLoopH {β : Type} (op : HOp V) (eps : S) (kw : MinresKwH S V) (itnlim : Nat) (beta1 : S) (st : MinresLoopH S V)
    (f : MinresLoopH S V → HeapM V β) (h : Heap V) : (minresLoopH op eps kw itnlim beta1 st >>= f) h =
      f (minresLoopH op eps kw itnlim beta1 st h).1 (minresLoopH op eps kw itnlim beta1 st h).2 := rfl

/-- `Minres.solve` modifies no array that existed before, and returns a new array. -/
theorem minresSolveH_frame (op : HOp V) (eps : S) (n : Nat) (self : MinresObj S V) (b : Nat) (kw : MinresKwH S V) (h : Heap V) :
    h.Ext (minresSolveH op eps n self b kw h).2 ∧
    ∀ r, (minresSolveH op eps n self b kw h).1 = .ok r → h.next ≤ r.1.x := by
  unfold minresSolveH
  simp only [bind_minresInitH, bind_minresLanczosH, bind_minresLoopH, HeapM.ite_apply, HeapM.pure_apply]
  obtain ⟨e1, e2⟩ := minresInitH_frame kw self b h
  split
  · exact ⟨e1, fun r hr => by cases hr; exact e2⟩
  · split
    · have e3 := e1.trans (minresLanczosH_ext op kw 1 (minresInitH kw self b h).1.1.vars _)
      split
      · exact ⟨e3, fun r hr => by cases hr; exact e2⟩
      · exact ⟨e3, fun r hr => by cases hr⟩
    · have e3 := minresLoopH_frame op eps kw (kw.itnlim.getD (5 * n)) (minresInitH kw self b h).1.2.1 h _ _ ⟨e1, e2⟩
      exact ⟨e3.ext, fun r hr => by cases hr; exact e3.x⟩

/-! ### Refinement -/

/-- the variables with the contents of the arrays instead of their addresses -/
def MinresLoop.at (s : MinresLoop S Nat) (h : Heap V) (calls : List V) : MinresLoop S V :=
  { x := h.mem s.x, y := h.mem s.y, r1 := h.mem s.r1, r2 := h.mem s.r2, w := h.mem s.w, w2 := h.mem s.w2, oldb := s.oldb,
    beta := s.beta, dbar := s.dbar, epsln := s.epsln, phibar := s.phibar, rhs1 := s.rhs1, rhs2 := s.rhs2, tnorm2 := s.tnorm2,
    ynorm2 := s.ynorm2, cs := s.cs, sn := s.sn, gmax := s.gmax, gmin := s.gmin, xNrgNorm2 := s.xNrgNorm2, dErr := s.dErr,
    Anorm := s.Anorm, Acond := s.Acond, rnorm := s.rnorm, ynorm := s.ynorm, Arnorm := s.Arnorm, istop := s.istop, itn := s.itn,
    broke := s.broke, residHistory := s.residHistory, dirErrors := s.dirErrors, iterates := s.iterates.map h.mem,
    calls := calls }

/-- the arrays of the loop exist, and `x` is not one of the others -/
structure MinresOk (s : MinresLoop S Nat) (h : Heap V) : Prop where
  x : s.x < h.next
  y : s.y < h.next
  r1 : s.r1 < h.next
  r2 : s.r2 < h.next
  w : s.w < h.next
  w2 : s.w2 < h.next
  iterates : ∀ k ∈ s.iterates, k < h.next
  ny : s.y ≠ s.x
  nr1 : s.r1 ≠ s.x
  nr2 : s.r2 ≠ s.x
  nw : s.w ≠ s.x
  nw2 : s.w2 ≠ s.x
  niter : ∀ k ∈ s.iterates, k ≠ s.x

omit [Scalar S] in
theorem minresSubH_spec (c : Bool) (coef : S) (y r1 : Nat) (h : Heap V) (hy : y < h.next) :
    (minresSubH c coef y r1 h).2.mem (minresSubH c coef y r1 h).1 =
      (if c then h.mem y - smul coef (h.mem r1) else h.mem y) ∧
    (minresSubH c coef y r1 h).1 < (minresSubH c coef y r1 h).2.next := by
  cases c
  · exact ⟨rfl, hy⟩
  · exact ⟨h.mem_alloc_self _, Nat.lt_succ_self _⟩

theorem minresLanczosH_spec (op : HOp V) (hop : ∀ h l, op.same h l = false) (kw : MinresKwH S V) (itn : Nat) (s : MinresLoop S Nat)
    (h : Heap V) (hs : MinresOk s h) (calls : List V) (v r1 r2 y : Nat) (alfa bb : S) (arg : V) (h' : Heap V)
    (he : minresLanczosH op kw itn s h = ((v, alfa, r1, r2, y, bb, arg), h')) :
    minresLanczos op.fn kw.toKw itn (s.at h calls) = (h'.mem v, alfa, h'.mem r2, h'.mem y, bb) ∧
    h'.mem r1 = h.mem s.r2 ∧ arg = h'.mem v ∧ h.Ext h' ∧
    h.next ≤ v ∧ h.next ≤ r1 ∧ h.next ≤ r2 ∧ h.next ≤ y ∧ v < h'.next ∧ r1 < h'.next ∧ r2 < h'.next ∧ y < h'.next := by
  have hext := minresLanczosH_ext op kw itn s h
  rw [he] at hext
  unfold minresLanczosH at he
  simp only [bind_rd, bind_wr, bind_new, bind_call, bind_minresSubH, bind_preconOr, HeapM.pure_apply, call_fresh op _ _ (hop _ _)] at he
  unfold minresLanczos MinresLoop.at
  obtain ⟨V0, hV⟩ : ∃ V0, V0 = smul (lit 1 / s.beta) (h.mem s.y) := ⟨_, rfl⟩
  have n1 : (h.alloc V0).next = h.next + 1 := rfl
  have hsh : kw.toKw.shift = kw.shift := rfl
  have hpc : kw.toKw.precon = HOp.fn? kw.precon := rfl
  simp only [← hV, h.mem_alloc_self, n1, hsh, hpc] at he ⊢
  obtain ⟨ha, hha⟩ : ∃ ha, ha = ((h.alloc V0).alloc (op.fn V0)).upd (h.next + 1) ((((h.alloc V0).alloc (op.fn V0)).mem (h.next + 1)) -
    smul kw.shift (((h.alloc V0).alloc (op.fn V0)).mem h.next)) := ⟨_, rfl⟩
  rw [← hha] at he
  have m0 : ((h.alloc V0).alloc (op.fn V0)).mem h.next = V0 := by
    rw [Heap.mem_alloc_lt _ _ (by rw [n1]; omega), Heap.mem_alloc_self]
  have m1 : ((h.alloc V0).alloc (op.fn V0)).mem (h.next + 1) = op.fn V0 := by
    rw [← n1, Heap.mem_alloc_self]
  rw [m0, m1] at hha
  have na : ha.next = h.next + 2 := by rw [hha]; rfl
  have a1 : ha.mem h.next = V0 := by rw [hha, Heap.mem_upd_ne _ _ (by omega), m0]
  have a2 : ha.mem (h.next + 1) = op.fn V0 - smul kw.shift V0 := by rw [hha, Heap.mem_upd_self]
  have a3 : ∀ k < h.next, ha.mem k = h.mem k := fun k hk => by
    rw [hha, Heap.mem_upd_ne _ _ (by omega), Heap.mem_alloc_lt _ _ (by rw [n1]; omega), Heap.mem_alloc_lt _ _ hk]
  clear hha m0 m1
  have b0 := minresSubH_ext (decide (itn ≥ 2)) (s.beta / s.oldb) (h.next + 1) s.r1 ha
  obtain ⟨b1, b2⟩ := minresSubH_spec (decide (itn ≥ 2)) (s.beta / s.oldb) (h.next + 1) s.r1 ha (by omega)
  generalize (minresSubH (decide (itn ≥ 2)) (s.beta / s.oldb) (h.next + 1) s.r1 ha).1 = y1 at b1 b2 he
  generalize (minresSubH (decide (itn ≥ 2)) (s.beta / s.oldb) (h.next + 1) s.r1 ha).2 = hb at b0 b1 b2 he
  have bn := b0.next
  rw [a2, a3 _ hs.r1] at b1
  simp only [decide_eq_true_eq] at b1
  obtain ⟨Y1, hY1⟩ : ∃ Y1, Y1 = (if itn ≥ 2 then op.fn V0 - smul kw.shift V0 - smul (s.beta / s.oldb) (h.mem s.r1)
    else op.fn V0 - smul kw.shift V0) := ⟨_, rfl⟩
  rw [← hY1] at b1
  rw [← hY1]
  have b3 : hb.mem h.next = V0 := by rw [b0.mem _ (by omega), a1]
  have b4 : hb.mem s.r2 = h.mem s.r2 := by rw [b0.mem _ (by have := hs.r2; omega), a3 _ hs.r2]
  rw [b1, b3, b4] at he
  obtain ⟨al, hal⟩ : ∃ al : S, al = dot V0 Y1 := ⟨_, rfl⟩
  obtain ⟨R2, hR2⟩ : ∃ R2, R2 = smul (-al / s.beta) (h.mem s.r2) + Y1 := ⟨_, rfl⟩
  rw [← hal, ← hR2] at he
  simp only [← hal, ← hR2]
  have n2 : (hb.alloc R2).next = hb.next + 1 := rfl
  have c1 : (hb.alloc R2).mem s.r2 = h.mem s.r2 := by rw [Heap.mem_alloc_lt _ _ (by have := hs.r2; omega), b4]
  rw [c1, n2] at he
  have n3 : ((hb.alloc R2).alloc (h.mem s.r2)).next = hb.next + 2 := rfl
  have c2 : ((hb.alloc R2).alloc (h.mem s.r2)).mem hb.next = R2 := by
    rw [Heap.mem_alloc_lt _ _ (by omega), Heap.mem_alloc_self]
  rw [c2, n3] at he
  obtain ⟨hc, hhc⟩ : ∃ hc, hc = ((hb.alloc R2).alloc (h.mem s.r2)).alloc R2 := ⟨_, rfl⟩
  rw [← hhc] at he
  have nc : hc.next = hb.next + 3 := by rw [hhc]; rfl
  have d1 : hc.mem hb.next = R2 := by rw [hhc, Heap.mem_alloc_lt _ _ (by omega), c2]
  have d2 : hc.mem (hb.next + 1) = h.mem s.r2 := by
    rw [hhc, Heap.mem_alloc_lt _ _ (by omega), ← n2, Heap.mem_alloc_self]
  have d3 : hc.mem (hb.next + 2) = R2 := by rw [hhc, ← n3, Heap.mem_alloc_self]
  have d4 : hc.mem h.next = V0 := by
    rw [hhc, Heap.mem_alloc_lt _ _ (by omega), Heap.mem_alloc_lt _ _ (by omega), Heap.mem_alloc_lt _ _ (by omega), b3]
  clear hhc c1 c2
  have e0 := preconOr_ext kw.precon (hb.next + 2) (pure hb.next) hc (.refl _)
  have e1 : (preconOr kw.precon (hb.next + 2) (pure hb.next) hc).2.mem (preconOr kw.precon (hb.next + 2) (pure hb.next) hc).1 =
      applyPrecon (HOp.fn? kw.precon) R2 ∧
      (preconOr kw.precon (hb.next + 2) (pure hb.next) hc).1 < (preconOr kw.precon (hb.next + 2) (pure hb.next) hc).2.next ∧
      h.next ≤ (preconOr kw.precon (hb.next + 2) (pure hb.next) hc).1 := by
    cases hp : kw.precon with
    | none =>
      refine ⟨d1, ?_, ?_⟩
      · show hb.next < hc.next
        omega
      · show h.next ≤ hb.next
        omega
    | some M =>
      obtain ⟨f1, f2, f3, f4⟩ := call_spec M (hb.next + 2) hc (by omega)
      rw [d3] at f1
      refine ⟨f1, f3, ?_⟩
      show h.next ≤ (call M (hb.next + 2) hc).1
      omega
  obtain ⟨e1, e2, e3⟩ := e1
  generalize (preconOr kw.precon (hb.next + 2) (pure hb.next) hc).1 = y2 at e1 e2 e3 he
  generalize (preconOr kw.precon (hb.next + 2) (pure hb.next) hc).2 = hd at e0 e1 e2 he
  have en := e0.next
  have g1 : hd.mem (hb.next + 2) = R2 := by rw [e0.mem _ (by omega), d3]
  have g2 : hd.mem (hb.next + 1) = h.mem s.r2 := by rw [e0.mem _ (by omega), d2]
  have g3 : hd.mem h.next = V0 := by rw [e0.mem _ (by omega), d4]
  rw [g1, e1] at he
  simp only [Prod.mk.injEq] at he
  obtain ⟨⟨rfl, rfl, rfl, rfl, rfl, rfl, rfl⟩, rfl⟩ := he
  exact ⟨by rw [g1, g3, e1], g2, g3.symm, hext, by omega, by omega, by omega, by omega, by omega, by omega, by omega, by omega⟩

theorem minresStepH_sim (op : HOp V) (hop : ∀ h l, op.same h l = false) (eps : S) (kw : MinresKwH S V) (itnlim : Nat) (beta1 : S)
    (st : MinresLoopH S V) (h : Heap V) (hs : MinresOk st.vars h) :
    MinresOk (minresStepH op eps kw itnlim beta1 st h).1.vars (minresStepH op eps kw itnlim beta1 st h).2 ∧
    (minresStepH op eps kw itnlim beta1 st h).1.vars.at (minresStepH op eps kw itnlim beta1 st h).2
        (minresStepH op eps kw itnlim beta1 st h).1.calls =
      minresStep op.fn eps kw.toKw itnlim beta1 (st.vars.at h st.calls) := by
  obtain ⟨s, calls⟩ := st
  simp only at hs
  unfold minresStepH
  simp only [bind_rd, bind_wr, bind_new, bind_appendCopy, bind_minresLanczosH, HeapM.ite_apply, HeapM.pure_apply]
  cases hout : minresLanczosH op kw (s.itn + 1) s h with
  | mk out ha =>
  obtain ⟨v, alfa, r1, r2, y, bb, arg⟩ := out
  obtain ⟨k1, k2, k3, k4, k5, k6, k7, k8, k9, k10, k11, k12⟩ :=
    minresLanczosH_spec op hop kw (s.itn + 1) s h hs calls v r1 r2 y alfa bb arg ha hout
  subst k3
  have kn := k4.next
  have old : ∀ k < h.next, ha.mem k = h.mem k := k4.mem
  have oldI : s.iterates.map ha.mem = s.iterates.map h.mem := List.map_congr_left fun k hk => old k (hs.iterates k hk)
  simp only [minresStep]
  have i0 : (s.at h calls).itn = s.itn := rfl
  rw [i0, k1]
  simp only
  split
  · refine ⟨⟨lt_of_lt_of_le hs.x kn, lt_of_lt_of_le hs.y kn, lt_of_lt_of_le hs.r1 kn, lt_of_lt_of_le hs.r2 kn,
      lt_of_lt_of_le hs.w kn, lt_of_lt_of_le hs.w2 kn, fun k hk => lt_of_lt_of_le (hs.iterates k hk) kn, hs.ny, hs.nr1, hs.nr2,
      hs.nw, hs.nw2, hs.niter⟩, ?_⟩
    simp only [MinresLoop.at, old _ hs.x, old _ hs.y, old _ hs.r1, old _ hs.r2, old _ hs.w, old _ hs.w2, oldI]
  · have n1 : ∀ a : V, (ha.alloc a).next = ha.next + 1 := fun _ => rfl
    have n2 : ∀ a b : V, ((ha.alloc a).alloc b).next = ha.next + 2 := fun _ _ => rfl
    have hx := hs.x
    have w2v : ha.mem s.w2 = h.mem s.w2 := old _ hs.w2
    have wv : ∀ a : V, (ha.alloc a).mem s.w = h.mem s.w := fun a => by
      rw [Heap.mem_alloc_lt _ _ (lt_of_lt_of_le hs.w kn), old _ hs.w]
    rw [w2v, wv]
    obtain ⟨hb, hhb⟩ : ∃ hb, hb = (ha.alloc (h.mem s.w2)).alloc (h.mem s.w) := ⟨_, rfl⟩
    rw [← hhb, n1]
    have hbn : hb.next = ha.next + 2 := by rw [hhb]; rfl
    have hb1 : ∀ k < ha.next, hb.mem k = ha.mem k := fun k hk => by
      rw [hhb, Heap.mem_alloc_lt _ _ (by rw [n1]; omega), Heap.mem_alloc_lt _ _ hk]
    have hb2 : hb.mem ha.next = h.mem s.w2 := by
      rw [hhb, Heap.mem_alloc_lt _ _ (by rw [n1]; omega), Heap.mem_alloc_self]
    have hb3 : hb.mem (ha.next + 1) = h.mem s.w := by
      rw [hhb, ← n1 (h.mem s.w2), Heap.mem_alloc_self]
    rw [hb2, hb3, hb1 _ k9]
    clear hhb n1 n2
    have f1 : (s.at h calls).sn = s.sn := rfl
    have f2 : (s.at h calls).cs = s.cs := rfl
    have f3 : (s.at h calls).dbar = s.dbar := rfl
    have f4 : (s.at h calls).epsln = s.epsln := rfl
    have f5 : (s.at h calls).w2 = h.mem s.w2 := rfl
    have f6 : (s.at h calls).w = h.mem s.w := rfl
    have f7 : (s.at h calls).x = h.mem s.x := rfl
    have f8 : (s.at h calls).phibar = s.phibar := rfl
    have f9 : kw.toKw.window = kw.window := rfl
    have f10 : (s.at h calls).r2 = h.mem s.r2 := rfl
    rw [f1, f2, f3, f4, f5, f6, f7, f8, f9, f10]
    obtain ⟨gamma, hg⟩ : ∃ gamma : S, gamma = pymax (normof2 (s.sn * s.dbar - s.cs * alfa) (sqrt bb)) eps := ⟨_, rfl⟩
    obtain ⟨phi, hphi⟩ : ∃ phi : S, phi = (s.sn * s.dbar - s.cs * alfa) / gamma * s.phibar := ⟨_, rfl⟩
    obtain ⟨W, hW⟩ : ∃ W : V, W = smul (lit 1 / gamma) (ha.mem v - smul s.epsln (h.mem s.w2) -
      smul (s.cs * s.dbar + s.sn * alfa) (h.mem s.w)) := ⟨_, rfl⟩
    simp only [← hg, ← hphi, ← hW]
    rw [Heap.mem_alloc_self, Heap.mem_alloc_lt hb W (by omega), hb1 _ (by omega), old _ hx]
    obtain ⟨hc, hhc⟩ : ∃ hc, hc = (hb.alloc W).upd s.x (h.mem s.x + smul phi W) := ⟨_, rfl⟩
    rw [← hhc]
    have hcn : hc.next = hb.next + 1 := by rw [hhc]; rfl
    have hc1 : ∀ k < hb.next, k ≠ s.x → hc.mem k = hb.mem k := fun k hk hne => by
      rw [hhc, Heap.mem_upd_ne _ _ hne, Heap.mem_alloc_lt _ _ hk]
    have hc2 : hc.mem s.x = h.mem s.x + smul phi W := by rw [hhc, Heap.mem_upd_self]
    have hc3 : hc.mem hb.next = W := by rw [hhc, Heap.mem_upd_ne _ _ (by omega), Heap.mem_alloc_self]
    have hcI : s.iterates.map hc.mem = s.iterates.map h.mem := List.map_congr_left fun k hk => by
      have := hs.iterates k hk
      rw [hc1 k (by omega) (hs.niter k hk), hb1 k (by omega), old k this]
    clear hhc
    obtain ⟨p1, p2, p3⟩ := appendCopy_spec kw.storeIterates s.iterates s.x hc (fun k hk => by
      have := hs.iterates k hk
      omega)
    generalize (appendCopy kw.storeIterates s.iterates s.x hc).1 = its at p1 p3 ⊢
    generalize (appendCopy kw.storeIterates s.iterates s.x hc).2 = hd at p1 p2 p3 ⊢
    have pn := p2.next
    have new : ∀ k < ha.next, k ≠ s.x → hd.mem k = ha.mem k := fun k hk hne => by
      rw [p2.mem _ (by omega), hc1 k (by omega) hne, hb1 k hk]
    refine ⟨⟨by simp only; omega, by simp only; omega, by simp only; omega, by simp only; omega, by simp only; omega,
      by simp only; omega, fun k hk => (p3 k hk).1, by simp only; omega, by simp only; omega, by simp only; omega,
      by simp only; omega, by simp only; omega, ?_⟩, ?_⟩
    · intro k hk
      rcases (p3 k hk).2 with h1 | h1
      · exact hs.niter k h1
      · simp only; omega
    · simp only [MinresLoop.at]
      rw [p2.mem s.x (by omega), hc2, new y (by omega) (by omega), new r1 (by omega) (by omega), new r2 (by omega) (by omega),
        p2.mem hb.next (by omega), hc3, p2.mem (ha.next + 1) (by omega), hc1 (ha.next + 1) (by omega) (by omega), hb3, k2, p1, hcI, hc2]
      have hst : kw.toKw.storeIterates = kw.storeIterates := rfl
      rw [hst]
      cases kw.storeIterates
      · simp only [Bool.false_eq_true, if_false, List.append_nil]; rfl
      · rfl

theorem minresLoopH_sim (op : HOp V) (hop : ∀ h l, op.same h l = false) (eps : S) (kw : MinresKwH S V) (itnlim : Nat) (beta1 : S)
    (st : MinresLoopH S V) (h : Heap V) (hs : MinresOk st.vars h) :
    (minresLoopH op eps kw itnlim beta1 st h).1.vars.at (minresLoopH op eps kw itnlim beta1 st h).2
        (minresLoopH op eps kw itnlim beta1 st h).1.calls =
      minresLoop op.fn eps kw.toKw itnlim beta1 (st.vars.at h st.calls) := by
  unfold minresLoopH minresLoop
  exact (whileLoop_sim (R := fun (a : MinresLoopH S V × Heap V) b => MinresOk a.1.vars a.2 ∧ a.1.vars.at a.2 a.1.calls = b)
    (fun a b hab => by rw [← hab.2]; rfl)
    (fun a b hab _ => by
      obtain ⟨h1, rfl⟩ := hab
      exact minresStepH_sim op hop eps kw itnlim beta1 a.1 a.2 h1) (st, h) _ ⟨hs, rfl⟩).2

theorem minresInitH_spec (kw : MinresKwH S V) (self : MinresObj S V) (b : Nat) (h : Heap V) (hb : b < h.next) (st : MinresLoopH S V)
    (beta1 : S) (done : Bool) (h' : Heap V) (he : minresInitH kw self b h = ((st, beta1, done), h')) :
    MinresOk st.vars h' ∧ st.calls = [] ∧ beta1 = (minresStart kw.toKw (h.mem b)).2 ∧ done = (minresEntry kw.toKw (h.mem b)).2 ∧
    st.vars.at h' st.calls = minresInit kw.toKw self (h.mem b) := by
  unfold minresInitH at he
  simp only [bind_rd, bind_new, bind_appendCopy, bind_preconOr, HeapM.pure_apply] at he
  have hpc : kw.toKw.precon = HOp.fn? kw.precon := rfl
  have e0 := h.ext_alloc (zeros : V)
  have m0 : (h.alloc (zeros : V)).mem h.next = zeros := h.mem_alloc_self _
  have n0 : (h.alloc (zeros : V)).next = h.next + 1 := rfl
  generalize h.alloc (zeros : V) = h1 at e0 m0 n0 he
  obtain ⟨p1, p2, p3⟩ := appendCopy_spec kw.storeIterates [] h.next h1 (fun k hk => by cases hk)
  generalize (appendCopy kw.storeIterates [] h.next h1).1 = its at p1 p3 he
  generalize (appendCopy kw.storeIterates [] h.next h1).2 = h2 at p1 p2 p3 he
  have pn := p2.next
  have b2 : h2.mem b = h.mem b := by rw [p2.mem _ (by omega), e0.mem _ hb]
  have x2 : h2.mem h.next = zeros := by rw [p2.mem _ (by omega), m0]
  have q : (preconOr kw.precon b (new (h2.mem b)) h2).2.mem (preconOr kw.precon b (new (h2.mem b)) h2).1 =
      applyPrecon (HOp.fn? kw.precon) (h.mem b) ∧ h2.Ext (preconOr kw.precon b (new (h2.mem b)) h2).2 ∧
      (preconOr kw.precon b (new (h2.mem b)) h2).1 < (preconOr kw.precon b (new (h2.mem b)) h2).2.next ∧
      (preconOr kw.precon b (new (h2.mem b)) h2).1 ≠ h.next := by
    cases hp : kw.precon with
    | none =>
      refine ⟨?_, h2.ext_alloc _, Nat.lt_succ_self _, ?_⟩
      · show (h2.alloc (h2.mem b)).mem h2.next = h.mem b
        rw [Heap.mem_alloc_self, b2]
      · show h2.next ≠ h.next
        omega
    | some M =>
      obtain ⟨f1, f2, f3, f4⟩ := call_spec M b h2 (by omega)
      rw [b2] at f1
      refine ⟨f1, f2, f3, ?_⟩
      show (call M b h2).1 ≠ h.next
      omega
  obtain ⟨q1, q2, q3, q4⟩ := q
  have hr : (do new (← rd b) : HeapM V Nat) h2 = new (h2.mem b) h2 := rfl
  have hr' : preconOr kw.precon b (do new (← rd b)) h2 = preconOr kw.precon b (new (h2.mem b)) h2 := by
    cases kw.precon <;> rfl
  rw [hr'] at he
  generalize (preconOr kw.precon b (new (h2.mem b)) h2).1 = y at q1 q3 q4 he
  generalize (preconOr kw.precon b (new (h2.mem b)) h2).2 = h3 at q1 q2 q3 he
  have qn := q2.next
  have b3 : h3.mem b = h.mem b := by rw [q2.mem _ (by omega), b2]
  have b4 : ((h3.alloc (zeros : V)).alloc (zeros : V)).mem b = h.mem b := by
    rw [Heap.mem_alloc_lt _ _ (by rw [Heap.next_alloc]; omega), Heap.mem_alloc_lt _ _ (by omega), b3]
  rw [b3, b4, q1] at he
  have n3 : (h3.alloc (zeros : V)).next = h3.next + 1 := rfl
  have n4 : ((h3.alloc (zeros : V)).alloc (zeros : V)).next = h3.next + 2 := rfl
  rw [n3, n4] at he
  obtain ⟨h4, hh4⟩ : ∃ h4, h4 = ((h3.alloc (zeros : V)).alloc (zeros : V)).alloc (h.mem b) := ⟨_, rfl⟩
  rw [← hh4] at he
  have n5 : h4.next = h3.next + 3 := by rw [hh4]; rfl
  have r1 : ∀ k < h3.next, h4.mem k = h3.mem k := fun k hk => by
    rw [hh4, Heap.mem_alloc_lt _ _ (by omega), Heap.mem_alloc_lt _ _ (by omega), Heap.mem_alloc_lt _ _ hk]
  have r2 : h4.mem h3.next = zeros := by
    rw [hh4, Heap.mem_alloc_lt _ _ (by omega), Heap.mem_alloc_lt _ _ (by omega), Heap.mem_alloc_self]
  have r3 : h4.mem (h3.next + 1) = zeros := by
    rw [hh4, Heap.mem_alloc_lt _ _ (by omega), ← n3, Heap.mem_alloc_self]
  have r4 : h4.mem (h3.next + 2) = h.mem b := by
    rw [hh4, ← n4, Heap.mem_alloc_self]
  have ri : its.map h4.mem = its.map h2.mem := List.map_congr_left fun k hk => by
    have := (p3 k hk).1
    rw [r1 k (by omega), q2.mem k this]
  clear hh4
  simp only [Prod.mk.injEq] at he
  obtain ⟨⟨rfl, rfl, rfl⟩, rfl⟩ := he
  refine ⟨⟨by simp only; omega, by simp only; omega, by simp only; omega, by simp only; omega, by simp only; omega,
    by simp only; omega, ?_, by simp only; omega, by simp only; omega, by simp only; omega, by simp only; omega,
    by simp only; omega, ?_⟩, rfl, rfl, ?_, ?_⟩
  · intro k hk
    have := (p3 k hk).1
    omega
  · intro k hk
    rcases (p3 k hk).2 with h5 | h5
    · cases h5
    · simp only; omega
  · unfold minresEntry
    rw [hpc]
    have : (HOp.fn? kw.precon).isSome = kw.precon.isSome := by cases kw.precon <;> rfl
    rw [this]
    rfl
  · simp only [MinresLoop.at, minresInit, minresStart, minresEntry, hpc]
    rw [r1 h.next (by omega), q2.mem h.next (by omega), x2, r1 y q3, q1, r1 b (by omega), b3, r2, r3, r4, ri, p1]
    have : (HOp.fn? kw.precon).isSome = kw.precon.isSome := by cases kw.precon <;> rfl
    rw [this]
    simp only [List.map_nil, List.nil_append, m0]
    rfl

/-- the result with the contents of the arrays instead of their addresses -/
def MinresRes.at (r : MinresRes S Nat) (h : Heap V) : MinresRes S V :=
  { converged := r.converged, x := h.mem r.x, istop := r.istop, itn := r.itn, nMatvec := r.nMatvec, rnorm := r.rnorm,
    residNorm0 := r.residNorm0, Arnorm := r.Arnorm, Anorm := r.Anorm, Acond := r.Acond, ynorm := r.ynorm,
    residHistory := r.residHistory, dirErrors := r.dirErrors, iterates := r.iterates.map h.mem }

/-- the outcome with contents instead of addresses -/
def minresAt (h : Heap V) (r : Except PyError (MinresRes S Nat × List V)) : Except PyError (MinresRes S V × List V) :=
  match r with
  | .ok r => .ok (r.1.at h, r.2)
  | .error e => .error e

omit [Scalar S] [Vect S V] in
theorem minresResultH_at (beta1 : S) (s : MinresLoop S Nat) (h : Heap V) (calls : List V) :
    (minresResultH beta1 s).at h = minresResult beta1 (s.at h calls) := rfl

/-- If the operator returns new arrays, the model with arrays on the heap computes what the model with values computes. -/
theorem minresSolveH_refines (op : HOp V) (hop : ∀ h l, op.same h l = false) (eps : S) (n : Nat) (self : MinresObj S V) (b : Nat)
    (kw : MinresKwH S V) (h : Heap V) (hb : b < h.next) :
    minresAt (minresSolveH op eps n self b kw h).2 (minresSolveH op eps n self b kw h).1 =
      minresSolve op.fn eps n self (h.mem b) kw.toKw := by
  unfold minresSolveH minresSolve
  simp only [bind_minresInitH, bind_minresLanczosH, bind_minresLoopH, HeapM.ite_apply, HeapM.pure_apply]
  cases hi : minresInitH kw self b h with
  | mk out h1 =>
  obtain ⟨st, beta1, done⟩ := out
  obtain ⟨k1, k2, k3, k4, k5⟩ := minresInitH_spec kw self b h hb st beta1 done h1 hi
  have hl : kw.toKw.itnlim = kw.itnlim := rfl
  have hw : kw.toKw.window = kw.window := rfl
  rw [← k5, ← k4, ← k3, hl, hw]
  simp only
  generalize kw.itnlim.getD (5 * n) = lim
  cases done
  · simp only [Bool.false_eq_true, if_false]
    cases hz : minresLanczosH op kw 1 st.vars h1 with
    | mk out h2 =>
    obtain ⟨v, alfa, r1, r2, y, bb, arg⟩ := out
    obtain ⟨l1, l2, l3, l4, l5, l6, l7, l8, l9, l10, l11, l12⟩ :=
      minresLanczosH_spec op hop kw 1 st.vars h1 k1 st.calls v r1 r2 y alfa bb arg h2 hz
    rw [l1]
    simp only
    by_cases hc : kw.window = 0 ∧ 0 < lim
    · rw [if_pos hc]
      cases hb2 : lt bb (lit 0)
      · simp only [Bool.false_eq_true, if_false]
        rw [if_pos ⟨hc.1, hc.2, trivial⟩]
        rfl
      · simp only [if_true]
        rw [if_neg (fun hh => by cases hh.2.2)]
        have i0 : (st.vars.at h1 st.calls).itn = 0 := by rw [k5]; rfl
        have i1 : (st.vars.at h1 st.calls).broke = false := by rw [k5]; rfl
        have hs : minresStep op.fn eps kw.toKw lim beta1 (st.vars.at h1 st.calls) =
            { st.vars.at h1 st.calls with itn := 1, istop := 6, broke := true, calls := [h2.mem v] } := by
          simp only [minresStep]
          rw [i0, l1]
          simp only [hb2, if_true]
          have : (st.vars.at h1 st.calls).calls = [] := by rw [k5]; rfl
          rw [this]
          rfl
        have hlp : minresLoop op.fn eps kw.toKw lim beta1 (st.vars.at h1 st.calls) =
            { st.vars.at h1 st.calls with itn := 1, istop := 6, broke := true, calls := [h2.mem v] } := by
          unfold minresLoop
          rw [whileLoop_of_cont (by simp [minresCont, i0, i1, hc.2]), hs, whileLoop_of_not (by simp [minresCont])]
        rw [hlp, l3]
        have g1 := l4.mem _ k1.x
        have g2 : st.vars.iterates.map h2.mem = st.vars.iterates.map h1.mem :=
          List.map_congr_left fun k hk => l4.mem k (k1.iterates k hk)
        simp only [minresAt, MinresRes.at, minresResultH, minresResult, MinresLoop.at, g1, g2]
    · rw [if_neg hc, if_neg (fun hh => hc ⟨hh.1, hh.2.1⟩)]
      have := minresLoopH_sim op hop eps kw lim beta1 st h1 k1
      rw [← this]
      rfl
  · simp only [if_true]
    rfl

end Verif.Solver
