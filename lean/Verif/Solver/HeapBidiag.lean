import Verif.Solver.HeapE

/-!
# The bidiagonalization of the least-squares solvers on the heap

`lsqr.py:181-210, 252-272`, `lsmr.py:210-233, 311-332`, `craig.py:212-233, 302-329` and `craigmr.py:75-98, 136-157` are the same code.
`bidiagStart` and `bidiagStep` are this code on values, `bidiagStartH` and `bidiagStepH` on the heap.
-/

namespace Verif.Solver
open Scalar Vect

section
variable {S U V : Type} [Scalar S] [Vect S U] [Vect S V]

/-- the first vectors: `Mu`, `u`, `beta`, `v` and `Nv` (unbound if `beta > 0` is false), `alpha`, and the number of products -/
def bidiagStart (AT : U → V) (M : Option (U → U)) (N : Option (V → V)) (b : U) :
    Except PyError (U × U × S × Option (V × V) × S × Nat) := do
  let Mu := b
  let u := applyPrecon M Mu
  let beta ← pysqrt (dot u Mu)
  if gt beta (lit 0) then
    let u := vdiv u beta
    let Mu := vdiv Mu beta
    let Nv := AT u
    let v := applyPrecon N Nv
    let alpha ← pysqrt (dot v Nv)
    if gt alpha (lit 0) then return (Mu, u, beta, some (vdiv v alpha, vdiv Nv alpha), alpha, 1)
    else return (Mu, u, beta, some (v, Nv), alpha, 1)
  else return (Mu, u, beta, none, lit 0, 0)

/-- the next vectors: `Mu`, `u`, `Nv`, `v`, `alpha`, `beta`, and the number of products -/
def bidiagStep (A : V → U) (AT : U → V) (M : Option (U → U)) (N : Option (V → V)) (Mu : U) (Nv : Option V) (v : V) (alpha : S) :
    Except PyError (U × U × Option V × V × S × S × Nat) := do
  let Mu := A v - smul alpha Mu
  let u := applyPrecon M Mu
  let beta ← pysqrt (dot u Mu)
  if gt beta (lit 0) then
    let u := vdiv u beta
    let Mu := vdiv Mu beta
    let Nv0 ← bound "Nv" Nv
    let Nv := AT u - smul beta Nv0
    let v := applyPrecon N Nv
    let alpha ← pysqrt (dot v Nv)
    if gt alpha (lit 0) then return (Mu, u, some (vdiv Nv alpha), vdiv v alpha, alpha, beta, 2)
    else return (Mu, u, some Nv, v, alpha, beta, 2)
  else return (Mu, u, Nv, v, alpha, beta, 1)

end

variable {S W : Type} [Scalar S] [Vect S W]

/-- `u /= a; if M is not None: Mu /= a`, `lsqr.py:193-194` -/
def hscale (given : Bool) (u Mu : Nat) (a : S) : HeapE W Unit := do
  hwr u (vdiv (← hrd u) a)
  match given with
  | true => hwr Mu (vdiv (← hrd Mu) a)
  | false => pure ()

/-- `if alpha > 0: v /= alpha; if N is not None: Nv /= alpha`, `lsqr.py:206-208` -/
def hscaleIf (given : Bool) (v Nv : Nat) (a : S) : HeapE W Unit :=
  if gt a (lit 0) then hscale given v Nv a else pure ()

/-- `lsqr.py:181-210` (`lsmr.py:210-233`, `craig.py:212-233`, `craigmr.py:75-98`) on the heap; `b` is an address -/
def bidiagStartH (AT : HOp W) (M N : Option (HOp W)) (b : Nat) : HeapE W (Nat × Nat × S × Option (Nat × Nat) × S × Nat) := do
  let Mu ← hnew (← hrd b)                                  -- Mu = rhs[:m].copy()
  let u ← hprecon M Mu                                     -- u = M(Mu), or u = Mu
  let beta ← hexc (pysqrt (dot (← hrd u) (← hrd Mu)))
  if gt beta (lit 0) then
    hscale M.isSome u Mu beta                              -- u /= beta; if M is not None: Mu /= beta
    let Nv ← hcall AT u                                    -- Nv = A.T * u
    let v ← hprecon N Nv                                   -- v = N(Nv), or v = Nv
    let alpha ← hexc (pysqrt (dot (← hrd v) (← hrd Nv)))
    hscaleIf N.isSome v Nv alpha                           -- if alpha > 0: v /= alpha; if N is not None: Nv /= alpha
    return (Mu, u, beta, some (v, Nv), alpha, 1)
  else return (Mu, u, beta, none, lit 0, 0)

/-- `lsqr.py:252-272` (`lsmr.py:311-332`, `craig.py:302-329`, `craigmr.py:136-157`) on the heap -/
def bidiagStepH (A AT : HOp W) (M N : Option (HOp W)) (Mu : Nat) (Nv : Option Nat) (v : Nat) (alpha : S) :
    HeapE W (Nat × Nat × Option Nat × Nat × S × S × Nat) := do
  let av ← hcall A v
  let Mu ← hnew ((← hrd av) - smul alpha (← hrd Mu))       -- Mu = A*v - alpha*Mu
  let u ← hprecon M Mu                                     -- u = M(Mu), or u = Mu
  let beta ← hexc (pysqrt (dot (← hrd u) (← hrd Mu)))
  if gt beta (lit 0) then
    hscale M.isSome u Mu beta                              -- u /= beta; if M is not None: Mu /= beta
    let Nv0 ← hexc (bound "Nv" Nv)
    let atu ← hcall AT u
    let Nv ← hnew ((← hrd atu) - smul beta (← hrd Nv0))    -- Nv = A.T*u - beta*Nv
    let v ← hprecon N Nv                                   -- v = N(Nv), or v = Nv
    let alpha ← hexc (pysqrt (dot (← hrd v) (← hrd Nv)))
    hscaleIf N.isSome v Nv alpha                           -- if alpha > 0: v /= alpha; if N is not None: Nv /= alpha
    return (Mu, u, some Nv, v, alpha, beta, 2)
  else return (Mu, u, Nv, v, alpha, beta, 1)

/-! ### Nothing that existed before is modified -/

omit [Scalar S] in
theorem hscale_keeps {h0 : Heap W} {given : Bool} {u Mu : Nat} {a : S} (hu : h0.next ≤ u) (hM : h0.next ≤ Mu) :
    Keeps h0 (hscale (W := W) given u Mu a) (fun _ => True) := by
  unfold hscale
  refine .bind .rd fun _ _ => .bind (.wr hu) fun _ _ => ?_
  cases given
  · exact .pure trivial
  · exact .bind .rd fun _ _ => .wr hM

theorem hscaleIf_keeps {h0 : Heap W} {given : Bool} {u Mu : Nat} {a : S} (hu : h0.next ≤ u) (hM : h0.next ≤ Mu) :
    Keeps h0 (hscaleIf (W := W) given u Mu a) (fun _ => True) :=
  .ite (fun _ => hscale_keeps hu hM) fun _ => .pure trivial

theorem bidiagStartH_keeps (h0 : Heap W) (AT : HOp W) (M N : Option (HOp W)) (b : Nat) :
    Keeps h0 (bidiagStartH (S := S) AT M N b) (fun r => h0.next ≤ r.1 ∧ h0.next ≤ r.2.1 ∧
      ∀ v Nv, r.2.2.2.1 = some (v, Nv) → h0.next ≤ v ∧ h0.next ≤ Nv) := by
  unfold bidiagStartH
  refine .bind .rd fun _ _ => .bind .new fun Mu hMu => .bind (.precon hMu) fun u hu => .bind .rd fun _ _ => .bind .rd fun _ _ =>
    .bind .exc fun beta _ => .ite (fun _ => ?_) fun _ => ?_
  · refine .bind (hscale_keeps hu hMu) fun _ _ => .bind (.call hu) fun Nv hNv => .bind (.precon hNv) fun v hv => .bind .rd fun _ _ =>
      .bind .rd fun _ _ => .bind .exc fun alpha _ => .bind (hscaleIf_keeps hv hNv) fun _ _ => .pure ?_
    exact ⟨hMu, hu, fun v' Nv' h => by cases h; exact ⟨hv, hNv⟩⟩
  · exact .pure ⟨hMu, hu, fun v' Nv' h => by cases h⟩

theorem bidiagStepH_keeps (h0 : Heap W) (A AT : HOp W) (M N : Option (HOp W)) (Mu : Nat) (Nv : Option Nat) (v : Nat) (alpha : S) :
    Keeps h0 (bidiagStepH A AT M N Mu Nv v alpha) (fun _ => True) := by
  unfold bidiagStepH
  refine .bind .call' fun _ _ => .bind .rd fun _ _ => .bind .rd fun _ _ => .bind .new fun Mu hMu => .bind (.precon hMu) fun u hu =>
    .bind .rd fun _ _ => .bind .rd fun _ _ => .bind .exc fun beta _ => .ite (fun _ => ?_) fun _ => .pure trivial
  exact .bind (hscale_keeps hu hMu) fun _ _ => .bind .exc fun _ _ => .bind .call' fun _ _ => .bind .rd fun _ _ => .bind .rd fun _ _ =>
      .bind .new fun Nv hNv => .bind (.precon hNv) fun v hv => .bind .rd fun _ _ => .bind .rd fun _ _ => .bind .exc fun alpha _ =>
      .bind (hscaleIf_keeps hv hNv) fun _ _ => .pure trivial

/-! ### Refinement -/

/-- the preconditioner, if there is one, always returns a new array -/
def ReturnsNew (o : Option (HOp W)) : Prop := ∀ M, o = some M → ∀ h l, M.same h l = false

theorem SimE.of_eval {α α' β' : Type} {h h' : Heap W} {m : HeapE W α} {a : α} {f : α → HeapE W α'} {p : Except PyError β'}
    {R : α' → β' → Heap W → Prop} (hm : m h = (.ok a, h')) (hf : SimE h' (f a) p R) : SimE h (m >>= f) p R := by
  have : (m >>= f) h = f a h' := by
    change (match m h with | (.ok a, h') => f a h' | (.error e, h') => (.error e, h')) = _
    rw [hm]
  unfold SimE at hf ⊢
  rw [this]
  exact hf

theorem callPrecon_new (o : Option (HOp W)) (ho : ReturnsNew o) (l : Nat) (h : Heap W) (hl : l < h.next) :
    (callPrecon o l h).2.mem (callPrecon o l h).1 = applyPrecon (HOp.fn? o) (h.mem l) ∧ h.Ext (callPrecon o l h).2 ∧
    (callPrecon o l h).1 < (callPrecon o l h).2.next ∧
    (o.isSome = true → (callPrecon o l h).1 = h.next) ∧ (o.isSome = false → (callPrecon o l h).1 = l) := by
  cases o with
  | none => exact ⟨rfl, .refl h, hl, (fun hh => by cases hh), fun _ => rfl⟩
  | some M =>
    have : callPrecon (some M) l h = (h.next, h.alloc (M.fn (h.mem l))) := call_fresh M l h (ho M rfl h l)
    rw [this]
    exact ⟨h.mem_alloc_self _, h.ext_alloc _, Nat.lt_succ_self _, fun _ => rfl, fun hh => by cases hh⟩

omit [Scalar S] in
theorem hscale_eval (given : Bool) (u Mu : Nat) (a : S) (h : Heap W) (h1 : given = true → u ≠ Mu) (h2 : given = false → u = Mu) :
    ∃ h', hscale given u Mu a h = (.ok (), h') ∧ h'.next = h.next ∧ h'.mem u = vdiv (h.mem u) a ∧ h'.mem Mu = vdiv (h.mem Mu) a ∧
      ∀ k, k ≠ u → k ≠ Mu → h'.mem k = h.mem k := by
  cases given
  · have := h2 rfl
    subst this
    exact ⟨_, rfl, rfl, h.mem_upd_self _ _, h.mem_upd_self _ _, fun k hk _ => h.mem_upd_ne _ hk⟩
  · have hne := h1 rfl
    refine ⟨_, rfl, rfl, ?_, ?_, ?_⟩
    · rw [Heap.mem_upd_ne _ _ hne, Heap.mem_upd_self]
    · rw [Heap.mem_upd_self, Heap.mem_upd_ne _ _ hne.symm]
    · intro k hk hk'
      rw [Heap.mem_upd_ne _ _ hk', Heap.mem_upd_ne _ _ hk]

theorem hscaleIf_eval (given : Bool) (u Mu : Nat) (a : S) (h : Heap W) (h1 : given = true → u ≠ Mu) (h2 : given = false → u = Mu) :
    ∃ h', hscaleIf given u Mu a h = (.ok (), h') ∧ h'.next = h.next ∧
      h'.mem u = (if gt a (lit 0) then vdiv (h.mem u) a else h.mem u) ∧
      h'.mem Mu = (if gt a (lit 0) then vdiv (h.mem Mu) a else h.mem Mu) ∧
      ∀ k, k ≠ u → k ≠ Mu → h'.mem k = h.mem k := by
  unfold hscaleIf
  cases gt a (lit 0)
  · exact ⟨h, rfl, rfl, rfl, rfl, fun _ _ _ => rfl⟩
  · exact hscale_eval given u Mu a h h1 h2

/-- results of the code before the loop correspond; all arrays are newer than `h` -/
structure StartRel (h : Heap W) (r : Nat × Nat × S × Option (Nat × Nat) × S × Nat) (t : W × W × S × Option (W × W) × S × Nat)
    (h' : Heap W) : Prop where
  ext : h.Ext h'
  Mu : h'.mem r.1 = t.1
  u : h'.mem r.2.1 = t.2.1
  beta : r.2.2.1 = t.2.2.1
  vs : r.2.2.2.1.map (fun p => (h'.mem p.1, h'.mem p.2)) = t.2.2.2.1
  alpha : r.2.2.2.2.1 = t.2.2.2.2.1
  products : r.2.2.2.2.2 = t.2.2.2.2.2
  lMu : h.next ≤ r.1 ∧ r.1 < h'.next
  lu : h.next ≤ r.2.1 ∧ r.2.1 < h'.next
  lvs : ∀ v Nv, r.2.2.2.1 = some (v, Nv) → (h.next ≤ v ∧ v < h'.next) ∧ h.next ≤ Nv ∧ Nv < h'.next

theorem bidiagStartH_sim (AT : HOp W) (hAT : ∀ h l, AT.same h l = false) (M N : Option (HOp W)) (hM : ReturnsNew M) (hN : ReturnsNew N)
    (b : Nat) (h : Heap W) :
    SimE h (bidiagStartH (S := S) AT M N b) (bidiagStart AT.fn (HOp.fn? M) (HOp.fn? N) (h.mem b)) (StartRel h) := by
  unfold bidiagStartH bidiagStart
  refine .rd (.new (.precon ?_))
  have e0 := h.ext_alloc (h.mem b)
  have m0 : (h.alloc (h.mem b)).mem h.next = h.mem b := h.mem_alloc_self _
  have n0 : (h.alloc (h.mem b)).next = h.next + 1 := rfl
  generalize h.alloc (h.mem b) = h1 at e0 m0 n0 ⊢
  obtain ⟨a1, a2, a3, a4, a5⟩ := callPrecon_new M hM h.next h1 (by omega)
  generalize (callPrecon M h.next h1).1 = u at a1 a3 a4 a5 ⊢
  generalize (callPrecon M h.next h1).2 = h2 at a1 a2 a3 ⊢
  have an := a2.next
  rw [m0] at a1
  have m1 : h2.mem h.next = h.mem b := by rw [a2.mem _ (by omega), m0]
  have hu : h.next ≤ u := by
    rcases Bool.eq_false_or_eq_true M.isSome with hh | hh
    · rw [a4 hh]; omega
    · rw [a5 hh]
  refine .rd (.rd ?_)
  rw [a1, m1]
  refine .exc fun beta _ => .ite (fun _ => ?_) fun _ => ?_
  · obtain ⟨h3, b1, b2, b3, b4, b5⟩ := hscale_eval M.isSome u h.next beta h2 (fun hh => by rw [a4 hh]; omega) a5
    refine .of_eval b1 (.call ?_)
    rw [call_fresh AT u h3 (hAT _ _), b3, a1]
    simp only
    obtain ⟨NV, hNV⟩ : ∃ NV, NV = AT.fn (vdiv (applyPrecon (HOp.fn? M) (h.mem b)) beta) := ⟨_, rfl⟩
    rw [← hNV]
    rw [m1] at b4
    have e4 : h3.Ext (h3.alloc NV) := h3.ext_alloc _
    have m4 : (h3.alloc NV).mem h3.next = NV := h3.mem_alloc_self _
    have n4 : (h3.alloc NV).next = h3.next + 1 := rfl
    generalize h3.alloc NV = h4 at e4 m4 n4 ⊢
    refine .precon ?_
    obtain ⟨c1, c2, c3, c4, c5⟩ := callPrecon_new N hN h3.next h4 (by omega)
    generalize (callPrecon N h3.next h4).1 = v at c1 c3 c4 c5 ⊢
    generalize (callPrecon N h3.next h4).2 = h5 at c1 c2 c3 ⊢
    have cn := c2.next
    rw [m4] at c1
    have m5 : h5.mem h3.next = NV := by rw [c2.mem _ (by omega), m4]
    have hv : h3.next ≤ v := by
      rcases Bool.eq_false_or_eq_true N.isSome with hh | hh
      · rw [c4 hh]; omega
      · rw [c5 hh]
    refine .rd (.rd ?_)
    rw [c1, m5]
    refine .exc fun alpha _ => ?_
    obtain ⟨h6, d1, d2, d3, d4, d5⟩ := hscaleIf_eval N.isSome v h3.next alpha h5 (fun hh => by rw [c4 hh]; omega) c5
    refine .of_eval d1 ?_
    rw [c1] at d3
    rw [m5] at d4
    have old : ∀ k < h3.next, h6.mem k = h3.mem k := fun k hk => by
      rw [d5 k (by omega) (by omega), c2.mem k (by omega), e4.mem k hk]
    have ext3 : h.Ext h3 := Keeps.ext_of (hscale_keeps hu (le_refl _)) b1 (e0.trans a2)
    have ext : h.Ext h6 := Keeps.ext_of (hscaleIf_keeps (by omega) (by omega)) d1 ((ext3.trans e4).trans c2)
    have q1 : h6.mem h.next = vdiv (h.mem b) beta := by rw [old _ (by omega), b4]
    have q2 : h6.mem u = vdiv (applyPrecon (HOp.fn? M) (h.mem b)) beta := by rw [old _ (by omega), b3, a1]
    have hif : ∀ (c : Bool), (if c = true then (pure (vdiv (h.mem b) beta, vdiv (applyPrecon (HOp.fn? M) (h.mem b)) beta, beta,
          some (vdiv (applyPrecon (HOp.fn? N) NV) alpha, vdiv NV alpha), alpha, 1) : Except PyError (W × W × S × Option (W × W) × S × Nat))
        else pure (vdiv (h.mem b) beta, vdiv (applyPrecon (HOp.fn? M) (h.mem b)) beta, beta,
          some (applyPrecon (HOp.fn? N) NV, NV), alpha, 1)) = .ok (vdiv (h.mem b) beta, vdiv (applyPrecon (HOp.fn? M) (h.mem b)) beta, beta,
          some (if c = true then vdiv (applyPrecon (HOp.fn? N) NV) alpha else applyPrecon (HOp.fn? N) NV,
            if c = true then vdiv NV alpha else NV), alpha, 1) := by
      intro c; cases c <;> rfl
    rw [hif]
    exact .pure ⟨ext, q1, q2, rfl, by simp only [Option.map_some, d3, d4], rfl, rfl, ⟨le_refl _, by simp only; omega⟩,
      ⟨hu, by simp only; omega⟩, fun v' Nv' hh => by cases hh; exact ⟨⟨by omega, by omega⟩, by omega, by omega⟩⟩
  · exact .pure ⟨e0.trans a2, m1, a1, rfl, rfl, rfl, rfl, ⟨le_refl _, by simp only; omega⟩, ⟨hu, by simp only; omega⟩,
      fun v' Nv' hh => by cases hh⟩

/-- results of one step correspond; the arrays are newer than `h`, or `v` and `Nv` are those of before -/
structure StepRel (h : Heap W) (Nv0 : Option Nat) (v0 : Nat) (r : Nat × Nat × Option Nat × Nat × S × S × Nat)
    (t : W × W × Option W × W × S × S × Nat) (h' : Heap W) : Prop where
  ext : h.Ext h'
  Mu : h'.mem r.1 = t.1
  u : h'.mem r.2.1 = t.2.1
  Nv : r.2.2.1.map h'.mem = t.2.2.1
  v : h'.mem r.2.2.2.1 = t.2.2.2.1
  alpha : r.2.2.2.2.1 = t.2.2.2.2.1
  beta : r.2.2.2.2.2.1 = t.2.2.2.2.2.1
  products : r.2.2.2.2.2.2 = t.2.2.2.2.2.2
  lMu : h.next ≤ r.1 ∧ r.1 < h'.next
  lu : h.next ≤ r.2.1 ∧ r.2.1 < h'.next
  lNv : (r.2.2.1 = Nv0 ∧ r.2.2.2.1 = v0) ∨ ∃ Nv, r.2.2.1 = some Nv ∧ (h.next ≤ Nv ∧ Nv < h'.next) ∧ h.next ≤ r.2.2.2.1 ∧ r.2.2.2.1 < h'.next

theorem bidiagStepH_sim (A AT : HOp W) (M N : Option (HOp W)) (hM : ReturnsNew M) (hN : ReturnsNew N)
    (Mu : Nat) (Nv : Option Nat) (v : Nat) (alpha : S) (h : Heap W) (hMu : Mu < h.next) (hNv : ∀ k, Nv = some k → k < h.next)
    (hv : v < h.next) :
    SimE h (bidiagStepH A AT M N Mu Nv v alpha)
      (bidiagStep A.fn AT.fn (HOp.fn? M) (HOp.fn? N) (h.mem Mu) (Nv.map h.mem) (h.mem v) alpha) (StepRel h Nv v) := by
  unfold bidiagStepH bidiagStep
  refine .call ?_
  obtain ⟨f1, f2, f3, f4⟩ := call_spec A v h hv
  generalize (call A v h).1 = av at f1 f3 f4 ⊢
  generalize (call A v h).2 = g0 at f1 f2 f3 ⊢
  have fn := f2.next
  refine .rd (.rd (.new (.precon ?_)))
  rw [f1, f2.mem _ hMu]
  obtain ⟨B, hB⟩ : ∃ B : W, B = A.fn (h.mem v) - smul alpha (h.mem Mu) := ⟨_, rfl⟩
  rw [← hB]
  have e0 := g0.ext_alloc B
  have m0 : (g0.alloc B).mem g0.next = B := g0.mem_alloc_self _
  have n0 : (g0.alloc B).next = g0.next + 1 := rfl
  generalize g0.alloc B = h1 at e0 m0 n0 ⊢
  obtain ⟨a1, a2, a3, a4, a5⟩ := callPrecon_new M hM g0.next h1 (by omega)
  generalize (callPrecon M g0.next h1).1 = u at a1 a3 a4 a5 ⊢
  generalize (callPrecon M g0.next h1).2 = h2 at a1 a2 a3 ⊢
  have an := a2.next
  rw [m0] at a1
  have m1 : h2.mem g0.next = B := by rw [a2.mem _ (by omega), m0]
  have hu : g0.next ≤ u := by
    rcases Bool.eq_false_or_eq_true M.isSome with hh | hh
    · rw [a4 hh]; omega
    · rw [a5 hh]
  have ext2 : h.Ext h2 := (f2.trans e0).trans a2
  refine .rd (.rd ?_)
  rw [a1, m1]
  refine .exc fun beta _ => .ite (fun _ => ?_) fun _ => ?_
  · obtain ⟨h3, b1, b2, b3, b4, b5⟩ := hscale_eval M.isSome u g0.next beta h2 (fun hh => by rw [a4 hh]; omega) a5
    refine .of_eval b1 ?_
    rw [a1] at b3
    rw [m1] at b4
    have ext3 : h.Ext h3 := Keeps.ext_of (hscale_keeps (by omega) (by omega)) b1 ext2
    cases Nv with
    | none => exact (rfl : PyError.unboundLocal "Nv" = _)
    | some Nv0 =>
    have hNv0 := hNv Nv0 rfl
    change SimE h3 (hexc (.ok Nv0) >>= _) (Except.ok (h.mem Nv0) >>= _) _
    refine .of_eval (h' := h3) (a := Nv0) rfl ?_
    rw [except_bind_ok' (x := Except.ok (h.mem Nv0)) rfl]
    refine .call ?_
    obtain ⟨g1, g2, g3, g4⟩ := call_spec AT u h3 (by omega)
    generalize (call AT u h3).1 = atu at g1 g3 g4 ⊢
    generalize (call AT u h3).2 = h3' at g1 g2 g3 ⊢
    have gn := g2.next
    rw [b3] at g1
    refine .rd (.rd (.new (.precon ?_)))
    rw [g1, (ext3.trans g2).mem Nv0 hNv0]
    obtain ⟨NV, hNV⟩ : ∃ NV, NV = AT.fn (vdiv (applyPrecon (HOp.fn? M) B) beta) - smul beta (h.mem Nv0) := ⟨_, rfl⟩
    rw [← hNV]
    have e4 : h3'.Ext (h3'.alloc NV) := h3'.ext_alloc _
    have m4 : (h3'.alloc NV).mem h3'.next = NV := h3'.mem_alloc_self _
    have n4 : (h3'.alloc NV).next = h3'.next + 1 := rfl
    generalize h3'.alloc NV = h4 at e4 m4 n4 ⊢
    obtain ⟨c1, c2, c3, c4, c5⟩ := callPrecon_new N hN h3'.next h4 (by omega)
    generalize (callPrecon N h3'.next h4).1 = v' at c1 c3 c4 c5 ⊢
    generalize (callPrecon N h3'.next h4).2 = h5 at c1 c2 c3 ⊢
    have cn := c2.next
    rw [m4] at c1
    have m5 : h5.mem h3'.next = NV := by rw [c2.mem _ (by omega), m4]
    have hv' : h3'.next ≤ v' := by
      rcases Bool.eq_false_or_eq_true N.isSome with hh | hh
      · rw [c4 hh]; omega
      · rw [c5 hh]
    refine .rd (.rd ?_)
    rw [c1, m5]
    refine .exc fun alpha' _ => ?_
    obtain ⟨h6, d1, d2, d3, d4, d5⟩ := hscaleIf_eval N.isSome v' h3'.next alpha' h5 (fun hh => by rw [c4 hh]; omega) c5
    refine .of_eval d1 ?_
    rw [c1] at d3
    rw [m5] at d4
    have old : ∀ k < h3.next, h6.mem k = h3.mem k := fun k hk => by
      rw [d5 k (by omega) (by omega), c2.mem k (by omega), e4.mem k (by omega), g2.mem k hk]
    have ext : h.Ext h6 := Keeps.ext_of (hscaleIf_keeps (by omega) (by omega)) d1 (((ext3.trans g2).trans e4).trans c2)
    have q1 : h6.mem g0.next = vdiv B beta := by rw [old _ (by omega), b4]
    have q2 : h6.mem u = vdiv (applyPrecon (HOp.fn? M) B) beta := by rw [old _ (by omega), b3]
    change SimE h6 _ (if gt alpha' (lit 0) = true then _ else _) _
    have hif : ∀ (c : Bool), (if c = true then (pure (vdiv B beta, vdiv (applyPrecon (HOp.fn? M) B) beta,
          some (vdiv NV alpha'), vdiv (applyPrecon (HOp.fn? N) NV) alpha', alpha', beta, 2) : Except PyError (W × W × Option W × W × S × S × Nat))
        else pure (vdiv B beta, vdiv (applyPrecon (HOp.fn? M) B) beta,
          some NV, applyPrecon (HOp.fn? N) NV, alpha', beta, 2)) = .ok (vdiv B beta, vdiv (applyPrecon (HOp.fn? M) B) beta,
          some (if c = true then vdiv NV alpha' else NV),
          (if c = true then vdiv (applyPrecon (HOp.fn? N) NV) alpha' else applyPrecon (HOp.fn? N) NV), alpha', beta, 2) := by
      intro c; cases c <;> rfl
    have hx : ∀ c : Bool, SimE h6 (pure (g0.next, u, some h3'.next, v', alpha', beta, 2)) (if c = true then (pure (vdiv B beta, vdiv (applyPrecon (HOp.fn? M) B) beta,
          some (vdiv NV alpha'), vdiv (applyPrecon (HOp.fn? N) NV) alpha', alpha', beta, 2) : Except PyError (W × W × Option W × W × S × S × Nat))
        else pure (vdiv B beta, vdiv (applyPrecon (HOp.fn? M) B) beta,
          some NV, applyPrecon (HOp.fn? N) NV, alpha', beta, 2)) (StepRel h (some Nv0) v) ↔ _ := fun c => by rw [hif c]
    subst hNV
    refine (hx _).2 (.pure ⟨ext, q1, q2, by simp only [Option.map_some, d4], d3, rfl, rfl, rfl, ⟨fn, by simp only; omega⟩,
      ⟨by simp only; omega, by simp only; omega⟩,
      .inr ⟨_, rfl, ⟨by omega, by omega⟩, by simp only; omega, by simp only; omega⟩⟩)
  · exact .pure ⟨ext2, m1, a1, by
        cases Nv with
        | none => rfl
        | some k => simp only [Option.map_some, ext2.mem k (hNv k rfl)], ext2.mem v hv, rfl, rfl, rfl,
      ⟨fn, by simp only; omega⟩, ⟨by simp only; omega, by simp only; omega⟩, .inl ⟨rfl, rfl⟩⟩

end Verif.Solver
