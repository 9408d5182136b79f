import Verif.Solver.HeapBidiag

/-!
# `LSQRFramework.solve` on the heap

A second model of `lsqr.py:86-454`, with arrays as addresses; scalars are treated as in `Verif.Solver.LSQR`.  The lists of scalars
(`dErr`, residuals) belong to the solver and are values.
-/

namespace Verif.Solver
open Scalar Vect

variable {S W : Type} [Scalar S] [Vect S W]

/-- the contents of the arrays of a state whose vectors are addresses -/
def LsqrLoop.at (s : LsqrLoop S Nat Nat) (h : Heap W) : LsqrLoop S W W :=
  { x := h.mem s.x, Mu := h.mem s.Mu, Nv := h.mem s.Nv, v := s.v.map h.mem, w := s.w.map h.mem, alpha := s.alpha, beta := s.beta,
    rhobar := s.rhobar, phibar := s.phibar, Anorm := s.Anorm, Acond := s.Acond, Arnorm := s.Arnorm, r1norm := s.r1norm,
    r2norm := s.r2norm, xnorm := s.xnorm, xxnorm := s.xxnorm, ddnorm := s.ddnorm, res2 := s.res2, z := s.z, cs2 := s.cs2,
    sn2 := s.sn2, xNrgNorm2 := s.xNrgNorm2, dErr := s.dErr, istop := s.istop, itn := s.itn, resids := s.resids,
    normalEqns := s.normalEqns, dirErrors := s.dirErrors, iterates := s.iterates.map h.mem, products := s.products,
    last := s.last }

/-- the contents of the arrays of a result -/
def LsqrRes.at (r : LsqrRes S Nat) (h : Heap W) : LsqrRes S W :=
  { x := h.mem r.x, istop := r.istop, itn := r.itn, nMatvec := r.nMatvec, optimal := r.optimal, status := r.status,
    r1norm := r.r1norm, r2norm := r.r2norm, Anorm := r.Anorm, Acond := r.Acond, Arnorm := r.Arnorm, xnorm := r.xnorm,
    resids := r.resids, normalEqns := r.normalEqns, dirErrors := r.dirErrors, iterates := r.iterates.map h.mem, ctol := r.ctol }

/-- keywords with preconditioners as operators on arrays, seen as keywords with functions on values -/
def LsqrKw.with (kw : LsqrKw S W W) (M N : Option (HOp W)) : LsqrKw S W W := { kw with M := HOp.fn? M, N := HOp.fn? N }

/-- `if alpha > 0: w = v.copy()`, `lsqr.py:206-210` -/
def lsqrWH (alpha : S) (v : Nat) : HeapE W (Option Nat) :=
  if gt alpha (lit 0) then do return some (← hnew (← hrd v)) else return none

/-- the variables `v`, `Nv` and `w` before the loop -/
def lsqrFirstH (alpha : S) (Nv0 : Nat) : Option (Nat × Nat) → HeapE W (Option Nat × Nat × Option Nat)
  | some (v, Nv) => do
    let w ← lsqrWH alpha v
    return (some v, Nv, w)
  | none => return (none, Nv0, none)

/-- the variables before the loop, `lsqr.py:160-238`.  If line 196 is not executed the local variable `Nv` is unbound; in the
model it is then an array of zeros that is never used, as in `lsqrInit`. -/
def lsqrInitH (AT : HOp W) (M N : Option (HOp W)) (kw : LsqrKw S W W) (b : Nat) : HeapE W (LsqrLoop S Nat Nat) := do
  let x ← hnew zeros                                       -- x = zeros(n)
  let iterates ← happend kw.storeIterates [] x             -- self.iterates.append(x.copy())
  let Nv0 ← hnew zeros
  let (Mu, _, beta, vs, alpha, products) ← bidiagStartH AT M N b
  let (v, Nv, w) ← lsqrFirstH alpha Nv0 vs
  return { x := x, Mu := Mu, Nv := Nv, v := v, w := w, alpha := alpha, beta := beta, rhobar := alpha, phibar := beta,
           Anorm := lit 0, Acond := lit 0, Arnorm := alpha * beta, r1norm := beta, r2norm := beta, xnorm := lit 0,
           xxnorm := lit 0, ddnorm := lit 0, res2 := lit 0, z := lit 0, cs2 := lit (-1), sn2 := lit 0, xNrgNorm2 := lit 0,
           dErr := List.replicate kw.window (lit 0), istop := 0, itn := 0,
           resids := if kw.storeResids then [beta] else [],
           normalEqns := if kw.storeResids then [alpha * beta] else [],
           dirErrors := [], iterates := iterates, products := products, last := none }

/-- `lsqrXnorm` for a state whose vectors are addresses, `lsqr.py:323-332` -/
def lsqrXnormH (s : LsqrLoop S Nat Nat) (rho theta phi : S) : Except PyError (S × S × S × S) := do
  let delta := s.sn2 * rho
  let gambar := -s.cs2 * rho
  let rhs := phi - delta * s.z
  let zbar ← pydiv rhs gambar
  let gamma := normof2 gambar theta
  let cs2 ← pydiv gambar gamma
  let sn2 ← pydiv theta gamma
  let z ← pydiv rhs gamma
  return (sqrt (s.xxnorm + zbar * zbar), cs2, sn2, z)

/-- the bidiagonalization step, `lsqr.py:252-272` -/
def lsqrBidiagH (A AT : HOp W) (M N : Option (HOp W)) (damp : S) (s : LsqrLoop S Nat Nat) (v : Nat) :
    HeapE W (Nat × Nat × Nat × S × S × S × Nat) := do
  let (Mu, _, Nv, v, alpha, beta, p) ← bidiagStepH A AT M N s.Mu (some s.Nv) v s.alpha
  return (Mu, Nv.getD s.Nv, v, alpha, beta, if gt beta (lit 0) then normof4 s.Anorm s.alpha beta damp else s.Anorm, s.products + p)

/-- one iteration, `lsqr.py:245-413` -/
def lsqrStepH (A AT : HOp W) (M N : Option (HOp W)) (kw : LsqrKw S W W) (lim : Int) (bnorm : S) (s : LsqrLoop S Nat Nat) :
    HeapE W (LsqrLoop S Nat Nat) := do
  let itn := s.itn + 1
  let v0 ← hexc (bound "v" s.v)
  let (Mu, Nv, v, alpha, beta, Anorm, products) ← lsqrBidiagH A AT M N kw.damp s v0
  let (rhobar1, psi, phibar) ← hexc (lsqrRot1 kw.damp s.rhobar s.phibar)
  let (rho, theta, rhobar, phi, phibar, tau, t1, t2) ← hexc (lsqrRot2 rhobar1 beta alpha phibar)
  let invRho ← hexc (pydiv (lit 1) rho)
  let w ← hexc (bound "w" s.w)
  let dk ← hnew (smul invRho (← hrd w))                    -- dk = (1.0/rho)*w
  hwr s.x ((← hrd s.x) + smul t1 (← hrd w))                -- x += t1*w
  hwr w (smul t2 (← hrd w))                                -- w *= t2
  hwr w ((← hrd w) + (← hrd v))                            -- w += v
  let dk ← hrd dk
  let ddnorm := s.ddnorm + norm dk * norm dk
  let iterates ← happend kw.storeIterates s.iterates s.x   -- self.iterates.append(x.copy())
  let xNrgNorm2 := s.xNrgNorm2 + phi * phi
  let k ← hexc (pymod itn kw.window)
  let dErr := s.dErr.set k phi
  let trnc := normList dErr
  let xNrgNorm := sqrt xNrgNorm2
  let direct := decide (itn > kw.window) && lt trnc (kw.etol * xNrgNorm)
  let (xnorm, cs2, sn2, z) ← hexc (lsqrXnormH s rho theta phi)
  let xxnorm := s.xxnorm + z * z
  let Acond := Anorm * sqrt ddnorm
  let res2 := s.res2 + psi * psi
  let rnorm := sqrt (phibar * phibar + res2)
  let Arnorm := alpha * Scalar.abs tau
  let r1sq := rnorm * rnorm - kw.damp * kw.damp * xxnorm
  let r1 := sqrt (Scalar.abs r1sq)
  let r1norm := if lt r1sq (lit 0) then -r1 else r1
  let tests ← hexc (lsqrQuantities kw direct bnorm Anorm Acond rnorm Arnorm xnorm)
  return { x := s.x, Mu := Mu, Nv := Nv, v := some v, w := some w, alpha := alpha, beta := beta,
           rhobar := rhobar, phibar := phibar, Anorm := Anorm, Acond := Acond, Arnorm := Arnorm, r1norm := r1norm,
           r2norm := rnorm, xnorm := xnorm, xxnorm := xxnorm, ddnorm := ddnorm, res2 := res2, z := z, cs2 := cs2,
           sn2 := sn2, xNrgNorm2 := xNrgNorm2, dErr := dErr, istop := lsqrStop kw lim itn tests, itn := itn,
           resids := if kw.storeResids then s.resids ++ [rnorm] else s.resids,
           normalEqns := if kw.storeResids then s.normalEqns ++ [Arnorm] else s.normalEqns,
           dirErrors := if itn > kw.window then s.dirErrors ++ [trnc / xNrgNorm] else s.dirErrors,
           iterates := iterates, products := products, last := some tests }

/-- the loop condition, `lsqr.py:243, 413` -/
def lsqrContH (lim : Int) (s : LsqrLoop S Nat Nat) : Bool := decide (s.istop = 0) && decide ((s.itn : Int) < lim)

theorem heapE_bind_ok {W α β : Type} {m : HeapE W α} {f : α → HeapE W β} {g g' : Heap W} {b : β} (h : (m >>= f) g = (.ok b, g')) :
    ∃ a g1, m g = (.ok a, g1) ∧ f a g1 = (.ok b, g') := by
  change (match m g with | (.ok a, h') => f a h' | (.error e, h') => (.error e, h')) = _ at h
  cases hm : m g with
  | mk r g1 =>
    rw [hm] at h
    cases r with
    | error e => cases h
    | ok a => exact ⟨a, g1, rfl, h⟩

theorem lsqrStepH_itn {A AT : HOp W} {M N : Option (HOp W)} {kw : LsqrKw S W W} {lim : Int} {bnorm : S} {s t : LsqrLoop S Nat Nat}
    {g g' : Heap W} (h : lsqrStepH A AT M N kw lim bnorm s g = (.ok t, g')) : t.itn = s.itn + 1 := by
  unfold lsqrStepH at h
  obtain ⟨_, _, -, h⟩ := heapE_bind_ok h
  obtain ⟨⟨Mu, Nv, v, alpha, beta, Anorm, products⟩, _, -, h⟩ := heapE_bind_ok h
  obtain ⟨⟨rhobar1, psi, phibar⟩, _, -, h⟩ := heapE_bind_ok h
  obtain ⟨⟨rho, theta, rhobar, phi, phibar', tau, t1, t2⟩, _, -, h⟩ := heapE_bind_ok h
  obtain ⟨_, _, -, h⟩ := heapE_bind_ok h
  obtain ⟨_, _, -, h⟩ := heapE_bind_ok h
  obtain ⟨_, _, -, h⟩ := heapE_bind_ok h
  obtain ⟨_, _, -, h⟩ := heapE_bind_ok h
  obtain ⟨_, _, -, h⟩ := heapE_bind_ok h
  obtain ⟨_, _, -, h⟩ := heapE_bind_ok h
  obtain ⟨_, _, -, h⟩ := heapE_bind_ok h
  obtain ⟨_, _, -, h⟩ := heapE_bind_ok h
  obtain ⟨_, _, -, h⟩ := heapE_bind_ok h
  obtain ⟨_, _, -, h⟩ := heapE_bind_ok h
  obtain ⟨_, _, -, h⟩ := heapE_bind_ok h
  obtain ⟨_, _, -, h⟩ := heapE_bind_ok h
  obtain ⟨_, _, -, h⟩ := heapE_bind_ok h
  obtain ⟨_, _, -, h⟩ := heapE_bind_ok h
  obtain ⟨_, _, -, h⟩ := heapE_bind_ok h
  obtain ⟨⟨xnorm, cs2, sn2, z⟩, _, -, h⟩ := heapE_bind_ok h
  obtain ⟨_, _, -, h⟩ := heapE_bind_ok h
  cases h
  rfl

/-- the loop, `lsqr.py:243-413` -/
def lsqrLoopH (A AT : HOp W) (M N : Option (HOp W)) (kw : LsqrKw S W W) (lim : Int) (bnorm : S) (s : LsqrLoop S Nat Nat) :
    HeapE W (LsqrLoop S Nat Nat) :=
  heapLoop (lsqrContH lim) (lsqrStepH A AT M N kw lim bnorm) (fun s => (lim - s.itn).toNat)
    (fun s g t g' h ht h' => by
      have := lsqrStepH_itn ht
      simp only [lsqrContH, Bool.and_eq_true, decide_eq_true_eq] at h h'
      omega) s

/-- the loop with `x_is_zero`, `lsqr.py:212-217, 243` -/
def lsqrMainH (A AT : HOp W) (M N : Option (HOp W)) (kw : LsqrKw S W W) (lim : Int) (s : LsqrLoop S Nat Nat) :
    HeapE W (LsqrLoop S Nat Nat) :=
  if feq s.Arnorm (lit 0) then pure s else lsqrLoopH A AT M N kw lim s.beta s

/-- the attributes set at the end, `lsqr.py:163, 436-453` -/
def lsqrResultH (conlim : S) (s : LsqrLoop S Nat Nat) : LsqrRes S Nat :=
  { x := s.x, istop := s.istop, itn := s.itn, nMatvec := 2 * s.itn, optimal := decide (s.istop ∈ [1, 2, 4, 5, 8]),
    status := lsqrStatus s.istop, r1norm := s.r1norm, r2norm := s.r2norm, Anorm := s.Anorm, Acond := s.Acond,
    Arnorm := s.Arnorm, xnorm := s.xnorm, resids := s.resids, normalEqns := s.normalEqns, dirErrors := s.dirErrors,
    iterates := s.iterates, ctol := if gt conlim (lit 0) then some (lit 1 / conlim) else none }

/-- `LSQRFramework.solve(rhs, ...)`, `lsqr.py:86-454`.  `b` is the address of `rhs`; `M` and `N` are the preconditioners, and those
in `kw` are not used. -/
def lsqrSolveH (A AT : HOp W) (n : Nat) (b : Nat) (M N : Option (HOp W)) (kw : LsqrKw S W W) :
    HeapE W (LsqrRes S Nat × LsqrLoop S Nat Nat) := do
  let lim := lsqrLimit n kw.itnlim
  let _ ← hexc (lsqrVar kw.wantvar)
  let s ← lsqrInitH AT M N kw b
  let s ← lsqrMainH A AT M N kw lim s
  return (lsqrResultH kw.conlim s, s)

/-! ### Arrays that existed before are not modified -/

/-- the arrays that are modified in place are newer than `h0` -/
def LsqrNew (h0 : Heap W) (s : LsqrLoop S Nat Nat) : Prop := h0.next ≤ s.x ∧ ∀ w, s.w = some w → h0.next ≤ w

theorem lsqrInitH_keeps (AT : HOp W) (M N : Option (HOp W)) (kw : LsqrKw S W W) (b : Nat) (h0 : Heap W) :
    Keeps h0 (lsqrInitH AT M N kw b) (LsqrNew h0) := by
  unfold lsqrInitH
  refine .bind .new fun x hx => .bind .append fun _ _ => .bind .new fun _ _ => .bind (bidiagStartH_keeps (S := S) h0 AT M N b) ?_
  rintro ⟨Mu, u, beta, vs, alpha, products⟩ -
  refine .bind (Q := fun r => ∀ w, r.2.2 = some w → h0.next ≤ w) ?_ ?_
  · rcases vs with _ | ⟨v, Nv⟩
    · exact .pure (fun w hw => by cases hw)
    · refine .bind (Q := fun r => ∀ w, r = some w → h0.next ≤ w) ?_ fun r hr => .pure hr
      exact .ite (fun _ => .bind .rd fun _ _ => .bind .new fun w hw => .pure (fun w' hw' => by cases hw'; exact hw))
        fun _ => .pure (fun w hw => by cases hw)
  · rintro ⟨v, Nv, w⟩ hw
    exact .pure ⟨hx, hw⟩

theorem lsqrStepH_keeps (A AT : HOp W) (M N : Option (HOp W)) (kw : LsqrKw S W W) (lim : Int) (bnorm : S) (s : LsqrLoop S Nat Nat)
    (h0 : Heap W) (hs : LsqrNew h0 s) : Keeps h0 (lsqrStepH A AT M N kw lim bnorm s) (LsqrNew h0) := by
  unfold lsqrStepH lsqrBidiagH
  refine .bind .exc fun v0 _ => .bind (Q := fun _ => True)
    (.bind (bidiagStepH_keeps h0 A AT M N _ _ _ _) fun r _ => .pure trivial) ?_
  rintro ⟨Mu, Nv, v, alpha, beta, Anorm, products⟩ -
  refine .bind .exc ?_
  rintro ⟨rhobar1, psi, phibar⟩ -
  refine .bind .exc ?_
  rintro ⟨rho, theta, rhobar, phi, phibar', tau, t1, t2⟩ -
  refine .bind .exc fun _ _ => .bind .exc fun w hw => ?_
  have hw' : s.w = some w := by
    cases hsw : s.w with
    | none => rw [hsw] at hw; cases hw
    | some w' => rw [hsw] at hw; cases hw; rfl
  have hwn := hs.2 w hw'
  refine .bind .rd fun _ _ => .bind .new fun _ _ => .bind .rd fun _ _ => .bind .rd fun _ _ => .bind (.wr hs.1) fun _ _ =>
    .bind .rd fun _ _ => .bind (.wr hwn) fun _ _ => .bind .rd fun _ _ => .bind .rd fun _ _ => .bind (.wr hwn) fun _ _ =>
    .bind .rd fun _ _ => .bind .append fun _ _ => .bind .exc fun _ _ => .bind .exc ?_
  rintro ⟨xnorm, cs2, sn2, z⟩ -
  exact .bind .exc fun _ _ => .pure ⟨hs.1, fun w' hw'' => by cases hw''; exact hwn⟩

theorem lsqrSolveH_keeps (A AT : HOp W) (n : Nat) (b : Nat) (M N : Option (HOp W)) (kw : LsqrKw S W W) (h0 : Heap W) :
    Keeps h0 (lsqrSolveH A AT n b M N kw) (fun r => h0.next ≤ r.1.x) := by
  unfold lsqrSolveH
  refine .bind .exc fun _ _ => .bind (lsqrInitH_keeps AT M N kw b h0) fun s hs => .bind (Q := LsqrNew h0) ?_ fun s hs => .pure hs.1
  exact .ite (fun _ => .pure hs) fun _ => heapLoop_keeps _ (fun s hs => lsqrStepH_keeps A AT M N kw _ _ s h0 hs) s hs

/-! ### Refinement -/

theorem ebind_assoc {ε α β γ : Type} (x : Except ε α) (f : α → Except ε β) (g : β → Except ε γ) :
    ((x >>= f) >>= g) = x >>= fun a => f a >>= g := by cases x <;> rfl

theorem ebind_congr {ε α β : Type} {x : Except ε α} {f g : α → Except ε β} (h : ∀ a, f a = g a) : (x >>= f) = (x >>= g) := by
  cases x
  · rfl
  · exact h _

theorem lsqrBidiag_form (A AT : W → W) (kw : LsqrKw S W W) (s : LsqrLoop S W W) (v : W) :
    lsqrBidiag A AT kw s v = bidiagStep A AT kw.M kw.N s.Mu (some s.Nv) v s.alpha >>= fun r =>
      .ok (r.1, r.2.2.1.getD s.Nv, r.2.2.2.1, r.2.2.2.2.1, r.2.2.2.2.2.1,
        if gt r.2.2.2.2.2.1 (lit 0) then normof4 s.Anorm s.alpha r.2.2.2.2.2.1 kw.damp else s.Anorm, s.products + r.2.2.2.2.2.2) := by
  unfold lsqrBidiag bidiagStep
  dsimp only
  rw [ebind_assoc]
  refine ebind_congr fun beta => ?_
  cases hb : gt beta (lit 0) with
  | false =>
    simp only [Bool.false_eq_true, if_false]
    change Except.ok _ = Except.ok _
    simp only [hb, Bool.false_eq_true, if_false, Option.getD_some]
  | true =>
    simp only [if_true, bound]
    change _ = (pysqrt _ >>= _) >>= _
    rw [ebind_assoc]
    refine ebind_congr fun alpha => ?_
    cases gt alpha (lit 0) with
    | false =>
      simp only [Bool.false_eq_true, if_false]
      change Except.ok _ = Except.ok _
      simp only [hb, if_true, Option.getD_some]
    | true =>
      simp only [if_true]
      change Except.ok _ = Except.ok _
      simp only [hb, if_true, Option.getD_some]

/-- the arrays of the loop: all exist, and `x` and `w` are shared with nothing -/
structure LsqrOk (s : LsqrLoop S Nat Nat) (h : Heap W) : Prop where
  x : s.x < h.next
  Mu : s.Mu < h.next
  Nv : s.Nv < h.next
  v : ∀ v, s.v = some v → v < h.next ∧ v ≠ s.x
  w : ∀ w, s.w = some w → w < h.next ∧ w ≠ s.x ∧ w ≠ s.Mu ∧ w ≠ s.Nv ∧ (∀ v, s.v = some v → v ≠ w) ∧ ∀ k ∈ s.iterates, k ≠ w
  xMu : s.Mu ≠ s.x
  xNv : s.Nv ≠ s.x
  its : ∀ k ∈ s.iterates, k < h.next ∧ k ≠ s.x

theorem SimE.mapEq {W α β α' β' : Type} {h : Heap W} {m : HeapE W α} {p : Except PyError β} {R : α → β → Heap W → Prop}
    {f : α → α'} {g : β → β'} {R' : α' → β' → Heap W → Prop} (hm : SimE h m p R) (hr : ∀ a b h', R a b h' → R' (f a) (g b) h') :
    SimE h (m >>= fun a => Pure.pure (f a)) (p >>= fun b => .ok (g b)) R' :=
  .bind hm fun a b h' hab => .pure (hr a b h' hab)

theorem appendCopy_next (flag : Bool) (lst : List Nat) (l : Nat) (h : Heap W) :
    h.Ext (appendCopy flag lst l h).2 ∧ ∀ k ∈ (appendCopy flag lst l h).1, k ∈ lst ∨ (h.next ≤ k ∧ k < (appendCopy flag lst l h).2.next) := by
  cases flag
  · exact ⟨.refl h, fun k hk => .inl hk⟩
  · refine ⟨h.ext_alloc _, fun k hk => ?_⟩
    have hk' : k ∈ lst ++ [h.next] := hk
    rcases List.mem_append.1 hk' with h1 | h1
    · exact .inl h1
    · rw [List.mem_singleton.1 h1]
      exact .inr ⟨le_refl _, Nat.lt_succ_self _⟩

theorem appendCopy_map (flag : Bool) (lst : List Nat) (l : Nat) (h : Heap W) (hl : ∀ k ∈ lst, k < h.next) :
    (appendCopy flag lst l h).1.map (appendCopy flag lst l h).2.mem =
      if flag then lst.map h.mem ++ [h.mem l] else lst.map h.mem := by
  cases flag
  · rfl
  · change (lst ++ [h.next]).map (h.alloc (h.mem l)).mem = lst.map h.mem ++ [h.mem l]
    rw [List.map_append]
    congr 1
    · exact List.map_congr_left fun k hk => h.mem_alloc_lt _ (hl k hk)
    · change [_] = [_]
      rw [Heap.mem_alloc_self]

theorem lsqrStepH_sim (A AT : HOp W) (M N : Option (HOp W)) (hM : ReturnsNew M) (hN : ReturnsNew N) (kw : LsqrKw S W W) (lim : Int)
    (bnorm : S) (s : LsqrLoop S Nat Nat) (h : Heap W) (hs : LsqrOk s h) :
    SimE h (lsqrStepH A AT M N kw lim bnorm s) (lsqrStep A.fn AT.fn (kw.with M N) lim bnorm (s.at h))
      (fun t t' h' => t' = t.at h' ∧ LsqrOk t h') := by
  unfold lsqrStepH lsqrStep
  rcases hv0 : s.v with _ | v0
  · have : (s.at h).v = none := by simp only [LsqrLoop.at, hv0, Option.map_none]
    rw [this]
    exact (rfl : PyError.unboundLocal "v" = _)
  have hv0' : (s.at h).v = some (h.mem v0) := by simp only [LsqrLoop.at, hv0, Option.map_some]
  rw [hv0']
  obtain ⟨hv1, hv2⟩ := hs.v v0 hv0
  change SimE h (lsqrBidiagH A AT M N kw.damp s v0 >>= _) (lsqrBidiag A.fn AT.fn (kw.with M N) (s.at h) (h.mem v0) >>= _) _
  rw [lsqrBidiag_form]
  have hb := bidiagStepH_sim A AT M N hM hN s.Mu (some s.Nv) v0 s.alpha h hs.Mu (fun k hk => by cases hk; exact hs.Nv) hv1
  refine .bind (SimE.mapEq (R' := fun r t h' => h.Ext h' ∧ h'.mem r.1 = t.1 ∧ h'.mem r.2.1 = t.2.1 ∧ h'.mem r.2.2.1 = t.2.2.1 ∧
      r.2.2.2 = t.2.2.2 ∧ (h.next ≤ r.1 ∧ r.1 < h'.next) ∧ ((r.2.1 = s.Nv ∧ r.2.2.1 = v0) ∨ ((h.next ≤ r.2.1 ∧ r.2.1 < h'.next) ∧
        h.next ≤ r.2.2.1 ∧ r.2.2.1 < h'.next))) hb ?_) ?_
  · rintro ⟨Mu, u, Nv, v, alpha, beta, p⟩ ⟨Mu', u', Nv', v', alpha', beta', p'⟩ h' ⟨q1, q2, q3, q4, q5, q6, q7, q8, q9, q10, q11⟩
    simp only at q2 q3 q4 q5 q6 q7 q8 q9 q10 q11
    subst q6 q7 q8
    refine ⟨q1, q2, ?_, q5, rfl, q9, ?_⟩
    · simp only
      rw [← q4]
      rcases q11 with ⟨h1, -⟩ | ⟨Nv1, h1, -⟩
      · rw [h1]; rfl
      · rw [h1]; rfl
    · rcases q11 with ⟨h1, h2⟩ | ⟨Nv1, h1, h2, h3⟩
      · left; subst h1 h2; exact ⟨rfl, rfl⟩
      · right; subst h1; exact ⟨h2, h3⟩
  · rintro ⟨Mu, Nv, v, alpha, beta, Anorm, products⟩ ⟨Mu', Nv', v', alpha', beta', Anorm', products'⟩ h1 ⟨q1, q2, q3, q4, q5, q6, q7⟩
    simp only at q2 q3 q4 q5 q6 q7
    cases q5
    subst q2 q3 q4
    have qn := q1.next
    refine .exc ?_
    rintro ⟨rhobar1, psi, phibar⟩ -
    refine .exc ?_
    rintro ⟨rho, theta, rhobar, phi, phibar', tau, t1, t2⟩ -
    refine .exc fun invRho _ => ?_
    rcases hw0 : s.w with _ | w
    · have : (s.at h).w = none := by simp only [LsqrLoop.at, hw0, Option.map_none]
      rw [this]
      exact (rfl : PyError.unboundLocal "w" = _)
    have hw0' : (s.at h).w = some (h.mem w) := by simp only [LsqrLoop.at, hw0, Option.map_some]
    rw [hw0']
    obtain ⟨w1, w2, w3, w4, w5, w6⟩ := hs.w w hw0
    have hvw : v ≠ w ∧ v ≠ s.x ∧ v < h1.next := by
      rcases q7 with ⟨-, h2⟩ | ⟨-, h2⟩
      · rw [h2]; exact ⟨w5 v0 hv0, hv2, by omega⟩
      · have := hs.x; omega
    have hNw : Nv ≠ w ∧ Nv ≠ s.x ∧ Nv < h1.next := by
      rcases q7 with ⟨h2, -⟩ | ⟨h2, -⟩
      · rw [h2]; exact ⟨w4.symm, hs.xNv, by have := hs.Nv; omega⟩
      · have := hs.x; omega
    have hMw : Mu ≠ w ∧ Mu ≠ s.x := by have := hs.x; omega
    refine .of_eval (h' := h1) (a := w) rfl ?_
    rw [except_bind_ok' (x := bound "w" (some (h.mem w))) rfl]
    refine .rd (.new (.rd (.rd (.wr (.rd (.wr (.rd (.rd (.wr (.rd (.append ?_)))))))))))
    have hx := hs.x
    obtain ⟨vdk, hvdk⟩ : ∃ d, d = smul invRho (h1.mem w) := ⟨_, rfl⟩
    rw [← hvdk]
    have e2 := h1.ext_alloc vdk
    have m2 : (h1.alloc vdk).mem h1.next = vdk := h1.mem_alloc_self _
    have n2 : (h1.alloc vdk).next = h1.next + 1 := rfl
    generalize h1.alloc vdk = h2 at e2 m2 n2 ⊢
    have r1 : h2.mem s.x = h.mem s.x := by rw [e2.mem _ (by omega), q1.mem _ hx]
    have r2 : h2.mem w = h.mem w := by rw [e2.mem _ (by omega), q1.mem _ w1]
    rw [q1.mem w w1] at hvdk
    rw [r1, r2]
    obtain ⟨vx, hvx⟩ : ∃ d, d = h.mem s.x + smul t1 (h.mem w) := ⟨_, rfl⟩
    rw [← hvx]
    rw [Heap.mem_upd_ne _ _ w2, r2, Heap.mem_upd_self, Heap.mem_upd_ne _ _ hvw.1, Heap.mem_upd_ne _ _ hvw.2.1,
      e2.mem v hvw.2.2]
    obtain ⟨vw, hvw'⟩ : ∃ d, d = smul t2 (h.mem w) + h1.mem v := ⟨_, rfl⟩
    rw [← hvw']
    obtain ⟨h3, hh3⟩ : ∃ h3, h3 = ((h2.upd s.x vx).upd w (smul t2 (h.mem w))).upd w vw := ⟨_, rfl⟩
    rw [← hh3]
    have n3 : h3.next = h2.next := by rw [hh3]; rfl
    have m3w : h3.mem w = vw := by rw [hh3, Heap.mem_upd_self]
    have m3x : h3.mem s.x = vx := by
      rw [hh3, Heap.mem_upd_ne _ _ w2.symm, Heap.mem_upd_ne _ _ w2.symm, Heap.mem_upd_self]
    have m3 : ∀ k, k ≠ w → k ≠ s.x → h3.mem k = h2.mem k := fun k k1 k2 => by
      rw [hh3, Heap.mem_upd_ne _ _ k1, Heap.mem_upd_ne _ _ k1, Heap.mem_upd_ne _ _ k2]
    clear hh3
    rw [m3 h1.next (by omega) (by omega), m2]
    have hits : ∀ k ∈ s.iterates, k < h3.next := fun k hk => by have := (hs.its k hk).1; omega
    obtain ⟨a1, a2⟩ := appendCopy_next kw.storeIterates s.iterates s.x h3
    have a3 := appendCopy_map kw.storeIterates s.iterates s.x h3 hits
    generalize (appendCopy kw.storeIterates s.iterates s.x h3).1 = its at a2 a3 ⊢
    generalize (appendCopy kw.storeIterates s.iterates s.x h3).2 = h4 at a1 a2 a3 ⊢
    have an := a1.next
    rw [m3x] at a3
    have hm : s.iterates.map h3.mem = s.iterates.map h.mem := List.map_congr_left fun k hk => by
      rw [m3 k (w6 k hk) (hs.its k hk).2, e2.mem k (by have := (hs.its k hk).1; omega), q1.mem k (hs.its k hk).1]
    rw [hm] at a3
    refine .exc fun k _ => ?_
    refine .exc ?_
    rintro ⟨xnorm, cs2, sn2, z⟩ -
    subst hvdk
    refine .exc fun tests _ => .pure ⟨?_, ?_⟩
    · have c1 : h4.mem s.x = vx := by rw [a1.mem _ (by omega), m3x]
      have c2 : h4.mem w = vw := by rw [a1.mem _ (by omega), m3w]
      have c3 : h4.mem v = h1.mem v := by rw [a1.mem _ (by omega), m3 v hvw.1 hvw.2.1, e2.mem _ hvw.2.2]
      have c4 : h4.mem Nv = h1.mem Nv := by rw [a1.mem _ (by omega), m3 Nv hNw.1 hNw.2.1, e2.mem _ hNw.2.2]
      have c5 : h4.mem Mu = h1.mem Mu := by rw [a1.mem _ (by omega), m3 Mu hMw.1 hMw.2, e2.mem _ q6.2]
      simp only [LsqrLoop.at, LsqrKw.with, Option.map_some, c1, c2, c3, c4, c5, a3, hvx, hvw']
      rfl
    · have ha : ∀ k ∈ its, k < h4.next ∧ k ≠ s.x ∧ k ≠ w := fun k hk => by
        rcases a2 k hk with h1 | h1
        · have := hs.its k h1; exact ⟨by omega, this.2, w6 k h1⟩
        · omega
      exact ⟨by simp only; omega, by simp only; omega, by simp only; omega,
        fun v' hv' => by cases hv'; exact ⟨by omega, hvw.2.1⟩,
        fun w' hw' => by
          cases hw'
          exact ⟨by omega, w2, hMw.1.symm, hNw.1.symm, (fun v' hv' => by cases hv'; exact hvw.1), fun k hk => (ha k hk).2.2⟩,
        hMw.2, hNw.2.1, fun k hk => ⟨(ha k hk).1, (ha k hk).2.1⟩⟩

/-- the variables `v`, `Nv` and `w` before the loop, as values -/
def lsqrFirst (alpha : S) : Option (W × W) → Option W × W × Option W
  | some (v, Nv) => (some v, Nv, if gt alpha (lit 0) then some v else none)
  | none => (none, zeros, none)

theorem lsqrInit_form (AT : W → W) (kw : LsqrKw S W W) (b : W) :
    lsqrInit AT kw b = bidiagStart AT kw.M kw.N b >>= fun r =>
      .ok (lsqrStart kw r.2.2.1 r.1 (lsqrFirst r.2.2.2.2.1 r.2.2.2.1).2.1 (lsqrFirst r.2.2.2.2.1 r.2.2.2.1).1
        (lsqrFirst r.2.2.2.2.1 r.2.2.2.1).2.2 r.2.2.2.2.1 r.2.2.2.2.2) := by
  unfold lsqrInit bidiagStart
  dsimp only
  rw [ebind_assoc]
  refine ebind_congr fun beta => ?_
  cases hb : gt beta (lit 0) with
  | false => rfl
  | true =>
    simp only [if_true]
    rw [ebind_assoc]
    refine ebind_congr fun alpha => ?_
    cases ha : gt alpha (lit 0) with
    | false =>
      simp only [Bool.false_eq_true, if_false]
      change Except.ok _ = Except.ok _
      simp only [lsqrFirst, ha, Bool.false_eq_true, if_false]
    | true =>
      simp only [if_true]
      change Except.ok _ = Except.ok _
      simp only [lsqrFirst, ha, if_true]

theorem lsqrFirstH_eval (alpha : S) (Nv0 : Nat) (vs : Option (Nat × Nat)) (h : Heap W) (h0 : h.mem Nv0 = (zeros : W))
    (hlt : ∀ v Nv, vs = some (v, Nv) → v < h.next ∧ Nv < h.next) :
    ∃ v Nv w h', lsqrFirstH alpha Nv0 vs h = (.ok (v, Nv, w), h') ∧ h.Ext h' ∧
      (v.map h'.mem, h'.mem Nv, w.map h'.mem) = lsqrFirst alpha (vs.map fun p => (h.mem p.1, h.mem p.2)) ∧
      (vs = none → v = none ∧ Nv = Nv0 ∧ w = none) ∧ (∀ v' Nv', vs = some (v', Nv') → v = some v' ∧ Nv = Nv') ∧
      (∀ w', w = some w' → h.next ≤ w' ∧ w' < h'.next) ∧ (Nv0 < h.next → Nv < h'.next) := by
  rcases vs with _ | ⟨v, Nv⟩
  · exact ⟨none, Nv0, none, h, rfl, .refl h, by simp only [Option.map_none, lsqrFirst, h0], fun _ => ⟨rfl, rfl, rfl⟩,
      (fun _ _ hh => by cases hh), (fun _ hh => by cases hh), id⟩
  · obtain ⟨l1, l2⟩ := hlt v Nv rfl
    cases ha : gt alpha (lit 0) with
    | false =>
      refine ⟨some v, Nv, none, h, ?_, .refl h, ?_, (fun hh => by cases hh), (fun _ _ hh => by cases hh; exact ⟨rfl, rfl⟩),
        (fun _ hh => by cases hh), fun _ => l2⟩
      · unfold lsqrFirstH lsqrWH
        rw [ha]
        rfl
      · simp only [Option.map_some, Option.map_none, lsqrFirst, ha, Bool.false_eq_true, if_false]
    | true =>
      refine ⟨some v, Nv, some h.next, h.alloc (h.mem v), ?_, h.ext_alloc _, ?_, (fun hh => by cases hh),
        (fun _ _ hh => by cases hh; exact ⟨rfl, rfl⟩), (fun _ hh => by cases hh; exact ⟨le_refl _, Nat.lt_succ_self _⟩),
        fun _ => Nat.lt_succ_of_lt l2⟩
      · unfold lsqrFirstH lsqrWH
        rw [ha]
        rfl
      · simp only [Option.map_some, lsqrFirst, ha, if_true, Heap.mem_alloc_self, h.mem_alloc_lt _ l1, h.mem_alloc_lt _ l2]

theorem lsqrInitH_sim (AT : HOp W) (hAT : ∀ h l, AT.same h l = false) (M N : Option (HOp W)) (hM : ReturnsNew M) (hN : ReturnsNew N)
    (kw : LsqrKw S W W) (b : Nat) (h : Heap W) (hb : b < h.next) :
    SimE h (lsqrInitH AT M N kw b) (lsqrInit AT.fn (kw.with M N) (h.mem b)) (fun t t' h' => t' = t.at h' ∧ LsqrOk t h') := by
  rw [lsqrInit_form]
  unfold lsqrInitH
  refine .new (.append (.new ?_))
  have e1 := h.ext_alloc (zeros : W)
  have m1 : (h.alloc (zeros : W)).mem h.next = zeros := h.mem_alloc_self _
  have n1 : (h.alloc (zeros : W)).next = h.next + 1 := rfl
  generalize h.alloc (zeros : W) = h1 at e1 m1 n1 ⊢
  obtain ⟨a1, a2⟩ := appendCopy_next kw.storeIterates [] h.next h1
  have a3 := appendCopy_map kw.storeIterates [] h.next h1 (fun k hk => by cases hk)
  generalize (appendCopy kw.storeIterates [] h.next h1).1 = its at a2 a3 ⊢
  generalize (appendCopy kw.storeIterates [] h.next h1).2 = h2 at a1 a2 a3 ⊢
  have an := a1.next
  rw [m1] at a3
  have e3 := h2.ext_alloc (zeros : W)
  have m3 : (h2.alloc (zeros : W)).mem h2.next = zeros := h2.mem_alloc_self _
  have n3 : (h2.alloc (zeros : W)).next = h2.next + 1 := rfl
  generalize h2.alloc (zeros : W) = h3 at e3 m3 n3 ⊢
  have hbm : h3.mem b = h.mem b := by rw [e3.mem _ (by omega), a1.mem _ (by omega), e1.mem _ hb]
  have key := bidiagStartH_sim (S := S) AT hAT M N hM hN b h3
  rw [hbm] at key
  refine .bind key ?_
  rintro ⟨Mu, u, beta, vs, alpha, p⟩ ⟨Mu', u', beta', vs', alpha', p'⟩ h4 ⟨q1, q2, q3, q4, q5, q6, q7, q8, q9, q10⟩
  simp only at q2 q3 q4 q5 q6 q7 q8 q9 q10
  subst q2 q4 q6 q7 q5
  have qn := q1.next
  have m4 : h4.mem h2.next = (zeros : W) := by rw [q1.mem _ (by omega), m3]
  obtain ⟨v, Nv, w, h5, f1, f2, f3, f4, f5, f6, f7⟩ := lsqrFirstH_eval alpha h2.next vs h4 m4
    (fun v Nv hh => ⟨(q10 v Nv hh).1.2, (q10 v Nv hh).2.2⟩)
  refine .of_eval f1 (.pure ?_)
  have fn := f2.next
  have hits : ∀ k ∈ its, k < h2.next ∧ k ≠ h.next := fun k hk => by
    rcases a2 k hk with h1 | h1
    · cases h1
    · omega
  have c1 : h5.mem h.next = (zeros : W) := by
    rw [f2.mem _ (by omega), q1.mem _ (by omega), e3.mem _ (by omega), a1.mem _ (by omega), m1]
  have c2 : h5.mem Mu = h4.mem Mu := f2.mem _ q8.2
  have c3 : its.map h5.mem = if kw.storeIterates = true then [zeros] else [] := by
    rw [show its.map h5.mem = its.map h2.mem from List.map_congr_left fun k hk => by
      rw [f2.mem _ (by have := (hits k hk).1; omega), q1.mem _ (by have := (hits k hk).1; omega), e3.mem _ (hits k hk).1], a3]
    rfl
  refine ⟨?_, ?_⟩
  · have g1 : v.map h5.mem = (lsqrFirst alpha (vs.map fun p => (h4.mem p.1, h4.mem p.2))).1 := by rw [← f3]
    have g2 : h5.mem Nv = (lsqrFirst alpha (vs.map fun p => (h4.mem p.1, h4.mem p.2))).2.1 := by rw [← f3]
    have g3 : w.map h5.mem = (lsqrFirst alpha (vs.map fun p => (h4.mem p.1, h4.mem p.2))).2.2 := by rw [← f3]
    simp only [LsqrLoop.at, lsqrStart, c1, c2, c3, g1, g2, g3]
    rfl
  · have hNv : Nv < h5.next ∧ Nv ≠ h.next ∧ Nv < h4.next := by
      refine ⟨f7 (by omega), ?_⟩
      rcases hvs : vs with _ | ⟨v', Nv'⟩
      · rw [(f4 hvs).2.1]; omega
      · rw [(f5 _ _ hvs).2]
        have := (q10 _ _ hvs).2
        omega
    have hv : ∀ v', v = some v' → h3.next ≤ v' ∧ v' < h4.next := by
      intro v' hv'
      rcases hvs : vs with _ | ⟨v'', Nv'⟩
      · rw [(f4 hvs).1] at hv'; cases hv'
      · rw [(f5 _ _ hvs).1] at hv'
        cases hv'
        exact (q10 _ _ hvs).1
    exact ⟨by simp only; omega, by simp only; omega, hNv.1, fun v' hv' => by have := hv v' hv'; simp only; omega,
      fun w' hw' => by
        have := f6 w' hw'
        refine ⟨this.2, by simp only; omega, by simp only; omega, by simp only; omega, fun v' hv' => by have := hv v' hv'; omega,
          fun k hk => by have := hits k hk; omega⟩,
      by simp only; omega, hNv.2.1, fun k hk => by have := hits k hk; simp only; omega⟩

theorem lsqrSolveH_sim (A AT : HOp W) (hAT : ∀ h l, AT.same h l = false) (n : Nat) (b : Nat) (M N : Option (HOp W))
    (hM : ReturnsNew M) (hN : ReturnsNew N) (kw : LsqrKw S W W) (h : Heap W) (hb : b < h.next) :
    SimE h (lsqrSolveH A AT n b M N kw) (lsqrSolve A.fn AT.fn n (h.mem b) (kw.with M N))
      (fun r r' h' => r' = (r.1.at h', r.2.at h')) := by
  unfold lsqrSolveH lsqrSolve
  refine .exc fun _ _ => .bind (lsqrInitH_sim AT hAT M N hM hN kw b h hb) ?_
  rintro s s' h1 ⟨rfl, hs⟩
  refine .bind (R := fun t t' h' => t' = t.at h' ∧ LsqrOk t h') ?_ ?_
  · unfold lsqrMainH lsqrMain
    refine .ite (fun _ => .pure ⟨rfl, hs⟩) fun _ => ?_
    unfold lsqrLoopH lsqrLoop
    refine heapLoop_sim (fun t t' h' => t' = t.at h' ∧ LsqrOk t h') ?_ ?_ s (s.at h1) h1 ⟨rfl, hs⟩
    · rintro s t g ⟨rfl, -⟩
      rfl
    · rintro s t g ⟨rfl, hs⟩ -
      exact lsqrStepH_sim A AT M N hM hN kw _ _ s g hs
  · rintro t t' h' ⟨rfl, ht⟩
    exact .pure rfl

/-- the result of a run on the heap, with the contents of the arrays -/
def outcome {α β W : Type} (f : α → Heap W → β) (r : Except PyError α × Heap W) : Except PyError β :=
  match r.1 with
  | .ok a => .ok (f a r.2)
  | .error e => .error e

theorem SimE.outcome_eq {α β W : Type} {h : Heap W} {m : HeapE W α} {p : Except PyError β} {f : α → Heap W → β}
    (hm : SimE h m p (fun a b h' => b = f a h')) : outcome f (m h) = p := by
  unfold SimE at hm
  unfold outcome
  cases hr : m h with
  | mk r h' =>
    rw [hr] at hm
    cases r <;> cases p
    · simp only at hm ⊢
      rw [hm]
    · exact hm.elim
    · exact hm.elim
    · simp only at hm ⊢
      rw [hm]

end Verif.Solver
