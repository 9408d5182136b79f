import Verif.Solver.HeapLSQR
import Verif.Solver.Craig

/-!
# `CRAIGFramework.solve` on the heap

A second model of `craig.py:104-520`, with arrays as addresses; scalars are treated as in `Verif.Solver.Craig`.
-/

namespace Verif.Solver
open Scalar Vect

variable {S W : Type} [Scalar S] [Vect S W]

/-- the contents of the arrays of a state whose vectors are addresses -/
def CraigLoop.at (s : CraigLoop S Nat Nat) (h : Heap W) : CraigLoop S W W :=
  { x := h.mem s.x, r := h.mem s.r, Mu := h.mem s.Mu, Nv := h.mem s.Nv, v := h.mem s.v, alpha := s.alpha, beta := s.beta, c := s.c,
    s := s.s, d := h.mem s.d, tau := s.tau, zeta := s.zeta, w := h.mem s.w, wbar := h.mem s.wbar, rnorm := s.rnorm,
    xnorm := s.xnorm, r1norm := s.r1norm, rNrgNorm2 := s.rNrgNorm2, xNrgNorm2 := s.xNrgNorm2, dErr := s.dErr, Arnorm := s.Arnorm,
    istop := s.istop, itn := s.itn, resids := s.resids, norms := s.norms, normalEqns := s.normalEqns, dirErrors := s.dirErrors,
    iteratesP := s.iteratesP.map h.mem, iteratesD := s.iteratesD.map h.mem, products := s.products }

/-- the contents of the arrays of a result -/
def CraigRes.at (r : CraigRes S Nat Nat) (h : Heap W) : CraigRes S W W :=
  { x := h.mem r.x, r := h.mem r.r, istop := r.istop, itn := r.itn, nMatvec := r.nMatvec, optimal := r.optimal, status := r.status,
    r1norm := r.r1norm, r2norm := r.r2norm, Arnorm := r.Arnorm, xnorm := r.xnorm, resids := r.resids, norms := r.norms,
    normalEqns := r.normalEqns, dirErrors := r.dirErrors, iteratesP := r.iteratesP.map h.mem, iteratesD := r.iteratesD.map h.mem }

/-- keywords with preconditioners as operators on arrays, seen as keywords with functions on values -/
def CraigKw.with (kw : CraigKw S W W) (M N : Option (HOp W)) : CraigKw S W W := { kw with M := HOp.fn? M, N := HOp.fn? N }

/-- the variables before the loop, `craig.py:205-209, 243-287`.  (The arrays `zeros(m)` and `zeros(n)` of lines 205-206 are never
used.) -/
def craigStartH (kw : CraigKw S W W) (Mu u : Nat) (beta : S) (vs : Option (Nat × Nat)) (alpha : S) (products : Nat) :
    HeapE W (CraigLoop S Nat Nat) := do
  let rho := normof2 alpha (lit 1)
  let d ← hnew (vdiv (← hrd u) rho)                        -- d = u / rho
  let tau ← hexc (pydiv beta rho)
  let r ← hnew (smul tau (← hrd d))                        -- r = tau * d
  let c ← hexc (pydiv alpha rho)
  let s ← hexc (pydiv (lit 1) rho)
  let zeta := s * beta
  let eta := c * zeta
  let xi := s * zeta
  let (v, Nv) ← hexc (bound "v" vs)
  let w ← hnew (smul c (← hrd v))                          -- w = c * v
  let wbar ← hnew (smul s (← hrd v))                       -- wbar = s * v
  let x ← hnew (smul zeta (← hrd w))                       -- x = zeta * w
  let iteratesP ← happend kw.storeIterates [] x            -- self.iterates_p.append(x.copy())
  let iteratesD ← happend kw.storeIterates [] r            -- self.iterates_d.append(r.copy())
  return { x := x, r := r, Mu := Mu, Nv := Nv, v := v, alpha := alpha, beta := beta, c := c, s := s, d := d, tau := tau,
           zeta := zeta, w := w, wbar := wbar, rnorm := tau * tau, xnorm := eta * eta, r1norm := xi * xi,
           rNrgNorm2 := lit 0, xNrgNorm2 := lit 0, dErr := List.replicate kw.window (lit 0), Arnorm := none, istop := 0, itn := 0,
           resids := if kw.storeResids then [tau * tau] else [], norms := if kw.storeResids then [lit 0] else [],
           normalEqns := [], dirErrors := [], iteratesP := iteratesP, iteratesD := iteratesD, products := products }

/-- one iteration, `craig.py:293-478` -/
def craigStepH (A AT : HOp W) (M N : Option (HOp W)) (kw : CraigKw S W W) (lim : Int) (bnorm : S) (s : CraigLoop S Nat Nat) :
    HeapE W (CraigLoop S Nat Nat) := do
  let itn := s.itn + 1
  let (Mu, u, Nv, v, alpha, beta, p) ← bidiagStepH A AT M N s.Mu (some s.Nv) s.v s.alpha
  let Arnorm := Scalar.abs (s.alpha * beta * s.s * s.zeta)
  let (betaHat, alphaHat, s2, c, sn) ← hexc (craigRot s.c s.s alpha beta)
  let d ← hnew (vdiv ((← hrd u) - smul betaHat (← hrd s.d)) alphaHat)       -- d = (u - beta_hat * d) / alpha_hat
  let tau ← hexc (pydiv (-betaHat * s.tau) alphaHat)
  hwr s.r ((← hrd s.r) + smul tau (← hrd d))                                -- r += tau * d
  let zeta ← hexc (pydiv (-betaHat * s.zeta) alphaHat)
  let eta := c * zeta
  let xi := sn * zeta
  hwr s.wbar (smul s2 (← hrd s.wbar))                                       -- wbar *= s2
  let w ← hnew (smul c (← hrd v) + smul sn (← hrd s.wbar))                  -- w = c * v + s * wbar
  hwr s.wbar (smul (-c) (← hrd s.wbar))                                     -- wbar *= -c
  hwr s.wbar ((← hrd s.wbar) + smul sn (← hrd v))                           -- wbar += s * v
  hwr s.x ((← hrd s.x) + smul zeta (← hrd w))                               -- x += zeta * w
  let iteratesP ← happend kw.storeIterates s.iteratesP s.x                  -- self.iterates_p.append(x.copy())
  let iteratesD ← happend kw.storeIterates s.iteratesD s.r                  -- self.iterates_d.append(r.copy())
  let rNrgNorm2 := s.rNrgNorm2 + tau * tau
  let xNrgNorm2 := s.xNrgNorm2 + zeta * zeta
  let k ← hexc (pymod itn kw.window)
  let dErr := s.dErr.set k tau
  let trnc := normList dErr
  let rNrgNorm := sqrt rNrgNorm2
  let direct := decide (itn > kw.window) && lt trnc (kw.etol * rNrgNorm)
  let rnorm := s.rnorm + tau * tau
  let test1 ← hexc (pydiv (sqrt rnorm) bnorm)
  return { x := s.x, r := s.r, Mu := Mu, Nv := Nv.getD s.Nv, v := v, alpha := alpha, beta := beta, c := c, s := sn, d := d, tau := tau,
           zeta := zeta, w := w, wbar := s.wbar, rnorm := rnorm, xnorm := s.xnorm + eta * eta, r1norm := s.r1norm + xi * xi,
           rNrgNorm2 := rNrgNorm2, xNrgNorm2 := xNrgNorm2, dErr := dErr, Arnorm := some Arnorm,
           istop := craigStop kw lim itn direct test1, itn := itn,
           resids := if kw.storeResids then s.resids ++ [rnorm] else s.resids,
           norms := if kw.storeResids then s.norms ++ [xNrgNorm2] else s.norms,
           normalEqns := if kw.storeResids then s.normalEqns ++ [Arnorm] else s.normalEqns,
           dirErrors := if itn > kw.window then s.dirErrors ++ [trnc / rNrgNorm] else s.dirErrors,
           iteratesP := iteratesP, iteratesD := iteratesD, products := s.products + p }

/-- the loop condition, `craig.py:293, 478` -/
def craigContH (lim : Int) (s : CraigLoop S Nat Nat) : Bool := decide (s.istop = 0) && decide ((s.itn : Int) < lim)

theorem craigStepH_itn {A AT : HOp W} {M N : Option (HOp W)} {kw : CraigKw S W W} {lim : Int} {bnorm : S} {s t : CraigLoop S Nat Nat}
    {g g' : Heap W} (h : craigStepH A AT M N kw lim bnorm s g = (.ok t, g')) : t.itn = s.itn + 1 := by
  unfold craigStepH at h
  obtain ⟨⟨Mu, u, Nv, v, alpha, beta, p⟩, _, -, h⟩ := heapE_bind_ok h
  obtain ⟨⟨betaHat, alphaHat, s2, c, sn⟩, _, -, h⟩ := heapE_bind_ok h
  obtain ⟨_, _, -, h⟩ := heapE_bind_ok h
  obtain ⟨_, _, -, h⟩ := heapE_bind_ok h
  obtain ⟨_, _, -, h⟩ := heapE_bind_ok h
  obtain ⟨_, _, -, h⟩ := heapE_bind_ok h
  obtain ⟨_, _, -, h⟩ := heapE_bind_ok h
  obtain ⟨_, _, -, h⟩ := heapE_bind_ok h
  obtain ⟨_, _, -, h⟩ := heapE_bind_ok h
  obtain ⟨_, _, -, h⟩ := heapE_bind_ok h
  obtain ⟨_, _, -, h⟩ := heapE_bind_ok h
  obtain ⟨_, _, -, h⟩ := heapE_bind_ok h
  obtain ⟨_, _, -, h⟩ := heapE_bind_ok h
  obtain ⟨_, _, -, h⟩ := heapE_bind_ok h
  obtain ⟨_, _, -, h⟩ := heapE_bind_ok h
  obtain ⟨_, _, -, h⟩ := heapE_bind_ok h
  obtain ⟨_, _, -, h⟩ := heapE_bind_ok h
  obtain ⟨_, _, -, h⟩ := heapE_bind_ok h
  obtain ⟨_, _, -, h⟩ := heapE_bind_ok h
  obtain ⟨_, _, -, h⟩ := heapE_bind_ok h
  obtain ⟨_, _, -, h⟩ := heapE_bind_ok h
  obtain ⟨_, _, -, h⟩ := heapE_bind_ok h
  obtain ⟨_, _, -, h⟩ := heapE_bind_ok h
  obtain ⟨_, _, -, h⟩ := heapE_bind_ok h
  obtain ⟨_, _, -, h⟩ := heapE_bind_ok h
  obtain ⟨_, _, -, h⟩ := heapE_bind_ok h
  obtain ⟨_, _, -, h⟩ := heapE_bind_ok h
  cases h
  rfl

/-- the loop, `craig.py:293-478` -/
def craigLoopH (A AT : HOp W) (M N : Option (HOp W)) (kw : CraigKw S W W) (lim : Int) (bnorm : S) (s : CraigLoop S Nat Nat) :
    HeapE W (CraigLoop S Nat Nat) :=
  heapLoop (craigContH lim) (craigStepH A AT M N kw lim bnorm) (fun s => (lim - s.itn).toNat)
    (fun s g t g' h ht h' => by
      have := craigStepH_itn ht
      simp only [craigContH, Bool.and_eq_true, decide_eq_true_eq] at h h'
      omega) s

/-- the loop with `x_is_zero`, `craig.py:235-241, 293` -/
def craigMainH (A AT : HOp W) (M N : Option (HOp W)) (kw : CraigKw S W W) (lim : Int) (s : CraigLoop S Nat Nat) :
    HeapE W (CraigLoop S Nat Nat) :=
  if feq s.beta (lit 0) then pure s else craigLoopH A AT M N kw lim s.beta s

/-- the attributes set at the end, `craig.py:501-518` -/
def craigResultH (s : CraigLoop S Nat Nat) : Except PyError (CraigRes S Nat Nat) := do
  let Arnorm ← bound "Arnorm" s.Arnorm
  return { x := s.x, r := s.r, istop := s.istop, itn := s.itn, nMatvec := 2 * s.itn,
           optimal := decide (s.istop ∈ [1, 2, 4, 5, 8]), status := lsqrStatus s.istop, r1norm := sqrt s.r1norm,
           r2norm := sqrt s.rnorm, Arnorm := Arnorm, xnorm := s.xnorm, resids := s.resids, norms := s.norms,
           normalEqns := s.normalEqns, dirErrors := s.dirErrors, iteratesP := s.iteratesP, iteratesD := s.iteratesD }

/-- `CRAIGFramework.solve(rhs, ...)`, `craig.py:104-520`.  `b` is the address of `rhs`; `M` and `N` are the preconditioners, and
those in `kw` are not used. -/
def craigSolveH (A AT : HOp W) (n : Nat) (b : Nat) (M N : Option (HOp W)) (kw : CraigKw S W W) :
    HeapE W (CraigRes S Nat Nat × CraigLoop S Nat Nat) := do
  let _ ← hexc (lsqrVar kw.wantvar)
  let (Mu, u, beta, vs, alpha, products) ← bidiagStartH AT M N b
  let s ← craigStartH kw Mu u beta vs alpha products
  let s ← craigMainH A AT M N kw (craigLimit n kw.itnlim) s
  let res ← hexc (craigResultH s)
  return (res, s)

/-! ### Arrays that existed before are not modified -/

/-- the arrays that are modified in place are newer than `h0` -/
def CraigNew (h0 : Heap W) (s : CraigLoop S Nat Nat) : Prop := h0.next ≤ s.x ∧ h0.next ≤ s.r ∧ h0.next ≤ s.wbar

theorem craigStartH_keeps (kw : CraigKw S W W) (Mu u : Nat) (beta : S) (vs : Option (Nat × Nat)) (alpha : S) (products : Nat)
    (h0 : Heap W) : Keeps h0 (craigStartH kw Mu u beta vs alpha products) (CraigNew h0) := by
  unfold craigStartH
  refine .bind .rd fun _ _ => .bind .new fun _ _ => .bind .exc fun _ _ => .bind .rd fun _ _ => .bind .new fun r hr =>
    .bind .exc fun _ _ => .bind .exc fun _ _ => .bind .exc ?_
  rintro ⟨v, Nv⟩ -
  exact .bind .rd fun _ _ => .bind .new fun _ _ => .bind .rd fun _ _ => .bind .new fun wbar hw => .bind .rd fun _ _ =>
    .bind .new fun x hx => .bind .append fun _ _ => .bind .append fun _ _ => .pure ⟨hx, hr, hw⟩

theorem craigStepH_keeps (A AT : HOp W) (M N : Option (HOp W)) (kw : CraigKw S W W) (lim : Int) (bnorm : S) (s : CraigLoop S Nat Nat)
    (h0 : Heap W) (hs : CraigNew h0 s) : Keeps h0 (craigStepH A AT M N kw lim bnorm s) (CraigNew h0) := by
  unfold craigStepH
  refine .bind (bidiagStepH_keeps h0 A AT M N _ _ _ _) ?_
  rintro ⟨Mu, u, Nv, v, alpha, beta, p⟩ -
  refine .bind .exc ?_
  rintro ⟨betaHat, alphaHat, s2, c, sn⟩ -
  exact .bind .rd fun _ _ => .bind .rd fun _ _ => .bind .new fun _ _ => .bind .exc fun _ _ => .bind .rd fun _ _ =>
    .bind .rd fun _ _ => .bind (.wr hs.2.1) fun _ _ => .bind .exc fun _ _ => .bind .rd fun _ _ => .bind (.wr hs.2.2) fun _ _ =>
    .bind .rd fun _ _ => .bind .rd fun _ _ => .bind .new fun _ _ => .bind .rd fun _ _ => .bind (.wr hs.2.2) fun _ _ =>
    .bind .rd fun _ _ => .bind .rd fun _ _ => .bind (.wr hs.2.2) fun _ _ => .bind .rd fun _ _ => .bind .rd fun _ _ =>
    .bind (.wr hs.1) fun _ _ => .bind .append fun _ _ => .bind .append fun _ _ => .bind .exc fun _ _ => .bind .exc fun _ _ => .pure hs

theorem craigSolveH_keeps (A AT : HOp W) (n : Nat) (b : Nat) (M N : Option (HOp W)) (kw : CraigKw S W W) (h0 : Heap W) :
    Keeps h0 (craigSolveH A AT n b M N kw) (fun t => h0.next ≤ t.1.x ∧ h0.next ≤ t.1.r) := by
  unfold craigSolveH
  refine .bind .exc fun _ _ => .bind (bidiagStartH_keeps (S := S) h0 AT M N b) ?_
  rintro ⟨Mu, u, beta, vs, alpha, products⟩ -
  refine .bind (craigStartH_keeps kw Mu u beta vs alpha products h0) fun s hs => .bind (Q := CraigNew h0) ?_ fun s hs =>
    .bind .exc fun res hres => .pure ?_
  · exact .ite (fun _ => .pure hs) fun _ => heapLoop_keeps _ (fun s hs => craigStepH_keeps A AT M N kw _ _ s h0 hs) s hs
  · obtain ⟨a, -, hres⟩ := except_bind_ok hres
    cases hres
    exact ⟨hs.1, hs.2.1⟩

/-! ### Refinement -/

theorem craigVectors_form (AT : W → W) (kw : CraigKw S W W) (b : W) : craigVectors AT kw b = bidiagStart AT kw.M kw.N b := rfl

theorem craigBidiag_form (A AT : W → W) (kw : CraigKw S W W) (s : CraigLoop S W W) :
    craigBidiag A AT kw s = bidiagStep A AT kw.M kw.N s.Mu (some s.Nv) s.v s.alpha >>= fun r =>
      .ok (r.1, r.2.1, r.2.2.1.getD s.Nv, r.2.2.2.1, r.2.2.2.2.1, r.2.2.2.2.2.1, s.products + r.2.2.2.2.2.2) := by
  unfold craigBidiag bidiagStep
  dsimp only
  rw [ebind_assoc]
  refine ebind_congr fun beta => ?_
  cases gt beta (lit 0) with
  | false => rfl
  | true =>
    simp only [if_true, bound]
    change _ = (pysqrt _ >>= _) >>= _
    rw [ebind_assoc]
    refine ebind_congr fun alpha => ?_
    cases gt alpha (lit 0) <;> rfl

/-- the arrays of the loop: all exist, and `x`, `r` and `wbar` are shared with nothing -/
structure CraigOk (s : CraigLoop S Nat Nat) (h : Heap W) : Prop where
  x : s.x < h.next
  r : s.r < h.next
  wbar : s.wbar < h.next
  Mu : s.Mu < h.next
  Nv : s.Nv < h.next
  v : s.v < h.next
  d : s.d < h.next
  w : s.w < h.next
  xr : s.x ≠ s.r ∧ s.x ≠ s.wbar ∧ s.r ≠ s.wbar
  sMu : s.Mu ≠ s.x ∧ s.Mu ≠ s.r ∧ s.Mu ≠ s.wbar
  sNv : s.Nv ≠ s.x ∧ s.Nv ≠ s.r ∧ s.Nv ≠ s.wbar
  sv : s.v ≠ s.x ∧ s.v ≠ s.r ∧ s.v ≠ s.wbar
  sd : s.d ≠ s.x ∧ s.d ≠ s.r ∧ s.d ≠ s.wbar
  itsP : ∀ k ∈ s.iteratesP, k < h.next ∧ k ≠ s.x ∧ k ≠ s.r ∧ k ≠ s.wbar
  itsD : ∀ k ∈ s.iteratesD, k < h.next ∧ k ≠ s.x ∧ k ≠ s.r ∧ k ≠ s.wbar

theorem craigStartH_sim (M N : Option (HOp W)) (kw : CraigKw S W W) (Mu u : Nat) (beta : S) (vs : Option (Nat × Nat)) (alpha : S)
    (products : Nat) (h : Heap W) (hMu : Mu < h.next) (hvs : ∀ v Nv, vs = some (v, Nv) → v < h.next ∧ Nv < h.next) :
    SimE h (craigStartH kw Mu u beta vs alpha products)
      (craigStart (kw.with M N) (h.mem Mu) (h.mem u) beta (vs.map fun p => (h.mem p.1, h.mem p.2)) alpha products)
      (fun t t' h' => t' = t.at h' ∧ CraigOk t h') := by
  unfold craigStartH craigStart
  refine .rd (.new (.exc fun tau _ => .rd (.new ?_)))
  obtain ⟨vd, hvd⟩ : ∃ d, d = vdiv (h.mem u) (normof2 alpha (lit 1)) := ⟨_, rfl⟩
  dsimp only
  rw [← hvd]
  have e1 := h.ext_alloc vd
  have m1 : (h.alloc vd).mem h.next = vd := h.mem_alloc_self _
  have n1 : (h.alloc vd).next = h.next + 1 := rfl
  generalize h.alloc vd = h1 at e1 m1 n1 ⊢
  rw [m1]
  have e2 := h1.ext_alloc (smul tau vd)
  have m2 : (h1.alloc (smul tau vd)).mem h1.next = smul tau vd := h1.mem_alloc_self _
  have n2 : (h1.alloc (smul tau vd)).next = h1.next + 1 := rfl
  generalize h1.alloc (smul tau vd) = h2 at e2 m2 n2 ⊢
  refine .exc fun c _ => .exc fun s _ => ?_
  rcases vs with _ | ⟨v, Nv⟩
  · exact (rfl : PyError.unboundLocal "v" = _)
  obtain ⟨l1, l2⟩ := hvs v Nv rfl
  refine .of_eval (h' := h2) (a := (v, Nv)) rfl ?_
  rw [except_bind_ok' (x := bound "v" (Option.map (fun p => (h.mem p.1, h.mem p.2)) (some (v, Nv)))) rfl]
  refine .rd (.new (.rd (.new (.rd (.new (.append (.append ?_)))))))
  rw [e2.mem v (by omega), e1.mem v l1]
  have e3 := h2.ext_alloc (smul c (h.mem v))
  have m3 : (h2.alloc (smul c (h.mem v))).mem h2.next = smul c (h.mem v) := h2.mem_alloc_self _
  have n3 : (h2.alloc (smul c (h.mem v))).next = h2.next + 1 := rfl
  generalize h2.alloc (smul c (h.mem v)) = h3 at e3 m3 n3 ⊢
  rw [e3.mem v (by omega), e2.mem v (by omega), e1.mem v l1]
  have e4 := h3.ext_alloc (smul s (h.mem v))
  have m4 : (h3.alloc (smul s (h.mem v))).mem h3.next = smul s (h.mem v) := h3.mem_alloc_self _
  have n4 : (h3.alloc (smul s (h.mem v))).next = h3.next + 1 := rfl
  generalize h3.alloc (smul s (h.mem v)) = h4 at e4 m4 n4 ⊢
  rw [e4.mem _ (by omega), m3]
  obtain ⟨vx, hvx⟩ : ∃ d, d = smul (s * beta) (smul c (h.mem v)) := ⟨_, rfl⟩
  rw [← hvx]
  have e5 := h4.ext_alloc vx
  have m5 : (h4.alloc vx).mem h4.next = vx := h4.mem_alloc_self _
  have n5 : (h4.alloc vx).next = h4.next + 1 := rfl
  generalize h4.alloc vx = h5 at e5 m5 n5 ⊢
  obtain ⟨a1, a2⟩ := appendCopy_next kw.storeIterates [] h4.next h5
  have a3 := appendCopy_map kw.storeIterates [] h4.next h5 (fun k hk => by cases hk)
  generalize (appendCopy kw.storeIterates [] h4.next h5).1 = itsP at a2 a3 ⊢
  generalize (appendCopy kw.storeIterates [] h4.next h5).2 = h6 at a1 a2 a3 ⊢
  have an := a1.next
  rw [m5] at a3
  have r6 : h6.mem h1.next = smul tau vd := by
    rw [a1.mem _ (by omega), e5.mem _ (by omega), e4.mem _ (by omega), e3.mem _ (by omega), m2]
  obtain ⟨b1, b2⟩ := appendCopy_next kw.storeIterates [] h1.next h6
  have b3 := appendCopy_map kw.storeIterates [] h1.next h6 (fun k hk => by cases hk)
  generalize (appendCopy kw.storeIterates [] h1.next h6).1 = itsD at b2 b3 ⊢
  generalize (appendCopy kw.storeIterates [] h1.next h6).2 = h7 at b1 b2 b3 ⊢
  have bn := b1.next
  rw [r6] at b3
  have hP : ∀ k ∈ itsP, h5.next ≤ k ∧ k < h6.next := fun k hk => by
    rcases a2 k hk with h1 | h1
    · cases h1
    · exact h1
  have hD : ∀ k ∈ itsD, h6.next ≤ k ∧ k < h7.next := fun k hk => by
    rcases b2 k hk with h1 | h1
    · cases h1
    · exact h1
  refine .pure ⟨?_, ?_⟩
  · have c1 : h7.mem h4.next = vx := by rw [b1.mem _ (by omega), a1.mem _ (by omega), m5]
    have c2 : h7.mem h3.next = smul s (h.mem v) := by rw [b1.mem _ (by omega), a1.mem _ (by omega), e5.mem _ (by omega), m4]
    have c3 : h7.mem h2.next = smul c (h.mem v) := by
      rw [b1.mem _ (by omega), a1.mem _ (by omega), e5.mem _ (by omega), e4.mem _ (by omega), m3]
    have c4 : h7.mem h1.next = smul tau vd := by rw [b1.mem _ (by omega), r6]
    have c5 : h7.mem h.next = vd := by
      rw [b1.mem _ (by omega), a1.mem _ (by omega), e5.mem _ (by omega), e4.mem _ (by omega), e3.mem _ (by omega),
        e2.mem _ (by omega), m1]
    have old : ∀ k < h.next, h7.mem k = h.mem k := fun k hk => by
      rw [b1.mem _ (by omega), a1.mem _ (by omega), e5.mem _ (by omega), e4.mem _ (by omega), e3.mem _ (by omega),
        e2.mem _ (by omega), e1.mem _ hk]
    have c6 : itsP.map h7.mem = if kw.storeIterates = true then [vx] else [] := by
      rw [show itsP.map h7.mem = itsP.map h6.mem from List.map_congr_left fun k hk => b1.mem _ (hP k hk).2, a3]
      rfl
    simp only [CraigLoop.at, c1, c2, c3, c4, c5, c6, b3, old _ hMu, old _ l1, old _ l2, hvx]
    rfl
  · exact ⟨by simp only; omega, by simp only; omega, by simp only; omega, by simp only; omega, by simp only; omega, by simp only; omega,
      by simp only; omega, by simp only; omega, by simp only; omega, by simp only; omega, by simp only; omega, by simp only; omega,
      by simp only; omega, fun k hk => by have := hP k hk; simp only; omega, fun k hk => by have := hD k hk; simp only; omega⟩

theorem craigStepH_sim (A AT : HOp W) (M N : Option (HOp W)) (hM : ReturnsNew M) (hN : ReturnsNew N) (kw : CraigKw S W W) (lim : Int)
    (bnorm : S) (s : CraigLoop S Nat Nat) (h : Heap W) (hs : CraigOk s h) :
    SimE h (craigStepH A AT M N kw lim bnorm s) (craigStep A.fn AT.fn (kw.with M N) lim bnorm (s.at h))
      (fun t t' h' => t' = t.at h' ∧ CraigOk t h') := by
  unfold craigStepH craigStep
  dsimp only
  rw [craigBidiag_form, ebind_assoc]
  refine .bind (bidiagStepH_sim A AT M N hM hN s.Mu (some s.Nv) s.v s.alpha h hs.Mu (fun k hk => by cases hk; exact hs.Nv) hs.v) ?_
  rintro ⟨Mu, u, Nv?, v, alpha, beta, p⟩ ⟨Mu', u', Nv', v', alpha', beta', p'⟩ h1 ⟨q1, q2, q3, q4, q5, q6, q7, q8, q9, q10, q11⟩
  simp only at q2 q3 q4 q5 q6 q7 q8 q9 q10 q11
  subst q2 q3 q6 q7 q8 q5
  have qn := q1.next
  have lx := hs.x; have lr := hs.r; have lw := hs.wbar; have lv := hs.v; have ld := hs.d; have lNv := hs.Nv
  obtain ⟨xr, xw, rw'⟩ := hs.xr
  have hgetD : Nv'.getD ((s.at h).Nv) = h1.mem (Nv?.getD s.Nv) := by
    rw [← q4]
    rcases q11 with ⟨h2, -⟩ | ⟨Nv1, h2, -⟩
    · rw [h2]; rfl
    · rw [h2]; rfl
  have hNv : Nv?.getD s.Nv < h1.next ∧ Nv?.getD s.Nv ≠ s.x ∧ Nv?.getD s.Nv ≠ s.r ∧ Nv?.getD s.Nv ≠ s.wbar := by
    rcases q11 with ⟨h2, -⟩ | ⟨Nv1, h2, h3, -⟩
    · rw [h2]; exact ⟨by change s.Nv < _; omega, hs.sNv⟩
    · rw [h2]; change Nv1 < _ ∧ Nv1 ≠ _ ∧ Nv1 ≠ _ ∧ Nv1 ≠ _; omega
  have hv : v < h1.next ∧ v ≠ s.x ∧ v ≠ s.r ∧ v ≠ s.wbar := by
    rcases q11 with ⟨-, h2⟩ | ⟨Nv1, -, -, h2⟩
    · rw [h2]; exact ⟨by omega, hs.sv⟩
    · omega
  change SimE h1 _ (craigRot s.c s.s alpha beta >>= _) _
  dsimp only
  rw [hgetD]
  generalize Nv?.getD s.Nv = Nv at hNv ⊢
  refine .exc ?_
  rintro ⟨betaHat, alphaHat, s2, c, sn⟩ -
  refine .rd (.rd (.new ?_))
  obtain ⟨vd, hvd⟩ : ∃ d, d = vdiv (h1.mem u - smul betaHat (h1.mem s.d)) alphaHat := ⟨_, rfl⟩
  rw [← hvd]
  have e2 := h1.ext_alloc vd
  have m2 : (h1.alloc vd).mem h1.next = vd := h1.mem_alloc_self _
  have n2 : (h1.alloc vd).next = h1.next + 1 := rfl
  generalize h1.alloc vd = h2 at e2 m2 n2 ⊢
  refine .exc fun tau _ => .rd (.rd (.wr (.exc fun zeta _ => .rd (.wr ?_))))
  rw [m2, e2.mem s.r (by omega), q1.mem s.r lr]
  obtain ⟨vr, hvr⟩ : ∃ d, d = h.mem s.r + smul tau vd := ⟨_, rfl⟩
  rw [← hvr, Heap.mem_upd_ne _ _ rw'.symm, e2.mem s.wbar (by omega), q1.mem s.wbar lw]
  obtain ⟨wb, hwb⟩ : ∃ d, d = smul s2 (h.mem s.wbar) := ⟨_, rfl⟩
  rw [← hwb]
  obtain ⟨h3, hh3⟩ : ∃ h3, h3 = (h2.upd s.r vr).upd s.wbar wb := ⟨_, rfl⟩
  rw [← hh3]
  have n3 : h3.next = h2.next := by rw [hh3]; rfl
  have m3w : h3.mem s.wbar = wb := by rw [hh3, Heap.mem_upd_self]
  have m3r : h3.mem s.r = vr := by rw [hh3, Heap.mem_upd_ne _ _ rw', Heap.mem_upd_self]
  have m3 : ∀ k, k ≠ s.r → k ≠ s.wbar → h3.mem k = h2.mem k := fun k k1 k2 => by
    rw [hh3, Heap.mem_upd_ne _ _ k2, Heap.mem_upd_ne _ _ k1]
  clear hh3
  refine .rd (.rd (.new ?_))
  rw [m3w, m3 v hv.2.2.1 hv.2.2.2, e2.mem v hv.1]
  obtain ⟨vw, hvw⟩ : ∃ d, d = smul c (h1.mem v) + smul sn wb := ⟨_, rfl⟩
  rw [← hvw]
  have e4 := h3.ext_alloc vw
  have m4 : (h3.alloc vw).mem h3.next = vw := h3.mem_alloc_self _
  have n4 : (h3.alloc vw).next = h3.next + 1 := rfl
  generalize h3.alloc vw = h4 at e4 m4 n4 ⊢
  refine .rd (.wr (.rd (.rd (.wr (.rd (.rd (.wr ?_)))))))
  have hvn : v ≠ s.wbar := hv.2.2.2
  rw [e4.mem s.wbar (by omega), m3w, Heap.mem_upd_self, Heap.mem_upd_ne _ _ hvn, e4.mem v (by omega), m3 v hv.2.2.1 hvn,
    e2.mem v hv.1]
  obtain ⟨wb2, hwb2⟩ : ∃ d, d = smul (-c) wb + smul sn (h1.mem v) := ⟨_, rfl⟩
  rw [← hwb2, Heap.mem_upd_ne _ _ xw, Heap.mem_upd_ne _ _ xw, Heap.mem_upd_ne _ _ (show h3.next ≠ s.wbar by omega),
    Heap.mem_upd_ne _ _ (show h3.next ≠ s.wbar by omega), m4, e4.mem s.x (by omega), m3 s.x xr xw, e2.mem s.x (by omega),
    q1.mem s.x lx]
  obtain ⟨vx, hvx⟩ : ∃ d, d = h.mem s.x + smul zeta vw := ⟨_, rfl⟩
  rw [← hvx]
  obtain ⟨h5, hh5⟩ : ∃ h5, h5 = ((h4.upd s.wbar (smul (-c) wb)).upd s.wbar wb2).upd s.x vx := ⟨_, rfl⟩
  rw [← hh5]
  have n5 : h5.next = h4.next := by rw [hh5]; rfl
  have m5x : h5.mem s.x = vx := by rw [hh5, Heap.mem_upd_self]
  have m5w : h5.mem s.wbar = wb2 := by rw [hh5, Heap.mem_upd_ne _ _ xw.symm, Heap.mem_upd_self]
  have m5' : ∀ k, k ≠ s.x → k ≠ s.wbar → h5.mem k = h4.mem k := fun k k1 k2 => by
    rw [hh5, Heap.mem_upd_ne _ _ k1, Heap.mem_upd_ne _ _ k2, Heap.mem_upd_ne _ _ k2]
  clear hh5
  have m5r : h5.mem s.r = vr := by rw [m5' _ xr.symm rw', e4.mem _ (by omega), m3r]
  have m5o : ∀ k < h1.next, k ≠ s.x → k ≠ s.r → k ≠ s.wbar → h5.mem k = h1.mem k := fun k hk k1 k2 k3 => by
    rw [m5' k k1 k3, e4.mem k (by omega), m3 k k2 k3, e2.mem k hk]
  have m5d : h5.mem h1.next = vd := by
    rw [m5' _ (by omega) (by omega), e4.mem _ (by omega), m3 _ (by omega) (by omega), m2]
  have m5v : h5.mem h3.next = vw := by rw [m5' _ (by omega) (by omega), m4]
  refine .append ?_
  have hitsP : ∀ k ∈ s.iteratesP, k < h5.next := fun k hk => by have := (hs.itsP k hk).1; omega
  obtain ⟨a1, a2⟩ := appendCopy_next kw.storeIterates s.iteratesP s.x h5
  have a3 := appendCopy_map kw.storeIterates s.iteratesP s.x h5 hitsP
  generalize (appendCopy kw.storeIterates s.iteratesP s.x h5).1 = itsP at a2 a3 ⊢
  generalize (appendCopy kw.storeIterates s.iteratesP s.x h5).2 = h6 at a1 a2 a3 ⊢
  have an := a1.next
  refine .append ?_
  have hitsD : ∀ k ∈ s.iteratesD, k < h6.next := fun k hk => by have := (hs.itsD k hk).1; omega
  obtain ⟨b1, b2⟩ := appendCopy_next kw.storeIterates s.iteratesD s.r h6
  have b3 := appendCopy_map kw.storeIterates s.iteratesD s.r h6 hitsD
  generalize (appendCopy kw.storeIterates s.iteratesD s.r h6).1 = itsD at b2 b3 ⊢
  generalize (appendCopy kw.storeIterates s.iteratesD s.r h6).2 = h7 at b1 b2 b3 ⊢
  have bn := b1.next
  have hP : ∀ k ∈ itsP, k < h6.next ∧ k ≠ s.x ∧ k ≠ s.r ∧ k ≠ s.wbar := fun k hk => by
    rcases a2 k hk with h8 | h8
    · have := hs.itsP k h8; exact ⟨by omega, this.2⟩
    · omega
  have hD : ∀ k ∈ itsD, k < h7.next ∧ k ≠ s.x ∧ k ≠ s.r ∧ k ≠ s.wbar := fun k hk => by
    rcases b2 k hk with h8 | h8
    · have := hs.itsD k h8; exact ⟨by omega, this.2⟩
    · omega
  have hmP : s.iteratesP.map h5.mem = s.iteratesP.map h.mem := List.map_congr_left fun k hk => by
    have := hs.itsP k hk
    rw [m5o k (by omega) this.2.1 this.2.2.1 this.2.2.2, q1.mem k this.1]
  have hmD : s.iteratesD.map h6.mem = s.iteratesD.map h.mem := List.map_congr_left fun k hk => by
    have := hs.itsD k hk
    rw [a1.mem k (by omega), m5o k (by omega) this.2.1 this.2.2.1 this.2.2.2, q1.mem k this.1]
  rw [hmP, m5x] at a3
  rw [hmD, a1.mem _ (by omega), m5r] at b3
  refine .exc fun k _ => .exc fun test1 _ => .pure ⟨?_, ?_⟩
  · have old : ∀ k < h1.next, k ≠ s.x → k ≠ s.r → k ≠ s.wbar → h7.mem k = h1.mem k := fun k hk k1 k2 k3 => by
      rw [b1.mem k (by omega), a1.mem k (by omega), m5o k hk k1 k2 k3]
    have c1 : h7.mem s.x = vx := by rw [b1.mem _ (by omega), a1.mem _ (by omega), m5x]
    have c2 : h7.mem s.r = vr := by rw [b1.mem _ (by omega), a1.mem _ (by omega), m5r]
    have c3 : h7.mem s.wbar = wb2 := by rw [b1.mem _ (by omega), a1.mem _ (by omega), m5w]
    have c4 : h7.mem h1.next = vd := by rw [b1.mem _ (by omega), a1.mem _ (by omega), m5d]
    have c5 : h7.mem h3.next = vw := by rw [b1.mem _ (by omega), a1.mem _ (by omega), m5v]
    have c6 : h7.mem Mu = h1.mem Mu := old _ q9.2 (by omega) (by omega) (by omega)
    have c7 : h7.mem Nv = h1.mem Nv := old _ hNv.1 hNv.2.1 hNv.2.2.1 hNv.2.2.2
    have c8 : h7.mem v = h1.mem v := old _ hv.1 hv.2.1 hv.2.2.1 hv.2.2.2
    have c9 : itsP.map h7.mem = itsP.map h6.mem := List.map_congr_left fun k hk => b1.mem _ (hP k hk).1
    rw [q1.mem s.d ld] at hvd
    simp only [CraigLoop.at, c1, c2, c3, c4, c5, c6, c7, c8, c9, a3, b3, hvx, hvw, hwb2, hwb, hvr, hvd]
    rfl
  · exact ⟨by simp only; omega, by simp only; omega, by simp only; omega, by simp only; omega, by simp only; omega, by simp only; omega,
      by simp only; omega, by simp only; omega, hs.xr, by simp only; omega, hNv.2, hv.2,
      by simp only; omega, fun k hk => ⟨by have := (hP k hk).1; omega, (hP k hk).2⟩, hD⟩

omit [Vect S W] in
theorem craigResultH_at (s : CraigLoop S Nat Nat) (h : Heap W) :
    craigResult (s.at h) = craigResultH s >>= fun r => .ok (r.at h) := by
  unfold craigResult craigResultH
  rw [ebind_assoc]
  exact ebind_congr fun _ => rfl

theorem craigSolveH_sim (A AT : HOp W) (hAT : ∀ h l, AT.same h l = false) (n : Nat) (b : Nat) (M N : Option (HOp W))
    (hM : ReturnsNew M) (hN : ReturnsNew N) (kw : CraigKw S W W) (h : Heap W) :
    SimE h (craigSolveH A AT n b M N kw) (craigSolve A.fn AT.fn n (h.mem b) (kw.with M N))
      (fun r r' h' => r' = (r.1.at h', r.2.at h')) := by
  unfold craigSolveH craigSolve
  refine .exc fun _ _ => ?_
  rw [craigVectors_form]
  refine .bind (bidiagStartH_sim (S := S) AT hAT M N hM hN b h) ?_
  rintro ⟨Mu, u, beta, vs, alpha, p⟩ ⟨Mu', u', beta', vs', alpha', p'⟩ h1 ⟨q1, q2, q3, q4, q5, q6, q7, q8, q9, q10⟩
  simp only at q2 q3 q4 q5 q6 q7 q8 q9 q10
  subst q2 q3 q4 q6 q7 q5
  refine .bind (craigStartH_sim M N kw Mu u beta vs alpha p h1 q8.2 fun v Nv hh => ⟨(q10 v Nv hh).1.2, (q10 v Nv hh).2.2⟩) ?_
  rintro s s' h2 ⟨rfl, hs⟩
  refine .bind (R := fun t t' h' => t' = t.at h' ∧ CraigOk t h') ?_ ?_
  · unfold craigMainH craigMain
    refine .ite (fun _ => .pure ⟨rfl, hs⟩) fun _ => ?_
    unfold craigLoopH craigLoop
    refine heapLoop_sim (fun t t' h' => t' = t.at h' ∧ CraigOk t h') ?_ ?_ s (s.at h2) h2 ⟨rfl, hs⟩
    · rintro s t g ⟨rfl, -⟩
      rfl
    · rintro s t g ⟨rfl, hs⟩ -
      exact craigStepH_sim A AT M N hM hN kw _ _ s g hs
  · rintro t t' h' ⟨rfl, ht⟩
    rw [craigResultH_at, ebind_assoc]
    exact .exc fun r _ => .pure rfl

end Verif.Solver
