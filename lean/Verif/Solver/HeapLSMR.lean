import Verif.Solver.HeapLSQR
import Verif.Solver.LSMR

/-!
# `LSMRFramework.solve` on the heap

A second model of `lsmr.py:64-492`, with arrays as addresses; scalars are treated as in `Verif.Solver.LSMR`.
-/

namespace Verif.Solver
open Scalar Vect

variable {S W : Type} [Scalar S] [Vect S W]

/-- the contents of the arrays of a state whose vectors are addresses -/
def LsmrLoop.at (s : LsmrLoop S Nat Nat) (h : Heap W) : LsmrLoop S W W :=
  { x := h.mem s.x, Mu := h.mem s.Mu, Nv := s.Nv.map h.mem, v := h.mem s.v, alpha := s.alpha, beta := s.beta, h := h.mem s.h,
    hbar := h.mem s.hbar, alphabar := s.alphabar, rho := s.rho, rhobar := s.rhobar, cbar := s.cbar, sbar := s.sbar, zeta := s.zeta,
    zetabar := s.zetabar, betadd := s.betadd, betad := s.betad, rhodold := s.rhodold, tautildeold := s.tautildeold,
    thetatilde := s.thetatilde, d := s.d, normA2 := s.normA2, normA := s.normA, maxrbar := s.maxrbar, minrbar := s.minrbar,
    condA := s.condA, normr := s.normr, normar := s.normar, normx := s.normx, xNrgNorm2 := s.xNrgNorm2, dErr := s.dErr,
    istop := s.istop, itn := s.itn, resids := s.resids, normalEqns := s.normalEqns, norms := s.norms, dirErrors := s.dirErrors,
    iterates := s.iterates.map h.mem, products := s.products }

/-- the scalars of a state (the vectors are replaced by zero) -/
def LsmrLoop.scalars (s : LsmrLoop S Nat Nat) : LsmrLoop S W W := s.at ⟨fun _ => zeros, 0, []⟩

/-- the contents of the arrays of a result -/
def LsmrRes.at (r : LsmrRes S Nat) (h : Heap W) : LsmrRes S W :=
  { x := h.mem r.x, istop := r.istop, itn := r.itn, normr := r.normr, normar := r.normar, normA := r.normA, condA := r.condA,
    normx := r.normx, selfX := r.selfX.map h.mem, resids := r.resids, normalEqns := r.normalEqns, norms := r.norms,
    dirErrors := r.dirErrors, iterates := r.iterates.map h.mem }

/-- keywords with preconditioners as operators on arrays, seen as keywords with functions on values -/
def LsmrKw.with (kw : LsmrKw S W W) (M N : Option (HOp W)) : LsmrKw S W W := { kw with M := HOp.fn? M, N := HOp.fn? N }

/-- the variables before the loop, `lsmr.py:210-283` -/
def lsmrInitH (AT : HOp W) (M N : Option (HOp W)) (kw : LsmrKw S W W) (b : Nat) : HeapE W (LsmrLoop S Nat Nat) := do
  let v0 ← hnew zeros                                      -- v = zeros(n)
  let (Mu, _, beta, vs, alpha, products) ← bidiagStartH AT M N b
  let v := (vs.map Prod.fst).getD v0
  let hh ← hnew (← hrd v)                                  -- h = v.copy()
  let hbar ← hnew zeros                                    -- hbar = zeros(n)
  let x ← hnew zeros                                       -- x = zeros(n)
  let iterates ← happend kw.storeIterates [] x             -- self.iterates.append(x.copy())
  return { x := x, Mu := Mu, Nv := vs.map Prod.snd, v := v, alpha := alpha, beta := beta, h := hh, hbar := hbar, alphabar := alpha,
           rho := lit 1, rhobar := lit 1, cbar := lit 1, sbar := lit 0, zeta := lit 0, zetabar := alpha * beta, betadd := beta,
           betad := lit 0, rhodold := lit 1, tautildeold := lit 0, thetatilde := lit 0, d := lit 0, normA2 := alpha * alpha,
           normA := sqrt (alpha * alpha), maxrbar := lit 0, minrbar := lit (10 ^ 100), condA := lit 1, normr := beta,
           normar := alpha * beta, normx := lit 0, xNrgNorm2 := lit 0, dErr := List.replicate kw.window (lit 0), istop := 0,
           itn := 0, resids := [], normalEqns := [], norms := [], dirErrors := [], iterates := iterates, products := products }

/-- the update of the vectors, `lsmr.py:359-361`: `hbar`, `x`, `h` -/
def lsmrVectorsH (r : LsmrRot S) (s : LsmrLoop S Nat Nat) (v : Nat) : HeapE W (Nat × Nat × Nat) := do
  let q1 ← hexc (pydiv (r.thetabar * r.rho) (s.rho * s.rhobar))
  let hbar ← hnew ((← hrd s.h) - smul q1 (← hrd s.hbar))   -- hbar = h - (thetabar*rho/(rhoold*rhobarold))*hbar
  let q2 ← hexc (pydiv r.zeta (r.rho * r.rhobar))
  let x ← hnew ((← hrd s.x) + smul q2 (← hrd hbar))        -- x = x + (zeta/(rho*rhobar))*hbar
  let q3 ← hexc (pydiv r.thetanew r.rho)
  let hh ← hnew ((← hrd v) - smul q3 (← hrd s.h))          -- h = v - (thetanew/rho)*h
  return (hbar, x, hh)

/-- one iteration, `lsmr.py:304-475` -/
def lsmrStepH (A AT : HOp W) (M N : Option (HOp W)) (kw : LsmrKw S W W) (lim : Int) (normb : S) (s : LsmrLoop S Nat Nat) :
    HeapE W (LsmrLoop S Nat Nat) := do
  let itn := s.itn + 1
  let (Mu, _, Nv, v, alpha, beta, p) ← bidiagStepH A AT M N s.Mu s.Nv s.v s.alpha
  let r ← hexc (lsmrRot kw.damp alpha beta (s.scalars : LsmrLoop S W W))
  let (hbar, x, hh) ← lsmrVectorsH r s v
  let iterates ← happend kw.storeIterates s.iterates x     -- self.iterates.append(x.copy())
  let xNrgNorm2 := s.xNrgNorm2 + r.zeta * r.zeta
  let k ← hexc (pymod itn kw.window)
  let dErr := s.dErr.set k r.zeta
  let trnc := normList dErr
  let xNrgNorm := sqrt xNrgNorm2
  let direct := decide (itn > kw.window) && lt trnc (kw.etol * xNrgNorm)
  let (betadd, thetatilde, rhodold, betad, tautildeold, d, normr) ← hexc (lsmrResid r (s.scalars : LsmrLoop S W W))
  let normA2 := s.normA2 + beta * beta
  let normA := sqrt normA2
  let maxrbar := pymax s.maxrbar s.rhobar
  let minrbar := if itn > 1 then pymin s.minrbar s.rhobar else s.minrbar
  let condA ← hexc (pydiv (pymax maxrbar r.rhotemp) (pymin minrbar r.rhotemp))
  let normar := Scalar.abs r.zetabar
  let normx := norm (← hrd x)
  let tests ← hexc (lsmrQuantities kw direct normb normA condA normr normar normx)
  return { x := x, Mu := Mu, Nv := Nv, v := v, alpha := alpha, beta := beta, h := hh, hbar := hbar, alphabar := r.alphabar,
           rho := r.rho, rhobar := r.rhobar, cbar := r.cbar, sbar := r.sbar, zeta := r.zeta, zetabar := r.zetabar,
           betadd := betadd, betad := betad, rhodold := rhodold, tautildeold := tautildeold, thetatilde := thetatilde,
           d := d, normA2 := normA2 + alpha * alpha, normA := normA, maxrbar := maxrbar, minrbar := minrbar,
           condA := condA, normr := normr, normar := normar, normx := normx, xNrgNorm2 := xNrgNorm2, dErr := dErr,
           istop := lsmrStop kw lim itn tests, itn := itn,
           resids := if kw.storeResids then s.resids ++ [normr] else s.resids,
           normalEqns := if kw.storeResids then s.normalEqns ++ [normar] else s.normalEqns,
           norms := if kw.storeResids then s.norms ++ [xNrgNorm2] else s.norms,
           dirErrors := if itn > kw.window then s.dirErrors ++ [trnc / xNrgNorm] else s.dirErrors,
           iterates := iterates, products := s.products + p }

/-- the loop condition, `lsmr.py:303, 475` -/
def lsmrContH (lim : Int) (s : LsmrLoop S Nat Nat) : Bool := decide (s.istop = 0) && decide ((s.itn : Int) < lim)

theorem lsmrStepH_itn {A AT : HOp W} {M N : Option (HOp W)} {kw : LsmrKw S W W} {lim : Int} {normb : S} {s t : LsmrLoop S Nat Nat}
    {g g' : Heap W} (h : lsmrStepH A AT M N kw lim normb s g = (.ok t, g')) : t.itn = s.itn + 1 := by
  unfold lsmrStepH at h
  obtain ⟨⟨Mu, u, Nv, v, alpha, beta, p⟩, _, -, h⟩ := heapE_bind_ok h
  obtain ⟨r, _, -, h⟩ := heapE_bind_ok h
  obtain ⟨⟨hbar, x, hh⟩, _, -, h⟩ := heapE_bind_ok h
  obtain ⟨_, _, -, h⟩ := heapE_bind_ok h
  obtain ⟨_, _, -, h⟩ := heapE_bind_ok h
  obtain ⟨⟨betadd, thetatilde, rhodold, betad, tautildeold, d, normr⟩, _, -, h⟩ := heapE_bind_ok h
  obtain ⟨_, _, -, h⟩ := heapE_bind_ok h
  obtain ⟨_, _, -, h⟩ := heapE_bind_ok h
  obtain ⟨_, _, -, h⟩ := heapE_bind_ok h
  cases h
  rfl

/-- the loop, `lsmr.py:303-475` -/
def lsmrLoopH (A AT : HOp W) (M N : Option (HOp W)) (kw : LsmrKw S W W) (lim : Int) (normb : S) (s : LsmrLoop S Nat Nat) :
    HeapE W (LsmrLoop S Nat Nat) :=
  heapLoop (lsmrContH lim) (lsmrStepH A AT M N kw lim normb) (fun s => (lim - s.itn).toNat)
    (fun s g t g' h ht h' => by
      have := lsmrStepH_itn ht
      simp only [lsmrContH, Bool.and_eq_true, decide_eq_true_eq] at h h'
      omega) s

/-- `if store_resids`, `lsmr.py:298-300` -/
def lsmrFirstH (storeResids : Bool) (s : LsmrLoop S Nat Nat) : LsmrLoop S Nat Nat :=
  if storeResids then { s with resids := [s.normr], normalEqns := [s.normar] } else s

/-- the returned values and the lists; `selfX` is the attribute `x` after the call -/
def lsmrResultH (selfX : Option Nat) (s : LsmrLoop S Nat Nat) : LsmrRes S Nat :=
  { x := s.x, istop := s.istop, itn := s.itn, normr := s.normr, normar := s.normar, normA := s.normA, condA := s.condA,
    normx := s.normx, selfX := selfX, resids := s.resids, normalEqns := s.normalEqns, norms := s.norms,
    dirErrors := s.dirErrors, iterates := s.iterates }

/-- lines 284-287 and 298-491 -/
def lsmrMainH (A AT : HOp W) (M N : Option (HOp W)) (kw : LsmrKw S W W) (lim : Int) (selfX : Option Nat) (s : LsmrLoop S Nat Nat) :
    HeapE W (LsmrRes S Nat × LsmrLoop S Nat Nat) :=
  if feq s.normar (lit 0) then pure (lsmrResultH selfX s, s)
  else do
    let t ← lsmrLoopH A AT M N kw lim s.beta (lsmrFirstH kw.storeResids s)
    return (lsmrResultH (some t.x) t, t)

/-- `LSMRFramework.solve(b, ...)`, `lsmr.py:64-492`.  `b` and `selfX` are addresses; `M` and `N` are the preconditioners, and those
in `kw` are not used. -/
def lsmrSolveH (A AT : HOp W) (m n : Nat) (b : Nat) (M N : Option (HOp W)) (kw : LsmrKw S W W) (selfX : Option Nat) :
    HeapE W (LsmrRes S Nat × LsmrLoop S Nat Nat) := do
  let s ← lsmrInitH AT M N kw b
  lsmrMainH A AT M N kw (lsmrLimit m n kw.itnlim) selfX s

/-! ### Arrays that existed before are not modified -/

theorem lsmrInitH_keeps (AT : HOp W) (M N : Option (HOp W)) (kw : LsmrKw S W W) (b : Nat) (h0 : Heap W) :
    Keeps h0 (lsmrInitH AT M N kw b) (fun s => h0.next ≤ s.x) := by
  unfold lsmrInitH
  refine .bind .new fun _ _ => .bind (bidiagStartH_keeps (S := S) h0 AT M N b) ?_
  rintro ⟨Mu, u, beta, vs, alpha, products⟩ -
  exact .bind .rd fun _ _ => .bind .new fun _ _ => .bind .new fun _ _ => .bind .new fun x hx => .bind .append fun _ _ => .pure hx

theorem lsmrVectorsH_keeps (r : LsmrRot S) (s : LsmrLoop S Nat Nat) (v : Nat) (h0 : Heap W) :
    Keeps h0 (lsmrVectorsH (W := W) r s v) (fun t => h0.next ≤ t.2.1) := by
  unfold lsmrVectorsH
  exact .bind .exc fun _ _ => .bind .rd fun _ _ => .bind .rd fun _ _ => .bind .new fun _ _ => .bind .exc fun _ _ =>
    .bind .rd fun _ _ => .bind .rd fun _ _ => .bind .new fun x hx => .bind .exc fun _ _ =>
    .bind .rd fun _ _ => .bind .rd fun _ _ => .bind .new fun _ _ => .pure hx

theorem lsmrStepH_keeps (A AT : HOp W) (M N : Option (HOp W)) (kw : LsmrKw S W W) (lim : Int) (normb : S) (s : LsmrLoop S Nat Nat)
    (h0 : Heap W) : Keeps h0 (lsmrStepH A AT M N kw lim normb s) (fun s => h0.next ≤ s.x) := by
  unfold lsmrStepH
  refine .bind (bidiagStepH_keeps h0 A AT M N _ _ _ _) ?_
  rintro ⟨Mu, u, Nv, v, alpha, beta, p⟩ -
  refine .bind .exc fun r _ => .bind (lsmrVectorsH_keeps r s v h0) ?_
  rintro ⟨hbar, x, hh⟩ hx
  refine .bind .append fun _ _ => .bind .exc fun _ _ => .bind .exc ?_
  rintro ⟨betadd, thetatilde, rhodold, betad, tautildeold, d, normr⟩ -
  exact .bind .exc fun _ _ => .bind .rd fun _ _ => .bind .exc fun _ _ => .pure hx

theorem lsmrSolveH_keeps (A AT : HOp W) (m n : Nat) (b : Nat) (M N : Option (HOp W)) (kw : LsmrKw S W W) (selfX : Option Nat)
    (h0 : Heap W) : Keeps h0 (lsmrSolveH A AT m n b M N kw selfX) (fun r => h0.next ≤ r.1.x) := by
  unfold lsmrSolveH lsmrMainH
  refine .bind (lsmrInitH_keeps AT M N kw b h0) fun s hs => .ite (fun _ => .pure hs) fun _ =>
    .bind (Q := fun t => h0.next ≤ t.x) ?_ fun t ht => .pure ht
  refine heapLoop_keeps _ (fun s _ => lsmrStepH_keeps A AT M N kw _ _ s h0) _ ?_
  unfold lsmrFirstH
  split <;> exact hs

/-! ### Refinement -/

/-- all arrays of the loop exist -/
structure LsmrOk (s : LsmrLoop S Nat Nat) (h : Heap W) : Prop where
  x : s.x < h.next
  Mu : s.Mu < h.next
  Nv : ∀ k, s.Nv = some k → k < h.next
  v : s.v < h.next
  vh : s.h < h.next
  vhbar : s.hbar < h.next
  its : ∀ k ∈ s.iterates, k < h.next

theorem lsmrBidiag_form (A AT : W → W) (kw : LsmrKw S W W) (s : LsmrLoop S W W) :
    lsmrBidiag A AT kw s = bidiagStep A AT kw.M kw.N s.Mu s.Nv s.v s.alpha >>= fun r =>
      .ok (r.1, r.2.2.1, r.2.2.2.1, r.2.2.2.2.1, r.2.2.2.2.2.1, s.products + r.2.2.2.2.2.2) := by
  unfold lsmrBidiag bidiagStep
  dsimp only
  rw [ebind_assoc]
  refine ebind_congr fun beta => ?_
  cases gt beta (lit 0) with
  | false => rfl
  | true =>
    simp only [if_true]
    rw [ebind_assoc]
    refine ebind_congr fun Nv => ?_
    rw [ebind_assoc]
    refine ebind_congr fun alpha => ?_
    cases gt alpha (lit 0) <;> rfl

theorem lsmrInit_form (AT : W → W) (kw : LsmrKw S W W) (b : W) :
    lsmrInit AT kw b = bidiagStart AT kw.M kw.N b >>= fun r =>
      .ok (lsmrStart kw r.2.2.1 r.1 (r.2.2.2.1.map Prod.snd) ((r.2.2.2.1.map Prod.fst).getD zeros) r.2.2.2.2.1 r.2.2.2.2.2) := by
  unfold lsmrInit bidiagStart
  dsimp only
  rw [ebind_assoc]
  refine ebind_congr fun beta => ?_
  cases gt beta (lit 0) with
  | false => rfl
  | true =>
    simp only [if_true]
    rw [ebind_assoc]
    refine ebind_congr fun alpha => ?_
    cases gt alpha (lit 0) <;> rfl

theorem lsmrInitH_sim (AT : HOp W) (hAT : ∀ h l, AT.same h l = false) (M N : Option (HOp W)) (hM : ReturnsNew M) (hN : ReturnsNew N)
    (kw : LsmrKw S W W) (b : Nat) (h : Heap W) (hb : b < h.next) :
    SimE h (lsmrInitH AT M N kw b) (lsmrInit AT.fn (kw.with M N) (h.mem b)) (fun t t' h' => t' = t.at h' ∧ h.Ext h' ∧ LsmrOk t h') := by
  rw [lsmrInit_form]
  unfold lsmrInitH
  refine .new ?_
  have e1 := h.ext_alloc (zeros : W)
  have m1 : (h.alloc (zeros : W)).mem h.next = zeros := h.mem_alloc_self _
  have n1 : (h.alloc (zeros : W)).next = h.next + 1 := rfl
  generalize h.alloc (zeros : W) = h1 at e1 m1 n1 ⊢
  have key := bidiagStartH_sim (S := S) AT hAT M N hM hN b h1
  rw [e1.mem b hb] at key
  refine .bind key ?_
  rintro ⟨Mu, u, beta, vs, alpha, p⟩ ⟨Mu', u', beta', vs', alpha', p'⟩ h2 ⟨q1, q2, q3, q4, q5, q6, q7, q8, q9, q10⟩
  simp only at q2 q3 q4 q5 q6 q7 q8 q9 q10
  subst q2 q4 q6 q7 q5
  have qn := q1.next
  have hv : (vs.map Prod.fst).getD h.next < h2.next ∧
      h2.mem ((vs.map Prod.fst).getD h.next) = ((vs.map fun p => (h2.mem p.1, h2.mem p.2)).map Prod.fst).getD zeros := by
    rcases vs with _ | ⟨v, Nv⟩
    · exact ⟨by change h.next < h2.next; omega, by change h2.mem h.next = zeros; rw [q1.mem _ (by omega), m1]⟩
    · exact ⟨(q10 v Nv rfl).1.2, rfl⟩
  have hNv : ∀ k, vs.map Prod.snd = some k → k < h2.next := by
    rcases vs with _ | ⟨v, Nv⟩
    · intro k hk; cases hk
    · intro k hk; cases hk; exact (q10 v Nv rfl).2.2
  dsimp only
  generalize (vs.map Prod.fst).getD h.next = v at hv ⊢
  refine .rd (.new (.new (.new (.append ?_))))
  have e3 := h2.ext_alloc (h2.mem v)
  have m3 : (h2.alloc (h2.mem v)).mem h2.next = h2.mem v := h2.mem_alloc_self _
  have n3 : (h2.alloc (h2.mem v)).next = h2.next + 1 := rfl
  generalize h2.alloc (h2.mem v) = h3 at e3 m3 n3 ⊢
  have e4 := h3.ext_alloc (zeros : W)
  have m4 : (h3.alloc (zeros : W)).mem h3.next = zeros := h3.mem_alloc_self _
  have n4 : (h3.alloc (zeros : W)).next = h3.next + 1 := rfl
  generalize h3.alloc (zeros : W) = h4 at e4 m4 n4 ⊢
  have e5 := h4.ext_alloc (zeros : W)
  have m5 : (h4.alloc (zeros : W)).mem h4.next = zeros := h4.mem_alloc_self _
  have n5 : (h4.alloc (zeros : W)).next = h4.next + 1 := rfl
  generalize h4.alloc (zeros : W) = h5 at e5 m5 n5 ⊢
  obtain ⟨a1, a2⟩ := appendCopy_next kw.storeIterates [] h4.next h5
  have a3 := appendCopy_map kw.storeIterates [] h4.next h5 (fun k hk => by cases hk)
  generalize (appendCopy kw.storeIterates [] h4.next h5).1 = its at a2 a3 ⊢
  generalize (appendCopy kw.storeIterates [] h4.next h5).2 = h6 at a1 a2 a3 ⊢
  have an := a1.next
  rw [m5] at a3
  have old : ∀ k < h2.next, h6.mem k = h2.mem k := fun k hk => by
    rw [a1.mem _ (by omega), e5.mem _ (by omega), e4.mem _ (by omega), e3.mem _ hk]
  refine .pure ⟨?_, ((((e1.trans q1).trans e3).trans e4).trans e5).trans a1, ?_⟩
  · have c1 : h6.mem h2.next = h2.mem v := by rw [a1.mem _ (by omega), e5.mem _ (by omega), e4.mem _ (by omega), m3]
    have c2 : h6.mem h3.next = (zeros : W) := by rw [a1.mem _ (by omega), e5.mem _ (by omega), m4]
    have c3 : h6.mem h4.next = (zeros : W) := by rw [a1.mem _ (by omega), m5]
    have c4 : (vs.map Prod.snd).map h6.mem = (vs.map fun p => (h2.mem p.1, h2.mem p.2)).map Prod.snd := by
      rcases vs with _ | ⟨v, Nv⟩
      · rfl
      · simp only [Option.map_some, old Nv (hNv Nv rfl)]
    simp only [LsmrLoop.at, lsmrStart, c1, c2, c3, c4, a3, old _ hv.1, old _ q8.2, hv.2]
    rfl
  · exact ⟨by simp only; omega, by simp only; omega, fun k hk => by have := hNv k hk; omega, by simp only; omega, by simp only; omega,
      by simp only; omega, fun k hk => by
        rcases a2 k hk with h1 | h1
        · cases h1
        · exact h1.2⟩

theorem lsmrVectorsH_sim (r : LsmrRot S) (s : LsmrLoop S Nat Nat) (v : Nat) (h : Heap W) (hx : s.x < h.next) (hh : s.h < h.next)
    (hv : v < h.next) (s' : LsmrLoop S W W) (hs : s' = s.at h) :
    SimE h (lsmrVectorsH r s v) (lsmrVectors r s' (h.mem v)) (fun t t' h' => h.Ext h' ∧ h'.mem t.1 = t'.1 ∧ h'.mem t.2.1 = t'.2.1 ∧
      h'.mem t.2.2 = t'.2.2 ∧ t.1 < h'.next ∧ t.2.1 < h'.next ∧ t.2.2 < h'.next) := by
  subst hs
  unfold lsmrVectorsH lsmrVectors
  refine .exc fun q1 _ => .rd (.rd (.new ?_))
  obtain ⟨vb, hvb⟩ : ∃ d, d = h.mem s.h - smul q1 (h.mem s.hbar) := ⟨_, rfl⟩
  rw [← hvb]
  have e1 := h.ext_alloc vb
  have m1 : (h.alloc vb).mem h.next = vb := h.mem_alloc_self _
  have n1 : (h.alloc vb).next = h.next + 1 := rfl
  generalize h.alloc vb = h1 at e1 m1 n1 ⊢
  refine .exc fun q2 _ => .rd (.rd (.new ?_))
  rw [m1, e1.mem _ hx]
  obtain ⟨vx, hvx⟩ : ∃ d, d = h.mem s.x + smul q2 vb := ⟨_, rfl⟩
  rw [← hvx]
  have e2 := h1.ext_alloc vx
  have m2 : (h1.alloc vx).mem h1.next = vx := h1.mem_alloc_self _
  have n2 : (h1.alloc vx).next = h1.next + 1 := rfl
  generalize h1.alloc vx = h2 at e2 m2 n2 ⊢
  refine .exc fun q3 _ => .rd (.rd (.new ?_))
  rw [e2.mem v (by omega), e1.mem v hv, e2.mem s.h (by omega), e1.mem s.h hh]
  obtain ⟨vh, hvh⟩ : ∃ d, d = h.mem v - smul q3 (h.mem s.h) := ⟨_, rfl⟩
  rw [← hvh]
  have e3 := h2.ext_alloc vh
  have m3 : (h2.alloc vh).mem h2.next = vh := h2.mem_alloc_self _
  have n3 : (h2.alloc vh).next = h2.next + 1 := rfl
  generalize h2.alloc vh = h3 at e3 m3 n3 ⊢
  subst hvb hvx hvh
  exact .pure ⟨(e1.trans e2).trans e3, by simp only; rw [e3.mem _ (by omega), e2.mem _ (by omega), m1]; rfl,
    by simp only; rw [e3.mem _ (by omega), m2]; rfl, m3, by simp only; omega, by simp only; omega, by simp only; omega⟩

theorem lsmrStepH_sim (A AT : HOp W) (M N : Option (HOp W)) (hM : ReturnsNew M) (hN : ReturnsNew N) (kw : LsmrKw S W W) (lim : Int)
    (normb : S) (s : LsmrLoop S Nat Nat) (h : Heap W) (hs : LsmrOk s h) :
    SimE h (lsmrStepH A AT M N kw lim normb s) (lsmrStep A.fn AT.fn (kw.with M N) lim normb (s.at h))
      (fun t t' h' => t' = t.at h' ∧ h.Ext h' ∧ LsmrOk t h') := by
  unfold lsmrStepH lsmrStep
  dsimp only
  rw [lsmrBidiag_form, ebind_assoc]
  refine .bind (bidiagStepH_sim A AT M N hM hN s.Mu s.Nv s.v s.alpha h hs.Mu hs.Nv hs.v) ?_
  rintro ⟨Mu, u, Nv, v, alpha, beta, p⟩ ⟨Mu', u', Nv', v', alpha', beta', p'⟩ h1 ⟨q1, q2, q3, q4, q5, q6, q7, q8, q9, q10, q11⟩
  simp only at q2 q3 q4 q5 q6 q7 q8 q9 q10 q11
  subst q2 q6 q7 q8 q5 q4
  have qn := q1.next
  have l1 := hs.x; have l2 := hs.Mu; have l3 := hs.v; have l4 := hs.vh; have l5 := hs.vhbar
  have hNv : ∀ k, Nv = some k → k < h1.next := fun k hk => by
    rcases q11 with ⟨h2, -⟩ | ⟨Nv1, h2, h3, -⟩
    · have := hs.Nv k (by rw [← h2, hk]); omega
    · rw [h2] at hk; cases hk; exact h3.2
  have hv : v < h1.next := by
    rcases q11 with ⟨-, h2⟩ | ⟨Nv1, h2, -, h3⟩
    · omega
    · exact h3.2
  refine .exc fun r _ => ?_
  have hss : s.at h = { s.at h1 with Nv := s.Nv.map h.mem, iterates := s.iterates.map h.mem, Mu := h.mem s.Mu, v := h.mem s.v } := by
    simp only [LsmrLoop.at, q1.mem _ l1, q1.mem _ l4, q1.mem _ l5]
  have hvec : lsmrVectors r (s.at h) (h1.mem v) = lsmrVectors r (s.at h1) (h1.mem v) := by rw [hss]; rfl
  change SimE h1 _ (lsmrVectors r (s.at h) (h1.mem v) >>= _) _
  rw [hvec]
  refine .bind (lsmrVectorsH_sim r s v h1 (by omega) (by omega) hv _ rfl) ?_
  rintro ⟨hbar, x, hh⟩ ⟨hbar', x', hh'⟩ h2 ⟨r1, r2, r3, r4, r5, r6, r7⟩
  simp only at r2 r3 r4 r5 r6 r7
  subst r2 r3 r4
  have rn := r1.next
  refine .append ?_
  have hits : ∀ k ∈ s.iterates, k < h2.next := fun k hk => by have := hs.its k hk; omega
  obtain ⟨a1, a2⟩ := appendCopy_next kw.storeIterates s.iterates x h2
  have a3 := appendCopy_map kw.storeIterates s.iterates x h2 hits
  generalize (appendCopy kw.storeIterates s.iterates x h2).1 = its at a2 a3 ⊢
  generalize (appendCopy kw.storeIterates s.iterates x h2).2 = h3 at a1 a2 a3 ⊢
  have an := a1.next
  have hm : s.iterates.map h2.mem = s.iterates.map h.mem := List.map_congr_left fun k hk => by
    rw [r1.mem k (by have := hs.its k hk; omega), q1.mem k (hs.its k hk)]
  rw [hm] at a3
  refine .exc fun k _ => .exc ?_
  rintro ⟨betadd, thetatilde, rhodold, betad, tautildeold, d, normr⟩ -
  refine .exc fun condA _ => .rd ?_
  have c1 : h3.mem x = h2.mem x := a1.mem _ r6
  have c2 : h3.mem hbar = h2.mem hbar := a1.mem _ r5
  have c3 : h3.mem hh = h2.mem hh := a1.mem _ r7
  have c4 : h3.mem v = h1.mem v := by rw [a1.mem _ (by omega), r1.mem _ hv]
  have c5 : h3.mem Mu = h1.mem Mu := by rw [a1.mem _ (by omega), r1.mem _ q9.2]
  have c6 : Nv.map h3.mem = Nv.map h1.mem := by
    rcases Nv with _ | Nv0
    · rfl
    · have := hNv Nv0 rfl
      simp only [Option.map_some]
      rw [a1.mem _ (by omega), r1.mem _ this]
  rw [c1]
  refine .exc fun tests _ => .pure ⟨?_, (q1.trans r1).trans a1, ?_⟩
  · simp only [LsmrLoop.at, LsmrKw.with, c1, c2, c3, c4, c5, c6, a3]
    rfl
  · exact ⟨by simp only; omega, by simp only; omega, fun k hk => by have := hNv k hk; omega, by simp only; omega, by simp only; omega,
      by simp only; omega, fun k hk => by
        rcases a2 k hk with h1 | h1
        · have := hits k h1; omega
        · exact h1.2⟩

theorem lsmrSolveH_sim (A AT : HOp W) (hAT : ∀ h l, AT.same h l = false) (m n : Nat) (b : Nat) (M N : Option (HOp W))
    (hM : ReturnsNew M) (hN : ReturnsNew N) (kw : LsmrKw S W W) (selfX : Option Nat) (h : Heap W) (hb : b < h.next)
    (hx : ∀ k, selfX = some k → k < h.next) :
    SimE h (lsmrSolveH A AT m n b M N kw selfX) (lsmrSolve A.fn AT.fn m n (h.mem b) (kw.with M N) (selfX.map h.mem))
      (fun r r' h' => r' = (r.1.at h', r.2.at h')) := by
  unfold lsmrSolveH lsmrSolve
  refine .bind (lsmrInitH_sim AT hAT M N hM hN kw b h hb) ?_
  rintro s s' h1 ⟨rfl, he, hs⟩
  unfold lsmrMainH lsmrMain
  refine .ite (fun _ => .pure ?_) fun _ => ?_
  · have : selfX.map h.mem = selfX.map h1.mem := by
      rcases selfX with _ | k
      · rfl
      · simp only [Option.map_some, he.mem k (hx k rfl)]
    rw [this]
    rfl
  refine .bind (R := fun t t' h' => t' = t.at h' ∧ LsmrOk t h') ?_ ?_
  · unfold lsmrLoopH lsmrLoop
    refine heapLoop_sim (fun t t' h' => t' = t.at h' ∧ LsmrOk t h') ?_ ?_ _ _ h1 ⟨?_, ?_⟩
    · rintro s t g ⟨rfl, -⟩
      rfl
    · rintro s t g ⟨rfl, hs⟩ -
      exact (lsmrStepH_sim A AT M N hM hN kw _ _ s g hs).mono fun a b h' hab => ⟨hab.1, hab.2.2⟩
    · unfold lsmrFirst lsmrFirstH LsmrKw.with
      cases kw.storeResids <;> rfl
    · unfold lsmrFirstH
      split
      · exact ⟨hs.x, hs.Mu, hs.Nv, hs.v, hs.vh, hs.vhbar, hs.its⟩
      · exact hs
  · rintro t t' h' ⟨rfl, ht⟩
    exact .pure rfl

end Verif.Solver
