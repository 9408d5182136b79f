import Verif.Solver.HeapLSQR
import Verif.Solver.CraigMR

/-!
# `CRAIGMRFramework.solve` on the heap

A second model of `craigmr.py:51-250`, with arrays as addresses; scalars are treated as in `Verif.Solver.CraigMR`.
-/

namespace Verif.Solver
open Scalar Vect

variable {S W : Type} [Scalar S] [Vect S W]

/-- the contents of the arrays of a state whose vectors are addresses -/
def CraigmrLoop.at (s : CraigmrLoop S Nat Nat) (h : Heap W) : CraigmrLoop S W W :=
  { x := h.mem s.x, Mu := h.mem s.Mu, Nv := s.Nv.map h.mem, v := h.mem s.v, alpha := s.alpha, c := s.c, s := s.s, d := h.mem s.d,
    dbar := h.mem s.dbar, theta := s.theta, alphaTilde := s.alphaTilde, zetaHat := s.zetaHat, xNrgNorm2 := s.xNrgNorm2,
    dErr := s.dErr, istop := s.istop, itn := s.itn, norms := s.norms, normalEqns := s.normalEqns, dirErrors := s.dirErrors,
    iterates := s.iterates.map h.mem, products := s.products }

/-- the contents of the arrays of a result -/
def CraigmrRes.at (r : CraigmrRes S Nat) (h : Heap W) : CraigmrRes S W :=
  { x := h.mem r.x, istop := r.istop, itn := r.itn, nMatvec := r.nMatvec, optimal := r.optimal, status := r.status, norms := r.norms,
    normalEqns := r.normalEqns, dirErrors := r.dirErrors, iterates := r.iterates.map h.mem }

/-- keywords with preconditioners as operators on arrays, seen as keywords with functions on values -/
def CraigmrKw.with (kw : CraigmrKw S W W) (M N : Option (HOp W)) : CraigmrKw S W W := { kw with M := HOp.fn? M, N := HOp.fn? N }

/-- the variables before the loop, `craigmr.py:102-125`; `b.squeeze()` (line 63) is a view of `b`, which is only read -/
def craigmrStartH (kw : CraigmrKw S W W) (Mu u : Nat) (beta : S) (Nv : Option Nat) (v : Nat) (alpha : S) (products : Nat) :
    HeapE W (CraigmrLoop S Nat Nat) := do
  let alphaHat := sqrt (alpha * alpha + lit 1)
  let c ← hexc (pydiv alpha alphaHat)
  let s ← hexc (pydiv (lit 1) alphaHat)
  let d ← hnew (vdiv (← hrd u) alphaHat)                   -- d = u / alpha_hat
  let dbar ← hnew zeros                                    -- dbar = zeros(m)
  let x ← hnew zeros                                       -- x = zeros(m)
  let iterates ← happend kw.storeIterates [] x             -- self.iterates.append(x.copy())
  return { x := x, Mu := Mu, Nv := Nv, v := v, alpha := alpha, c := c, s := s, d := d, dbar := dbar,
           theta := lit 0, alphaTilde := alphaHat, zetaHat := beta, xNrgNorm2 := lit 0,
           dErr := List.replicate kw.window (lit 0), istop := 0, itn := 0, norms := if kw.storeResids then [lit 0] else [],
           normalEqns := [], dirErrors := [], iterates := iterates, products := products }

/-- one iteration, `craigmr.py:128-212` -/
def craigmrStepH (A AT : HOp W) (M N : Option (HOp W)) (kw : CraigmrKw S W W) (lim : Int) (s : CraigmrLoop S Nat Nat) :
    HeapE W (CraigmrLoop S Nat Nat) := do
  let itn := s.itn + 1
  let (Mu, u, Nv, v, alpha, beta, p) ← bidiagStepH A AT M N s.Mu s.Nv s.v s.alpha
  let (betaHat, alphaHat, c, sn) ← hexc (craigmrRot s.c s.s alpha beta)
  let rho := sqrt (s.alphaTilde * s.alphaTilde + betaHat * betaHat)
  let cHat ← hexc (pydiv s.alphaTilde rho)
  let sHat ← hexc (pydiv betaHat rho)
  let dbar ← hnew (vdiv ((← hrd s.d) - smul s.theta (← hrd s.dbar)) rho)    -- dbar = (d - theta * dbar) / rho
  let theta := sHat * alphaHat
  let alphaTilde := -cHat * alphaHat
  let zeta := cHat * s.zetaHat
  let zetaHat := sHat * s.zetaHat
  let xNrgNorm2 := s.xNrgNorm2 + zeta * zeta
  let d ← hnew (vdiv ((← hrd u) - smul betaHat (← hrd s.d)) alphaHat)       -- d = (u - beta_hat * d) / alpha_hat
  hwr s.x ((← hrd s.x) + smul zeta (← hrd dbar))                            -- x += zeta * dbar
  let iterates ← happend kw.storeIterates s.iterates s.x                    -- self.iterates.append(x.copy())
  let k ← hexc (pymod itn kw.window)
  let dErr := s.dErr.set k zeta
  let trnc := normList dErr
  let xNrgNorm := sqrt xNrgNorm2
  let direct := decide (itn > kw.window) && lt trnc (kw.etol * xNrgNorm)
  return { x := s.x, Mu := Mu, Nv := Nv, v := v, alpha := alpha, c := c, s := sn, d := d, dbar := dbar, theta := theta,
           alphaTilde := alphaTilde, zetaHat := zetaHat, xNrgNorm2 := xNrgNorm2, dErr := dErr,
           istop := craigmrStop lim itn direct, itn := itn,
           norms := if kw.storeResids then s.norms ++ [xNrgNorm2] else s.norms,
           normalEqns := if kw.storeResids then s.normalEqns ++ [Scalar.abs zeta] else s.normalEqns,
           dirErrors := if itn > kw.window then s.dirErrors ++ [trnc / xNrgNorm] else s.dirErrors,
           iterates := iterates, products := s.products + p }

/-- the loop condition, `craigmr.py:128, 212` -/
def craigmrContH (lim : Int) (s : CraigmrLoop S Nat Nat) : Bool := decide (s.istop = 0) && decide ((s.itn : Int) < lim)

theorem craigmrStepH_itn {A AT : HOp W} {M N : Option (HOp W)} {kw : CraigmrKw S W W} {lim : Int} {s t : CraigmrLoop S Nat Nat}
    {g g' : Heap W} (h : craigmrStepH A AT M N kw lim s g = (.ok t, g')) : t.itn = s.itn + 1 := by
  unfold craigmrStepH at h
  obtain ⟨⟨Mu, u, Nv, v, alpha, beta, p⟩, _, -, h⟩ := heapE_bind_ok h
  obtain ⟨⟨betaHat, alphaHat, c, sn⟩, _, -, h⟩ := heapE_bind_ok h
  obtain ⟨_, _, -, h⟩ := heapE_bind_ok h
  obtain ⟨_, _, -, h⟩ := heapE_bind_ok h
  obtain ⟨_, _, -, h⟩ := heapE_bind_ok h
  obtain ⟨_, _, -, h⟩ := heapE_bind_ok h
  obtain ⟨_, _, -, h⟩ := heapE_bind_ok h
  obtain ⟨_, _, -, h⟩ := heapE_bind_ok h
  obtain ⟨_, _, -, h⟩ := heapE_bind_ok h
  obtain ⟨_, _, -, h⟩ := heapE_bind_ok h
  obtain ⟨_, _, -, h⟩ := heapE_bind_ok h
  obtain ⟨_, _, -, h⟩ := heapE_bind_ok h
  obtain ⟨_, _, -, h⟩ := heapE_bind_ok h
  obtain ⟨_, _, -, h⟩ := heapE_bind_ok h
  obtain ⟨_, _, -, h⟩ := heapE_bind_ok h
  cases h
  rfl

/-- the loop, `craigmr.py:128-212` -/
def craigmrLoopH (A AT : HOp W) (M N : Option (HOp W)) (kw : CraigmrKw S W W) (lim : Int) (s : CraigmrLoop S Nat Nat) :
    HeapE W (CraigmrLoop S Nat Nat) :=
  heapLoop (craigmrContH lim) (craigmrStepH A AT M N kw lim) (fun s => (lim - s.itn).toNat)
    (fun s g t g' h ht h' => by
      have := craigmrStepH_itn ht
      simp only [craigmrContH, Bool.and_eq_true, decide_eq_true_eq] at h h'
      omega) s

/-- the attributes set at the end, `craigmr.py:232-241` -/
def craigmrResultH (s : CraigmrLoop S Nat Nat) : CraigmrRes S Nat :=
  { x := s.x, istop := s.istop, itn := s.itn, nMatvec := 2 * s.itn, optimal := decide (s.istop ∈ [1, 2, 4, 5, 8]),
    status := lsqrStatus s.istop, norms := s.norms, normalEqns := s.normalEqns, dirErrors := s.dirErrors, iterates := s.iterates }

/-- `CRAIGMRFramework.solve(b, ...)`, `craigmr.py:51-250`, for an operator of shape `(m, n)`.  `b` is an address; `M` and `N` are the
preconditioners, and those in `kw` are not used. -/
def craigmrSolveH (A AT : HOp W) (m n : Nat) (b : Nat) (M N : Option (HOp W)) (kw : CraigmrKw S W W) :
    HeapE W (CraigmrRes S Nat × CraigmrLoop S Nat Nat) := do
  let v0 ← hnew zeros                                      -- v = zeros(n)
  let (Mu, u, beta, vs, alpha, products) ← bidiagStartH AT M N b
  let s ← craigmrStartH kw Mu u beta (vs.map Prod.snd) ((vs.map Prod.fst).getD v0) alpha products
  let s ← craigmrLoopH A AT M N kw (craigmrLimit m n kw.itnlim) s
  return (craigmrResultH s, s)

/-! ### Arrays that existed before are not modified -/

theorem craigmrStartH_keeps (kw : CraigmrKw S W W) (Mu u : Nat) (beta : S) (Nv : Option Nat) (v : Nat) (alpha : S) (products : Nat)
    (h0 : Heap W) : Keeps h0 (craigmrStartH kw Mu u beta Nv v alpha products) (fun s => h0.next ≤ s.x) := by
  unfold craigmrStartH
  exact .bind .exc fun _ _ => .bind .exc fun _ _ => .bind .rd fun _ _ => .bind .new fun _ _ => .bind .new fun _ _ =>
    .bind .new fun x hx => .bind .append fun _ _ => .pure hx

theorem craigmrStepH_keeps (A AT : HOp W) (M N : Option (HOp W)) (kw : CraigmrKw S W W) (lim : Int) (s : CraigmrLoop S Nat Nat)
    (h0 : Heap W) (hs : h0.next ≤ s.x) : Keeps h0 (craigmrStepH A AT M N kw lim s) (fun s => h0.next ≤ s.x) := by
  unfold craigmrStepH
  refine .bind (bidiagStepH_keeps h0 A AT M N _ _ _ _) ?_
  rintro ⟨Mu, u, Nv, v, alpha, beta, p⟩ -
  refine .bind .exc ?_
  rintro ⟨betaHat, alphaHat, c, sn⟩ -
  exact .bind .exc fun _ _ => .bind .exc fun _ _ => .bind .rd fun _ _ => .bind .rd fun _ _ => .bind .new fun _ _ =>
    .bind .rd fun _ _ => .bind .rd fun _ _ => .bind .new fun _ _ => .bind .rd fun _ _ => .bind .rd fun _ _ =>
    .bind (.wr hs) fun _ _ => .bind .append fun _ _ => .bind .exc fun _ _ => .pure hs

theorem craigmrSolveH_keeps (A AT : HOp W) (m n : Nat) (b : Nat) (M N : Option (HOp W)) (kw : CraigmrKw S W W) (h0 : Heap W) :
    Keeps h0 (craigmrSolveH A AT m n b M N kw) (fun t => h0.next ≤ t.1.x) := by
  unfold craigmrSolveH
  refine .bind .new fun _ _ => .bind (bidiagStartH_keeps (S := S) h0 AT M N b) ?_
  rintro ⟨Mu, u, beta, vs, alpha, products⟩ -
  exact .bind (craigmrStartH_keeps kw Mu u beta _ _ alpha products h0) fun s hs =>
    .bind (heapLoop_keeps _ (fun s hs => craigmrStepH_keeps A AT M N kw _ s h0 hs) s hs) fun s hs => .pure hs

/-! ### Refinement -/

theorem craigmrVectors_form (AT : W → W) (kw : CraigmrKw S W W) (b : W) :
    craigmrVectors AT kw b = bidiagStart AT kw.M kw.N b >>= fun r =>
      .ok (r.1, r.2.1, r.2.2.1, r.2.2.2.1.map Prod.snd, (r.2.2.2.1.map Prod.fst).getD zeros, r.2.2.2.2.1, r.2.2.2.2.2) := by
  unfold craigmrVectors bidiagStart
  dsimp only
  rw [ebind_assoc]
  refine ebind_congr fun beta => ?_
  cases gt beta (lit 0) with
  | false => rfl
  | true =>
    simp only [if_true]
    rw [ebind_assoc]
    refine ebind_congr fun alpha => ?_
    cases gt alpha (lit 0) <;> rfl

theorem craigmrBidiag_form (A AT : W → W) (kw : CraigmrKw S W W) (s : CraigmrLoop S W W) :
    craigmrBidiag A AT kw s = bidiagStep A AT kw.M kw.N s.Mu s.Nv s.v s.alpha >>= fun r =>
      .ok (r.1, r.2.1, r.2.2.1, r.2.2.2.1, r.2.2.2.2.1, r.2.2.2.2.2.1, s.products + r.2.2.2.2.2.2) := by
  unfold craigmrBidiag bidiagStep
  dsimp only
  rw [ebind_assoc]
  refine ebind_congr fun beta => ?_
  cases gt beta (lit 0) with
  | false => rfl
  | true =>
    simp only [if_true]
    rw [ebind_assoc]
    refine ebind_congr fun Nv => ?_
    rw [ebind_assoc]
    refine ebind_congr fun alpha => ?_
    cases gt alpha (lit 0) <;> rfl

/-- the arrays of the loop: all exist, and `x` is shared with nothing -/
structure CraigmrOk (s : CraigmrLoop S Nat Nat) (h : Heap W) : Prop where
  x : s.x < h.next
  Mu : s.Mu < h.next ∧ s.Mu ≠ s.x
  Nv : ∀ k, s.Nv = some k → k < h.next ∧ k ≠ s.x
  v : s.v < h.next ∧ s.v ≠ s.x
  d : s.d < h.next ∧ s.d ≠ s.x
  dbar : s.dbar < h.next ∧ s.dbar ≠ s.x
  its : ∀ k ∈ s.iterates, k < h.next ∧ k ≠ s.x

theorem craigmrStartH_sim (M N : Option (HOp W)) (kw : CraigmrKw S W W) (Mu u : Nat) (beta : S) (Nv : Option Nat) (v : Nat) (alpha : S)
    (products : Nat) (h : Heap W) (hMu : Mu < h.next) (hv : v < h.next) (hNv : ∀ k, Nv = some k → k < h.next) :
    SimE h (craigmrStartH kw Mu u beta Nv v alpha products)
      (craigmrStart (kw.with M N) (h.mem Mu) (h.mem u) beta (Nv.map h.mem) (h.mem v) alpha products)
      (fun t t' h' => t' = t.at h' ∧ CraigmrOk t h') := by
  unfold craigmrStartH craigmrStart
  refine .exc fun c _ => .exc fun s _ => .rd (.new (.new (.new (.append ?_))))
  obtain ⟨vd, hvd⟩ : ∃ d, d = vdiv (h.mem u) (sqrt (alpha * alpha + lit 1)) := ⟨_, rfl⟩
  rw [← hvd]
  have e1 := h.ext_alloc vd
  have m1 : (h.alloc vd).mem h.next = vd := h.mem_alloc_self _
  have n1 : (h.alloc vd).next = h.next + 1 := rfl
  generalize h.alloc vd = h1 at e1 m1 n1 ⊢
  have e2 := h1.ext_alloc (zeros : W)
  have m2 : (h1.alloc (zeros : W)).mem h1.next = zeros := h1.mem_alloc_self _
  have n2 : (h1.alloc (zeros : W)).next = h1.next + 1 := rfl
  generalize h1.alloc (zeros : W) = h2 at e2 m2 n2 ⊢
  have e3 := h2.ext_alloc (zeros : W)
  have m3 : (h2.alloc (zeros : W)).mem h2.next = zeros := h2.mem_alloc_self _
  have n3 : (h2.alloc (zeros : W)).next = h2.next + 1 := rfl
  generalize h2.alloc (zeros : W) = h3 at e3 m3 n3 ⊢
  obtain ⟨a1, a2⟩ := appendCopy_next kw.storeIterates [] h2.next h3
  have a3 := appendCopy_map kw.storeIterates [] h2.next h3 (fun k hk => by cases hk)
  generalize (appendCopy kw.storeIterates [] h2.next h3).1 = its at a2 a3 ⊢
  generalize (appendCopy kw.storeIterates [] h2.next h3).2 = h4 at a1 a2 a3 ⊢
  have an := a1.next
  rw [m3] at a3
  refine .pure ⟨?_, ?_⟩
  · have c1 : h4.mem h.next = vd := by rw [a1.mem _ (by omega), e3.mem _ (by omega), e2.mem _ (by omega), m1]
    have c2 : h4.mem h1.next = (zeros : W) := by rw [a1.mem _ (by omega), e3.mem _ (by omega), m2]
    have c3 : h4.mem h2.next = (zeros : W) := by rw [a1.mem _ (by omega), m3]
    have old : ∀ k < h.next, h4.mem k = h.mem k := fun k hk => by
      rw [a1.mem _ (by omega), e3.mem _ (by omega), e2.mem _ (by omega), e1.mem _ hk]
    have c4 : Nv.map h4.mem = Nv.map h.mem := by
      rcases Nv with _ | k
      · rfl
      · simp only [Option.map_some, old k (hNv k rfl)]
    simp only [CraigmrLoop.at, c1, c2, c3, c4, a3, old _ hMu, old _ hv]
    rfl
  · exact ⟨by simp only; omega, by simp only; omega, fun k hk => by have := hNv k hk; simp only; omega, by simp only; omega,
      by simp only; omega, by simp only; omega, fun k hk => by
        rcases a2 k hk with h1 | h1
        · cases h1
        · simp only; omega⟩

theorem craigmrStepH_sim (A AT : HOp W) (M N : Option (HOp W)) (hM : ReturnsNew M) (hN : ReturnsNew N) (kw : CraigmrKw S W W) (lim : Int)
    (s : CraigmrLoop S Nat Nat) (h : Heap W) (hs : CraigmrOk s h) :
    SimE h (craigmrStepH A AT M N kw lim s) (craigmrStep A.fn AT.fn (kw.with M N) lim (s.at h))
      (fun t t' h' => t' = t.at h' ∧ CraigmrOk t h') := by
  unfold craigmrStepH craigmrStep
  dsimp only
  rw [craigmrBidiag_form, ebind_assoc]
  refine .bind (bidiagStepH_sim A AT M N hM hN s.Mu s.Nv s.v s.alpha h hs.Mu.1 (fun k hk => (hs.Nv k hk).1) hs.v.1) ?_
  rintro ⟨Mu, u, Nv, v, alpha, beta, p⟩ ⟨Mu', u', Nv', v', alpha', beta', p'⟩ h1 ⟨q1, q2, q3, q4, q5, q6, q7, q8, q9, q10, q11⟩
  simp only at q2 q3 q4 q5 q6 q7 q8 q9 q10 q11
  subst q2 q3 q6 q7 q8 q5 q4
  have qn := q1.next
  have lx := hs.x; have ld := hs.d; have lb := hs.dbar; have lv := hs.v
  have hNv : ∀ k, Nv = some k → k < h1.next ∧ k ≠ s.x := fun k hk => by
    rcases q11 with ⟨h2, -⟩ | ⟨Nv1, h2, h3, -⟩
    · have := hs.Nv k (by rw [← h2, hk]); omega
    · rw [h2] at hk; cases hk; omega
  have hv : v < h1.next ∧ v ≠ s.x := by
    rcases q11 with ⟨-, h2⟩ | ⟨Nv1, -, -, h2⟩
    · rw [h2]; omega
    · omega
  change SimE h1 _ (craigmrRot s.c s.s alpha beta >>= _) _
  refine .exc ?_
  rintro ⟨betaHat, alphaHat, c, sn⟩ -
  refine .exc fun cHat _ => .exc fun sHat _ => .rd (.rd (.new (.rd (.rd (.new (.rd (.rd (.wr (.append ?_)))))))))
  dsimp only
  rw [q1.mem s.d ld.1, q1.mem s.dbar lb.1]
  obtain ⟨vb, hvb⟩ : ∃ d, d = vdiv (h.mem s.d - smul s.theta (h.mem s.dbar)) (sqrt (s.alphaTilde * s.alphaTilde + betaHat * betaHat)) :=
    ⟨_, rfl⟩
  rw [← hvb]
  have e2 := h1.ext_alloc vb
  have m2 : (h1.alloc vb).mem h1.next = vb := h1.mem_alloc_self _
  have n2 : (h1.alloc vb).next = h1.next + 1 := rfl
  generalize h1.alloc vb = h2 at e2 m2 n2 ⊢
  rw [e2.mem u q10.2, e2.mem s.d (by omega), q1.mem s.d ld.1]
  obtain ⟨vd, hvd⟩ : ∃ d, d = vdiv (h1.mem u - smul betaHat (h.mem s.d)) alphaHat := ⟨_, rfl⟩
  rw [← hvd]
  have e3 := h2.ext_alloc vd
  have m3 : (h2.alloc vd).mem h2.next = vd := h2.mem_alloc_self _
  have n3 : (h2.alloc vd).next = h2.next + 1 := rfl
  generalize h2.alloc vd = h3 at e3 m3 n3 ⊢
  rw [e3.mem h1.next (by omega), m2, e3.mem s.x (by omega), e2.mem s.x (by omega), q1.mem s.x lx]
  obtain ⟨vx, hvx⟩ : ∃ d, d = h.mem s.x + smul (cHat * s.zetaHat) vb := ⟨_, rfl⟩
  rw [← hvx]
  have n4 : (h3.upd s.x vx).next = h3.next := rfl
  have m4x : (h3.upd s.x vx).mem s.x = vx := h3.mem_upd_self _ _
  have m4 : ∀ k, k ≠ s.x → (h3.upd s.x vx).mem k = h3.mem k := fun k hk => h3.mem_upd_ne _ hk
  generalize h3.upd s.x vx = h4 at n4 m4x m4 ⊢
  have hits : ∀ k ∈ s.iterates, k < h4.next := fun k hk => by have := (hs.its k hk).1; omega
  obtain ⟨a1, a2⟩ := appendCopy_next kw.storeIterates s.iterates s.x h4
  have a3 := appendCopy_map kw.storeIterates s.iterates s.x h4 hits
  generalize (appendCopy kw.storeIterates s.iterates s.x h4).1 = its at a2 a3 ⊢
  generalize (appendCopy kw.storeIterates s.iterates s.x h4).2 = h5 at a1 a2 a3 ⊢
  have an := a1.next
  have hm : s.iterates.map h4.mem = s.iterates.map h.mem := List.map_congr_left fun k hk => by
    have := hs.its k hk
    rw [m4 k this.2, e3.mem k (by omega), e2.mem k (by omega), q1.mem k this.1]
  rw [m4x, hm] at a3
  refine .exc fun k _ => .pure ⟨?_, ?_⟩
  · have old : ∀ k < h1.next, k ≠ s.x → h5.mem k = h1.mem k := fun k hk k1 => by
      rw [a1.mem k (by omega), m4 k k1, e3.mem k (by omega), e2.mem k hk]
    have c1 : h5.mem s.x = vx := by rw [a1.mem _ (by omega), m4x]
    have c2 : h5.mem h1.next = vb := by rw [a1.mem _ (by omega), m4 _ (by omega), e3.mem _ (by omega), m2]
    have c3 : h5.mem h2.next = vd := by rw [a1.mem _ (by omega), m4 _ (by omega), m3]
    have c4 : h5.mem Mu = h1.mem Mu := old _ q9.2 (by omega)
    have c5 : h5.mem v = h1.mem v := old _ hv.1 hv.2
    have c6 : Nv.map h5.mem = Nv.map h1.mem := by
      rcases Nv with _ | Nv0
      · rfl
      · simp only [Option.map_some, old Nv0 (hNv Nv0 rfl).1 (hNv Nv0 rfl).2]
    simp only [CraigmrLoop.at, c1, c2, c3, c4, c5, c6, a3, hvx, hvd, hvb]
    rfl
  · exact ⟨by simp only; omega, by simp only; omega, fun k hk => by have := hNv k hk; simp only; omega, by simp only; omega,
      by simp only; omega, by simp only; omega, fun k hk => by
        rcases a2 k hk with h1 | h1
        · have := hs.its k h1; simp only; omega
        · simp only; omega⟩

theorem craigmrSolveH_sim (A AT : HOp W) (hAT : ∀ h l, AT.same h l = false) (m n : Nat) (b : Nat) (M N : Option (HOp W))
    (hM : ReturnsNew M) (hN : ReturnsNew N) (kw : CraigmrKw S W W) (h : Heap W) (hb : b < h.next) :
    SimE h (craigmrSolveH A AT m n b M N kw) (craigmrSolve A.fn AT.fn m n (h.mem b) (kw.with M N))
      (fun r r' h' => r' = (r.1.at h', r.2.at h')) := by
  unfold craigmrSolveH craigmrSolve
  rw [craigmrVectors_form, ebind_assoc]
  refine .new ?_
  have e1 := h.ext_alloc (zeros : W)
  have m1 : (h.alloc (zeros : W)).mem h.next = zeros := h.mem_alloc_self _
  have n1 : (h.alloc (zeros : W)).next = h.next + 1 := rfl
  generalize h.alloc (zeros : W) = h1 at e1 m1 n1 ⊢
  have key := bidiagStartH_sim (S := S) AT hAT M N hM hN b h1
  rw [e1.mem b hb] at key
  refine .bind key ?_
  rintro ⟨Mu, u, beta, vs, alpha, p⟩ ⟨Mu', u', beta', vs', alpha', p'⟩ h2 ⟨q1, q2, q3, q4, q5, q6, q7, q8, q9, q10⟩
  simp only at q2 q3 q4 q5 q6 q7 q8 q9 q10
  subst q2 q3 q4 q6 q7 q5
  have qn := q1.next
  have hv : (vs.map Prod.fst).getD h.next < h2.next ∧
      h2.mem ((vs.map Prod.fst).getD h.next) = ((vs.map fun p => (h2.mem p.1, h2.mem p.2)).map Prod.fst).getD zeros := by
    rcases vs with _ | ⟨v, Nv⟩
    · exact ⟨by change h.next < h2.next; omega, by change h2.mem h.next = zeros; rw [q1.mem _ (by omega), m1]⟩
    · exact ⟨(q10 v Nv rfl).1.2, rfl⟩
  have hNv : (∀ k, vs.map Prod.snd = some k → k < h2.next) ∧
      (vs.map Prod.snd).map h2.mem = (vs.map fun p => (h2.mem p.1, h2.mem p.2)).map Prod.snd := by
    rcases vs with _ | ⟨v, Nv⟩
    · exact ⟨(fun k hk => by cases hk), rfl⟩
    · exact ⟨fun k hk => by cases hk; exact (q10 v Nv rfl).2.2, rfl⟩
  change SimE h2 _ (craigmrStart (kw.with M N) _ _ _ _ _ _ _ >>= _) _
  rw [← hNv.2, ← hv.2]
  refine .bind (craigmrStartH_sim M N kw Mu u beta _ _ alpha p h2 q8.2 hv.1 hNv.1) ?_
  rintro s s' h3 ⟨rfl, hs⟩
  refine .bind (R := fun t t' h' => t' = t.at h' ∧ CraigmrOk t h') ?_ ?_
  · unfold craigmrLoopH craigmrLoop
    refine heapLoop_sim (fun t t' h' => t' = t.at h' ∧ CraigmrOk t h') ?_ ?_ s (s.at h3) h3 ⟨rfl, hs⟩
    · rintro s t g ⟨rfl, -⟩
      rfl
    · rintro s t g ⟨rfl, hs⟩ -
      exact craigmrStepH_sim A AT M N hM hN kw _ s g hs
  · rintro t t' h' ⟨rfl, ht⟩
    exact .pure rfl

end Verif.Solver
