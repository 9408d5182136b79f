import Verif.Solver.HeapSymmlq

/-!
# `Symmlq.solve` on the heap and on values

If the operator (and the attribute `matvec`) return new arrays, `symmlqSolveH` has the outcome of `symmlqSolve`.
-/

namespace Verif.Solver
open Scalar Vect

variable {S W : Type} [Scalar S] [Vect S W]

/-- a loop on the heap that never raises, and a loop on values -/
theorem heapLoop_while {σ τ : Type} {cont : σ → Bool} {step : σ → HeapE W σ} {μ : σ → Nat}
    {h : ∀ s g t g', cont s = true → step s g = (.ok t, g') → cont t = true → μ t < μ s}
    {cont' : τ → Bool} {step' : τ → τ} {μ' : τ → Nat}
    {h' : ∀ s, cont' s = true → cont' (step' s) = true → μ' (step' s) < μ' s}
    (R : σ → τ → Heap W → Prop) (hcont : ∀ s t g, R s t g → cont s = cont' t)
    (hstep : ∀ s t g, R s t g → ∃ s' g', step s g = (.ok s', g') ∧ R s' (step' t) g') (s : σ) (t : τ) (g : Heap W) (hs : R s t g) :
    ∃ s' g', heapLoop cont step μ h s g = (.ok s', g') ∧ R s' (whileLoop cont' step' μ' h' t) g' := by
  induction hm : (if cont s then μ s + 1 else 0) using Nat.strongRecOn generalizing s t g with
  | ind m ih =>
    have hct := hcont s t g hs
    rcases Bool.eq_false_or_eq_true (cont s) with hc | hc
    · rw [hc] at hct
      obtain ⟨s1, g1, h1, h2⟩ := hstep s t g hs
      rw [heapLoop_of_cont hc h1, whileLoop_of_cont hct.symm]
      refine ih _ ?_ s1 (step' t) g1 h2 rfl
      rw [← hm, if_pos hc]
      split
      · rename_i hh
        have := h s g s1 g1 hc h1 hh
        omega
      · omega
    · rw [hc] at hct
      rw [heapLoop_of_not hc, whileLoop_of_not hct.symm]
      exact ⟨s, g, rfl, hs⟩

theorem heapE_bind_eval {α β : Type} {m : HeapE W α} {f : α → HeapE W β} {h h' : Heap W} {a : α} (hm : m h = (.ok a, h')) :
    (m >>= f) h = f a h' := by
  change (match m h with | (.ok a, h') => f a h' | (.error e, h') => (.error e, h')) = _
  rw [hm]

theorem rd_bind {β : Type} (l : Nat) (f : W → HeapE W β) (h : Heap W) : (hrd l >>= f) h = f (h.mem l) h := rfl
theorem wr_bind {β : Type} (l : Nat) (v : W) (f : Unit → HeapE W β) (h : Heap W) : (hwr l v >>= f) h = f () (h.upd l v) := rfl
theorem new_bind {β : Type} (v : W) (f : Nat → HeapE W β) (h : Heap W) : (hnew v >>= f) h = f h.next (h.alloc v) := rfl
theorem call_bind {β : Type} (op : HOp W) (l : Nat) (f : Nat → HeapE W β) (h : Heap W) :
    (hcall op l >>= f) h = f (call op l h).1 (call op l h).2 := rfl
theorem append_bind {β : Type} (b : Bool) (lst : List Nat) (l : Nat) (f : List Nat → HeapE W β) (h : Heap W) :
    (happend b lst l >>= f) h = f (appendCopy b lst l h).1 (appendCopy b lst l h).2 := rfl
theorem heapE_pure {α : Type} (a : α) (h : Heap W) : (pure a : HeapE W α) h = (.ok a, h) := rfl

/-- the object with operators as functions -/
def SymmlqObjH.at (o : SymmlqObjH W) : SymmlqObj W := ⟨o.op.fn, HOp.fn? o.precon, HOp.fn? o.matvec⟩

/-- contents instead of addresses; `calls` is not tracked on the heap -/
def SymmlqLoop.at (s : SymmlqLoop S Nat) (h : Heap W) (calls : List W) : SymmlqLoop S W :=
  { x := h.mem s.x, w := h.mem s.w, y := h.mem s.y, r1 := h.mem s.r1, r2 := h.mem s.r2, oldb := s.oldb, beta := s.beta,
    cgnorm := s.cgnorm, lqDiag := s.lqDiag, rhs1 := s.rhs1, rhs2 := s.rhs2, tnorm := s.tnorm, gbar := s.gbar, dbar := s.dbar,
    bstep := s.bstep, snprod := s.snprod, ynorm2 := s.ynorm2, gmax := s.gmax, gmin := s.gmin, anorm := s.anorm, acond := s.acond,
    istop := s.istop, itn := s.itn, nMatvec := s.nMatvec, broke := s.broke, iterates := s.iterates.map h.mem, calls := calls }

/-- contents of the arrays of the result instead of addresses -/
def SymmlqRes.at (r : SymmlqRes S Nat) (h : Heap W) : SymmlqRes S W :=
  { x := h.mem r.x, residNorm := r.residNorm, xNorm := r.xNorm, nMatvec := r.nMatvec, acond := r.acond, anorm := r.anorm,
    iterates := r.iterates.map h.mem }

/-- the arrays of the loop exist, and those updated in place are not shared; the right-hand side `b` is still `bv` -/
structure SymmlqOk (b : Nat) (bv : W) (s : SymmlqLoop S Nat) (h : Heap W) : Prop where
  x : s.x < h.next
  w : s.w < h.next ∧ s.w ≠ s.x
  y : s.y < h.next ∧ s.y ≠ s.x ∧ s.y ≠ s.w
  r1 : s.r1 < h.next ∧ s.r1 ≠ s.x ∧ s.r1 ≠ s.w
  r2 : s.r2 < h.next ∧ s.r2 ≠ s.x ∧ s.r2 ≠ s.w
  its : ∀ k ∈ s.iterates, k < h.next ∧ k ≠ s.x ∧ k ≠ s.w
  lb : b < h.next ∧ b ≠ s.x ∧ b ≠ s.w
  val : h.mem b = bv

omit [Scalar S] in
theorem subShiftH_eval (shift : Option S) (y v : Nat) (h : Heap W) :
    ∃ h', subShiftH shift y v h = (.ok (), h') ∧ h'.next = h.next ∧ h'.mem y = subShift shift (h.mem y) (h.mem v) ∧
      ∀ k, k ≠ y → h'.mem k = h.mem k := by
  cases shift with
  | none => exact ⟨h, rfl, rfl, rfl, fun _ _ => rfl⟩
  | some s => exact ⟨_, rfl, rfl, h.mem_upd_self _ _, fun k hk => h.mem_upd_ne _ hk⟩

theorem nextY_eval (o : Option (HOp W)) (r2 y : Nat) (h : Heap W) (hr : r2 < h.next) (hy : y < h.next) (he : h.mem y = h.mem r2) :
    ∃ y' h', nextY o r2 y h = (.ok y', h') ∧ h.Ext h' ∧ y' < h'.next ∧ h'.mem y' = applyPrecon (HOp.fn? o) (h.mem r2) ∧
      (y' = y ∨ y' = r2 ∨ h.next ≤ y') := by
  cases o with
  | none => exact ⟨y, h, rfl, .refl h, hy, he, .inl rfl⟩
  | some M =>
    obtain ⟨f1, f2, f3, f4⟩ := call_spec M r2 h hr
    exact ⟨_, _, rfl, f2, f3, f1, .inr (by omega)⟩

theorem symmlqCheckH_eval (self : SymmlqObjH W) (kw : SymmlqKw S) (y v : Nat) (st : Int × Bool) (h : Heap W) (hy : y < h.next)
    (hv : v < h.next) :
    ∃ h', symmlqCheckH self kw y v st h =
        (.ok (if kw.check && symmlqUnsym kw (h.mem y) (h.mem v) (self.at.op (h.mem y)) then (6, true) else st), h') ∧ h.Ext h' := by
  change ∃ h', _ = (Except.ok (if kw.check && symmlqUnsym kw (h.mem y) (h.mem v) (self.op.fn (h.mem y)) then (6, true) else st), h') ∧ _
  unfold symmlqCheckH
  cases kw.check with
  | false => exact ⟨h, rfl, .refl h⟩
  | true =>
    obtain ⟨f1, f2, f3, f4⟩ := call_spec self.op y h hy
    refine ⟨(call self.op y h).2, ?_, f2⟩
    simp only [if_true, call_bind, rd_bind, heapE_pure, Bool.true_and, f1, f2.mem y hy, f2.mem v hv]

theorem symmlqEntryH_eval (self : SymmlqObjH W) (kw : SymmlqKw S) (r1 y : Nat) (h : Heap W) (hr : r1 < h.next) (hy : y < h.next)
    (he : h.mem y = applyPrecon (HOp.fn? self.precon) (h.mem r1)) :
    ∃ h', symmlqEntryH self kw r1 y (dot (h.mem r1) (h.mem y)) h = (.ok (symmlqEntry self.at kw (h.mem r1)), h') ∧ h.Ext h' := by
  unfold symmlqEntryH symmlqEntry symmlqPreconCheckH
  change ∃ h', _ ∧ _
  dsimp only [SymmlqObjH.at]
  rw [← he]
  cases hp : self.precon with
  | none =>
    refine ⟨h, ?_, .refl h⟩
    rfl
  | some M =>
    obtain ⟨f1, f2, f3, f4⟩ := call_spec M y h hy
    cases hc : kw.check with
    | false => exact ⟨h, rfl, .refl h⟩
    | true =>
      refine ⟨(call M y h).2, ?_, f2⟩
      dsimp only
      rw [if_pos (rfl : true = true)]
      rw [heapE_bind_eval (a := if symmlqUnsym kw (h.mem y) (h.mem r1) (M.fn (h.mem y)) then ((7, true) : Int × Bool) else (0, false))
        (h' := (call M y h).2)]
      · simp only [heapE_pure, HOp.fn?, Option.map_some, Bool.true_and]
      · simp only [call_bind, rd_bind, heapE_pure, f1, f2.mem y hy, f2.mem r1 hr]

theorem call_new (f : HOp W) (hf : ∀ h l, f.same h l = false) (l : Nat) (h : Heap W) :
    (call f l h).1 = h.next ∧ (call f l h).2 = h.alloc (f.fn (h.mem l)) := by
  rw [call_fresh f l h (hf h l)]
  exact ⟨rfl, rfl⟩

theorem symmlqStartH_eval (self : SymmlqObjH W) (kw : SymmlqKw S) (mv : HOp W) (hmv : ∀ h l, mv.same h l = false)
    (b x w r1 y0 : Nat) (iterates : List Nat) (h : Heap W)
    (hx : x < h.next ∧ h.mem x = zeros) (hw : w < h.next ∧ h.mem w = zeros) (hxw : w ≠ x)
    (hr1 : r1 < h.next ∧ r1 ≠ x ∧ r1 ≠ w) (hy0 : y0 < h.next) (he : h.mem y0 = applyPrecon (HOp.fn? self.precon) (h.mem r1))
    (hb : b < h.next ∧ b ≠ x ∧ b ≠ w) (hbe : h.mem r1 = h.mem b)
    (hits : ∀ k ∈ iterates, k < h.next ∧ k ≠ x ∧ k ≠ w) (hm : iterates.map h.mem = if kw.storeIterates then [zeros] else []) :
    ∃ s h', symmlqStartH self kw mv x w r1 y0 iterates (dot (h.mem r1) (h.mem y0)) (symmlqEntry self.at kw (h.mem r1)) h = (.ok s, h') ∧
      symmlqStart self.at kw mv.fn (h.mem b) = (s.1.at h' (symmlqStart self.at kw mv.fn (h.mem b)).1.calls, s.2) ∧
      SymmlqOk b (h.mem b) s.1 h' := by
  unfold symmlqStartH symmlqStart
  dsimp only
  rw [← hbe]
  have he' : h.mem y0 = applyPrecon self.at.precon (h.mem r1) := he
  rw [rd_bind, new_bind, he']
  obtain ⟨P, hP⟩ : ∃ P, P = applyPrecon self.at.precon (h.mem r1) := ⟨_, rfl⟩
  rw [← hP]
  obtain ⟨B, hB⟩ : ∃ B : S, B = sqrt (dot (h.mem r1) P) := ⟨_, rfl⟩
  rw [← hB]
  obtain ⟨ST, hST⟩ : ∃ ST, ST = symmlqEntry (SymmlqObjH.at self) kw (h.mem r1) := ⟨_, rfl⟩
  rw [← hST]
  obtain ⟨v, hv⟩ : ∃ v : W, v = smul (lit 1 / B) P := ⟨_, rfl⟩
  rw [← hv]
  -- v
  have e1 := h.ext_alloc v
  have m1 : (h.alloc v).mem h.next = v := h.mem_alloc_self _
  have n1 : (h.alloc v).next = h.next + 1 := rfl
  generalize h.alloc v = h1 at e1 m1 n1 ⊢
  -- y
  rw [call_bind, (call_new mv hmv h.next h1).1, (call_new mv hmv h.next h1).2, m1]
  have e2 := h1.ext_alloc (mv.fn v)
  have m2 : (h1.alloc (mv.fn v)).mem h1.next = mv.fn v := h1.mem_alloc_self _
  have n2 : (h1.alloc (mv.fn v)).next = h1.next + 1 := rfl
  generalize h1.alloc (mv.fn v) = h2 at e2 m2 n2 ⊢
  have v2 : h2.mem h.next = v := by rw [e2.mem _ (by omega), m1]
  -- the test
  obtain ⟨h3, c1, c2⟩ := symmlqCheckH_eval self kw h1.next h.next ST h2 (by omega) (by omega)
  rw [heapE_bind_eval c1, m2, v2]
  have n3 := c2.next
  have m3 : h3.mem h1.next = mv.fn v := by rw [c2.mem _ (by omega), m2]
  have v3 : h3.mem h.next = v := by rw [c2.mem _ (by omega), v2]
  have old3 : ∀ k < h.next, h3.mem k = h.mem k := fun k hk => by
    rw [c2.mem k (by omega), e2.mem k (by omega), e1.mem k hk]
  generalize (if kw.check && symmlqUnsym kw (mv.fn v) v (self.at.op (mv.fn v)) then ((6, true) : Int × Bool) else ST) = st1
  clear c1 c2
  -- the shift
  obtain ⟨h4, d1, d2, d3, d4⟩ := subShiftH_eval (symmlqShift kw) h1.next h.next h3
  rw [m3, v3] at d3
  rw [heapE_bind_eval d1, rd_bind, rd_bind, rd_bind, rd_bind, wr_bind, d3, d4 h.next (by omega), v3, d4 r1 (by omega), old3 r1 hr1.1]
  obtain ⟨Y1, hY1⟩ : ∃ Y1 : W, Y1 = subShift (symmlqShift kw) (mv.fn v) v := ⟨_, rfl⟩
  rw [← hY1]
  obtain ⟨Y2, hY2⟩ : ∃ Y2 : W, Y2 = Y1 - smul (dot v Y1 / B) (h.mem r1) := ⟨_, rfl⟩
  rw [← hY2]
  have m5 : (h4.upd h1.next Y2).mem h1.next = Y2 := h4.mem_upd_self _ _
  have o5 : ∀ k, k ≠ h1.next → (h4.upd h1.next Y2).mem k = h4.mem k := fun k hk => h4.mem_upd_ne _ hk
  have n5 : (h4.upd h1.next Y2).next = h4.next := rfl
  generalize h4.upd h1.next Y2 = h5 at m5 o5 n5 ⊢
  rw [rd_bind, rd_bind, rd_bind, rd_bind, rd_bind, rd_bind, wr_bind, m5, o5 h.next (by omega), d4 h.next (by omega), v3]
  obtain ⟨Y3, hY3⟩ : ∃ Y3 : W, Y3 = Y2 - smul (dot v Y2 / dot v v) v := ⟨_, rfl⟩
  rw [← hY3]
  have m6 : (h5.upd h1.next Y3).mem h1.next = Y3 := h5.mem_upd_self _ _
  have o6 : ∀ k, k ≠ h1.next → (h5.upd h1.next Y3).mem k = h5.mem k := fun k hk => h5.mem_upd_ne _ hk
  have n6 : (h5.upd h1.next Y3).next = h5.next := rfl
  generalize h5.upd h1.next Y3 = h6 at m6 o6 n6 ⊢
  rw [rd_bind, new_bind, m6]
  have e7 := h6.ext_alloc Y3
  have m7 : (h6.alloc Y3).mem h6.next = Y3 := h6.mem_alloc_self _
  have n7 : (h6.alloc Y3).next = h6.next + 1 := rfl
  generalize h6.alloc Y3 = h7 at e7 m7 n7 ⊢
  have y7 : h7.mem h1.next = Y3 := by rw [e7.mem _ (by omega), m6]
  obtain ⟨y, h8, f1, f2, f3, f4, f5⟩ := nextY_eval self.precon h6.next h1.next h7 (by omega) (by omega) (by rw [m7, y7])
  rw [heapE_bind_eval f1, rd_bind, rd_bind, heapE_pure]
  have n8 := f2.next
  rw [m7] at f4
  change h8.mem y = applyPrecon self.at.precon Y3 at f4
  have r8 : h8.mem h6.next = Y3 := by rw [f2.mem _ (by omega), m7]
  rw [r8, f4]
  have old8 : ∀ k < h.next, h8.mem k = h.mem k := fun k hk => by
    rw [f2.mem k (by omega), e7.mem k (by omega), o6 k (by omega), o5 k (by omega), d4 k (by omega), old3 k hk]
  refine ⟨_, h8, rfl, ?_, ?_⟩
  · have hits8 : iterates.map h8.mem = iterates.map h.mem := List.map_congr_left fun k hk => old8 k (hits k hk).1
    simp only [SymmlqLoop.at, old8 x hx.1, old8 w hw.1, hx.2, hw.2, f4, r8, old8 r1 hr1.1, hits8, hm]
  · refine ⟨by dsimp only; omega, by dsimp only; omega, ?_, by dsimp only; omega, by dsimp only; omega, fun k hk => ?_, by dsimp only; omega, ?_⟩
    · dsimp only; omega
    · have := hits k hk; dsimp only; omega
    · rw [old8 b hb.1, hbe]

theorem symmlqLanczosH_eval (self : SymmlqObjH W) (hop : ∀ h l, self.op.same h l = false) (kw : SymmlqKw S) (s : SymmlqLoop S Nat)
    (calls : List W) (h : Heap W) (hy : s.y < h.next) (hr1 : s.r1 < h.next) (hr2 : s.r2 < h.next) :
    ∃ v alfa r1 r2 y bb h', symmlqLanczosH self kw s h = (.ok (v, alfa, r1, r2, y, bb), h') ∧
      symmlqLanczos self.at kw (s.at h calls) = (h'.mem v, alfa, h'.mem r2, h'.mem y, bb) ∧ h'.mem r1 = h.mem s.r2 ∧ h.Ext h' ∧
      (h.next ≤ v ∧ v < h'.next) ∧ (h.next ≤ r1 ∧ r1 < h'.next) ∧ (h.next ≤ r2 ∧ r2 < h'.next) ∧ (h.next ≤ y ∧ y < h'.next) := by
  unfold symmlqLanczosH symmlqLanczos
  dsimp only [SymmlqObjH.at, SymmlqLoop.at]
  rw [rd_bind, new_bind]
  obtain ⟨v, hv⟩ : ∃ v : W, v = smul (lit 1 / s.beta) (h.mem s.y) := ⟨_, rfl⟩
  rw [← hv]
  have e1 := h.ext_alloc v
  have m1 : (h.alloc v).mem h.next = v := h.mem_alloc_self _
  have n1 : (h.alloc v).next = h.next + 1 := rfl
  generalize h.alloc v = h1 at e1 m1 n1 ⊢
  rw [call_bind, (call_new self.op hop h.next h1).1, (call_new self.op hop h.next h1).2, m1]
  have e2 := h1.ext_alloc (self.op.fn v)
  have m2 : (h1.alloc (self.op.fn v)).mem h1.next = self.op.fn v := h1.mem_alloc_self _
  have n2 : (h1.alloc (self.op.fn v)).next = h1.next + 1 := rfl
  generalize h1.alloc (self.op.fn v) = h2 at e2 m2 n2 ⊢
  have v2 : h2.mem h.next = v := by rw [e2.mem _ (by omega), m1]
  have old2 : ∀ k < h.next, h2.mem k = h.mem k := fun k hk => by rw [e2.mem k (by omega), e1.mem k hk]
  obtain ⟨h4, d1, d2, d3, d4⟩ := subShiftH_eval (symmlqShift kw) h1.next h.next h2
  have x4 : h.Ext h4 := Keeps.ext_of (subShiftH_keeps (by omega)) d1 (e1.trans e2)
  rw [heapE_bind_eval d1, rd_bind, rd_bind, wr_bind, d3, m2, v2, d4 s.r1 (by omega), old2 s.r1 hr1]
  obtain ⟨Y1, hY1⟩ : ∃ Y1 : W, Y1 = subShift (symmlqShift kw) (self.op.fn v) v := ⟨_, rfl⟩
  rw [← hY1]
  obtain ⟨Y2, hY2⟩ : ∃ Y2 : W, Y2 = Y1 - smul (s.beta / s.oldb) (h.mem s.r1) := ⟨_, rfl⟩
  rw [← hY2]
  have m5 : (h4.upd h1.next Y2).mem h1.next = Y2 := h4.mem_upd_self _ _
  have o5 : ∀ k, k ≠ h1.next → (h4.upd h1.next Y2).mem k = h4.mem k := fun k hk => h4.mem_upd_ne _ hk
  have n5 : (h4.upd h1.next Y2).next = h4.next := rfl
  have x5 : h.Ext (h4.upd h1.next Y2) := x4.upd (by omega) _
  generalize h4.upd h1.next Y2 = h5 at m5 o5 n5 x5 ⊢
  rw [rd_bind, rd_bind, rd_bind, rd_bind, wr_bind, m5, o5 h.next (by omega), d4 h.next (by omega), v2, o5 s.r2 (by omega),
    d4 s.r2 (by omega), old2 s.r2 hr2]
  obtain ⟨Y3, hY3⟩ : ∃ Y3 : W, Y3 = Y2 - smul (dot v Y2 / s.beta) (h.mem s.r2) := ⟨_, rfl⟩
  rw [← hY3]
  have m6 : (h5.upd h1.next Y3).mem h1.next = Y3 := h5.mem_upd_self _ _
  have o6 : ∀ k, k ≠ h1.next → (h5.upd h1.next Y3).mem k = h5.mem k := fun k hk => h5.mem_upd_ne _ hk
  have n6 : (h5.upd h1.next Y3).next = h5.next := rfl
  have x6 : h.Ext (h5.upd h1.next Y3) := x5.upd (by omega) _
  generalize h5.upd h1.next Y3 = h6 at m6 o6 n6 x6 ⊢
  have old6 : ∀ k < h.next, h6.mem k = h.mem k := fun k hk => by
    rw [o6 k (by omega), o5 k (by omega), d4 k (by omega), old2 k hk]
  have v6 : h6.mem h.next = v := by rw [o6 _ (by omega), o5 _ (by omega), d4 _ (by omega), v2]
  rw [rd_bind, new_bind, old6 s.r2 hr2]
  have e7 := h6.ext_alloc (h.mem s.r2)
  have m7 : (h6.alloc (h.mem s.r2)).mem h6.next = h.mem s.r2 := h6.mem_alloc_self _
  have n7 : (h6.alloc (h.mem s.r2)).next = h6.next + 1 := rfl
  generalize h6.alloc (h.mem s.r2) = h7 at e7 m7 n7 ⊢
  rw [rd_bind, new_bind, e7.mem h1.next (by omega), m6]
  have e8 := h7.ext_alloc Y3
  have m8 : (h7.alloc Y3).mem h7.next = Y3 := h7.mem_alloc_self _
  have n8 : (h7.alloc Y3).next = h7.next + 1 := rfl
  generalize h7.alloc Y3 = h8 at e8 m8 n8 ⊢
  have y8 : h8.mem h1.next = Y3 := by rw [e8.mem _ (by omega), e7.mem _ (by omega), m6]
  obtain ⟨y, h9, f1, f2, f3, f4, f5⟩ := nextY_eval self.precon h7.next h1.next h8 (by omega) (by omega) (by rw [m8, y8])
  rw [heapE_bind_eval f1, rd_bind, rd_bind, heapE_pure]
  have n9 := f2.next
  rw [m8] at f4
  have r9 : h9.mem h7.next = Y3 := by rw [f2.mem _ (by omega), m8]
  have v9 : h9.mem h.next = v := by rw [f2.mem _ (by omega), e8.mem _ (by omega), e7.mem _ (by omega), v6]
  have q9 : h9.mem h6.next = h.mem s.r2 := by rw [f2.mem _ (by omega), e8.mem _ (by omega), m7]
  rw [r9, f4]
  refine ⟨h.next, _, h6.next, h7.next, y, _, h9, rfl, ?_, q9, ((x6.trans e7).trans e8).trans f2, by omega, by omega, by omega, by omega⟩
  rw [r9, f4, v9]

theorem symmlqTestH_at (kw : SymmlqKw S) (matvecMax : Nat) (beta1 : S) (s : SymmlqLoop S Nat) (h : Heap W) (calls : List W) :
    symmlqTest kw matvecMax beta1 (s.at h calls) = (symmlqTestH kw matvecMax beta1 s).at h calls := rfl

/-- the states of the two loops correspond -/
def SymmlqRel (b : Nat) (bv : W) (s : SymmlqLoop S Nat) (t : SymmlqLoop S W) (h : Heap W) : Prop :=
  t = s.at h t.calls ∧ SymmlqOk b bv s h

theorem symmlqUpdateH_eval (self : SymmlqObjH W) (hop : ∀ h l, self.op.same h l = false) (kw : SymmlqKw S) (b : Nat) (bv : W)
    (s : SymmlqLoop S Nat) (calls : List W) (h : Heap W) (hs : SymmlqOk b bv s h) :
    ∃ s' h', symmlqUpdateH self kw s h = (.ok s', h') ∧ SymmlqRel b bv s' (symmlqUpdate self.at kw (s.at h calls)) h' := by
  obtain ⟨v, alfa, r1, r2, y, bb, h1, l1, l2, l3, l4, lv, lr1, lr2, ly⟩ :=
    symmlqLanczosH_eval self hop kw s calls h hs.y.1 hs.r1.1 hs.r2.1
  have ln := l4.next
  have hx := hs.x; have hw := hs.w; have hb := hs.lb
  unfold symmlqUpdateH symmlqUpdate SymmlqRel
  rw [heapE_bind_eval l1, l2]
  dsimp only
  cases hbb : lt bb (lit 0) with
  | true =>
    refine ⟨_, h1, rfl, ?_, ?_⟩
    · have hits : s.iterates.map h1.mem = s.iterates.map h.mem := List.map_congr_left fun k hk => l4.mem k (hs.its k hk).1
      simp only [SymmlqLoop.at, if_true, l3, l4.mem s.x hx, l4.mem s.w hw.1, hits]
    · refine ⟨by dsimp only; omega, by dsimp only; omega, by dsimp only; omega, by dsimp only; omega, by dsimp only; omega,
        fun k hk => ?_, by dsimp only; omega, by rw [l4.mem b hb.1]; exact hs.val⟩
      have := hs.its k hk; dsimp only; omega
  | false =>
    simp only [Bool.false_eq_true, if_false]
    obtain ⟨g, hg⟩ : ∃ g : S, g = sqrt (s.gbar * s.gbar + s.beta * s.beta) := ⟨_, rfl⟩
    simp only [SymmlqLoop.at]
    rw [← hg, rd_bind, rd_bind, rd_bind, wr_bind, l4.mem s.x hx, l4.mem s.w hw.1]
    obtain ⟨X, hX⟩ : ∃ X : W, X = h.mem s.x + (smul (s.rhs1 / g * (s.gbar / g)) (h.mem s.w) + smul (s.rhs1 / g * (s.beta / g)) (h1.mem v)) :=
      ⟨_, rfl⟩
    rw [← hX]
    have m2 : (h1.upd s.x X).mem s.x = X := h1.mem_upd_self _ _
    have o2 : ∀ k, k ≠ s.x → (h1.upd s.x X).mem k = h1.mem k := fun k hk => h1.mem_upd_ne _ hk
    have n2 : (h1.upd s.x X).next = h1.next := rfl
    generalize h1.upd s.x X = h2 at m2 o2 n2 ⊢
    rw [rd_bind, wr_bind, o2 s.w hw.2, l4.mem s.w hw.1]
    obtain ⟨W1, hW1⟩ : ∃ W1 : W, W1 = smul (s.beta / g) (h.mem s.w) := ⟨_, rfl⟩
    rw [← hW1]
    have m3 : (h2.upd s.w W1).mem s.w = W1 := h2.mem_upd_self _ _
    have o3 : ∀ k, k ≠ s.w → (h2.upd s.w W1).mem k = h2.mem k := fun k hk => h2.mem_upd_ne _ hk
    have n3 : (h2.upd s.w W1).next = h2.next := rfl
    generalize h2.upd s.w W1 = h3 at m3 o3 n3 ⊢
    rw [rd_bind, rd_bind, wr_bind, m3, o3 v (by omega), o2 v (by omega)]
    obtain ⟨W2, hW2⟩ : ∃ W2 : W, W2 = W1 - smul (s.gbar / g) (h1.mem v) := ⟨_, rfl⟩
    rw [← hW2]
    have m4 : (h3.upd s.w W2).mem s.w = W2 := h3.mem_upd_self _ _
    have o4 : ∀ k, k ≠ s.w → (h3.upd s.w W2).mem k = h3.mem k := fun k hk => h3.mem_upd_ne _ hk
    have n4 : (h3.upd s.w W2).next = h3.next := rfl
    generalize h3.upd s.w W2 = h4 at m4 o4 n4 ⊢
    have hits : ∀ k ∈ s.iterates, k < h4.next := fun k hk => by have := (hs.its k hk).1; omega
    have old4 : ∀ k < h1.next, k ≠ s.x → k ≠ s.w → h4.mem k = h1.mem k := fun k _ k1 k2 => by
      rw [o4 k k2, o3 k k2, o2 k k1]
    have x4 : h4.mem s.x = X := by rw [o4 _ (Ne.symm hw.2), o3 _ (Ne.symm hw.2), m2]
    rw [append_bind, heapE_pure]
    obtain ⟨a1, a2⟩ := appendCopy_next kw.storeIterates s.iterates s.x h4
    have a3 := appendCopy_map kw.storeIterates s.iterates s.x h4 hits
    generalize (appendCopy kw.storeIterates s.iterates s.x h4).1 = its at a2 a3 ⊢
    generalize (appendCopy kw.storeIterates s.iterates s.x h4).2 = h5 at a1 a2 a3 ⊢
    have an := a1.next
    have hm : s.iterates.map h4.mem = s.iterates.map h.mem := List.map_congr_left fun k hk => by
      have := hs.its k hk
      rw [old4 k (by omega) this.2.1 this.2.2, l4.mem k this.1]
    rw [hm, x4] at a3
    have old5 : ∀ k < h1.next, k ≠ s.x → k ≠ s.w → h5.mem k = h1.mem k := fun k k0 k1 k2 => by
      rw [a1.mem k (by omega), old4 k k0 k1 k2]
    refine ⟨_, h5, rfl, ?_, ?_⟩
    · have c1 : h5.mem s.x = X := by rw [a1.mem _ (by omega), x4]
      have c2 : h5.mem s.w = W2 := by rw [a1.mem _ (by omega), m4]
      have c3 : h5.mem y = h1.mem y := old5 y ly.2 (by omega) (by omega)
      have c4 : h5.mem r1 = h.mem s.r2 := by rw [old5 r1 lr1.2 (by omega) (by omega), l3]
      have c5 : h5.mem r2 = h1.mem r2 := old5 r2 lr2.2 (by omega) (by omega)
      simp only [c1, c2, c3, c4, c5, a3]
    · refine ⟨by dsimp only; omega, by dsimp only; omega, by dsimp only; omega, by dsimp only; omega, by dsimp only; omega,
        fun k hk => ?_, by dsimp only; omega, by rw [old5 b (by omega) hb.2.1 hb.2.2, l4.mem b hb.1]; exact hs.val⟩
      rcases a2 k hk with q | q
      · have := hs.its k q; dsimp only; omega
      · dsimp only; omega

theorem symmlqStepH_eval (self : SymmlqObjH W) (hop : ∀ h l, self.op.same h l = false) (kw : SymmlqKw S) (matvecMax : Nat) (beta1 : S)
    (b : Nat) (bv : W) (s : SymmlqLoop S Nat) (t : SymmlqLoop S W) (h : Heap W) (hs : SymmlqRel b bv s t h) :
    ∃ s' h', symmlqStepH self kw matvecMax beta1 s h = (.ok s', h') ∧
      SymmlqRel b bv s' (symmlqStep self.at kw matvecMax beta1 t) h' := by
  obtain ⟨ht, hs⟩ := hs
  rw [ht]
  generalize t.calls = calls
  unfold symmlqStepH symmlqStep
  rw [symmlqTestH_at]
  have hs' : SymmlqOk b bv (symmlqTestH kw matvecMax beta1 s) h := ⟨hs.1, hs.2, hs.3, hs.4, hs.5, hs.6, hs.7, hs.8⟩
  generalize symmlqTestH kw matvecMax beta1 s = u at hs' ⊢
  change ∃ s' h', (if u.broke then _ else _ : HeapE W _) h = _ ∧ SymmlqRel b bv s' (if u.broke then _ else _) h'
  cases hb : u.broke with
  | true => exact ⟨u, h, rfl, rfl, hs'⟩
  | false => exact symmlqUpdateH_eval self hop kw b bv u calls h hs'

theorem symmlqFinishH_eval (self : SymmlqObjH W) (hop : ∀ h l, self.op.same h l = false) (kw : SymmlqKw S) (beta1 : S) (b : Nat) (bv : W)
    (s : SymmlqLoop S Nat) (lqnorm diag : S) (calls : List W) (h : Heap W) (hs : SymmlqOk b bv s h) :
    ∃ r h', symmlqFinishH self kw beta1 b s lqnorm diag h = (.ok r, h') ∧
      (symmlqFinish self.at kw beta1 bv (s.at h calls) lqnorm diag).1 = r.at h' := by
  have hx := hs.x; have hw := hs.w; have hb := hs.lb
  unfold symmlqFinishH symmlqFinish
  dsimp only [SymmlqLoop.at, SymmlqObjH.at]
  obtain ⟨X1, hX1⟩ : ∃ X1 : W, X1 = if lt s.cgnorm lqnorm then h.mem s.x + smul (s.rhs1 / diag) (h.mem s.w) else h.mem s.x := ⟨_, rfl⟩
  rw [← hX1]
  obtain ⟨h1, q1, q2, q3, q4⟩ : ∃ h1, symmlqToCGH (lt s.cgnorm lqnorm) (s.rhs1 / diag) s.x s.w h = (.ok (), h1) ∧ h1.next = h.next ∧
      h1.mem s.x = X1 ∧ ∀ k, k ≠ s.x → h1.mem k = h.mem k := by
    unfold symmlqToCGH
    cases hc : lt s.cgnorm lqnorm with
    | true =>
      refine ⟨_, rfl, rfl, ?_, fun k hk => h.mem_upd_ne _ hk⟩
      rw [hX1, hc]
      exact h.mem_upd_self _ _
    | false =>
      refine ⟨h, rfl, rfl, ?_, fun _ _ => rfl⟩
      rw [hX1, hc]
      rfl
  rw [heapE_bind_eval q1]
  have b1 : h1.mem b = bv := by rw [q4 b hb.2.1]; exact hs.val
  obtain ⟨y, h2, f1, f2, f3, f4, f5⟩ : ∃ y h2, preconOrCopy self.precon b h1 = (.ok y, h2) ∧ h1.Ext h2 ∧ y < h2.next ∧
      h2.mem y = applyPrecon (HOp.fn? self.precon) bv ∧ (y = b ∨ h1.next ≤ y) := by
    unfold preconOrCopy
    cases self.precon with
    | none => exact ⟨_, _, rfl, h1.ext_alloc _, Nat.lt_succ_self _, by rw [h1.mem_alloc_self, b1]; rfl, .inr (le_refl _)⟩
    | some M =>
      obtain ⟨c1, c2, c3, c4⟩ := call_spec M b h1 (by omega)
      exact ⟨_, _, rfl, c2, c3, by rw [c1, b1]; rfl, by omega⟩
  rw [heapE_bind_eval f1, rd_bind, rd_bind, wr_bind]
  have fn := f2.next
  rw [f2.mem s.x (by omega), q3, f4]
  obtain ⟨bs, hbs⟩ : ∃ bs : S, bs = if lt s.cgnorm lqnorm then s.snprod * (s.rhs1 / diag) + s.bstep else s.bstep := ⟨_, rfl⟩
  rw [← hbs]
  obtain ⟨X2, hX2⟩ : ∃ X2 : W, X2 = X1 + smul (bs / beta1) (applyPrecon (HOp.fn? self.precon) bv) := ⟨_, rfl⟩
  rw [← hX2]
  have m3 : (h2.upd s.x X2).mem s.x = X2 := h2.mem_upd_self _ _
  have o3 : ∀ k, k ≠ s.x → (h2.upd s.x X2).mem k = h2.mem k := fun k hk => h2.mem_upd_ne _ hk
  have n3 : (h2.upd s.x X2).next = h2.next := rfl
  generalize h2.upd s.x X2 = h3 at m3 o3 n3 ⊢
  rw [call_bind, (call_new self.op hop s.x h3).1, (call_new self.op hop s.x h3).2, m3]
  have e4 := h3.ext_alloc (self.op.fn X2)
  have m4 : (h3.alloc (self.op.fn X2)).mem h3.next = self.op.fn X2 := h3.mem_alloc_self _
  have n4 : (h3.alloc (self.op.fn X2)).next = h3.next + 1 := rfl
  generalize h3.alloc (self.op.fn X2) = h4 at e4 m4 n4 ⊢
  obtain ⟨h5, d1, d2, d3, d4⟩ := subShiftH_eval (symmlqShift kw) h3.next s.x h4
  have x4 : h4.mem s.x = X2 := by rw [e4.mem _ (by omega), m3]
  have b5 : h5.mem b = bv := by rw [d4 b (by omega), e4.mem b (by omega), o3 b hb.2.1, f2.mem b (by omega), b1]
  rw [heapE_bind_eval d1, rd_bind, rd_bind, new_bind, d3, b5, m4, x4]
  obtain ⟨R, hR⟩ : ∃ R : W, R = bv - subShift (symmlqShift kw) (self.op.fn X2) X2 := ⟨_, rfl⟩
  rw [← hR]
  have e6 := h5.ext_alloc R
  have m6 : (h5.alloc R).mem h5.next = R := h5.mem_alloc_self _
  have n6 : (h5.alloc R).next = h5.next + 1 := rfl
  generalize h5.alloc R = h6 at e6 m6 n6 ⊢
  have x6 : h6.mem s.x = X2 := by rw [e6.mem _ (by omega), d4 _ (by omega), x4]
  rw [rd_bind, rd_bind, heapE_pure, m6, x6]
  refine ⟨_, h6, rfl, ?_⟩
  have hits : s.iterates.map h6.mem = s.iterates.map h.mem := List.map_congr_left fun k hk => by
    have := hs.its k hk
    rw [e6.mem k (by omega), d4 k (by omega), e4.mem k (by omega), o3 k this.2.1, f2.mem k (by omega), q4 k this.2.1]
  simp only [SymmlqRes.at, x6, hits]

theorem symmlqSolveH_sim (self : SymmlqObjH W) (hop : ∀ h l, self.op.same h l = false) (hmv : ReturnsNew self.matvec) (n b : Nat)
    (kw : SymmlqKw S) (h : Heap W) (hb : b < h.next) :
    SimE h (symmlqSolveH self n b kw) ((symmlqSolve self.at n (h.mem b) kw).map Prod.fst) (fun r r' h' => r' = r.at h') := by
  unfold symmlqSolveH symmlqSolve
  refine .new (.new (.append (.rd (.new ?_))))
  have e1 := h.ext_alloc (zeros : W)
  have m1 : (h.alloc (zeros : W)).mem h.next = zeros := h.mem_alloc_self _
  have n1 : (h.alloc (zeros : W)).next = h.next + 1 := rfl
  generalize h.alloc (zeros : W) = h1 at e1 m1 n1 ⊢
  have e2 := h1.ext_alloc (zeros : W)
  have m2 : (h1.alloc (zeros : W)).mem h1.next = zeros := h1.mem_alloc_self _
  have n2 : (h1.alloc (zeros : W)).next = h1.next + 1 := rfl
  generalize h1.alloc (zeros : W) = h2 at e2 m2 n2 ⊢
  obtain ⟨a1, a2⟩ := appendCopy_next kw.storeIterates [] h1.next h2
  have a3 := appendCopy_map kw.storeIterates [] h1.next h2 (fun k hk => by cases hk)
  generalize (appendCopy kw.storeIterates [] h1.next h2).1 = its at a2 a3 ⊢
  generalize (appendCopy kw.storeIterates [] h1.next h2).2 = h3 at a1 a2 a3 ⊢
  have an := a1.next
  rw [m2] at a3
  have b3 : h3.mem b = h.mem b := by rw [a1.mem b (by omega), e2.mem b (by omega), e1.mem b hb]
  have x3 : h3.mem h1.next = (zeros : W) := by rw [a1.mem _ (by omega), m2]
  have w3 : h3.mem h.next = (zeros : W) := by rw [a1.mem _ (by omega), e2.mem _ (by omega), m1]
  have its3 : ∀ k ∈ its, k < h3.next ∧ k ≠ h1.next ∧ k ≠ h.next := fun k hk => by
    rcases a2 k hk with q | q
    · cases q
    · omega
  rw [b3]
  have e4 := h3.ext_alloc (h.mem b)
  have m4 : (h3.alloc (h.mem b)).mem h3.next = h.mem b := h3.mem_alloc_self _
  have n4 : (h3.alloc (h.mem b)).next = h3.next + 1 := rfl
  generalize h3.alloc (h.mem b) = h4 at e4 m4 n4 ⊢
  have b4 : h4.mem b = h.mem b := by rw [e4.mem b (by omega), b3]
  obtain ⟨y, h5, f1, f2, f3, f4⟩ : ∃ y h5, symmlqFirstYH self.precon h3.next b h4 = (.ok y, h5) ∧ h4.Ext h5 ∧ y < h5.next ∧
      h5.mem y = applyPrecon (HOp.fn? self.precon) (h.mem b) := by
    unfold symmlqFirstYH
    cases self.precon with
    | none => exact ⟨_, _, rfl, h4.ext_alloc _, Nat.lt_succ_self _, by rw [h4.mem_alloc_self, b4]; rfl⟩
    | some M =>
      obtain ⟨c1, c2, c3, c4⟩ := call_spec M h3.next h4 (by omega)
      exact ⟨_, _, rfl, c2, c3, by rw [c1, m4]; rfl⟩
  have fn := f2.next
  refine .of_eval f1 ?_
  by_cases hn : n = 0
  · rw [if_pos hn, if_pos hn]
    exact (rfl : PyError.indexError = _)
  rw [if_neg hn, if_neg hn]
  have r5 : h5.mem h3.next = h.mem b := by rw [f2.mem _ (by omega), m4]
  unfold symmlqBodyH
  refine .rd (.rd ?_)
  obtain ⟨h6, g1, g2⟩ := symmlqEntryH_eval self kw h3.next y h5 (by omega) f3 (by rw [f4, r5])
  have gn := g2.next
  refine .of_eval g1 ?_
  have r6 : h6.mem h3.next = h.mem b := by rw [g2.mem _ (by omega), r5]
  have y6 : h6.mem y = applyPrecon (HOp.fn? self.precon) (h.mem b) := by rw [g2.mem _ f3, f4]
  have b6 : h6.mem b = h.mem b := by rw [g2.mem _ (by omega), f2.mem _ (by omega), b4]
  have x6 : h6.mem h1.next = (zeros : W) := by rw [g2.mem _ (by omega), f2.mem _ (by omega), e4.mem _ (by omega), x3]
  have w6 : h6.mem h.next = (zeros : W) := by rw [g2.mem _ (by omega), f2.mem _ (by omega), e4.mem _ (by omega), w3]
  have its6 : its.map h6.mem = if kw.storeIterates then [zeros] else [] := by
    have : its.map h6.mem = its.map h3.mem := List.map_congr_left fun k hk => by
      have := its3 k hk
      rw [g2.mem _ (by omega), f2.mem _ (by omega), e4.mem _ (by omega)]
    rw [this, a3]
    rfl
  have hd : dot (h5.mem h3.next) (h5.mem y) = (dot (h.mem b) (applyPrecon self.at.precon (h.mem b)) : S) := by rw [r5, f4]; rfl
  rw [r5, hd.symm.trans (congrArg (fun z => dot z (h5.mem y)) r5)] at *
  by_cases hg : gt (dot (h.mem b) (h5.mem y) : S) (lit 0) = true
  swap
  · rw [if_neg hg, if_neg hg]
    exact (rfl : PyError.unboundLocal "x1cg" = _)
  rw [if_pos hg, if_pos hg]
  cases hmat : self.matvec with
  | none =>
    have : self.at.matvec = none := by simp [SymmlqObjH.at, hmat, HOp.fn?]
    rw [this]
    exact (rfl : PyError.attribute "matvec" = _)
  | some mv =>
    have : self.at.matvec = some mv.fn := by simp [SymmlqObjH.at, hmat, HOp.fn?]
    rw [this]
    obtain ⟨⟨s, beta1, done⟩, h7, k1, k2, k3⟩ := symmlqStartH_eval self kw mv (hmv mv hmat) b h1.next h.next h3.next y its h6
      ⟨by omega, x6⟩ ⟨by omega, w6⟩ (by omega) ⟨by omega, by omega, by omega⟩ (by omega) (by rw [y6, r6]) ⟨by omega, by omega, by omega⟩
      (by rw [r6, b6]) (fun k hk => by have := its3 k hk; omega) its6
    rw [r6, y6, ← f4] at k1
    refine .of_eval k1 ?_
    rw [b6] at k2 k3
    dsimp only at k2 k3 ⊢
    rw [k2]
    generalize (symmlqStart self.at kw mv.fn (h.mem b)).1.calls = calls
    dsimp only
    unfold symmlqRunH
    obtain ⟨s', h8, j1, j2⟩ : ∃ s' h8, symmlqMainH self kw (kw.matvecMax.getD (2 * n + 2)) beta1 s done h7 = (.ok s', h8) ∧
        SymmlqRel b (h.mem b) s' (if done then s.at h7 calls else
          symmlqLoop self.at kw (kw.matvecMax.getD (2 * n + 2)) beta1 (s.at h7 calls)) h8 := by
      unfold symmlqMainH
      cases done with
      | true => exact ⟨s, h7, rfl, rfl, k3⟩
      | false =>
        refine heapLoop_while (SymmlqRel b (h.mem b)) ?_ ?_ s (s.at h7 calls) h7 ⟨rfl, k3⟩
        · rintro s t g ⟨ht, -⟩
          rw [ht]
          rfl
        · exact fun s t g hs => symmlqStepH_eval self hop kw _ beta1 b _ s t g hs
    refine .of_eval j1 ?_
    obtain ⟨j2, j3⟩ := j2
    generalize (if done then s.at h7 calls else symmlqLoop self.at kw (kw.matvecMax.getD (2 * n + 2)) beta1 (s.at h7 calls)) = t at j2 ⊢
    rw [j2]
    generalize t.calls = calls'
    change SimE h8 (match s'.lqDiag with | none => _ | some (lqnorm, diag) => _) (Except.map Prod.fst (match s'.lqDiag with | none => _ | some (lqnorm, diag) => _)) _
    cases s'.lqDiag with
    | none => exact (rfl : PyError.unboundLocal "lqnorm" = _)
    | some p =>
      obtain ⟨r, h9, z1, z2⟩ := symmlqFinishH_eval self hop kw beta1 b (h.mem b) s' p.1 p.2 calls' h8 j3
      unfold SimE
      dsimp only
      rw [z1]
      exact z2

end Verif.Solver
