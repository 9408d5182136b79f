import Verif.Solver.InterruptLs
import Verif.Solver.TypedMath

/-!
# Lemmas about interrupted calls: CG, CGS, Bi-CGSTAB, TFQMR and MINRES
-/

namespace Verif.Solver
open Scalar Vect

section
variable {σ α : Type} {cont : σ → Bool} {step : σ → σ} {μ : σ → Nat}
  {h : ∀ s, cont s = true → cont (step s) = true → μ (step s) < μ s} {ev : σ → σ → List α}

theorem traceWhile_fst (s : σ) (w : List α) : (traceWhile cont step μ h ev s w).1 = whileLoop cont step μ h s :=
  whileLoop_sim (fun (p : σ × List α) (t : σ) => p.1 = t) (fun _ _ hp => by rw [hp]) (fun _ _ hp _ => by simp only [hp]) _ _ rfl

theorem traceWhile_inv (P : σ → List α → Prop) (hP : ∀ s w, P s w → cont s = true → P (step s) (w ++ ev s (step s))) {s : σ}
    {w : List α} (hs : P s w) : P (traceWhile cont step μ h ev s w).1 (traceWhile cont step μ h ev s w).2 :=
  (whileLoop_inv (fun p : σ × List α => P p.1 p.2) (fun p hp hc => hP p.1 p.2 hp hc) (s, w) hs).1

end

variable {S V : Type} [Scalar S] [Vect S V]

/-! ### CG -/

/-- the entries recorded so far are the end of the list -/
def RecFrom {β : Type} (f : β → PyV S V V) (k : String) (base l : List β) (w : List (Wr S V V)) : Prop :=
  ∃ e, l = base ++ e ∧ recorded k w = e.map f

structure CgRec (kw : CGKw V) (obj : CGObj S V) (r0 : S) (s : CGLoop S V) (w : List (Wr S V V)) : Prop where
  keys : ∀ e ∈ w, (e.isSet = true ∧ e.key ∈ ["residNorm0", "infiniteDescent"]) ∨
    ∃ k ∈ ["iterates", "resids", "residHistory"], ∃ l, e = .app k l
  iterates : RecFrom .vec "iterates" obj.iterates s.iterates w
  resids : RecFrom .vec "resids" obj.resids s.resids w
  history : RecFrom .scal "residHistory" obj.residHistory s.residHistory w
  lenI : kw.storeIterates = true → counts w "iterates" = counts w "residHistory"
  lenR : kw.storeResids = true → counts w "resids" = counts w "residHistory"
  sets : w.filter Wr.isSet = [.set "residNorm0" (.scal r0)] ++
    (if s.definite = false then [.set "infiniteDescent" (PyV.opt .vec s.infiniteDescent)] else [])
  pre : AllPre (fun v => cgOrder kw.storeIterates kw.storeResids (counts v)) w

theorem cgRec_begin (op : V → V) (o : KrylovOpts S V) (self : CGObj S V) (rhs : V) (kw : CGKw V) :
    CgRec kw self (cgInit op o kw self rhs).1.residNorm (cgInit op o kw self rhs).1 (cgBegin self (cgInit op o kw self rhs).1) := by
  have hi : Grows kw.storeIterates self.iterates (cgInit op o kw self rhs).1.iterates := grows_ite _ _ _
  have hr : Grows kw.storeResids self.resids (cgInit op o kw self rhs).1.resids := grows_ite _ _ _
  have hh : ∃ e, (cgInit op o kw self rhs).1.residHistory = self.residHistory ++ [e] := ⟨_, rfl⟩
  have hd : (cgInit op o kw self rhs).1.definite = true := rfl
  generalize (cgInit op o kw self rhs).1 = s at *
  obtain ⟨i, hi, li⟩ := hi
  obtain ⟨r, hr, lr⟩ := hr
  obtain ⟨e, hh⟩ := hh
  unfold cgBegin
  rw [hi, hr, hh]
  simp only [newEntries_append]
  constructor
  · intro e he
    simp only [List.mem_cons, List.not_mem_nil, or_false] at he
    rcases he with rfl | rfl | rfl | rfl <;> simp [Wr.isSet, Wr.key]
  · exact ⟨i, hi, by simp⟩
  · exact ⟨r, hr, by simp⟩
  · exact ⟨[e], hh, by simp⟩
  · intro h1
    simp [counts, li, h1]
  · intro h1
    simp [counts, lr, h1]
  · simp [List.filter_cons, Wr.isSet, hd]
  · intro c hc
    simp only [List.prefix_cons_iff, List.prefix_nil] at hc
    refine ⟨fun h1 => ?_, fun h1 => ?_, fun h1 h2 => ?_⟩
    · simp only [h1, if_true] at li
      rcases hc with rfl | ⟨-, rfl, rfl | ⟨-, rfl, rfl | ⟨-, rfl, rfl | ⟨-, rfl, rfl⟩⟩⟩⟩ <;> simp [counts, li]
    · simp only [h1, if_true] at lr
      rcases hc with rfl | ⟨-, rfl, rfl | ⟨-, rfl, rfl | ⟨-, rfl, rfl | ⟨-, rfl, rfl⟩⟩⟩⟩ <;> simp [counts, lr]
    · simp only [h1, if_true] at li
      simp only [h2, if_true] at lr
      rcases hc with rfl | ⟨-, rfl, rfl | ⟨-, rfl, rfl | ⟨-, rfl, rfl | ⟨-, rfl, rfl⟩⟩⟩⟩ <;> simp [counts, li, lr]

theorem RecFrom.step {β : Type} {f : β → PyV S V V} {k : String} {base l e : List β} {w b : List (Wr S V V)} (h : RecFrom f k base l w)
    (hb : recorded k b = e.map f) : RecFrom f k base (l ++ e) (w ++ b) := by
  obtain ⟨e', h1, h2⟩ := h
  exact ⟨e' ++ e, by rw [h1, List.append_assoc], by rw [recorded_append, h2, hb, List.map_append]⟩

theorem cgStep_lists (op : V → V) (precon : Option (V → V)) (kw : CGKw V) (s : CGLoop S V) (hs : s.definite = true) :
    ((cgStep op precon kw s).definite = false ∧ (cgStep op precon kw s).infiniteDescent = some s.p ∧
      (cgStep op precon kw s).iterates = s.iterates ∧ (cgStep op precon kw s).resids = s.resids ∧
      (cgStep op precon kw s).residHistory = s.residHistory) ∨
    ((cgStep op precon kw s).definite = true ∧ Grows kw.storeIterates s.iterates (cgStep op precon kw s).iterates ∧
      Grows kw.storeResids s.resids (cgStep op precon kw s).resids ∧
      ∃ e, (cgStep op precon kw s).residHistory = s.residHistory ++ [e]) := by
  unfold cgStep
  dsimp only
  split
  · exact .inl ⟨rfl, rfl, rfl, rfl, rfl⟩
  · exact .inr ⟨hs, grows_ite _ _ _, grows_ite _ _ _, _, rfl⟩

theorem cgRec_step {op : V → V} {precon : Option (V → V)} {kw : CGKw V} {self : CGObj S V} {r0 : S} {s : CGLoop S V}
    {w : List (Wr S V V)} (hs : CgRec kw self r0 s w) (hd : s.definite = true) :
    CgRec kw self r0 (cgStep op precon kw s) (w ++ cgEvents s (cgStep op precon kw s)) := by
  have hsets := hs.sets
  rw [hd] at hsets
  simp only [Bool.true_eq_false, if_false, List.append_nil] at hsets
  rcases cgStep_lists op precon kw s hd with ⟨hd', hp, hi, hr, hh⟩ | ⟨hd', ⟨i, hi, li⟩, ⟨r, hr, lr⟩, ⟨e, hh⟩⟩
  · generalize cgStep op precon kw s = t at *
    unfold cgEvents
    rw [hd']
    simp only [Bool.false_eq_true, if_false]
    constructor
    · intro e he
      rcases List.mem_append.1 he with he | he
      · exact hs.keys e he
      · simp only [List.mem_cons, List.not_mem_nil, or_false] at he
        subst he
        simp [Wr.isSet, Wr.key]
    · rw [hi]
      exact (List.append_nil s.iterates) ▸ hs.iterates.step (e := []) (by simp)
    · rw [hr]
      exact (List.append_nil s.resids) ▸ hs.resids.step (e := []) (by simp)
    · rw [hh]
      exact (List.append_nil s.residHistory) ▸ hs.history.step (e := []) (by simp)
    · intro h1
      simpa [counts] using hs.lenI h1
    · intro h1
      simpa [counts] using hs.lenR h1
    · simp [hsets, hd', hp, Wr.isSet, PyV.opt]
    · refine hs.pre.append fun c hc => ?_
      simp only [List.prefix_cons_iff, List.prefix_nil] at hc
      have := hs.pre w List.prefix_rfl
      rcases hc with rfl | ⟨-, rfl, rfl⟩
      · rwa [List.append_nil]
      · simpa [cgOrder, counts] using this
  · generalize cgStep op precon kw s = t at *
    unfold cgEvents
    rw [hd', hi, hr, hh]
    simp only [if_true, newEntries_append]
    constructor
    · intro e he
      rcases List.mem_append.1 he with he | he
      · exact hs.keys e he
      · simp only [List.mem_cons, List.not_mem_nil, or_false] at he
        rcases he with rfl | rfl | rfl <;> simp
    · rw [hi]
      exact hs.iterates.step (by simp)
    · rw [hr]
      exact hs.resids.step (by simp)
    · rw [hh]
      exact hs.history.step (by simp)
    · intro h1
      have := hs.lenI h1
      simp only [counts] at this
      simp [counts, li, h1, this]
    · intro h1
      have := hs.lenR h1
      simp only [counts] at this
      simp [counts, lr, h1, this]
    · simp [hsets, hd', Wr.isSet]
    · refine hs.pre.append fun c hc => ?_
      simp only [List.prefix_cons_iff, List.prefix_nil] at hc
      refine ⟨fun h1 => ?_, fun h1 => ?_, fun h1 h2 => ?_⟩
      · simp only [h1, if_true] at li
        have := hs.lenI h1
        simp only [counts] at this
        rcases hc with rfl | ⟨-, rfl, rfl | ⟨-, rfl, rfl | ⟨-, rfl, rfl⟩⟩⟩ <;> simp [counts, li, this]
      · simp only [h1, if_true] at lr
        have := hs.lenR h1
        simp only [counts] at this
        rcases hc with rfl | ⟨-, rfl, rfl | ⟨-, rfl, rfl | ⟨-, rfl, rfl⟩⟩⟩ <;> simp [counts, lr, this]
      · simp only [h1, if_true] at li
        simp only [h2, if_true] at lr
        have := hs.lenI h1
        have := hs.lenR h2
        simp only [counts] at *
        rcases hc with rfl | ⟨-, rfl, rfl | ⟨-, rfl, rfl | ⟨-, rfl, rfl⟩⟩⟩ <;> simp [li, lr] <;> omega

theorem cg_interrupted {op : V → V} {o : KrylovOpts S V} {n : Nat} {self : CGObj S V} {rhs : V} {kw : CGKw V} {a a' : Attrs S V V}
    (hself : HasLists self a) (hsym : (kw.checkSymmetric && !kw.symOK) = false) (hl : (cgTrace op o n self rhs kw).Leaves a a') :
    writeAll (cgTrace op o n self rhs kw).all a = writeAll (cgWrites self (cgSolve op o n self rhs kw).1) a ∧
    LeftBehind (cgLists self (cgSolve op o n self rhs kw).1) ["residNorm0", "infiniteDescent"] (cgOrder kw.storeIterates kw.storeResids)
      (writeAll (cgWrites self (cgSolve op o n self rhs kw).1) a) a a' := by
  obtain ⟨ha1, ha2, ha3⟩ := hself
  have hrec : CgRec kw self (cgInit op o kw self rhs).1.residNorm
      (cgTraced op o.precon kw (cgInit op o kw self rhs).2 (kw.matvecMax.getD (2 * n)) (cgInit op o kw self rhs).1
        (cgBegin self (cgInit op o kw self rhs).1)).1
      (cgTraced op o.precon kw (cgInit op o kw self rhs).2 (kw.matvecMax.getD (2 * n)) (cgInit op o kw self rhs).1
        (cgBegin self (cgInit op o kw self rhs).1)).2 :=
    traceWhile_inv (CgRec kw self (cgInit op o kw self rhs).1.residNorm) (fun s w hs hc => cgRec_step hs (by
      simp only [cgCont, Bool.and_eq_true] at hc
      exact hc.2)) (cgRec_begin op o self rhs kw)
  have hfst : (cgTraced op o.precon kw (cgInit op o kw self rhs).2 (kw.matvecMax.getD (2 * n)) (cgInit op o kw self rhs).1
        (cgBegin self (cgInit op o kw self rhs).1)).1 =
      cgLoop op o.precon kw (cgInit op o kw self rhs).2 (kw.matvecMax.getD (2 * n)) (cgInit op o kw self rhs).1 := by
    unfold cgTraced
    rw [traceWhile_fst, ← cgLoop_eq]
  have hres : (cgSolve op o n self rhs kw).1 =
      let s := (cgTraced op o.precon kw (cgInit op o kw self rhs).2 (kw.matvecMax.getD (2 * n)) (cgInit op o kw self rhs).1
        (cgBegin self (cgInit op o kw self rhs).1)).1
      { residHistory := s.residHistory, resids := s.resids, iterates := s.iterates,
        infiniteDescent := s.infiniteDescent, converged := le s.residNorm (cgInit op o kw self rhs).2, definite := some s.definite,
        nMatvec := s.nMatvec, x := some s.x, residNorm := some s.residNorm,
        residNorm0 := some (cgInit op o kw self rhs).1.residNorm } := by
    unfold cgSolve
    rw [hsym, hfst]
    rfl
  unfold cgTrace at hl ⊢
  dsimp only at hl ⊢
  rw [hres]
  generalize (cgTraced op o.precon kw (cgInit op o kw self rhs).2 (kw.matvecMax.getD (2 * n)) (cgInit op o kw self rhs).1
        (cgBegin self (cgInit op o kw self rhs).1)) = q at *
  obtain ⟨s, w⟩ := q
  dsimp only at hl hrec ⊢
  generalize (cgInit op o kw self rhs).1.residNorm = r0 at *
  generalize (cgInit op o kw self rhs).2 = threshold at *
  have hnew : ∀ {β : Type} {f : β → PyV S V V} {k : String} {base l : List β}, RecFrom f k base l w →
      recorded k w = newEntries f base l := by
    intro β f k base l hr
    obtain ⟨e, rfl, he⟩ := hr
    rw [newEntries_append, he]
  refine interrupted (apps := [.app "iterates" (newEntries .vec self.iterates s.iterates),
      .app "resids" (newEntries .vec self.resids s.resids), .set "residNorm0" (.scal r0),
      .app "residHistory" (newEntries .scal self.residHistory s.residHistory)] ++
      (if s.definite = false then [.set "infiniteDescent" (PyV.opt .vec s.infiniteDescent)] else []))
    ?_ (fun e he => ?_) (fun L hL => ?_) (fun e he => ?_) (fun e he => ?_) (fun L hL => ?_) (fun L hL => ?_)
    ?_ hrec.pre (fun k hk => ?_) ?_ ?_ hl
  · simp [cgWrites, cgEnd, PyV.opt]
  · cases he
  · simp only [cgLists, List.mem_cons, List.not_mem_nil, or_false] at hL
    rcases hL with rfl | rfl | rfl
    · exact ha1
    · exact ha2
    · exact ha3
  · rcases hrec.keys e he with ⟨h1, h2⟩ | ⟨k, hk, l, rfl⟩
    · refine .inl ⟨h1, h2, ?_⟩
      simp only [List.mem_cons, List.not_mem_nil, or_false] at h2
      rcases h2 with h2 | h2 <;> simp [h2, cgLists]
    · right
      simp only [List.mem_cons, List.not_mem_nil, or_false] at hk
      rcases hk with rfl | rfl | rfl <;> simp [cgLists]
  · rcases List.mem_append.1 he with he | he
    · simp only [List.mem_cons, List.not_mem_nil, or_false] at he
      rcases he with rfl | rfl | rfl | rfl <;> simp [cgLists, Wr.isSet, Wr.key]
    · split_ifs at he <;> simp at he
      subst he
      simp [cgLists, Wr.isSet, Wr.key]
  · simp only [cgLists, List.mem_cons, List.not_mem_nil, or_false] at hL
    rcases hL with rfl | rfl | rfl
    · exact hnew hrec.iterates
    · exact hnew hrec.resids
    · exact hnew hrec.history
  · simp only [cgLists, List.mem_cons, List.not_mem_nil, or_false] at hL
    rcases hL with rfl | rfl | rfl <;> split_ifs <;> simp
  · rw [hrec.sets]
    split_ifs <;> simp [List.filter_cons, Wr.isSet]
  · simp [cgEnd, Wr.key] at hk
    aesop (add norm unfold cgLists)
  · simp [cgEnd, Wr.key]
  · simp [cgLists]

theorem cgTrace_shape (op : V → V) (o : KrylovOpts S V) (n : Nat) (self : CGObj S V) (rhs : V) (kw : CGKw V)
    (hsym : (kw.checkSymmetric && !kw.symOK) = false) :
    ∃ w s threshold, cgTrace op o n self rhs kw = { first := [], middle := w, last := cgEnd threshold s } ∧
      (cgSolve op o n self rhs kw).1.converged = le s.residNorm threshold ∧ "x" ∉ w.map Wr.key := by
  have hrec := traceWhile_inv (h := fun s h _ => by
      simp only [cgCont, Bool.and_eq_true, decide_eq_true_eq] at h
      rw [cgStep_nMatvec]; omega) (cont := cgCont (cgInit op o kw self rhs).2 (kw.matvecMax.getD (2 * n)))
    (step := cgStep op o.precon kw) (ev := cgEvents) (μ := fun s => kw.matvecMax.getD (2 * n) - s.nMatvec)
    (CgRec kw self (cgInit op o kw self rhs).1.residNorm) (fun s w hs hc => cgRec_step hs (by
      simp only [cgCont, Bool.and_eq_true] at hc
      exact hc.2)) (cgRec_begin op o self rhs kw)
  refine ⟨_, _, _, rfl, ?_, fun hx => ?_⟩
  · unfold cgSolve cgTraced
    rw [hsym, traceWhile_fst, ← cgLoop_eq]
    rfl
  · obtain ⟨e, he, hk⟩ := List.mem_map.1 hx
    rcases hrec.keys e he with ⟨-, h⟩ | ⟨k, h, l, rfl⟩
    · rw [hk] at h
      simp at h
    · rw [show k = "x" from hk] at h
      simp at h

theorem cg_lists_prefix (op : V → V) (o : KrylovOpts S V) (n : Nat) (self : CGObj S V) (rhs : V) (kw : CGKw V)
    (hsym : (kw.checkSymmetric && !kw.symOK) = false) :
    self.iterates <+: (cgSolve op o n self rhs kw).1.iterates ∧ self.resids <+: (cgSolve op o n self rhs kw).1.resids ∧
      self.residHistory <+: (cgSolve op o n self rhs kw).1.residHistory := by
  have hrec := traceWhile_inv (h := fun s h _ => by
      simp only [cgCont, Bool.and_eq_true, decide_eq_true_eq] at h
      rw [cgStep_nMatvec]; omega) (cont := cgCont (cgInit op o kw self rhs).2 (kw.matvecMax.getD (2 * n)))
    (step := cgStep op o.precon kw) (ev := cgEvents) (μ := fun s => kw.matvecMax.getD (2 * n) - s.nMatvec)
    (CgRec kw self (cgInit op o kw self rhs).1.residNorm) (fun s w hs hc => cgRec_step hs (by
      simp only [cgCont, Bool.and_eq_true] at hc
      exact hc.2)) (cgRec_begin op o self rhs kw)
  rw [traceWhile_fst, ← cgLoop_eq] at hrec
  unfold cgSolve
  rw [hsym]
  obtain ⟨i, hi, -⟩ := hrec.iterates
  obtain ⟨r, hr, -⟩ := hrec.resids
  obtain ⟨h, hh, -⟩ := hrec.history
  exact ⟨⟨i, hi.symm⟩, ⟨r, hr.symm⟩, ⟨h, hh.symm⟩⟩

theorem cgWrites_values (self res : CGObj S V) (p1 : self.iterates <+: res.iterates) (p2 : self.resids <+: res.resids)
    (p3 : self.residHistory <+: res.residHistory) (a : Attrs S V V) (hself : HasLists self a) :
    let full := writeAll (cgWrites self res) a
    full "x" = some (PyV.opt .vec res.x) ∧ full "bestSolution" = some (PyV.opt .vec res.x) ∧
      full "converged" = some (.bool res.converged) ∧ full "definite" = some (PyV.opt .bool res.definite) ∧
      full "nMatvec" = some (.int res.nMatvec) ∧ full "residNorm" = some (PyV.opt .scal res.residNorm) ∧
      full "residNorm0" = some (PyV.opt .scal res.residNorm0) ∧
      (res.definite = some false → full "infiniteDescent" = some (PyV.opt .vec res.infiniteDescent)) ∧ HasLists res full := by
  obtain ⟨h1, h2, h3⟩ := hself
  have hcat : ∀ {β : Type} (f : β → PyV S V V) {l l' : List β}, l <+: l' → l.map f ++ newEntries f l l' = l'.map f := by
    intro β f l l' hl
    obtain ⟨e, rfl⟩ := hl
    rw [newEntries_append, List.map_append]
  have e1 := hcat (PyV.vec (S := S) (U := V)) p1
  have e2 := hcat (PyV.vec (S := S) (U := V)) p2
  have e3 := hcat (PyV.scal (U := V) (V := V)) p3
  by_cases hd : res.definite = some false <;>
    simp [cgWrites, writeAll_eq, Wr.step, hd, HasLists, h1, h2, h3, e1, e2, e3]

/-! ### CGS, Bi-CGSTAB and TFQMR -/

theorem krylov_interrupted {res : KrylovRes S V} {a a' : Attrs S V V} (hl : (krylovTrace res).Leaves a a') :
    writeAll (krylovTrace res).all a = writeAll (krylovWrites res) a ∧
    LeftBehind [] ["residNorm0"] (fun _ => True) (writeAll (krylovWrites res) a) a a' := by
  refine interrupted (apps := []) (by simp [krylovWrites, krylovTrace]) (fun e he => ?_) (by simp) (by simp [krylovTrace]) (by simp) (by simp)
    (by simp) (by simp [krylovTrace]) (fun _ _ => trivial) (by simp) (by simp [krylovTrace, Wr.key]) (by simp) hl
  simp only [krylovTrace, List.mem_cons, List.not_mem_nil, or_false] at he
  subst he
  simp [Wr.key]

/-! ### MINRES -/

structure MinresRec (kw : MinresKw S V) (sets : List (Wr S V V)) (s : MinresLoop S V) (w : List (Wr S V V)) : Prop where
  keys : ∀ e ∈ w, (e.isSet = true ∧ e.key ∈ ["show", "residNorm0"]) ∨
    ∃ k ∈ ["iterates", "dir_errors_window", "residHistory"], ∃ l, e = .app k l
  iterates : recorded "iterates" w = s.iterates.map .vec
  dirErrors : recorded "dir_errors_window" w = s.dirErrors.map .scal
  history : recorded "residHistory" w = s.residHistory.map .scal
  lens : kw.storeIterates = true → s.iterates.length = s.residHistory.length + 1
  sets : w.filter Wr.isSet = sets
  pre : AllPre (fun v => minresOrder kw.storeIterates (counts v)) w

/-- the assignments before the loop -/
def minresSets (show' : Bool) (beta1 : S) : List (Wr S V V) :=
  (if show' then [.set "show" (.bool true)] else []) ++ [.set "residNorm0" (.scal beta1)]

theorem minresRec_begin (kw : MinresKw S V) (b : V) (show' : Bool) (beta1 : S) :
    MinresRec kw (minresSets show' beta1) (minresInit kw {} b) (minresBegin show' beta1 (minresInit kw {} b)) := by
  have hi : Grows kw.storeIterates [] (minresInit kw {} b).iterates := grows_ite _ [] _
  have hd : (minresInit kw {} b).dirErrors = [] := rfl
  have hh : (minresInit kw {} b).residHistory = [] := rfl
  generalize minresInit kw {} b = s at *
  obtain ⟨i, hi, li⟩ := hi
  simp only [List.nil_append] at hi
  unfold minresBegin
  constructor
  · intro e he
    cases show' <;> simp at he <;> rcases he with rfl | rfl | rfl <;> simp [Wr.isSet, Wr.key]
  · cases show' <;> simp
  · cases show' <;> simp [hd]
  · cases show' <;> simp [hh]
  · intro h1
    simp [hi, hh, li, h1]
  · cases show' <;> simp [List.filter_cons, minresSets, Wr.isSet]
  · intro c hc h1
    simp only [h1, if_true] at li
    cases show'
    · simp only [Bool.false_eq_true, if_false, List.cons_append, List.nil_append, List.prefix_cons_iff, List.prefix_nil] at hc
      rcases hc with rfl | ⟨-, rfl, rfl | ⟨-, rfl, rfl⟩⟩ <;> simp [counts, hi, li]
    · simp only [if_true, List.cons_append, List.nil_append, List.prefix_cons_iff, List.prefix_nil] at hc
      rcases hc with rfl | ⟨-, rfl, rfl | ⟨-, rfl, rfl | ⟨-, rfl, rfl⟩⟩⟩ <;> simp [counts, hi, li]

theorem minresStep_lists (op : V → V) (eps : S) (kw : MinresKw S V) (itnlim : Nat) (beta1 : S) (s : MinresLoop S V) :
    ((minresStep op eps kw itnlim beta1 s).iterates = s.iterates ∧ (minresStep op eps kw itnlim beta1 s).dirErrors = s.dirErrors ∧
      (minresStep op eps kw itnlim beta1 s).residHistory = s.residHistory) ∨
    (Grows kw.storeIterates s.iterates (minresStep op eps kw itnlim beta1 s).iterates ∧
      s.dirErrors <+: (minresStep op eps kw itnlim beta1 s).dirErrors ∧
      ∃ e, (minresStep op eps kw itnlim beta1 s).residHistory = s.residHistory ++ [e]) := by
  unfold minresStep
  dsimp only
  split
  · exact .inl ⟨rfl, rfl, rfl⟩
  · exact .inr ⟨grows_ite _ _ _, prefix_ite _ _ _, _, rfl⟩

theorem minresRec_step {op : V → V} {eps : S} {kw : MinresKw S V} {itnlim : Nat} {beta1 : S} {sets : List (Wr S V V)}
    {s : MinresLoop S V} {w : List (Wr S V V)} (hs : MinresRec kw sets s w) :
    MinresRec kw sets (minresStep op eps kw itnlim beta1 s) (w ++ minresEvents s (minresStep op eps kw itnlim beta1 s)) := by
  rcases minresStep_lists op eps kw itnlim beta1 s with ⟨hi, hd, hh⟩ | ⟨⟨i, hi, li⟩, ⟨d, hd⟩, ⟨e, hh⟩⟩
  · generalize minresStep op eps kw itnlim beta1 s = t at *
    have hn : ∀ {β : Type} (f : β → PyV S V V) (l : List β), newEntries f l l = [] := by simp [newEntries]
    unfold minresEvents
    rw [hi, hd, hh]
    simp only [hn]
    constructor
    · intro e he
      rcases List.mem_append.1 he with he | he
      · exact hs.keys e he
      · simp only [List.mem_cons, List.not_mem_nil, or_false] at he
        rcases he with rfl | rfl | rfl <;> simp
    · simp [hs.iterates, hi]
    · simp [hs.dirErrors, hd]
    · simp [hs.history, hh]
    · rw [hi, hh]
      exact hs.lens
    · simp [hs.sets, Wr.isSet]
    · refine hs.pre.append fun c hc h1 => ?_
      have := hs.lens h1
      simp only [List.prefix_cons_iff, List.prefix_nil] at hc
      rcases hc with rfl | ⟨-, rfl, rfl | ⟨-, rfl, rfl | ⟨-, rfl, rfl⟩⟩⟩ <;> simp [counts, hs.iterates, hs.history, this]
  · generalize minresStep op eps kw itnlim beta1 s = t at *
    unfold minresEvents
    rw [hi, ← hd, hh]
    simp only [newEntries_append]
    constructor
    · intro e he
      rcases List.mem_append.1 he with he | he
      · exact hs.keys e he
      · simp only [List.mem_cons, List.not_mem_nil, or_false] at he
        rcases he with rfl | rfl | rfl <;> simp
    · simp [hs.iterates, hi]
    · simp [hs.dirErrors, ← hd]
    · simp [hs.history, hh]
    · intro h1
      have := hs.lens h1
      simp [hi, hh, li, h1, this]
    · simp [hs.sets, Wr.isSet]
    · refine hs.pre.append fun c hc h1 => ?_
      have := hs.lens h1
      simp only [h1, if_true] at li
      simp only [List.prefix_cons_iff, List.prefix_nil] at hc
      rcases hc with rfl | ⟨-, rfl, rfl | ⟨-, rfl, rfl | ⟨-, rfl, rfl⟩⟩⟩ <;>
        simp [counts, hs.iterates, hs.history, li, this] <;> omega

theorem minres_interrupted {op : V → V} {eps : S} {n : Nat} {b : V} {kw : MinresKw S V} {run : MinresRes S V × List V}
    {old : List (PyV S V V)} {a a' : Attrs S V V} (hold : a "residHistory" = some (.list old))
    (h : minresSolve op eps n {} b kw = .ok run) (hl : (minresTrace op eps n b kw).Leaves a a') :
    writeAll (minresTrace op eps n b kw).all a = writeAll (minresWrites (minresShow kw b) run.1) a ∧
    LeftBehind (minresLists old run.1) ["show", "residNorm0"] (minresOrder kw.storeIterates)
      (writeAll (minresWrites (minresShow kw b) run.1) a) a a' := by
  have hspec : ∃ w, minresTrace op eps n b kw = { first := minresEmpty, middle := w, last := minresEnd run.1 } ∧
      ∃ s, run.1 = minresResult (minresStart kw b).2 s ∧
        MinresRec kw (minresSets (minresShow kw b) (minresStart kw b).2) s w := by
    unfold minresSolve at h
    unfold minresTrace
    dsimp only at h ⊢
    have hb := minresRec_begin kw b (minresShow kw b) (minresStart kw b).2
    by_cases hd : (minresEntry kw b).2 = true
    · simp only [hd, if_true] at h ⊢
      cases h
      exact ⟨_, rfl, _, rfl, hb⟩
    · simp only [hd, Bool.false_eq_true, if_false] at h ⊢
      split_ifs at h
      cases h
      have hi := traceWhile_inv (h := fun s h _ => by
        simp only [minresCont, Bool.and_eq_true, decide_eq_true_eq] at h
        have := minresStep_itn op eps kw (kw.itnlim.getD (5 * n)) (minresStart kw b).2 s
        omega) (cont := minresCont (kw.itnlim.getD (5 * n)))
        (step := minresStep op eps kw (kw.itnlim.getD (5 * n)) (minresStart kw b).2) (ev := minresEvents)
        (μ := fun s => kw.itnlim.getD (5 * n) - s.itn) (MinresRec kw _) (fun s w hs _ => minresRec_step hs) hb
      rw [traceWhile_fst] at hi
      refine ⟨_, ?_, _, rfl, hi⟩
      unfold minresTraced minresLoop
      rw [traceWhile_fst]
  obtain ⟨w, hw, s, hres, hrec⟩ := hspec
  rw [hw] at hl ⊢
  refine interrupted (apps := [.app "iterates" (run.1.iterates.map .vec)] ++ minresSets (minresShow kw b) (minresStart kw b).2 ++
      [.app "dir_errors_window" (run.1.dirErrors.map .scal), .app "residHistory" (run.1.residHistory.map .scal)])
    ?_ (fun e he => ?_) (fun L hL => ?_) (fun e he => ?_) (fun e he => ?_) (fun L hL => ?_) (fun L hL => ?_)
    ?_ hrec.pre (fun k hk => ?_) ?_ ?_ hl
  · have : run.1.residNorm0 = (minresStart kw b).2 := by rw [hres]; rfl
    simp [minresWrites, minresEmpty, minresSets, minresEnd, this]
  · simp only [minresEmpty, List.mem_cons, List.not_mem_nil, or_false] at he
    rcases he with rfl | rfl <;> simp [minresLists]
  · simp only [minresLists, List.mem_cons, List.not_mem_nil, or_false] at hL
    rcases hL with rfl | rfl | rfl <;> simp [minresEmpty, writeAll, Wr.exec, hold]
  · rcases hrec.keys e he with ⟨h1, h2⟩ | ⟨k, hk, l, rfl⟩
    · refine .inl ⟨h1, h2, ?_⟩
      simp only [List.mem_cons, List.not_mem_nil, or_false] at h2
      rcases h2 with h2 | h2 <;> simp [h2, minresLists]
    · right
      simp only [List.mem_cons, List.not_mem_nil, or_false] at hk
      rcases hk with rfl | rfl | rfl <;> simp [minresLists]
  · unfold minresSets at he
    cases hsh : minresShow kw b <;> simp [hsh] at he
    · rcases he with rfl | rfl | rfl | rfl <;> simp [minresLists, Wr.isSet, Wr.key]
    · rcases he with rfl | rfl | rfl | rfl | rfl <;> simp [minresLists, Wr.isSet, Wr.key]
  · simp only [minresLists, List.mem_cons, List.not_mem_nil, or_false] at hL
    rw [hres] at hL
    rcases hL with rfl | rfl | rfl
    · exact hrec.iterates
    · exact hrec.dirErrors
    · exact hrec.history
  · simp only [minresLists, List.mem_cons, List.not_mem_nil, or_false] at hL
    unfold minresSets
    rcases hL with rfl | rfl | rfl <;> split_ifs <;> simp
  · rw [hrec.sets]
    unfold minresSets
    split_ifs <;> simp [List.filter_cons, Wr.isSet]
  · unfold minresEnd at hk
    split_ifs at hk <;> simp [Wr.key] at hk <;> aesop (add norm unfold minresLists)
  · unfold minresEnd
    split_ifs <;> simp [Wr.key]
  · simp [minresLists]

end Verif.Solver
