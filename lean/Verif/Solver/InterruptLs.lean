import Verif.Solver.InterruptLemmas

/-!
# Lemmas about interrupted calls: LSQR, LSMR, CRAIG and CRAIG-MR
-/

namespace Verif.Solver
open Scalar Vect

variable {S U V : Type} [Scalar S] [Vect S U] [Vect S V]

/-- `l'` is `l`, with one more entry if `b` -/
def Grows {β : Type} (b : Bool) (l l' : List β) : Prop := ∃ e, l' = l ++ e ∧ e.length = if b then 1 else 0

theorem grows_ite {β : Type} (b : Bool) (l : List β) (x : β) : Grows b l (if b then l ++ [x] else l) := by
  cases b
  · exact ⟨[], by simp, rfl⟩
  · exact ⟨[x], rfl, rfl⟩

theorem prefix_ite {β : Type} (P : Prop) [Decidable P] (l : List β) (x : β) : l <+: if P then l ++ [x] else l := by
  split_ifs
  · exact ⟨_, rfl⟩
  · exact List.prefix_rfl

/-! ### LSQR -/

theorem lsqrStep_lists {A : V → U} {AT : U → V} {kw : LsqrKw S U V} {lim : Int} {bnorm : S} {s t : LsqrLoop S U V}
    (h : lsqrStep A AT kw lim bnorm s = .ok t) :
    Grows kw.storeIterates s.iterates t.iterates ∧ Grows kw.storeResids s.resids t.resids ∧
      Grows kw.storeResids s.normalEqns t.normalEqns ∧ s.dirErrors <+: t.dirErrors := by
  unfold lsqrStep at h
  obtain ⟨v0, -, h⟩ := except_bind_ok h
  obtain ⟨⟨Mu, Nv, v, alpha, beta, Anorm, products⟩, -, h⟩ := except_bind_ok h
  obtain ⟨⟨rhobar1, psi, phibar⟩, -, h⟩ := except_bind_ok h
  obtain ⟨⟨rho, theta, rhobar, phi, phibar', tau, t1, t2⟩, -, h⟩ := except_bind_ok h
  obtain ⟨invRho, -, h⟩ := except_bind_ok h
  obtain ⟨w, -, h⟩ := except_bind_ok h
  obtain ⟨k, -, h⟩ := except_bind_ok h
  obtain ⟨⟨xnorm, cs2, sn2, z⟩, -, h⟩ := except_bind_ok h
  obtain ⟨tests, -, h⟩ := except_bind_ok h
  cases h
  exact ⟨grows_ite _ _ _, grows_ite _ _ _, grows_ite _ _ _, prefix_ite _ _ _⟩

structure LsqrRec (kw : LsqrKw S U V) (s : LsqrLoop S U V) (w : List (Wr S U V)) : Prop where
  keys : ∀ e ∈ w, ∃ k ∈ ["iterates", "dir_errors_window", "resids", "normal_eqns_resids"], ∃ l, e = .app k l
  iterates : recorded "iterates" w = s.iterates.map .vec
  dirErrors : recorded "dir_errors_window" w = s.dirErrors.map .scal
  resids : recorded "resids" w = s.resids.map .scal
  normal : recorded "normal_eqns_resids" w = s.normalEqns.map .scal
  lens : kw.storeIterates = true → kw.storeResids = true →
    s.normalEqns.length = s.iterates.length ∧ s.resids.length = s.iterates.length
  pre : AllPre (fun v => lsqrOrder kw.storeIterates kw.storeResids (counts v)) w

theorem lsqrRec_step {A : V → U} {AT : U → V} {kw : LsqrKw S U V} {lim : Int} {bnorm : S} {s t : LsqrLoop S U V}
    {w : List (Wr S U V)} (hs : LsqrRec kw s w) (h : lsqrStep A AT kw lim bnorm s = .ok t) : LsqrRec kw t (w ++ lsqrEvents s t) := by
  obtain ⟨⟨i, hi, li⟩, ⟨r, hr, lr⟩, ⟨q, hq, lq⟩, d, hd⟩ := lsqrStep_lists h
  unfold lsqrEvents
  rw [hi, hr, hq, ← hd]
  simp only [newEntries_append]
  constructor
  · intro e he
    rcases List.mem_append.1 he with he | he
    · exact hs.keys e he
    · simp only [List.mem_cons, List.not_mem_nil, or_false] at he
      rcases he with rfl | rfl | rfl | rfl <;> simp
  · simp [hs.iterates, hi]
  · simp [hs.dirErrors, ← hd]
  · simp [hs.resids, hr]
  · simp [hs.normal, hq]
  · intro h1 h2
    have := hs.lens h1 h2
    simp only [h1, h2, if_true] at li lr lq
    simp [hi, hr, hq, li, lr, lq, this]
  · refine hs.pre.append fun c hc h1 h2 => ?_
    have := hs.lens h1 h2
    simp only [h1, h2, if_true] at li lr lq
    simp only [List.prefix_cons_iff, List.prefix_nil] at hc
    rcases hc with rfl | ⟨-, rfl, rfl | ⟨-, rfl, rfl | ⟨-, rfl, rfl | ⟨-, rfl, rfl⟩⟩⟩⟩ <;>
      simp [counts, hs.iterates, hs.resids, hs.normal, li, lr, lq, this]

theorem lsqrInit_lists {AT : U → V} {kw : LsqrKw S U V} {b : U} {s : LsqrLoop S U V} (h : lsqrInit AT kw b = .ok s) :
    Grows kw.storeIterates [] s.iterates ∧ Grows kw.storeResids [] s.resids ∧ Grows kw.storeResids [] s.normalEqns ∧ s.dirErrors = [] := by
  unfold lsqrInit at h
  obtain ⟨beta, -, h⟩ := except_bind_ok h
  split at h
  · obtain ⟨alpha, -, h⟩ := except_bind_ok h
    split at h <;> cases h <;> exact ⟨grows_ite _ [] _, grows_ite _ [] _, grows_ite _ [] _, rfl⟩
  · cases h
    exact ⟨grows_ite _ [] _, grows_ite _ [] _, grows_ite _ [] _, rfl⟩

theorem lsqrRec_begin {AT : U → V} {kw : LsqrKw S U V} {b : U} {s : LsqrLoop S U V} (h : lsqrInit AT kw b = .ok s) :
    LsqrRec kw s (lsqrBegin s) := by
  obtain ⟨⟨i, hi, li⟩, ⟨r, hr, lr⟩, ⟨q, hq, lq⟩, hd⟩ := lsqrInit_lists h
  simp only [List.nil_append] at hi hr hq
  unfold lsqrBegin
  constructor
  · intro e he
    simp only [List.mem_cons, List.not_mem_nil, or_false] at he
    rcases he with rfl | rfl | rfl <;> simp
  · simp
  · simp [hd]
  · simp
  · simp
  · intro h1 h2
    simp only [h1, h2, if_true] at li lr lq
    simp [hi, hr, hq, li, lr, lq]
  · intro c hc h1 h2
    simp only [h1, h2, if_true] at li lr lq
    simp only [List.prefix_cons_iff, List.prefix_nil] at hc
    rcases hc with rfl | ⟨-, rfl, rfl | ⟨-, rfl, rfl | ⟨-, rfl, rfl⟩⟩⟩ <;> simp [counts, hi, hr, hq, li, lr, lq]

theorem lsqrTrace_spec {A : V → U} {AT : U → V} {n : Nat} {b : U} {kw : LsqrKw S U V} {run : LsqrRes S V × LsqrLoop S U V}
    (h : lsqrSolve A AT n b kw = .ok run) :
    ∃ m, lsqrTrace A AT n b kw = .ok { first := lsqrEmpty kw, middle := m, last := lsqrEnd run.1 } ∧ LsqrRec kw run.2 m ∧
      run.1 = lsqrResult kw run.2 := by
  unfold lsqrSolve at h
  obtain ⟨y, hy, h⟩ := except_bind_ok h
  obtain ⟨s, hs, h⟩ := except_bind_ok h
  obtain ⟨t, ht, h⟩ := except_bind_ok h
  cases h
  unfold lsqrTrace
  rw [hy, hs]
  unfold lsqrMain at ht
  by_cases hx : lsqrXZero s = true
  · simp only [hx, if_true] at ht
    cases ht
    exact ⟨lsqrBegin s, by simp [hx, bind, Except.bind, pure, Except.pure], lsqrRec_begin hs, rfl⟩
  · simp only [hx] at ht
    have hf := traceLoop_fst (ev := lsqrEvents) (h := fun s t h ht h' => by
      have := lsqrStep_itn ht
      simp only [lsqrCont, Bool.and_eq_true, decide_eq_true_eq] at h h'
      omega) (cont := lsqrCont (lsqrLimit n kw.itnlim)) (step := lsqrStep A AT kw (lsqrLimit n kw.itnlim) s.beta)
      (μ := fun s => ((lsqrLimit n kw.itnlim) - s.itn).toNat) s (lsqrBegin s)
    have ht' : lsqrLoop A AT kw (lsqrLimit n kw.itnlim) s.beta s = .ok t := ht
    unfold lsqrLoop at ht'
    rw [hf] at ht'
    obtain ⟨⟨t', m⟩, hm, rfl⟩ := Except.map_ok ht'
    refine ⟨m, ?_, traceLoop_inv (LsqrRec kw) (fun s t w hs _ h => lsqrRec_step hs h) (lsqrRec_begin hs) hm, rfl⟩
    have hm' : lsqrTraced A AT kw (lsqrLimit n kw.itnlim) s.beta s (lsqrBegin s) = .ok (t', m) := hm
    simp [hx, hm', bind, Except.bind, pure, Except.pure]

theorem lsqrEmpty_lists (kw : LsqrKw S U V) (res : LsqrRes S V) (a : Attrs S U V) :
    ∀ L ∈ lsqrLists (U := U) res, writeAll (lsqrEmpty kw) a L.key = some (.list L.base) := by
  intro L hL
  simp only [lsqrLists, List.mem_cons, List.not_mem_nil, or_false] at hL
  unfold lsqrEmpty
  rcases hL with rfl | rfl | rfl | rfl <;> split_ifs <;> simp [writeAll, Wr.exec]

theorem lsqr_interrupted {A : V → U} {AT : U → V} {n : Nat} {b : U} {kw : LsqrKw S U V} {run : LsqrRes S V × LsqrLoop S U V}
    {tr : Trace S U V} {a a' : Attrs S U V} (h : lsqrSolve A AT n b kw = .ok run) (htr : lsqrTrace A AT n b kw = .ok tr)
    (hl : tr.Leaves a a') :
    writeAll tr.all a = writeAll (lsqrWrites run.1) a ∧
    LeftBehind (lsqrLists run.1) ["ctol"] (lsqrOrder kw.storeIterates kw.storeResids) (writeAll (lsqrWrites run.1) a) a a' := by
  obtain ⟨m, hm, hrec, hres⟩ := lsqrTrace_spec h
  rw [htr] at hm
  cases hm
  have hkeys : ∀ e ∈ m, ∃ L ∈ lsqrLists (U := U) run.1, ∃ l, e = .app L.key l := by
    intro e he
    obtain ⟨k, hk, l, rfl⟩ := hrec.keys e he
    simp only [List.mem_cons, List.not_mem_nil, or_false] at hk
    rcases hk with rfl | rfl | rfl | rfl <;> simp [lsqrLists]
  refine interrupted (apps := [.app "iterates" (run.1.iterates.map .vec), .app "resids" (run.1.resids.map .scal),
      .app "normal_eqns_resids" (run.1.normalEqns.map .scal), .app "dir_errors_window" (run.1.dirErrors.map .scal)])
    ?_ (fun e he => ?_) (lsqrEmpty_lists kw run.1 a) (fun e he => .inr (hkeys e he)) (fun e he => ?_) (fun L hL => ?_) (fun L hL => ?_)
    ?_ hrec.pre (fun k hk => ?_) ?_ ?_ hl
  · unfold lsqrWrites lsqrEmpty lsqrEnd
    have : run.1.ctol = if gt kw.conlim (lit 0) then some (lit 1 / kw.conlim) else none := by rw [hres]; rfl
    rw [this]
    split_ifs <;> simp
  · unfold lsqrEmpty at he
    simp only [List.cons_append, List.nil_append, List.mem_cons] at he
    rcases he with rfl | rfl | rfl | rfl | he
    · simp [lsqrLists]
    · simp [lsqrLists]
    · simp [lsqrLists]
    · simp [lsqrLists]
    · split_ifs at he <;> simp at he
      subst he
      simp [Wr.key, lsqrLists]
  · right
    simp only [List.mem_cons, List.not_mem_nil, or_false] at he
    rcases he with rfl | rfl | rfl | rfl <;> simp [lsqrLists]
  · simp only [lsqrLists, List.mem_cons, List.not_mem_nil, or_false] at hL
    rw [hres] at hL
    rcases hL with rfl | rfl | rfl | rfl
    · exact hrec.iterates
    · exact hrec.resids
    · exact hrec.normal
    · exact hrec.dirErrors
  · simp only [lsqrLists, List.mem_cons, List.not_mem_nil, or_false] at hL
    rcases hL with rfl | rfl | rfl | rfl <;> simp
  · rw [filter_apps hkeys]
    simp [Wr.isSet]
  · unfold lsqrEnd at hk
    rw [List.map_append] at hk
    rcases statusWrites_keys (S := S) (U := U) (V := V) run.1.istop with hst | hst <;> rw [hst] at hk <;>
      simp [Wr.key] at hk <;> aesop (add norm unfold lsqrLists)
  · unfold lsqrEnd
    rw [List.map_append]
    rcases statusWrites_keys (S := S) (U := U) (V := V) run.1.istop with hst | hst <;> rw [hst] <;> simp [Wr.key]
  · simp [lsqrLists]

/-! ### LSMR -/

theorem lsmrStep_lists {A : V → U} {AT : U → V} {kw : LsmrKw S U V} {lim : Int} {normb : S} {s t : LsmrLoop S U V}
    (h : lsmrStep A AT kw lim normb s = .ok t) :
    Grows kw.storeIterates s.iterates t.iterates ∧ Grows kw.storeResids s.norms t.norms ∧ Grows kw.storeResids s.resids t.resids ∧
      Grows kw.storeResids s.normalEqns t.normalEqns ∧ s.dirErrors <+: t.dirErrors := by
  unfold lsmrStep at h
  obtain ⟨⟨Mu, Nv, v, alpha, beta, products⟩, -, h⟩ := except_bind_ok h
  obtain ⟨r, -, h⟩ := except_bind_ok h
  obtain ⟨⟨hbar, x, h'⟩, -, h⟩ := except_bind_ok h
  obtain ⟨k, -, h⟩ := except_bind_ok h
  obtain ⟨⟨betadd, thetatilde, rhodold, betad, tautildeold, d, normr⟩, -, h⟩ := except_bind_ok h
  obtain ⟨condA, -, h⟩ := except_bind_ok h
  obtain ⟨tests, -, h⟩ := except_bind_ok h
  cases h
  exact ⟨grows_ite _ _ _, grows_ite _ _ _, grows_ite _ _ _, grows_ite _ _ _, prefix_ite _ _ _⟩

structure LsmrRec (kw : LsmrKw S U V) (s : LsmrLoop S U V) (w : List (Wr S U V)) : Prop where
  keys : ∀ e ∈ w, ∃ k ∈ ["iterates", "dir_errors_window", "norms", "resids", "normal_eqns_resids"], ∃ l, e = .app k l
  iterates : recorded "iterates" w = s.iterates.map .vec
  dirErrors : recorded "dir_errors_window" w = s.dirErrors.map .scal
  norms : recorded "norms" w = s.norms.map .scal
  resids : recorded "resids" w = s.resids.map .scal
  normal : recorded "normal_eqns_resids" w = s.normalEqns.map .scal
  pre : AllPre (fun v => lsmrOrder kw.storeIterates kw.storeResids (counts v)) w

/-- the lengths in the loop -/
def LsmrLens (kw : LsmrKw S U V) (s : LsmrLoop S U V) : Prop :=
  kw.storeIterates = true → kw.storeResids = true →
    s.normalEqns.length = s.norms.length + 1 ∧ s.resids.length = s.norms.length + 1 ∧ s.iterates.length = s.norms.length + 1

theorem lsmrRec_step {A : V → U} {AT : U → V} {kw : LsmrKw S U V} {lim : Int} {normb : S} {s t : LsmrLoop S U V}
    {w : List (Wr S U V)} (hs : LsmrRec kw s w ∧ LsmrLens kw s) (h : lsmrStep A AT kw lim normb s = .ok t) :
    LsmrRec kw t (w ++ lsmrEvents s t) ∧ LsmrLens kw t := by
  obtain ⟨hs, hlen⟩ := hs
  obtain ⟨⟨i, hi, li⟩, ⟨p, hp, lp⟩, ⟨r, hr, lr⟩, ⟨q, hq, lq⟩, d, hd⟩ := lsmrStep_lists h
  refine ⟨?_, ?_⟩
  · unfold lsmrEvents
    rw [hi, hp, hr, hq, ← hd]
    simp only [newEntries_append]
    constructor
    · intro e he
      rcases List.mem_append.1 he with he | he
      · exact hs.keys e he
      · simp only [List.mem_cons, List.not_mem_nil, or_false] at he
        rcases he with rfl | rfl | rfl | rfl | rfl <;> simp
    · simp [hs.iterates, hi]
    · simp [hs.dirErrors, ← hd]
    · simp [hs.norms, hp]
    · simp [hs.resids, hr]
    · simp [hs.normal, hq]
    · refine hs.pre.append fun c hc h1 h2 => ?_
      have := hlen h1 h2
      simp only [h1, h2, if_true] at li lp lr lq
      simp only [List.prefix_cons_iff, List.prefix_nil] at hc
      rcases hc with rfl | ⟨-, rfl, rfl | ⟨-, rfl, rfl | ⟨-, rfl, rfl | ⟨-, rfl, rfl | ⟨-, rfl, rfl⟩⟩⟩⟩⟩ <;>
        simp [counts, hs.iterates, hs.norms, hs.resids, hs.normal, li, lp, lr, lq, this]
  · intro h1 h2
    have := hlen h1 h2
    simp only [h1, h2, if_true] at li lp lr lq
    simp [hi, hp, hr, hq, li, lp, lr, lq, this]

theorem lsmrInit_lists {AT : U → V} {kw : LsmrKw S U V} {b : U} {s : LsmrLoop S U V} (h : lsmrInit AT kw b = .ok s) :
    Grows kw.storeIterates [] s.iterates ∧ s.norms = [] ∧ s.resids = [] ∧ s.normalEqns = [] ∧ s.dirErrors = [] := by
  unfold lsmrInit at h
  obtain ⟨beta, -, h⟩ := except_bind_ok h
  split at h
  · obtain ⟨alpha, -, h⟩ := except_bind_ok h
    split at h <;> cases h <;> exact ⟨grows_ite _ [] _, rfl, rfl, rfl, rfl⟩
  · cases h
    exact ⟨grows_ite _ [] _, rfl, rfl, rfl, rfl⟩

theorem lsmrRec_begin {AT : U → V} {kw : LsmrKw S U V} {b : U} {s : LsmrLoop S U V} (h : lsmrInit AT kw b = .ok s) :
    LsmrRec kw s (lsmrBegin s) ∧ LsmrRec kw (lsmrFirst kw s) (lsmrBegin (lsmrFirst kw s)) ∧ LsmrLens kw (lsmrFirst kw s) := by
  obtain ⟨⟨i, hi, li⟩, hp, hr, hq, hd⟩ := lsmrInit_lists h
  simp only [List.nil_append] at hi
  refine ⟨?_, ?_, ?_⟩
  · unfold lsmrBegin
    constructor
    · intro e he
      simp only [List.mem_cons, List.not_mem_nil, or_false] at he
      rcases he with rfl | rfl | rfl <;> simp
    · simp
    · simp [hd]
    · simp [hp]
    · simp
    · simp
    · intro c hc h1 h2
      simp only [h1, if_true] at li
      simp only [List.prefix_cons_iff, List.prefix_nil] at hc
      rcases hc with rfl | ⟨-, rfl, rfl | ⟨-, rfl, rfl | ⟨-, rfl, rfl⟩⟩⟩ <;> simp [counts, hi, hr, hq, li]
  · have hi' : (lsmrFirst kw s).iterates = i := by unfold lsmrFirst; split <;> exact hi
    have hp' : (lsmrFirst kw s).norms = [] := by unfold lsmrFirst; split <;> exact hp
    have hd' : (lsmrFirst kw s).dirErrors = [] := by unfold lsmrFirst; split <;> exact hd
    unfold lsmrBegin
    constructor
    · intro e he
      simp only [List.mem_cons, List.not_mem_nil, or_false] at he
      rcases he with rfl | rfl | rfl <;> simp
    · simp
    · simp [hd']
    · simp [hp']
    · simp
    · simp
    · intro c hc h1 h2
      simp only [h1, if_true] at li
      have hr' : (lsmrFirst kw s).resids.length = 1 := by unfold lsmrFirst; rw [if_pos h2]; rfl
      have hq' : (lsmrFirst kw s).normalEqns.length = 1 := by unfold lsmrFirst; rw [if_pos h2]; rfl
      simp only [List.prefix_cons_iff, List.prefix_nil] at hc
      rcases hc with rfl | ⟨-, rfl, rfl | ⟨-, rfl, rfl | ⟨-, rfl, rfl⟩⟩⟩ <;> simp [counts, hi', hr', hq', li]
  · intro h1 h2
    simp only [h1, if_true] at li
    unfold lsmrFirst
    rw [if_pos h2]
    simp [hi, hp, li]

theorem lsmrTrace_spec {A : V → U} {AT : U → V} {m n : Nat} {b : U} {kw : LsmrKw S U V} {run : LsmrRes S V × LsmrLoop S U V}
    (h : lsmrSolve A AT m n b kw none = .ok run) :
    ∃ w, lsmrTrace A AT m n b kw = .ok
        { first := lsmrEmpty, middle := w,
          last := (match run.1.selfX with | some x => [.set "x" (.vec x)] | none => []) } ∧ LsmrRec kw run.2 w ∧
      run.1 = lsmrResult run.1.selfX run.2 := by
  unfold lsmrSolve at h
  obtain ⟨s, hs, h⟩ := except_bind_ok h
  unfold lsmrTrace
  rw [hs]
  unfold lsmrMain at h
  obtain ⟨hb1, hb2⟩ := lsmrRec_begin hs
  by_cases hx : feq s.normar (lit 0) = true
  · simp only [hx, if_true] at h
    cases h
    exact ⟨lsmrBegin s, by simp [hx, bind, Except.bind, pure, Except.pure, lsmrResult], hb1, rfl⟩
  · simp only [hx] at h
    obtain ⟨t, ht, h⟩ := except_bind_ok h
    cases h
    have hf := traceLoop_fst (ev := lsmrEvents) (h := fun s t h ht h' => by
      have := lsmrStep_itn ht
      simp only [lsmrCont, Bool.and_eq_true, decide_eq_true_eq] at h h'
      omega) (cont := lsmrCont (lsmrLimit m n kw.itnlim)) (step := lsmrStep A AT kw (lsmrLimit m n kw.itnlim) s.beta)
      (μ := fun s => ((lsmrLimit m n kw.itnlim) - s.itn).toNat) (lsmrFirst kw s) (lsmrBegin (lsmrFirst kw s))
    unfold lsmrLoop at ht
    rw [hf] at ht
    obtain ⟨⟨t', w⟩, hw, rfl⟩ := Except.map_ok ht
    refine ⟨w, ?_, (traceLoop_inv (fun (s : LsmrLoop S U V) (w : List (Wr S U V)) => LsmrRec kw s w ∧ LsmrLens kw s) (fun s t w hs _ h => lsmrRec_step hs h) hb2 hw).1, rfl⟩
    have hw' : lsmrTraced A AT kw (lsmrLimit m n kw.itnlim) s.beta (lsmrFirst kw s) (lsmrBegin (lsmrFirst kw s)) = .ok (t', w) := hw
    simp [hx, hw', bind, Except.bind, pure, Except.pure, lsmrResult]

theorem lsmr_interrupted {A : V → U} {AT : U → V} {m n : Nat} {b : U} {kw : LsmrKw S U V} {run : LsmrRes S V × LsmrLoop S U V}
    {tr : Trace S U V} {a a' : Attrs S U V} (h : lsmrSolve A AT m n b kw none = .ok run) (htr : lsmrTrace A AT m n b kw = .ok tr)
    (hl : tr.Leaves a a') :
    writeAll tr.all a = writeAll (lsmrWrites run.1) a ∧
    LeftBehind (lsmrLists run.1) [] (lsmrOrder kw.storeIterates kw.storeResids) (writeAll (lsmrWrites run.1) a) a a' := by
  obtain ⟨w, hw, hrec, hres⟩ := lsmrTrace_spec h
  rw [htr] at hw
  cases hw
  have hkeys : ∀ e ∈ w, ∃ L ∈ lsmrLists (U := U) run.1, ∃ l, e = .app L.key l := by
    intro e he
    obtain ⟨k, hk, l, rfl⟩ := hrec.keys e he
    simp only [List.mem_cons, List.not_mem_nil, or_false] at hk
    rcases hk with rfl | rfl | rfl | rfl | rfl <;> simp [lsmrLists]
  refine interrupted (apps := [.app "iterates" (run.1.iterates.map .vec), .app "resids" (run.1.resids.map .scal),
      .app "normal_eqns_resids" (run.1.normalEqns.map .scal), .app "norms" (run.1.norms.map .scal),
      .app "dir_errors_window" (run.1.dirErrors.map .scal)])
    ?_ (fun e he => ?_) (fun L hL => ?_) (fun e he => .inr (hkeys e he)) (fun e he => ?_) (fun L hL => ?_) (fun L hL => ?_)
    ?_ hrec.pre (fun k hk => ?_) ?_ ?_ hl
  · simp only [lsmrWrites, lsmrEmpty, List.cons_append, List.nil_append]
    cases run.1.selfX <;> rfl
  · simp only [lsmrEmpty, List.mem_cons, List.not_mem_nil, or_false] at he
    rcases he with rfl | rfl | rfl | rfl | rfl <;> simp [lsmrLists]
  · simp only [lsmrLists, List.mem_cons, List.not_mem_nil, or_false] at hL
    rcases hL with rfl | rfl | rfl | rfl | rfl <;> simp [lsmrEmpty, writeAll, Wr.exec]
  · right
    simp only [List.mem_cons, List.not_mem_nil, or_false] at he
    rcases he with rfl | rfl | rfl | rfl | rfl <;> simp [lsmrLists]
  · simp only [lsmrLists, List.mem_cons, List.not_mem_nil, or_false] at hL
    rw [hres] at hL
    rcases hL with rfl | rfl | rfl | rfl | rfl
    · exact hrec.iterates
    · exact hrec.resids
    · exact hrec.normal
    · exact hrec.norms
    · exact hrec.dirErrors
  · simp only [lsmrLists, List.mem_cons, List.not_mem_nil, or_false] at hL
    rcases hL with rfl | rfl | rfl | rfl | rfl <;> simp
  · rw [filter_apps hkeys]
    simp [Wr.isSet]
  · dsimp only at hk
    split at hk <;> simp [Wr.key] at hk
    subst hk
    simp [lsmrLists]
  · dsimp only
    split <;> simp
  · simp [lsmrLists]

/-! ### CRAIG -/

theorem craigStep_lists {A : V → U} {AT : U → V} {kw : CraigKw S U V} {lim : Int} {bnorm : S} {s t : CraigLoop S U V}
    (h : craigStep A AT kw lim bnorm s = .ok t) :
    Grows kw.storeIterates s.iteratesP t.iteratesP ∧ Grows kw.storeIterates s.iteratesD t.iteratesD ∧
      Grows kw.storeResids s.norms t.norms ∧ Grows kw.storeResids s.resids t.resids ∧
      Grows kw.storeResids s.normalEqns t.normalEqns ∧ s.dirErrors <+: t.dirErrors := by
  unfold craigStep at h
  obtain ⟨⟨Mu, u, Nv, v, alpha, beta, products⟩, -, h⟩ := except_bind_ok h
  obtain ⟨⟨betaHat, alphaHat, s2, c, sn⟩, -, h⟩ := except_bind_ok h
  obtain ⟨tau, -, h⟩ := except_bind_ok h
  obtain ⟨zeta, -, h⟩ := except_bind_ok h
  obtain ⟨k, -, h⟩ := except_bind_ok h
  obtain ⟨test1, -, h⟩ := except_bind_ok h
  cases h
  exact ⟨grows_ite _ _ _, grows_ite _ _ _, grows_ite _ _ _, grows_ite _ _ _, grows_ite _ _ _, prefix_ite _ _ _⟩

structure CraigRec (kw : CraigKw S U V) (s : CraigLoop S U V) (w : List (Wr S U V)) : Prop where
  keys : ∀ e ∈ w, ∃ k ∈ ["iterates_p", "iterates_d", "dir_errors_d_window", "norms", "resids", "normal_eqns_resids"], ∃ l, e = .app k l
  iteratesP : recorded "iterates_p" w = s.iteratesP.map .vec
  iteratesD : recorded "iterates_d" w = s.iteratesD.map .rvec
  dirErrors : recorded "dir_errors_d_window" w = s.dirErrors.map .scal
  dirErrorsP : recorded "dir_errors_p_window" w = []
  norms : recorded "norms" w = s.norms.map .scal
  resids : recorded "resids" w = s.resids.map .scal
  normal : recorded "normal_eqns_resids" w = s.normalEqns.map .scal
  lens : kw.storeIterates = true → kw.storeResids = true →
    s.norms.length = s.normalEqns.length + 1 ∧ s.resids.length = s.normalEqns.length + 1 ∧
      s.iteratesP.length = s.normalEqns.length + 1 ∧ s.iteratesD.length = s.normalEqns.length + 1
  pre : AllPre (fun v => craigOrder kw.storeIterates kw.storeResids (counts v)) w

theorem craigRec_step {A : V → U} {AT : U → V} {kw : CraigKw S U V} {lim : Int} {bnorm : S} {s t : CraigLoop S U V}
    {w : List (Wr S U V)} (hs : CraigRec kw s w) (h : craigStep A AT kw lim bnorm s = .ok t) : CraigRec kw t (w ++ craigEvents s t) := by
  obtain ⟨⟨i, hi, li⟩, ⟨j, hj, lj⟩, ⟨p, hp, lp⟩, ⟨r, hr, lr⟩, ⟨q, hq, lq⟩, d, hd⟩ := craigStep_lists h
  unfold craigEvents
  rw [hi, hj, hp, hr, hq, ← hd]
  simp only [newEntries_append]
  constructor
  · intro e he
    rcases List.mem_append.1 he with he | he
    · exact hs.keys e he
    · simp only [List.mem_cons, List.not_mem_nil, or_false] at he
      rcases he with rfl | rfl | rfl | rfl | rfl | rfl <;> simp
  · simp [hs.iteratesP, hi]
  · simp [hs.iteratesD, hj]
  · simp [hs.dirErrors, ← hd]
  · simp [hs.dirErrorsP]
  · simp [hs.norms, hp]
  · simp [hs.resids, hr]
  · simp [hs.normal, hq]
  · intro h1 h2
    have := hs.lens h1 h2
    simp only [h1, h2, if_true] at li lj lp lr lq
    simp [hi, hj, hp, hr, hq, li, lj, lp, lr, lq, this]
  · refine hs.pre.append fun c hc h1 h2 => ?_
    have := hs.lens h1 h2
    simp only [h1, h2, if_true] at li lj lp lr lq
    simp only [List.prefix_cons_iff, List.prefix_nil] at hc
    rcases hc with rfl | ⟨-, rfl, rfl | ⟨-, rfl, rfl | ⟨-, rfl, rfl | ⟨-, rfl, rfl | ⟨-, rfl, rfl | ⟨-, rfl, rfl⟩⟩⟩⟩⟩⟩ <;>
      simp [counts, hs.iteratesP, hs.iteratesD, hs.norms, hs.resids, hs.normal, li, lj, lp, lr, lq, this] <;> omega

theorem craigStart_lists {kw : CraigKw S U V} {Mu u : U} {beta alpha : S} {vs : Option (V × V)} {products : Nat} {s : CraigLoop S U V}
    (h : craigStart kw Mu u beta vs alpha products = .ok s) :
    Grows kw.storeIterates [] s.iteratesP ∧ Grows kw.storeIterates [] s.iteratesD ∧ Grows kw.storeResids [] s.norms ∧
      Grows kw.storeResids [] s.resids ∧ s.normalEqns = [] ∧ s.dirErrors = [] := by
  unfold craigStart at h
  obtain ⟨tau, -, h⟩ := except_bind_ok h
  obtain ⟨c, -, h⟩ := except_bind_ok h
  obtain ⟨sn, -, h⟩ := except_bind_ok h
  obtain ⟨⟨v, Nv⟩, -, h⟩ := except_bind_ok h
  cases h
  exact ⟨grows_ite _ [] _, grows_ite _ [] _, grows_ite _ [] _, grows_ite _ [] _, rfl, rfl⟩

theorem craigRec_begin {kw : CraigKw S U V} {Mu u : U} {beta alpha : S} {vs : Option (V × V)} {products : Nat} {s : CraigLoop S U V}
    (h : craigStart kw Mu u beta vs alpha products = .ok s) : CraigRec kw s (craigBegin s) := by
  obtain ⟨⟨i, hi, li⟩, ⟨j, hj, lj⟩, ⟨p, hp, lp⟩, ⟨r, hr, lr⟩, hq, hd⟩ := craigStart_lists h
  simp only [List.nil_append] at hi hj hp hr
  unfold craigBegin
  constructor
  · intro e he
    simp only [List.mem_cons, List.not_mem_nil, or_false] at he
    rcases he with rfl | rfl | rfl | rfl <;> simp
  · simp
  · simp
  · simp [hd]
  · simp
  · simp
  · simp
  · simp [hq]
  · intro h1 h2
    simp only [h1, h2, if_true] at li lj lp lr
    simp [hi, hj, hp, hr, hq, li, lj, lp, lr]
  · intro c hc h1 h2
    simp only [h1, h2, if_true] at li lj lp lr
    simp only [List.prefix_cons_iff, List.prefix_nil] at hc
    rcases hc with rfl | ⟨-, rfl, rfl | ⟨-, rfl, rfl | ⟨-, rfl, rfl | ⟨-, rfl, rfl⟩⟩⟩⟩ <;> simp [counts, hi, hj, hp, hr, li, lj, lp, lr]

theorem craigResult_lists {s : CraigLoop S U V} {res : CraigRes S U V} (h : craigResult s = .ok res) :
    res.iteratesP = s.iteratesP ∧ res.iteratesD = s.iteratesD ∧ res.norms = s.norms ∧ res.resids = s.resids ∧
      res.normalEqns = s.normalEqns ∧ res.dirErrors = s.dirErrors := by
  unfold craigResult at h
  obtain ⟨y, -, h⟩ := except_bind_ok h
  cases h
  exact ⟨rfl, rfl, rfl, rfl, rfl, rfl⟩

theorem craigTrace_spec {A : V → U} {AT : U → V} {n : Nat} {b : U} {kw : CraigKw S U V} {run : CraigRes S U V × CraigLoop S U V}
    (h : craigSolve A AT n b kw = .ok run) :
    ∃ m, craigTrace A AT n b kw = .ok { first := craigEmpty kw, middle := m, last := craigEnd run.1 } ∧ CraigRec kw run.2 m ∧
      craigResult run.2 = .ok run.1 := by
  unfold craigSolve at h
  obtain ⟨y, hy, h⟩ := except_bind_ok h
  obtain ⟨⟨Mu, u, beta, vs, alpha, products⟩, hv, h⟩ := except_bind_ok h
  obtain ⟨s, hs, h⟩ := except_bind_ok h
  obtain ⟨t, ht, h⟩ := except_bind_ok h
  obtain ⟨res, hres, h⟩ := except_bind_ok h
  cases h
  unfold craigTrace
  rw [hy, hv]
  simp only [bind, Except.bind]
  rw [hs]
  unfold craigMain at ht
  by_cases hx : feq s.beta (lit 0) = true
  · simp only [hx, if_true] at ht
    cases ht
    exact ⟨craigBegin s, by simp [hx, hres, pure, Except.pure], craigRec_begin hs, hres⟩
  · simp only [hx] at ht
    have hf := traceLoop_fst (ev := craigEvents) (h := fun s t h ht h' => by
      have := craigStep_itn ht
      simp only [craigCont, Bool.and_eq_true, decide_eq_true_eq] at h h'
      omega) (cont := craigCont (craigLimit n kw.itnlim)) (step := craigStep A AT kw (craigLimit n kw.itnlim) s.beta)
      (μ := fun s => ((craigLimit n kw.itnlim) - s.itn).toNat) s (craigBegin s)
    have ht' : craigLoop A AT kw (craigLimit n kw.itnlim) s.beta s = .ok t := ht
    unfold craigLoop at ht'
    rw [hf] at ht'
    obtain ⟨⟨t', m⟩, hm, rfl⟩ := Except.map_ok ht'
    refine ⟨m, ?_, traceLoop_inv (CraigRec kw) (fun s t w hs _ h => craigRec_step hs h) (craigRec_begin hs) hm, hres⟩
    have hm' : craigTraced A AT kw (craigLimit n kw.itnlim) s.beta s (craigBegin s) = .ok (t', m) := hm
    simp [hx, hm', hres, pure, Except.pure]

theorem craig_interrupted {A : V → U} {AT : U → V} {n : Nat} {b : U} {kw : CraigKw S U V} {run : CraigRes S U V × CraigLoop S U V}
    {tr : Trace S U V} {a a' : Attrs S U V} (h : craigSolve A AT n b kw = .ok run) (htr : craigTrace A AT n b kw = .ok tr)
    (hl : tr.Leaves a a') :
    writeAll tr.all a = writeAll (craigWrites kw run.1) a ∧
    LeftBehind (craigLists run.1) ["ctol"] (craigOrder kw.storeIterates kw.storeResids) (writeAll (craigWrites kw run.1) a) a a' := by
  obtain ⟨m, hm, hrec, hres⟩ := craigTrace_spec h
  rw [htr] at hm
  cases hm
  obtain ⟨e1, e2, e3, e4, e5, e6⟩ := craigResult_lists hres
  have hkeys : ∀ e ∈ m, ∃ L ∈ craigLists (U := U) run.1, ∃ l, e = .app L.key l := by
    intro e he
    obtain ⟨k, hk, l, rfl⟩ := hrec.keys e he
    simp only [List.mem_cons, List.not_mem_nil, or_false] at hk
    rcases hk with rfl | rfl | rfl | rfl | rfl | rfl <;> simp [craigLists]
  refine interrupted (apps := [.app "iterates_p" (run.1.iteratesP.map .vec), .app "iterates_d" (run.1.iteratesD.map .rvec),
      .app "norms" (run.1.norms.map .scal), .app "resids" (run.1.resids.map .scal),
      .app "normal_eqns_resids" (run.1.normalEqns.map .scal), .app "dir_errors_d_window" (run.1.dirErrors.map .scal)])
    ?_ (fun e he => ?_) (fun L hL => ?_) (fun e he => .inr (hkeys e he)) (fun e he => ?_) (fun L hL => ?_) (fun L hL => ?_)
    ?_ hrec.pre (fun k hk => ?_) ?_ ?_ hl
  · unfold craigWrites craigEmpty craigEnd
    simp
  · unfold craigEmpty at he
    simp only [List.cons_append, List.nil_append, List.mem_cons] at he
    rcases he with rfl | rfl | rfl | rfl | rfl | rfl | rfl | he
    iterate 7 simp [craigLists]
    · split_ifs at he <;> simp at he
      subst he
      simp [Wr.key, craigLists]
  · simp only [craigLists, List.mem_cons, List.not_mem_nil, or_false] at hL
    unfold craigEmpty
    rcases hL with rfl | rfl | rfl | rfl | rfl | rfl | rfl <;> split_ifs <;> simp [writeAll, Wr.exec]
  · right
    simp only [List.mem_cons, List.not_mem_nil, or_false] at he
    rcases he with rfl | rfl | rfl | rfl | rfl | rfl <;> simp [craigLists]
  · simp only [craigLists, List.mem_cons, List.not_mem_nil, or_false] at hL
    rw [e1, e2, e3, e4, e5, e6] at hL
    rcases hL with rfl | rfl | rfl | rfl | rfl | rfl | rfl
    · exact hrec.iteratesP
    · exact hrec.iteratesD
    · exact hrec.norms
    · exact hrec.resids
    · exact hrec.normal
    · exact hrec.dirErrors
    · exact hrec.dirErrorsP
  · simp only [craigLists, List.mem_cons, List.not_mem_nil, or_false] at hL
    rcases hL with rfl | rfl | rfl | rfl | rfl | rfl | rfl <;> simp
  · rw [filter_apps hkeys]
    simp [Wr.isSet]
  · unfold craigEnd at hk
    rw [List.map_append] at hk
    rcases statusWrites_keys (S := S) (U := U) (V := V) run.1.istop with hst | hst <;> rw [hst] at hk <;>
      simp [Wr.key] at hk <;> aesop (add norm unfold craigLists)
  · unfold craigEnd
    rw [List.map_append]
    rcases statusWrites_keys (S := S) (U := U) (V := V) run.1.istop with hst | hst <;> rw [hst] <;> simp [Wr.key]
  · simp [craigLists]

/-! ### CRAIG-MR -/

theorem craigmrStep_lists {A : V → U} {AT : U → V} {kw : CraigmrKw S U V} {lim : Int} {s t : CraigmrLoop S U V}
    (h : craigmrStep A AT kw lim s = .ok t) :
    Grows kw.storeIterates s.iterates t.iterates ∧ Grows kw.storeResids s.norms t.norms ∧
      Grows kw.storeResids s.normalEqns t.normalEqns ∧ s.dirErrors <+: t.dirErrors := by
  unfold craigmrStep at h
  obtain ⟨⟨Mu, u, Nv, v, alpha, beta, products⟩, -, h⟩ := except_bind_ok h
  obtain ⟨⟨betaHat, alphaHat, c, sn⟩, -, h⟩ := except_bind_ok h
  obtain ⟨cHat, -, h⟩ := except_bind_ok h
  obtain ⟨sHat, -, h⟩ := except_bind_ok h
  obtain ⟨k, -, h⟩ := except_bind_ok h
  cases h
  exact ⟨grows_ite _ _ _, grows_ite _ _ _, grows_ite _ _ _, prefix_ite _ _ _⟩

structure CraigmrRec (kw : CraigmrKw S U V) (s : CraigmrLoop S U V) (w : List (Wr S U V)) : Prop where
  keys : ∀ e ∈ w, ∃ k ∈ ["iterates", "norms", "normal_eqns_resids", "dir_errors_window"], ∃ l, e = .app k l
  iterates : recorded "iterates" w = s.iterates.map .rvec
  norms : recorded "norms" w = s.norms.map .scal
  normal : recorded "normal_eqns_resids" w = s.normalEqns.map .scal
  dirErrors : recorded "dir_errors_window" w = s.dirErrors.map .scal
  lens : kw.storeIterates = true → kw.storeResids = true →
    s.norms.length = s.normalEqns.length + 1 ∧ s.iterates.length = s.normalEqns.length + 1
  pre : AllPre (fun v => craigmrOrder kw.storeIterates kw.storeResids (counts v)) w

theorem craigmrRec_step {A : V → U} {AT : U → V} {kw : CraigmrKw S U V} {lim : Int} {s t : CraigmrLoop S U V}
    {w : List (Wr S U V)} (hs : CraigmrRec kw s w) (h : craigmrStep A AT kw lim s = .ok t) :
    CraigmrRec kw t (w ++ craigmrEvents s t) := by
  obtain ⟨⟨i, hi, li⟩, ⟨p, hp, lp⟩, ⟨q, hq, lq⟩, d, hd⟩ := craigmrStep_lists h
  unfold craigmrEvents
  rw [hi, hp, hq, ← hd]
  simp only [newEntries_append]
  constructor
  · intro e he
    rcases List.mem_append.1 he with he | he
    · exact hs.keys e he
    · simp only [List.mem_cons, List.not_mem_nil, or_false] at he
      rcases he with rfl | rfl | rfl | rfl <;> simp
  · simp [hs.iterates, hi]
  · simp [hs.norms, hp]
  · simp [hs.normal, hq]
  · simp [hs.dirErrors, ← hd]
  · intro h1 h2
    have := hs.lens h1 h2
    simp only [h1, h2, if_true] at li lp lq
    simp [hi, hp, hq, li, lp, lq, this]
  · refine hs.pre.append fun c hc h1 h2 => ?_
    have := hs.lens h1 h2
    simp only [h1, h2, if_true] at li lp lq
    simp only [List.prefix_cons_iff, List.prefix_nil] at hc
    rcases hc with rfl | ⟨-, rfl, rfl | ⟨-, rfl, rfl | ⟨-, rfl, rfl | ⟨-, rfl, rfl⟩⟩⟩⟩ <;>
      simp [counts, hs.iterates, hs.norms, hs.normal, li, lp, lq, this] <;> omega

theorem craigmrStart_lists {kw : CraigmrKw S U V} {Mu u : U} {beta alpha : S} {Nv : Option V} {v : V} {products : Nat}
    {s : CraigmrLoop S U V} (h : craigmrStart kw Mu u beta Nv v alpha products = .ok s) :
    Grows kw.storeIterates [] s.iterates ∧ Grows kw.storeResids [] s.norms ∧ s.normalEqns = [] ∧ s.dirErrors = [] := by
  unfold craigmrStart at h
  obtain ⟨c, -, h⟩ := except_bind_ok h
  obtain ⟨sn, -, h⟩ := except_bind_ok h
  cases h
  exact ⟨grows_ite _ [] _, grows_ite _ [] _, rfl, rfl⟩

theorem craigmrRec_begin {kw : CraigmrKw S U V} {Mu u : U} {beta alpha : S} {Nv : Option V} {v : V} {products : Nat}
    {s : CraigmrLoop S U V} (h : craigmrStart kw Mu u beta Nv v alpha products = .ok s) : CraigmrRec kw s (craigmrBegin s) := by
  obtain ⟨⟨i, hi, li⟩, ⟨p, hp, lp⟩, hq, hd⟩ := craigmrStart_lists h
  simp only [List.nil_append] at hi hp
  unfold craigmrBegin
  constructor
  · intro e he
    simp only [List.mem_cons, List.not_mem_nil, or_false] at he
    rcases he with rfl | rfl <;> simp
  · simp
  · simp
  · simp [hq]
  · simp [hd]
  · intro h1 h2
    simp only [h1, h2, if_true] at li lp
    simp [hi, hp, hq, li, lp]
  · intro c hc h1 h2
    simp only [h1, h2, if_true] at li lp
    simp only [List.prefix_cons_iff, List.prefix_nil] at hc
    rcases hc with rfl | ⟨-, rfl, rfl | ⟨-, rfl, rfl⟩⟩ <;> simp [counts, hi, hp, li, lp]

theorem craigmrTrace_spec {A : V → U} {AT : U → V} {m n : Nat} {b : U} {kw : CraigmrKw S U V} {run : CraigmrRes S U × CraigmrLoop S U V}
    (h : craigmrSolve A AT m n b kw = .ok run) :
    ∃ w, craigmrTrace A AT m n b kw = .ok { first := craigmrEmpty, middle := w, last := craigmrEnd run.1 } ∧ CraigmrRec kw run.2 w ∧
      run.1 = craigmrResult run.2 := by
  unfold craigmrSolve at h
  obtain ⟨⟨Mu, u, beta, Nv, v, alpha, products⟩, hv, h⟩ := except_bind_ok h
  obtain ⟨s, hs, h⟩ := except_bind_ok h
  obtain ⟨t, ht, h⟩ := except_bind_ok h
  cases h
  unfold craigmrTrace
  rw [hv]
  simp only [bind, Except.bind]
  rw [hs]
  have hf := traceLoop_fst (ev := craigmrEvents) (h := fun s t h ht h' => by
    have := craigmrStep_itn ht
    simp only [craigmrCont, Bool.and_eq_true, decide_eq_true_eq] at h h'
    omega) (cont := craigmrCont (craigmrLimit m n kw.itnlim)) (step := craigmrStep A AT kw (craigmrLimit m n kw.itnlim))
    (μ := fun s => ((craigmrLimit m n kw.itnlim) - s.itn).toNat) s (craigmrBegin s)
  unfold craigmrLoop at ht
  rw [hf] at ht
  obtain ⟨⟨t', w⟩, hw, rfl⟩ := Except.map_ok ht
  refine ⟨w, ?_, traceLoop_inv (CraigmrRec kw) (fun s t w hs _ h => craigmrRec_step hs h) (craigmrRec_begin hs) hw, trivial⟩
  have hw' : craigmrTraced A AT kw (craigmrLimit m n kw.itnlim) s (craigmrBegin s) = .ok (t', w) := hw
  simp [hw', pure, Except.pure]

theorem craigmr_interrupted {A : V → U} {AT : U → V} {m n : Nat} {b : U} {kw : CraigmrKw S U V} {run : CraigmrRes S U × CraigmrLoop S U V}
    {tr : Trace S U V} {a a' : Attrs S U V} (h : craigmrSolve A AT m n b kw = .ok run) (htr : craigmrTrace A AT m n b kw = .ok tr)
    (hl : tr.Leaves a a') :
    writeAll tr.all a = writeAll (craigmrWrites run.1) a ∧
    LeftBehind (craigmrLists run.1) craigmrReset (craigmrOrder kw.storeIterates kw.storeResids) (writeAll (craigmrWrites run.1) a) a a' := by
  obtain ⟨w, hw, hrec, hres⟩ := craigmrTrace_spec h
  rw [htr] at hw
  cases hw
  have hkeys : ∀ e ∈ w, ∃ L ∈ craigmrLists (V := V) run.1, ∃ l, e = .app L.key l := by
    intro e he
    obtain ⟨k, hk, l, rfl⟩ := hrec.keys e he
    simp only [List.mem_cons, List.not_mem_nil, or_false] at hk
    rcases hk with rfl | rfl | rfl | rfl <;> simp [craigmrLists]
  refine interrupted (apps := [.app "iterates" (run.1.iterates.map .rvec), .app "norms" (run.1.norms.map .scal),
      .app "normal_eqns_resids" (run.1.normalEqns.map .scal), .app "dir_errors_window" (run.1.dirErrors.map .scal)])
    ?_ (fun e he => ?_) (fun L hL => ?_) (fun e he => .inr (hkeys e he)) (fun e he => ?_) (fun L hL => ?_) (fun L hL => ?_)
    ?_ hrec.pre (fun k hk => ?_) ?_ ?_ hl
  · unfold craigmrWrites craigmrEmpty craigmrEnd
    simp
  · simp only [craigmrEmpty, craigmrAttrs, lsAttrs, List.cons_append, List.nil_append, List.map_cons, List.map_nil, List.mem_cons,
      List.not_mem_nil, or_false] at he
    rcases he with rfl | rfl | rfl | rfl | rfl | rfl | rfl | rfl | rfl | rfl | rfl | rfl | rfl | rfl | rfl | rfl
    iterate 11 exact .inl ⟨by simp [Wr.key, craigmrReset], by simp [Wr.key, craigmrLists]⟩
    iterate 5 exact .inr (by simp [craigmrLists])
  · simp only [craigmrLists, List.mem_cons, List.not_mem_nil, or_false] at hL
    rcases hL with rfl | rfl | rfl | rfl | rfl <;> simp [craigmrEmpty, craigmrAttrs, lsAttrs, writeAll, Wr.exec]
  · right
    simp only [List.mem_cons, List.not_mem_nil, or_false] at he
    rcases he with rfl | rfl | rfl | rfl <;> simp [craigmrLists]
  · simp only [craigmrLists, List.mem_cons, List.not_mem_nil, or_false] at hL
    rw [hres] at hL
    rcases hL with rfl | rfl | rfl | rfl | rfl
    · exact hrec.iterates
    · exact hrec.norms
    · exact hrec.normal
    · exact hrec.dirErrors
    · dsimp only
      unfold recorded
      rw [List.flatMap_eq_nil_iff]
      intro e he
      obtain ⟨k, hk, l, rfl⟩ := hrec.keys e he
      simp only [List.mem_cons, List.not_mem_nil, or_false] at hk
      rcases hk with rfl | rfl | rfl | rfl <;> simp
  · simp only [craigmrLists, List.mem_cons, List.not_mem_nil, or_false] at hL
    rcases hL with rfl | rfl | rfl | rfl | rfl <;> simp
  · rw [filter_apps hkeys]
    simp [Wr.isSet]
  · unfold craigmrEnd at hk
    rw [List.map_append] at hk
    rcases statusWrites_keys (S := S) (U := U) (V := V) run.1.istop with hst | hst <;> rw [hst] at hk <;>
      simp [Wr.key] at hk <;> aesop (add norm unfold craigmrLists)
  · unfold craigmrEnd
    rw [List.map_append]
    rcases statusWrites_keys (S := S) (U := U) (V := V) run.1.istop with hst | hst <;> rw [hst] <;> simp [Wr.key]
  · simp [craigmrLists]

end Verif.Solver
