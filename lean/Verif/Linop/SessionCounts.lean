import Verif.Linop.SessionProps
import Verif.Linop.Grow

/-!
# C06 in sessions: what each statement does to the counters
-/

set_option linter.unusedSectionVars false

namespace Verif.Linop

variable {K : Type} [Field K] [StarRing K] [DTypes K] [DecidableEq K]

/-- **Specification.** What a statement means for the counters. -/
inductive CounterEvent where
  /-- it multiplies with no operator -/
  | nothing
  /-- `reset_counters()` of operator `r` -/
  | reset (r : Nat)
  /-- `k` products with operator `r` -/
  | products (r k : Nat)
  /-- one product with operator `r` and an array of the wrong size -/
  | rejected (r : Nat)

/-- **Specification.** A product with operator `r` and a value. -/
def productEvent (h : Heap K) (r : Nat) (v : PyVal K) : CounterEvent :=
  let size : Option Nat := match v with
    | .arr x => some x.data.length
    | .arr2 A => some (A.rows * A.cols)
    | _ => none
  match size with
  | some n => if h[r]?.map (·.nargin) = some n then .products r 1 else .rejected r
  | none => .nothing

/-- **Specification.** The event of a statement: `u * v` and `u(v)` with an array are a product with `u`, `u.rmatvec(v)` is a product with
`u.H`, `u.full()` is one product with `u` for each column, `u.reset_counters()` is a reset, and all other statements (constructions, sums,
products of operators, powers, ...) multiply with nothing. -/
def Stmt.event (env : List (Except Err (PyVal K))) (h : Heap K) : Stmt K → CounterEvent
  | .mul u v => match env[u]?, env[v]? with
    | some (.ok (.op r)), some (.ok b) => productEvent h r b
    | _, _ => .nothing
  | .call u v => match env[u]?, env[v]? with
    | some (.ok (.op r)), some (.ok b) => productEvent h r b
    | _, _ => .nothing
  | .rmatvec u v => match env[u]?, env[v]? with
    | some (.ok (.op r)), some (.ok b) => (getH h r).elim .nothing fun t => productEvent h t b
    | _, _ => .nothing
  | .full u => match env[u]? with
    | some (.ok (.op r)) => .products r (h[r]?.elim 0 (·.nargin))
    | _ => .nothing
  | .reset u => match env[u]? with
    | some (.ok (.op r)) => .reset r
    | _ => .nothing
  | _ => .nothing

/-- **Specification.** The counters `c'` after the event, from the counters `c` before. -/
def Counted (h : Heap K) (c c' : Cnt) : CounterEvent → Prop
  | .nothing => ∀ i, i < c.length → c'[i]? = c[i]?
  | .reset r => c'[r]? = some 0 ∧ ∀ i, i ≠ r → c'[i]? = c[i]?
  | .rejected r => c'[r]? = c[r]?.map (· + 1) ∧ ∀ i, i ≠ r → c'[i]? = c[i]?
  | .products r k => ∃ d : Nat → Nat, d r = 1 ∧ ∀ i, EachProductAdds h r i (d i) ∧ c'[i]? = c[i]?.map (· + k * d i)

/-- the counters of existing operators are as specified, and those of new ones are 0 -/
def Good (s s' : SessSt K) (e : CounterEvent) : Prop :=
  Counted s.heap s.cnt s'.cnt e ∧ s.heap.length ≤ s'.heap.length ∧ s'.cnt.length = s'.heap.length ∧
  ∀ i, s.heap.length ≤ i → i < s'.heap.length → s'.cnt[i]? = some 0

theorem grows_length {h h' : Heap K} (g : Grows h h') : h.length ≤ h'.length := by
  induction g with
  | refl => exact le_rfl
  | @new h'' g nin nout mv mt ma sy he dt ih =>
    obtain ⟨news, hn⟩ := ctor_prefix (K := K) nin nout mv mt ma sy he dt h''
    rw [hn, List.length_append]; omega
  | @conj h'' g r ih =>
    obtain ⟨news, hn, -⟩ := conjugate_news r h''
    rw [hn, List.length_append]; omega

variable {ops : List Nat} {mats : List (Mat K)}

theorem good_same {s : SessSt K} (hl : s.cnt.length = s.heap.length) : Good s s .nothing :=
  ⟨fun _ _ => rfl, le_rfl, hl, fun i h1 h2 => by omega⟩

theorem good_make {s : SessSt K} (hl : s.cnt.length = s.heap.length) {f : Heap K → Except Err (Nat × Heap K)}
    (hf : ∀ p, f s.heap = .ok p → Grows s.heap p.2) : Good s (Sess.make f s).2 .nothing := by
  unfold Sess.make
  cases he : f s.heap with
  | error e => exact good_same hl
  | ok p =>
    have hle := grows_length (hf p he)
    refine ⟨fun i hi => ?_, hle, ?_, fun i h1 h2 => ?_⟩
    · simp only [List.getElem?_append_left hi]
    · simp only [List.length_append, List.length_replicate]; omega
    · simp only at h2 ⊢
      rw [List.getElem?_append_right (by omega), List.getElem?_replicate, if_pos (by omega)]

theorem wrong_size_counts (h : Heap K) (r : Nat) (o : Obj K) (ho : h[r]? = some o) (x : Arr K)
    (hx : x.data.length ≠ o.nargin) (fuel : Nat) (c : Cnt) :
    (run h (fuel + 1) r x c).2 = c.modify r (· + 1) := by
  simp only [run, ho]
  change (Act.bind (bump r) _ c).2 = _
  simp [Act.bind, bump, hx, Act.raise]

theorem each_productCost {h : Heap K} (O : Ordered h) (r i : Nat) : EachProductAdds h r i (productCost h r i) :=
  fun _ _ _ _ _ hr => run_productCost O hr i

/-- the event of a product with an array of `n` entries -/
def sizeEvent (h : Heap K) (r n : Nat) : CounterEvent := if h[r]?.map (·.nargin) = some n then .products r 1 else .rejected r

theorem good_vector {s : SessSt K} (hl : s.cnt.length = s.heap.length) (R : ReachTotal ops s.heap mats) {j r : Nat}
    (hr : ops[j]? = some r) {x : Arr K} (hx : x.Typed) (extra : Nat) :
    Good s (mulVector extra r x s).2 (sizeEvent s.heap r x.data.length) := by
  obtain ⟨A, hA, hlt⟩ := R.reach.get hr
  obtain ⟨Rep, -⟩ := R.reach.represents hr hA
  obtain ⟨D, I, L, O, -⟩ := R.reach.inv
  have hT := R.total hr hA
  obtain ⟨o, ho, h1, -⟩ := Rep.shape
  have h2 : (mulVector extra r x s).2 = ⟨s.heap, (run s.heap (s.heap.length + extra) r x s.cnt).2⟩ := by
    change (Sess.bind (Sess.act fun h => run h (h.length + extra) r x) _ s).2 = _
    simp only [Sess.bind, Sess.act]
    cases run s.heap (s.heap.length + extra) r x s.cnt with
    | mk a c => cases a <;> rfl
  rw [h2]
  unfold sizeEvent
  rw [ho]
  by_cases hs : x.data.length = A.cols
  · obtain ⟨c', hc⟩ := hT (s.heap.length + extra) x s.cnt (by omega) hx hs
    rw [if_pos (by simp [h1, hs]), hc]
    refine ⟨⟨productCost s.heap r, productCost_own O hlt, fun i => ⟨each_productCost O r i, ?_⟩⟩, le_rfl, ?_, fun i h1 h2 => ?_⟩
    · rw [Nat.one_mul]; exact run_productCost O hc i
    · have := (run_own O (s.heap.length + extra) r x s.cnt).1
      rw [hc] at this
      exact this.trans hl
    · simp only at h2; omega
  · rw [if_neg (by simp [h1, Ne.symm hs])]
    obtain ⟨f, hf⟩ : ∃ f, s.heap.length + extra = f + 1 := ⟨s.heap.length + extra - 1, by omega⟩
    rw [hf, wrong_size_counts s.heap r o ho x (by rw [h1]; exact hs)]
    refine ⟨⟨?_, fun i hi => ?_⟩, le_rfl, by simp [hl], fun i h1 h2 => ?_⟩
    · simp [List.getElem?_modify]
    · simp [List.getElem?_modify, Ne.symm hi]
    · simp only at h2; omega

theorem good_dunderMul {s : SessSt K} (hl : s.cnt.length = s.heap.length) (R : ReachTotal ops s.heap mats) {j r : Nat}
    (hr : ops[j]? = some r) {v : PyVal K} {w : SVal K} (hv : VRel ops mats (.ok v) (.ok w)) (extra : Nat) :
    Good s (dunderMul extra r v s).2 (productEvent s.heap r v) := by
  cases hv with
  | op k t B h1 h2 => exact good_make hl fun p hp => mulLinop_grows hp
  | arr x h => exact good_vector hl R hr h extra
  | arr2 X h =>
    have := good_vector hl R hr (flat_typed h) extra
    rw [flat_length] at this
    exact this
  | num a ka h => exact good_make hl fun p hp => mulScalar_grows hp
  | none => exact good_same hl
  | other => exact good_same hl

theorem vrel_of {env : List (Except Err (PyVal K))} {senv : List (Except Err (SVal K))} (F : List.Forall₂ (VRel ops mats) env senv)
    {u : Nat} {v : PyVal K} (hu : env[u]? = some (.ok v)) : ∃ w, VRel ops mats (.ok v) (.ok w) ∧ senv[u]? = some (.ok w) := by
  obtain ⟨h1, h2⟩ := List.getElem?_eq_some_iff.1 hu
  have h3 : u < senv.length := by rw [← F.length_eq]; exact h1
  have := (List.forall₂_iff_get.1 F).2 u h1 h3
  simp only [List.get_eq_getElem, h2] at this
  have e2 : senv[u]? = some senv[u] := List.getElem?_eq_getElem h3
  generalize senv[u] = b at this e2
  cases b with
  | error e => cases this
  | ok w => exact ⟨w, this, e2⟩

theorem op_of {env : List (Except Err (PyVal K))} {senv : List (Except Err (SVal K))} (F : List.Forall₂ (VRel ops mats) env senv)
    {u r : Nat} (hu : env[u]? = some (.ok (.op r))) : ∃ (j : Nat) (A : Mat K), ops[j]? = some r ∧ mats[j]? = some A := by
  obtain ⟨w, hw, -⟩ := vrel_of F hu
  cases hw with
  | op j r A h1 h2 => exact ⟨j, A, h1, h2⟩

theorem good_full {s : SessSt K} (hl : s.cnt.length = s.heap.length) (R : ReachTotal ops s.heap mats) {j r : Nat}
    (hr : ops[j]? = some r) (extra : Nat) : Good s (pyFull extra r s).2 (.products r (s.heap[r]?.elim 0 (·.nargin))) := by
  obtain ⟨cols, c', h1⟩ := C10_to_array_returns R hr (s.heap.length + extra) (by omega) s.cnt
  obtain ⟨A, hA, hlt⟩ := R.reach.get hr
  obtain ⟨D, I, L, O, -⟩ := R.reach.inv
  obtain ⟨B, hB, hE⟩ := L.2 j r A hr hA
  obtain ⟨o, ho, hok⟩ := I.get hB
  have h2 : (pyFull extra r s).2 = ⟨s.heap, c'⟩ := by
    change (Sess.bind (Sess.act fun h => toArray h (h.length + extra) r) _ s).2 = _
    simp only [Sess.bind, Sess.act, h1, ho]
  rw [h2, ho]
  simp only [toArray, ho] at h1
  rw [hok.dtype, hok.nargin] at h1
  obtain ⟨-, hadd⟩ := toArrayLoop_ok I O hB (s.heap.length + extra) B.cols rfl B.cols 0 s.cnt cols c' (by omega) h1
  refine ⟨⟨productCost s.heap r, productCost_own O hlt, fun i => ⟨each_productCost O r i, ?_⟩⟩, le_rfl, ?_, fun i h1 h2 => ?_⟩
  · rw [hadd i]; simp [hok.nargin]
  · have key : ∀ i, c'[i]? = none ↔ s.cnt[i]? = none := fun i => by rw [hadd i, Option.map_eq_none_iff]
    simp only [List.getElem?_eq_none_iff] at key
    have a := (key c'.length).1 le_rfl
    have b := (key s.cnt.length).2 le_rfl
    simp only; omega
  · simp only at h2; omega

/-- one statement -/
theorem stmt_good {env : List (Except Err (PyVal K))} {senv : List (Except Err (SVal K))} (F : List.Forall₂ (VRel ops mats) env senv)
    {s : SessSt K} (hl : s.cnt.length = s.heap.length) (R : ReachTotal ops s.heap mats) (extra : Nat) (c : Stmt K) (w : c.WF senv) :
    Good s (c.exec extra env s).2 (c.event env s.heap) := by
  have rd : ∀ u, (readVar env u = Sess.raise .unboundLocal ∧ ∀ v, env[u]? ≠ some (.ok v)) ∨
      ∃ v, readVar env u = Sess.pure v ∧ env[u]? = some (.ok v) := by
    intro u
    unfold readVar
    rcases env[u]? with _ | _ | v
    · exact .inl ⟨rfl, by simp⟩
    · exact .inl ⟨rfl, by simp⟩
    · exact .inr ⟨v, rfl, rfl⟩
  have one : ∀ (u : Nat) (f : PyVal K → Sess K (PyVal K)) (e : CounterEvent), ((∀ v, env[u]? ≠ some (.ok v)) → e = .nothing) →
      (∀ v, env[u]? = some (.ok v) → Good s (f v s).2 e) → Good s (Sess.bind (readVar env u) f s).2 e := by
    intro u f e h0 h1
    rcases rd u with ⟨h, hn⟩ | ⟨v, h, hv⟩
    · rw [h, h0 hn]; exact good_same hl
    · rw [h]; exact h1 v hv
  have simple : ∀ (u : Nat) (f : Nat → Sess K (PyVal K)), (∀ r, Good s (f r s).2 .nothing) →
      Good s (Sess.bind (readVar env u) (fun v => onOp v f) s).2 .nothing := by
    intro u f h
    refine one u _ _ (fun _ => rfl) fun v _ => ?_
    cases v with
    | op r => exact h r
    | _ => exact good_same hl
  have build : ∀ (u : Nat) (f : Nat → Heap K → Except Err (Nat × Heap K)), (∀ r p, f r s.heap = .ok p → Grows s.heap p.2) →
      Good s (Sess.bind (readVar env u) (fun v => onOp v fun r => Sess.make (f r)) s).2 .nothing :=
    fun u f h => simple u _ fun r => good_make hl (h r)
  cases c with
  | array x => exact good_same hl
  | array2 A => exact good_same hl
  | num a ka => exact good_same hl
  | none => exact good_same hl
  | other => exact good_same hl
  | new A sy he f ft fa => exact good_make hl fun p hp => exec_grows (c := .new A sy he f ft fa) (env := []) hp
  | ident n k => exact good_make hl fun p hp => exec_grows (c := .ident n k) (env := []) hp
  | zero nin nout k => exact good_make hl fun p hp => exec_grows (c := .zero nin nout k) (env := []) hp
  | diag d => exact good_make hl fun p hp => exec_grows (c := .diag d) (env := []) hp
  | fromArray u sy he =>
    refine one u _ _ (fun _ => rfl) fun v hv => ?_
    cases v with
    | arr2 A => exact good_make hl fun p hp => exec_grows (c := .nd A sy he) (env := []) hp
    | _ => exact good_same hl
  | mul u v =>
    refine one u _ _ (fun hn => ?_) fun a ha => one v _ _ (fun hn => ?_) fun b hb => ?_
    · simp only [Stmt.event]; split
      · next h _ => exact absurd h (hn _)
      · rfl
    · simp only [Stmt.event]; split
      · next h => exact absurd h (hn _)
      · rfl
    · simp only [Stmt.event, ha, hb]
      cases a with
      | op r =>
        obtain ⟨j, A, j1, j2⟩ := op_of F ha
        obtain ⟨w', hw, -⟩ := vrel_of F hb
        exact good_dunderMul hl R j1 hw extra
      | _ =>
        cases b with
        | op t =>
          simp only [pyMul, dunderRmul]
          first
            | exact good_same hl
            | exact good_make hl fun p hp => mulScalar_grows hp
        | _ => exact good_same hl
  | call u v =>
    refine one u _ _ (fun hn => ?_) fun a ha => one v _ _ (fun hn => ?_) fun b hb => ?_
    · simp only [Stmt.event]; split
      · next h _ => exact absurd h (hn _)
      · rfl
    · simp only [Stmt.event]; split
      · next h => exact absurd h (hn _)
      · rfl
    · simp only [Stmt.event, ha, hb]
      cases a with
      | op r =>
        obtain ⟨j, A, j1, j2⟩ := op_of F ha
        obtain ⟨w', hw, -⟩ := vrel_of F hb
        exact good_dunderMul hl R j1 hw extra
      | _ => exact good_same hl
  | rmatvec u v =>
    refine one u _ _ (fun hn => ?_) fun a ha => one v _ _ (fun hn => ?_) fun b hb => ?_
    · simp only [Stmt.event]; split
      · next h _ => exact absurd h (hn _)
      · rfl
    · simp only [Stmt.event]; split
      · next h => exact absurd h (hn _)
      · rfl
    · simp only [Stmt.event, ha, hb]
      cases a with
      | op r =>
        obtain ⟨j, A, j1, j2⟩ := op_of F ha
        obtain ⟨w', hw, -⟩ := vrel_of F hb
        obtain ⟨t, ht, R'⟩ := reach_H R j1 j2
        simp only [onOp, pyRmatvec, ht, Option.elim]
        exact good_dunderMul hl R' (j := ops.length) (r := t) (by simp) (hw.mono [t] [A.H]) extra
      | _ => exact good_same hl
  | full u =>
    refine one u _ _ (fun hn => ?_) fun a ha => ?_
    · simp only [Stmt.event]; split
      · next h => exact absurd h (hn _)
      · rfl
    · simp only [Stmt.event, ha]
      cases a with
      | op r =>
        obtain ⟨j, A, j1, j2⟩ := op_of F ha
        exact good_full hl R j1 extra
      | _ => exact good_same hl
  | reset u =>
    refine one u _ _ (fun hn => ?_) fun a ha => ?_
    · simp only [Stmt.event]; split
      · next h => exact absurd h (hn _)
      · rfl
    · simp only [Stmt.event, ha]
      cases a with
      | op r =>
        obtain ⟨j, A, j1, j2⟩ := op_of F ha
        obtain ⟨B, hB, hlt⟩ := R.reach.get j1
        refine ⟨⟨?_, fun i hi => ?_⟩, le_rfl, by simp [onOp, hl], fun i h1 h2 => by simp only [onOp] at h2; omega⟩
        · simp only [onOp]; rw [List.getElem?_set_self (by omega)]
        · simp only [onOp]; rw [List.getElem?_set_ne (Ne.symm hi)]
      | _ => exact good_same hl
  | add u v =>
    refine one u _ _ (fun _ => rfl) fun a ha => one v _ _ (fun _ => rfl) fun b hb => ?_
    cases a with
    | op r =>
      cases b with
      | op t =>
        refine good_make hl fun p hp => exec_grows (c := .add 0 1) (env := [r, t]) ?_
        simpa [Cmd.exec, look, bind, Except.bind] using hp
      | _ => exact good_same hl
    | _ => cases b <;> exact good_same hl
  | sub u v =>
    refine one u _ _ (fun _ => rfl) fun a ha => one v _ _ (fun _ => rfl) fun b hb => ?_
    cases a with
    | op r =>
      cases b with
      | op t =>
        refine good_make hl fun p hp => exec_grows (c := .sub 0 1) (env := [r, t]) ?_
        simpa [Cmd.exec, look, bind, Except.bind] using hp
      | _ => exact good_same hl
    | _ => cases b <;> exact good_same hl
  | div u v =>
    refine one u _ _ (fun _ => rfl) fun a ha => one v _ _ (fun _ => rfl) fun b hb => ?_
    cases a with
    | op r =>
      cases b with
      | num k kk =>
        refine good_make hl fun p hp => ?_
        unfold trueDiv at hp
        split at hp
        · cases hp
        · exact mulScalar_grows hp
      | _ => exact good_same hl
    | _ => cases b <;> exact good_same hl
  | neg u =>
    refine build u _ fun r p hp => exec_grows (c := .neg 0) (env := [r]) ?_
    simpa [Cmd.exec, look, bind, Except.bind] using hp
  | pow u k =>
    refine build u _ fun r p hp => exec_grows (c := .pow 0 k) (env := [r]) ?_
    simpa [Cmd.exec, look, bind, Except.bind] using hp
  | powOther u v =>
    refine one u _ _ (fun _ => rfl) fun a ha => one v _ _ (fun _ => rfl) fun b hb => ?_
    cases a <;> exact good_same hl
  | T u => exact simple u _ fun r => good_same hl
  | H u => exact simple u _ fun r => good_same hl
  | bar u =>
    refine build u _ fun r p hp => exec_grows (c := .conj 0) (env := [r]) ?_
    simpa [Cmd.exec, look, bind, Except.bind] using hp
  | reduce u rows cols =>
    refine build u _ fun r p hp => exec_grows (c := .reduce 0 rows cols) (env := [r]) ?_
    simpa [Cmd.exec, look, bind, Except.bind] using hp
  | symreduce u idx =>
    refine build u _ fun r p hp => exec_grows (c := .symreduce 0 idx) (env := [r]) ?_
    simpa [Cmd.exec, look, bind, Except.bind] using hp

theorem session_counts (extra : Nat) : ∀ (cs : List (Stmt K)) (ops : List Nat) (mats : List (Mat K)) (env : List (Except Err (PyVal K)))
    (senv : List (Except Err (SVal K))) (s : SessSt K), s.cnt.length = s.heap.length → List.Forall₂ (VRel ops mats) env senv →
    ReachTotal ops s.heap mats → SessionWF senv cs →
    (session extra cs env s).2.cnt.length = (session extra cs env s).2.heap.length
  | [], _, _, _, _, _, hl, _, _, _ => hl
  | c :: cs, ops, mats, env, senv, s, hl, F, R, w => by
    obtain ⟨xo, xm, R', h'⟩ := stmt_post F R extra c w.1
    refine session_counts extra cs (ops ++ xo) (mats ++ xm) _ _ _ (stmt_good F hl R extra c w.1).2.2.1 ?_ R' w.2
    exact List.rel_append (F.imp fun _ _ h => h.mono xo xm) (.cons h' .nil)

theorem sessionWF_split : ∀ (pre : List (Stmt K)) (c : Stmt K) (senv : List (Except Err (SVal K))), SessionWF senv (pre ++ [c]) →
    SessionWF senv pre ∧ c.WF (sessionSpec pre senv)
  | [], c, senv, w => ⟨trivial, w.1⟩
  | b :: pre, c, senv, w => ⟨⟨w.1, (sessionWF_split pre c _ w.2).1⟩, (sessionWF_split pre c _ w.2).2⟩

/-- **C06 in sessions.** After any session (of operators, arrays and numbers, in any order, with any aliases and exceptions, as in
`C65_sessions`), one more statement changes the counters as follows.  Constructions, arithmetic and attributes change none of the
existing counters; `reset_counters()` sets the operator's counter to 0 and changes no other; a product with an array of the wrong size
adds one to the operator's counter and changes no other; a product adds one to the operator's counter, and to the counter of every operator what
each product with it adds; `full()` does so once for each column; `rmatvec` is a product with `.H`.  Operators created by
the statement start with 0. -/
theorem C06_sessions (extra : Nat) (pre : List (Stmt K)) (c : Stmt K) (w : SessionWF [] (pre ++ [c])) :
    let env := (session extra pre [] ⟨[], []⟩).1
    let s := (session extra pre [] ⟨[], []⟩).2
    let s' := (c.exec extra env s).2
    s.cnt.length = s.heap.length ∧ Counted s.heap s.cnt s'.cnt (c.event env s.heap) ∧
    s.heap.length ≤ s'.heap.length ∧ s'.cnt.length = s'.heap.length ∧
    ∀ i, s.heap.length ≤ i → i < s'.heap.length → s'.cnt[i]? = some 0 := by
  obtain ⟨w1, w2⟩ := sessionWF_split pre c [] w
  have R0 : ReachTotal (K := K) [] [] [] := ⟨[], trivial, by simp, rfl, rfl⟩
  obtain ⟨ops, mats, F, R⟩ := session_inv extra pre [] [] [] [] ⟨[], []⟩ .nil R0 w1
  have hl := session_counts extra pre [] [] [] [] ⟨[], []⟩ rfl .nil R0 w1
  exact ⟨hl, stmt_good F hl R extra c w2⟩

section
open Complex

/-- a session: `D = DiagonalOperator([2., 3.])`, `x = [1., 5.]`, `P = D * D`, `D * x`, `z = [1.]`, `D.reset_counters()`, `P * x` -/
private noncomputable def demo : List (Stmt ℂ) :=
  [.diag ⟨.real, [2, 3]⟩, .array ⟨.real, [1, 5]⟩, .mul 0 0, .mul 0 1, .array ⟨.real, [1]⟩, .reset 0, .mul 2 1]

/-- the hypothesis of `C06_sessions` holds for it, for each further statement below, -/
private theorem demo_wf (c : Stmt ℂ) (hc : c = .mul 2 1 ∨ c = .mul 0 4 ∨ c = .full 2 ∨ c = .reset 2 ∨ c = .bar 2) : SessionWF [] (demo ++ [c]) := by
  have h2 : (2 : ℂ) ∈ (DTypes.sub .real : Subring ℂ) := ⟨2, by simp⟩
  have h3 : (3 : ℂ) ∈ (DTypes.sub .real : Subring ℂ) := ⟨3, by simp⟩
  have h1 : (1 : ℂ) ∈ (DTypes.sub .real : Subring ℂ) := ⟨1, by simp⟩
  have h5 : (5 : ℂ) ∈ (DTypes.sub .real : Subring ℂ) := ⟨5, by simp⟩
  rcases hc with rfl | rfl | rfl | rfl | rfl <;>
  simp [demo, SessionWF, Stmt.WF, Stmt.spec, Holds, sread, smulSpec, SVal.isMat, SVal.isArray, Arr.Typed, h1, h2, h3, h5,
    bind, Except.bind, Mat.diag]

/-- the events are those of the theorem, -/
example : let p := session 0 demo [] ⟨[], []⟩
    (Stmt.mul 2 1).event p.1 p.2.heap = .products 1 1 ∧ (Stmt.mul 0 4).event p.1 p.2.heap = .rejected 0 ∧
    (Stmt.full 2).event p.1 p.2.heap = .products 1 2 ∧ (Stmt.reset 2).event p.1 p.2.heap = .reset 1 := ⟨rfl, rfl, rfl, rfl⟩

/-- and the counters are: two for `D` (one product with `P` since the reset), one for `P`, none for `P.T` and `P.H`. -/
example : (session 0 demo [] ⟨[], []⟩).2.cnt = [2, 1, 0, 0] := rfl

end

end Verif.Linop
