import Verif.Linop.Props

/-!
# Helper lemmas for the second property file
-/

set_option linter.unusedSectionVars false

namespace Verif.Linop

variable {K : Type} [CommRing K] [StarRing K] [DTypes K] [DecidableEq K]

theorem execAll_append (cs : List (Cmd K)) (c : Cmd K) (s : List Nat × Heap K) {env : List Nat} {h : Heap K}
    (he : execAll cs s = .ok (env, h)) {p : Nat × Heap K} (hp : c.exec env h = .ok p) :
    execAll (cs ++ [c]) s = .ok (env ++ [p.1], p.2) := by
  induction cs generalizing s with
  | nil =>
    simp only [execAll, Except.ok.injEq] at he
    subst he
    simp [execAll, hp]
  | cons d cs ih =>
    obtain ⟨e, g⟩ := s
    simp only [execAll, List.cons_append] at he ⊢
    split at he
    · cases he
    · next r h' hd => simp only [ih _ he]

theorem specAll_append (cs : List (Cmd K)) (c : Cmd K) (m : List (Mat K)) {mats : List (Mat K)}
    (he : specAll cs m = .ok mats) {A : Mat K} (hp : c.spec mats = .ok A) :
    specAll (cs ++ [c]) m = .ok (mats ++ [A]) := by
  induction cs generalizing m with
  | nil =>
    simp only [specAll, Except.ok.injEq] at he
    subst he
    simp [specAll, hp]
  | cons d cs ih =>
    simp only [specAll, List.cons_append] at he ⊢
    split at he
    · cases he
    · exact ih _ he

theorem WFAll_append (cs : List (Cmd K)) (c : Cmd K) (m : List (Mat K)) (hw : WFAll m cs) {mats : List (Mat K)}
    (he : specAll cs m = .ok mats) (hc : c.WF mats) : WFAll m (cs ++ [c]) := by
  induction cs generalizing m with
  | nil =>
    simp only [specAll, Except.ok.injEq] at he
    subst he
    exact ⟨hc, fun _ _ => trivial⟩
  | cons d cs ih =>
    simp only [specAll] at he
    refine ⟨hw.1, fun A hA => ?_⟩
    rw [hA] at he
    exact ih _ (hw.2 A hA) he

theorem Reach.step {env : List Nat} {h : Heap K} {mats : List (Mat K)} (R : Reach env h mats) {c : Cmd K}
    (w : c.WF mats) {p : Nat × Heap K} (hp : c.exec env h = .ok p) :
    ∃ A, c.spec mats = .ok A ∧ Reach (env ++ [p.1]) p.2 (mats ++ [A]) := by
  have R' := R
  obtain ⟨cs, h1, h2, h3⟩ := R
  obtain ⟨D, I, L, _, _⟩ := R'.inv
  obtain ⟨A, hA, _⟩ := exec_pinv ⟨D, I, L⟩ w hp
  exact ⟨A, hA, cs ++ [c], WFAll_append cs c [] h1 h3 w, execAll_append cs c _ h2 hp, specAll_append cs c _ h3 hA⟩

theorem ReachTotal.step {env : List Nat} {h : Heap K} {mats : List (Mat K)} (R : ReachTotal env h mats) {c : Cmd K}
    (w : c.WF mats) (hc : c.Complete) {p : Nat × Heap K} (hp : c.exec env h = .ok p) :
    ∃ A, c.spec mats = .ok A ∧ ReachTotal (env ++ [p.1]) p.2 (mats ++ [A]) := by
  have R' := R.reach
  obtain ⟨cs, h1, hcc, h2, h3⟩ := R
  obtain ⟨D, I, L, _, _⟩ := R'.inv
  obtain ⟨A, hA, _⟩ := exec_pinv ⟨D, I, L⟩ w hp
  refine ⟨A, hA, cs ++ [c], WFAll_append cs c [] h1 h3 w, ?_, execAll_append cs c _ h2 hp, specAll_append cs c _ h3 hA⟩
  intro d hd
  rcases List.mem_append.1 hd with hd | hd
  · exact hcc d hd
  · rw [List.mem_singleton.1 hd]; exact hc

theorem ReachTotal.total {env : List Nat} {h : Heap K} {mats : List (Mat K)} (R : ReachTotal env h mats) {i r : Nat}
    {A : Mat K} (hr : env[i]? = some r) (hA : mats[i]? = some A) : Total h r A := by
  obtain ⟨D, S, I, L, hS, hEnv⟩ := R.inv
  obtain ⟨B, hB, hE⟩ := L.2 i r A hr hA
  exact closed_total I hS (hEnv i r hr) hB hE

theorem Reach.len {env : List Nat} {h : Heap K} {mats : List (Mat K)} (R : Reach env h mats) :
    env.length = mats.length := by
  obtain ⟨D, I, L, _, _⟩ := R.inv
  exact L.1

theorem Reach.get {env : List Nat} {h : Heap K} {mats : List (Mat K)} (R : Reach env h mats) {i r : Nat}
    (hr : env[i]? = some r) : ∃ A, mats[i]? = some A ∧ r < h.length := by
  obtain ⟨D, I, L, _, _⟩ := R.inv
  have hi : i < mats.length := by rw [← L.1]; exact (List.getElem?_eq_some_iff.1 hr).1
  have hA : mats[i]? = some mats[i] := List.getElem?_eq_getElem hi
  obtain ⟨B, hB, _⟩ := L.2 i r _ hr hA
  exact ⟨_, hA, by rw [I.len]; exact (List.getElem?_eq_some_iff.1 hB).1⟩

theorem Reach.represents {env : List Nat} {h : Heap K} {mats : List (Mat K)} (R : Reach env h mats) {i r : Nat}
    {A : Mat K} (hr : env[i]? = some r) (hA : mats[i]? = some A) : Represents h r A ∧ A.Typed := by
  obtain ⟨D, I, L, _, _⟩ := R.inv
  obtain ⟨B, hB, hE⟩ := L.2 i r A hr hA
  refine ⟨I.represents hB hE, ?_⟩
  obtain ⟨o, ho, hok⟩ := I.get hB
  intro a ha b hb
  rw [← hE.entry a (hE.rows ▸ ha) b (hE.cols ▸ hb), ← hE.kind]
  exact hok.typed a (hE.rows ▸ ha) b (hE.cols ▸ hb)

theorem Reach.step_rep {env : List Nat} {h : Heap K} {mats : List (Mat K)} (R : Reach env h mats) {c : Cmd K}
    (w : c.WF mats) {p : Nat × Heap K} (hp : c.exec env h = .ok p) {A : Mat K} (hA : c.spec mats = .ok A) :
    Reach (env ++ [p.1]) p.2 (mats ++ [A]) ∧ Represents p.2 p.1 A := by
  obtain ⟨A', hA', R'⟩ := R.step w hp
  rw [hA] at hA'; cases hA'
  refine ⟨R', (R'.represents (i := env.length) (by simp) ?_).1⟩
  simp [R.len]

/-- the operator a constructor call returns -/
theorem ctor_get (nin nout : Nat) (mv : Code K) (mt ma : Option (Code K)) (sy he : Bool) (dt : DKind) (h : Heap K) :
    ∃ o, (LinearOperator ⟨nin, nout, mv, mt, ma, sy, he, dt, none, none, none⟩ h).2[h.length]? = some o ∧
      o.code = mv ∧ o.nargin = nin ∧ o.nargout = nout ∧ o.dtype = dt := by
  by_cases hd : dt = .complex
  · subst hd
    rw [LinearOperator_complex]
    cases sy <;> cases he <;> cases mt <;> cases ma <;> simp [newComplex, mkFwd]
  · rw [LinearOperator_real _ _ _ _ _ _ _ _ hd]
    cases sy <;> cases he <;> cases mt <;> cases ma <;> simp [newReal, mkFwd]

theorem ctor_prefix (nin nout : Nat) (mv : Code K) (mt ma : Option (Code K)) (sy he : Bool) (dt : DKind) (h : Heap K) :
    ∃ news, (LinearOperator ⟨nin, nout, mv, mt, ma, sy, he, dt, none, none, none⟩ h).2 = h ++ news := by
  rw [newObjs_eq]; exact ⟨_, rfl⟩

theorem resolve_self {h : Heap K} {r : Nat} (hr : r < h.length) : resolve h ⟨r, .self⟩ = .ok r := by
  simp [resolve, List.getElem?_eq_getElem hr]

/-- what happens in a product that returns -/
theorem run_inner {h : Heap K} {r : Nat} {o : Obj K} (ho : h[r]? = some o) {fuel : Nat} {x y : Arr K} {c c' : Cnt}
    (hr : run h fuel r x c = (.ok y, c')) : ∃ f z, fuel = f + 1 ∧
      evalCode h (run h f) o.code x (c.modify r (· + 1)) = (.ok z, c') := by
  cases fuel with
  | zero => simp [run, Act.raise] at hr
  | succ f =>
    simp only [run, ho] at hr
    replace hr := act_bind_ok hr
    obtain ⟨_, c1, hb, hr⟩ := hr
    split at hr
    · simp [Act.raise] at hr
    · replace hr := act_bind_ok hr
      obtain ⟨z, c2, hz, hr⟩ := hr
      split at hr
      · simp [Act.raise] at hr
      · obtain ⟨_, rfl⟩ := pure_ok hr
        simp only [bump, Prod.mk.injEq] at hb
        rw [← hb.2] at hz
        exact ⟨f, z, rfl, hz⟩

theorem modify_other {c : Cnt} {r q : Nat} (hq : q ≠ r) : (c.modify r (· + 1))[q]? = c[q]? := by
  rw [List.getElem?_modify]; simp [Ne.symm hq]

theorem codeCost_zero {h : Heap K} {cst : Nat → Nat → Nat} {code : Code K} {i : Nat}
    (key : ∀ t ∈ code.targets, tgtCost h cst t i = 0) : codeCost h cst code i = 0 := by
  cases code <;> simp_all [codeCost, Code.targets]

/-- no product touches the counters of operators created later -/
theorem cost_above {h : Heap K} (O : Ordered h) : ∀ (fuel r i : Nat), r < i → cost h fuel r i = 0 := by
  intro fuel
  induction fuel with
  | zero => intro r i _; rfl
  | succ f ih =>
    intro r i hri
    simp only [cost]
    have h1 : one r i = 0 := by simp [one]; omega
    rw [h1, Nat.zero_add]
    cases ho : h[r]? with
    | none => rfl
    | some o =>
      refine codeCost_zero ?_
      intro t ht
      unfold tgtCost
      cases hres : resolve h t with
      | error e => rfl
      | ok r' => exact ih r' i (lt_trans (O r o ho t ht r' hres) hri)

theorem productCost_own {h : Heap K} (O : Ordered h) {r : Nat} (hr : r < h.length) : productCost h r r = 1 := by
  rw [productCost_unfold O (List.getElem?_eq_getElem hr)]
  rw [codeCost_zero]
  · simp [one]
  intro t ht
  unfold tgtCost
  cases hres : resolve h t with
  | error e => rfl
  | ok r' => exact cost_above O _ r' r (O r _ (List.getElem?_eq_getElem hr) t ht r' hres)

theorem powGo_cost {r : Nat} {A : Mat K} (hsq : A.cols = A.rows) :
    ∀ (k : Nat) (D : List (Mat K)) (h : Heap K), HInv D h → Ordered h → D[r]? = some A → r < h.length →
      ∀ p, powOp.go r k h = .ok p → productCost p.2 p.1 r = k ∧ (k ≠ 1 → h.length ≤ p.1) ∧ p.1 < p.2.length
  | 0, D, h, I, O, hA, hr, p, hp => by
    simp only [powOp.go, Except.ok.injEq] at hp
    subst hp
    obtain ⟨o, ho, hc, _⟩ := ctor_get (K := K) ((h[r]?.map Obj.nargin).getD 0) ((h[r]?.map Obj.nargin).getD 0)
      (.prim fun x => .ok x) none none true true .real h
    have O' := IdentityOperator_ordered I O ((h[r]?.map Obj.nargin).getD 0) .real
    refine ⟨?_, fun _ => le_rfl, get_lt ho⟩
    have := productCost_unfold O' ho r
    change productCost _ h.length r = 0
    rw [this, hc]
    simp [codeCost, one]; omega
  | 1, D, h, I, O, hA, hr, p, hp => by
    simp only [powOp.go, Except.ok.injEq] at hp
    subst hp
    exact ⟨productCost_own O hr, by simp, hr⟩
  | k + 2, D, h, I, O, hA, hr, p, hp => by
    simp only [powOp.go] at hp
    obtain ⟨q, hq, hp⟩ := ebind_ok hp
    obtain ⟨ih, ihl, ihr⟩ := powGo_cost hsq (k + 1) D h I O hA hr q hq
    obtain ⟨F, E, I', B, hB, hBE⟩ := powGo_makes hsq (k + 1) D h I hA q hq
    have O' := powGo_ordered hsq (k + 1) D h I O hA q hq
    have O'' := mulLinop_ordered I' O' hp
    have hrq : r < q.2.length := by
      rw [I'.len]; exact (List.getElem?_eq_some_iff.1 (getElem?_append_some (l' := E) hA)).1
    change mulLinop r q.1 q.2 = .ok p at hp
    unfold mulLinop at hp
    split at hp
    · next o o' ho ho' =>
      split at hp
      · cases hp
      · next hsh =>
        simp only [Except.ok.injEq] at hp
        have hp1 : p.1 = q.2.length := by rw [← hp]; rfl
        obtain ⟨o2, ho2, hc2, _⟩ := ctor_get (K := K) o'.nargin o.nargout (.comp ⟨r, .self⟩ ⟨q.1, .self⟩)
          (some (.comp ⟨q.1, .T⟩ ⟨r, .T⟩)) (some (.comp ⟨q.1, .H⟩ ⟨r, .H⟩)) false false (o.dtype.join o'.dtype) q.2
        obtain ⟨news, hn⟩ := ctor_prefix (K := K) o'.nargin o.nargout (.comp ⟨r, .self⟩ ⟨q.1, .self⟩)
          (some (.comp ⟨q.1, .T⟩ ⟨r, .T⟩)) (some (.comp ⟨q.1, .H⟩ ⟨r, .H⟩)) false false (o.dtype.join o'.dtype) q.2
        have hp2 : p.2 = q.2 ++ news := by rw [← hp]; exact hn
        have F' : Frame q.2.length q.2 p.2 := by rw [hp2]; exact append_frame q.2 news
        have hoo : p.2[p.1]? = some o2 := by rw [hp1, ← hp]; exact ho2
        have hlen : q.2.length ≤ p.2.length := by rw [hp2]; simp
        have hle : h.length ≤ q.2.length := by
          have h1 := I.len; have h2 := I'.len; rw [List.length_append] at h2; omega
        refine ⟨?_, fun _ => by rw [hp1]; exact hle, get_lt hoo⟩
        rw [productCost_unfold O'' hoo, hc2]
        simp only [codeCost]
        rw [tgtCost_ok (resolve_self (lt_of_lt_of_le hrq hlen)), tgtCost_ok (resolve_self (lt_of_lt_of_le ihr hlen)),
          productCost_frame I' F' hrq, productCost_frame I' F' ihr, ih, productCost_own O' hrq]
        have : ¬ r = q.2.length := by omega
        simp [one, hp1, this]
        omega
    · cases hp

theorem app_iterate {A : Mat K} (hsq : A.cols = A.rows) : ∀ (k : Nat) (x : List K), x.length = A.cols →
    (A.pow k).app x = A.app^[k] x
  | 0, x, hx => by
    simp only [Mat.pow, Function.iterate_zero, id_eq]
    apply List.ext_getElem
    · simp [Mat.app, Mat.ident, hx]
    · intro i h1 h2
      simp only [Mat.app, Mat.ident, List.getElem_map, List.getElem_range]
      rw [Finset.sum_eq_single i]
      · simp [List.getD_eq_getElem?_getD, List.getElem?_eq_getElem h2]
      · intro j _ hj; simp [Ne.symm hj]
      · intro hi; simp at hi; omega
  | 1, x, hx => rfl
  | k + 2, x, hx => by
    have ih := app_iterate hsq (k + 1) x hx
    rw [Function.iterate_succ_apply', ← ih]
    exact Mat.app_mul A _ (by rw [Mat.pow_rows hsq]; exact hsq) x

end Verif.Linop
