import Verif.Linop.ProgramSound

/-!
# Helper lemmas: programs over complete operators never get stuck
-/

set_option linter.unusedSectionVars false

namespace Verif.Linop

variable {K : Type} [CommRing K] [StarRing K] [DTypes K]

section
variable {h : Heap K} {S : Nat → Prop}

theorem Closed.lt (hS : Closed h S) {r : Nat} (hr : S r) : r < h.length := by
  obtain ⟨o, ho, _⟩ := hS r hr
  exact (List.getElem?_eq_some_iff.1 ho).1

theorem Closed.tgt (hS : Closed h S) {r : Nat} (hr : S r) (s : Sel) : TgtTot h S h.length ⟨r, s⟩ := by
  obtain ⟨o, ho, hc⟩ := hS r hr
  obtain ⟨t, ht, hts⟩ := hc.T
  obtain ⟨u, hu, hus⟩ := hc.H
  cases s with
  | self => exact ⟨r, by simp [resolve, ho], hS.lt hr, hr⟩
  | T => exact ⟨t, by simp [resolve, ho, ht], hS.lt hts, hts⟩
  | H => exact ⟨u, by simp [resolve, ho, hu], hS.lt hus, hus⟩

/-- the result of a command is in a closed set that extends `S` -/
def Ext (S : Nat → Prop) (p : Nat × Heap K) : Prop :=
  ∃ S' : Nat → Prop, (∀ r, S r → S' r) ∧ S' p.1 ∧ Closed p.2 S'

theorem LinearOperator_fst (a : Args K) (h : Heap K) : (LinearOperator a h).1 = h.length := rfl

theorem ext_of_args (hS : Closed h S) {a : Args K} (ha : ArgsTot h S a) : Ext S (LinearOperator a h) := by
  obtain ⟨k, hk, hc⟩ := LinearOperator_closed hS ha
  exact ⟨addNew S h.length k, fun r hr => Or.inl hr, addNew_zero hk, hc⟩

theorem two_both (a : Args K) (h1 : a.matvecTransp.isSome) (h2 : a.matvecAdj.isSome) : TwoSided a := by
  unfold TwoSided
  split
  · exact Or.inr ⟨h1, Or.inl h2⟩
  · exact Or.inr (Or.inr (Or.inl h1))

theorem ext_both (hS : Closed h S) {nin nout : Nat} {mv mt ma : Code K} {sy he : Bool} {dt : DKind}
    (h1 : CodeTot h S h.length nin mv) (h2 : CodeTot h S h.length nout mt) (h3 : CodeTot h S h.length nout ma) :
    Ext S (LinearOperator ⟨nin, nout, mv, some mt, some ma, sy, he, dt, none, none, none⟩ h) :=
  ext_of_args hS
    { matvec := h1
      matvecTransp := by intro c hc; cases hc; exact h2
      matvecAdj := by intro c hc; cases hc; exact h3
      two := two_both _ rfl rfl
      top := ⟨rfl, rfl, rfl⟩ }

theorem mulLinop_ext (hS : Closed h S) {r s : Nat} (hr : S r) (hs : S s) {p : Nat × Heap K}
    (hp : mulLinop r s h = .ok p) : Ext S p := by
  obtain ⟨o, ho, _⟩ := hS r hr
  obtain ⟨q, hq, _⟩ := hS s hs
  simp only [mulLinop, ho, hq] at hp
  split at hp
  · cases hp
  · cases hp
    exact ext_both hS ⟨hS.tgt hr _, hS.tgt hs _⟩ ⟨hS.tgt hs _, hS.tgt hr _⟩ ⟨hS.tgt hs _, hS.tgt hr _⟩

theorem addOp_ext (hS : Closed h S) {r s : Nat} (hr : S r) (hs : S s) {p : Nat × Heap K}
    (hp : addOp r s h = .ok p) : Ext S p := by
  obtain ⟨o, ho, _⟩ := hS r hr
  obtain ⟨q, hq, _⟩ := hS s hs
  simp only [addOp, ho, hq] at hp
  split at hp
  · cases hp
  · cases hp
    exact ext_both hS ⟨hS.tgt hr _, hS.tgt hs _⟩ ⟨hS.tgt hr _, hS.tgt hs _⟩ ⟨hS.tgt hr _, hS.tgt hs _⟩

theorem subOp_ext (hS : Closed h S) {r s : Nat} (hr : S r) (hs : S s) {p : Nat × Heap K}
    (hp : subOp r s h = .ok p) : Ext S p := by
  obtain ⟨o, ho, _⟩ := hS r hr
  obtain ⟨q, hq, _⟩ := hS s hs
  simp only [subOp, ho, hq] at hp
  split at hp
  · cases hp
  · cases hp
    exact ext_both hS ⟨hS.tgt hr _, hS.tgt hs _⟩ ⟨hS.tgt hr _, hS.tgt hs _⟩ ⟨hS.tgt hr _, hS.tgt hs _⟩

theorem zeroFn_returns (nin nout : Nat) (k : DKind) : Returns nin (zeroFn (K := K) nin nout k) := by
  intro x _ hl
  simp [zeroFn, hl]

theorem ZeroOperator_ext (hS : Closed h S) (nin nout : Nat) (k : DKind) : Ext S (ZeroOperator nin nout k h) :=
  ext_both hS (zeroFn_returns nin nout k) (zeroFn_returns nout nin k) (zeroFn_returns nout nin k)

theorem mulScalar_ext [DecidableEq K] (hS : Closed h S) {r : Nat} (hr : S r) {a : K} {ka : DKind}
    {p : Nat × Heap K} (hp : mulScalar r a ka h = .ok p) : Ext S p := by
  obtain ⟨o, ho, _⟩ := hS r hr
  simp only [mulScalar, ho] at hp
  split at hp
  · cases hp; exact ZeroOperator_ext hS _ _ _
  · cases hp
    exact ext_both hS (hS.tgt hr _) (hS.tgt hr _) (hS.tgt hr _)

theorem IdentityOperator_ext (hS : Closed h S) (n : Nat) (k : DKind) : Ext S (IdentityOperator n k h) :=
  ext_of_args hS
    { matvec := fun x _ _ => ⟨x, rfl⟩
      matvecTransp := by intro c hc; cases hc
      matvecAdj := by intro c hc; cases hc
      two := by unfold TwoSided; split <;> exact Or.inl rfl
      top := ⟨rfl, rfl, rfl⟩ }

theorem diagFn_returns (d : Arr K) : Returns d.data.length (diagFn d) := by
  intro x _ hl
  simp [diagFn, hl]

theorem DiagonalOperator_ext (hS : Closed h S) (d : Arr K) : Ext S (DiagonalOperator d h) :=
  ext_of_args hS
    { matvec := diagFn_returns d
      matvecTransp := by intro c hc; cases hc
      matvecAdj := by
        intro c hc; cases hc
        have := diagFn_returns d.conj
        simp only [Arr.conj, List.length_map] at this
        exact this
      two := by unfold TwoSided; split <;> exact Or.inl rfl
      top := ⟨rfl, rfl, rfl⟩ }

theorem ndDot_returns (A : NdArray2 K) : Returns A.cols (ndDot A) := by
  intro x _ hl
  simp [ndDot, hl]

theorem linopFromNdarray_ext (hS : Closed h S) {A : NdArray2 K} {sy : Bool} {he : Option Bool} {p : Nat × Heap K}
    (hp : linopFromNdarray A sy he h = .ok p) : Ext S p := by
  simp only [linopFromNdarray] at hp
  split at hp
  · cases hp
    exact ext_both hS (ndDot_returns A) (ndDot_returns A.T) (ndDot_returns A.conj.T)
  · next hk =>
    split at hp
    · cases hp
    · cases hp
      exact ext_of_args hS
        { matvec := ndDot_returns A
          matvecTransp := by intro c hc; cases hc; exact ndDot_returns A.T
          matvecAdj := by intro c hc; cases hc
          two := by
            unfold TwoSided
            rw [if_neg hk]
            exact Or.inr (Or.inr (Or.inl rfl))
          top := ⟨rfl, rfl, rfl⟩ }

theorem gather_tot {D : List (Mat K)} (I : HInv D h) (hS : Closed h S) {r : Nat} (hr : S r) {o : Obj K}
    (ho : h[r]? = some o) {rows cols : List Int} (hrow : (rows.mapM (pyIndex o.nargout)).isSome)
    (hcol : (cols.mapM (pyIndex o.nargin)).isSome) :
    CodeTot h S h.length cols.length (.gather o.nargin cols rows ⟨r, .self⟩) ∧
    CodeTot h S h.length rows.length (.gather o.nargout rows cols ⟨r, .T⟩) ∧
    CodeTot h S h.length rows.length (.gather o.nargout rows cols ⟨r, .H⟩) := by
  obtain ⟨A, hA, hok⟩ := I.get' ho
  obtain ⟨o', ho', hc⟩ := hS r hr
  rw [ho] at ho'
  cases ho'
  obtain ⟨t, ht, hts⟩ := hc.T
  obtain ⟨u, hu, hus⟩ := hc.H
  obtain ⟨ot, hot, _⟩ := hS t hts
  obtain ⟨ou, hou, _⟩ := hS u hus
  obtain ⟨B, hB, hBE⟩ := hok.T t ht
  obtain ⟨C, hC, hCE⟩ := hok.H u hu
  have e1 : ot.nargout = o.nargin := by rw [(I.ok t ot B hot hB).nargout, hBE.rows, hok.nargin]; rfl
  have e2 : ou.nargout = o.nargin := by rw [(I.ok u ou C hou hC).nargout, hCE.rows, hok.nargin]; rfl
  exact ⟨⟨hS.tgt hr _, hcol, r, o, by simp [resolve, ho], ho, hrow⟩,
    ⟨hS.tgt hr _, hrow, t, ot, by simp [resolve, ho, ht], hot, by rw [e1]; exact hcol⟩,
    ⟨hS.tgt hr _, hrow, u, ou, by simp [resolve, ho, hu], hou, by rw [e2]; exact hcol⟩⟩

theorem Reduced_ext {D : List (Mat K)} (I : HInv D h) (hS : Closed h S) {r : Nat} (hr : S r) {A : Mat K}
    (hA : D[r]? = some A) {rows cols : List Int} (hrow : (rows.mapM (pyIndex A.rows)).isSome)
    (hcol : (cols.mapM (pyIndex A.cols)).isSome) {p : Nat × Heap K}
    (hp : ReducedLinearOperator r rows cols h = .ok p) : Ext S p := by
  obtain ⟨o, ho, hok⟩ := I.get hA
  simp only [ReducedLinearOperator, ho, Except.ok.injEq] at hp
  subst hp
  obtain ⟨g1, g2, g3⟩ := gather_tot I hS hr ho (by rw [hok.nargout]; exact hrow) (by rw [hok.nargin]; exact hcol)
  exact ext_both hS g1 g2 g3

theorem SymReduced_ext {D : List (Mat K)} (I : HInv D h) (hS : Closed h S) {r : Nat} (hr : S r) {A : Mat K}
    (hA : D[r]? = some A) {idx : List Int} (hrow : (idx.mapM (pyIndex A.rows)).isSome)
    (hcol : (idx.mapM (pyIndex A.cols)).isSome) {p : Nat × Heap K}
    (hp : SymmetricallyReducedLinearOperator r idx h = .ok p) : Ext S p := by
  obtain ⟨o, ho, hok⟩ := I.get hA
  simp only [SymmetricallyReducedLinearOperator, ho, Except.ok.injEq] at hp
  subst hp
  obtain ⟨g1, g2, g3⟩ := gather_tot I hS hr ho (by rw [hok.nargout]; exact hrow) (by rw [hok.nargin]; exact hcol)
  exact ext_both hS g1 g2 g3

/-- the conjugate of a complete complex operator: one new object whose `.T` is the old `.H` and vice versa -/
theorem conjugate_complex {h : Heap K} {r t u : Nat} {o : Obj K} (ho : h[r]? = some o) (hk : o.dtype = .complex)
    (ht : o.T = some t) (hu : o.H = some u) :
    conjugate r h = (h.length, h ++ [⟨o.nargin, o.nargout, false, false, .complex, .conj ⟨r, .self⟩, some u, some t⟩]) := by
  simp [conjugate, conjugateWith, ho, hk, conjArgs, getT, getH, ht, hu, LinearOperator, initWith, setTranspose,
    setAdjoint, setT, setH, modify_app0]

theorem conjugate_real {h : Heap K} {r : Nat} {o : Obj K} (ho : h[r]? = some o) (hk : o.dtype ≠ .complex) :
    conjugate r h = (r, h) := by
  simp [conjugate, conjugateWith, ho, hk]

theorem conjugate_ext (hS : Closed h S) {r : Nat} (hr : S r) : Ext S (conjugate r h) := by
  obtain ⟨o, ho, hc⟩ := hS r hr
  obtain ⟨t, ht, hts⟩ := hc.T
  obtain ⟨u, hu, hus⟩ := hc.H
  by_cases hk : o.dtype = .complex
  · rw [conjugate_complex ho hk ht hu]
    refine ⟨addNew S h.length 1, fun r hr => Or.inl hr, addNew_zero (by decide), closed_of_news hS _ _ ?_⟩
    intro i hi
    obtain rfl : i = 0 := by omega
    refine ⟨_, rfl, ⟨u, rfl, Or.inl hus⟩, ⟨t, rfl, Or.inl hts⟩, ?_⟩
    exact TgtTot.ext (append_frame h _) (fun r hr => Or.inl hr) (by omega) (hS.tgt hr .self)
  · rw [conjugate_real ho hk]
    exact ⟨S, fun _ h => h, hr, hS⟩

theorem powGo_ext {r : Nat} : ∀ (k : Nat) (S : Nat → Prop) (h : Heap K), Closed h S → S r →
    ∀ p, powOp.go r k h = .ok p → Ext S p
  | 0, S, h, hS, hr, p, hp => by
    simp only [powOp.go, Except.ok.injEq] at hp
    subst hp
    exact IdentityOperator_ext hS _ _
  | 1, S, h, hS, hr, p, hp => by
    simp only [powOp.go, Except.ok.injEq] at hp
    subst hp
    exact ⟨S, fun _ h => h, hr, hS⟩
  | k + 2, S, h, hS, hr, p, hp => by
    simp only [powOp.go] at hp
    obtain ⟨q, hq, hp⟩ := ebind_ok hp
    obtain ⟨S1, hss, hq1, hS1⟩ := powGo_ext (k + 1) S h hS hr q hq
    obtain ⟨S2, hss2, h1, h2⟩ := mulLinop_ext hS1 (hss r hr) hq1 hp
    exact ⟨S2, fun r hr => hss2 r (hss r hr), h1, h2⟩

/-- powers of a square operator exist -/
theorem powGo_exists {r : Nat} {A : Mat K} (hsq : A.cols = A.rows) :
    ∀ (k : Nat) (D : List (Mat K)) (h : Heap K), HInv D h → D[r]? = some A → ∃ p, powOp.go r k h = .ok p
  | 0, D, h, I, hA => ⟨_, rfl⟩
  | 1, D, h, I, hA => ⟨_, rfl⟩
  | k + 2, D, h, I, hA => by
    obtain ⟨q, hq⟩ := powGo_exists hsq (k + 1) D h I hA
    obtain ⟨F, E, I', B, hB, hBE⟩ := powGo_makes hsq (k + 1) D h I hA q hq
    obtain ⟨o, ho, hoA⟩ := I'.get (getElem?_append_some (l' := E) hA)
    obtain ⟨o', ho', hoB⟩ := I'.get hB
    simp only [powOp.go, hq]
    change ∃ p, mulLinop r q.1 q.2 = .ok p
    have : ¬ (o.nargin ≠ o'.nargout) := by
      rw [hoA.nargin, hoB.nargout, hBE.rows, Mat.pow_rows hsq, not_not]; exact hsq
    exact ⟨_, by simp only [mulLinop, ho, ho', this, if_false]; rfl⟩

theorem new_argsTot {A : Mat K} {sy he : Bool} {f : Fn K} {ft fa : Option (Fn K)}
    (w : (Cmd.new A sy he f ft fa).Complete) :
    ArgsTot h S ⟨A.cols, A.rows, .prim f, ft.map .prim, fa.map .prim, sy, he, A.kind, none, none, none⟩ where
  matvec := w.1
  matvecTransp := by
    intro c hc
    cases ft with
    | none => cases hc
    | some g => cases hc; exact w.2.1 g rfl
  matvecAdj := by
    intro c hc
    cases fa with
    | none => cases hc
    | some g => cases hc; exact w.2.2.1 g rfl
  two := by
    have := w.2.2.2
    unfold TwoSided
    simpa using this
  top := ⟨rfl, rfl, rfl⟩

theorem exec_ext [DecidableEq K] {D : List (Mat K)} (I : HInv D h) (hS : Closed h S) {env : List Nat}
    (hE : ∀ i r : Nat, env[i]? = some r → S r)
    {mats : List (Mat K)} (L : Link D env mats) {c : Cmd K} (w : c.WF mats) (cc : c.Complete) {p : Nat × Heap K}
    (hp : c.exec env h = .ok p) : Ext S p := by
  have hlook : ∀ {i r}, look env i = .ok r → S r := by
    intro i r hr
    unfold look at hr
    split at hr
    · next r' hr' => cases hr; exact hE i _ hr'
    · cases hr
  cases c with
  | new A sy he f ft fa =>
    simp only [Cmd.exec, Except.ok.injEq] at hp
    subst hp
    exact ext_of_args hS (new_argsTot cc)
  | ident n k =>
    simp only [Cmd.exec, Except.ok.injEq] at hp
    subst hp
    exact IdentityOperator_ext hS n k
  | zero nin nout k =>
    simp only [Cmd.exec, Except.ok.injEq] at hp
    subst hp
    exact ZeroOperator_ext hS _ _ _
  | diag d =>
    simp only [Cmd.exec, Except.ok.injEq] at hp
    subst hp
    exact DiagonalOperator_ext hS _
  | nd A sy he => exact linopFromNdarray_ext hS hp
  | mul i j =>
    simp only [Cmd.exec] at hp
    obtain ⟨r, hr, hp⟩ := ebind_ok hp
    obtain ⟨s, hs, hp⟩ := ebind_ok hp
    exact mulLinop_ext hS (hlook hr) (hlook hs) hp
  | smul i a ka =>
    simp only [Cmd.exec] at hp
    obtain ⟨r, hr, hp⟩ := ebind_ok hp
    exact mulScalar_ext hS (hlook hr) hp
  | add i j =>
    simp only [Cmd.exec] at hp
    obtain ⟨r, hr, hp⟩ := ebind_ok hp
    obtain ⟨s, hs, hp⟩ := ebind_ok hp
    exact addOp_ext hS (hlook hr) (hlook hs) hp
  | sub i j =>
    simp only [Cmd.exec] at hp
    obtain ⟨r, hr, hp⟩ := ebind_ok hp
    obtain ⟨s, hs, hp⟩ := ebind_ok hp
    exact subOp_ext hS (hlook hr) (hlook hs) hp
  | neg i =>
    simp only [Cmd.exec] at hp
    obtain ⟨r, hr, hp⟩ := ebind_ok hp
    exact mulScalar_ext hS (hlook hr) hp
  | pow i k =>
    simp only [Cmd.exec] at hp
    obtain ⟨r, hr, hp⟩ := ebind_ok hp
    obtain ⟨o, ho, _⟩ := hS r (hlook hr)
    simp only [powOp, ho] at hp
    split at hp
    · cases hp
    · split at hp
      · cases hp
      · exact powGo_ext _ S h hS (hlook hr) p hp
  | T i =>
    simp only [Cmd.exec] at hp
    obtain ⟨r, hr, hp⟩ := ebind_ok hp
    obtain ⟨o, ho, hc⟩ := hS r (hlook hr)
    obtain ⟨t, ht, hts⟩ := hc.T
    simp only [getT, ho, Option.bind_some, ht, Except.ok.injEq] at hp
    subst hp
    exact ⟨S, fun _ h => h, hts, hS⟩
  | H i =>
    simp only [Cmd.exec] at hp
    obtain ⟨r, hr, hp⟩ := ebind_ok hp
    obtain ⟨o, ho, hc⟩ := hS r (hlook hr)
    obtain ⟨t, ht, hts⟩ := hc.H
    simp only [getH, ho, Option.bind_some, ht, Except.ok.injEq] at hp
    subst hp
    exact ⟨S, fun _ h => h, hts, hS⟩
  | conj i =>
    simp only [Cmd.exec] at hp
    obtain ⟨r, hr, hp⟩ := ebind_ok hp
    simp only [Except.ok.injEq] at hp
    subst hp
    exact conjugate_ext hS (hlook hr)
  | reduce i rows cols =>
    simp only [Cmd.exec] at hp
    obtain ⟨r, hr, hp⟩ := ebind_ok hp
    obtain ⟨A, A', hA, hAm, hA', hAE⟩ := L.look hr
    obtain ⟨rs, cs, h1, h2, h3, h4⟩ := w A hAm
    exact Reduced_ext I hS (hlook hr) hA' (by rw [hAE.rows, h1]; rfl) (by rw [hAE.cols, h2]; rfl) hp
  | symreduce i idx =>
    simp only [Cmd.exec] at hp
    obtain ⟨r, hr, hp⟩ := ebind_ok hp
    obtain ⟨A, A', hA, hAm, hA', hAE⟩ := L.look hr
    obtain ⟨rs, cs, h1, h2, h3, h4⟩ := w A hAm
    exact SymReduced_ext I hS (hlook hr) hA' (by rw [hAE.rows, h1]; rfl) (by rw [hAE.cols, h2]; rfl) hp

theorem exec_err [DecidableEq K] {D : List (Mat K)} (I : HInv D h) (hS : Closed h S) {env : List Nat}
    (hE : ∀ i r : Nat, env[i]? = some r → S r)
    {mats : List (Mat K)} (L : Link D env mats) {c : Cmd K} {e : Err}
    (hp : c.exec env h = .error e) : c.spec mats = .error e := by
  have hlook : ∀ {i r}, look env i = .ok r → S r := by
    intro i r hr
    unfold look at hr
    split at hr
    · next r' hr' => cases hr; exact hE i _ hr'
    · cases hr
  have one : ∀ {i : Nat} {f : Nat → Except Err (Nat × Heap K)} {g : Mat K → Except Err (Mat K)},
      (look env i >>= f) = .error e →
      (∀ r A A', S r → D[r]? = some A' → A'.Eqv A → mats[i]? = some A → f r = .error e → g A = .error e) →
      (mlook mats i >>= g) = .error e := by
    intro i f g hf hfg
    cases hl : look env i with
    | error e' =>
      rw [hl] at hf
      rw [L.look_err hl]
      cases hf; rfl
    | ok r =>
      obtain ⟨A, A', hA, hAm, hA', hAE⟩ := L.look hl
      rw [hl] at hf
      rw [hA]
      exact hfg r A A' (hlook hl) hA' hAE hAm hf
  cases c with
  | new A sy he f ft fa => simp [Cmd.exec] at hp
  | ident n k => simp [Cmd.exec] at hp
  | zero nin nout k => simp [Cmd.exec] at hp
  | diag d => simp [Cmd.exec] at hp
  | nd A sy he =>
    simp only [Cmd.exec, linopFromNdarray] at hp
    split at hp
    · cases hp
    · next hk =>
      split at hp
      · next hx =>
        cases hp
        have : sy ≠ he.getD sy := by
          revert hx; cases sy <;> cases he.getD _ <;> simp
        simp only [Cmd.spec]
        rw [if_pos ⟨hk, this⟩]
      · cases hp
  | mul i j =>
    refine one hp fun r A A' hr hA' hAE hAm hp => one hp fun s B B' hs hB' hBE hBm hp => ?_
    obtain ⟨o, ho, hoA⟩ := I.get hA'
    obtain ⟨q, hq, hqB⟩ := I.get hB'
    simp only [mulLinop, ho, hq, hoA.nargin, hqB.nargout, hAE.cols, hBE.rows] at hp
    split at hp
    · next hd => cases hp; rw [if_neg hd]
    · cases hp
  | smul i a ka =>
    refine one hp fun r A A' hr hA' hAE hAm hp => ?_
    obtain ⟨o, ho, hoA⟩ := I.get hA'
    simp only [mulScalar, ho] at hp
    split at hp <;> cases hp
  | add i j =>
    refine one hp fun r A A' hr hA' hAE hAm hp => one hp fun s B B' hs hB' hBE hBm hp => ?_
    obtain ⟨o, ho, hoA⟩ := I.get hA'
    obtain ⟨q, hq, hqB⟩ := I.get hB'
    simp only [addOp, ho, hq, hoA.nargin, hqB.nargout, hAE.cols, hBE.rows, hoA.nargout, hqB.nargin, hAE.rows,
      hBE.cols] at hp
    split at hp
    · next hd =>
      cases hp; rw [if_neg]
      rintro ⟨h1, h2⟩; exact hd (by rw [h1, h2])
    · cases hp
  | sub i j =>
    refine one hp fun r A A' hr hA' hAE hAm hp => one hp fun s B B' hs hB' hBE hBm hp => ?_
    obtain ⟨o, ho, hoA⟩ := I.get hA'
    obtain ⟨q, hq, hqB⟩ := I.get hB'
    simp only [subOp, ho, hq, hoA.nargin, hqB.nargout, hAE.cols, hBE.rows, hoA.nargout, hqB.nargin, hAE.rows,
      hBE.cols] at hp
    split at hp
    · next hd =>
      cases hp; rw [if_neg]
      rintro ⟨h1, h2⟩; exact hd (by rw [h1, h2])
    · cases hp
  | neg i =>
    refine one hp fun r A A' hr hA' hAE hAm hp => ?_
    obtain ⟨o, ho, hoA⟩ := I.get hA'
    simp only [negOp, mulScalar, ho] at hp
    split at hp <;> cases hp
  | pow i k =>
    refine one hp fun r A A' hr hA' hAE hAm hp => ?_
    obtain ⟨o, ho, hoA⟩ := I.get hA'
    simp only [powOp, ho] at hp
    split at hp
    · next hk => cases hp; rw [if_pos hk]
    · next hk =>
      rw [if_neg hk]
      rw [hoA.nargin, hoA.nargout] at hp
      split at hp
      · next hsq =>
        cases hp
        rw [if_pos]
        rw [← hAE.cols, ← hAE.rows]; exact hsq
      · next hsq =>
        obtain ⟨p, hp'⟩ := powGo_exists (not_not.1 hsq) k.toNat D h I hA'
        rw [hp] at hp'; cases hp'
  | T i =>
    refine one hp fun r A A' hr hA' hAE hAm hp => ?_
    obtain ⟨o, ho, hc⟩ := hS r hr
    obtain ⟨t, ht, hts⟩ := hc.T
    simp only [getT, ho, Option.bind_some, ht] at hp
    cases hp
  | H i =>
    refine one hp fun r A A' hr hA' hAE hAm hp => ?_
    obtain ⟨o, ho, hc⟩ := hS r hr
    obtain ⟨t, ht, hts⟩ := hc.H
    simp only [getH, ho, Option.bind_some, ht] at hp
    cases hp
  | conj i =>
    refine one hp fun r A A' hr hA' hAE hAm hp => ?_
    cases hp
  | reduce i rows cols =>
    refine one hp fun r A A' hr hA' hAE hAm hp => ?_
    obtain ⟨o, ho, hoA⟩ := I.get hA'
    simp only [ReducedLinearOperator, ho] at hp
    cases hp
  | symreduce i idx =>
    refine one hp fun r A A' hr hA' hAE hAm hp => ?_
    obtain ⟨o, ho, hoA⟩ := I.get hA'
    simp only [SymmetricallyReducedLinearOperator, ho] at hp
    cases hp

end

/-- state invariant of a program over complete operators -/
def PTot (env : List Nat) (h : Heap K) (mats : List (Mat K)) : Prop :=
  ∃ D S, HInv D h ∧ Link D env mats ∧ Closed h S ∧ ∀ i r : Nat, env[i]? = some r → S r

theorem execAll_ptot [DecidableEq K] : ∀ (cs : List (Cmd K)) {env : List Nat} {h : Heap K} {mats : List (Mat K)},
    PTot env h mats → WFAll mats cs → (∀ c ∈ cs, c.Complete) →
    match execAll cs (env, h) with
    | .ok (env', h') => ∃ mats', specAll cs mats = .ok mats' ∧ PTot env' h' mats'
    | .error e => specAll cs mats = .error e
  | [], env, h, mats, P, _, _ => ⟨mats, rfl, P⟩
  | c :: cs, env, h, mats, P, w, cc => by
    obtain ⟨D, S, I, L, hS, hE⟩ := P
    simp only [execAll]
    cases hc : c.exec env h with
    | error e => simp only [specAll, exec_err I hS hE L hc]
    | ok p =>
      obtain ⟨r, h1⟩ := p
      obtain ⟨A, hA, F, E, I', B, hB, hBE⟩ := exec_sound I L w.1 hc
      obtain ⟨S', hss, hr, hS'⟩ := exec_ext I hS hE L w.1 (cc c (by simp)) hc
      have P' : PTot (env ++ [r]) h1 (mats ++ [A]) := by
        refine ⟨D ++ E, S', I', ⟨by simp [L.1], ?_⟩, hS', ?_⟩
        · intro i r C hr hC
          rcases Nat.lt_trichotomy i env.length with hi | hi | hi
          · rw [List.getElem?_append_left hi] at hr
            rw [List.getElem?_append_left (L.1 ▸ hi)] at hC
            obtain ⟨B', h1, h2⟩ := L.2 i r C hr hC
            exact ⟨B', getElem?_append_some h1, h2⟩
          · subst hi
            rw [List.getElem?_append_right le_rfl] at hr
            rw [List.getElem?_append_right (L.1 ▸ le_rfl), L.1] at hC
            simp only [Nat.sub_self, List.getElem?_cons_zero, Option.some.injEq] at hr hC
            subst hr hC
            exact ⟨B, hB, hBE⟩
          · rw [List.getElem?_eq_none (by simp; omega)] at hr
            cases hr
        · intro i s hs
          rcases Nat.lt_trichotomy i env.length with hi | hi | hi
          · rw [List.getElem?_append_left hi] at hs
            exact hss s (hE i s hs)
          · subst hi
            rw [List.getElem?_append_right le_rfl] at hs
            simp only [Nat.sub_self, List.getElem?_cons_zero, Option.some.injEq] at hs
            subst hs
            exact hr
          · rw [List.getElem?_eq_none (by simp; omega)] at hs
            cases hs
      have := execAll_ptot cs P' (w.2 A hA) (fun c hc => cc c (by simp [hc]))
      simp only [specAll, hA]
      exact this

theorem ptot_empty : PTot [] ([] : Heap K) [] :=
  ⟨[], fun _ => False, ⟨rfl, by intro r o A h; simp at h⟩, ⟨rfl, by intro i r A h; simp at h⟩,
    fun _ h => h.elim, by intro i r h; simp at h⟩

theorem closed_total {D : List (Mat K)} {h : Heap K} (I : HInv D h) {S : Nat → Prop} (hS : Closed h S) {r : Nat}
    (hr : S r) {A B : Mat K} (hB : D[r]? = some B) (hE : B.Eqv A) : Total h r A := by
  intro fuel x c hf hx hl
  obtain ⟨c', hc⟩ := run_total I hS fuel r B x c hr (lt_of_lt_of_le (hS.lt hr) hf) hB hx (hl.trans hE.cols.symm)
  exact ⟨c', by rw [hc, hE.kind, Mat.app_congr hE]⟩

end Verif.Linop
