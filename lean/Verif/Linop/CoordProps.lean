import Verif.Linop.PropsLemmas
import Verif.Linop.CoordLemmas

/-!
# Property C13: coordinate-format operators
-/

set_option linter.unusedSectionVars false

namespace Verif.Linop

variable {K : Type} [CommRing K] [StarRing K] [DTypes K]

/-! ## Helpers -/

theorem Reach.snoc [DecidableEq K] {env : List Nat} {h : Heap K} {mats : List (Mat K)} (R : Reach env h mats)
    {c : Cmd K} (w : c.WF mats) {r : Nat} {h' : Heap K} (hx : c.exec env h = .ok (r, h')) {A : Mat K}
    (hA : c.spec mats = .ok A) : Reach (env ++ [r]) h' (mats ++ [A]) := by
  obtain ⟨cs, h1, h2, h3⟩ := R
  exact ⟨cs ++ [c], WFAll_append cs c [] h1 h3 w, execAll_append cs c _ h2 hx, specAll_append cs c _ h3 hA⟩

/-- If a product with an operator that represents `A` returns at all, it returns what it should. -/
theorem Represents.total_of {h : Heap K} {r : Nat} {A : Mat K} (R : Represents h r A)
    (H : ∀ (fuel : Nat) (x : Arr K) (c : Cnt), h.length ≤ fuel → x.Typed → x.data.length = A.cols →
      ∃ y c', run h fuel r x c = (.ok y, c')) : Total h r A := by
  intro fuel x c hf hx hl
  obtain ⟨y, c', hy⟩ := H fuel x c hf hx hl
  exact ⟨c', by rw [hy, (R.product fuel x c y c' hx hy).2]⟩

theorem run_prim {h : Heap K} {r : Nat} {o : Obj K} {f : Fn K} (ho : h[r]? = some o) (hc : o.code = .prim f)
    (fuel : Nat) {x y : Arr K} (hl : x.data.length = o.nargin) (hf : f x = .ok y) (hy : y.data.length = o.nargout)
    (c : Cnt) : ∃ c', run h (fuel + 1) r x c = (.ok (y.astype (o.dtype.join x.kind)), c') := by
  refine ⟨c.modify r (· + 1), ?_⟩
  simp only [run, ho, bind, Act.bind, bump, hl, ne_eq, not_true_eq_false, if_false, hc, evalCode, liftE, hf, hy]
  rfl

theorem inferDim_pos {n : Nat} (hn : n ≠ 0) (l : List Int) : inferDim n l = .ok n := by simp [inferDim, hn]

/-- the API call that `CoordLinearOperator` makes -/
def coordCmd (vals : Arr K) (rows cols : List Int) (nin nout : Nat) (sy : Bool) (ts : List (K × Nat × Nat)) : Cmd K :=
  .new (Mat.coord nout nin vals.kind sy ts) sy false (coordFn vals rows cols nin nout sy)
    (some (coordFn vals cols rows nout nin sy)) none

theorem coordCmd_wf {vals : Arr K} {rows cols : List Int} {nin nout : Nat} {sy : Bool} {ts : List (K × Nat × Nat)}
    (I : CoordInput vals rows cols nin nout sy ts) (mats : List (Mat K)) :
    (coordCmd vals rows cols nin nout sy ts).WF mats := by
  refine ⟨coord_typed I, ?_, by simp, ?_, ?_, by simp⟩
  · intro hs
    subst hs
    refine ⟨(I.square rfl).1.symm, (I.square rfl).1, rfl, ?_⟩
    intro i _ j _
    exact coordEntry_symm ts i j
  · intro x _ hl y hy
    rw [coordFn_ok I hl] at hy
    cases hy; rfl
  · intro g hg x _ hl y hy
    cases hg
    rw [coordFn_ok I.swap hl] at hy
    cases hy
    rw [coord_swap]

theorem coord_new_fwd (vals : Arr K) (rows cols : List Int) (nin nout : Nat) (sy : Bool) (h : Heap K) :
    ∃ o, (LinearOperator ⟨nin, nout, .prim (coordFn vals rows cols nin nout sy),
      some (.prim (coordFn vals cols rows nout nin sy)), none, sy, false, vals.kind, none, none, none⟩ h).2[h.length]?
      = some o ∧ o.code = .prim (coordFn vals rows cols nin nout sy) ∧ o.nargin = nin ∧ o.nargout = nout := by
  by_cases hk : vals.kind = .complex
  · rw [hk, LinearOperator_complex]
    cases sy <;> simp [get_app0, newComplex, mkFwd]
  · rw [LinearOperator_real _ _ _ _ _ _ _ _ hk]
    cases sy <;> simp [get_app0, newReal, mkFwd]

theorem astype_length (k : DKind) (y : Arr K) : (y.astype k).data.length = y.data.length := by simp [Arr.astype]

theorem coord_prim_total {vals : Arr K} {rows cols : List Int} {nin nout : Nat} {sy : Bool}
    {ts : List (K × Nat × Nat)} (I : CoordInput vals rows cols nin nout sy ts) {h : Heap K} {r : Nat} {o : Obj K}
    (ho : h[r]? = some o) (hc : o.code = .prim (coordFn vals rows cols nin nout sy)) (h1 : o.nargin = nin)
    (h2 : o.nargout = nout) (fuel : Nat) (x : Arr K) (hl : x.data.length = nin) (c : Cnt) :
    ∃ y c', run h (fuel + 1) r x c = (.ok y, c') ∧ y.data.length = nout := by
  obtain ⟨c', hr⟩ := run_prim ho hc fuel (by rw [hl, h1]) (coordFn_ok I hl) (by simp [Mat.app_length, Mat.coord, h2]) c
  exact ⟨_, c', hr, by simp [astype_length, Mat.app_length, Mat.coord]⟩

/-! ## C13 -/

/-- **C13.** In any state a client program can reach, `CoordLinearOperator(vals, rows, cols, nargin, nargout,
symmetric)` builds an operator that represents the matrix with `vals[k]` accumulated at `(rows[k], cols[k])` (and
mirrored if `symmetric`); its `.T` and `.H` exist and represent the transpose and the adjoint; all products with
vectors of the right size return.  The new state is again one to which the theorems about client programs apply. -/
theorem C13_coord [DecidableEq K] {env : List Nat} {h : Heap K} {mats : List (Mat K)} (R : Reach env h mats)
    {vals : Arr K} {rows cols : List Int} {nargin nargout : Nat} {symmetric : Bool} {ts : List (K × Nat × Nat)}
    (hin : nargin ≠ 0) (hout : nargout ≠ 0) (I : CoordInput vals rows cols nargin nargout symmetric ts) :
    ∃ r h', CoordLinearOperator vals rows cols nargin nargout symmetric h = .ok (r, h') ∧
      let A := Mat.coord nargout nargin vals.kind symmetric ts
      Reach (env ++ [r]) h' (mats ++ [A]) ∧
      (Represents h' r A ∧ Total h' r A) ∧
      (∃ t, getT h' r = some t ∧ Represents h' t A.T ∧ Total h' t A.T) ∧
      (∃ u, getH h' r = some u ∧ Represents h' u A.H ∧ Total h' u A.H) := by
  have hex : (coordCmd vals rows cols nargin nargout symmetric ts).exec env h =
      .ok (LinearOperator ⟨nargin, nargout, .prim (coordFn vals rows cols nargin nargout symmetric),
        some (.prim (coordFn vals cols rows nargout nargin symmetric)), none, symmetric, false, vals.kind,
        none, none, none⟩ h) := rfl
  obtain ⟨L, hL⟩ : ∃ L, L = (LinearOperator ⟨nargin, nargout,
    .prim (coordFn vals rows cols nargin nargout symmetric),
    some (.prim (coordFn vals cols rows nargout nargin symmetric)), none, symmetric, false, vals.kind,
    none, none, none⟩ h).2 := ⟨_, rfl⟩
  have R' : Reach (env ++ [h.length]) L (mats ++ [Mat.coord nargout nargin vals.kind symmetric ts]) := by
    rw [hL]; exact R.snoc (coordCmd_wf I mats) hex rfl
  refine ⟨h.length, L, ?_, R', ?_⟩
  · rw [hL]; simp only [CoordLinearOperator, inferDim_pos hin, inferDim_pos hout, bind, Except.bind]; rfl
  have hlen := R.len
  have hr : (env ++ [h.length])[env.length]? = some h.length := by simp
  have hA : (mats ++ [Mat.coord nargout nargin vals.kind symmetric ts])[env.length]? =
      some (Mat.coord nargout nargin vals.kind symmetric ts) := by rw [hlen]; simp
  have hR := (R'.represents hr hA).1
  obtain ⟨hT, hH⟩ := C02_transpose_adjoint R' hr hA
  obtain ⟨o, ho, hoc, hoi, hoo⟩ := coord_new_fwd vals rows cols nargin nargout symmetric h
  rw [← hL] at ho
  clear hex R' hr hA hlen
  have fwdTot : h.length < L.length → Total L h.length (Mat.coord nargout nargin vals.kind symmetric ts) := by
    intro hlt
    refine hR.total_of ?_
    intro fuel x c hf _ hl
    obtain ⟨f, rfl⟩ : ∃ f, fuel = f + 1 := ⟨fuel - 1, by omega⟩
    obtain ⟨y, c', hy, _⟩ := coord_prim_total I ho hoc hoi hoo f x hl c
    exact ⟨y, c', hy⟩
  by_cases hk : vals.kind = .complex
  · rw [hk, LinearOperator_complex] at hL
    cases symmetric with
    | false =>
      obtain ⟨hn, o1, g1, e1, e1i, e1o, o3, g3, e3, e3i, e3o, e0T, e0H⟩ : L.length = h.length + 4 ∧
          ∃ o1, L[h.length + 1]? = some o1 ∧ o1.code = .prim (coordFn vals cols rows nargout nargin false) ∧
            o1.nargin = nargout ∧ o1.nargout = nargin ∧
          ∃ o3, L[h.length + 3]? = some o3 ∧ o3.code = .conj ⟨h.length, .T⟩ ∧ o3.nargin = nargout ∧
            o3.nargout = nargin ∧ getT L h.length = some (h.length + 1) ∧ getH L h.length = some (h.length + 3) := by
        subst hL
        simp [get_app, get_app0, newComplex, mkFwd, mkBwd, mkConj, mkConjBwd, getT, getH]
      clear hL
      have e0 : o.T = some (h.length + 1) := by simpa [getT, ho] using e0T
      have gT := hT _ e0T
      have gH := hH _ e0H
      refine ⟨⟨hR, fwdTot (by omega)⟩, ⟨_, e0T, gT, gT.total_of ?_⟩, ⟨_, e0H, gH, gH.total_of ?_⟩⟩
      · intro fuel x c hf _ hl
        obtain ⟨f, rfl⟩ : ∃ f, fuel = f + 1 := ⟨fuel - 1, by omega⟩
        obtain ⟨y, c', hy, _⟩ := coord_prim_total I.swap g1 e1 e1i e1o f x hl c
        exact ⟨y, c', hy⟩
      · intro fuel x c hf _ hl
        obtain ⟨f, rfl⟩ : ∃ f, fuel = f + 1 + 1 := ⟨fuel - 2, by omega⟩
        have hl' : x.data.length = nargout := hl
        rw [run]
        simp only [g3, bind, Act.bind, bump, hl', e3i, ne_eq, not_true_eq_false, if_false, e3, evalCode, liftE, resolve,
          ho, e0]
        by_cases hx : x.kind = .complex
        · obtain ⟨y, c', hy, hyl⟩ := coord_prim_total I.swap g1 e1 e1i e1o f x.conj (by simp [Arr.conj, hl'])
            (c.modify (h.length + 3) (· + 1))
          simp only [hx, if_true, Act.bind, hy]
          exact ⟨y.conj.astype (o3.dtype.join .complex), c', by simp [Act.pure, Arr.conj, hyl, e3o]⟩
        · obtain ⟨y, c', hy, hyl⟩ := coord_prim_total I.swap g1 e1 e1i e1o f x hl' (c.modify (h.length + 3) (· + 1))
          simp only [hx, if_false, Act.bind, hy]
          exact ⟨y.conj.astype (o3.dtype.join x.kind), c', by simp [Act.pure, Arr.conj, hyl, e3o]⟩
    | true =>
      have hsq := (I.square rfl).1
      obtain ⟨hn, o3, g3, e3, e3i, e3o, e0T, e0H⟩ : L.length = h.length + 3 ∧
          ∃ o3, L[h.length + 1]? = some o3 ∧ o3.code = .conj ⟨h.length, .self⟩ ∧ o3.nargin = nargin ∧
            o3.nargout = nargout ∧ getT L h.length = some h.length ∧ getH L h.length = some (h.length + 1) := by
        subst hL
        simp [get_app, get_app0, newComplex, mkFwd, mkBwd, mkConj, mkConjBwd, getT, getH]
      clear hL
      have gT := hT _ e0T
      have gH := hH _ e0H
      refine ⟨⟨hR, fwdTot (by omega)⟩, ⟨_, e0T, gT, gT.total_of ?_⟩, ⟨_, e0H, gH, gH.total_of ?_⟩⟩
      · intro fuel x c hf _ hl
        obtain ⟨f, rfl⟩ : ∃ f, fuel = f + 1 := ⟨fuel - 1, by omega⟩
        obtain ⟨y, c', hy, _⟩ := coord_prim_total I ho hoc hoi hoo f x (hl.trans hsq.symm) c
        exact ⟨y, c', hy⟩
      · intro fuel x c hf _ hl
        obtain ⟨f, rfl⟩ : ∃ f, fuel = f + 1 + 1 := ⟨fuel - 2, by omega⟩
        have hl' : x.data.length = nargin := hl.trans hsq.symm
        rw [run]
        simp only [g3, bind, Act.bind, bump, hl', e3i, ne_eq, not_true_eq_false, if_false, e3, evalCode, liftE, resolve,
          ho]
        by_cases hx : x.kind = .complex
        · obtain ⟨y, c', hy, hyl⟩ := coord_prim_total I ho hoc hoi hoo f x.conj (by simp [Arr.conj, hl'])
            (c.modify (h.length + 1) (· + 1))
          simp only [hx, if_true, Act.bind, hy]
          exact ⟨y.conj.astype (o3.dtype.join .complex), c', by simp [Act.pure, Arr.conj, hyl, e3o]⟩
        · obtain ⟨y, c', hy, hyl⟩ := coord_prim_total I ho hoc hoi hoo f x hl' (c.modify (h.length + 1) (· + 1))
          simp only [hx, if_false, Act.bind, hy]
          exact ⟨y.conj.astype (o3.dtype.join x.kind), c', by simp [Act.pure, Arr.conj, hyl, e3o]⟩
  · rw [LinearOperator_real _ _ _ _ _ _ _ _ hk] at hL
    cases symmetric with
    | false =>
      obtain ⟨hn, o1, g1, e1, e1i, e1o, e0T, e0H⟩ : L.length = h.length + 2 ∧
          ∃ o1, L[h.length + 1]? = some o1 ∧ o1.code = .prim (coordFn vals cols rows nargout nargin false) ∧
            o1.nargin = nargout ∧ o1.nargout = nargin ∧
            getT L h.length = some (h.length + 1) ∧ getH L h.length = some (h.length + 1) := by
        subst hL
        simp [get_app, get_app0, newReal, mkFwd, mkBwd, getT, getH]
      clear hL
      have gT := hT _ e0T
      have gH := hH _ e0H
      refine ⟨⟨hR, fwdTot (by omega)⟩, ⟨_, e0T, gT, gT.total_of ?_⟩, ⟨_, e0H, gH, gH.total_of ?_⟩⟩
      all_goals
        intro fuel x c hf _ hl
        obtain ⟨f, rfl⟩ : ∃ f, fuel = f + 1 := ⟨fuel - 1, by omega⟩
        obtain ⟨y, c', hy, _⟩ := coord_prim_total I.swap g1 e1 e1i e1o f x hl c
        exact ⟨y, c', hy⟩
    | true =>
      have hsq := (I.square rfl).1
      obtain ⟨hn, e0T, e0H⟩ : L.length = h.length + 1 ∧
          getT L h.length = some h.length ∧ getH L h.length = some h.length := by
        subst hL
        simp [get_app0, newReal, mkFwd, getT, getH]
      clear hL
      have gT := hT _ e0T
      have gH := hH _ e0H
      refine ⟨⟨hR, fwdTot (by omega)⟩, ⟨_, e0T, gT, gT.total_of ?_⟩, ⟨_, e0H, gH, gH.total_of ?_⟩⟩
      all_goals
        intro fuel x c hf _ hl
        obtain ⟨f, rfl⟩ : ∃ f, fuel = f + 1 := ⟨fuel - 1, by omega⟩
        obtain ⟨y, c', hy, _⟩ := coord_prim_total I ho hoc hoi hoo f x (hl.trans hsq.symm) c
        exact ⟨y, c', hy⟩

/-! ### Omitted dimensions -/

theorem foldl_max_mem : ∀ (l : List Int) (a : Int), l.foldl max a = a ∨ l.foldl max a ∈ l
  | [], a => Or.inl rfl
  | b :: l, a => by
    rcases foldl_max_mem l (max a b) with h | h
    · simp only [List.foldl_cons, h]
      rcases max_choice a b with e | e <;> simp [e]
    · exact Or.inr (by simp [h])

theorem npMax_mem {l : List Int} {m : Int} (h : npMax l = .ok m) : m ∈ l := by
  cases l with
  | nil => cases h
  | cons a l =>
    cases h
    rcases foldl_max_mem l a with e | e
    · rw [e]; simp
    · simp [e]

/-- an inferred dimension occurs among the indices -/
theorem inferDim_zero {l : List Int} (hl : l ≠ []) (hn : ∀ i ∈ l, 0 ≤ i) : ∃ m : Nat, inferDim 0 l = .ok m ∧ (m : Int) ∈ l := by
  cases h : npMax l with
  | error e => cases l with
    | nil => exact absurd rfl hl
    | cons a l => cases h
  | ok m =>
    have hm := npMax_mem h
    have := hn m hm
    refine ⟨m.toNat, ?_, ?_⟩
    · simp [inferDim, h, this, bind, Except.bind]
    · rw [Int.toNat_of_nonneg this]; exact hm

theorem addAt_length {y z : List K} {i : Int} {a : K} (h : addAt y i a = .ok z) : z.length = y.length := by
  unfold addAt at h
  split at h
  · cases h; simp
  · cases h

/-- when the loop returns, every index was in range -/
theorem coordLoop_range (sy : Bool) (x : List K) : ∀ (vs : List K) (rows cols : List Int) (y z : List K),
    rows.length = vs.length → cols.length = vs.length → coordLoop sy x vs rows cols y = .ok z →
    (∀ j ∈ cols, (pyIndex x.length j).isSome) ∧ ∀ i ∈ rows, (pyIndex y.length i).isSome
  | [], rows, cols, y, z, hr, hc, _ => by
    rw [List.length_eq_zero_iff.1 hr, List.length_eq_zero_iff.1 hc]; simp
  | v :: vs, [], cols, y, z, hr, hc, _ => by simp at hr
  | v :: vs, row :: rows, [], y, z, hr, hc, _ => by simp at hc
  | v :: vs, row :: rows, col :: cols, y, z, hr, hc, h => by
    simp only [coordLoop, bind, Except.bind] at h
    cases h1 : getAt x col with
    | error e => rw [h1] at h; cases h
    | ok a =>
      rw [h1] at h
      simp only at h
      cases h2 : addAt y row (v * a) with
      | error e => rw [h2] at h; cases h
      | ok y1 =>
        rw [h2] at h
        simp only at h
        have g1 : (pyIndex x.length col).isSome := by
          unfold getAt at h1
          split at h1
          · simp [*]
          · cases h1
        have g2 : (pyIndex y.length row).isSome := by
          unfold addAt at h2
          split at h2
          · simp [*]
          · cases h2
        have l1 := addAt_length h2
        have fin : ∀ y2 : List K, y2.length = y.length → coordLoop sy x vs rows cols y2 = .ok z →
            (∀ j ∈ col :: cols, (pyIndex x.length j).isSome) ∧ ∀ i ∈ row :: rows, (pyIndex y.length i).isSome := by
          intro y2 l2 h
          obtain ⟨r1, r2⟩ := coordLoop_range sy x vs rows cols y2 z (by simpa using hr) (by simpa using hc) h
          rw [l2] at r2
          exact ⟨by simpa using ⟨g1, r1⟩, by simpa using ⟨g2, r2⟩⟩
        by_cases hs : (sy && decide (row ≠ col)) = true
        · rw [if_pos hs] at h
          cases h3 : getAt x row with
          | error e => rw [h3] at h; cases h
          | ok b =>
            rw [h3] at h
            simp only at h
            cases h4 : addAt y1 col (v * b) with
            | error e => rw [h4] at h; cases h
            | ok y2 =>
              rw [h4] at h
              exact fin y2 ((addAt_length h4).trans l1) h
        · rw [if_neg hs] at h
          exact fin y1 l1 h

theorem run_prim_inv {h : Heap K} {r : Nat} {o : Obj K} {f : Fn K} (ho : h[r]? = some o) (hc : o.code = .prim f)
    {fuel : Nat} {x y : Arr K} {c : Cnt} (hr : (run h (fuel + 1) r x c).1 = .ok y) :
    x.data.length = o.nargin ∧ ∃ z, f x = .ok z := by
  simp only [run, ho, bind, Act.bind, bump, hc, evalCode] at hr
  by_cases hl : x.data.length = o.nargin
  · refine ⟨hl, ?_⟩
    cases hf : f x with
    | ok z => exact ⟨z, rfl⟩
    | error e => rw [hf] at hr; simp [hl, Act.bind, liftE] at hr
  · simp [hl, Act.raise] at hr

theorem pyIndex_self (n : Nat) : pyIndex n (n : Int) = none := by simp [pyIndex]

/-- **C13, omitted dimensions (violated).** When `nargin` or `nargout` is omitted it is inferred one too small: the
operator is built, but whatever the (nonempty) entries, every product with every vector raises. -/
theorem C13_omitted_dims_fail (vals : Arr K) (rows cols : List Int) (nargin nargout : Nat) (symmetric : Bool) (h : Heap K)
    (homit : nargin = 0 ∨ nargout = 0) (hne : vals.data ≠ []) (hr : rows.length = vals.data.length)
    (hc : cols.length = vals.data.length) (hrn : ∀ i ∈ rows, 0 ≤ i) (hcn : ∀ j ∈ cols, 0 ≤ j) :
    ∃ r h', CoordLinearOperator vals rows cols nargin nargout symmetric h = .ok (r, h') ∧
      ∀ fuel x c y, (run h' fuel r x c).1 ≠ .ok y := by
  have hr0 : rows ≠ [] := by intro e; rw [e] at hr; exact hne (List.length_eq_zero_iff.1 hr.symm)
  have hc0 : cols ≠ [] := by intro e; rw [e] at hc; exact hne (List.length_eq_zero_iff.1 hc.symm)
  obtain ⟨n, hn, hn'⟩ : ∃ n, inferDim nargin cols = .ok n ∧ (nargin = 0 → (n : Int) ∈ cols) := by
    by_cases h0 : nargin = 0
    · obtain ⟨m, h1, h2⟩ := inferDim_zero hc0 hcn
      exact ⟨m, by rw [h0]; exact h1, fun _ => h2⟩
    · exact ⟨nargin, inferDim_pos h0 _, fun e => absurd e h0⟩
  obtain ⟨m, hm, hm'⟩ : ∃ m, inferDim nargout rows = .ok m ∧ (nargout = 0 → (m : Int) ∈ rows) := by
    by_cases h0 : nargout = 0
    · obtain ⟨m, h1, h2⟩ := inferDim_zero hr0 hrn
      exact ⟨m, by rw [h0]; exact h1, fun _ => h2⟩
    · exact ⟨nargout, inferDim_pos h0 _, fun e => absurd e h0⟩
  obtain ⟨o, ho, hoc, hoi, hoo⟩ := coord_new_fwd vals rows cols n m symmetric h
  refine ⟨h.length, _, by simp only [CoordLinearOperator, hn, hm, bind, Except.bind]; rfl, ?_⟩
  intro fuel x c y hrun
  cases fuel with
  | zero => cases hrun
  | succ f =>
    obtain ⟨hl, z, hz⟩ := run_prim_inv ho hoc hrun
    rw [hoi] at hl
    simp only [coordFn, hl, ne_eq, not_true_eq_false, if_false] at hz
    cases hloop : coordLoop symmetric x.data vals.data rows cols (List.replicate m 0) with
    | error e => rw [hloop] at hz; cases hz
    | ok z =>
      obtain ⟨k1, k2⟩ := coordLoop_range symmetric x.data _ rows cols _ z hr hc hloop
      rcases homit with e | e
      · have := k1 _ (hn' e)
        rw [hl, pyIndex_self] at this; cases this
      · have := k2 _ (hm' e)
        rw [List.length_replicate, pyIndex_self] at this; cases this

/-! ### Concrete cases -/

/-- a real 2 x 3 matrix with a duplicate entry and a negative index -/
example : CoordInput (K := GaussianInt) ⟨.int, [1, 2, 3]⟩ [0, 0, -1] [2, 2, 1] 3 2 false
    [(1, 0, 2), (2, 0, 2), (3, 1, 1)] where
  typed := by
    intro a ha
    have : a = 1 ∨ a = 2 ∨ a = 3 := by simpa using ha
    rcases this with rfl | rfl | rfl
    · exact ⟨1, rfl⟩
    · exact ⟨2, rfl⟩
    · exact ⟨3, rfl⟩
  values := rfl
  rowIdx := by decide
  colIdx := by decide
  square := by intro h; cases h

/-- a complex symmetric matrix given by its lower triangle -/
example : CoordInput (K := GaussianInt) ⟨.complex, [⟨0, 1⟩, 2]⟩ [1, 0] [0, 0] 2 2 true [(⟨0, 1⟩, 1, 0), (2, 0, 0)] where
  typed := by intro a _; exact DTypes.complex_all a
  values := rfl
  rowIdx := by decide
  colIdx := by decide
  square := by intro _; decide

/-- `Reach` holds of the empty program, so `C13_coord` applies from the start -/
example : Reach [] ([] : Heap GaussianInt) [] := ⟨[], trivial, rfl, rfl⟩

/-- the entries that `C13_omitted_dims_fail` is about: a 2 x 2 identity without explicit sizes -/
example : ∃ r h', CoordLinearOperator (K := GaussianInt) ⟨.int, [1, 1]⟩ [0, 1] [0, 1] 0 0 false [] = .ok (r, h') ∧
    ∀ fuel x c y, (run h' fuel r x c).1 ≠ .ok y :=
  C13_omitted_dims_fail _ _ _ _ _ _ _ (Or.inl rfl) (by decide) rfl rfl (by decide) (by decide)

end Verif.Linop
