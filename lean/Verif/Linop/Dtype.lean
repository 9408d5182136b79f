import Verif.Linop.Props2
import Verif.Linop.CoordProps
import Verif.Linop.Examples

/-!
# C63: assignments to `op.dtype`

`Widened h h'`: the heap `h'` results from `h` by assignments `op.dtype = k`, to any operators in any order, where `k` is a
dtype class that contains the one the operator had.
-/

set_option linter.unusedSectionVars false

namespace Verif.Linop

variable {K : Type} [CommRing K] [StarRing K] [DTypes K]

/-- `op.dtype = value`, `linop.py:68-73`; `none` stands for a value that is not in `allowed_types`. -/
def setDtype (r : Nat) (value : Option DKind) (h : Heap K) : Except Err (Heap K) :=
  match value with
  | some k => .ok (h.modify r fun o => { o with dtype := k })
  | none => .error .typeError

inductive Widened (h : Heap K) : Heap K → Prop
  | refl : Widened h h
  | step {h' h'' : Heap K} {r : Nat} {o : Obj K} {k : DKind} (w : Widened h h') (ho : h'[r]? = some o)
      (hk : o.dtype.join k = k) (hs : setDtype r (some k) h' = .ok h'') : Widened h h''

/-- **C63.** The assignment changes the dtype of the operator and nothing else; a value that is no NumPy number type raises
`TypeError`. -/
theorem C63_assign (h : Heap K) (r : Nat) (o : Obj K) (ho : h[r]? = some o) (k : DKind) :
    (∃ h', setDtype r (some k) h = .ok h' ∧ h'[r]? = some { o with dtype := k } ∧ h'.length = h.length ∧
      ∀ s, s ≠ r → h'[s]? = h[s]?) ∧
    setDtype r none h = .error .typeError := by
  refine ⟨⟨_, rfl, ?_, ?_, ?_⟩, rfl⟩
  · simp [List.getElem?_modify, ho]
  · simp
  · intro s hs
    simp [List.getElem?_modify, Ne.symm hs]

/-- what a widening changes -/
theorem Widened.get {h h' : Heap K} (w : Widened h h') : h'.length = h.length ∧ ∀ (r : Nat) (o : Obj K), h[r]? = some o →
    ∃ k, h'[r]? = some { o with dtype := k } ∧ o.dtype.join k = k := by
  induction w with
  | refl => exact ⟨rfl, fun r o ho => ⟨o.dtype, ho, DKind.join_self _⟩⟩
  | step w ho hk hs ih =>
    rename_i h' h'' r o k
    cases hs
    refine ⟨by simp [ih.1], fun s p hp => ?_⟩
    obtain ⟨k', h1, h2⟩ := ih.2 s p hp
    by_cases hsr : s = r
    · subst hsr
      rw [h1] at ho; cases ho
      refine ⟨k, by simp [List.getElem?_modify, h1], ?_⟩
      simp only at hk
      rw [← hk, ← DKind.join_assoc, h2]
    · exact ⟨k', by simp [List.getElem?_modify, Ne.symm hsr, h1], h2⟩

theorem Widened.get_inv {h h' : Heap K} (w : Widened h h') {r : Nat} {o' : Obj K} (ho : h'[r]? = some o') :
    ∃ o, h[r]? = some o ∧ o' = { o with dtype := o'.dtype } ∧ o.dtype.join o'.dtype = o'.dtype := by
  have hr : r < h.length := by rw [← w.get.1]; exact (List.getElem?_eq_some_iff.1 ho).1
  obtain ⟨k, h1, h2⟩ := w.get.2 r h[r] (List.getElem?_eq_getElem hr)
  rw [ho] at h1; cases h1
  exact ⟨h[r], List.getElem?_eq_getElem hr, rfl, h2⟩

theorem Widened.resolve {h h' : Heap K} (w : Widened h h') {t : Tgt} : resolve h' t = resolve h t := by
  unfold Linop.resolve
  cases ht : h[t.ref]? with
  | none =>
    have : h'[t.ref]? = none := by
      rw [List.getElem?_eq_none_iff] at ht ⊢
      rw [w.get.1]; exact ht
    rw [this]
  | some o =>
    obtain ⟨k, h1, _⟩ := w.get.2 _ o ht
    rw [h1]

theorem Widened.inv {D : List (Mat K)} {h h' : Heap K} (I : HInv D h) (w : Widened h h') : VInv D h' := by
  refine ⟨w.get.1.trans I.len, fun r o' A ho' hA => ?_⟩
  obtain ⟨o, ho, he, hk⟩ := w.get_inv ho'
  have ok := I.toV.ok r o A ho hA
  have ok' := I.ok r o A ho hA
  rw [he]
  refine ⟨ok.nargin, ok.nargout, ?_, ok.symm, ok.herm, ok.code, ok.T, ok.H⟩
  intro i hi j hj
  have h1 : A.e i j ∈ (DTypes.sub o.dtype : Subring K) := ok.typed i hi j hj
  rw [← hk]
  exact sub_left _ _ h1

theorem Widened.closed {h h' : Heap K} (w : Widened h h') {S : Nat → Prop} (hS : Closed h S) : Closed h' S := by
  intro r hr
  obtain ⟨o, ho, hT, hH, hc⟩ := hS r hr
  obtain ⟨k, h1, _⟩ := w.get.2 r o ho
  have tgt : ∀ t, TgtTot h S r t → TgtTot h' S r t := by
    intro t ⟨s, e1, e2, e3⟩
    exact ⟨s, by rw [w.resolve, e1], e2, e3⟩
  refine ⟨_, h1, hT, hH, ?_⟩
  change CodeTot h' S r o.nargin o.code
  cases hcode : o.code with
  | prim f => rw [hcode] at hc; exact hc
  | conj t => rw [hcode] at hc; exact tgt _ hc
  | scal a ka t => rw [hcode] at hc; exact tgt _ hc
  | comp a b => rw [hcode] at hc; exact ⟨tgt _ hc.1, tgt _ hc.2⟩
  | add a b => rw [hcode] at hc; exact ⟨tgt _ hc.1, tgt _ hc.2⟩
  | sub a b => rw [hcode] at hc; exact ⟨tgt _ hc.1, tgt _ hc.2⟩
  | gather n put take t =>
    rw [hcode] at hc
    obtain ⟨e1, e2, s, p, e3, e4, e5⟩ := hc
    obtain ⟨k', h2, _⟩ := w.get.2 s p e4
    exact ⟨tgt _ e1, e2, s, _, by rw [w.resolve, e3], h2, e5⟩

theorem VInv.represents {D : List (Mat K)} {h : Heap K} (I : VInv D h) {r : Nat} {o : Obj K} {A B : Mat K}
    (ho : h[r]? = some o) (hB : D[r]? = some B) (hE : Same B A) : Represents h r { A with kind := o.dtype } := by
  have hok := I.ok r o B ho hB
  refine ⟨⟨o, ho, hok.nargin.trans hE.cols, hok.nargout.trans hE.rows, rfl, ?_, ?_⟩, ?_⟩
  · intro hs
    have e := hok.symm hs
    have c : A.rows = A.cols := by rw [← hE.rows, ← hE.cols]; exact e.rows
    refine ⟨c, c.symm, rfl, fun i (hi : i < A.rows) j (hj : j < A.cols) => ?_⟩
    have hi' : i < B.rows := hE.rows ▸ hi
    have hj' : j < B.cols := hE.cols ▸ hj
    change A.e i j = A.e j i
    rw [← hE.entry i hi' j hj', ← hE.entry j (by rw [e.rows]; exact hj') i (by rw [e.cols]; exact hi')]
    exact e.entry i hi' j hj'
  · intro hs
    have e := hok.herm hs
    have c : A.rows = A.cols := by rw [← hE.rows, ← hE.cols]; exact e.rows
    refine ⟨c, c.symm, rfl, fun i (hi : i < A.rows) j (hj : j < A.cols) => ?_⟩
    have hi' : i < B.rows := hE.rows ▸ hi
    have hj' : j < B.cols := hE.cols ▸ hj
    change A.e i j = star (A.e j i)
    rw [← hE.entry i hi' j hj', ← hE.entry j (by rw [e.rows]; exact hj') i (by rw [e.cols]; exact hi')]
    exact e.entry i hi' j hj'
  · intro fuel x c y c' hx hr
    obtain ⟨h1, h2⟩ := I.run_sound fuel r o B x c y c' ho hB hx hr
    exact ⟨h1.trans hE.cols, by rw [h2, hE.app]; rfl⟩

theorem VInv.total {D : List (Mat K)} {h : Heap K} (I : VInv D h) {S : Nat → Prop} (hS : Closed h S) {r : Nat} {o : Obj K}
    {A B : Mat K} (hr : S r) (ho : h[r]? = some o) (hB : D[r]? = some B) (hE : Same B A) :
    Total h r { A with kind := o.dtype } := by
  intro fuel x c hf hx hl
  obtain ⟨c', hc⟩ := I.run_total hS fuel r o B x c hr (lt_of_lt_of_le (hS.lt hr) hf) ho hB hx (hl.trans hE.cols.symm)
  exact ⟨c', by rw [hc, hE.app]; rfl⟩

section
variable [DecidableEq K]

/-- **C63 (partial).** In any state a client program can reach, after any assignments of wider dtypes to any operators:
every operator still acts as its matrix, also those built from the changed ones; the dtype of the result is the one belonging to
the dtype the operator has now; `.T` and `.H` are the same operators as before and still act as the transpose and the adjoint,
with the dtype which these operators have now.  Missing: that dtype is not the new dtype of the operator (`C63_stale`), and
nothing is said about operators built after the assignments. -/
theorem C63_widen_partial {env : List Nat} {h h' : Heap K} {mats : List (Mat K)} (R : Reach env h mats) (w : Widened h h')
    {i r : Nat} {A : Mat K} (hr : env[i]? = some r) (hA : mats[i]? = some A) :
    ∃ o, h'[r]? = some o ∧ A.kind.join o.dtype = o.dtype ∧ Represents h' r { A with kind := o.dtype } ∧
      (∀ t, getT h' r = some t → getT h r = some t ∧ ∃ p, h'[t]? = some p ∧ Represents h' t { A.T with kind := p.dtype }) ∧
      (∀ t, getH h' r = some t → getH h r = some t ∧ ∃ p, h'[t]? = some p ∧ Represents h' t { A.H with kind := p.dtype }) := by
  obtain ⟨D, I, L, _, _⟩ := R.inv
  obtain ⟨B, hB, hE⟩ := L.2 i r A hr hA
  have V := w.inv I
  obtain ⟨o, ho, hok⟩ := V.get hB
  obtain ⟨o0, ho0, he, hk⟩ := w.get_inv ho
  have hk0 : o0.dtype = A.kind := (I.ok r o0 B ho0 hB).dtype.trans hE.kind
  have hS := Same.of_eqv hE
  refine ⟨o, ho, hk0 ▸ hk, V.represents ho hB hS, ?_, ?_⟩
  · intro t ht
    simp only [getT, ho, Option.bind_some] at ht
    obtain ⟨C, hC, hCE⟩ := hok.T t ht
    obtain ⟨p, hp, _⟩ := V.get hC
    refine ⟨?_, p, hp, V.represents hp hC (hCE.trans (.of_eqv (Mat.T_eqv hE)))⟩
    rw [he] at ht
    simp only [getT, ho0, Option.bind_some, ← ht]
  · intro t ht
    simp only [getH, ho, Option.bind_some] at ht
    obtain ⟨C, hC, hCE⟩ := hok.H t ht
    obtain ⟨p, hp, _⟩ := V.get hC
    refine ⟨?_, p, hp, V.represents hp hC (hCE.trans (.of_eqv (Mat.H_eqv hE)))⟩
    rw [he] at ht
    simp only [getH, ho0, Option.bind_some, ← ht]

/-- **C63 (partial), total part.** For complete user operators, all these products return after the assignments, too. -/
theorem C63_widen_total_partial {env : List Nat} {h h' : Heap K} {mats : List (Mat K)} (R : ReachTotal env h mats)
    (w : Widened h h') {i r : Nat} {A : Mat K} (hr : env[i]? = some r) (hA : mats[i]? = some A) :
    (∃ o, h'[r]? = some o ∧ Total h' r { A with kind := o.dtype }) ∧
      (∃ t p, getT h' r = some t ∧ h'[t]? = some p ∧ Total h' t { A.T with kind := p.dtype }) ∧
      (∃ u p, getH h' r = some u ∧ h'[u]? = some p ∧ Total h' u { A.H with kind := p.dtype }) := by
  obtain ⟨D, S, I, L, hS, hEnv⟩ := R.inv
  obtain ⟨B, hB, hE⟩ := L.2 i r A hr hA
  have V := w.inv I
  have hS' := w.closed hS
  obtain ⟨o, ho, hok⟩ := V.get hB
  obtain ⟨o', ho', ⟨t, ht, hts⟩, ⟨u, hu, hus⟩, _⟩ := hS' r (hEnv i r hr)
  rw [ho] at ho'; cases ho'
  obtain ⟨C, hC, hCE⟩ := hok.T t ht
  obtain ⟨C', hC', hCE'⟩ := hok.H u hu
  obtain ⟨p, hp, _⟩ := V.get hC
  obtain ⟨p', hp', _⟩ := V.get hC'
  exact ⟨⟨o, ho, V.total hS' (hEnv i r hr) ho hB (.of_eqv hE)⟩,
    ⟨t, p, by simp [getT, ho, ht], hp, V.total hS' hts hp hC (hCE.trans (.of_eqv (Mat.T_eqv hE)))⟩,
    ⟨u, p', by simp [getH, ho, hu], hp', V.total hS' hus hp' hC' (hCE'.trans (.of_eqv (Mat.H_eqv hE)))⟩⟩

end

/-- The heap after `op = LinearOperator(n, m, f, matvec_transp=ft)`, with the default dtype, and `op.dtype = complex`. -/
def declaredLater (A : Mat K) (f ft : Fn K) (h : Heap K) : Nat × Heap K :=
  let p := LinearOperator ⟨A.cols, A.rows, .prim f, some (.prim ft), none, false, false, .real, none, none, none⟩ h
  (p.1, (match setDtype p.1 (some .complex) p.2 with | .ok h' => h' | .error _ => p.2))

theorem declaredLater_get (A : Mat K) (f ft : Fn K) (h : Heap K) :
    (declaredLater A f ft h).1 = h.length ∧
    (declaredLater A f ft h).2[h.length]? = some ⟨A.cols, A.rows, false, false, .complex, .prim f, some (h.length + 1),
      some (h.length + 1)⟩ ∧
    (declaredLater A f ft h).2[h.length + 1]? = some ⟨A.rows, A.cols, false, false, .real, .prim ft, some h.length,
      some h.length⟩ := by
  unfold declaredLater
  rw [LinearOperator_real _ _ _ _ _ _ _ _ (by decide)]
  refine ⟨rfl, ?_, ?_⟩
  · simp [setDtype, modify_app0, get_app0, newReal, mkFwd, mkBwd]
  · simp [setDtype, modify_app0, get_app, newReal, mkFwd, mkBwd]

/-- **C63.** An operator made from functions that compute products with a complex matrix `A`, without saying that the dtype is
complex, and then declared complex by an assignment: its products are right. -/
theorem C63_declared_later (A : Mat K) {f ft : Fn K} (hf : Computes A f) (h : Heap K) (x y : Arr K) (hx : x.Typed)
    (hl : x.data.length = A.cols) (hy : f x = .ok y) (fuel : Nat) (c : Cnt) :
    ∃ c', run (declaredLater A f ft h).2 (fuel + 1) (declaredLater A f ft h).1 x c = (.ok ⟨.complex, A.app x.data⟩, c') := by
  obtain ⟨h1, h2, _⟩ := declaredLater_get A f ft h
  have hd := hf x hx hl y hy
  rw [h1]
  obtain ⟨c', hc⟩ := run_prim h2 rfl fuel hl hy (by rw [hd, Mat.app_length]) c
  refine ⟨c', ?_⟩
  rw [hc, astype_of_mem (fun a _ => by cases x.kind <;> exact DTypes.complex_all a), hd]
  cases x.kind <;> rfl

/-- **C63 is violated.** But its `.T` is still a float operator: it throws away the imaginary parts of the product with the
transpose; and its `.H` is the same operator, as if the matrix were real. -/
theorem C63_stale (A : Mat K) {f ft : Fn K} (hft : Computes A.T ft) (h : Heap K) :
    ∃ t p, getT (declaredLater A f ft h).2 (declaredLater A f ft h).1 = some t ∧
      getH (declaredLater A f ft h).2 (declaredLater A f ft h).1 = some t ∧
      (declaredLater A f ft h).2[t]? = some p ∧ p.dtype = .real ∧
      ∀ (x y : Arr K), x.Typed → x.kind ≠ .complex → x.data.length = A.rows → ft x = .ok y → ∀ (fuel : Nat) (c : Cnt),
        ∃ c', run (declaredLater A f ft h).2 (fuel + 1) t x c =
          (.ok ⟨.real, (A.T.app x.data).map (DTypes.cast .real)⟩, c') := by
  obtain ⟨h1, h2, h3⟩ := declaredLater_get A f ft h
  refine ⟨h.length + 1, _, ?_, ?_, h3, rfl, ?_⟩
  · rw [h1]; simp [getT, h2]
  · rw [h1]; simp [getH, h2]
  · intro x y hx hk hl hy fuel c
    have hd := hft x hx hl y hy
    obtain ⟨c', hc⟩ := run_prim h3 rfl fuel hl hy (by rw [hd, Mat.app_length]; rfl) c
    refine ⟨c', ?_⟩
    rw [hc, Arr.astype, hd]
    cases hk' : x.kind with
    | complex => exact absurd hk' hk
    | real => rfl
    | int => rfl

namespace Examples

/-- `[[0, 1j], [0, 0]]` declared complex after its construction: the transpose of `[1, 1]` should be `[0, 1j]`, the adjoint
`[0, -1j]`; the code returns zero for both. -/
theorem C63_stale_wrong :
    (match getT (declaredLater shiftM shiftF shiftT []).2 0 with
      | some t => (run (declaredLater shiftM shiftF shiftT []).2 9 t ⟨.real, [1, 1]⟩ []).1.toOption.map Arr.data
      | none => none) = some [0, 0] ∧
    shiftM.T.app [1, 1] = [0, ⟨0, 1⟩] ∧ shiftM.H.app [1, 1] = [0, ⟨0, -1⟩] := by
  refine ⟨by decide +kernel, ?_, ?_⟩
  · rw [shift_appT]; simp
  · rw [shift_appH]; simp

/-- the hypotheses of `C63_declared_later` and `C63_stale` are met -/
example := C63_declared_later shiftM (f := shiftF) (ft := shiftT) (fun x _ _ y hy => by cases hy; exact (shift_app _).symm) []
  ⟨.real, [1, 1]⟩ _ (by intro a ha; simp at ha; subst ha; exact Subring.one_mem _) rfl rfl 8 []
example := C63_stale shiftM (f := shiftF) (ft := shiftT) (fun x _ _ y hy => by cases hy; exact (shift_appT _).symm) []

/-- the hypotheses of `C63_widen_partial` are met: in the demo program the integer array becomes a float operator and then
a complex one, and so do others -/
example : ∃ h' : Heap G, Widened demoState.2 h' ∧ h' ≠ demoState.2 := by
  have h0 : (demoState.2[0]?).map Obj.dtype = some .int := by decide +kernel
  obtain ⟨o, ho, hd⟩ : ∃ o, demoState.2[0]? = some o ∧ o.dtype = .int := by
    cases e : demoState.2[0]? with
    | none => rw [e] at h0; cases h0
    | some o => rw [e] at h0; exact ⟨o, rfl, by simpa using h0⟩
  obtain ⟨⟨h1, e1, e2, _⟩, _⟩ := C63_assign demoState.2 0 o ho .real
  obtain ⟨⟨h2, e3, e4, _⟩, _⟩ := C63_assign h1 0 _ e2 .complex
  refine ⟨h2, (Widened.refl.step ho (by rw [hd]; rfl) e1).step e2 rfl e3, ?_⟩
  intro he
  rw [he, ho] at e4
  have := congrArg Obj.dtype (Option.some.inj e4)
  rw [hd] at this
  cases this

end Examples
end Verif.Linop
