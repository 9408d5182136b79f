import Verif.Linop.PropsLemmas

/-!
# Properties C03, C06-C12, C15 of the operator algebra
-/

set_option linter.unusedSectionVars false

namespace Verif.Linop

variable {K : Type} [CommRing K] [StarRing K] [DTypes K]

/-! ## C03 -/

/-- **C03.** Pointer identities after `LinearOperator(...)`, for all arguments and any existing operators.
(The missing part of the property is refuted by `C03_double_transpose_missing`.) -/
theorem C03_pointers_partial (nin nout : Nat) (mv : Code K) (mt ma : Option (Code K)) (sy he : Bool) (dt : DKind)
    (h : Heap K) (r : Nat) (h' : Heap K)
    (hc : LinearOperator ⟨nin, nout, mv, mt, ma, sy, he, dt, none, none, none⟩ h = (r, h')) :
    (sy = true → getT h' r = some r) ∧
    (he = true → dt ≠ .complex → getH h' r = some r) ∧
    (sy = false → mt.isSome → ∃ t, getT h' r = some t ∧ getT h' t = some r) ∧
    (he = false → sy = false → ma.isSome → ∃ u, getH h' r = some u ∧ getH h' u = some r) ∧
    (dt = .complex → mt.isSome ∨ ma.isSome → (getT h' r).isSome ∧ (getH h' r).isSome) := by
  by_cases hd : dt = .complex
  · subst hd
    rw [LinearOperator_complex] at hc
    cases hc
    cases sy <;> cases he <;> cases mt <;> cases ma <;>
      simp [newComplex, mkFwd, mkBwd, mkConj, mkConjBwd, getT, getH]
  · rw [LinearOperator_real _ _ _ _ _ _ _ _ hd] at hc
    cases hc
    cases sy <;> cases he <;> cases mt <;> cases ma <;>
      simp [newReal, mkFwd, mkBwd, getT, getH, hd]

/-- **C03 fails** for complex operators constructed with only one of `matvec_transp` / `matvec_adj`: with only
`matvec_adj`, `op.T` is present but `op.T.T` is `None`; with only `matvec_transp`, `op.H.H` is `None`. -/
theorem C03_double_transpose_missing (nin nout : Nat) (mv mo : Code K) (h : Heap K) (r : Nat) (h' : Heap K) :
    (LinearOperator ⟨nin, nout, mv, none, some mo, false, false, .complex, none, none, none⟩ h = (r, h') →
      ∃ t, getT h' r = some t ∧ getT h' t = none) ∧
    (LinearOperator ⟨nin, nout, mv, some mo, none, false, false, .complex, none, none, none⟩ h = (r, h') →
      ∃ u, getH h' r = some u ∧ getH h' u = none) := by
  rw [LinearOperator_complex, LinearOperator_complex]
  constructor
  · intro hc; cases hc
    simp [newComplex, mkFwd, mkBwd, mkConj, mkConjBwd, getT]
  · intro hc; cases hc
    simp [newComplex, mkFwd, mkBwd, mkConj, mkConjBwd, getH]

/-! ## C06 -/

/-- Every product `r * x` that returns adds exactly `d` to the counter `nMatvec` of operator `i`. -/
def EachProductAdds (h : Heap K) (r i d : Nat) : Prop :=
  ∀ (fuel : Nat) (x : Arr K) (c : Cnt) (y : Arr K) (c' : Cnt), run h fuel r x c = (.ok y, c') →
    c'[i]? = c[i]?.map (· + d)

section
variable [DecidableEq K]

/-- **C06.** Every attempted product `op * x`, whatever the vector and whether it returns or raises, adds exactly one to
`op.nMatvec` and changes no counter of an operator created after `op`. -/
theorem C06_own_counter {env : List Nat} {h : Heap K} {mats : List (Mat K)} (R : Reach env h mats) {i r : Nat}
    (hr : env[i]? = some r) (fuel : Nat) (x : Arr K) (c : Cnt) :
    (run h (fuel + 1) r x c).2[r]? = c[r]?.map (· + 1) ∧ ∀ j, r < j → (run h (fuel + 1) r x c).2[j]? = c[j]? := by
  obtain ⟨D, I, L, O, _⟩ := R.inv
  obtain ⟨A, hA, hlt⟩ := R.get hr
  obtain ⟨_, h2, h3⟩ := run_own O (fuel + 1) r x c
  exact ⟨h3 (by omega) hlt, h2⟩

/-- **C06.** A product with `A * B` applies `A` once and `B` once. -/
theorem C06_mul (h : Heap K) (r s : Nat) (p : Nat × Heap K) (hp : mulLinop r s h = .ok p)
    (i d e : Nat) (hi : i ≠ p.1) (hd : EachProductAdds p.2 r i d) (he : EachProductAdds p.2 s i e) :
    EachProductAdds p.2 p.1 i (d + e) := by
  unfold mulLinop at hp
  split at hp
  · next o q ho hq =>
    split at hp
    · cases hp
    · simp only [Except.ok.injEq] at hp
      obtain ⟨o2, ho2, hc2, -⟩ := ctor_get (K := K) q.nargin o.nargout (.comp ⟨r, .self⟩ ⟨s, .self⟩)
          (some (.comp ⟨s, .T⟩ ⟨r, .T⟩)) (some (.comp ⟨s, .H⟩ ⟨r, .H⟩)) false false (o.dtype.join q.dtype) h
      obtain ⟨news, hn⟩ := ctor_prefix (K := K) q.nargin o.nargout (.comp ⟨r, .self⟩ ⟨s, .self⟩)
          (some (.comp ⟨s, .T⟩ ⟨r, .T⟩)) (some (.comp ⟨s, .H⟩ ⟨r, .H⟩)) false false (o.dtype.join q.dtype) h
      have hp1 : p.1 = h.length := by rw [← hp]; rfl
      have hp2 : p.2 = h ++ news := by rw [← hp]; exact hn
      have hoo : p.2[p.1]? = some o2 := by rw [hp1, ← hp]; exact ho2
      have hrl : r < p.2.length := by rw [hp2, List.length_append]; have := get_lt ho; omega
      have hsl : s < p.2.length := by rw [hp2, List.length_append]; have := get_lt hq; omega
      intro fuel x c y c' hrun
      obtain ⟨f, z, -, hz⟩ := run_inner hoo hrun
      rw [hc2] at hz
      simp only [evalCode] at hz
      replace hz := act_bind_ok hz
      obtain ⟨ri, c1, h1, hz⟩ := hz
      replace hz := act_bind_ok hz
      obtain ⟨w, c2, h2, hz⟩ := hz
      replace hz := act_bind_ok hz
      obtain ⟨ro, c3, h3, hz⟩ := hz
      obtain ⟨h1, rfl⟩ := liftE_ok h1
      obtain ⟨h3, rfl⟩ := liftE_ok h3
      rw [resolve_self hsl] at h1; cases h1
      rw [resolve_self hrl] at h3; cases h3
      rw [hd _ _ _ _ _ hz, he _ _ _ _ _ h2, modify_other hi, Option.map_map]
      congr 1; funext n; simp only [Function.comp]; omega
  · cases hp

/-- **C06.** A product with `A + B` applies `A` once and `B` once. -/
theorem C06_add (h : Heap K) (r s : Nat) (p : Nat × Heap K) (hp : addOp r s h = .ok p)
    (i d e : Nat) (hi : i ≠ p.1) (hd : EachProductAdds p.2 r i d) (he : EachProductAdds p.2 s i e) :
    EachProductAdds p.2 p.1 i (d + e) := by
  unfold addOp at hp
  split at hp
  · next o q ho hq =>
    split at hp
    · cases hp
    · simp only [Except.ok.injEq] at hp
      obtain ⟨o2, ho2, hc2, -⟩ := ctor_get (K := K) o.nargin o.nargout (.add ⟨r, .self⟩ ⟨s, .self⟩)
          (some (.add ⟨r, .T⟩ ⟨s, .T⟩)) (some (.add ⟨r, .H⟩ ⟨s, .H⟩)) (o.symmetric && q.symmetric)
          (o.hermitian && q.hermitian) (o.dtype.join q.dtype) h
      obtain ⟨news, hn⟩ := ctor_prefix (K := K) o.nargin o.nargout (.add ⟨r, .self⟩ ⟨s, .self⟩)
          (some (.add ⟨r, .T⟩ ⟨s, .T⟩)) (some (.add ⟨r, .H⟩ ⟨s, .H⟩)) (o.symmetric && q.symmetric)
          (o.hermitian && q.hermitian) (o.dtype.join q.dtype) h
      have hp1 : p.1 = h.length := by rw [← hp]; rfl
      have hp2 : p.2 = h ++ news := by rw [← hp]; exact hn
      have hoo : p.2[p.1]? = some o2 := by rw [hp1, ← hp]; exact ho2
      have hrl : r < p.2.length := by rw [hp2, List.length_append]; have := get_lt ho; omega
      have hsl : s < p.2.length := by rw [hp2, List.length_append]; have := get_lt hq; omega
      intro fuel x c y c' hrun
      obtain ⟨f, z, -, hz⟩ := run_inner hoo hrun
      rw [hc2] at hz
      simp only [evalCode] at hz
      replace hz := act_bind_ok hz
      obtain ⟨ri, c1, h1, hz⟩ := hz
      replace hz := act_bind_ok hz
      obtain ⟨w, c2, h2, hz⟩ := hz
      replace hz := act_bind_ok hz
      obtain ⟨ro, c3, h3, hz⟩ := hz
      replace hz := act_bind_ok hz
      obtain ⟨v, c4, h4, hz⟩ := hz
      obtain ⟨h1, rfl⟩ := liftE_ok h1
      obtain ⟨h3, rfl⟩ := liftE_ok h3
      obtain ⟨hz, rfl⟩ := liftE_ok hz
      rw [resolve_self hrl] at h1; cases h1
      rw [resolve_self hsl] at h3; cases h3
      rw [he _ _ _ _ _ h4, hd _ _ _ _ _ h2, modify_other hi, Option.map_map]
      congr 1; funext n; simp only [Function.comp]; omega
  · cases hp

/-- **C06.** A product with `A - B` applies `A` once and `B` once. -/
theorem C06_sub (h : Heap K) (r s : Nat) (p : Nat × Heap K) (hp : subOp r s h = .ok p)
    (i d e : Nat) (hi : i ≠ p.1) (hd : EachProductAdds p.2 r i d) (he : EachProductAdds p.2 s i e) :
    EachProductAdds p.2 p.1 i (d + e) := by
  unfold subOp at hp
  split at hp
  · next o q ho hq =>
    split at hp
    · cases hp
    · simp only [Except.ok.injEq] at hp
      obtain ⟨o2, ho2, hc2, -⟩ := ctor_get (K := K) o.nargin o.nargout (.sub ⟨r, .self⟩ ⟨s, .self⟩)
          (some (.sub ⟨r, .T⟩ ⟨s, .T⟩)) (some (.sub ⟨r, .H⟩ ⟨s, .H⟩)) (o.symmetric && q.symmetric)
          (o.hermitian && q.hermitian) (o.dtype.join q.dtype) h
      obtain ⟨news, hn⟩ := ctor_prefix (K := K) o.nargin o.nargout (.sub ⟨r, .self⟩ ⟨s, .self⟩)
          (some (.sub ⟨r, .T⟩ ⟨s, .T⟩)) (some (.sub ⟨r, .H⟩ ⟨s, .H⟩)) (o.symmetric && q.symmetric)
          (o.hermitian && q.hermitian) (o.dtype.join q.dtype) h
      have hp1 : p.1 = h.length := by rw [← hp]; rfl
      have hp2 : p.2 = h ++ news := by rw [← hp]; exact hn
      have hoo : p.2[p.1]? = some o2 := by rw [hp1, ← hp]; exact ho2
      have hrl : r < p.2.length := by rw [hp2, List.length_append]; have := get_lt ho; omega
      have hsl : s < p.2.length := by rw [hp2, List.length_append]; have := get_lt hq; omega
      intro fuel x c y c' hrun
      obtain ⟨f, z, -, hz⟩ := run_inner hoo hrun
      rw [hc2] at hz
      simp only [evalCode] at hz
      replace hz := act_bind_ok hz
      obtain ⟨ri, c1, h1, hz⟩ := hz
      replace hz := act_bind_ok hz
      obtain ⟨w, c2, h2, hz⟩ := hz
      replace hz := act_bind_ok hz
      obtain ⟨ro, c3, h3, hz⟩ := hz
      replace hz := act_bind_ok hz
      obtain ⟨v, c4, h4, hz⟩ := hz
      obtain ⟨h1, rfl⟩ := liftE_ok h1
      obtain ⟨h3, rfl⟩ := liftE_ok h3
      obtain ⟨hz, rfl⟩ := liftE_ok hz
      rw [resolve_self hrl] at h1; cases h1
      rw [resolve_self hsl] at h3; cases h3
      rw [he _ _ _ _ _ h4, hd _ _ _ _ _ h2, modify_other hi, Option.map_map]
      congr 1; funext n; simp only [Function.comp]; omega
  · cases hp

/-- **C06.** A product with `a * A` applies `A` once if `a ≠ 0` and not at all if `a = 0`. -/
theorem C06_smul (h : Heap K) (r : Nat) (a : K) (ka : DKind) (p : Nat × Heap K) (hp : mulScalar r a ka h = .ok p)
    (i d : Nat) (hi : i ≠ p.1) (hd : EachProductAdds p.2 r i d) :
    EachProductAdds p.2 p.1 i (if a = 0 then 0 else d) := by
  unfold mulScalar at hp
  split at hp
  · cases hp
  · next o ho =>
    simp only at hp
    split at hp
    · next ha =>
      simp only [Except.ok.injEq] at hp
      obtain ⟨o2, ho2, hc2, -⟩ := ctor_get (K := K) o.nargin o.nargout (.prim (zeroFn o.nargin o.nargout (o.dtype.join ka)))
          (some (.prim (zeroFn o.nargout o.nargin (o.dtype.join ka))))
          (some (.prim (zeroFn o.nargout o.nargin (o.dtype.join ka)))) (decide (o.nargin = o.nargout)) false
          (o.dtype.join ka) h
      have hp1 : p.1 = h.length := by rw [← hp]; rfl
      have hoo : p.2[p.1]? = some o2 := by rw [hp1, ← hp]; exact ho2
      intro fuel x c y c' hrun
      obtain ⟨f, z, -, hz⟩ := run_inner hoo hrun
      rw [hc2] at hz
      simp only [evalCode] at hz
      obtain ⟨hz, rfl⟩ := liftE_ok hz
      rw [modify_other hi]; simp [ha]
    · next ha =>
      simp only [Except.ok.injEq] at hp
      obtain ⟨o2, ho2, hc2, -⟩ := ctor_get (K := K) o.nargin o.nargout (.scal a ka ⟨r, .self⟩)
          (some (.scal a ka ⟨r, .T⟩)) (some (.scal (star a) ka ⟨r, .H⟩)) o.symmetric
          (decide (o.dtype.join ka ≠ .complex) && o.hermitian) (o.dtype.join ka) h
      obtain ⟨news, hn⟩ := ctor_prefix (K := K) o.nargin o.nargout (.scal a ka ⟨r, .self⟩)
          (some (.scal a ka ⟨r, .T⟩)) (some (.scal (star a) ka ⟨r, .H⟩)) o.symmetric
          (decide (o.dtype.join ka ≠ .complex) && o.hermitian) (o.dtype.join ka) h
      have hp1 : p.1 = h.length := by rw [← hp]; rfl
      have hp2 : p.2 = h ++ news := by rw [← hp]; exact hn
      have hoo : p.2[p.1]? = some o2 := by rw [hp1, ← hp]; exact ho2
      have hrl : r < p.2.length := by rw [hp2, List.length_append]; have := get_lt ho; omega
      intro fuel x c y c' hrun
      obtain ⟨f, z, -, hz⟩ := run_inner hoo hrun
      rw [hc2] at hz
      simp only [evalCode] at hz
      replace hz := act_bind_ok hz
      obtain ⟨ri, c1, h1, hz⟩ := hz
      replace hz := act_bind_ok hz
      obtain ⟨w, c2, h2, hz⟩ := hz
      obtain ⟨h1, rfl⟩ := liftE_ok h1
      obtain ⟨_, rfl⟩ := pure_ok hz
      rw [resolve_self hrl] at h1; cases h1
      rw [hd _ _ _ _ _ h2, modify_other hi]; simp [ha]

/-- **C06.** A product with a reduced operator applies the underlying operator once. -/
theorem C06_reduce (h : Heap K) (r : Nat) (rows cols : List Int) (p : Nat × Heap K)
    (hp : ReducedLinearOperator r rows cols h = .ok p) (i d : Nat) (hi : i ≠ p.1) (hd : EachProductAdds p.2 r i d) :
    EachProductAdds p.2 p.1 i d := by
  unfold ReducedLinearOperator at hp
  split at hp
  · cases hp
  · next o ho =>
    simp only [Except.ok.injEq] at hp
    obtain ⟨o2, ho2, hc2, -⟩ := ctor_get (K := K) cols.length rows.length (.gather o.nargin cols rows ⟨r, .self⟩)
        (some (.gather o.nargout rows cols ⟨r, .T⟩)) (some (.gather o.nargout rows cols ⟨r, .H⟩)) false false o.dtype h
    obtain ⟨news, hn⟩ := ctor_prefix (K := K) cols.length rows.length (.gather o.nargin cols rows ⟨r, .self⟩)
        (some (.gather o.nargout rows cols ⟨r, .T⟩)) (some (.gather o.nargout rows cols ⟨r, .H⟩)) false false o.dtype h
    have hp1 : p.1 = h.length := by rw [← hp]; rfl
    have hp2 : p.2 = h ++ news := by rw [← hp]; exact hn
    have hoo : p.2[p.1]? = some o2 := by rw [hp1, ← hp]; exact ho2
    have hrl : r < p.2.length := by rw [hp2, List.length_append]; have := get_lt ho; omega
    intro fuel x c y c' hrun
    obtain ⟨f, z, -, hz⟩ := run_inner hoo hrun
    rw [hc2] at hz
    simp only [evalCode] at hz
    replace hz := act_bind_ok hz
    obtain ⟨zz, c0, h0, hz⟩ := hz
    replace hz := act_bind_ok hz
    obtain ⟨ri, c1, h1, hz⟩ := hz
    replace hz := act_bind_ok hz
    obtain ⟨w, c2, h2, hz⟩ := hz
    replace hz := act_bind_ok hz
    obtain ⟨v, c3, h3, hz⟩ := hz
    obtain ⟨_, rfl⟩ := liftE_ok h0
    obtain ⟨h1, rfl⟩ := liftE_ok h1
    obtain ⟨_, rfl⟩ := liftE_ok h3
    obtain ⟨_, rfl⟩ := pure_ok hz
    rw [resolve_self hrl] at h1; cases h1
    rw [hd _ _ _ _ _ h2, modify_other hi]

/-- **C06 / C09.** A product with `A ** k` applies `A` exactly `k` times: `A.nMatvec` increases by exactly `k`. -/
theorem C06_pow {env : List Nat} {h : Heap K} {mats : List (Mat K)} (R : Reach env h mats) {i r : Nat}
    (hr : env[i]? = some r) (k : Int) (p : Nat × Heap K) (hp : powOp r k h = .ok p) :
    EachProductAdds p.2 p.1 r k.toNat := by
  obtain ⟨D, I, L, O, _⟩ := R.inv
  obtain ⟨A, hA, hlt⟩ := R.get hr
  obtain ⟨B, hB, hE⟩ := L.2 i r A hr hA
  obtain ⟨o, ho, hok⟩ := I.get hB
  unfold powOp at hp
  rw [ho] at hp
  simp only at hp
  split at hp
  · cases hp
  · split at hp
    · cases hp
    · next hsq =>
      have hsq : B.cols = B.rows := by rw [← hok.nargin, ← hok.nargout]; exact not_not.1 hsq
      obtain ⟨hc, _, _⟩ := powGo_cost hsq k.toNat D h I O hB hlt p hp
      have O' := powGo_ordered hsq k.toNat D h I O hB p hp
      intro fuel x c y c' hrun
      rw [run_productCost O' hrun r, hc]

/-! ## C07 -/

/-- **C07.** The dtype of a product is the result type of the operator's and the vector's dtypes, and the cast that
produces it changes no value: the entries are those of the exact matrix-vector product. -/
theorem C07_result_dtype {env : List Nat} {h : Heap K} {mats : List (Mat K)} (R : Reach env h mats) {i r : Nat}
    {o : Obj K} {A : Mat K} (hr : env[i]? = some r) (ho : h[r]? = some o) (hA : mats[i]? = some A)
    (fuel : Nat) (x y : Arr K) (c c' : Cnt) (hx : x.Typed) (hrun : run h fuel r x c = (.ok y, c')) :
    y.kind = o.dtype.join x.kind ∧ o.dtype = A.kind ∧ y.data = A.app x.data ∧ y.Typed := by
  obtain ⟨Rep, hT⟩ := R.represents hr hA
  obtain ⟨o', ho', h1, h2, h3, h4⟩ := Rep.shape
  rw [ho] at ho'; cases ho'
  obtain ⟨_, rfl⟩ := Rep.product fuel x c y c' hx hrun
  exact ⟨by rw [h3], h3, rfl, Mat.app_typed hT hx⟩

/-! ## C08 -/

/-- **C08.** `(a * op) * x` is `a` times `op * x` entry by entry; for `a = 0` the result is the zero vector. -/
theorem C08_scalar {env : List Nat} {h : Heap K} {mats : List (Mat K)} (R : Reach env h mats) {i r : Nat}
    (hr : env[i]? = some r) (a : K) (ka : DKind) (ha : a ∈ (DTypes.sub ka : Subring K)) (p : Nat × Heap K)
    (hp : mulScalar r a ka h = .ok p) (f f' : Nat) (x y z : Arr K) (c c1 c' c1' : Cnt) (hx : x.Typed)
    (hy : run h f r x c = (.ok y, c1)) (hz : run p.2 f' p.1 x c' = (.ok z, c1')) :
    z.data = y.data.map (a * ·) := by
  obtain ⟨A, hA, _⟩ := R.get hr
  have hex : Cmd.exec env h (.smul i a ka) = .ok p := by simp [Cmd.exec, look, hr, hp, bind, Except.bind]
  obtain ⟨_, Rep⟩ := R.step_rep (c := .smul i a ka) ha hex (A := A.smul a ka)
    (by simp [Cmd.spec, mlook, hA, bind, Except.bind])
  obtain ⟨_, rfl⟩ := (R.represents hr hA).1.product f x c y c1 hx hy
  obtain ⟨_, rfl⟩ := Rep.product f' x c' z c1' hx hz
  exact Mat.app_smul a ka A x.data

/-- **C08.** `0 * op` has the shape of `op` and every product that returns is zero; the product returns for every
vector of the right size. -/
theorem C08_zero (h : Heap K) (r : Nat) (o : Obj K) (ho : h[r]? = some o) (ka : DKind) (p : Nat × Heap K)
    (hp : mulScalar r 0 ka h = .ok p) :
    (∃ q, p.2[p.1]? = some q ∧ q.nargin = o.nargin ∧ q.nargout = o.nargout) ∧
    ∀ (f : Nat) (x : Arr K) (c : Cnt), x.data.length = o.nargin →
      ∃ y, (run p.2 (f + 1) p.1 x c).1 = .ok y ∧ y.data = List.replicate o.nargout 0 := by
  simp only [mulScalar, ho, if_true, Except.ok.injEq] at hp
  obtain ⟨o2, ho2, hc2, hn1, hn2, hn3⟩ := ctor_get (K := K) o.nargin o.nargout
    (.prim (zeroFn o.nargin o.nargout (o.dtype.join ka)))
    (some (.prim (zeroFn o.nargout o.nargin (o.dtype.join ka))))
    (some (.prim (zeroFn o.nargout o.nargin (o.dtype.join ka)))) (decide (o.nargin = o.nargout)) false
    (o.dtype.join ka) h
  have hp1 : p.1 = h.length := by rw [← hp]; rfl
  have hoo : p.2[p.1]? = some o2 := by rw [hp1, ← hp]; exact ho2
  refine ⟨⟨o2, hoo, hn1, hn2⟩, ?_⟩
  intro f x c hl
  have hcast : DTypes.cast (o2.dtype.join x.kind) (0 : K) = 0 := DTypes.cast_of_mem (Subring.zero_mem _)
  refine ⟨⟨o2.dtype.join x.kind, List.replicate o.nargout 0⟩, ?_, rfl⟩
  simp only [run, hoo]
  change (Act.bind (bump p.1) _ c).1 = _
  simp only [Act.bind, bump, hn1, hl, hc2, ne_eq, not_true_eq_false, if_false]
  change (Act.bind _ _ _).1 = _
  simp [Act.bind, evalCode, liftE, zeroFn, hl, hn2, Act.pure, Arr.astype, hcast]

/-- **C08.** `(-op) * x` is the negative of `op * x`. -/
theorem C08_neg {env : List Nat} {h : Heap K} {mats : List (Mat K)} (R : Reach env h mats) {i r : Nat}
    (hr : env[i]? = some r) (p : Nat × Heap K)
    (hp : negOp r h = .ok p) (f f' : Nat) (x y z : Arr K) (c c1 c' c1' : Cnt) (hx : x.Typed)
    (hy : run h f r x c = (.ok y, c1)) (hz : run p.2 f' p.1 x c' = (.ok z, c1')) :
    z.data = y.data.map (- ·) := by
  have := C08_scalar R hr (-1) .int (Subring.neg_mem _ (Subring.one_mem _)) p hp f f' x y z c c1 c' c1' hx hy hz
  simpa using this

/-! ## C09 -/

/-- **C09.** `(op ** k) * x` is `op` applied `k` times: for any chain of products `x₀, x₁ = op * x₀, …, x_k`, the
product of `op ** k` with `x₀` has the entries of `x_k`.  (The cost is `C06_pow`.) -/
theorem C09_power {env : List Nat} {h : Heap K} {mats : List (Mat K)} (R : Reach env h mats) {i r : Nat}
    (hr : env[i]? = some r) (k : Nat) (p : Nat × Heap K) (hp : powOp r (k : Int) h = .ok p)
    (xs : Nat → Arr K) (hx : (xs 0).Typed)
    (hs : ∀ j < k, ∃ f c c', run h f r (xs j) c = (.ok (xs (j + 1)), c'))
    (f : Nat) (c c' : Cnt) (z : Arr K) (hz : run p.2 f p.1 (xs 0) c = (.ok z, c')) : z.data = (xs k).data := by
  obtain ⟨A, hA, _⟩ := R.get hr
  obtain ⟨Rep, hT⟩ := R.represents hr hA
  have hex : Cmd.exec env h (.pow i k) = .ok p := by simp [Cmd.exec, look, hr, hp, bind, Except.bind]
  obtain ⟨A', hA', R'⟩ := R.step (c := .pow i k) trivial hex
  have hspec : A.cols = A.rows ∧ A' = A.pow k := by
    simp only [Cmd.spec, mlook, hA, bind, Except.bind] at hA'
    split at hA'
    · cases hA'
    · split at hA'
      · cases hA'
      · next h2 => exact ⟨not_not.1 h2, by simpa using hA'.symm⟩
  obtain ⟨hsq, rfl⟩ := hspec
  obtain ⟨Rep', _⟩ := R'.represents (i := env.length) (r := p.1) (by simp) (A := A.pow k) (by simp [R.len])
  obtain ⟨hl, rfl⟩ := Rep'.product f (xs 0) c z c' hx hz
  have hl : (xs 0).data.length = A.cols := by
    rw [hl]
    rcases k with _ | _ | k
    · rfl
    · rfl
    · have : ∀ k, (A.pow k).cols = A.cols := by
        intro k
        induction k using Nat.strong_induction_on with
        | _ k ih =>
          rcases k with _ | _ | k
          · rfl
          · rfl
          · exact ih (k + 1) (by omega)
      exact this _
  change (A.pow k).app (xs 0).data = _
  rw [app_iterate hsq k _ hl]
  have key : ∀ j, j ≤ k → (xs j).Typed ∧ (xs j).data = A.app^[j] (xs 0).data := by
    intro j
    induction j with
    | zero => intro _; exact ⟨hx, rfl⟩
    | succ j ih =>
      intro hj
      obtain ⟨h1, h2⟩ := ih (by omega)
      obtain ⟨f, c, c', hrun⟩ := hs j (by omega)
      obtain ⟨_, h3⟩ := Rep.product f (xs j) c _ c' h1 hrun
      rw [h3]
      refine ⟨Mat.app_typed hT h1, ?_⟩
      rw [Function.iterate_succ_apply', ← h2]
  exact ((key k le_rfl).2).symm

/-! ## C10 -/

/-- **C10.** If `op.to_array()` returns, its columns are exactly those of the operator's matrix, and exactly `nargin`
products have been counted on `op`. -/
theorem C10_to_array {env : List Nat} {h : Heap K} {mats : List (Mat K)} (R : Reach env h mats) {i r : Nat} {A : Mat K}
    (hr : env[i]? = some r) (hA : mats[i]? = some A) (fuel : Nat) (c c' : Cnt) (cols : List (List K))
    (ht : toArray h fuel r c = (.ok cols, c')) :
    cols.length = A.cols ∧ (∀ a < A.rows, ∀ b < A.cols, (cols[b]?.bind (·[a]?)) = some (A.e a b)) ∧
    (∀ col ∈ cols, col.length = A.rows) ∧ c'[r]? = c[r]?.map (· + A.cols) := by
  obtain ⟨D, I, L, O, _⟩ := R.inv
  obtain ⟨B, hB, hE⟩ := L.2 i r A hr hA
  obtain ⟨o, ho, hok⟩ := I.get hB
  simp only [toArray, ho] at ht
  rw [hok.dtype, hok.nargin] at ht
  obtain ⟨hcols, hadd⟩ := toArrayLoop_ok I O hB fuel B.cols rfl B.cols 0 c cols c' (by omega) ht
  subst hcols
  refine ⟨by simp [hE.cols], ?_, ?_, ?_⟩
  · intro a ha b hb
    have h1 : a < B.rows := by rw [hE.rows]; exact ha
    have h2 : b < B.cols := by rw [hE.cols]; exact hb
    simp [h1, h2, hE.entry a h1 b h2]
  · intro col hcol
    simp only [List.mem_map, List.mem_range] at hcol
    obtain ⟨b, _, rfl⟩ := hcol
    simp [hE.rows]
  · rw [hadd r]
    obtain ⟨_, _, hlt⟩ := R.get hr
    simp only [productCost_own O hlt, hE.cols, Nat.mul_one]

/-- **C10, total part.** For complete programs `to_array()` returns. -/
theorem C10_to_array_returns {env : List Nat} {h : Heap K} {mats : List (Mat K)} (R : ReachTotal env h mats) {i r : Nat}
    (hr : env[i]? = some r) (fuel : Nat) (hf : h.length ≤ fuel) (c : Cnt) :
    ∃ cols c', toArray h fuel r c = (.ok cols, c') := by
  obtain ⟨A, hA, _⟩ := R.reach.get hr
  obtain ⟨D, S, I, L, hS, hEnv⟩ := R.inv
  obtain ⟨B, hB, hE⟩ := L.2 i r A hr hA
  obtain ⟨o, ho, hok⟩ := I.get hB
  obtain ⟨cols, c', h1⟩ := toArrayLoop_total I hS (hEnv i r hr) hB hf B.cols 0 c
  refine ⟨cols, c', ?_⟩
  simp only [toArray, ho]
  rw [hok.dtype, hok.nargin]; exact h1

/-! ## C11 -/

/-- **C11.** `op.bar` represents the conjugate matrix. -/
theorem C11_conjugate {env : List Nat} {h : Heap K} {mats : List (Mat K)} (R : Reach env h mats) {i r : Nat} {A : Mat K}
    (hr : env[i]? = some r) (hA : mats[i]? = some A) :
    Represents (conjugate r h).2 (conjugate r h).1 A.conj := by
  have hex : Cmd.exec env h (.conj i) = .ok (conjugate r h) := by simp [Cmd.exec, look, hr, bind, Except.bind]
  exact (R.step_rep (c := .conj i) trivial hex (A := A.conj) (by simp [Cmd.spec, mlook, hA, bind, Except.bind])).2

/-- **C11.** `op.bar is op` for non-complex dtypes; for complex ones, when `.T` and `.H` are present, `op.bar.T is op.H`
and `op.bar.H is op.T`. -/
theorem C11_conjugate_pointers (h : Heap K) (r : Nat) (o : Obj K) (ho : h[r]? = some o) :
    (o.dtype ≠ .complex → conjugate r h = (r, h)) ∧
    (o.dtype = .complex → ∀ t u, getT h r = some t → getH h r = some u →
      getT (conjugate r h).2 (conjugate r h).1 = some u ∧ getH (conjugate r h).2 (conjugate r h).1 = some t) := by
  refine ⟨fun hk => conjugate_real ho hk, fun hk t u ht hu => ?_⟩
  simp only [getT, getH, ho, Option.bind_some] at ht hu
  rw [conjugate_complex ho hk ht hu]
  simp [getT, getH]

/-! ## C12 -/

/-- **C12.** For index lists in range and without repetitions, the reduced operator represents the submatrix, and its
`.T` / `.H` the transposed / adjoint submatrix.  (Refuted for repeated indices: `C12_repeated_index`.) -/
theorem C12_reduced_partial {env : List Nat} {h : Heap K} {mats : List (Mat K)} (R : Reach env h mats) {i r : Nat}
    {A : Mat K} (hr : env[i]? = some r) (hA : mats[i]? = some A) (rows cols : List Int) (rs cs : List Nat)
    (hrs : rows.mapM (pyIndex A.rows) = some rs) (hcs : cols.mapM (pyIndex A.cols) = some cs) (hn : rs.Nodup)
    (hm : cs.Nodup) (p : Nat × Heap K) (hp : ReducedLinearOperator r rows cols h = .ok p) :
    Represents p.2 p.1 (A.submat rs cs) ∧
    (∀ t, getT p.2 p.1 = some t → Represents p.2 t (A.submat rs cs).T) ∧
    (∀ t, getH p.2 p.1 = some t → Represents p.2 t (A.submat rs cs).H) := by
  have hex : Cmd.exec env h (.reduce i rows cols) = .ok p := by simp [Cmd.exec, look, hr, bind, Except.bind, hp]
  obtain ⟨R', Rep⟩ := R.step_rep (c := .reduce i rows cols)
    (fun A' hA' => by rw [hA] at hA'; cases hA'; exact ⟨rs, cs, hrs, hcs, hn, hm⟩) hex (A := A.submat rs cs)
    (by simp [Cmd.spec, mlook, hA, bind, Except.bind, hrs, hcs])
  obtain ⟨h1, h2⟩ := C02_transpose_adjoint R' (i := env.length) (r := p.1) (A := A.submat rs cs) (by simp)
    (by simp [R.len])
  exact ⟨Rep, h1, h2⟩

/-- **C12.** The same for `SymmetricallyReducedLinearOperator`. -/
theorem C12_symmetrically_reduced_partial {env : List Nat} {h : Heap K} {mats : List (Mat K)} (R : Reach env h mats)
    {i r : Nat} {A : Mat K} (hr : env[i]? = some r) (hA : mats[i]? = some A) (idx : List Int) (rs cs : List Nat)
    (hrs : idx.mapM (pyIndex A.rows) = some rs) (hcs : idx.mapM (pyIndex A.cols) = some cs) (hn : rs.Nodup)
    (hm : cs.Nodup) (p : Nat × Heap K) (hp : SymmetricallyReducedLinearOperator r idx h = .ok p) :
    Represents p.2 p.1 (A.submat rs cs) ∧
    (∀ t, getT p.2 p.1 = some t → Represents p.2 t (A.submat rs cs).T) ∧
    (∀ t, getH p.2 p.1 = some t → Represents p.2 t (A.submat rs cs).H) := by
  have hex : Cmd.exec env h (.symreduce i idx) = .ok p := by simp [Cmd.exec, look, hr, bind, Except.bind, hp]
  obtain ⟨R', Rep⟩ := R.step_rep (c := .symreduce i idx)
    (fun A' hA' => by rw [hA] at hA'; cases hA'; exact ⟨rs, cs, hrs, hcs, hn, hm⟩) hex (A := A.submat rs cs)
    (by simp [Cmd.spec, mlook, hA, bind, Except.bind, hrs, hcs])
  obtain ⟨h1, h2⟩ := C02_transpose_adjoint R' (i := env.length) (r := p.1) (A := A.submat rs cs) (by simp)
    (by simp [R.len])
  exact ⟨Rep, h1, h2⟩

/-! ## C15 -/

/-- **C15.** `linop_from_ndarray(A)` represents the array, `.T` its transpose and `.H` its conjugate transpose; the
pointers are present and all products with vectors of the right size return. -/
theorem C15_from_ndarray {env : List Nat} {h : Heap K} {mats : List (Mat K)} (R : ReachTotal env h mats)
    (A : NdArray2 K) (sy : Bool) (he : Option Bool) (hT : (Mat.ofNd A).Typed)
    (hs : sy = true → (Mat.ofNd A).Eqv (Mat.ofNd A).T) (hh : he.getD sy = true → (Mat.ofNd A).Eqv (Mat.ofNd A).H)
    (p : Nat × Heap K) (hp : linopFromNdarray A sy he h = .ok p) :
    Represents p.2 p.1 (Mat.ofNd A) ∧ Total p.2 p.1 (Mat.ofNd A) ∧
    (∃ t, getT p.2 p.1 = some t ∧ Represents p.2 t (Mat.ofNd A).T ∧ Total p.2 t (Mat.ofNd A).T) ∧
    (∃ u, getH p.2 p.1 = some u ∧ Represents p.2 u (Mat.ofNd A).H ∧ Total p.2 u (Mat.ofNd A).H) := by
  obtain ⟨B, hB, R'⟩ := R.step (c := .nd A sy he) ⟨hT, hs, hh⟩ trivial (p := p) hp
  have hBA : B = Mat.ofNd A := by
    simp only [Cmd.spec] at hB
    split at hB
    · cases hB
    · cases hB; rfl
  subst hBA
  have h1 : (env ++ [p.1])[env.length]? = some p.1 := by simp
  have h2 : (mats ++ [Mat.ofNd A])[env.length]? = some (Mat.ofNd A) := by simp [R.reach.len]
  exact ⟨(R'.reach.represents h1 h2).1, R'.total h1 h2, C02_transpose_adjoint_total R' h1 h2⟩

/-- **C15.** It raises exactly for non-complex arrays whose two flags disagree, and then `ValueError`. -/
theorem C15_flags (A : NdArray2 K) (sy : Bool) (he : Option Bool) (h : Heap K) :
    ((∃ e, linopFromNdarray A sy he h = .error e) ↔ A.kind ≠ .complex ∧ sy ≠ he.getD sy) ∧
    ∀ e, linopFromNdarray A sy he h = .error e → e = .valueError := by
  unfold linopFromNdarray
  cases sy <;> cases he.getD _ <;> by_cases hk : A.kind = .complex <;> simp [hk]

end

/-! ## Quotients -/

section
variable {F : Type} [Field F] [StarRing F] [DTypes F] [DecidableEq F]

/-- **C08.** `(op / k) * x` is `(op * x) / k` for true division by a nonzero number whose reciprocal is representable. -/
theorem C08_truediv {env : List Nat} {h : Heap F} {mats : List (Mat F)} (R : Reach env h mats) {i r : Nat}
    (hr : env[i]? = some r) (k : F) (kk : DKind) (hk : 1 / k ∈ (DTypes.sub (DKind.real.join kk) : Subring F))
    (p : Nat × Heap F) (hp : trueDiv r k kk h = .ok p) (f f' : Nat) (x y z : Arr F) (c c1 c' c1' : Cnt) (hx : x.Typed)
    (hy : run h f r x c = (.ok y, c1)) (hz : run p.2 f' p.1 x c' = (.ok z, c1')) :
    k ≠ 0 ∧ z.data = y.data.map (· / k) := by
  unfold trueDiv at hp
  split at hp
  · cases hp
  · next h0 =>
    refine ⟨h0, ?_⟩
    rw [C08_scalar R hr (1 / k) _ hk p hp f f' x y z c c1 c' c1' hx hy hz]
    congr 1; funext a; rw [one_div, mul_comm, div_eq_mul_inv]

/-- **C08 fails** for the Python 2 `/` with an integer: for `k ≥ 2`, `op / k` is the zero operator. -/
theorem C08_div_int_wrong (h : Heap F) (r : Nat) (o : Obj F) (ho : h[r]? = some o) (k : Int) (hk : 2 ≤ k)
    (p : Nat × Heap F) (hp : divInt r k h = .ok p) (f : Nat) (x : Arr F) (c : Cnt) (hx : x.data.length = o.nargin) :
    ∃ y, (run p.2 (f + 1) p.1 x c).1 = .ok y ∧ y.data = List.replicate o.nargout 0 := by
  unfold divInt at hp
  rw [if_neg (by omega)] at hp
  have : Int.fdiv 1 k = 0 := by
    rw [Int.fdiv_eq_ediv_of_nonneg _ (by omega)]
    exact Int.ediv_eq_zero_of_lt (by decide) (by omega)
  rw [this, Int.cast_zero] at hp
  exact (C08_zero h r o ho .int p hp).2 f x c hx

end
end Verif.Linop
