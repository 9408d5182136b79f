import Verif.Linop.CoordProps
import Verif.Linop.Wrap

/-!
# Properties C61, C62: operators that wrap external sparse matrices
-/

set_option linter.unusedSectionVars false

namespace Verif.Linop

variable {K : Type} [CommRing K] [StarRing K] [DTypes K]

/-! ## Helpers -/

theorem Represents.totalReal_of {h : Heap K} {r : Nat} {A : Mat K} (R : Represents h r A)
    (H : ∀ (fuel : Nat) (x : Arr K) (c : Cnt), h.length ≤ fuel → x.Typed → x.kind ≠ .complex → x.data.length = A.cols →
      ∃ y c', run h fuel r x c = (.ok y, c')) : TotalReal h r A := by
  intro fuel x c hf hx hk hl
  obtain ⟨y, c', hy⟩ := H fuel x c hf hx hk hl
  exact ⟨c', by rw [hy, (R.product fuel x c y c' hx hy).2]⟩

theorem sparseFn_computes {M : Mat K} {star : Option (Fn K)} {fill : Arr K → Except Err (List K)}
    (hs : ∀ f, star = some f → Computes M f)
    (hf : ∀ x : Arr K, x.Typed → x.data.length = M.cols →
      if x.kind = .complex then ∃ e, fill x = .error e else fill x = .ok (M.app x.data)) :
    Computes M (sparseFn M.cols star fill) := by
  intro x hx hl y hy
  unfold sparseFn at hy
  rw [if_neg (by simp [hl])] at hy
  cases hst : star with
  | some f =>
    rw [hst] at hy
    exact hs f hst x hx hl y hy
  | none =>
    rw [hst] at hy
    simp only at hy
    have := hf x hx hl
    by_cases hk : x.kind = .complex
    · rw [if_pos hk] at this
      obtain ⟨e, he⟩ := this
      rw [he] at hy; cases hy
    · rw [if_neg hk] at this
      rw [this] at hy; cases hy; rfl

theorem sparseFn_returns {M : Mat K} {star : Option (Fn K)} {fill : Arr K → Except Err (List K)}
    (hs : ∀ f, star = some f → ∀ x : Arr K, x.Typed → x.kind ≠ .complex → x.data.length = M.cols → ∃ y, f x = .ok y)
    (hf : ∀ x : Arr K, x.Typed → x.data.length = M.cols →
      if x.kind = .complex then ∃ e, fill x = .error e else fill x = .ok (M.app x.data))
    (x : Arr K) (hx : x.Typed) (hk : x.kind ≠ .complex) (hl : x.data.length = M.cols) :
    ∃ y, sparseFn M.cols star fill x = .ok y := by
  unfold sparseFn
  rw [if_neg (by simp [hl])]
  cases hst : star with
  | some f => exact hs f hst x hx hk hl
  | none =>
    have := hf x hx hl
    rw [if_neg hk] at this
    simp only [this]
    exact ⟨_, rfl⟩

/-- a product with an object whose code is the function `f` -/
theorem prim_total {h : Heap K} {r : Nat} {o : Obj K} {f : Fn K} {M : Mat K} (ho : h[r]? = some o)
    (hc : o.code = .prim f) (h1 : o.nargin = M.cols) (h2 : o.nargout = M.rows) (hf : Computes M f) (fuel : Nat)
    (x : Arr K) (hx : x.Typed) (hl : x.data.length = M.cols) (hy : ∃ y, f x = .ok y) (c : Cnt) :
    ∃ y c', run h (fuel + 1) r x c = (.ok y, c') := by
  obtain ⟨y, hy⟩ := hy
  have hd := hf x hx hl y hy
  obtain ⟨c', hr⟩ := run_prim ho hc fuel (by rw [hl, h1]) hy (by rw [hd, Mat.app_length, h2]) c
  exact ⟨_, c', hr⟩

/-! ## C61 -/

/-- **C61.** In any state a client program can reach: if the PySparse matrix `A` behaves as the real matrix `M`,
`PysparseLinearOperator(A)` returns an operator that represents `M` and is flagged symmetric as `A.issym` says, or
`A.isSymmetric()` if there is no such attribute; its `.T` and `.H` exist and represent the transpose;
products of the three with int or float vectors of the right size return.  The new state is again one to which the theorems
about client programs apply. -/
theorem C61_pysparse [DecidableEq K] {env : List Nat} {h : Heap K} {mats : List (Mat K)} (R : Reach env h mats)
    {A : SparseObj K} {M : Mat K} (hA : A.Holds M) :
    ∃ r h', PysparseLinearOperator A h = .ok (r, h') ∧ Reach (env ++ [r]) h' (mats ++ [M]) ∧
      (∃ o, h'[r]? = some o ∧ some o.symmetric = A.issym.or A.isSymmetric) ∧
      (Represents h' r M ∧ TotalReal h' r M) ∧
      (∃ t, getT h' r = some t ∧ Represents h' t M.T ∧ TotalReal h' t M.T) ∧
      (∃ u, getH h' r = some u ∧ Represents h' u M.H ∧ TotalReal h' u M.H) := by
  obtain ⟨b, hb', hsym⟩ := hA.flag
  have hb : A.symmetric = .ok b := by
    unfold SparseObj.symmetric
    cases h1 : A.issym <;> cases h2 : A.isSymmetric <;> simp_all
  have F1 : Computes M (sparseFn M.cols A.mul A.matvec) := sparseFn_computes (fun f hf => (hA.mul f hf).1) hA.matvec
  have F2 : Computes M.T (sparseFn M.rows A.rmul A.matvecTransp) :=
    sparseFn_computes (M := M.T) (fun f hf => (hA.rmul f hf).1) hA.matvecTransp
  have G1 := sparseFn_returns (M := M) (fun f hf => (hA.mul f hf).2) hA.matvec
  have G2 := sparseFn_returns (M := M.T) (fun f hf => (hA.rmul f hf).2) hA.matvecTransp
  obtain ⟨L, hL⟩ : ∃ L, L = (LinearOperator ⟨M.cols, M.rows, .prim (sparseFn M.cols A.mul A.matvec),
    some (.prim (sparseFn M.rows A.rmul A.matvecTransp)), none, b, false, .real, none, none, none⟩ h).2 := ⟨_, rfl⟩
  have hex : (Cmd.new M b false (sparseFn M.cols A.mul A.matvec) (some (sparseFn M.rows A.rmul A.matvecTransp)) none).exec
      env h = .ok (LinearOperator ⟨M.cols, M.rows, .prim (sparseFn M.cols A.mul A.matvec),
        some (.prim (sparseFn M.rows A.rmul A.matvecTransp)), none, b, false, .real, none, none, none⟩ h) := by
    change Except.ok (LinearOperator ⟨_, _, _, _, _, _, _, M.kind, _, _, _⟩ h) = _
    rw [hA.kind]; rfl
  have R' : Reach (env ++ [h.length]) L (mats ++ [M]) := by
    rw [hL]
    refine R.snoc ?_ hex rfl
    refine ⟨hA.typed, hsym, by simp, F1, ?_, by simp⟩
    intro g hg; cases hg; exact F2
  refine ⟨h.length, L, ?_, R', ?_, ?_⟩
  · rw [hL]
    simp only [PysparseLinearOperator, hb, bind, Except.bind, hA.rows, hA.cols]
    rfl
  · rw [hb', hL, LinearOperator_real _ _ _ _ _ _ _ _ (by decide)]
    cases b <;> simp [get_app0, newReal, mkFwd]
  have hlen := R.len
  have hr : (env ++ [h.length])[env.length]? = some h.length := by simp
  have hm : (mats ++ [M])[env.length]? = some M := by rw [hlen]; simp
  have hR := (R'.represents hr hm).1
  obtain ⟨hT, hH⟩ := C02_transpose_adjoint R' hr hm
  clear hex R' hr hm hlen
  rw [LinearOperator_real _ _ _ _ _ _ _ _ (by decide)] at hL
  cases b with
  | false =>
    obtain ⟨hn, o, ho, ec, ei, eo, o1, g1, e1, e1i, e1o, e0T, e0H⟩ : L.length = h.length + 2 ∧
        ∃ o, L[h.length]? = some o ∧ o.code = .prim (sparseFn M.cols A.mul A.matvec) ∧ o.nargin = M.cols ∧
          o.nargout = M.rows ∧
        ∃ o1, L[h.length + 1]? = some o1 ∧ o1.code = .prim (sparseFn M.rows A.rmul A.matvecTransp) ∧
          o1.nargin = M.rows ∧ o1.nargout = M.cols ∧
          getT L h.length = some (h.length + 1) ∧ getH L h.length = some (h.length + 1) := by
      subst hL
      simp [get_app, get_app0, newReal, mkFwd, mkBwd, getT, getH]
    clear hL
    have gT := hT _ e0T
    have gH := hH _ e0H
    refine ⟨⟨hR, hR.totalReal_of ?_⟩, ⟨_, e0T, gT, gT.totalReal_of ?_⟩, ⟨_, e0H, gH, gH.totalReal_of ?_⟩⟩
    · intro fuel x c hf hx hk hl
      obtain ⟨f, rfl⟩ : ∃ f, fuel = f + 1 := ⟨fuel - 1, by omega⟩
      exact prim_total ho ec ei eo F1 f x hx hl (G1 x hx hk hl) c
    all_goals
      intro fuel x c hf hx hk hl
      obtain ⟨f, rfl⟩ : ∃ f, fuel = f + 1 := ⟨fuel - 1, by omega⟩
      exact prim_total (M := M.T) g1 e1 e1i e1o F2 f x hx hl (G2 x hx hk hl) c
  | true =>
    obtain ⟨hn, o, ho, ec, ei, eo, e0T, e0H⟩ : L.length = h.length + 1 ∧
        ∃ o, L[h.length]? = some o ∧ o.code = .prim (sparseFn M.cols A.mul A.matvec) ∧ o.nargin = M.cols ∧
          o.nargout = M.rows ∧ getT L h.length = some h.length ∧ getH L h.length = some h.length := by
      subst hL
      simp [get_app0, newReal, mkFwd, getT, getH]
    clear hL
    have gT := hT _ e0T
    have gH := hH _ e0H
    have hsq := (hsym rfl).cols
    have key : ∀ (fuel : Nat) (x : Arr K) (c : Cnt), L.length ≤ fuel → x.Typed → x.kind ≠ .complex →
        x.data.length = M.cols → ∃ y c', run L fuel h.length x c = (.ok y, c') := by
      intro fuel x c hf hx hk hl
      obtain ⟨f, rfl⟩ : ∃ f, fuel = f + 1 := ⟨fuel - 1, by omega⟩
      exact prim_total ho ec ei eo F1 f x hx hl (G1 x hx hk hl) c
    exact ⟨⟨hR, hR.totalReal_of key⟩,
      ⟨_, e0T, gT, gT.totalReal_of fun fuel x c hf hx hk hl => key fuel x c hf hx hk (hl.trans hsq.symm)⟩,
      ⟨_, e0H, gH, gH.totalReal_of fun fuel x c hf hx hk hl => key fuel x c hf hx hk (hl.trans hsq.symm)⟩⟩

/-- **C61.** A matrix that has neither `issym` nor `isSymmetric` raises `AttributeError`. -/
theorem C61_no_flag (A : SparseObj K) (h1 : A.issym = none) (h2 : A.isSymmetric = none) (h : Heap K) :
    PysparseLinearOperator A h = .error .attributeError := by
  simp [PysparseLinearOperator, SparseObj.symmetric, h1, h2, bind, Except.bind]

/-! ## C62 -/

theorem Mat.of_app {m n : Nat} (k : DKind) (N : Matrix (Fin m) (Fin n) K) (x : List K) :
    (Mat.of k N).app x = List.ofFn (N.mulVec fun j => x.getD j 0) := by
  rw [Mat.app_eq_mulVec]
  congr 2
  refine funext fun (i : Fin m) => funext fun (j : Fin n) => ?_
  simp [Mat.toMatrix, Mat.of]

/-- what solves with `M` computes products with the inverse of `M` -/
theorem Solves.computes {n : Nat} {M N : Matrix (Fin n) (Fin n) K} (hMN : M * N = 1) {ks : DKind → Prop} {f : Fn K}
    (hf : Solves M ks f) (k : DKind) : Computes (Mat.of k N) f := by
  intro x hx hl y hy
  obtain ⟨hn, hs⟩ := (hf x hx hl).1 y hy
  have hNM : N * M = 1 := mul_eq_one_comm.1 hMN
  have : (fun i : Fin n => y.data.getD i 0) = N.mulVec fun i => x.data.getD i 0 := by
    rw [← hs, Matrix.mulVec_mulVec, hNM, Matrix.one_mulVec]
  rw [Mat.of_app, ← this]
  apply List.ext_getElem
  · simp [hn]
  · intro i h1 h2
    simp [h1]

theorem inverse_symm {n : Nat} {M N : Matrix (Fin n) (Fin n) K} (hMN : M * N = 1) (hM : M.transpose = M) :
    N.transpose = N := by
  have h1 : N.transpose * M = 1 := by rw [← hM, ← Matrix.transpose_mul, hMN, Matrix.transpose_one]
  calc N.transpose = N.transpose * (M * N) := by rw [hMN, Matrix.mul_one]
    _ = N := by rw [← Matrix.mul_assoc, h1, Matrix.one_mul]

theorem Mat.of_eqv_T {n : Nat} {N : Matrix (Fin n) (Fin n) K} (hN : N.transpose = N) (k : DKind) :
    (Mat.of k N).Eqv (Mat.of k N).T := by
  refine ⟨rfl, rfl, rfl, ?_⟩
  intro i (hi : i < n) j (hj : j < n)
  simp only [Mat.of, Mat.T, hi, hj, and_self, dite_true]
  conv_lhs => rw [← hN]
  rfl

/-- **C62 (partial).** In any state a client program can reach: for a real symmetric matrix `M` with inverse `N`, if
`cholesky(A)` returns a function that solves linear systems with `M`, then `CholeskyOperator(A)` returns an operator that
represents `N`; it is its own `.T` and `.H`; products with int or float vectors `x` of the right size return, and their result
`y` satisfies `M y = x`.  A rectangular matrix raises `ValueError`, and an exception of the factorization is passed on.
Missing, because the code violates it: complex hermitian matrices (`C62_complex_transpose`, `C62_complex_float`). -/
theorem C62_cholesky_partial [DecidableEq K] {env : List Nat} {h : Heap K} {mats : List (Mat K)} (R : Reach env h mats)
    {n : Nat} {M N : Matrix (Fin n) (Fin n) K} (hMN : M * N = 1) (hM : M.transpose = M)
    (hN : (Mat.of .real N).Typed) {f : Fn K} (hf : Solves M (· ≠ .complex) f) :
    (∃ r h', CholeskyOperator n n (.ok f) false .real h = .ok (r, h') ∧
      Reach (env ++ [r]) h' (mats ++ [Mat.of .real N]) ∧ Represents h' r (Mat.of .real N) ∧
      getT h' r = some r ∧ getH h' r = some r ∧
      ∀ (fuel : Nat) (x : Arr K) (c : Cnt), h'.length ≤ fuel → x.Typed → x.kind ≠ .complex → x.data.length = n →
        ∃ y c', run h' fuel r x c = (.ok y, c') ∧ y.data.length = n ∧
          M.mulVec (fun i => y.data.getD i 0) = fun i : Fin n => x.data.getD i 0) ∧
    (∀ m, m ≠ n → CholeskyOperator m n (.ok f) false .real h = .error .valueError) ∧
    ∀ e, CholeskyOperator n n (.error e) false .real h = .error e := by
  refine ⟨?_, fun m hm => by simp [CholeskyOperator, hm], fun e => by simp [CholeskyOperator]⟩
  have F := hf.computes hMN .real
  obtain ⟨L, hL⟩ : ∃ L, L = (LinearOperator ⟨n, n, .prim f, none, none, true, false, .real, none, none, none⟩ h).2 :=
    ⟨_, rfl⟩
  have hex : (Cmd.new (Mat.of .real N) true false f none none).exec env h =
      .ok (LinearOperator ⟨n, n, .prim f, none, none, true, false, .real, none, none, none⟩ h) := rfl
  have R' : Reach (env ++ [h.length]) L (mats ++ [Mat.of .real N]) := by
    rw [hL]
    refine R.snoc ?_ hex rfl
    exact ⟨hN, fun _ => Mat.of_eqv_T (inverse_symm hMN hM) _, by simp, F, by simp, by simp⟩
  have hlen := R.len
  have hr : (env ++ [h.length])[env.length]? = some h.length := by simp
  have hm : (mats ++ [Mat.of .real N])[env.length]? = some (Mat.of .real N) := by rw [hlen]; simp
  have hR := (R'.represents hr hm).1
  refine ⟨h.length, L, ?_, R', hR, ?_⟩
  · rw [hL]; simp only [CholeskyOperator, ne_eq, not_true_eq_false, if_false]; rfl
  clear hex R' hr hm hlen
  rw [LinearOperator_real _ _ _ _ _ _ _ _ (by decide)] at hL
  obtain ⟨hn, o, ho, ec, ei, eo, e0T, e0H⟩ : L.length = h.length + 1 ∧
      ∃ o, L[h.length]? = some o ∧ o.code = .prim f ∧ o.nargin = n ∧
        o.nargout = n ∧ getT L h.length = some h.length ∧ getH L h.length = some h.length := by
    subst hL
    simp [get_app0, newReal, mkFwd, getT, getH]
  refine ⟨e0T, e0H, ?_⟩
  intro fuel x c hfu hx hk hl
  obtain ⟨fu, rfl⟩ : ∃ f, fuel = f + 1 := ⟨fuel - 1, by omega⟩
  obtain ⟨y, c', hy⟩ := prim_total (M := Mat.of .real N) ho ec ei eo F fu x hx hl ((hf x hx hl).2 hk) c
  obtain ⟨-, hyv⟩ := hR.product _ x c y c' hx hy
  refine ⟨y, c', hy, ?_, ?_⟩
  · rw [hyv]; simp [Mat.app_length, Mat.of]
  · rw [hyv, Mat.of_app]
    have : (fun i : Fin n => (List.ofFn (N.mulVec fun j => x.data.getD j 0)).getD i 0) =
        N.mulVec fun j => x.data.getD j 0 := by
      funext i; simp
    rw [this, Matrix.mulVec_mulVec, hMN, Matrix.one_mulVec]

/-- the object a `CholeskyOperator` call creates -/
theorem cholesky_obj (n : Nat) (f : Fn K) (herm : Bool) (k : DKind) (h : Heap K) :
    ∃ r h' o, CholeskyOperator n n (.ok f) herm k h = .ok (r, h') ∧ h'[r]? = some o ∧ o.code = .prim f ∧ o.nargin = n ∧
      o.nargout = n ∧ o.dtype = k ∧ getT h' r = some r := by
  simp only [CholeskyOperator, ne_eq, not_true_eq_false, if_false]
  by_cases hk : k = .complex
  · subst hk
    rw [LinearOperator_complex]
    cases herm <;> exact ⟨_, _, _, rfl, by rw [get_app0]; rfl, rfl, rfl, rfl, rfl, by simp [getT, get_app0, newComplex, mkFwd]⟩
  · rw [LinearOperator_real _ _ _ _ _ _ _ _ hk]
    cases herm <;> exact ⟨_, _, _, rfl, by rw [get_app0]; rfl, rfl, rfl, rfl, rfl, by simp [getT, get_app0, newReal, mkFwd]⟩

/-- **C62, negative.** For every complex matrix `M` whose inverse `N` is not symmetric, in particular a hermitian matrix that
is not real: the operator `CholeskyOperator(A, dtype=complex)` is its own `.T`, which does not represent the transpose
of `N`. -/
theorem C62_complex_transpose (h : Heap K) {n : Nat} {M N : Matrix (Fin n) (Fin n) K} (hMN : M * N = 1)
    (hN : N.transpose ≠ N) {f : Fn K} (hf : Solves M (fun _ => True) f) (hermitian : Bool) :
    ∃ r h', CholeskyOperator n n (.ok f) hermitian .complex h = .ok (r, h') ∧ getT h' r = some r ∧
      ¬ Represents h' r (Mat.of .complex N).T := by
  obtain ⟨r, h', o, hop, ho, hc, hi, ho', hd, hT⟩ := cholesky_obj n f hermitian .complex h
  refine ⟨r, h', hop, hT, ?_⟩
  intro hR
  apply hN
  have key : ∀ x : List K, x.length = n → (Mat.of .complex N).app x = (Mat.of .complex N).T.app x := by
    intro x hx
    have hty : (⟨.complex, x⟩ : Arr K).Typed := fun a _ => DTypes.complex_all a
    obtain ⟨y, hy⟩ := (hf ⟨.complex, x⟩ hty hx).2 trivial
    have hyd := hf.computes hMN .complex ⟨.complex, x⟩ hty hx y hy
    obtain ⟨c', hrun⟩ := run_prim ho hc 0 (by rw [hi]; exact hx) hy (by rw [hyd, Mat.app_length]; exact ho'.symm) []
    have := congrArg Arr.data (hR.product _ _ _ _ _ hty hrun).2
    refine hyd.symm.trans (Eq.trans ?_ this)
    simp only [Arr.astype]
    conv_lhs => rw [← List.map_id y.data]
    apply List.map_congr_left
    intro a _
    exact (DTypes.cast_of_mem (by rw [hd]; exact DTypes.complex_all a)).symm
  ext i j
  have := key (List.ofFn fun k : Fin n => if k = j then (1 : K) else 0) (by simp)
  have hx : (fun k : Fin n => (List.ofFn fun k : Fin n => if k = j then (1 : K) else 0).getD k 0) = Pi.single j 1 := by
    funext k; simp [Pi.single_apply]
  rw [Mat.of_app, show (Mat.of .complex N).T = Mat.of .complex N.transpose by simp [Mat.of, Mat.T, and_comm],
    Mat.of_app, hx, Matrix.mulVec_single_one, Matrix.mulVec_single_one] at this
  exact (congrFun (List.ofFn_injective this) i).symm

/-- **C62, negative.** For a complex matrix and the default `dtype`, the product of the operator with a float vector is the
solution with its imaginary part discarded. -/
theorem C62_complex_float (h : Heap K) {n : Nat} {M N : Matrix (Fin n) (Fin n) K} (hMN : M * N = 1)
    {f : Fn K} (hf : Solves M (fun _ => True) f) (hermitian : Bool) :
    ∃ r h', CholeskyOperator n n (.ok f) hermitian .real h = .ok (r, h') ∧
      ∀ (fuel : Nat) (x : List K) (c : Cnt), (⟨.real, x⟩ : Arr K).Typed → x.length = n →
        ∃ c', run h' (fuel + 1) r ⟨.real, x⟩ c =
          (.ok ⟨.real, (List.ofFn (N.mulVec fun j => x.getD j 0)).map (DTypes.cast .real)⟩, c') := by
  obtain ⟨r, h', o, hop, ho, hc, hi, ho', hd, hT⟩ := cholesky_obj n f hermitian .real h
  refine ⟨r, h', hop, ?_⟩
  intro fuel x c hty hx
  obtain ⟨y, hy⟩ := (hf ⟨.real, x⟩ hty hx).2 trivial
  have hyd := hf.computes hMN .complex ⟨.real, x⟩ hty hx y hy
  obtain ⟨c', hrun⟩ := run_prim ho hc fuel (by rw [hi]; exact hx) hy (by rw [hyd, Mat.app_length]; exact ho'.symm) c
  refine ⟨c', ?_⟩
  rw [hrun, hd, ← Mat.of_app .complex, ← hyd]
  rfl

end Verif.Linop
