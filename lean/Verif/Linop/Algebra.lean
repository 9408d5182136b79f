import Verif.Linop.CtorSound

/-!
# Helper lemmas: each operation of the operator algebra denotes the matrix operation
-/

set_option linter.unusedSectionVars false

namespace Verif.Linop
open Finset

variable {K : Type} [CommRing K] [StarRing K] [DTypes K]

/-! ## matrices -/
namespace Mat

theorem add_T (A B : Mat K) : (A.add B).T = A.T.add B.T := rfl
theorem sub_T (A B : Mat K) : (A.sub B).T = A.T.sub B.T := rfl
theorem add_H (A B : Mat K) : (A.add B).H = A.H.add B.H := by simp [H, add]
theorem sub_H (A B : Mat K) : (A.sub B).H = A.H.sub B.H := by simp [H, sub]
theorem mul_T_same (A B : Mat K) (h : A.cols = B.rows) : Same (B.T.mul A.T) (A.mul B).T :=
  ⟨rfl, rfl, fun i _ j _ => by
    simp only [mul, T]; rw [h]; exact Finset.sum_congr rfl fun k _ => mul_comm _ _⟩
theorem mul_H_same (A B : Mat K) (h : A.cols = B.rows) : Same (B.H.mul A.H) (A.mul B).H :=
  ⟨rfl, rfl, fun i _ j _ => by
    simp only [mul, H, star_sum, star_mul']; rw [h]; exact Finset.sum_congr rfl fun k _ => mul_comm _ _⟩
theorem smul_T (a : K) (ka : DKind) (A : Mat K) : (A.smul a ka).T = A.T.smul a ka := rfl
theorem smul_H (a : K) (ka : DKind) (A : Mat K) : (A.smul a ka).H = A.H.smul (star a) ka := by
  simp [H, smul]

theorem add_eqv {A A' B B' : Mat K} (h : A.Eqv A') (g : B.Eqv B') (hr : A.rows = B.rows) (hc : A.cols = B.cols) :
    (A.add B).Eqv (A'.add B') :=
  ⟨h.rows, h.cols, by simp [add, h.kind, g.kind], fun i hi j hj => by
    change A.e i j + B.e i j = A'.e i j + B'.e i j
    rw [h.entry i hi j hj, g.entry i (hr ▸ hi) j (hc ▸ hj)]⟩
theorem sub_eqv {A A' B B' : Mat K} (h : A.Eqv A') (g : B.Eqv B') (hr : A.rows = B.rows) (hc : A.cols = B.cols) :
    (A.sub B).Eqv (A'.sub B') :=
  ⟨h.rows, h.cols, by simp [sub, h.kind, g.kind], fun i hi j hj => by
    change A.e i j - B.e i j = A'.e i j - B'.e i j
    rw [h.entry i hi j hj, g.entry i (hr ▸ hi) j (hc ▸ hj)]⟩
theorem mul_eqv {A A' B B' : Mat K} (h : A.Eqv A') (g : B.Eqv B') (hd : A.cols = B.rows) :
    (A.mul B).Eqv (A'.mul B') :=
  ⟨h.rows, g.cols, by simp [mul, h.kind, g.kind], fun i hi j hj => by
    simp only [mul]
    rw [← h.cols]
    refine Finset.sum_congr rfl fun k hk => ?_
    have hk' : k < A.cols := by simpa using hk
    rw [h.entry i hi k hk', g.entry k (hd ▸ hk') j hj]⟩
theorem smul_eqv {A A' : Mat K} (h : A.Eqv A') (a : K) (ka : DKind) : (A.smul a ka).Eqv (A'.smul a ka) :=
  ⟨h.rows, h.cols, by simp [smul, h.kind], fun i hi j hj => by
    change a * A.e i j = a * A'.e i j
    rw [h.entry i hi j hj]⟩

theorem add_typed {A B : Mat K} (hA : A.Typed) (hB : B.Typed) (hr : A.rows = B.rows) (hc : A.cols = B.cols) :
    (A.add B).Typed := fun i hi j hj =>
  Subring.add_mem _ (sub_left _ _ (hA i hi j hj)) (sub_right _ _ (hB i (hr ▸ hi) j (hc ▸ hj)))
theorem sub_typed {A B : Mat K} (hA : A.Typed) (hB : B.Typed) (hr : A.rows = B.rows) (hc : A.cols = B.cols) :
    (A.sub B).Typed := fun i hi j hj =>
  Subring.sub_mem _ (sub_left _ _ (hA i hi j hj)) (sub_right _ _ (hB i (hr ▸ hi) j (hc ▸ hj)))
theorem mul_typed {A B : Mat K} (hA : A.Typed) (hB : B.Typed) (hd : A.cols = B.rows) : (A.mul B).Typed :=
  fun i hi j hj => by
    change ∑ k ∈ range A.cols, A.e i k * B.e k j ∈ _
    refine Subring.sum_mem _ fun k hk => ?_
    have hk' : k < A.cols := by simpa using hk
    exact Subring.mul_mem _ (sub_left _ _ (hA i hi k hk')) (sub_right _ _ (hB k (hd ▸ hk') j hj))
theorem smul_typed {A : Mat K} (hA : A.Typed) {a : K} {ka : DKind} (ha : a ∈ (DTypes.sub ka : Subring K)) :
    (A.smul a ka).Typed := fun i hi j hj =>
  Subring.mul_mem _ (sub_right _ _ ha) (sub_left _ _ (hA i hi j hj))

/-- a square symmetric matrix (by its flag) and `A.T` have the same shape -/
theorem Eqv.square {A : Mat K} (h : A.Eqv A.T) : A.rows = A.cols := h.rows
theorem Eqv.squareH {A : Mat K} (h : A.Eqv A.H) : A.rows = A.cols := h.rows

theorem submat_T (A : Mat K) (rs cs : List Nat) : (A.submat rs cs).T = A.T.submat cs rs := rfl
theorem submat_H (A : Mat K) (rs cs : List Nat) : (A.submat rs cs).H = A.H.submat cs rs := rfl

theorem submat_typed {A : Mat K} (hA : A.Typed) {rs cs : List Nat} (hr : ∀ r ∈ rs, r < A.rows)
    (hc : ∀ c ∈ cs, c < A.cols) : (A.submat rs cs).Typed := by
  intro i hi j hj
  have hi' : i < rs.length := hi
  have hj' : j < cs.length := hj
  simp only [submat, List.getD_eq_getElem?_getD, List.getElem?_eq_getElem hi', List.getElem?_eq_getElem hj',
    Option.getD_some]
  exact hA _ (hr _ (List.getElem_mem hi')) _ (hc _ (List.getElem_mem hj'))

theorem submat_eqv {A B : Mat K} (h : A.Eqv B) {rs cs : List Nat} (hr : ∀ r ∈ rs, r < A.rows)
    (hc : ∀ c ∈ cs, c < A.cols) : (A.submat rs cs).Eqv (B.submat rs cs) := by
  refine ⟨rfl, rfl, h.kind, ?_⟩
  intro i hi j hj
  have hi' : i < rs.length := hi
  have hj' : j < cs.length := hj
  simp only [submat, List.getD_eq_getElem?_getD, List.getElem?_eq_getElem hi', List.getElem?_eq_getElem hj',
    Option.getD_some]
  exact h.entry _ (hr _ (List.getElem_mem hi')) _ (hc _ (List.getElem_mem hj'))

end Mat

/-- What every operation establishes: it returns a new object denoting `A`, and old objects are untouched. -/
structure Makes (D : List (Mat K)) (h : Heap K) (p : Nat × Heap K) (A : Mat K) : Prop where
  ref : p.1 = h.length
  frame : Frame h.length h p.2
  inv : ∃ E, HInv (D ++ A :: E) p.2

theorem makes_of_args {D : List (Mat K)} {h : Heap K} (I : HInv D h) {a : Args K} {A : Mat K}
    (ha : ArgsOK D a A) : Makes D h (LinearOperator a h) A :=
  let ⟨h1, h2, h3⟩ := LinearOperator_inv I ha
  ⟨h1, h2, h3⟩

section ops
variable {D : List (Mat K)} {h : Heap K}

theorem tgt_self {r : Nat} {A : Mat K} (hA : D[r]? = some A) : tgtMat D ⟨r, .self⟩ = some A := hA
theorem tgt_T {r : Nat} {A : Mat K} (hA : D[r]? = some A) : tgtMat D ⟨r, .T⟩ = some A.T := by
  simp [tgtMat, hA]
theorem tgt_H {r : Nat} {A : Mat K} (hA : D[r]? = some A) : tgtMat D ⟨r, .H⟩ = some A.H := by
  simp [tgtMat, hA]

theorem addOp_makes (I : HInv D h) {r s : Nat} {A B : Mat K} (hA : D[r]? = some A) (hB : D[s]? = some B)
    {p : Nat × Heap K} (hp : addOp r s h = .ok p) :
    A.rows = B.rows ∧ A.cols = B.cols ∧ Makes D h p (A.add B) := by
  obtain ⟨o, ho, hoA⟩ := I.get hA
  obtain ⟨q, hq, hqB⟩ := I.get hB
  simp only [addOp, ho, hq] at hp
  split at hp
  · cases hp
  · next hsh =>
    simp only [ne_eq, Prod.mk.injEq, not_and, hoA.nargin, hoA.nargout, hqB.nargin, hqB.nargout] at hsh
    push Not at hsh
    simp only [Except.ok.injEq] at hp
    obtain ⟨hr, hc⟩ : A.rows = B.rows ∧ A.cols = B.cols := by tauto
    refine ⟨hr, hc, ?_⟩
    rw [← hp]
    refine makes_of_args I
      { nargin := hoA.nargin
        nargout := hoA.nargout
        dtype := by simp [Mat.add, hoA.dtype, hqB.dtype]
        typed := Mat.add_typed hoA.typed hqB.typed hr hc
        symm := ?_
        herm := ?_
        matvec := ⟨A, B, tgt_self hA, tgt_self hB, hr, hc, Same.of_eqv (Mat.Eqv.refl _)⟩
        matvecTransp := ?_
        matvecAdj := ?_
        transposeOf := fun t ht => by cases ht
        adjointOf := fun t ht => by cases ht }
    · simp only [Bool.and_eq_true]
      rintro ⟨h1, h2⟩
      rw [Mat.add_T]
      exact Mat.add_eqv (hoA.symm h1) (hqB.symm h2) hr hc
    · simp only [Bool.and_eq_true]
      rintro ⟨h1, h2⟩
      rw [Mat.add_H]
      exact Mat.add_eqv (hoA.herm h1) (hqB.herm h2) hr hc
    · intro c hc'; cases hc'
      exact ⟨A.T, B.T, tgt_T hA, tgt_T hB, hc, hr, Same.of_eqv (Mat.add_T A B ▸ Mat.Eqv.refl _)⟩
    · intro c hc'; cases hc'
      exact ⟨A.H, B.H, tgt_H hA, tgt_H hB, hc, hr, Same.of_eqv (Mat.add_H A B ▸ Mat.Eqv.refl _)⟩

theorem subOp_makes (I : HInv D h) {r s : Nat} {A B : Mat K} (hA : D[r]? = some A) (hB : D[s]? = some B)
    {p : Nat × Heap K} (hp : subOp r s h = .ok p) :
    A.rows = B.rows ∧ A.cols = B.cols ∧ Makes D h p (A.sub B) := by
  obtain ⟨o, ho, hoA⟩ := I.get hA
  obtain ⟨q, hq, hqB⟩ := I.get hB
  simp only [subOp, ho, hq] at hp
  split at hp
  · cases hp
  · next hsh =>
    simp only [ne_eq, Prod.mk.injEq, not_and, hoA.nargin, hoA.nargout, hqB.nargin, hqB.nargout] at hsh
    push Not at hsh
    simp only [Except.ok.injEq] at hp
    obtain ⟨hr, hc⟩ : A.rows = B.rows ∧ A.cols = B.cols := by tauto
    refine ⟨hr, hc, ?_⟩
    rw [← hp]
    refine makes_of_args I
      { nargin := hoA.nargin
        nargout := hoA.nargout
        dtype := by simp [Mat.sub, hoA.dtype, hqB.dtype]
        typed := Mat.sub_typed hoA.typed hqB.typed hr hc
        symm := ?_
        herm := ?_
        matvec := ⟨A, B, tgt_self hA, tgt_self hB, hr, hc, Same.of_eqv (Mat.Eqv.refl _)⟩
        matvecTransp := ?_
        matvecAdj := ?_
        transposeOf := fun t ht => by cases ht
        adjointOf := fun t ht => by cases ht }
    · simp only [Bool.and_eq_true]
      rintro ⟨h1, h2⟩
      rw [Mat.sub_T]
      exact Mat.sub_eqv (hoA.symm h1) (hqB.symm h2) hr hc
    · simp only [Bool.and_eq_true]
      rintro ⟨h1, h2⟩
      rw [Mat.sub_H]
      exact Mat.sub_eqv (hoA.herm h1) (hqB.herm h2) hr hc
    · intro c hc'; cases hc'
      exact ⟨A.T, B.T, tgt_T hA, tgt_T hB, hc, hr, Same.of_eqv (Mat.sub_T A B ▸ Mat.Eqv.refl _)⟩
    · intro c hc'; cases hc'
      exact ⟨A.H, B.H, tgt_H hA, tgt_H hB, hc, hr, Same.of_eqv (Mat.sub_H A B ▸ Mat.Eqv.refl _)⟩

theorem mulLinop_makes (I : HInv D h) {r s : Nat} {A B : Mat K} (hA : D[r]? = some A) (hB : D[s]? = some B)
    {p : Nat × Heap K} (hp : mulLinop r s h = .ok p) : A.cols = B.rows ∧ Makes D h p (A.mul B) := by
  obtain ⟨o, ho, hoA⟩ := I.get hA
  obtain ⟨q, hq, hqB⟩ := I.get hB
  simp only [mulLinop, ho, hq] at hp
  split at hp
  · cases hp
  · next hsh =>
    simp only [ne_eq, not_not, hoA.nargin, hqB.nargout] at hsh
    simp only [Except.ok.injEq] at hp
    refine ⟨hsh, ?_⟩
    rw [← hp]
    refine makes_of_args I
      { nargin := hqB.nargin
        nargout := hoA.nargout
        dtype := by simp [Mat.mul, hoA.dtype, hqB.dtype]
        typed := Mat.mul_typed hoA.typed hqB.typed hsh
        symm := by simp
        herm := by simp
        matvec := ⟨A, B, tgt_self hA, tgt_self hB, hsh, Same.of_eqv (Mat.Eqv.refl _)⟩
        matvecTransp := ?_
        matvecAdj := ?_
        transposeOf := fun t ht => by cases ht
        adjointOf := fun t ht => by cases ht }
    · intro c hc'; cases hc'
      exact ⟨B.T, A.T, tgt_T hB, tgt_T hA, hsh.symm, Mat.mul_T_same A B hsh⟩
    · intro c hc'; cases hc'
      exact ⟨B.H, A.H, tgt_H hB, tgt_H hA, hsh.symm, Mat.mul_H_same A B hsh⟩

theorem zero_app (m n : Nat) (k : DKind) (x : List K) : (Mat.zero m n k).app x = List.replicate m 0 := by
  simp [Mat.app, Mat.zero, List.map_const']

theorem zeroFn_honest (nin nout : Nat) (k : DKind) : Honest (Mat.zero nout nin k) (zeroFn (K := K) nin nout k) := by
  intro x _ hl y hy
  have hl' : x.data.length = nin := hl
  simp only [zeroFn, hl', ne_eq, not_true_eq_false, if_false, Except.ok.injEq] at hy
  rw [← hy, zero_app]

theorem ZeroOperator_makes (I : HInv D h) (nin nout : Nat) (k : DKind) :
    Makes D h (ZeroOperator nin nout k h) (Mat.zero nout nin k) := by
  have hz : ∀ m n : Nat, (Mat.zero m n k : Mat K).H = Mat.zero n m k := by simp [Mat.H, Mat.zero]
  refine makes_of_args I
    { nargin := rfl
      nargout := rfl
      dtype := rfl
      typed := fun i _ j _ => Subring.zero_mem _
      symm := ?_
      herm := by simp
      matvec := zeroFn_honest _ _ _
      matvecTransp := fun c hc => by cases hc; exact zeroFn_honest _ _ _
      matvecAdj := fun c hc => by cases hc; rw [hz]; exact zeroFn_honest _ _ _
      transposeOf := fun t ht => by cases ht
      adjointOf := fun t ht => by cases ht }
  simp only [decide_eq_true_eq]
  rintro rfl
  exact Mat.Eqv.refl _

theorem mulScalar_makes [DecidableEq K] (I : HInv D h) {r : Nat} {A : Mat K} (hA : D[r]? = some A) {a : K}
    {ka : DKind} (ha : a ∈ (DTypes.sub ka : Subring K)) {p : Nat × Heap K} (hp : mulScalar r a ka h = .ok p) :
    Makes D h p (A.smul a ka) := by
  obtain ⟨o, ho, hoA⟩ := I.get hA
  simp only [mulScalar, ho] at hp
  split at hp
  · next h0 =>
    simp only [Except.ok.injEq] at hp
    subst h0
    rw [← hp]
    have := ZeroOperator_makes I o.nargin o.nargout (o.dtype.join ka)
    have e : (Mat.zero o.nargout o.nargin (o.dtype.join ka) : Mat K) = A.smul 0 ka := by
      simp [Mat.zero, Mat.smul, hoA.nargin, hoA.nargout, hoA.dtype]
    rwa [e] at this
  · simp only [Except.ok.injEq] at hp
    rw [← hp]
    refine makes_of_args I
      { nargin := hoA.nargin
        nargout := hoA.nargout
        dtype := by simp [Mat.smul, hoA.dtype]
        typed := Mat.smul_typed hoA.typed ha
        symm := fun h1 => Mat.smul_T a ka A ▸ Mat.smul_eqv (hoA.symm h1) a ka
        herm := ?_
        matvec := ⟨A, tgt_self hA, Same.of_eqv (Mat.Eqv.refl _)⟩
        matvecTransp := ?_
        matvecAdj := ?_
        transposeOf := fun t ht => by cases ht
        adjointOf := fun t ht => by cases ht }
    · simp only [Bool.and_eq_true, decide_eq_true_eq]
      rintro ⟨h1, h2⟩
      rw [Mat.smul_H, star_eq_of_mem (DKind.join_ne_complex.1 h1).2 ha]
      exact Mat.smul_eqv (hoA.herm h2) a ka
    · intro c hc'; cases hc'
      exact ⟨A.T, tgt_T hA, Same.of_eqv (Mat.smul_T a ka A ▸ Mat.Eqv.refl _)⟩
    · intro c hc'; cases hc'
      exact ⟨A.H, tgt_H hA, Same.of_eqv (Mat.smul_H a ka A ▸ Mat.Eqv.refl _)⟩

theorem ident_app (n : Nat) (k : DKind) (x : List K) (hx : x.length = n) : (Mat.ident n k).app x = x := by
  apply List.ext_getElem (by simp [Mat.app, Mat.ident, hx])
  intro i h1 h2
  have : i < n := by omega
  simp [Mat.app, Mat.ident, List.getD_eq_getElem?_getD, h2, this]

theorem ident_typed (n : Nat) (k : DKind) : (Mat.ident n k : Mat K).Typed := by
  intro i _ j _
  simp only [Mat.ident]
  split
  · exact Subring.one_mem _
  · exact Subring.zero_mem _

theorem IdentityOperator_makes (I : HInv D h) (n : Nat) (k : DKind) :
    Makes D h (IdentityOperator n k h) (Mat.ident n k) := by
  refine makes_of_args I
    { nargin := rfl
      nargout := rfl
      dtype := rfl
      typed := ident_typed n k
      symm := fun _ => ⟨rfl, rfl, rfl, fun i _ j _ => by simp [Mat.ident, Mat.T, eq_comm]⟩
      herm := fun _ => ⟨rfl, rfl, rfl, fun i _ j _ => by
        simp only [Mat.ident, Mat.H]; by_cases hij : i = j
        · simp [hij]
        · simp [hij, Ne.symm hij]⟩
      matvec := fun x _ hl y hy => ?_
      matvecTransp := fun c hc => by cases hc
      matvecAdj := fun c hc => by cases hc
      transposeOf := fun t ht => by cases ht
      adjointOf := fun t ht => by cases ht }
  simp only [Except.ok.injEq] at hy
  rw [← hy, ident_app n k _ hl]

theorem diag_app (d : Arr K) (x : List K) (hx : x.length = d.data.length) :
    (Mat.diag d).app x = List.zipWith (· * ·) d.data x := by
  apply List.ext_getElem (by simp [Mat.app, Mat.diag, hx])
  intro i h1 h2
  have : i < d.data.length := by simp at h2; omega
  have : i < x.length := by omega
  simp [Mat.app, Mat.diag, List.getD_eq_getElem?_getD, *]

theorem diag_H (d : Arr K) : (Mat.diag d).H.Eqv (Mat.diag d.conj) := by
  refine ⟨by simp [Mat.diag, Mat.H, Arr.conj], by simp [Mat.diag, Mat.H, Arr.conj], rfl, ?_⟩
  intro i hi j hj
  have hi' : i < d.data.length := hi
  by_cases hij : i = j
  · subst hij
    simp [Mat.diag, Mat.H, Arr.conj, List.getD_eq_getElem?_getD, hi']
  · simp [Mat.diag, Mat.H, hij, Ne.symm hij]

theorem diagFn_honest (d : Arr K) : Honest (Mat.diag d) (diagFn d) := by
  intro x _ hl y hy
  have hl' : x.data.length = d.data.length := hl
  simp only [diagFn, hl', if_true, Except.ok.injEq] at hy
  rw [← hy, diag_app _ _ hl']

theorem diag_typed {d : Arr K} (hd : d.Typed) : (Mat.diag d).Typed := by
  intro i hi j _
  have hi' : i < d.data.length := hi
  simp only [Mat.diag]
  split
  · simp only [List.getD_eq_getElem?_getD, List.getElem?_eq_getElem hi', Option.getD_some]
    exact hd _ (List.getElem_mem hi')
  · exact Subring.zero_mem _

theorem DiagonalOperator_makes (I : HInv D h) {d : Arr K} (hd : d.Typed) :
    Makes D h (DiagonalOperator d h) (Mat.diag d) := by
  have hs : (Mat.diag d).Eqv (Mat.diag d).T := ⟨rfl, rfl, rfl, fun i _ j _ => by
    simp only [Mat.diag, Mat.T]
    by_cases hij : i = j
    · simp [hij]
    · simp [hij, Ne.symm hij]⟩
  refine makes_of_args I
    { nargin := rfl
      nargout := rfl
      dtype := rfl
      typed := diag_typed hd
      symm := fun _ => hs
      herm := fun h1 => hs.trans (Mat.T_eqv_H (diag_typed hd) (by change d.kind ≠ _; simpa using h1))
      matvec := diagFn_honest d
      matvecTransp := fun c hc => by cases hc
      matvecAdj := fun c hc => ?_
      transposeOf := fun t ht => by cases ht
      adjointOf := fun t ht => by cases ht }
  cases hc
  exact CodeOK.congr (Same.of_eqv (diag_H d).symm) (diagFn_honest d.conj)

theorem ldot_eq_sum (x y : List K) (n : Nat) (hx : x.length = n) (hy : y.length = n) :
    ldot x y = ∑ i ∈ range n, x.getD i 0 * y.getD i 0 := by
  unfold ldot
  suffices ∀ (x y : List K) (n : Nat) (s : K), x.length = n → y.length = n →
      (List.zipWith (· * ·) x y).foldl (· + ·) s = s + ∑ i ∈ range n, x.getD i 0 * y.getD i 0 by
    rw [this x y n 0 hx hy, zero_add]
  intro x
  induction x with
  | nil => intro y n s hx hy; subst hx; simp
  | cons a x ih =>
    intro y n s hx hy
    cases y with
    | nil => simp at hy; subst hy; simp at hx
    | cons b y =>
      cases n with
      | zero => simp at hx
      | succ n =>
        simp only [List.zipWith_cons_cons, List.foldl_cons]
        rw [ih y n (s + a * b) (by simpa using hx) (by simpa using hy), Finset.sum_range_succ']
        simp only [List.getD_cons_zero, List.getD_cons_succ]
        ring

theorem ndDot_honest (A : NdArray2 K) : Honest (Mat.ofNd A) (ndDot A) := by
  intro x _ hl y hy
  have hl' : x.data.length = A.cols := hl
  simp only [ndDot, hl', if_true, Except.ok.injEq] at hy
  rw [← hy]
  simp only [Mat.app, Mat.ofNd]
  apply List.map_congr_left
  intro i _
  rw [ldot_eq_sum _ _ A.cols (by simp) hl']
  refine Finset.sum_congr rfl fun j hj => ?_
  have : j < A.cols := by simpa using hj
  simp [List.getD_eq_getElem?_getD, this]

/-- Flags given to `linop_from_ndarray` are true. -/
def FlagsTrue (A : Mat K) (symmetric : Bool) (hermitian : Option Bool) : Prop :=
  (symmetric = true → A.Eqv A.T) ∧ (hermitian.getD symmetric = true → A.Eqv A.H)

theorem linopFromNdarray_makes (I : HInv D h) {A : NdArray2 K} (hA : (Mat.ofNd A).Typed) {sy : Bool}
    {he : Option Bool} (hf : FlagsTrue (Mat.ofNd A) sy he) {p : Nat × Heap K}
    (hp : linopFromNdarray A sy he h = .ok p) : Makes D h p (Mat.ofNd A) := by
  simp only [linopFromNdarray] at hp
  split at hp
  · simp only [Except.ok.injEq] at hp
    rw [← hp]
    exact makes_of_args I
      { nargin := rfl, nargout := rfl, dtype := rfl, typed := hA, symm := hf.1, herm := hf.2
        matvec := ndDot_honest A
        matvecTransp := fun c hc => by cases hc; exact ndDot_honest A.T
        matvecAdj := fun c hc => by cases hc; exact ndDot_honest A.conj.T
        transposeOf := fun t ht => by cases ht
        adjointOf := fun t ht => by cases ht }
  · next hk =>
    have e := Mat.T_eqv_H hA hk
    split at hp
    · cases hp
    · next hx =>
      simp only [Except.ok.injEq] at hp
      rw [← hp]
      have hx' : he.getD sy = sy := by
        generalize he.getD sy = b at hx
        cases sy <;> cases b <;> simp_all
      exact makes_of_args I
        { nargin := rfl, nargout := rfl, dtype := rfl, typed := hA
          symm := fun h1 => hf.1 (by simpa [hx'] using h1)
          herm := fun h1 => (hf.1 (by simpa [hx'] using h1)).trans e
          matvec := ndDot_honest A
          matvecTransp := fun c hc => by cases hc; exact ndDot_honest A.T
          matvecAdj := fun c hc => by cases hc
          transposeOf := fun t ht => by cases ht
          adjointOf := fun t ht => by cases ht }

theorem Reduced_makes (I : HInv D h) {r : Nat} {A : Mat K} (hA : D[r]? = some A) {rows cols : List Int}
    {rs cs : List Nat} (hr : rows.mapM (pyIndex A.rows) = some rs) (hc : cols.mapM (pyIndex A.cols) = some cs)
    (hrn : rs.Nodup) (hcn : cs.Nodup) {p : Nat × Heap K} (hp : ReducedLinearOperator r rows cols h = .ok p) :
    Makes D h p (A.submat rs cs) := by
  obtain ⟨o, ho, hoA⟩ := I.get hA
  simp only [ReducedLinearOperator, ho, Except.ok.injEq] at hp
  obtain ⟨hrl, hrlt⟩ := mapM_pyIndex_lt hr
  obtain ⟨hcl, hclt⟩ := mapM_pyIndex_lt hc
  rw [← hp]
  refine makes_of_args I
    { nargin := hcl.symm
      nargout := hrl.symm
      dtype := hoA.dtype
      typed := Mat.submat_typed hoA.typed hrlt hclt
      symm := by simp
      herm := by simp
      matvec := ⟨A, tgt_self hA, hoA.nargin, hcl.symm, hrl.symm, ?_⟩
      matvecTransp := ?_
      matvecAdj := ?_
      transposeOf := fun t ht => by cases ht
      adjointOf := fun t ht => by cases ht }
  · intro cs' rs' h1 h2
    rw [hc] at h1; rw [hr] at h2; cases h1; cases h2
    exact ⟨hcn, Same.of_eqv (Mat.Eqv.refl _)⟩
  · intro c hc'; cases hc'
    refine ⟨A.T, tgt_T hA, hoA.nargout, hrl.symm, hcl.symm, ?_⟩
    intro cs' rs' h1 h2
    change rows.mapM (pyIndex A.rows) = _ at h1
    change cols.mapM (pyIndex A.cols) = _ at h2
    rw [hr] at h1; rw [hc] at h2; cases h1; cases h2
    exact ⟨hrn, Same.of_eqv (Mat.Eqv.refl _)⟩
  · intro c hc'; cases hc'
    refine ⟨A.H, tgt_H hA, hoA.nargout, hrl.symm, hcl.symm, ?_⟩
    intro cs' rs' h1 h2
    change rows.mapM (pyIndex A.rows) = _ at h1
    change cols.mapM (pyIndex A.cols) = _ at h2
    rw [hr] at h1; rw [hc] at h2; cases h1; cases h2
    exact ⟨hrn, Same.of_eqv (Mat.Eqv.refl _)⟩

theorem SymReduced_makes (I : HInv D h) {r : Nat} {A : Mat K} (hA : D[r]? = some A) {idx : List Int}
    {rs cs : List Nat} (hr : idx.mapM (pyIndex A.rows) = some rs) (hc : idx.mapM (pyIndex A.cols) = some cs)
    (hrn : rs.Nodup) (hcn : cs.Nodup) {p : Nat × Heap K}
    (hp : SymmetricallyReducedLinearOperator r idx h = .ok p) : Makes D h p (A.submat rs cs) := by
  obtain ⟨o, ho, hoA⟩ := I.get hA
  simp only [SymmetricallyReducedLinearOperator, ho, Except.ok.injEq] at hp
  obtain ⟨hrl, hrlt⟩ := mapM_pyIndex_lt hr
  obtain ⟨hcl, hclt⟩ := mapM_pyIndex_lt hc
  rw [← hp]
  refine makes_of_args I
    { nargin := hcl.symm
      nargout := hrl.symm
      dtype := hoA.dtype
      typed := Mat.submat_typed hoA.typed hrlt hclt
      symm := ?_
      herm := ?_
      matvec := ⟨A, tgt_self hA, hoA.nargin, hcl.symm, hrl.symm, ?_⟩
      matvecTransp := ?_
      matvecAdj := ?_
      transposeOf := fun t ht => by cases ht
      adjointOf := fun t ht => by cases ht }
  · intro h1
    have e := hoA.symm h1
    have hsq : A.rows = A.cols := e.rows
    have : rs = cs := by rw [hsq, hc] at hr; cases hr; rfl
    subst this
    rw [Mat.submat_T]
    exact Mat.submat_eqv e hrlt hclt
  · intro h1
    have e := hoA.herm h1
    have hsq : A.rows = A.cols := e.rows
    have : rs = cs := by rw [hsq, hc] at hr; cases hr; rfl
    subst this
    rw [Mat.submat_H]
    exact Mat.submat_eqv e hrlt hclt
  · intro cs' rs' h1 h2
    rw [hc] at h1; rw [hr] at h2; cases h1; cases h2
    exact ⟨hcn, Same.of_eqv (Mat.Eqv.refl _)⟩
  · intro c hc'; cases hc'
    refine ⟨A.T, tgt_T hA, hoA.nargout, hrl.symm, hcl.symm, ?_⟩
    intro cs' rs' h1 h2
    change idx.mapM (pyIndex A.rows) = _ at h1
    change idx.mapM (pyIndex A.cols) = _ at h2
    rw [hr] at h1; rw [hc] at h2; cases h1; cases h2
    exact ⟨hrn, Same.of_eqv (Mat.Eqv.refl _)⟩
  · intro c hc'; cases hc'
    refine ⟨A.H, tgt_H hA, hoA.nargout, hrl.symm, hcl.symm, ?_⟩
    intro cs' rs' h1 h2
    change idx.mapM (pyIndex A.rows) = _ at h1
    change idx.mapM (pyIndex A.cols) = _ at h2
    rw [hr] at h1; rw [hc] at h2; cases h1; cases h2
    exact ⟨hrn, Same.of_eqv (Mat.Eqv.refl _)⟩

theorem conjugate_makes (I : HInv D h) {r : Nat} {A : Mat K} (hA : D[r]? = some A) :
    Frame h.length h (conjugate r h).2 ∧
    ∃ E, HInv (D ++ E) (conjugate r h).2 ∧ ∃ B, (D ++ E)[(conjugate r h).1]? = some B ∧ B.Eqv A.conj :=
  conjugateWith_inv I hA fun b _ _ => LinearOperator_ok b

/-- `A ** k`: the result denotes the power. -/
theorem powGo_makes {r : Nat} {A : Mat K} (hsq : A.cols = A.rows) :
    ∀ (k : Nat) (D : List (Mat K)) (h : Heap K), HInv D h → D[r]? = some A → ∀ p, powOp.go r k h = .ok p →
      Frame h.length h p.2 ∧ ∃ E, HInv (D ++ E) p.2 ∧ ∃ B, (D ++ E)[p.1]? = some B ∧ B.Eqv (A.pow k)
  | 0, D, h, I, hA, p, hp => by
    obtain ⟨o, ho, hoA⟩ := I.get hA
    simp only [powOp.go, ho, Option.map_some, Option.getD_some, Except.ok.injEq] at hp
    obtain ⟨h1, h2, E, h3⟩ := IdentityOperator_makes I o.nargin .real
    rw [hp] at h1 h2 h3
    refine ⟨h2, _, h3, Mat.ident o.nargin .real, ?_, ?_⟩
    · rw [h1, I.len, List.getElem?_append_right le_rfl]; simp
    · rw [hoA.nargin]; exact Mat.Eqv.refl _
  | 1, D, h, I, hA, p, hp => by
    simp only [powOp.go, Except.ok.injEq] at hp
    subst hp
    exact ⟨Frame.refl _ _, [], by rw [List.append_nil]; exact I, A, by rw [List.append_nil]; exact hA,
      Mat.Eqv.refl _⟩
  | k + 2, D, h, I, hA, p, hp => by
    simp only [powOp.go] at hp
    cases hg : powOp.go r (k + 1) h with
    | error e => rw [hg] at hp; cases hp
    | ok q =>
      rw [hg] at hp
      change mulLinop r q.1 q.2 = .ok p at hp
      obtain ⟨F1, E, I1, B, hB, hBe⟩ := powGo_makes hsq (k + 1) D h I hA q hg
      obtain ⟨hd, h1, h2, E2, h3⟩ := mulLinop_makes I1 (getElem?_append_some hA) hB hp
      have hle : h.length ≤ q.2.length := by rw [I.len, I1.len]; simp
      refine ⟨F1.trans (h2.mono hle), E ++ A.mul B :: E2, by rw [← List.append_assoc]; exact h3, A.mul B, ?_, ?_⟩
      · rw [h1, I1.len, ← List.append_assoc, List.getElem?_append_right le_rfl]; simp
      · exact Mat.mul_eqv (Mat.Eqv.refl A) hBe hd

end ops

end Verif.Linop
