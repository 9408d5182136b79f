import Verif.Linop.Sound

/-!
# Helper lemmas: the constructor and the operator algebra preserve the denotation invariant
-/

set_option linter.unusedSectionVars false

namespace Verif.Linop
open Finset

variable {K : Type} [CommRing K] [StarRing K] [DTypes K]

theorem getElem?_append_some {α} {l l' : List α} {i : Nat} {a : α} (h : l[i]? = some a) :
    (l ++ l')[i]? = some a := by
  rw [List.getElem?_append_left (List.getElem?_eq_some_iff.1 h).1]; exact h

theorem tgtMat_mono {D E : List (Mat K)} {t : Tgt} {B : Mat K} (h : tgtMat D t = some B) :
    tgtMat (D ++ E) t = some B := by
  unfold tgtMat at h ⊢
  cases hs : t.sel <;> simp only [hs] at h ⊢
  · exact getElem?_append_some h
  · cases hD : D[t.ref]? with
    | none => simp [hD] at h
    | some C => rw [getElem?_append_some hD]; simpa [hD] using h
  · cases hD : D[t.ref]? with
    | none => simp [hD] at h
    | some C => rw [getElem?_append_some hD]; simpa [hD] using h

theorem CodeOK.mono {D : List (Mat K)} (E : List (Mat K)) {A : Mat K} {c : Code K} (h : CodeOK D A c) :
    CodeOK (D ++ E) A c := by
  cases c with
  | prim f => exact h
  | conj t => obtain ⟨B, h1, h2⟩ := h; exact ⟨B, tgtMat_mono h1, h2⟩
  | scal a ka t => obtain ⟨B, h1, h2⟩ := h; exact ⟨B, tgtMat_mono h1, h2⟩
  | comp o i => obtain ⟨B, C, h1, h2, h3⟩ := h; exact ⟨B, C, tgtMat_mono h1, tgtMat_mono h2, h3⟩
  | add o i => obtain ⟨B, C, h1, h2, h3⟩ := h; exact ⟨B, C, tgtMat_mono h1, tgtMat_mono h2, h3⟩
  | sub o i => obtain ⟨B, C, h1, h2, h3⟩ := h; exact ⟨B, C, tgtMat_mono h1, tgtMat_mono h2, h3⟩
  | gather n put take t => obtain ⟨B, h1, h2⟩ := h; exact ⟨B, tgtMat_mono h1, h2⟩

theorem CodeOK.congr {D : List (Mat K)} {A B : Mat K} (e : Same A B) {c : Code K} (h : CodeOK D A c) :
    CodeOK D B c := by
  cases c with
  | prim f =>
    intro x hx hl y hy
    rw [← e.app]
    exact h x hx (by rw [hl, e.cols]) y hy
  | conj t => obtain ⟨C, h1, h2⟩ := h; exact ⟨C, h1, h2.trans e⟩
  | scal a ka t => obtain ⟨C, h1, h2⟩ := h; exact ⟨C, h1, h2.trans e⟩
  | comp o i => obtain ⟨C, C', h1, h2, h3, h4⟩ := h; exact ⟨C, C', h1, h2, h3, h4.trans e⟩
  | add o i => obtain ⟨C, C', h1, h2, h3, h3', h4⟩ := h; exact ⟨C, C', h1, h2, h3, h3', h4.trans e⟩
  | sub o i => obtain ⟨C, C', h1, h2, h3, h3', h4⟩ := h; exact ⟨C, C', h1, h2, h3, h3', h4.trans e⟩
  | gather n put take t =>
    obtain ⟨C, h1, h2, h3, h4, h5⟩ := h
    exact ⟨C, h1, h2, by rw [h3, e.cols], by rw [h4, e.rows], fun cs rs hc hr =>
      ⟨(h5 cs rs hc hr).1, (h5 cs rs hc hr).2.trans e⟩⟩

theorem ObjOK.mono {D : List (Mat K)} (E : List (Mat K)) {o : Obj K} {A : Mat K} (h : ObjOK D o A) :
    ObjOK (D ++ E) o A where
  nargin := h.nargin
  nargout := h.nargout
  dtype := h.dtype
  typed := h.typed
  symm := h.symm
  herm := h.herm
  code := h.code.mono E
  T := fun t ht => let ⟨B, h1, h2⟩ := h.T t ht; ⟨B, getElem?_append_some h1, h2⟩
  H := fun t ht => let ⟨B, h1, h2⟩ := h.H t ht; ⟨B, getElem?_append_some h1, h2⟩

theorem HInv.append {D : List (Mat K)} {h : Heap K} (I : HInv D h) {o : Obj K} {A : Mat K}
    (ho : ObjOK (D ++ [A]) o A) : HInv (D ++ [A]) (h ++ [o]) := by
  refine ⟨by simp [I.len], ?_⟩
  intro r o' A' hr hA'
  by_cases hlt : r < h.length
  · rw [List.getElem?_append_left hlt] at hr
    rw [List.getElem?_append_left (I.len ▸ hlt)] at hA'
    exact (I.ok r o' A' hr hA').mono [A]
  · have hr' : r < (h ++ [o]).length := (List.getElem?_eq_some_iff.1 hr).1
    have : r = h.length := by simp at hr'; omega
    subst this
    rw [List.getElem?_concat_length] at hr
    rw [I.len, List.getElem?_concat_length] at hA'
    cases hr; cases hA'
    exact ho

theorem HInv.setT {D : List (Mat K)} {h : Heap K} (I : HInv D h) {r : Nat} {A : Mat K} (hA : D[r]? = some A)
    {t : Option Nat} (ht : ∀ t', t = some t' → ∃ B, D[t']? = some B ∧ B.Eqv A.T) : HInv D (setT h r t) := by
  refine ⟨by simp [Linop.setT, I.len], ?_⟩
  intro s o' A' hs hA'
  unfold Linop.setT at hs
  rw [List.getElem?_modify] at hs
  cases ho : h[s]? with
  | none => simp [ho] at hs
  | some o =>
    have hok := I.ok s o A' ho hA'
    simp only [ho, Option.map_eq_map, Option.map_some, Option.some.injEq] at hs
    by_cases hrs : r = s
    · subst hrs
      rw [hA] at hA'; cases hA'
      simp only [if_true] at hs
      subst hs
      exact { hok with T := fun t' h' => ht t' h' }
    · simp only [hrs, if_false] at hs
      subst hs; exact hok

theorem HInv.setH {D : List (Mat K)} {h : Heap K} (I : HInv D h) {r : Nat} {A : Mat K} (hA : D[r]? = some A)
    {t : Option Nat} (ht : ∀ t', t = some t' → ∃ B, D[t']? = some B ∧ B.Eqv A.H) : HInv D (setH h r t) := by
  refine ⟨by simp [Linop.setH, I.len], ?_⟩
  intro s o' A' hs hA'
  unfold Linop.setH at hs
  rw [List.getElem?_modify] at hs
  cases ho : h[s]? with
  | none => simp [ho] at hs
  | some o =>
    have hok := I.ok s o A' ho hA'
    simp only [ho, Option.map_eq_map, Option.map_some, Option.some.injEq] at hs
    by_cases hrs : r = s
    · subst hrs
      rw [hA] at hA'; cases hA'
      simp only [if_true] at hs
      subst hs
      exact { hok with H := fun t' h' => ht t' h' }
    · simp only [hrs, if_false] at hs
      subst hs; exact hok

theorem HInv.getT {D : List (Mat K)} {h : Heap K} (I : HInv D h) {r : Nat} {A : Mat K} (hA : D[r]? = some A)
    {t : Nat} (ht : getT h r = some t) : ∃ B, D[t]? = some B ∧ B.Eqv A.T := by
  obtain ⟨o, ho, hok⟩ := I.get hA
  simp only [Linop.getT, ho, Option.bind_some] at ht
  exact hok.T t ht

theorem HInv.getH {D : List (Mat K)} {h : Heap K} (I : HInv D h) {r : Nat} {A : Mat K} (hA : D[r]? = some A)
    {t : Nat} (ht : getH h r = some t) : ∃ B, D[t]? = some B ∧ B.Eqv A.H := by
  obtain ⟨o, ho, hok⟩ := I.get hA
  simp only [Linop.getH, ho, Option.bind_some] at ht
  exact hok.H t ht

/-! Pointer updates. -/

/-- Objects below `n` are the same. -/
def Frame (n : Nat) (h h' : Heap K) : Prop := ∀ i < n, h'[i]? = h[i]?

theorem Frame.refl (n : Nat) (h : Heap K) : Frame n h h := fun _ _ => rfl
theorem Frame.trans {n : Nat} {h h' h'' : Heap K} (a : Frame n h h') (b : Frame n h' h'') : Frame n h h'' :=
  fun i hi => (b i hi).trans (a i hi)
theorem Frame.mono {n m : Nat} (hnm : m ≤ n) {h h' : Heap K} (a : Frame n h h') : Frame m h h' :=
  fun i hi => a i (lt_of_lt_of_le hi hnm)
theorem Frame.setT {n : Nat} (h : Heap K) {r : Nat} (hr : n ≤ r) (t : Option Nat) : Frame n h (setT h r t) := by
  intro i hi
  unfold Linop.setT
  rw [List.getElem?_modify]
  have : ¬ r = i := by omega
  simp [this]
theorem Frame.setH {n : Nat} (h : Heap K) {r : Nat} (hr : n ≤ r) (t : Option Nat) : Frame n h (setH h r t) := by
  intro i hi
  unfold Linop.setH
  rw [List.getElem?_modify]
  have : ¬ r = i := by omega
  simp [this]
theorem Frame.getT {n : Nat} {h h' : Heap K} (a : Frame n h h') {r : Nat} (hr : r < n) : getT h' r = getT h r := by
  simp [Linop.getT, a r hr]
theorem Frame.getH {n : Nat} {h h' : Heap K} (a : Frame n h h') {r : Nat} (hr : r < n) : getH h' r = getH h r := by
  simp [Linop.getH, a r hr]

theorem getT_setT_self (h : Heap K) {r : Nat} (hr : r < h.length) (t : Option Nat) :
    getT (setT h r t) r = t := by
  simp [getT, setT, hr]
theorem getT_setT_ne (h : Heap K) {r s : Nat} (hr : r ≠ s) (t : Option Nat) : getT (setT h r t) s = getT h s := by
  simp only [getT, setT, List.getElem?_modify, hr, if_false]
  cases h[s]? <;> rfl
theorem getH_setH_self (h : Heap K) {r : Nat} (hr : r < h.length) (t : Option Nat) :
    getH (setH h r t) r = t := by
  simp [getH, setH, hr]
theorem getH_setH_ne (h : Heap K) {r s : Nat} (hr : r ≠ s) (t : Option Nat) : getH (setH h r t) s = getH h s := by
  simp only [getH, setH, List.getElem?_modify, hr, if_false]
  cases h[s]? <;> rfl
theorem getH_setT (h : Heap K) (r s : Nat) (t : Option Nat) : getH (setT h r t) s = getH h s := by
  simp only [getH, setT, List.getElem?_modify]
  cases h[s]? <;> by_cases h' : r = s <;> simp [h']
theorem getT_setH (h : Heap K) (r s : Nat) (t : Option Nat) : getT (setH h r t) s = getT h s := by
  simp only [getT, setH, List.getElem?_modify]
  cases h[s]? <;> by_cases h' : r = s <;> simp [h']
theorem length_setT (h : Heap K) (r : Nat) (t : Option Nat) : (setT h r t).length = h.length := by simp [setT]
theorem length_setH (h : Heap K) (r : Nat) (t : Option Nat) : (setH h r t).length = h.length := by simp [setH]

/-! ## The constructor -/

/-- The arguments describe the matrix `A`. -/
structure ArgsOK (D : List (Mat K)) (a : Args K) (A : Mat K) : Prop where
  nargin : a.nargin = A.cols
  nargout : a.nargout = A.rows
  dtype : a.dtype = A.kind
  typed : A.Typed
  symm : a.symmetric = true → A.Eqv A.T
  herm : a.hermitian = true → A.Eqv A.H
  matvec : CodeOK D A a.matvec
  matvecTransp : ∀ c, a.matvecTransp = some c → CodeOK D A.T c
  matvecAdj : ∀ c, a.matvecAdj = some c → CodeOK D A.H c
  transposeOf : ∀ t, a.transposeOf = some t → ∃ B, D[t]? = some B ∧ B.Eqv A.T
  adjointOf : ∀ t, a.adjointOf = some t → ∃ B, D[t]? = some B ∧ B.Eqv A.H

theorem ArgsOK.mono {D : List (Mat K)} (E : List (Mat K)) {a : Args K} {A : Mat K} (h : ArgsOK D a A) :
    ArgsOK (D ++ E) a A where
  nargin := h.nargin
  nargout := h.nargout
  dtype := h.dtype
  typed := h.typed
  symm := h.symm
  herm := h.herm
  matvec := h.matvec.mono E
  matvecTransp := fun c hc => (h.matvecTransp c hc).mono E
  matvecAdj := fun c hc => (h.matvecAdj c hc).mono E
  transposeOf := fun t ht => let ⟨B, h1, h2⟩ := h.transposeOf t ht; ⟨B, getElem?_append_some h1, h2⟩
  adjointOf := fun t ht => let ⟨B, h1, h2⟩ := h.adjointOf t ht; ⟨B, getElem?_append_some h1, h2⟩

/-- A (recursive) constructor call does its job. -/
def CtorOK (ctor : Ctor K) (a : Args K) : Prop :=
  ∀ D h A, HInv D h → ArgsOK D a A →
    (ctor a h).1 = h.length ∧ Frame h.length h (ctor a h).2 ∧ (∃ E, HInv (D ++ A :: E) (ctor a h).2) ∧
    (a.conjugateOf.isSome → ∀ t, getT (ctor a h).2 h.length = some t →
      h.length ≤ t ∨ a.transposeOf = some t ∨ a.adjointOf = some t)

/-- children made by `__set_transpose` / `__set_adjoint` -/
def IsTChild (a : Args K) : Prop := a.transposeOf.isSome ∧ a.matvecAdj = none
def IsHChild (a : Args K) : Prop := a.adjointOf.isSome ∧ a.matvecTransp = none

theorem setTranspose_inv {ctor : Ctor K} {self : Nat} {a : Args K} {h : Heap K} {D : List (Mat K)} {A : Mat K}
    (I : HInv D h) (hA : D[self]? = some A) (ha : ArgsOK D a A)
    (hchild : a.symmetric = false → a.transposeOf = none → a.matvecTransp.isSome → ∀ b : Args K, IsTChild b → CtorOK ctor b) :
    Frame self h (setTranspose ctor self a h) ∧
    (∃ E, HInv (D ++ E) (setTranspose ctor self a h)) ∧
    (∀ t, getT (setTranspose ctor self a h) self = some t →
      getT h self = some t ∨ self ≤ t ∨ a.transposeOf = some t) ∧
    getH (setTranspose ctor self a h) self = getH h self := by
  have hself : self < h.length := by rw [I.len]; exact (List.getElem?_eq_some_iff.1 hA).1
  unfold setTranspose
  cases hs : a.symmetric with
  | true =>
    refine ⟨Frame.setT h le_rfl _, ⟨[], ?_⟩, ?_, by simp [getH_setT]⟩
    · rw [List.append_nil]
      exact I.setT hA (by rintro t' h'; cases h'; exact ⟨A, hA, ha.symm hs⟩)
    · intro t ht
      simp only [if_true, getT_setT_self h hself, Option.some.injEq] at ht
      exact Or.inr (Or.inl ht.le)
  | false =>
    simp only [Bool.false_eq_true, if_false]
    cases ht : a.transposeOf with
    | some t =>
      simp only
      refine ⟨Frame.setT h le_rfl _, ⟨[], ?_⟩, ?_, getH_setT _ _ _ _⟩
      · rw [List.append_nil]
        exact I.setT hA (by rintro t' h'; cases h'; exact ha.transposeOf t ht)
      · intro t' ht'
        rw [getT_setT_self h hself] at ht'
        exact Or.inr (Or.inr ht')
    | none =>
      simp only
      cases hm : a.matvecTransp with
      | none => exact ⟨Frame.refl _ _, ⟨[], by rw [List.append_nil]; exact I⟩, fun t ht => Or.inl ht, rfl⟩
      | some mt =>
        simp only
        set b : Args K := { nargin := a.nargout, nargout := a.nargin, matvec := mt, matvecTransp := some a.matvec,
                            transposeOf := some self, symmetric := false, hermitian := a.hermitian,
                            dtype := a.dtype } with hb
        have hbOK : ArgsOK D b A.T := {
          nargin := ha.nargout
          nargout := ha.nargin
          dtype := ha.dtype
          typed := ha.typed.T
          symm := by simp [hb]
          herm := fun hh => (ha.herm hh).T
          matvec := ha.matvecTransp mt hm
          matvecTransp := fun c hc => by cases hc; exact ha.matvec
          matvecAdj := fun c hc => by cases hc
          transposeOf := fun t ht => by cases ht; exact ⟨A, hA, Mat.Eqv.refl _⟩
          adjointOf := fun t ht => by cases ht }
        obtain ⟨h1, h2, ⟨E, h3⟩, _⟩ := hchild hs ht (by simp [hm]) b ⟨rfl, rfl⟩ D h A.T I hbOK
        rw [h1]
        have hA' : (D ++ A.T :: E)[self]? = some A := getElem?_append_some hA
        refine ⟨(h2.mono hself.le).trans (Frame.setT _ le_rfl _), ⟨A.T :: E, ?_⟩, ?_, by rw [getH_setT, h2.getH hself]⟩
        · refine h3.setT hA' ?_
          rintro t' h'
          cases h'
          refine ⟨A.T, ?_, Mat.Eqv.refl _⟩
          rw [I.len, List.getElem?_append_right le_rfl]; simp
        · intro t ht'
          have hl : self < (ctor b h).2.length := by
            rw [h3.len]; simp only [List.length_append]; rw [← I.len]; omega
          rw [getT_setT_self _ hl] at ht'
          cases ht'
          exact Or.inr (Or.inl hself.le)

theorem setAdjoint_inv {ctor : Ctor K} {self : Nat} {a : Args K} {h : Heap K} {D : List (Mat K)} {A : Mat K}
    (I : HInv D h) (hA : D[self]? = some A) (ha : ArgsOK D a A)
    (hchild : a.hermitian = false → a.adjointOf = none → a.matvecAdj.isSome → ∀ b : Args K, IsHChild b → CtorOK ctor b) :
    Frame self h (setAdjoint ctor self a h) ∧
    (∃ E, HInv (D ++ E) (setAdjoint ctor self a h)) ∧
    (∀ t, getH (setAdjoint ctor self a h) self = some t →
      getH h self = some t ∨ self ≤ t ∨ a.adjointOf = some t) ∧
    getT (setAdjoint ctor self a h) self = getT h self := by
  have hself : self < h.length := by rw [I.len]; exact (List.getElem?_eq_some_iff.1 hA).1
  unfold setAdjoint
  cases hs : a.hermitian with
  | true =>
    refine ⟨Frame.setH h le_rfl _, ⟨[], ?_⟩, ?_, ?_⟩
    · rw [List.append_nil]
      exact I.setH hA (by rintro t' h'; cases h'; exact ⟨A, hA, ha.herm hs⟩)
    · intro t ht
      simp only [if_true, getH_setH_self h hself, Option.some.injEq] at ht
      exact Or.inr (Or.inl ht.le)
    · simp [getT_setH]
  | false =>
    simp only [Bool.false_eq_true, if_false]
    cases ht : a.adjointOf with
    | some t =>
      simp only
      refine ⟨Frame.setH h le_rfl _, ⟨[], ?_⟩, ?_, getT_setH _ _ _ _⟩
      · rw [List.append_nil]
        exact I.setH hA (by rintro t' h'; cases h'; exact ha.adjointOf t ht)
      · intro t' ht'
        rw [getH_setH_self h hself] at ht'
        exact Or.inr (Or.inr ht')
    | none =>
      simp only
      cases hm : a.matvecAdj with
      | none => exact ⟨Frame.refl _ _, ⟨[], by rw [List.append_nil]; exact I⟩, fun t ht => Or.inl ht, rfl⟩
      | some ma =>
        simp only
        set b : Args K := { nargin := a.nargout, nargout := a.nargin, matvec := ma, matvecAdj := some a.matvec,
                            adjointOf := some self, symmetric := a.symmetric, hermitian := false,
                            dtype := a.dtype } with hb
        have hbOK : ArgsOK D b A.H := {
          nargin := ha.nargout
          nargout := ha.nargin
          dtype := ha.dtype
          typed := ha.typed.H
          symm := fun hh => (ha.symm hh).H
          herm := by simp [hb]
          matvec := ha.matvecAdj ma hm
          matvecTransp := fun c hc => by cases hc
          matvecAdj := fun c hc => by cases hc; rw [Mat.H_H]; exact ha.matvec
          transposeOf := fun t ht => by cases ht
          adjointOf := fun t ht => by cases ht; exact ⟨A, hA, by rw [Mat.H_H]; exact Mat.Eqv.refl _⟩ }
        obtain ⟨h1, h2, ⟨E, h3⟩, _⟩ := hchild hs ht (by simp [hm]) b ⟨rfl, rfl⟩ D h A.H I hbOK
        rw [h1]
        have hA' : (D ++ A.H :: E)[self]? = some A := getElem?_append_some hA
        refine ⟨(h2.mono hself.le).trans (Frame.setH _ le_rfl _), ⟨A.H :: E, ?_⟩, ?_, ?_⟩
        · refine h3.setH hA' ?_
          rintro t' h'
          cases h'
          refine ⟨A.H, ?_, Mat.Eqv.refl _⟩
          rw [I.len, List.getElem?_append_right le_rfl]; simp
        · intro t ht'
          have hl : self < (ctor b h).2.length := by
            rw [h3.len]; simp only [List.length_append]; rw [← I.len]; omega
          rw [getH_setH_self _ hl] at ht'
          cases ht'
          exact Or.inr (Or.inl hself.le)
        · rw [getT_setH, h2.getT hself]

theorem inferReal_inv {self : Nat} {h : Heap K} {D : List (Mat K)} {A : Mat K}
    (I : HInv D h) (hA : D[self]? = some A) (hk : A.kind ≠ .complex) :
    Frame self h (inferReal self h) ∧ HInv D (inferReal self h) := by
  obtain ⟨o, ho, hok⟩ := I.get hA
  have e := Mat.T_eqv_H hok.typed hk
  unfold inferReal
  split
  · next t ht _ =>
    refine ⟨Frame.setH _ le_rfl _, I.setH hA ?_⟩
    rintro t' h'; cases h'
    obtain ⟨B, h1, h2⟩ := I.getT hA ht
    exact ⟨B, h1, h2.trans e⟩
  · next u _ hu =>
    refine ⟨Frame.setT _ le_rfl _, I.setT hA ?_⟩
    rintro t' h'; cases h'
    obtain ⟨B, h1, h2⟩ := I.getH hA hu
    exact ⟨B, h1, h2.trans e.symm⟩
  · exact ⟨Frame.refl _ _, I⟩

theorem codeAt_ok {D : List (Mat K)} {h : Heap K} (I : HInv D h) {r : Nat} {A : Mat K} (hA : D[r]? = some A)
    {c : Code K} (hc : codeAt h r = some c) : CodeOK D A c := by
  obtain ⟨o, ho, hok⟩ := I.get hA
  simp only [codeAt, ho, Option.map_some, Option.some.injEq] at hc
  exact hc ▸ hok.code

theorem conjArgs_ok {D : List (Mat K)} {h : Heap K} (I : HInv D h) {r : Nat} {A : Mat K} (hA : D[r]? = some A) :
    ArgsOK D (conjArgs r h) A.conj := by
  obtain ⟨o, ho, hok⟩ := I.get hA
  have hT : tgtMat D ⟨r, .T⟩ = some A.T := by simp [tgtMat, hA]
  have hH : tgtMat D ⟨r, .H⟩ = some A.H := by simp [tgtMat, hA]
  refine
  { nargin := by simp [conjArgs, ho, hok.nargin, Mat.conj]
    nargout := by simp [conjArgs, ho, hok.nargout, Mat.conj]
    dtype := by simp [conjArgs, ho, hok.dtype, Mat.conj]
    typed := hok.typed.conj
    symm := by simp [conjArgs]
    herm := by simp [conjArgs]
    matvec := ⟨A, by simp [tgtMat, hA], Same.of_eqv (Mat.Eqv.refl _)⟩
    matvecTransp := ?_
    matvecAdj := ?_
    transposeOf := ?_
    adjointOf := ?_ }
  · intro c hc
    rw [Mat.conj_T]
    simp only [conjArgs] at hc
    cases hu : getH h r with
    | some u =>
      simp only [hu] at hc
      obtain ⟨B, h1, h2⟩ := I.getH hA hu
      exact (codeAt_ok I h1 hc).congr (Same.of_eqv h2)
    | none =>
      cases ht : getT h r with
      | some t =>
        simp only [hu, ht, Option.some.injEq] at hc
        subst hc
        exact ⟨A.T, hT, Same.of_eqv (Mat.Eqv.refl _)⟩
      | none => simp [hu, ht] at hc
  · intro c hc
    rw [Mat.conj_H]
    simp only [conjArgs] at hc
    cases hu : getH h r with
    | some u =>
      cases ht : getT h r with
      | some t =>
        simp only [hu, ht] at hc
        obtain ⟨B, h1, h2⟩ := I.getT hA ht
        exact (codeAt_ok I h1 hc).congr (Same.of_eqv h2)
      | none =>
        simp only [hu, ht, Option.some.injEq] at hc
        subst hc
        exact ⟨A.H, hH, by rw [Mat.H_conj]; exact Same.of_eqv (Mat.Eqv.refl _)⟩
    | none =>
      cases ht : getT h r with
      | some t =>
        simp only [hu, ht] at hc
        obtain ⟨B, h1, h2⟩ := I.getT hA ht
        exact (codeAt_ok I h1 hc).congr (Same.of_eqv h2)
      | none => simp [hu, ht] at hc
  · intro t ht
    rw [Mat.conj_T]
    exact I.getH hA ht
  · intro t ht
    rw [Mat.conj_H]
    exact I.getT hA ht

/-- Arguments of the calls made by `conjugate`. -/
def IsConj (a : Args K) : Prop := a.conjugateOf.isSome

theorem conjugateWith_inv {ctor : Ctor K} {D : List (Mat K)} {h : Heap K} (I : HInv D h) {r : Nat} {A : Mat K}
    (hA : D[r]? = some A) (hctor : ∀ b : Args K, IsConj b → (b.transposeOf = getH h r ∧ b.adjointOf = getT h r) →
      CtorOK ctor b) :
    Frame h.length h (conjugateWith ctor r h).2 ∧
    ∃ E, HInv (D ++ E) (conjugateWith ctor r h).2 ∧
      ∃ B, (D ++ E)[(conjugateWith ctor r h).1]? = some B ∧ B.Eqv A.conj := by
  obtain ⟨o, ho, hok⟩ := I.get hA
  unfold conjugateWith
  split
  · obtain ⟨h1, h2, ⟨E, h3⟩, _⟩ := hctor (conjArgs r h) rfl ⟨rfl, rfl⟩ D h A.conj I (conjArgs_ok I hA)
    refine ⟨h2, A.conj :: E, h3, A.conj, ?_, Mat.Eqv.refl _⟩
    rw [h1, I.len, List.getElem?_append_right le_rfl]; simp
  · next hk =>
    have hk' : A.kind ≠ .complex := by
      rw [← hok.dtype]; intro e; exact hk (by simp [ho, e])
    exact ⟨Frame.refl _ _, [], by rw [List.append_nil]; exact I, A, by rw [List.append_nil]; exact hA,
      Mat.eqv_conj hok.typed hk'⟩

theorem inferComplex_inv {ctor : Ctor K} {self : Nat} {h : Heap K} {D : List (Mat K)} {A : Mat K}
    (I : HInv D h) (hA : D[self]? = some A)
    (hT : ∀ t, getT h self = some t → self ≤ t) (hH : ∀ t, getH h self = some t → self ≤ t)
    (hctor : ∀ b : Args K, IsConj b → (b.transposeOf = getH h self ∧ b.adjointOf = getT h self) → CtorOK ctor b) :
    Frame self h (inferComplex ctor self h) ∧ ∃ E, HInv (D ++ E) (inferComplex ctor self h) := by
  have hself : self < h.length := by rw [I.len]; exact (List.getElem?_eq_some_iff.1 hA).1
  obtain ⟨hF, E, I1, C, hC, hCe⟩ := conjugateWith_inv I hA hctor
  have hCT : ∀ t, getT (conjugateWith ctor self h).2 (conjugateWith ctor self h).1 = some t → self ≤ t := by
    intro t ht
    unfold conjugateWith at ht
    split at ht
    · obtain ⟨h1, _, _, h4⟩ := hctor (conjArgs self h) rfl ⟨rfl, rfl⟩ D h A.conj I (conjArgs_ok I hA)
      rw [h1] at ht
      rcases h4 rfl t ht with h5 | h5 | h5
      · omega
      · exact hH t h5
      · exact hT t h5
    · exact hT t ht
  unfold inferComplex
  generalize hcc : conjugateWith ctor self h = ch at *
  obtain ⟨c, h1⟩ := ch
  simp only at *
  have hA1 : (D ++ E)[self]? = some A := getElem?_append_some hA
  -- step 1
  have step1 : Frame self h (inferH c self h1) ∧ HInv (D ++ E) (inferH c self h1) ∧
      (∀ u, getH (inferH c self h1) self = some u → self ≤ u) := by
    unfold inferH
    cases ht : getT h1 self with
    | none =>
      refine ⟨hF.mono hself.le, I1, fun u hu => ?_⟩
      rw [hF.getH hself] at hu
      exact hH u hu
    | some t =>
      have hst : self ≤ t := by rw [hF.getT hself] at ht; exact hT t ht
      simp only
      obtain ⟨B, hB, hBe⟩ := I1.getT hA1 ht
      have I2 : HInv (D ++ E) (setH h1 t (some c)) := by
        refine I1.setH hB ?_
        rintro t' h'; cases h'
        exact ⟨C, hC, hCe.trans (by have := hBe.H.symm; rwa [Mat.T_H] at this)⟩
      have F2 : Frame self h (setH h1 t (some c)) := (hF.mono hself.le).trans (Frame.setH _ hst _)
      have hc_ge : self ≤ c := by
        by_contra hlt
        push Not at hlt
        -- the conjugate is either a new object or `self`
        have := congrArg Prod.fst hcc
        unfold conjugateWith at this
        split at this
        · have hh := (hctor (conjArgs self h) rfl ⟨rfl, rfl⟩ D h A.conj I (conjArgs_ok I hA)).1
          simp only at this; omega
        · simp only at this; omega
      split
      · refine ⟨F2.trans (Frame.setH _ le_rfl _), I2.setH hA1 ?_, ?_⟩
        · intro t' h'
          obtain ⟨B', h3, h4⟩ := I2.getT hC h'
          exact ⟨B', h3, h4.trans (by have := hCe.T; rwa [Mat.conj_T] at this)⟩
        · intro u hu
          have hl : self < (setH h1 t (some c)).length := by
            rw [I2.len]; exact (List.getElem?_eq_some_iff.1 hA1).1
          rw [getH_setH_self _ hl, getT_setH] at hu
          exact hCT u hu
      · refine ⟨F2, I2, fun u hu => ?_⟩
        by_cases hts : t = self
        · subst hts
          have hl : t < h1.length := by rw [I1.len]; exact (List.getElem?_eq_some_iff.1 hA1).1
          rw [getH_setH_self _ hl] at hu
          cases hu; exact hc_ge
        · rw [getH_setH_ne _ hts, hF.getH hself] at hu
          exact hH u hu
  generalize inferH c self h1 = h2 at step1
  obtain ⟨F2, I2, hu2⟩ := step1
  unfold inferT
  refine ⟨?_, E, ?_⟩
  · cases hu : getH h2 self with
    | none => exact F2
    | some u =>
      simp only
      have F3 := F2.trans (Frame.setT h2 (hu2 u hu) (some c))
      split
      · exact F3.trans (Frame.setT _ le_rfl _)
      · exact F3
  · cases hu : getH h2 self with
    | none => exact I2
    | some u =>
      simp only
      obtain ⟨B, hB, hBe⟩ := I2.getH hA1 hu
      have I3 : HInv (D ++ E) (setT h2 u (some c)) := by
        refine I2.setT hB ?_
        rintro t' h'; cases h'
        exact ⟨C, hC, hCe.trans (by have := hBe.T.symm; rwa [Mat.H_T] at this)⟩
      split
      · refine I3.setT hA1 ?_
        intro t' h'
        obtain ⟨B', h3, h4⟩ := I3.getH hC h'
        exact ⟨B', h3, h4.trans (by have := hCe.H; rwa [Mat.conj_H] at this)⟩
      · exact I3

theorem initWith_inv {ctor : Ctor K} {a : Args K}
    (hT : a.symmetric = false → a.transposeOf = none → a.matvecTransp.isSome → ∀ b : Args K, IsTChild b → CtorOK ctor b)
    (hH : a.hermitian = false → a.adjointOf = none → a.matvecAdj.isSome → ∀ b : Args K, IsHChild b → CtorOK ctor b)
    (hC : a.transposeOf = none → a.adjointOf = none → a.conjugateOf = none →
      ∀ b : Args K, IsConj b → CtorOK ctor b) :
    CtorOK (initWith ctor) a := by
  intro D h A I ha
  unfold initWith
  simp only
  generalize hh0 : h ++ [({ nargin := a.nargin, nargout := a.nargout, symmetric := a.symmetric,
                            hermitian := a.hermitian, dtype := a.dtype, code := a.matvec,
                            T := none, H := none } : Obj K)] = h0
  have hA0 : (D ++ [A])[h.length]? = some A := by rw [I.len, List.getElem?_concat_length]
  have I0 : HInv (D ++ [A]) h0 := by
    rw [← hh0]
    refine I.append
      { nargin := ha.nargin, nargout := ha.nargout, dtype := ha.dtype, typed := ha.typed, symm := ha.symm,
        herm := ha.herm, code := ha.matvec.mono _, T := (fun t ht => by cases ht), H := (fun t ht => by cases ht) }
  have F0 : Frame h.length h h0 := by
    intro i hi; rw [← hh0, List.getElem?_append_left hi]
  have hT0 : getT h0 h.length = none := by simp [getT, ← hh0]
  have hH0 : getH h0 h.length = none := by simp [getH, ← hh0]
  obtain ⟨F1, ⟨E1, I1⟩, hT1, hH1⟩ := setTranspose_inv (ctor := ctor) I0 hA0 (ha.mono [A]) hT
  rw [hH0] at hH1
  generalize setTranspose ctor h.length a h0 = h1 at *
  have hA1 : (D ++ [A] ++ E1)[h.length]? = some A := getElem?_append_some hA0
  obtain ⟨F2, ⟨E2, I2⟩, hH2, hT2⟩ := setAdjoint_inv (ctor := ctor) I1 hA1 ((ha.mono [A]).mono E1) hH
  generalize setAdjoint ctor h.length a h1 = h2 at *
  have hA2 : (D ++ [A] ++ E1 ++ E2)[h.length]? = some A := getElem?_append_some hA1
  have reshape : ∀ E : List (Mat K), D ++ [A] ++ E1 ++ E2 ++ E = D ++ A :: (E1 ++ E2 ++ E) := by simp
  have hT3 : ∀ t, getT h2 h.length = some t → h.length ≤ t ∨ a.transposeOf = some t := by
    intro t ht
    rw [hT2] at ht
    rcases hT1 t ht with h' | h' | h'
    · rw [hT0] at h'; cases h'
    · exact Or.inl h'
    · exact Or.inr h'
  have hH3 : ∀ t, getH h2 h.length = some t → h.length ≤ t ∨ a.adjointOf = some t := by
    intro t ht
    rcases hH2 t ht with h' | h' | h'
    · rw [hH1] at h'; cases h'
    · exact Or.inl h'
    · exact Or.inr h'
  refine ⟨trivial, ?_⟩
  have hlen2 : h.length < h2.length := by
    rw [I2.len]; exact (List.getElem?_eq_some_iff.1 hA2).1
  by_cases hk : a.dtype = .complex
  · simp only [hk, ne_eq, not_true_eq_false, if_false]
    split
    · next hc =>
      obtain ⟨F3, E3, I3⟩ := inferComplex_inv (ctor := ctor) I2 hA2
        (fun t ht => (hT3 t ht).resolve_right (by simp [hc.1]))
        (fun t ht => (hH3 t ht).resolve_right (by simp [hc.2.1]))
        (fun b hb _ => hC hc.1 hc.2.1 hc.2.2 b hb)
      refine ⟨((F0.trans F1).trans F2).trans F3, ⟨_, (reshape E3) ▸ I3⟩, ?_⟩
      simp [hc.2.2]
    · refine ⟨(F0.trans F1).trans F2, ⟨E1 ++ E2, by simpa using I2⟩, ?_⟩
      intro _ t ht
      rcases hT3 t ht with h' | h'
      · exact Or.inl h'
      · exact Or.inr (Or.inl h')
  · simp only [hk, ne_eq, not_false_eq_true, if_true]
    obtain ⟨F3, I3⟩ := inferReal_inv I2 hA2 (by rw [← ha.dtype]; exact hk)
    refine ⟨((F0.trans F1).trans F2).trans F3, ⟨E1 ++ E2, by simpa using I3⟩, ?_⟩
    intro _ t ht
    unfold inferReal at ht
    split at ht
    · rw [getT_setH] at ht
      rcases hT3 t ht with h' | h'
      · exact Or.inl h'
      · exact Or.inr (Or.inl h')
    · next u _ hu =>
      rw [getT_setT_self _ hlen2] at ht
      cases ht
      rcases hH3 _ hu with h' | h'
      · exact Or.inl h'
      · exact Or.inr (Or.inr h')
    · rcases hT3 t ht with h' | h'
      · exact Or.inl h'
      · exact Or.inr (Or.inl h')

/-- Level 0: the transposes / adjoints created inside a constructor call make no further call. -/
theorem init0_T (s : Ctor K) (b : Args K) (hb : IsTChild b) : CtorOK (initWith s) b :=
  initWith_inv (fun _ h _ => by simp [IsTChild, h] at hb) (fun _ _ h => by simp [hb.2] at h)
    (fun h => by simp [IsTChild, h] at hb)
theorem init0_H (s : Ctor K) (b : Args K) (hb : IsHChild b) : CtorOK (initWith s) b :=
  initWith_inv (fun _ _ h => by simp [hb.2] at h) (fun _ h _ => by simp [IsHChild, h] at hb)
    (fun _ h => by simp [IsHChild, h] at hb)

/-- Level 1: the conjugate. -/
theorem init1_conj (s : Ctor K) (b : Args K) (hb : IsConj b) : CtorOK (initWith (initWith s)) b :=
  initWith_inv (fun _ _ _ => init0_T s) (fun _ _ _ => init0_H s)
    (fun _ _ h => by simp [IsConj, h] at hb)

/-- The constructor, for all arguments. -/
theorem init2 (s : Ctor K) (a : Args K) : CtorOK (initWith (initWith (initWith s))) a :=
  initWith_inv (fun _ _ _ => init0_T _) (fun _ _ _ => init0_H _) (fun _ _ _ => init1_conj _)

theorem LinearOperator_ok (a : Args K) : CtorOK LinearOperator a := init2 _ a

/-- `LinearOperator(...)` on arguments that describe `A` returns a new object that denotes `A`; all existing
objects keep their denotation. -/
theorem LinearOperator_inv {D : List (Mat K)} {h : Heap K} (I : HInv D h) {a : Args K} {A : Mat K}
    (ha : ArgsOK D a A) :
    (LinearOperator a h).1 = h.length ∧ Frame h.length h (LinearOperator a h).2 ∧
      ∃ E, HInv (D ++ A :: E) (LinearOperator a h).2 :=
  let ⟨h1, h2, h3, _⟩ := LinearOperator_ok a D h A I ha
  ⟨h1, h2, h3⟩

end Verif.Linop
