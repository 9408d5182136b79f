import Verif.Linop.Total
import Mathlib.Tactic.IntervalCases

/-!
# Helper: the objects a constructor call creates, in closed form

`newObjs a n` lists the operators that `LinearOperator(...)` appends to a heap with `n` objects.
-/

set_option linter.unusedSectionVars false
set_option linter.unusedSimpArgs false

namespace Verif.Linop

variable {K : Type} [CommRing K] [StarRing K] [DTypes K]

/-- the operator itself -/
def mkFwd (a : Args K) (T H : Option Nat) : Obj K :=
  ⟨a.nargin, a.nargout, a.symmetric, a.hermitian, a.dtype, a.matvec, T, H⟩
/-- a transpose or adjoint -/
def mkBwd (a : Args K) (c : Code K) (T H : Option Nat) : Obj K :=
  ⟨a.nargout, a.nargin, a.symmetric, a.hermitian, a.dtype, c, T, H⟩
/-- the conjugate operator -/
def mkConj (a : Args K) (n : Nat) (T H : Option Nat) : Obj K :=
  ⟨a.nargin, a.nargout, false, false, a.dtype, .conj ⟨n, .self⟩, T, H⟩
/-- transpose / adjoint of the conjugate operator -/
def mkConjBwd (a : Args K) (n : Nat) (s : Sel) (T H : Option Nat) : Obj K :=
  ⟨a.nargout, a.nargin, false, false, a.dtype, .conj ⟨n, s⟩, T, H⟩

def newReal (a : Args K) (n : Nat) : List (Obj K) :=
  match a.symmetric, a.hermitian, a.matvecTransp, a.matvecAdj with
  | true, true, _, _ => [mkFwd a (some n) (some n)]
  | true, false, _, none => [mkFwd a (some n) (some n)]
  | true, false, _, some u => [mkFwd a (some n) (some (n+1)), mkBwd a u (some (n+1)) (some n)]
  | false, true, none, _ => [mkFwd a (some n) (some n)]
  | false, true, some t, _ => [mkFwd a (some (n+1)) (some n), mkBwd a t (some n) (some (n+1))]
  | false, false, none, none => [mkFwd a none none]
  | false, false, none, some u => [mkFwd a (some (n+1)) (some (n+1)), mkBwd a u (some n) (some n)]
  | false, false, some t, none => [mkFwd a (some (n+1)) (some (n+1)), mkBwd a t (some n) (some n)]
  | false, false, some t, some u =>
    [mkFwd a (some (n+1)) (some (n+2)), mkBwd a t (some n) (some n), mkBwd a u (some n) (some n)]

def newComplex (a : Args K) (n : Nat) : List (Obj K) :=
  match a.symmetric, a.hermitian, a.matvecTransp, a.matvecAdj with
  | true, true, _, _ => [mkFwd a (some n) (some (n+1)), mkConj a n (some (n+1)) (some n)]
  | true, false, _, none =>
    [mkFwd a (some n) (some (n+1)), mkConj a n (some (n+1)) (some n), mkConjBwd a n .T (some (n+1)) none]
  | true, false, _, some u =>
    [mkFwd a (some n) (some (n+2)), mkBwd a u (some (n+1)) (some n), mkConj a n (some (n+2)) (some n)]
  | false, true, none, _ =>
    [mkFwd a (some (n+1)) (some n), mkConj a n (some n) (some (n+2)), mkConjBwd a n .H none (some (n+1))]
  | false, true, some t, _ =>
    [mkFwd a (some (n+2)) (some n), mkBwd a t (some n) (some (n+2)), mkConj a n (some n) (some (n+1))]
  | false, false, none, none => [mkFwd a none none, mkConj a n none none]
  | false, false, none, some u =>
    [mkFwd a (some (n+3)) (some (n+1)), mkBwd a u (some (n+2)) (some n), mkConj a n (some (n+1)) (some (n+3)),
     mkConjBwd a n .H none (some (n+2))]
  | false, false, some t, none =>
    [mkFwd a (some (n+1)) (some (n+3)), mkBwd a t (some n) (some (n+2)), mkConj a n (some (n+3)) (some (n+1)),
     mkConjBwd a n .T (some (n+2)) none]
  | false, false, some t, some u =>
    [mkFwd a (some (n+1)) (some (n+2)), mkBwd a t (some n) (some (n+3)), mkBwd a u (some (n+3)) (some n),
     mkConj a n (some (n+2)) (some (n+1))]

def newObjs (a : Args K) (n : Nat) : List (Obj K) :=
  if a.dtype = .complex then newComplex a n else newReal a n

/-- simp set that computes the heap after a constructor call -/
macro "ctor_simp" : tactic => `(tactic| simp [LinearOperator, initWith, setTranspose, setAdjoint, inferReal,
  inferComplex, inferT, inferH, conjugateWith, conjArgs, getT, getH, setT, setH, codeAt, modify_app0, modify_app,
  get_app0, get_app, Nat.add_assoc, newReal, newComplex, mkFwd, mkBwd, mkConj, mkConjBwd, *])

theorem LinearOperator_real (nin nout : Nat) (mv : Code K) (mt ma : Option (Code K)) (sy he : Bool) (dt : DKind)
    (hd : dt ≠ .complex) (h : Heap K) :
    LinearOperator ⟨nin, nout, mv, mt, ma, sy, he, dt, none, none, none⟩ h =
      (h.length, h ++ newReal ⟨nin, nout, mv, mt, ma, sy, he, dt, none, none, none⟩ h.length) := by
  cases sy <;> cases he <;> cases mt <;> cases ma <;> ctor_simp

theorem LinearOperator_complex (nin nout : Nat) (mv : Code K) (mt ma : Option (Code K)) (sy he : Bool)
    (h : Heap K) :
    LinearOperator ⟨nin, nout, mv, mt, ma, sy, he, .complex, none, none, none⟩ h =
      (h.length, h ++ newComplex ⟨nin, nout, mv, mt, ma, sy, he, .complex, none, none, none⟩ h.length) := by
  cases sy <;> cases he <;> cases mt <;> cases ma <;> ctor_simp

/-! ## The nesting depth of constructor calls is at most three -/

theorem base_T (b b' : Ctor K) (a : Args K) (h : Heap K) (h1 : a.transposeOf.isSome) (h2 : a.matvecAdj = none) :
    initWith b a h = initWith b' a h := by
  obtain ⟨nin, nout, mv, mt, ma, sy, he, dt, tO, aO, cO⟩ := a
  cases tO <;> cases h2 <;> cases aO <;> simp_all [initWith, setTranspose, setAdjoint]

theorem base_H (b b' : Ctor K) (a : Args K) (h : Heap K) (h1 : a.adjointOf.isSome) (h2 : a.matvecTransp = none) :
    initWith b a h = initWith b' a h := by
  obtain ⟨nin, nout, mv, mt, ma, sy, he, dt, tO, aO, cO⟩ := a
  cases aO <;> cases h2 <;> cases tO <;> simp_all [initWith, setTranspose, setAdjoint]

theorem setTranspose_base (b b' : Ctor K) (s : Nat) (a : Args K) (h : Heap K) :
    setTranspose (initWith b) s a h = setTranspose (initWith b') s a h := by
  unfold setTranspose
  split
  · rfl
  · split
    · split
      · rw [base_T b b' _ h rfl rfl]
      · rfl
    · rfl

theorem setAdjoint_base (b b' : Ctor K) (s : Nat) (a : Args K) (h : Heap K) :
    setAdjoint (initWith b) s a h = setAdjoint (initWith b') s a h := by
  unfold setAdjoint
  split
  · rfl
  · split
    · split
      · rw [base_H b b' _ h rfl rfl]
      · rfl
    · rfl

theorem base_conj (b b' : Ctor K) (a : Args K) (h : Heap K)
    (h1 : ¬(a.transposeOf = none ∧ a.adjointOf = none ∧ a.conjugateOf = none)) :
    initWith (initWith b) a h = initWith (initWith b') a h := by
  simp only [initWith.eq_1 (initWith b), initWith.eq_1 (initWith b'), setTranspose_base b b', setAdjoint_base b b',
    h1, if_false]

/-- The innermost level in the definition of `LinearOperator` is never reached: whatever stands there, the
constructor returns the same operator and the same heap. -/
theorem LinearOperator_base_irrelevant (b : Ctor K) (a : Args K) (h : Heap K) :
    initWith (initWith (initWith b)) a h = LinearOperator a h := by
  have hc : ∀ s h, inferComplex (initWith (initWith b)) s h =
      inferComplex (initWith (initWith fun _ h => (0, h))) s h := by
    intro s h
    unfold inferComplex conjugateWith
    rw [base_conj b (fun _ h => (0, h))]
    simp [conjArgs]
  simp only [LinearOperator, initWith.eq_1 (initWith (initWith b)), hc,
    initWith.eq_1 (initWith (initWith fun _ h => (0, h))),
    setTranspose_base (initWith b) (initWith fun _ h => (0, h)),
    setAdjoint_base (initWith b) (initWith fun _ h => (0, h))]

/-- `LinearOperator` satisfies the recursive definition in the source. -/
theorem LinearOperator_fix (a : Args K) (h : Heap K) : LinearOperator a h = initWith LinearOperator a h := by
  rw [← LinearOperator_base_irrelevant (initWith fun _ h => (0, h)) a h]; rfl

/-! ## The constructor makes closed sets -/

theorem CodeTot.lift {h : Heap K} {S : Nat → Prop} {nin : Nat} {c : Code K} (hc : CodeTot h S h.length nin c)
    (news : Heap K) (k i : Nat) : CodeTot (h ++ news) (addNew S h.length k) (h.length + i) nin c :=
  CodeTot.ext (append_frame h news) (fun r hr => Or.inl hr) (by omega) hc

theorem addNew_iff {S : Nat → Prop} {n k i : Nat} (hi : i < k) : addNew S n k (n + i) := Or.inr ⟨by omega, by omega⟩
theorem addNew_zero {S : Nat → Prop} {n k : Nat} (hk : 0 < k) : addNew S n k n := Or.inr ⟨by omega, by omega⟩

macro "mem_new" : tactic => `(tactic| first | exact addNew_zero (by decide) | exact addNew_iff (by decide))

set_option hygiene false in
/-- close one case of `LinearOperator_closed` with `k` new objects in the closed set -/
macro "clz" k:term : tactic => `(tactic| (
  refine ⟨$k, by decide, closed_of_news hS _ _ fun i hi => ?_⟩
  interval_cases i <;> refine ⟨_, rfl, ⟨⟨_, rfl, by mem_new⟩, ⟨_, rfl, by mem_new⟩, ?_⟩⟩
  all_goals first
    | exact h1.lift _ _ _
    | exact (h2 _ rfl).lift _ _ _
    | exact (h3 _ rfl).lift _ _ _
    | exact ⟨_, by simp [resolve, mkFwd]; rfl, by omega, by mem_new⟩))

theorem LinearOperator_closed {h : Heap K} {S : Nat → Prop} (hS : Closed h S) {a : Args K} (ha : ArgsTot h S a) :
    ∃ k, 0 < k ∧ Closed (LinearOperator a h).2 (addNew S h.length k) := by
  obtain ⟨nin, nout, mv, mt, ma, sy, he, dt, tO, aO, cO⟩ := a
  obtain ⟨h1, h2, h3, h4, h5, h6, h7⟩ := ha
  simp only at h1 h2 h3 h5 h6 h7
  subst h5 h6 h7
  by_cases hd : dt = .complex
  · subst hd
    rw [LinearOperator_complex]
    cases sy <;> cases he <;> cases mt <;> cases ma <;> simp [TwoSided] at h4
    all_goals dsimp only [newComplex]
    all_goals first | clz 1 | clz 2 | clz 3 | clz 4
  · rw [LinearOperator_real _ _ _ _ _ _ _ _ hd]
    cases sy <;> cases he <;> cases mt <;> cases ma <;> simp [TwoSided, hd] at h4
    all_goals dsimp only [newReal]
    all_goals first | clz 1 | clz 2 | clz 3 | clz 4

end Verif.Linop
