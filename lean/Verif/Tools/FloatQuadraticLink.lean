import Verif.Tools.FloatQuadraticProps
import Verif.Solver.FloatNormal

/-! # C94 in double precision, for runs without underflow -/

namespace Verif.Tools
open Verif.Solver Verif.Solver.Scalar

theorem ok_bind {α β : Type} (a : α) (f : α → Except QErr β) : ((Except.ok a : Except QErr α) >>= f) = f a := rfl

/-- the same number, if the first is finite -/
def Same (a : FP normal64) (b : FP float64) : Prop := a.Finite → b = a.to64

section
variable {a b c : FP normal64} {a' b' : FP float64}

theorem Same.refl (a : FP normal64) : Same a a.to64 := fun _ => rfl

theorem Same.op2 {f : ℝ → ℝ → Option ℝ} (ha : Same a a') (hb : Same b b') : Same (FP.op2 f a b) (FP.op2 f a' b') := by
  intro h
  obtain ⟨h1, h2, -⟩ := FP.op2_spec h
  rw [ha h1, hb h2, FP.op2_to64 h]

theorem Same.mul (ha : Same a a') (hb : Same b b') : Same (a * b) (a' * b') := Same.op2 ha hb
theorem Same.add (ha : Same a a') (hb : Same b b') : Same (a + b) (a' + b') := Same.op2 ha hb
theorem Same.sub (ha : Same a a') (hb : Same b b') : Same (a - b) (a' - b') := Same.op2 ha hb
theorem Same.div (ha : Same a a') (hb : Same b b') : Same (a / b) (a' / b') := by
  classical
  exact Same.op2 (f := fun x y => if y = 0 then none else some (x / y)) ha hb

theorem Same.neg (ha : Same a a') : Same (-a) (-a') := by
  intro h
  rw [ha (FP.neg_spec h).1]
  rfl

theorem Same.abs (ha : Same a a') : Same (Scalar.abs a) (Scalar.abs a') := by
  intro h
  rw [ha (FP.abs_spec h).1]
  rfl

theorem Same.sqrt (ha : Same a a') : Same (sqrt a) (sqrt a') := by
  intro h
  rw [ha (FP.sqrt_spec h).1, FP.sqrt_to64 h]

theorem Same.const (x : ℝ) : Same ⟨some x⟩ ⟨some x⟩ := fun _ => rfl

theorem Same.ltF {v : Bool} (ha : Same a a') (hb : Same b b') (h : ltF a b = .ok v) : ltF a' b' = .ok v := by
  obtain ⟨h1, h2, -⟩ := ltF_ok h
  rw [ha h1, hb h2]
  exact h

theorem Same.isZeroF {v : Bool} (ha : Same a a') (h : isZeroF a = .ok v) : isZeroF a' = .ok v := by
  obtain ⟨h1, -⟩ := isZeroF_ok h
  rw [ha h1]
  exact h

theorem Same.divF (ha : Same a a') (hb : Same b b') (h : divF a b = .ok c) : ∃ c', divF a' b' = .ok c' ∧ Same c c' := by
  obtain ⟨v, h1, h2⟩ := bind_ok h
  refine ⟨a' / b', ?_, ?_⟩
  · unfold Tools.divF
    rw [hb.isZeroF h1]
    cases v
    · rfl
    · cases h2
  · obtain ⟨-, -, e⟩ := divF_ok h
    rw [e]
    exact ha.div hb

theorem Same.sqrtF (ha : Same a a') (h : sqrtF a = .ok c) : ∃ c', sqrtF a' = .ok c' ∧ Same c c' := by
  obtain ⟨v, h1, h2⟩ := bind_ok h
  refine ⟨Scalar.sqrt a', ?_, ?_⟩
  · unfold Tools.sqrtF
    rw [ha.ltF (Same.const 0) h1]
    cases v
    · rfl
    · cases h2
  · obtain ⟨-, -, e⟩ := sqrtF_ok h
    rw [e]
    exact ha.sqrt

theorem Same.copysignF {nz : Bool} (ha : Same a a') (hb : Same b b') (h : copysignF a b nz = .ok c) :
    ∃ c', copysignF a' b' nz = .ok c' ∧ Same c c' := by
  obtain ⟨v, h1, h2⟩ := bind_ok h
  obtain ⟨w, h3, h4⟩ := bind_ok h2
  have e : Tools.copysignF a' b' nz = if (v || (w && nz)) = true then .ok (-Scalar.abs a') else .ok (Scalar.abs a') := by
    unfold Tools.copysignF
    rw [hb.ltF (Same.const 0) h1, hb.isZeroF h3]
    rfl
  rw [e]
  split at h4
  · rename_i hc
    cases h4
    exact ⟨_, if_pos hc, ha.abs.neg⟩
  · rename_i hc
    cases h4
    exact ⟨_, if_neg hc, ha.abs⟩

end

theorem newtonF_same {a2 a1 a0 r c : FP normal64} {r' : FP float64} (hr : Same r r') (h : newtonF a2 a1 a0 r = .ok c) :
    ∃ c', newtonF a2.to64 a1.to64 a0.to64 r' = .ok c' ∧ Same c c' := by
  have s2 := Same.refl a2
  have s1 := Same.refl a1
  have s0 := Same.refl a0
  obtain ⟨v, h1, h2⟩ := bind_ok h
  have h1' := ((((Same.const 2).mul s2).mul hr).add s1).isZeroF h1
  unfold newtonF
  simp only [h1']
  cases v
  · obtain ⟨t, h3, h4⟩ := bind_ok h2
    cases h4
    obtain ⟨t', h5, h6⟩ := Same.divF ((((s2.mul hr).add s1).mul hr).add s0) ((((Same.const 2).mul s2).mul hr).add s1) h3
    refine ⟨r' - t', ?_, hr.sub h6⟩
    show (do
      let t ← divF ((a2.to64 * r' + a1.to64) * r' + a0.to64) ((⟨some 2⟩ : FP float64) * a2.to64 * r' + a1.to64)
      Except.ok (r' - t)) = _
    rw [h5]
    rfl
  · cases h2
    exact ⟨r', rfl, hr⟩

theorem newtonsF_same {a2 a1 a0 : FP normal64} : ∀ (k : ℕ) {r c : FP normal64} {r' : FP float64}, Same r r' → newtonsF a2 a1 a0 k r = .ok c →
    ∃ c', newtonsF a2.to64 a1.to64 a0.to64 k r' = .ok c' ∧ Same c c'
  | 0, r, c, r', hr, h => by
    cases h
    exact ⟨r', rfl, hr⟩
  | k + 1, r, c, r', hr, h => by
    obtain ⟨t, h1, h2⟩ := bind_ok h
    obtain ⟨t', h3, h4⟩ := newtonF_same hr h1
    obtain ⟨c', h5, h6⟩ := newtonsF_same k h4 h2
    refine ⟨c', ?_, h6⟩
    simp only [newtonsF, h3]
    exact h5

theorem refineF_same {a2 a1 a0 : FP normal64} (k : ℕ) : ∀ {l m : List (FP normal64)} {l' : List (FP float64)}, List.Forall₂ Same l l' →
    refineF a2 a1 a0 k l = .ok m → ∃ m', refineF a2.to64 a1.to64 a0.to64 k l' = .ok m' ∧ List.Forall₂ Same m m' := by
  intro l m l' hl
  induction hl generalizing m with
  | nil =>
    intro h
    cases h
    exact ⟨[], rfl, .nil⟩
  | cons hr _ ih =>
    intro h
    obtain ⟨r, h1, h2⟩ := bind_ok h
    obtain ⟨rs, h3, h4⟩ := bind_ok h2
    cases h4
    obtain ⟨r', h5, h6⟩ := newtonsF_same k hr h1
    obtain ⟨rs', h7, h8⟩ := ih h3
    refine ⟨r' :: rs', ?_, .cons h6 h8⟩
    simp only [refineF, h5, h7]
    rfl

/-- the same lists, with the same way of leaving the first part -/
def SameStart : List (FP normal64) ⊕ List (FP normal64) → List (FP float64) ⊕ List (FP float64) → Prop
  | .inl l, .inl l' => List.Forall₂ Same l l'
  | .inr l, .inr l' => List.Forall₂ Same l l'
  | _, _ => False

theorem startRootsF_same {a2 a1 a0 tol : FP normal64} {nz : Bool} {st : List (FP normal64) ⊕ List (FP normal64)}
    (h : startRootsF a2 a1 a0 tol nz = .ok st) : ∃ st', startRootsF a2.to64 a1.to64 a0.to64 tol.to64 nz = .ok st' ∧ SameStart st st' := by
  have s2 := Same.refl a2
  have s1 := Same.refl a1
  have s0 := Same.refl a0
  have st' := Same.refl tol
  obtain ⟨z2, h2, h⟩ := bind_ok h
  unfold startRootsF
  simp only [s2.isZeroF h2, ok_bind]
  cases z2
  · simp only [Bool.false_eq_true, if_false] at h ⊢
    obtain ⟨v, hv, h⟩ := bind_ok h
    have hv' := ((st'.mul s1).mul s1).ltF ((s0.mul s2).abs) hv
    simp only [hv', ok_bind]
    cases v
    · simp only [Bool.false_eq_true, if_false] at h ⊢
      obtain ⟨r1, hr1, h⟩ := bind_ok h
      cases h
      obtain ⟨r1', hr1', g1⟩ := Same.divF s1.neg s2 hr1
      refine ⟨.inr [r1', ⟨some 0⟩], ?_, .cons g1 (.cons (Same.const 0) .nil)⟩
      rw [hr1', ok_bind]
    · simp only [if_true] at h ⊢
      obtain ⟨w, hw, h⟩ := bind_ok h
      have sρ := (s1.mul s1).sub (((Same.const 4).mul s2).mul s0)
      have hw' := sρ.ltF (Same.const 0) hw
      simp only [hw', ok_bind]
      cases w
      · simp only [Bool.false_eq_true, if_false] at h ⊢
        obtain ⟨s, hs, h⟩ := bind_ok h
        obtain ⟨c, hc, h⟩ := bind_ok h
        obtain ⟨r1, hr1, h⟩ := bind_ok h
        obtain ⟨r2, hr2, h⟩ := bind_ok h
        cases h
        obtain ⟨s', hs', gs⟩ := sρ.sqrtF hs
        obtain ⟨c', hc', gc⟩ := gs.copysignF s1 hc
        have sd := (Same.const (-(1 / 2))).mul (s1.add gc)
        obtain ⟨r1', hr1', g1⟩ := sd.divF s2 hr1
        obtain ⟨r2', hr2', g2⟩ := s0.divF sd hr2
        refine ⟨.inr [r1', r2'], ?_, .cons g1 (.cons g2 .nil)⟩
        simp only [hs', hc', hr1', hr2', ok_bind]
      · cases h
        exact ⟨.inl [], rfl, .nil⟩
  · simp only [if_true] at h ⊢
    obtain ⟨z1, h1, h⟩ := bind_ok h
    simp only [s1.isZeroF h1, ok_bind]
    cases z1
    · simp only [Bool.false_eq_true, if_false] at h ⊢
      obtain ⟨r1, hr1, h⟩ := bind_ok h
      cases h
      obtain ⟨r1', hr1', g1⟩ := s0.neg.divF s1 hr1
      refine ⟨.inr [r1'], ?_, .cons g1 .nil⟩
      rw [hr1', ok_bind]
    · simp only [if_true] at h ⊢
      obtain ⟨z0, h0, h⟩ := bind_ok h
      simp only [s0.isZeroF h0, ok_bind]
      cases z0
      · cases h
        exact ⟨.inl [], rfl, .nil⟩
      · cases h
        exact ⟨.inl [⟨some 0⟩], rfl, .cons (Same.const 0) .nil⟩

theorem all_same : ∀ {l : List (FP normal64)} {l' : List (FP float64)}, List.Forall₂ Same l l' → (∀ r ∈ l, r.Finite) → l' = l.map FP.to64
  | _, _, .nil, _ => rfl
  | r :: l, _, .cons h1 h2, h => by
    rw [h1 (h r (by simp)), all_same h2 fun x hx => h x (by simp [hx])]
    rfl

/-- **C94, the arithmetic without underflow is `float64`.**  A run of `roots_quadratic` in double precision, with any number of Newton steps, that neither
underflows nor overflows returns the numbers computed without underflow. -/
theorem C94_normal (q2 q1 q0 tol : FP normal64) (nitref : ℕ) (negZero : Bool) (l : List (FP normal64)) (hl : ∀ r ∈ l, r.Finite)
    (h : rootsQuadraticF q2 q1 q0 tol nitref negZero = .ok l) :
    rootsQuadraticF q2.to64 q1.to64 q0.to64 tol.to64 nitref negZero = .ok (l.map FP.to64) := by
  obtain ⟨st, h1, h2⟩ := bind_ok h
  obtain ⟨st', h3, h4⟩ := startRootsF_same h1
  unfold rootsQuadraticF
  rw [h3]
  cases st with
  | inl k =>
    cases st' with
    | inl k' =>
      cases h2
      rw [← all_same h4 hl]
      rfl
    | inr k' => exact h4.elim
  | inr k =>
    cases st' with
    | inl k' => exact h4.elim
    | inr k' =>
      obtain ⟨m', h5, h6⟩ := refineF_same nitref h4 h2
      rw [← all_same h6 hl]
      exact h5

/-- **C94 in double precision, without Newton steps.**  If no step of `roots_quadratic(q2, q1, q0, tol, 0)` underflows or overflows, then every
number `r` that it returns satisfies `|q(r)| ≤ (tol + 8u) (|q2| r² + |q1| |r| + |q0|)` with `u = 2^-53`, or it is a zero that stands for a small root.  If
it returns nothing then the equation has no solution, or its discriminant is at most `4u (q1² + 4 |q0 q2|)`. -/
theorem C94_float64_partial (q2 q1 q0 tol : FP normal64) (htol : 0 ≤ tol.num) (negZero : Bool) (l : List (FP normal64)) (hl : ∀ r ∈ l, r.Finite)
    (h : rootsQuadraticF q2 q1 q0 tol 0 negZero = .ok l) :
    ∃ l64, rootsQuadraticF q2.to64 q1.to64 q0.to64 tol.to64 0 negZero = .ok l64 ∧
      (∀ r ∈ l64, r.Finite ∧ (|quadF q2.to64 q1.to64 q0.to64 r.num| ≤ (tol.num + 8 * 2⁻¹ ^ 53) * quadAbsF q2.to64 q1.to64 q0.to64 r.num ∨
        r.num = 0 ∧ 0 < tol.num ∧ |q0.num * q2.num| ≤ 1.05 * (tol.num * q1.num ^ 2))) ∧
      (l64 = [] → (∀ t, quadF q2.to64 q1.to64 q0.to64 t ≠ 0) ∨
        q1.num ^ 2 - 4 * q0.num * q2.num < 4 * 2⁻¹ ^ 53 * (q1.num ^ 2 + 4 * |q0.num * q2.num|)) := by
  refine ⟨_, C94_normal q2 q1 q0 tol 0 negZero l hl h, ?_⟩
  have hu : normal64.u ≤ 1 / 100 := by
    show (2⁻¹ : ℝ) ^ 53 ≤ _
    norm_num
  obtain ⟨h1, h2⟩ := C94_roots_partial rfl hu q2 q1 q0 tol htol negZero l h
  constructor
  · intro r hr
    obtain ⟨r0, hr0, rfl⟩ := List.mem_map.1 hr
    exact ⟨hl r0 hr0, h1 r0 hr0 (hl r0 hr0)⟩
  · intro he
    rcases h2 (List.map_eq_nil_iff.1 he) with ⟨e2, e1, e0⟩ | ⟨-, hd⟩
    · left
      intro t
      have e2' : q2.to64.num = 0 := e2
      have e1' : q1.to64.num = 0 := e1
      have e0' : q0.to64.num ≠ 0 := e0
      rw [quadF, e2', e1']
      simpa using e0'
    · exact .inr hd

/-! ### A run without underflow -/

section
/-- an integer -/
noncomputable def int64 (m : ℤ) : FP normal64 := ⟨some (m : ℝ)⟩

theorem int64_mul (a b : ℤ) (h : |a * b| < 2 ^ 53) : int64 a * int64 b = int64 (a * b) := by
  show FP.op2 _ _ _ = _
  simp only [FP.op2, int64, Option.bind_some]
  rw [← Int.cast_mul, normal64_int _ h]

theorem int64_add (a b : ℤ) (h : |a + b| < 2 ^ 53) : int64 a + int64 b = int64 (a + b) := by
  show FP.op2 _ _ _ = _
  simp only [FP.op2, int64, Option.bind_some]
  rw [← Int.cast_add, normal64_int _ h]

theorem int64_sub (a b : ℤ) (h : |a - b| < 2 ^ 53) : int64 a - int64 b = int64 (a - b) := by
  show FP.op2 _ _ _ = _
  simp only [FP.op2, int64, Option.bind_some]
  rw [← Int.cast_sub, normal64_int _ h]

theorem int64_div (a b : ℤ) (hb : b ≠ 0) (h : |a| < 2 ^ 53) : divF (int64 (a * b)) (int64 b) = .ok (int64 a) := by
  have h0 : (b : ℝ) ≠ 0 := by exact_mod_cast hb
  have h1 : isZeroF (int64 b) = .ok false := by simp only [isZeroF, int64, decide_eq_false h0]
  have h2 : int64 (a * b) / int64 b = int64 a := by
    show FP.op2 _ _ _ = _
    simp only [FP.op2, int64, Option.bind_some, if_neg h0]
    rw [Int.cast_mul, mul_div_cancel_right₀ _ h0, normal64_int _ h]
  rw [divF, h1, h2]
  rfl

/-- `x² - 3x + 2` -/
theorem start_without_underflow : startRootsF (int64 1) (int64 (-3)) (int64 2) (int64 0) false = .ok (.inr [int64 2, int64 1]) := by
  have z1 : isZeroF (int64 1) = .ok false := by simp [isZeroF, int64]
  have z3 : isZeroF (int64 (-3)) = .ok false := by simp [isZeroF, int64]
  have e1 : int64 0 * int64 (-3) = int64 0 := int64_mul _ _ (by norm_num)
  have e2 : int64 2 * int64 1 = int64 2 := int64_mul _ _ (by norm_num)
  have e3 : int64 (-3) * int64 (-3) = int64 9 := int64_mul _ _ (by norm_num)
  have e4 : (⟨some 4⟩ : FP normal64) * int64 1 = int64 4 := by
    rw [show (⟨some 4⟩ : FP normal64) = int64 4 by simp [int64]]
    exact int64_mul _ _ (by norm_num)
  have e5 : int64 4 * int64 2 = int64 8 := int64_mul _ _ (by norm_num)
  have e6 : int64 9 - int64 8 = int64 1 := int64_sub _ _ (by norm_num)
  have e7 : Scalar.abs (int64 2) = int64 2 := by
    show (⟨_⟩ : FP normal64) = _
    simp [int64]
  have l1 : ltF (int64 0) (int64 2) = .ok true := by simp [ltF, int64]
  have l2 : ltF (int64 1) ⟨some 0⟩ = .ok false := by
    simp only [ltF, int64]
    norm_num
  have l3 : ltF (int64 (-3)) ⟨some 0⟩ = .ok true := by
    simp only [ltF, int64]
    norm_num
  have e8 : sqrt (int64 1) = int64 1 := by
    show (⟨_⟩ : FP normal64) = _
    have := normal64_int 1 (by norm_num)
    rw [Int.cast_one] at this
    simp only [int64, Option.bind_some, Int.cast_one, Real.sqrt_one, this]
    norm_num
  have e9 : sqrtF (int64 1) = .ok (int64 1) := by
    rw [sqrtF, l2, e8]
    rfl
  have e10 : copysignF (int64 1) (int64 (-3)) false = .ok (int64 (-1)) := by
    have : -Scalar.abs (int64 1) = int64 (-1) := by
      have h : Scalar.abs (int64 1) = int64 1 := by
        show (⟨_⟩ : FP normal64) = _
        simp [int64]
      rw [h]
      show (⟨_⟩ : FP normal64) = _
      simp [int64]
    rw [copysignF, l3, z3, this]
    rfl
  have e11 : int64 (-3) + int64 (-1) = int64 (-4) := int64_add _ _ (by norm_num)
  have e12 : (⟨some (-(1 / 2))⟩ : FP normal64) * int64 (-4) = int64 2 := by
    show FP.op2 _ _ _ = _
    have := normal64_int 2 (by norm_num)
    simp only [FP.op2, int64, Option.bind_some]
    rw [show (-(1 / 2) : ℝ) * ((-4 : ℤ) : ℝ) = ((2 : ℤ) : ℝ) by norm_num, this]
  have e13 : divF (int64 2) (int64 1) = .ok (int64 2) := int64_div 2 1 (by norm_num) (by norm_num)
  have e14 : divF (int64 2) (int64 2) = .ok (int64 1) := int64_div 1 2 (by norm_num) (by norm_num)
  unfold startRootsF
  simp only [z1, ok_bind, Bool.false_eq_true, if_false, if_true, e1, e2, e3, e4, e5, e6, e7, l1, l2, e9, e10, e11, e12, e13, e14]

theorem run_without_underflow : rootsQuadraticF (int64 1) (int64 (-3)) (int64 2) (int64 0) 0 false = .ok [int64 2, int64 1] := by
  unfold rootsQuadraticF
  simp only [start_without_underflow, ok_bind]
  rfl

/-- the hypotheses of `C94_float64_partial` can be met -/
example : ∃ (q2 q1 q0 tol : FP normal64) (l : List (FP normal64)), 0 ≤ tol.num ∧ (∀ r ∈ l, r.Finite) ∧ l.length = 2 ∧
    rootsQuadraticF q2 q1 q0 tol 0 false = .ok l :=
  ⟨int64 1, int64 (-3), int64 2, int64 0, [int64 2, int64 1], by simp [int64, FP.num], by
    intro r hr
    simp only [List.mem_cons, List.not_mem_nil, or_false] at hr
    rcases hr with rfl | rfl <;> rfl, rfl, run_without_underflow⟩

end

end Verif.Tools
