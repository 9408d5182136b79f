import Verif.Tools.FloatQuadraticLemmas
import Verif.Solver.FloatFormat

/-! # C94: the numbers that `roots_quadratic` computes in floating-point arithmetic -/

namespace Verif.Tools
open Verif.Solver Verif.Solver.Scalar

variable {F : FloatFormat}

theorem finite_of_val {a : FP F} {x : ℝ} (h : a.val = some x) : a.Finite ∧ a.num = x := by
  constructor
  · rw [FP.Finite, h]; rfl
  · rw [FP.num, h]; rfl

theorem ltF_ok {a b : FP F} {v : Bool} (h : ltF a b = .ok v) : a.Finite ∧ b.Finite ∧ (v = true ↔ a.num < b.num) := by
  unfold ltF at h
  split at h
  · rename_i x y hx hy
    obtain ⟨h1, h2⟩ := finite_of_val hx
    obtain ⟨h3, h4⟩ := finite_of_val hy
    cases h
    refine ⟨h1, h3, ?_⟩
    rw [h2, h4, decide_eq_true_iff]
  · cases h

theorem isZeroF_ok {a : FP F} {v : Bool} (h : isZeroF a = .ok v) : a.Finite ∧ (v = true ↔ a.num = 0) := by
  unfold isZeroF at h
  split at h
  · rename_i x hx
    obtain ⟨h1, h2⟩ := finite_of_val hx
    cases h
    refine ⟨h1, ?_⟩
    rw [h2, decide_eq_true_iff]
  · cases h

theorem bind_ok {α β : Type} {x : Except QErr α} {f : α → Except QErr β} {y : β} (h : (x >>= f) = .ok y) : ∃ v, x = .ok v ∧ f v = .ok y := by
  cases x with
  | error e => cases h
  | ok v => exact ⟨v, rfl, h⟩

theorem divF_ok {a b c : FP F} (h : divF a b = .ok c) : b.Finite ∧ b.num ≠ 0 ∧ c = a / b := by
  obtain ⟨v, h1, h2⟩ := bind_ok h
  obtain ⟨h3, h4⟩ := isZeroF_ok h1
  cases v
  · cases h2
    exact ⟨h3, fun h => by simpa using h4.2 h, rfl⟩
  · cases h2

theorem sqrtF_ok {a c : FP F} (h : sqrtF a = .ok c) : a.Finite ∧ 0 ≤ a.num ∧ c = sqrt a := by
  obtain ⟨v, h1, h2⟩ := bind_ok h
  obtain ⟨h3, -, h4⟩ := ltF_ok h1
  cases v
  · cases h2
    exact ⟨h3, not_lt.1 fun h => by simpa using h4.2 h, rfl⟩
  · cases h2

theorem copysignF_ok {x y c : FP F} {nz : Bool} (h : copysignF x y nz = .ok c) (hc : c.Finite) :
    x.Finite ∧ y.Finite ∧ |c.num| = |x.num| ∧ 0 ≤ y.num * c.num := by
  obtain ⟨v, h1, h2⟩ := bind_ok h
  obtain ⟨w, h3, h4⟩ := bind_ok h2
  obtain ⟨h5, -, h6⟩ := ltF_ok h1
  obtain ⟨-, h7⟩ := isZeroF_ok h3
  have hz : (⟨some 0⟩ : FP F).num = 0 := rfl
  rw [hz] at h6
  split at h4
  · rename_i hcond
    cases h4
    obtain ⟨g1, g2⟩ := FP.neg_spec hc
    obtain ⟨g3, g4⟩ := FP.abs_spec g1
    rw [g2, g4]
    refine ⟨g3, h5, by rw [abs_neg, abs_abs], ?_⟩
    have hle : y.num ≤ 0 := by
      rw [Bool.or_eq_true, Bool.and_eq_true] at hcond
      rcases hcond with hv | ⟨hw, -⟩
      · exact (h6.1 hv).le
      · exact (h7.1 hw).le
    nlinarith [abs_nonneg x.num]
  · rename_i hcond
    cases h4
    obtain ⟨g3, g4⟩ := FP.abs_spec hc
    rw [g4]
    refine ⟨g3, h5, abs_abs _, ?_⟩
    have hle : 0 ≤ y.num := by
      rw [← not_lt]
      intro hlt
      exact hcond (by rw [h6.2 hlt]; rfl)
    positivity

theorem div_spec {a b : FP F} (h : (a / b).Finite) : a.Finite ∧ b.Finite ∧ b.num ≠ 0 ∧
    |(a / b).num - a.num / b.num| ≤ F.u * min |a.num / b.num| |(a / b).num| + F.tiny := by
  classical
  obtain ⟨h1, h2, z, hz, h3⟩ := FP.op2_spec (f := fun x y => if y = 0 then none else some (x / y)) h
  split at hz
  · cases hz
  · rename_i h0
    cases hz
    exact ⟨h1, h2, h0, h3⟩

/-- What the starting values satisfy when there is no underflow. -/
def Good (κ : ℝ) (a2 a1 a0 r : FP F) : Prop := |quadF a2 a1 a0 r.num| ≤ κ * quadAbsF a2 a1 a0 r.num

theorem quadAbs_nonneg (a2 a1 a0 : FP F) (r : ℝ) : 0 ≤ quadAbsF a2 a1 a0 r := by
  unfold quadAbsF; positivity

theorem rel {z y : ℝ} (hT : F.tiny = 0) (h : |y - z| ≤ F.u * min |z| |y| + F.tiny) : |y - z| ≤ F.u * |z| ∧ |y - z| ≤ F.u * |y| := by
  rw [hT, add_zero] at h
  exact ⟨h.trans (mul_le_mul_of_nonneg_left (min_le_left _ _) F.u_nonneg), h.trans (mul_le_mul_of_nonneg_left (min_le_right _ _) F.u_nonneg)⟩

/-- the roots from the formula -/
theorem formula_good (hT : F.tiny = 0) (hu : F.u ≤ 1 / 100) {a2 a1 a0 s c r1 r2 : FP F} {nz : Bool}
    (hs : sqrtF (a1 * a1 - (⟨some 4⟩ : FP F) * a2 * a0) = .ok s) (hc : copysignF s a1 nz = .ok c)
    (hr1 : divF ((⟨some (-(1 / 2))⟩ : FP F) * (a1 + c)) a2 = .ok r1) (hr2 : divF a0 ((⟨some (-(1 / 2))⟩ : FP F) * (a1 + c)) = .ok r2) :
    (r1.Finite → Good (8 * F.u) a2 a1 a0 r1) ∧ (r2.Finite → Good (8 * F.u) a2 a1 a0 r2) := by
  obtain ⟨fd, hd0, er2⟩ := divF_ok hr2
  obtain ⟨f2, h2, er1⟩ := divF_ok hr1
  obtain ⟨-, ft, ed⟩ := FP.mul_spec fd
  obtain ⟨-, fc, et⟩ := FP.add_spec ft
  obtain ⟨fs, -, hcs, hsgn⟩ := copysignF_ok hc fc
  obtain ⟨fρ, hρ0, es⟩ := sqrtF_ok hs
  subst es
  obtain ⟨-, -, eρ⟩ := FP.sub_spec fρ
  obtain ⟨fp, fq, -⟩ := FP.sub_spec fρ
  obtain ⟨-, -, ep⟩ := FP.mul_spec fp
  obtain ⟨fq4, -, eq⟩ := FP.mul_spec fq
  obtain ⟨-, -, eq4⟩ := FP.mul_spec fq4
  obtain ⟨-, -, es⟩ := FP.sqrt_spec fs
  have e1 := Quadratic.disc_error F.u_nonneg hu (rel hT ep).1 (rel hT eq4).1 (rel hT eq).1 (rel hT eρ).1
  have es' := (rel hT es).1
  rw [abs_of_nonneg (Real.sqrt_nonneg _)] at es'
  have e2 := Quadratic.d_error F.u_nonneg hu e1 hρ0 es' hcs hsgn (rel hT et).1 (rel hT ed).1
  have hκ : 0 ≤ 5.2 * F.u := by have := F.u_nonneg; positivity
  have hκ8 : 1.0201 * (5.2 * F.u) + 2.01 * F.u ≤ 8 * F.u := by have := F.u_nonneg; linarith
  constructor
  · intro hf
    subst er1
    obtain ⟨-, -, -, e3⟩ := div_spec hf
    have e4 := Quadratic.round_error F.u_nonneg hu hκ (Quadratic.first_root h2 e2) (rel hT e3).2
    exact e4.trans (mul_le_mul_of_nonneg_right hκ8 (quadAbs_nonneg _ _ _ _))
  · intro hf
    subst er2
    obtain ⟨-, -, -, e3⟩ := div_spec hf
    have e4 := Quadratic.round_error F.u_nonneg hu hκ (Quadratic.second_root hd0 e2) (rel hT e3).2
    exact e4.trans (mul_le_mul_of_nonneg_right hκ8 (quadAbs_nonneg _ _ _ _))

/-- the product of the coefficients is small if the test says so -/
theorem small_product (hT : F.tiny = 0) (hu : F.u ≤ 1 / 100) {a2 a1 a0 tol : FP F} (htol : 0 ≤ tol.num) (h : ltF (tol * a1 * a1) (Scalar.abs (a0 * a2)) = .ok false) :
    |a0.num * a2.num| ≤ 1.05 * (tol.num * a1.num ^ 2) := by
  obtain ⟨f1, f2, h3⟩ := ltF_ok h
  have h3 : |(a0 * a2).num| ≤ (tol * a1 * a1).num := by
    rw [← (FP.abs_spec f2).2, ← not_lt]
    intro hlt
    simpa using h3.2 hlt
  obtain ⟨f3, -⟩ := FP.abs_spec f2
  obtain ⟨-, -, e1⟩ := FP.mul_spec f3
  obtain ⟨f4, -, e2⟩ := FP.mul_spec f1
  obtain ⟨-, -, e3⟩ := FP.mul_spec f4
  have b1 := (rel hT e1).2
  have b2 := (rel hT e2).1
  have b3 := (rel hT e3).1
  have u0 := F.u_nonneg
  have c1 : |a0.num * a2.num| ≤ (1 + F.u) * |(a0 * a2).num| := by
    have := abs_sub_abs_le_abs_sub (a0.num * a2.num) (a0 * a2).num
    rw [abs_sub_comm] at this
    linarith
  have c2 : |(tol * a1 * a1).num| ≤ (1 + F.u) * |(tol * a1).num * a1.num| := by
    have := abs_sub_abs_le_abs_sub (tol * a1 * a1).num ((tol * a1).num * a1.num)
    linarith
  have c3 : |(tol * a1).num| ≤ (1 + F.u) * |tol.num * a1.num| := by
    have := abs_sub_abs_le_abs_sub (tol * a1).num (tol.num * a1.num)
    linarith
  have c4 : |(tol * a1).num * a1.num| ≤ (1 + F.u) * (tol.num * a1.num ^ 2) := by
    rw [abs_mul]
    refine (mul_le_mul_of_nonneg_right c3 (abs_nonneg _)).trans (le_of_eq ?_)
    rw [abs_mul, abs_of_nonneg htol, ← sq_abs a1.num]; ring
  have c5 : (tol * a1 * a1).num ≤ |(tol * a1 * a1).num| := le_abs_self _
  have hN : 0 ≤ tol.num * a1.num ^ 2 := by positivity
  calc |a0.num * a2.num| ≤ (1 + F.u) * ((1 + F.u) * ((1 + F.u) * (tol.num * a1.num ^ 2))) := by
        refine c1.trans (mul_le_mul_of_nonneg_left ?_ (by linarith))
        refine (h3.trans (c5.trans c2)).trans (mul_le_mul_of_nonneg_left c4 (by linarith))
    _ = (1 + F.u) ^ 3 * (tol.num * a1.num ^ 2) := by ring
    _ ≤ 1.05 * (tol.num * a1.num ^ 2) := by
        refine mul_le_mul_of_nonneg_right ?_ hN
        calc (1 + F.u) ^ 3 ≤ (1 + 1 / 100) ^ 3 := pow_le_pow_left₀ (by linarith) (by linarith) 3
          _ ≤ _ := by norm_num

/-- the large root of an ill-conditioned quadratic -/
theorem large_good (hT : F.tiny = 0) (hu : F.u ≤ 1 / 100) {a2 a1 a0 tol r : FP F} (htol : 0 ≤ tol.num)
    (h : |a0.num * a2.num| ≤ 1.05 * (tol.num * a1.num ^ 2)) (hr : divF (-a1) a2 = .ok r) (hf : r.Finite) : Good (tol.num + 8 * F.u) a2 a1 a0 r := by
  obtain ⟨-, h2, er⟩ := divF_ok hr
  subst er
  obtain ⟨f1, -, -, e1⟩ := div_spec hf
  have hn := (FP.neg_spec f1).2
  rw [hn] at e1
  have hp : 0 < |a2.num| := abs_pos.2 h2
  have hx : |a2.num * (-a1.num / a2.num) ^ 2 + a1.num * (-a1.num / a2.num) + a0.num| ≤
      0.525 * tol.num * (|a2.num| * (-a1.num / a2.num) ^ 2 + |a1.num| * |-a1.num / a2.num| + |a0.num|) := by
    have e2 : a2.num * (-a1.num / a2.num) ^ 2 + a1.num * (-a1.num / a2.num) + a0.num = a0.num := by field_simp; ring
    have e3 : |a2.num| * (-a1.num / a2.num) ^ 2 + |a1.num| * |-a1.num / a2.num| = 2 * (a1.num ^ 2 / |a2.num|) := by
      rw [← sq_abs (-a1.num / a2.num), abs_div, abs_neg, ← sq_abs a1.num]; field_simp; ring
    rw [e2, e3]
    have e4 : |a0.num| ≤ 1.05 * tol.num * (a1.num ^ 2 / |a2.num|) := by
      rw [← mul_div_assoc, le_div_iff₀ hp, ← abs_mul]
      linarith
    have e5 : 0 ≤ tol.num * |a0.num| := by positivity
    linarith
  have e4 := Quadratic.round_error F.u_nonneg hu (by positivity : 0 ≤ 0.525 * tol.num) hx (rel hT e1).2
  refine e4.trans (mul_le_mul_of_nonneg_right ?_ (quadAbs_nonneg _ _ _ _))
  have := F.u_nonneg
  linarith

/-- **C94, without Newton steps, in an arithmetic without underflow.**  Every number `r` that `roots_quadratic(q2, q1, q0, tol, 0)` returns solves the
equation up to rounding and up to the tolerance: `|q(r)|` is at most `tol + 8u` times the sum of the absolute values of the three terms.  The exception is
a returned zero that stands for a small root, and that happens only if `|q0 q2|` is at most 1.05 `tol q1²`; with `tol = 0` there is no exception.
If nothing is returned then the equation is `0 = q0` with `q0 ≠ 0`, or its discriminant is negative up to rounding. -/
theorem C94_roots_partial (hT : F.tiny = 0) (hu : F.u ≤ 1 / 100) (q2 q1 q0 tol : FP F) (htol : 0 ≤ tol.num) (negZero : Bool) (l : List (FP F))
    (h : rootsQuadraticF q2 q1 q0 tol 0 negZero = .ok l) :
    (∀ r ∈ l, r.Finite → |quadF q2 q1 q0 r.num| ≤ (tol.num + 8 * F.u) * quadAbsF q2 q1 q0 r.num ∨
      r.num = 0 ∧ 0 < tol.num ∧ |q0.num * q2.num| ≤ 1.05 * (tol.num * q1.num ^ 2)) ∧
    (l = [] → q2.num = 0 ∧ q1.num = 0 ∧ q0.num ≠ 0 ∨
      q2.num ≠ 0 ∧ q1.num ^ 2 - 4 * q0.num * q2.num < 4 * F.u * (q1.num ^ 2 + 4 * |q0.num * q2.num|)) := by
  have u0 := F.u_nonneg
  have href : ∀ l : List (FP F), refineF q2 q1 q0 0 l = .ok l := by
    intro l
    induction l with
    | nil => rfl
    | cons r rs ih => simp only [refineF, newtonsF, ih]; rfl
  have hweak : ∀ r : FP F, Good (8 * F.u) q2 q1 q0 r → |quadF q2 q1 q0 r.num| ≤ (tol.num + 8 * F.u) * quadAbsF q2 q1 q0 r.num := fun r hg =>
    hg.trans (mul_le_mul_of_nonneg_right (by linarith) (quadAbs_nonneg _ _ _ _))
  obtain ⟨st, hst, h⟩ := bind_ok h
  have hl : st = .inl l ∨ st = .inr l := by
    cases st with
    | inl l' => left; cases h; rfl
    | inr l' => right; simp only [href] at h; cases h; rfl
  clear h
  obtain ⟨z2, hz2, hst⟩ := bind_ok hst
  obtain ⟨f2, hz2⟩ := isZeroF_ok hz2
  cases z2
  · have h2 : q2.num ≠ 0 := fun h => by simpa using hz2.2 h
    simp only [Bool.false_eq_true, if_false] at hst
    obtain ⟨v, hv, hst⟩ := bind_ok hst
    cases v
    · -- ill-conditioned
      simp only [Bool.false_eq_true, if_false] at hst
      obtain ⟨r1, hr1, hst⟩ := bind_ok hst
      have hl : l = [r1, ⟨some 0⟩] := by
        cases hst
        rcases hl with hl | hl
        · cases hl
        · exact (Sum.inr.inj hl).symm
      subst hl
      have hs := small_product hT hu htol hv
      refine ⟨?_, by simp⟩
      intro r hr hf
      simp only [List.mem_cons, List.not_mem_nil, or_false] at hr
      rcases hr with rfl | rfl
      · exact .inl (large_good hT hu htol hs hr1 hf)
      · rcases htol.eq_or_lt with ht | ht
        · left
          rw [← ht, zero_mul, mul_zero] at hs
          have h0 : q0.num = 0 := by
            have := abs_eq_zero.1 (le_antisymm hs (abs_nonneg _))
            exact (mul_eq_zero.1 this).resolve_right h2
          have : (⟨some 0⟩ : FP F).num = 0 := rfl
          rw [quadF, quadAbsF, this, h0]
          simp
        · exact .inr ⟨rfl, ht, hs⟩
    · simp only [if_true] at hst
      obtain ⟨w, hw, hst⟩ := bind_ok hst
      obtain ⟨fρ, -, hw⟩ := ltF_ok hw
      cases w
      · simp only [Bool.false_eq_true, if_false] at hst
        obtain ⟨s, hs, hst⟩ := bind_ok hst
        obtain ⟨c, hc, hst⟩ := bind_ok hst
        obtain ⟨r1, hr1, hst⟩ := bind_ok hst
        obtain ⟨r2, hr2, hst⟩ := bind_ok hst
        have hl : l = [r1, r2] := by
          cases hst
          rcases hl with hl | hl
          · cases hl
          · exact (Sum.inr.inj hl).symm
        subst hl
        obtain ⟨g1, g2⟩ := formula_good hT hu hs hc hr1 hr2
        refine ⟨?_, by simp⟩
        intro r hr hf
        simp only [List.mem_cons, List.not_mem_nil, or_false] at hr
        rcases hr with rfl | rfl
        · exact .inl (hweak _ (g1 hf))
        · exact .inl (hweak _ (g2 hf))
      · have hl : l = [] := by
          cases hst
          rcases hl with hl | hl
          · exact (Sum.inl.inj hl).symm
          · cases hl
        subst hl
        refine ⟨by simp, fun _ => .inr ?_⟩
        have hneg := hw.1 rfl
        obtain ⟨fp, fq, eρ⟩ := FP.sub_spec fρ
        obtain ⟨-, -, ep⟩ := FP.mul_spec fp
        obtain ⟨fq4, -, eq⟩ := FP.mul_spec fq
        obtain ⟨-, -, eq4⟩ := FP.mul_spec fq4
        have e1 := Quadratic.disc_error F.u_nonneg hu (rel hT ep).1 (rel hT eq4).1 (rel hT eq).1 (rel hT eρ).1
        have hz : (⟨some 0⟩ : FP F).num = 0 := rfl
        rw [hz] at hneg
        refine ⟨h2, ?_⟩
        have e2 := (abs_le.1 e1).1
        have e3 : 0 ≤ F.u * (q1.num ^ 2 + 4 * |q0.num * q2.num|) := by positivity
        linarith
  · have h2 : q2.num = 0 := hz2.1 rfl
    simp only [if_true] at hst
    obtain ⟨z1, hz1, hst⟩ := bind_ok hst
    obtain ⟨f1, hz1⟩ := isZeroF_ok hz1
    cases z1
    · simp only [Bool.false_eq_true, if_false] at hst
      obtain ⟨r1, hr1, hst⟩ := bind_ok hst
      have hl : l = [r1] := by
        cases hst
        rcases hl with hl | hl
        · cases hl
        · exact (Sum.inr.inj hl).symm
      subst hl
      refine ⟨?_, by simp⟩
      intro r hr hf
      rw [List.mem_singleton] at hr
      subst hr
      obtain ⟨-, h1, er⟩ := divF_ok hr1
      subst er
      obtain ⟨g1, -, -, e1⟩ := div_spec hf
      rw [(FP.neg_spec g1).2] at e1
      refine .inl (hweak _ ?_)
      have e2 : |q2.num * (-q0.num / q1.num) ^ 2 + q1.num * (-q0.num / q1.num) + q0.num| ≤
          0 * (|q2.num| * (-q0.num / q1.num) ^ 2 + |q1.num| * |-q0.num / q1.num| + |q0.num|) := by
        rw [h2]
        refine le_of_eq ?_
        rw [zero_mul, zero_mul, abs_eq_zero]
        field_simp
        ring
      have e4 := Quadratic.round_error F.u_nonneg hu le_rfl e2 (rel hT e1).2
      exact e4.trans (mul_le_mul_of_nonneg_right (by linarith) (quadAbs_nonneg _ _ _ _))
    · simp only [if_true] at hst
      have h1 : q1.num = 0 := hz1.1 rfl
      obtain ⟨z0, hz0, hst⟩ := bind_ok hst
      obtain ⟨f0, hz0⟩ := isZeroF_ok hz0
      cases z0
      · have hl : l = [] := by
          cases hst
          rcases hl with hl | hl
          · exact (Sum.inl.inj hl).symm
          · cases hl
        subst hl
        exact ⟨by simp, fun _ => .inl ⟨h2, h1, fun h => by simpa using hz0.2 h⟩⟩
      · have hl : l = [⟨some 0⟩] := by
          cases hst
          rcases hl with hl | hl
          · exact (Sum.inl.inj hl).symm
          · cases hl
        subst hl
        refine ⟨?_, by simp⟩
        intro r hr hf
        rw [List.mem_singleton] at hr
        subst hr
        left
        have : (⟨some 0⟩ : FP F).num = 0 := rfl
        rw [quadF, quadAbsF, this, hz0.1 rfl]
        simp

/-! ### Exceptions -/

theorem bind_error {α β : Type} {x : Except QErr α} {f : α → Except QErr β} {e : QErr} (h : (x >>= f) = .error e) :
    x = .error e ∨ ∃ v, x = .ok v ∧ f v = .error e := by
  cases x with
  | error e' => left; cases h; rfl
  | ok v => exact .inr ⟨v, rfl, h⟩

theorem ltF_error {a b : FP F} {e : QErr} (h : ltF a b = .error e) : e = .notFinite := by
  unfold ltF at h
  split at h <;> cases h
  rfl

theorem isZeroF_error {a : FP F} {e : QErr} (h : isZeroF a = .error e) : e = .notFinite := by
  unfold isZeroF at h
  split at h <;> cases h
  rfl

theorem divF_error {a b : FP F} {e : QErr} (hb : b.num ≠ 0 ∨ ¬ b.Finite) (h : divF a b = .error e) : e = .notFinite := by
  rcases bind_error h with h | ⟨v, h1, h⟩
  · exact isZeroF_error h
  · obtain ⟨f, h2⟩ := isZeroF_ok h1
    cases v
    · cases h
    · rcases hb with hb | hb
      · exact absurd (h2.1 rfl) hb
      · exact absurd f hb

theorem newtonF_error {a2 a1 a0 r : FP F} {e : QErr} (h : newtonF a2 a1 a0 r = .error e) : e = .notFinite := by
  rcases bind_error h with h | ⟨v, h1, h⟩
  · exact isZeroF_error h
  · obtain ⟨f, h2⟩ := isZeroF_ok h1
    cases v
    · simp only [Bool.false_eq_true, if_false] at h
      rcases bind_error h with h | ⟨t, h3, h⟩
      · exact divF_error (.inl fun hc => by simpa using h2.2 hc) h
      · cases h
    · cases h

theorem newtonsF_error {a2 a1 a0 : FP F} {e : QErr} : ∀ (k : ℕ) (r : FP F), newtonsF a2 a1 a0 k r = .error e → e = .notFinite
  | 0, r, h => by cases h
  | k + 1, r, h => by
    rcases bind_error h with h | ⟨t, -, h⟩
    · exact newtonF_error h
    · exact newtonsF_error k t h

theorem refineF_error {a2 a1 a0 : FP F} {e : QErr} (k : ℕ) : ∀ l : List (FP F), refineF a2 a1 a0 k l = .error e → e = .notFinite
  | [], h => by cases h
  | r :: l, h => by
    rcases bind_error h with h | ⟨t, -, h⟩
    · exact newtonsF_error k r h
    rcases bind_error h with h | ⟨ts, -, h⟩
    · exact refineF_error k l h
    · cases h

theorem zero_of_rel {z y : ℝ} (hT : F.tiny = 0) (h : |y - z| ≤ F.u * min |z| |y| + F.tiny) : y = 0 ↔ z = 0 := by
  obtain ⟨h1, h2⟩ := rel hT h
  constructor
  · rintro rfl
    rw [abs_zero, mul_zero, zero_sub, abs_neg] at h2
    exact abs_eq_zero.1 (le_antisymm h2 (abs_nonneg _))
  · rintro rfl
    rw [abs_zero, mul_zero, sub_zero] at h1
    exact abs_eq_zero.1 (le_antisymm h1 (abs_nonneg _))

/-- the divisor in the formula for the second root is not zero -/
theorem d_ne_zero (hT : F.tiny = 0) {a2 a1 a0 tol s c : FP F} {nz : Bool} (h2 : a2.num ≠ 0) (hv : ltF (tol * a1 * a1) (Scalar.abs (a0 * a2)) = .ok true)
    (hs : sqrtF (a1 * a1 - (⟨some 4⟩ : FP F) * a2 * a0) = .ok s) (hc : copysignF s a1 nz = .ok c)
    (fd : ((⟨some (-(1 / 2))⟩ : FP F) * (a1 + c)).Finite) : ((⟨some (-(1 / 2))⟩ : FP F) * (a1 + c)).num ≠ 0 := by
  intro h0
  obtain ⟨-, ft, ed⟩ := FP.mul_spec fd
  obtain ⟨-, fc, et⟩ := FP.add_spec ft
  obtain ⟨fs, -, hcs, hsgn⟩ := copysignF_ok hc fc
  obtain ⟨fρ, hρ0, es⟩ := sqrtF_ok hs
  subst es
  obtain ⟨fp, fq, eρ⟩ := FP.sub_spec fρ
  obtain ⟨-, -, ep⟩ := FP.mul_spec fp
  obtain ⟨fq4, -, eq⟩ := FP.mul_spec fq
  obtain ⟨-, -, eq4⟩ := FP.mul_spec fq4
  obtain ⟨-, -, es⟩ := FP.sqrt_spec fs
  have hh : (⟨some (-(1 / 2))⟩ : FP F).num = -(1 / 2) := rfl
  have h4 : (⟨some 4⟩ : FP F).num = 4 := rfl
  have t0 : (a1 + c).num = 0 := by
    have := (zero_of_rel hT ed).1 h0
    rw [hh] at this
    linarith
  have t1 := (zero_of_rel hT et).1 t0
  have a10 : a1.num = 0 := by nlinarith [sq_nonneg a1.num]
  have c0 : c.num = 0 := by linarith
  have s0 : (sqrt (a1 * a1 - (⟨some 4⟩ : FP F) * a2 * a0)).num = 0 := by
    rw [c0, abs_zero] at hcs
    exact abs_eq_zero.1 hcs.symm
  have r0 := (Real.sqrt_eq_zero hρ0).1 ((zero_of_rel hT es).1 s0)
  have p0 : (a1 * a1).num = 0 := (zero_of_rel hT ep).2 (by rw [a10, mul_zero])
  have q0 : ((⟨some 4⟩ : FP F) * a2 * a0).num = 0 := by
    have := (zero_of_rel hT eρ).1 r0
    linarith
  have q4 : ((⟨some 4⟩ : FP F) * a2).num ≠ 0 := by
    rw [Ne, zero_of_rel hT eq4, h4]
    exact mul_ne_zero (by norm_num) h2
  have a00 : a0.num = 0 := (mul_eq_zero.1 ((zero_of_rel hT eq).1 q0)).resolve_left q4
  obtain ⟨f1, f2, h3⟩ := ltF_ok hv
  obtain ⟨f3, e3⟩ := FP.abs_spec f2
  obtain ⟨-, -, e1⟩ := FP.mul_spec f3
  obtain ⟨-, -, e2⟩ := FP.mul_spec f1
  have z1 : (a0 * a2).num = 0 := (zero_of_rel hT e1).2 (by rw [a00, zero_mul])
  have z2 : (tol * a1 * a1).num = 0 := (zero_of_rel hT e2).2 (by rw [a10, mul_zero])
  have := h3.1 rfl
  rw [e3, z1, z2, abs_zero] at this
  exact lt_irrefl _ this

/-- **C94, exceptions.**  In an arithmetic without underflow, `roots_quadratic` divides by zero for no arguments, and takes no square root of a
negative number, whatever the tolerance and the number of Newton steps. -/
theorem C94_no_exception (hT : F.tiny = 0) (q2 q1 q0 tol : FP F) (nitref : ℕ) (negZero : Bool) :
    rootsQuadraticF q2 q1 q0 tol nitref negZero ≠ .error .zeroDivision ∧ rootsQuadraticF q2 q1 q0 tol nitref negZero ≠ .error .mathDomain := by
  suffices H : ∀ e, rootsQuadraticF q2 q1 q0 tol nitref negZero = .error e → e = .notFinite by
    exact ⟨fun h => QErr.noConfusion (H _ h), fun h => QErr.noConfusion (H _ h)⟩
  intro e h
  rcases bind_error h with h | ⟨st, -, h⟩
  swap
  · cases st with
    | inl l => cases h
    | inr l => exact refineF_error nitref l h
  rcases bind_error h with h | ⟨z2, hz2, h⟩
  · exact isZeroF_error h
  obtain ⟨f2, hz2⟩ := isZeroF_ok hz2
  cases z2
  · have h2 : q2.num ≠ 0 := fun h => by simpa using hz2.2 h
    simp only [Bool.false_eq_true, if_false] at h
    rcases bind_error h with h | ⟨v, hv, h⟩
    · exact ltF_error h
    cases v
    · simp only [Bool.false_eq_true, if_false] at h
      rcases bind_error h with h | ⟨r1, -, h⟩
      · exact divF_error (.inl h2) h
      · cases h
    · simp only [if_true] at h
      rcases bind_error h with h | ⟨w, hw, h⟩
      · exact ltF_error h
      have hw1 := hw
      obtain ⟨fρ, -, hw⟩ := ltF_ok hw
      cases w
      · simp only [Bool.false_eq_true, if_false] at h
        rcases bind_error h with h | ⟨s, hs, h⟩
        · rcases bind_error h with h | ⟨w', hw', h⟩
          · exact ltF_error h
          · rw [hw1] at hw'
            cases hw'
            cases h
        rcases bind_error h with h | ⟨c, hc, h⟩
        · rcases bind_error h with h | ⟨_, -, h⟩
          · exact ltF_error h
          rcases bind_error h with h | ⟨_, -, h⟩
          · exact isZeroF_error h
          · split at h <;> cases h
        rcases bind_error h with h | ⟨r1, -, h⟩
        · exact divF_error (.inl h2) h
        rcases bind_error h with h | ⟨r2, -, h⟩
        · refine divF_error ?_ h
          by_cases fd : ((⟨some (-(1 / 2))⟩ : FP F) * (q1 + c)).Finite
          · exact .inl (d_ne_zero hT h2 hv hs hc fd)
          · exact .inr fd
        · cases h
      · cases h
  · simp only [if_true] at h
    rcases bind_error h with h | ⟨z1, hz1, h⟩
    · exact isZeroF_error h
    obtain ⟨f1, hz1⟩ := isZeroF_ok hz1
    cases z1
    · simp only [Bool.false_eq_true, if_false] at h
      rcases bind_error h with h | ⟨r1, -, h⟩
      · exact divF_error (.inl fun h => by simpa using hz1.2 h) h
      · cases h
    · simp only [if_true] at h
      rcases bind_error h with h | ⟨z0, -, h⟩
      · exact isZeroF_error h
      cases z0 <;> cases h

end Verif.Tools
