import Verif.Tools.Quadratic
import Mathlib.Tactic.NormNum

/-!
# C43: roots of quadratics
-/

namespace Verif.Tools

/-- the quadratic -/
def quad (q2 q1 q0 x : ℝ) : ℝ := q2 * x ^ 2 + q1 * x + q0

theorem pdiv_ne {a b : ℝ} (h : b ≠ 0) : pdiv a b = some (a / b) := by simp [pdiv, h]

theorem newton_root {a2 a1 a0 x : ℝ} (h : quad a2 a1 a0 x = 0) : newton a2 a1 a0 x = some x := by
  unfold newton
  have e : (a2 * x + a1) * x + a0 = 0 := by unfold quad at h; linarith
  simp only [e]
  split
  · rfl
  · rename_i hd
    rw [pdiv_ne hd]; simp

theorem newtons_root {a2 a1 a0 x : ℝ} (h : quad a2 a1 a0 x = 0) (k : Nat) : newtons a2 a1 a0 k x = some x := by
  induction k with
  | zero => rfl
  | succ k ih => unfold newtons; rw [newton_root h]; exact ih

/-- If the discriminant is nonnegative, the two values computed by the code are the two roots. -/
theorem well_conditioned (a2 a1 a0 : ℝ) (h2 : a2 ≠ 0) (negZero : Bool) (hd : 0 ≤ a1 * a1 - 4 * a2 * a0)
    (hne : a1 ≠ 0 ∨ a0 ≠ 0) :
    let d := -(1/2) * (a1 + copysign (Real.sqrt (a1 * a1 - 4 * a2 * a0)) a1 negZero)
    d ≠ 0 ∧ ∀ x, quad a2 a1 a0 x = 0 ↔ x = d / a2 ∨ x = a0 / d := by
  intro d
  set s := Real.sqrt (a1 * a1 - 4 * a2 * a0) with hs
  have hs0 : 0 ≤ s := Real.sqrt_nonneg _
  have hss : s * s = a1 * a1 - 4 * a2 * a0 := Real.mul_self_sqrt hd
  have hc : ∃ t, copysign s a1 negZero = t ∧ t * t = s * s ∧ (a1 < 0 → t = -s) ∧ (0 < a1 → t = s) := by
    refine ⟨_, rfl, ?_, ?_, ?_⟩
    · unfold copysign; split <;> rw [abs_of_nonneg hs0] <;> ring
    · intro h; unfold copysign; rw [if_pos (Or.inl h), abs_of_nonneg hs0]
    · intro h; unfold copysign
      rw [if_neg (by push Not; exact ⟨h.le, fun e => absurd e h.ne'⟩), abs_of_nonneg hs0]
  obtain ⟨t, ht, htt, hneg, hpos⟩ := hc
  have hdt : d = -(1/2) * (a1 + t) := by simp only [d, ← hs, ht]
  have hd0 : d ≠ 0 := by
    rw [hdt]
    intro h
    have h' : a1 + t = 0 := by linarith
    rcases lt_trichotomy a1 0 with h1 | h1 | h1
    · rw [hneg h1] at h'; linarith
    · have : t = 0 := by linarith
      rw [this, hss, h1] at htt
      rcases hne with h3 | h3
      · exact h3 h1
      · have : a2 * a0 = 0 := by linarith
        rcases mul_eq_zero.1 this with h4 | h4
        · exact h2 h4
        · exact h3 h4
    · rw [hpos h1] at h'; linarith
  have key : d * d + a1 * d + a2 * a0 = 0 := by
    rw [hdt]; have := htt.trans hss; linear_combination (1/4) * this
  refine ⟨hd0, fun x => ?_⟩
  have fac : quad a2 a1 a0 x = a2 * (x - d / a2) * (x - a0 / d) := by
    clear_value d
    unfold quad; field_simp; linear_combination x * key
  rw [fac, mul_eq_zero, mul_eq_zero, sub_eq_zero, sub_eq_zero]
  simp [h2]

/-- **C43 (well-conditioned case).** For all real coefficients, not all zero, every tolerance, every number of refinement
steps: if the polynomial is linear or constant, or `|q0 q2| > tol q1²`, then `roots_quadratic` returns normally, and the
returned list contains exactly the real roots of the polynomial; it is empty if and only if there are none. -/
theorem C43_exact_roots (q2 q1 q0 tol : ℝ) (nitref : Nat) (negZero : Bool) (h0 : ¬ (q2 = 0 ∧ q1 = 0 ∧ q0 = 0))
    (hw : q2 = 0 ∨ |q0 * q2| > tol * q1 ^ 2) :
    ∃ l, rootsQuadratic q2 q1 q0 tol nitref negZero = some l ∧ (∀ x, x ∈ l ↔ q2 * x ^ 2 + q1 * x + q0 = 0) ∧
      (l = [] ↔ ∀ x : ℝ, q2 * x ^ 2 + q1 * x + q0 ≠ 0) := by
  suffices h : ∃ l, rootsQuadratic q2 q1 q0 tol nitref negZero = some l ∧ (∀ x, x ∈ l ↔ quad q2 q1 q0 x = 0) by
    obtain ⟨l, h1, h2⟩ := h
    refine ⟨l, h1, h2, ?_⟩
    constructor
    · intro hl x hx
      have := (h2 x).2 hx
      simp [hl] at this
    · intro hall
      cases l with
      | nil => rfl
      | cons a l => exact absurd ((h2 a).1 (by simp)) (hall a)
  unfold rootsQuadratic startRoots
  by_cases h2 : q2 = 0
  · by_cases h1 : q1 = 0
    · have h3 : q0 ≠ 0 := fun h => h0 ⟨h2, h1, h⟩
      simp only [h2, h1, h3, if_true, if_false]
      exact ⟨[], rfl, fun x => by simp [quad, h3]⟩
    · have hr : ∀ x, quad q2 q1 q0 x = 0 ↔ x = -q0 / q1 := by
        intro x; unfold quad; rw [h2, eq_div_iff h1]; constructor <;> intro h <;> linarith
      simp only [h2, h1, if_true, if_false]
      rw [pdiv_ne h1]
      refine ⟨[-q0 / q1], ?_, fun x => by have := hr x; rw [h2] at this; rw [this]; simp⟩
      have := newtons_root ((hr _).2 rfl) nitref
      rw [h2] at this
      simp [this]
  · have hw' : |q0 * q2| > tol * q1 * q1 := by
      rcases hw with h | h
      · exact absurd h h2
      · rw [mul_assoc, ← pow_two]; exact h
    simp only [h2, if_false, hw', if_true]
    by_cases hr : q1 * q1 - 4 * q2 * q0 < 0
    · simp only [hr, if_true]
      refine ⟨[], rfl, fun x => ?_⟩
      simp only [List.not_mem_nil, false_iff]
      intro hx
      have : (2 * q2 * x + q1) ^ 2 = q1 * q1 - 4 * q2 * q0 := by unfold quad at hx; linear_combination 4 * q2 * hx
      nlinarith [sq_nonneg (2 * q2 * x + q1)]
    · have hr' := not_lt.1 hr
      have hne : q1 ≠ 0 ∨ q0 ≠ 0 := by
        by_contra h
        push Not at h
        rw [h.1, h.2] at hw'
        simp at hw'
      obtain ⟨hd, hx⟩ := well_conditioned q2 q1 q0 h2 negZero hr' hne
      simp only [hr, if_false]
      have hsq : psqrt (q1 * q1 - 4 * q2 * q0) = some (Real.sqrt (q1 * q1 - 4 * q2 * q0)) := by simp [psqrt, hr]
      rw [hsq]
      simp only [Option.bind_eq_bind, Option.bind_some, Option.pure_def]
      rw [pdiv_ne h2, pdiv_ne hd]
      simp only [Option.bind_some]
      have n1 := newtons_root ((hx _).2 (Or.inl rfl)) nitref
      have n2 := newtons_root ((hx _).2 (Or.inr rfl)) nitref
      generalize -(1 / 2) * (q1 + copysign (Real.sqrt (q1 * q1 - 4 * q2 * q0)) q1 negZero) = d at *
      exact ⟨[d / q2, q0 / d], by simp [n1, n2], fun x => by rw [hx]; simp⟩

/-- One Newton step contracts the value of the quadratic. -/
theorem newton_contract {a2 a1 a0 x h : ℝ} (hh0 : 0 ≤ h) (hh : h ≤ 1/4) (hd : 2 * a2 * x + a1 ≠ 0)
    (hx : |a2 * quad a2 a1 a0 x| ≤ h * (2 * a2 * x + a1) ^ 2) :
    ∃ y, newton a2 a1 a0 x = some y ∧ 2 * a2 * y + a1 ≠ 0 ∧ |a2 * quad a2 a1 a0 y| ≤ h * (2 * a2 * y + a1) ^ 2 ∧
      |quad a2 a1 a0 y| ≤ h * |quad a2 a1 a0 x| := by
  set D := 2 * a2 * x + a1 with hD
  set Q := quad a2 a1 a0 x with hQ
  have eQ : (a2 * x + a1) * x + a0 = Q := by rw [hQ]; unfold quad; ring
  have hnew : newton a2 a1 a0 x = some (x - Q / D) := by
    unfold newton; simp only [eQ, ← hD, hd, if_false]; rw [pdiv_ne hd]; rfl
  have hq : quad a2 a1 a0 (x - Q / D) = a2 * (Q / D) ^ 2 := by
    have : quad a2 a1 a0 (x - Q / D) = Q - D * (Q / D) + a2 * (Q / D) ^ 2 := by
      rw [hQ, hD]; unfold quad; ring
    rw [this, mul_div_cancel₀ _ hd]; ring
  have hder : 2 * a2 * (x - Q / D) + a1 = D - 2 * (a2 * Q / D) := by rw [hD]; ring
  have hD2 : 0 < D ^ 2 := by positivity
  set u := a2 * Q / D ^ 2 with hu
  have hu1 : |u| ≤ h := by rw [hu, abs_div, abs_of_pos hD2, div_le_iff₀ hD2]; exact hx
  have hu2 := abs_le.1 hu1
  have e1 : D - 2 * (a2 * Q / D) = D * (1 - 2 * u) := by rw [hu]; field_simp
  have hpos : 0 < 1 - 2 * u := by linarith [hu2.2]
  have hQ' : quad a2 a1 a0 (x - Q / D) = u * Q := by rw [hq, hu]; field_simp
  refine ⟨_, hnew, ?_, ?_, ?_⟩
  · rw [hder, e1]; exact mul_ne_zero hd hpos.ne'
  · rw [hder, e1, hQ']
    have : a2 * (u * Q) = u * (u * D ^ 2) := by rw [hu]; field_simp
    rw [this, abs_mul, abs_mul, abs_of_pos hD2, mul_pow]
    have h1 : |u| * |u| ≤ h * (1 - 2 * u) ^ 2 := by
      have ha : |u| * |u| ≤ h * (1/4) := mul_le_mul hu1 (hu1.trans hh) (abs_nonneg _) hh0
      have hb : (1/4 : ℝ) ≤ (1 - 2 * u) ^ 2 := by nlinarith [hu2.2]
      nlinarith
    nlinarith [abs_nonneg u]
  · rw [hQ', abs_mul]
    exact mul_le_mul_of_nonneg_right hu1 (abs_nonneg _)

theorem newtons_contract {a2 a1 a0 h : ℝ} (hh0 : 0 ≤ h) (hh : h ≤ 1/4) (k : Nat) (x : ℝ) (hd : 2 * a2 * x + a1 ≠ 0)
    (hx : |a2 * quad a2 a1 a0 x| ≤ h * (2 * a2 * x + a1) ^ 2) :
    ∃ y, newtons a2 a1 a0 k x = some y ∧ |quad a2 a1 a0 y| ≤ h ^ k * |quad a2 a1 a0 x| := by
  induction k generalizing x with
  | zero => exact ⟨x, rfl, by simp⟩
  | succ k ih =>
    obtain ⟨y, h1, h2, h3, h4⟩ := newton_contract hh0 hh hd hx
    obtain ⟨z, h5, h6⟩ := ih y h2 h3
    refine ⟨z, by unfold newtons; rw [h1]; exact h5, h6.trans ?_⟩
    rw [pow_succ, mul_assoc]
    exact mul_le_mul_of_nonneg_left h4 (by positivity)

/-- **C43 (ill-conditioned case).** For all real coefficients with `q2 ≠ 0`, every tolerance up to `1/4` and every number
`nitref` of refinement steps: if `|q0 q2| ≤ tol q1²` then `roots_quadratic` returns normally with two values, the
polynomial does have real roots, and at each returned value it is at most `tol ^ nitref * |q0|` in absolute value; in
particular at most `tol |q0|` after at least one refinement. -/
theorem C43_ill_conditioned (q2 q1 q0 tol : ℝ) (nitref : Nat) (negZero : Bool) (h2 : q2 ≠ 0) (ht0 : 0 ≤ tol) (ht : tol ≤ 1/4)
    (hi : |q0 * q2| ≤ tol * q1 ^ 2) :
    ∃ x y, rootsQuadratic q2 q1 q0 tol nitref negZero = some [x, y] ∧
      |q2 * x ^ 2 + q1 * x + q0| ≤ tol ^ nitref * |q0| ∧ |q2 * y ^ 2 + q1 * y + q0| ≤ tol ^ nitref * |q0| ∧
      (1 ≤ nitref → |q2 * x ^ 2 + q1 * x + q0| ≤ tol * |q0| ∧ |q2 * y ^ 2 + q1 * y + q0| ≤ tol * |q0|) ∧
      ∃ z : ℝ, q2 * z ^ 2 + q1 * z + q0 = 0 := by
  have main : ∃ x y, rootsQuadratic q2 q1 q0 tol nitref negZero = some [x, y] ∧
      |quad q2 q1 q0 x| ≤ tol ^ nitref * |q0| ∧ |quad q2 q1 q0 y| ≤ tol ^ nitref * |q0| := by
    unfold rootsQuadratic startRoots
    have hi' : ¬ |q0 * q2| > tol * q1 * q1 := by rw [mul_assoc, ← pow_two]; exact not_lt.2 hi
    simp only [h2, hi', if_false]
    rw [pdiv_ne h2]
    simp only [Option.bind_eq_bind, Option.bind_some, Option.pure_def]
    have v1 : quad q2 q1 q0 (-q1 / q2) = q0 := by unfold quad; field_simp; ring
    have v2 : quad q2 q1 q0 0 = q0 := by unfold quad; ring
    by_cases h1 : q1 = 0
    · have h0 : q0 = 0 := by
        rw [h1] at hi
        have : q0 * q2 = 0 := by
          apply abs_eq_zero.1; apply le_antisymm _ (abs_nonneg _); simpa using hi
        exact (mul_eq_zero.1 this).resolve_right h2
      rw [h0] at v1 v2
      refine ⟨-q1 / q2, 0, ?_, ?_, ?_⟩
      · rw [h0]
        simp [newtons_root v1 nitref, newtons_root v2 nitref]
      · rw [h0, v1]; simp
      · rw [h0, v2]; simp
    · have d1 : 2 * q2 * (-q1 / q2) + q1 = -q1 := by field_simp; ring
      have d2 : 2 * q2 * 0 + q1 = q1 := by ring
      obtain ⟨x, hx1, hx2⟩ := newtons_contract ht0 ht nitref (-q1 / q2) (a2 := q2) (a1 := q1) (a0 := q0)
        (by rw [d1]; exact neg_ne_zero.2 h1) (by rw [v1, d1, neg_sq, mul_comm]; exact hi)
      obtain ⟨y, hy1, hy2⟩ := newtons_contract ht0 ht nitref 0 (a2 := q2) (a1 := q1) (a0 := q0)
        (by rw [d2]; exact h1) (by rw [v2, d2, mul_comm]; exact hi)
      rw [v1] at hx2; rw [v2] at hy2
      exact ⟨x, y, by simp [hx1, hy1], hx2, hy2⟩
  obtain ⟨x, y, e, hx, hy⟩ := main
  refine ⟨x, y, e, hx, hy, fun hk => ?_, ?_⟩
  · have : tol ^ nitref ≤ tol := pow_le_of_le_one ht0 (by linarith) (by omega)
    have h' := mul_le_mul_of_nonneg_right this (abs_nonneg q0)
    exact ⟨hx.trans h', hy.trans h'⟩
  · have hdisc : 0 ≤ q1 * q1 - 4 * q2 * q0 := by
      have := (abs_le.1 hi).2
      nlinarith [sq_nonneg q1]
    by_cases hne : q1 ≠ 0 ∨ q0 ≠ 0
    · obtain ⟨_, hz⟩ := well_conditioned q2 q1 q0 h2 negZero hdisc hne
      exact ⟨_, (hz _).2 (Or.inl rfl)⟩
    · push Not at hne
      exact ⟨0, by rw [hne.1, hne.2]; ring⟩

/-- The zero polynomial, for which every number is a root: `[0.0]` is returned. -/
theorem C43_zero_polynomial (tol : ℝ) (nitref : Nat) (negZero : Bool) :
    rootsQuadratic 0 0 0 tol nitref negZero = some [0] := by
  simp [rootsQuadratic, startRoots]

/-- The bound on the tolerance in `C43_ill_conditioned` cannot be dropped: with tolerance 1/2 and two refinements,
Newton's method diverges on `x² + x + 9/20`. -/
theorem C43_large_tol :
    ∃ x y, rootsQuadratic 1 1 (9/20) (1/2) 2 false = some [x, y] ∧ |y ^ 2 + y + 9/20| > (1/2) * |(9/20 : ℝ)| := by
  have n1 : newton 1 1 (9/20) 0 = some (-9/20) := by unfold newton; norm_num [pdiv]
  have n2 : newton 1 1 (9/20) (-9/20) = some (-99/40) := by unfold newton; norm_num [pdiv]
  have m1 : newton 1 1 (9/20) (-1) = some (-11/20) := by unfold newton; norm_num [pdiv]
  have m2 : newton 1 1 (9/20) (-11/20) = some (59/40) := by unfold newton; norm_num [pdiv]
  refine ⟨59/40, -99/40, ?_, by norm_num [abs_of_pos]⟩
  have hs : startRoots 1 1 (9/20) (1/2) false = some (.inr [-1, 0]) := by
    unfold startRoots
    rw [if_neg one_ne_zero]
    simp only
    rw [if_neg (by norm_num [abs_of_pos])]
    norm_num [pdiv]
  unfold rootsQuadratic
  rw [hs]
  simp [newtons, n1, n2, m1, m2]

/-- At the default tolerance, `x² - 3x + 2` is well conditioned and `x² + 10⁵ x + 1` is ill conditioned: both theorems
apply to concrete inputs. -/
example : (1:ℝ) = 0 ∨ |(2:ℝ) * 1| > (1e-8) * (-3) ^ 2 := by norm_num
example : |(1:ℝ) * 1| ≤ (1e-8) * (100000 : ℝ) ^ 2 := by norm_num

end Verif.Tools
