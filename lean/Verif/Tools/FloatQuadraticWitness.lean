import Verif.Tools.FloatQuadratic
import Verif.Tools.FloatChecksWitness

/-! # C94: quadratics for which `roots_quadratic` returns numbers that are far from the roots -/

namespace Verif.Tools
open Verif.Solver Verif.Solver.Scalar

/-! ### Rounding of given numbers -/

theorem roundEven_near {w : ℝ} {m : ℤ} (h : |w - m| < 1 / 2) : roundEven w = m := by
  have h1 := roundEven_err w
  have h2 : |((roundEven w - m : ℤ) : ℝ)| < 1 := by
    push_cast
    have := abs_sub_le (roundEven w : ℝ) w m
    linarith
  have h3 : |roundEven w - m| < 1 := by exact_mod_cast h2
  have h4 := Int.abs_lt_one_iff.1 h3
  omega

theorem roundEven_even {w : ℝ} {m : ℤ} (hm : Even m) (h : |w - m| ≤ 1 / 2) : roundEven w = m := by
  rcases h.lt_or_eq with h1 | h1
  · exact roundEven_near h1
  rcases abs_cases (w - m) with ⟨e, _⟩ | ⟨e, _⟩
  · have hw : w = m + 1 / 2 := by linarith
    have hf : ⌊w⌋ = m := by rw [hw, Int.floor_intCast_add]; norm_num
    rw [roundEven, if_pos (by rw [Int.fract, hf]; linarith), hf, if_pos hm]
  · have hw : w = ((m - 1 : ℤ) : ℝ) + 1 / 2 := by push_cast; linarith
    have hf : ⌊w⌋ = m - 1 := by rw [hw, Int.floor_intCast_add]; norm_num
    have ho : ¬ Even (m - 1) := by
      rw [Int.not_even_iff_odd]
      exact hm.sub_odd odd_one
    rw [roundEven, if_pos (by rw [Int.fract, hf, hw]; push_cast; ring), hf, if_neg ho]
    ring

/-- the numbers around `z` have the spacing `2^k` -/
theorem spacing_eq {z : ℝ} {k : ℤ} (h1 : (2:ℝ) ^ (52 + k) ≤ |z|) (h2 : |z| < 2 ^ (53 + k)) (hk : -1074 ≤ k) : spacing 52 (-1074) z = 2 ^ k := by
  have hp : 0 < |z| := lt_of_lt_of_le (by positivity) h1
  rw [spacing]
  congr 1
  have e1 := (Int.lt_zpow_iff_log_lt (b := 2) (by norm_num) hp).1 (by exact_mod_cast h2)
  have e2 := (Int.zpow_le_iff_le_log (b := 2) (by norm_num) hp).1 (by exact_mod_cast h1)
  push_cast at e1 e2 ⊢
  omega

theorem fl_round {z : ℝ} {m k : ℤ} (h1 : (2:ℝ) ^ (52 + k) ≤ |z|) (h2 : |z| < 2 ^ (53 + k)) (hk : -1074 ≤ k) (hk' : k ≤ 900)
    (hr : roundEven (z / 2 ^ k) = m) : float64.fl z = some ((m : ℝ) * 2 ^ k) := by
  show ieeeRound 52 (-1074) 1024 z = some _
  have herr := ieeeRound_err 52 (-1074) z
  simp only [ieeeRound]
  rw [spacing_eq h1 h2 hk, hr] at herr ⊢
  rw [if_pos]
  have hp : (0:ℝ) < 2 ^ k := by positivity
  have e1 : |(m : ℝ) * 2 ^ k| ≤ |z| + 2 ^ k / 2 := by
    have := abs_sub_abs_le_abs_sub ((m : ℝ) * 2 ^ k) z
    linarith
  have e2 : (2:ℝ) ^ (53 + k) = 2 ^ 53 * 2 ^ k := by rw [zpow_add₀ (by norm_num), show ((2:ℝ) ^ (53 : ℤ)) = 2 ^ 53 from zpow_natCast 2 53]
  have e3 : (2:ℝ) ^ (54 + k) ≤ 2 ^ (1024 : ℤ) := zpow_le_zpow_right₀ (by norm_num) (by omega)
  have e4 : (2:ℝ) ^ (54 + k) = 2 ^ 54 * 2 ^ k := by rw [zpow_add₀ (by norm_num), show ((2:ℝ) ^ (54 : ℤ)) = 2 ^ 54 from zpow_natCast 2 54]
  refine lt_of_lt_of_le ?_ e3
  rw [e4]
  rw [e2] at h2
  clear e3
  nlinarith

/-- rounding to the nearest number -/
theorem fl_near {z : ℝ} (m k : ℤ) (h1 : (2:ℝ) ^ (52 + k) ≤ |z|) (h2 : |z| < 2 ^ (53 + k)) (hk : -1074 ≤ k) (hk' : k ≤ 900)
    (h : |z - m * 2 ^ k| < 2 ^ k / 2) : float64.fl z = some ((m : ℝ) * 2 ^ k) := by
  refine fl_round h1 h2 hk hk' (roundEven_near ?_)
  have hp : (0:ℝ) < 2 ^ k := by positivity
  rw [show z / 2 ^ k - m = (z - m * 2 ^ k) / 2 ^ k by field_simp, abs_div, abs_of_pos hp, div_lt_iff₀ hp]
  linarith

/-- rounding of ties -/
theorem fl_even {z : ℝ} (m k : ℤ) (hm : Even m) (h1 : (2:ℝ) ^ (52 + k) ≤ |z|) (h2 : |z| < 2 ^ (53 + k)) (hk : -1074 ≤ k) (hk' : k ≤ 900)
    (h : |z - m * 2 ^ k| ≤ 2 ^ k / 2) : float64.fl z = some ((m : ℝ) * 2 ^ k) := by
  refine fl_round h1 h2 hk hk' (roundEven_even hm ?_)
  have hp : (0:ℝ) < 2 ^ k := by positivity
  rw [show z / 2 ^ k - m = (z - m * 2 ^ k) / 2 ^ k by field_simp, abs_div, abs_of_pos hp, div_le_iff₀ hp]
  linarith

/-- numbers of the format -/
theorem fl_exact {z : ℝ} (m k : ℤ) (hz : z = m * 2 ^ k) (h : |m| < 2 ^ 53) (hk : -1074 ≤ k) (hk' : k ≤ 900) :
    float64.fl z = some ((m : ℝ) * 2 ^ k) := by
  rw [hz]; exact float64_dyadic m k h hk hk'

theorem dy_mul {a k b l m j : ℤ} (h : float64.fl ((a : ℝ) * 2 ^ k * (b * 2 ^ l)) = some ((m : ℝ) * 2 ^ j)) : dyad a k * dyad b l = dyad m j := by
  show FP.op2 _ _ _ = _
  simp only [FP.op2, dyad, Option.bind_some, h]

theorem dy_add {a k b l m j : ℤ} (h : float64.fl ((a : ℝ) * 2 ^ k + b * 2 ^ l) = some ((m : ℝ) * 2 ^ j)) : dyad a k + dyad b l = dyad m j := by
  show FP.op2 _ _ _ = _
  simp only [FP.op2, dyad, Option.bind_some, h]

theorem dy_sub {a k b l m j : ℤ} (h : float64.fl ((a : ℝ) * 2 ^ k - b * 2 ^ l) = some ((m : ℝ) * 2 ^ j)) : dyad a k - dyad b l = dyad m j := by
  show FP.op2 _ _ _ = _
  simp only [FP.op2, dyad, Option.bind_some, h]

theorem dy_div {a k b l m j : ℤ} (hb : b ≠ 0) (h : float64.fl ((a : ℝ) * 2 ^ k / (b * 2 ^ l)) = some ((m : ℝ) * 2 ^ j)) :
    divF (dyad a k) (dyad b l) = .ok (dyad m j) := by
  have h0 : ((b : ℝ) * 2 ^ l) ≠ 0 := mul_ne_zero (by exact_mod_cast hb) (by positivity)
  have h1 : isZeroF (dyad b l) = .ok false := by
    simp only [isZeroF, dyad, decide_eq_false h0]
  have h2 : dyad a k / dyad b l = dyad m j := by
    show FP.op2 _ _ _ = _
    simp only [FP.op2, dyad, Option.bind_some, if_neg h0, h]
  rw [divF, h1, h2]
  rfl

theorem dy_isZero (a k : ℤ) : isZeroF (dyad a k) = .ok (decide (a = 0)) := by
  have : ((a : ℝ) * 2 ^ k = 0) ↔ a = 0 := by
    rw [mul_eq_zero]
    constructor
    · rintro (h | h)
      · exact_mod_cast h
      · exact absurd h (by positivity)
    · rintro rfl; simp
  simp only [isZeroF, dyad, this]

theorem dy_neg (a k : ℤ) : -dyad a k = dyad (-a) k := by
  show (⟨_⟩ : FP float64) = _
  simp [dyad]

theorem dy_lt (a k b l : ℤ) : ltF (dyad a k) (dyad b l) = .ok (open Classical in decide ((a : ℝ) * 2 ^ k < b * 2 ^ l)) := rfl

/-! ### Newton's method at a double root -/

section
/-- 52.0833..., such that the quadratic has two roots that agree to eight digits -/
noncomputable def q0 : FP float64 := dyad 3665038759253333 (-46)

theorem start_double (tol : FP float64) (hf : tol.Finite) (h0 : 0 ≤ tol.num) (h1 : tol.num ≤ 1 / 100) :
    startRootsF (dyad 3 0) (dyad (-25) 0) q0 tol false =
      .ok (.inr [dyad 4691249611844267 (-50), dyad 2345624805922133 (-49)]) := by
  have e1 : q0 * dyad 3 0 = dyad 625 (-2) := by
    refine dy_mul ?_
    rw [fl_even 5497558138880000 (-45) ⟨2748779069440000, by norm_num⟩ (by norm_num) (by norm_num) (by norm_num) (by norm_num) (by norm_num)]
    norm_num
  have e2 : dyad (-25) 0 * dyad (-25) 0 = dyad 625 0 := dy_mul (fl_exact _ _ (by norm_num) (by norm_num) (by norm_num) (by norm_num))
  have e3 : (⟨some 4⟩ : FP float64) * dyad 3 0 = dyad 12 0 := by
    rw [show (⟨some 4⟩ : FP float64) = dyad 4 0 by simp [dyad]]
    exact dy_mul (fl_exact _ _ (by norm_num) (by norm_num) (by norm_num) (by norm_num))
  have e4 : dyad 12 0 * q0 = dyad 625 0 := by
    refine dy_mul ?_
    rw [fl_even 5497558138880000 (-43) ⟨2748779069440000, by norm_num⟩ (by norm_num) (by norm_num) (by norm_num) (by norm_num) (by norm_num)]
    norm_num
  have e5 : dyad 625 0 - dyad 625 0 = dyad 0 0 := dy_sub (fl_exact _ _ (by norm_num) (by norm_num) (by norm_num) (by norm_num))
  have e6 : sqrt (dyad 0 0) = dyad 0 0 := by
    show (⟨_⟩ : FP float64) = _
    have := float64_dyadic 0 0 (by norm_num) (by norm_num) (by norm_num)
    simp only [Int.cast_zero, zero_mul] at this
    simp [dyad, this]
  have e7 : -Scalar.abs (dyad 0 0) = dyad 0 0 := by
    have : Scalar.abs (dyad 0 0) = dyad 0 0 := by
      show (⟨_⟩ : FP float64) = _
      simp [dyad]
    rw [this, dy_neg]
    rfl
  have e8 : dyad (-25) 0 + dyad 0 0 = dyad (-25) 0 := dy_add (fl_exact _ _ (by norm_num) (by norm_num) (by norm_num) (by norm_num))
  have e9 : (⟨some (-(1 / 2))⟩ : FP float64) * dyad (-25) 0 = dyad 25 (-1) := by
    rw [show (⟨some (-(1 / 2))⟩ : FP float64) = dyad (-1) (-1) by simp [dyad]]
    exact dy_mul (fl_exact _ _ (by norm_num) (by norm_num) (by norm_num) (by norm_num))
  have e10 : divF (dyad 25 (-1)) (dyad 3 0) = .ok (dyad 4691249611844267 (-50)) :=
    dy_div (by norm_num) (fl_near _ _ (by norm_num) (by norm_num) (by norm_num) (by norm_num) (by norm_num))
  have e11 : divF q0 (dyad 25 (-1)) = .ok (dyad 2345624805922133 (-49)) := by
    refine dy_div (by norm_num) ?_
    rw [fl_near 4691249611844266 (-50) (by norm_num) (by norm_num) (by norm_num) (by norm_num) (by norm_num)]
    norm_num
  have hrhs : ltF (tol * dyad (-25) 0 * dyad (-25) 0) (Scalar.abs (dyad 625 (-2))) = .ok true := by
    have hu : float64.u = 2⁻¹ ^ 53 := rfl
    have ht : float64.tiny ≤ 1 / 1000 := by
      have : (2:ℝ) ^ (-1075 : ℤ) ≤ 2 ^ (-10 : ℤ) := zpow_le_zpow_right₀ (by norm_num) (by norm_num)
      refine le_trans this ?_
      norm_num
    have ht0 := float64.tiny_nonneg
    have hbig : (1000:ℝ) ≤ 2 ^ (1023 : ℤ) := by
      have : (2:ℝ) ^ (10 : ℤ) ≤ 2 ^ (1023 : ℤ) := zpow_le_zpow_right₀ (by norm_num) (by norm_num)
      refine le_trans ?_ this
      norm_num
    have n25 : (dyad (-25) 0).num = -25 := by simp [dyad, FP.num]
    have step : ∀ (a : FP float64) (B : ℝ), a.Finite → |a.num| ≤ B → B * 25 ≤ 100 → (a * dyad (-25) 0).Finite ∧
        |(a * dyad (-25) 0).num| ≤ B * 26 + 1 / 1000 := by
      intro a B ha hB hB'
      have hz : |a.num * (-25)| = |a.num| * 25 := by rw [abs_mul]; norm_num
      have f1 : (a * dyad (-25) 0).Finite := by
        show (Option.bind _ _).isSome = true
        rw [FP.Finite.val_eq ha]
        refine float64_range _ ?_
        have e : ((-25 : ℤ) : ℝ) * 2 ^ (0 : ℤ) = -25 := by norm_num
        rw [e, hz]
        refine le_trans ?_ hbig
        clear hbig
        linarith
      refine ⟨f1, ?_⟩
      obtain ⟨-, -, g⟩ := FP.mul_spec f1
      have g2 := g.trans (add_le_add (mul_le_mul_of_nonneg_left (min_le_left _ _) float64.u_nonneg) ht)
      rw [n25, hz] at g2
      have g3 := abs_sub_abs_le_abs_sub (a * dyad (-25) 0).num (a.num * -25)
      rw [hz] at g3
      have g4 : float64.u * (|a.num| * 25) ≤ |a.num| := by
        rw [hu]
        have := abs_nonneg a.num
        norm_num
        linarith
      linarith
    obtain ⟨f1, b1⟩ := step tol (1 / 100) hf (by rw [abs_of_nonneg h0]; exact h1) (by norm_num)
    obtain ⟨f2, b2⟩ := step _ _ f1 b1 (by norm_num)
    have hv := FP.Finite.val_eq f2
    have hle := (abs_le.1 b2).2
    have habs : Scalar.abs (dyad 625 (-2)) = dyad 625 (-2) := by
      show (⟨_⟩ : FP float64) = _
      simp [dyad]
    rw [habs]
    unfold ltF
    rw [hv]
    generalize (tol * dyad (-25) 0 * dyad (-25) 0).num = w at hle
    simp only [dyad]
    congr 1
    rw [decide_eq_true_iff]
    clear hbig
    norm_num at hle ⊢
    linarith
  have hz : (⟨some 0⟩ : FP float64) = dyad 0 0 := by simp [dyad]
  have hl0 : ltF (dyad 0 0) (⟨some 0⟩ : FP float64) = .ok false := by
    rw [hz, dy_lt]; simp
  have hl25 : ltF (dyad (-25) 0) (⟨some 0⟩ : FP float64) = .ok true := by
    rw [hz, dy_lt]; simp
  have hc : copysignF (dyad 0 0) (dyad (-25) 0) false = .ok (dyad 0 0) := by
    rw [copysignF, hl25, dy_isZero]
    show Except.ok (-Scalar.abs (dyad 0 0)) = _
    rw [e7]
  have hsq : sqrtF (dyad 0 0) = .ok (dyad 0 0) := by
    rw [sqrtF, hl0]
    show Except.ok (sqrt (dyad 0 0)) = _
    rw [e6]
  unfold startRootsF
  rw [dy_isZero]
  simp only [e1, e2, e3, e4, e5]
  rw [hrhs, hl0, hsq]
  show (do
    let c ← copysignF (dyad 0 0) (dyad (-25) 0) false
    let d := (⟨some (-(1 / 2))⟩ : FP float64) * (dyad (-25) 0 + c)
    let r1 ← divF d (dyad 3 0)
    let r2 ← divF q0 d
    Except.ok (Sum.inr [r1, r2]) : Except QErr (List (FP float64) ⊕ List (FP float64))) = _
  rw [hc]
  show (do
    let d := (⟨some (-(1 / 2))⟩ : FP float64) * (dyad (-25) 0 + dyad 0 0)
    let r1 ← divF d (dyad 3 0)
    let r2 ← divF q0 d
    Except.ok (Sum.inr [r1, r2]) : Except QErr (List (FP float64) ⊕ List (FP float64))) = _
  simp only [e8, e9]
  rw [e10, e11]
  rfl

theorem newton_first : newtonF (dyad 3 0) (dyad (-25) 0) q0 (dyad 4691249611844267 (-50)) = .ok (dyad 4691249611844267 (-50)) := by
  have e1 : (⟨some 2⟩ : FP float64) * dyad 3 0 = dyad 6 0 := by
    rw [show (⟨some 2⟩ : FP float64) = dyad 2 0 by simp [dyad]]
    exact dy_mul (fl_exact _ _ (by norm_num) (by norm_num) (by norm_num) (by norm_num))
  have e2 : dyad 6 0 * dyad 4691249611844267 (-50) = dyad 25 0 := by
    refine dy_mul ?_
    rw [fl_even 7036874417766400 (-48) ⟨3518437208883200, by norm_num⟩ (by norm_num) (by norm_num) (by norm_num) (by norm_num) (by norm_num)]
    norm_num
  have e3 : dyad 25 0 + dyad (-25) 0 = dyad 0 0 := dy_add (fl_exact _ _ (by norm_num) (by norm_num) (by norm_num) (by norm_num))
  unfold newtonF
  simp only [e1, e2, e3]
  rw [dy_isZero]
  rfl

theorem newton_second : newtonF (dyad 3 0) (dyad (-25) 0) q0 (dyad 2345624805922133 (-49)) = .ok (dyad 1219724899079509 (-49)) := by
  have e1 : (⟨some 2⟩ : FP float64) * dyad 3 0 = dyad 6 0 := by
    rw [show (⟨some 2⟩ : FP float64) = dyad 2 0 by simp [dyad]]
    exact dy_mul (fl_exact _ _ (by norm_num) (by norm_num) (by norm_num) (by norm_num))
  have e2 : dyad 6 0 * dyad 2345624805922133 (-49) = dyad 7036874417766399 (-48) :=
    dy_mul (fl_exact _ _ (by norm_num) (by norm_num) (by norm_num) (by norm_num))
  have e3 : dyad 7036874417766399 (-48) + dyad (-25) 0 = dyad (-1) (-48) :=
    dy_add (fl_exact _ _ (by norm_num) (by norm_num) (by norm_num) (by norm_num))
  have e4 : dyad 3 0 * dyad 2345624805922133 (-49) = dyad 7036874417766399 (-49) :=
    dy_mul (fl_exact _ _ (by norm_num) (by norm_num) (by norm_num) (by norm_num))
  have e5 : dyad 7036874417766399 (-49) + dyad (-25) 0 = dyad (-7036874417766401) (-49) :=
    dy_add (fl_exact _ _ (by norm_num) (by norm_num) (by norm_num) (by norm_num))
  have e6 : dyad (-7036874417766401) (-49) * dyad 2345624805922133 (-49) = dyad (-7330077518506667) (-47) :=
    dy_mul (fl_near _ _ (by norm_num [abs_of_nonneg, abs_of_neg]) (by norm_num [abs_of_nonneg, abs_of_neg]) (by norm_num) (by norm_num) (by norm_num [abs_of_nonneg, abs_of_neg]))
  have e7 : dyad (-7330077518506667) (-47) + q0 = dyad (-1) (-47) :=
    dy_add (fl_exact _ _ (by norm_num) (by norm_num) (by norm_num) (by norm_num))
  have e8 : divF (dyad (-1) (-47)) (dyad (-1) (-48)) = .ok (dyad 1 1) :=
    dy_div (by norm_num) (fl_exact _ _ (by norm_num) (by norm_num) (by norm_num) (by norm_num))
  have e9 : dyad 2345624805922133 (-49) - dyad 1 1 = dyad 1219724899079509 (-49) :=
    dy_sub (fl_exact _ _ (by norm_num) (by norm_num) (by norm_num) (by norm_num))
  unfold newtonF
  simp only [e1, e2, e3, e4, e5, e6, e7]
  rw [dy_isZero, e8]
  show Except.ok (dyad 2345624805922133 (-49) - dyad 1 1) = _
  rw [e9]

/-- **C94 fails.**  `roots_quadratic(3, -25, 52.0833...)` in double precision, with the default number of Newton steps and any tolerance up to
0.01.  The two roots of the quadratic agree to six digits.  The second number returned is the one Newton step away from a good approximation: the
computed derivative is one rounding error, and the step is 2.  All roots are more than 1.9 away from it, and the value of the quadratic there
is not a rounding error. -/
theorem C94_refine_violated : ∃ q2 q1 q0 : FP float64, q2.num = 3 ∧ q1.num = -25 ∧ 52 < q0.num ∧ q0.num < 53 ∧
    (∃ t, quadF q2 q1 q0 t = 0) ∧
    ∀ (tol : FP float64), tol.Finite → 0 ≤ tol.num → tol.num ≤ 1 / 100 → ∃ r1 r2 : FP float64,
      rootsQuadraticF q2 q1 q0 tol 1 false = .ok [r1, r2] ∧ r2.Finite ∧
      (∀ t, quadF q2 q1 q0 t = 0 → 19 / 10 < |t - r2.num|) ∧
      1 / 11 * quadAbsF q2 q1 q0 r2.num ≤ |quadF q2 q1 q0 r2.num| := by
  have n2 : (dyad 3 0).num = 3 := by simp [dyad, FP.num]
  have n1 : (dyad (-25) 0).num = -25 := by simp [dyad, FP.num]
  have n0 : q0.num = 3665038759253333 / 2 ^ 46 := by
    show (3665038759253333 : ℤ) * (2:ℝ) ^ (-46 : ℤ) = _
    norm_num
  have nr : (dyad 1219724899079509 (-49)).num = 1219724899079509 / 2 ^ 49 := by
    show (1219724899079509 : ℤ) * (2:ℝ) ^ (-49 : ℤ) = _
    norm_num
  refine ⟨dyad 3 0, dyad (-25) 0, q0, n2, n1, by rw [n0]; norm_num, by rw [n0]; norm_num, ?_, ?_⟩
  · refine ⟨(25 + √(625 - 12 * (3665038759253333 / 2 ^ 46))) / 6, ?_⟩
    have h : √(625 - 12 * (3665038759253333 / 2 ^ 46) : ℝ) ^ 2 = 625 - 12 * (3665038759253333 / 2 ^ 46) := Real.sq_sqrt (by norm_num)
    rw [quadF, n2, n1, n0]
    nlinarith
  intro tol hf h0 h1
  refine ⟨dyad 4691249611844267 (-50), dyad 1219724899079509 (-49), ?_, rfl, ?_, ?_⟩
  · unfold rootsQuadraticF
    rw [start_double tol hf h0 h1]
    show refineF _ _ _ 1 [_, _] = _
    simp only [refineF, newtonsF, newton_first, newton_second]
    rfl
  · intro t ht
    rw [quadF, n2, n1, n0] at ht
    rw [nr, lt_abs]
    left
    have : 41 / 10 < t := by
      by_contra hlt
      push Not at hlt
      nlinarith
    norm_num
    linarith
  · rw [quadF, quadAbsF, n2, n1, n0, nr]
    norm_num

/-! ### Underflow -/

theorem fl_tiny {z : ℝ} (h : |z| ≤ 2 ^ (-1076 : ℤ)) : float64.fl z = some 0 := by
  have hr : roundEven (z / spacing 52 (-1074) z) = 0 := by
    by_cases h0 : z = 0
    · rw [h0, zero_div]
      exact roundEven_near (by norm_num)
    have hp : 0 < |z| := abs_pos.2 h0
    have hs : spacing 52 (-1074) z = 2 ^ (-1074 : ℤ) := by
      rw [spacing]
      congr 1
      have hlt : (2:ℝ) ^ (-1076 : ℤ) < 2 ^ (-1075 : ℤ) := zpow_lt_zpow_right₀ (by norm_num) (by norm_num)
      have e1 := (Int.lt_zpow_iff_log_lt (b := 2) (x := -1075) (by norm_num) hp).1 (lt_of_le_of_lt h hlt)
      push_cast at e1 ⊢
      omega
    rw [hs]
    refine roundEven_near ?_
    have hq : (0:ℝ) < 2 ^ (-1074 : ℤ) := by positivity
    have e : (2:ℝ) ^ (-1076 : ℤ) = 2 ^ (-1074 : ℤ) * (1 / 4) := by
      rw [show (-1076 : ℤ) = -1074 + -2 by norm_num, zpow_add₀ (by norm_num)]
      norm_num
    rw [e] at h
    generalize (2:ℝ) ^ (-1074 : ℤ) = b at *
    rw [Int.cast_zero, sub_zero, abs_div, abs_of_pos hq, div_lt_iff₀ hq]
    linarith
  show ieeeRound 52 (-1074) 1024 z = some _
  simp only [ieeeRound]
  rw [hr, if_pos]
  · simp
  · rw [Int.cast_zero, zero_mul, abs_zero]; positivity

theorem start_tiny (tol : FP float64) (hf : tol.Finite) (h0 : 0 ≤ tol.num) (h1 : tol.num ≤ 1 / 100) :
    startRootsF (dyad 1 (-700)) (dyad 1 (-700)) (dyad (-1) (-700)) tol false = .ok (.inr [dyad (-1) 0, dyad 0 0]) := by
  have hz : (⟨some 0⟩ : FP float64) = dyad 0 0 := by simp [dyad]
  have hb : (2:ℝ) ^ (-1400 : ℤ) = 2 ^ (-700 : ℤ) * 2 ^ (-700 : ℤ) := by rw [← zpow_add₀ (by norm_num)]; norm_num
  have hle : (2:ℝ) ^ (-1400 : ℤ) ≤ 2 ^ (-1076 : ℤ) := zpow_le_zpow_right₀ (by norm_num) (by norm_num)
  have e1 : dyad (-1) (-700) * dyad 1 (-700) = dyad 0 0 := by
    refine dy_mul ?_
    rw [fl_tiny]
    · simp
    · refine le_trans (le_of_eq ?_) hle
      rw [hb, abs_mul, abs_mul, abs_mul, abs_of_pos (show (0:ℝ) < 2 ^ (-700 : ℤ) by positivity)]
      simp
  have e2 : tol * dyad 1 (-700) * dyad 1 (-700) = dyad 0 0 := by
    have hp : (0:ℝ) < 2 ^ (-700 : ℤ) := by positivity
    have hp1 : (2:ℝ) ^ (-700 : ℤ) ≤ 1 := zpow_le_one_of_nonpos₀ (by norm_num) (by norm_num)
    have hbig : (1:ℝ) ≤ 2 ^ (1023 : ℤ) := one_le_zpow₀ (by norm_num) (by norm_num)
    have f1 : (tol * dyad 1 (-700)).Finite := by
      show (Option.bind _ _).isSome = true
      rw [FP.Finite.val_eq hf]
      refine float64_range _ (le_trans ?_ hbig)
      rw [Int.cast_one, one_mul, abs_of_nonneg (by positivity)]
      clear hbig hle hb
      nlinarith
    have n1 : (dyad 1 (-700)).num = 2 ^ (-700 : ℤ) := by simp [dyad, FP.num]
    obtain ⟨-, -, g⟩ := FP.mul_spec f1
    have ht : float64.tiny ≤ 2 ^ (-700 : ℤ) := zpow_le_zpow_right₀ (by norm_num) (by norm_num)
    have g2 := g.trans (add_le_add (mul_le_mul_of_nonneg_left (min_le_left _ _) float64.u_nonneg) ht)
    have hu : float64.u ≤ 1 := by
      show (2⁻¹ : ℝ) ^ 53 ≤ 1
      norm_num
    have hv := FP.Finite.val_eq f1
    rw [n1] at g2
    have g3 : |(tol * dyad 1 (-700)).num| ≤ 2 * 2 ^ (-700 : ℤ) := by
      have a1 : |tol.num * 2 ^ (-700 : ℤ)| ≤ 1 / 100 * 2 ^ (-700 : ℤ) := by
        rw [abs_of_nonneg (by positivity)]
        exact mul_le_mul_of_nonneg_right h1 hp.le
      have a2 := abs_sub_abs_le_abs_sub (tol * dyad 1 (-700)).num (tol.num * 2 ^ (-700 : ℤ))
      have a3 : float64.u * |tol.num * 2 ^ (-700 : ℤ)| ≤ 1 * (1 / 100 * 2 ^ (-700 : ℤ)) :=
        mul_le_mul hu a1 (abs_nonneg _) (by norm_num)
      clear hbig hle hb
      generalize (2:ℝ) ^ (-700 : ℤ) = b at *
      linarith
    show FP.op2 _ _ _ = _
    simp only [FP.op2]
    rw [hv]
    generalize (tol * dyad 1 (-700)).num = w at g3
    simp only [dyad, Option.bind_some]
    rw [fl_tiny]
    · simp
    · have hle2 : 2 * (2:ℝ) ^ (-1400 : ℤ) ≤ 2 ^ (-1076 : ℤ) := by
        rw [show (2:ℝ) * 2 ^ (-1400 : ℤ) = 2 ^ (-1399 : ℤ) by
          rw [show (-1399 : ℤ) = 1 + -1400 by norm_num, zpow_add₀ (by norm_num)]; norm_num]
        exact zpow_le_zpow_right₀ (by norm_num) (by norm_num)
      refine le_trans ?_ hle2
      rw [hb, Int.cast_one, one_mul, abs_mul, abs_of_pos hp, ← mul_assoc]
      exact mul_le_mul_of_nonneg_right g3 hp.le
  have e3 : divF (-dyad 1 (-700)) (dyad 1 (-700)) = .ok (dyad (-1) 0) := by
    rw [dy_neg]
    refine dy_div (by norm_num) (fl_exact _ _ ?_ (by norm_num) (by norm_num) (by norm_num))
    have hp : (0:ℝ) < 2 ^ (-700 : ℤ) := by positivity
    generalize (2:ℝ) ^ (-700 : ℤ) = b at *
    simp only [Int.cast_neg, Int.cast_one, zpow_zero]
    field_simp
  have habs : Scalar.abs (dyad 0 0) = dyad 0 0 := by
    show (⟨_⟩ : FP float64) = _
    simp [dyad]
  unfold startRootsF
  rw [dy_isZero]
  simp only [e1, e2, e3, habs]
  rw [dy_lt, hz]
  simp
  rfl

theorem newton_tiny1 : newtonF (dyad 1 (-700)) (dyad 1 (-700)) (dyad (-1) (-700)) (dyad (-1) 0) = .ok (dyad (-2) 0) := by
  have e1 : (⟨some 2⟩ : FP float64) * dyad 1 (-700) = dyad 2 (-700) := by
    rw [show (⟨some 2⟩ : FP float64) = dyad 2 0 by simp [dyad]]
    exact dyad_mul _ _ _ _ (by norm_num) (by norm_num) (by norm_num)
  have e2 : dyad 2 (-700) * dyad (-1) 0 = dyad (-2) (-700) := dyad_mul _ _ _ _ (by norm_num) (by norm_num) (by norm_num)
  have e3 : dyad (-2) (-700) + dyad 1 (-700) = dyad (-1) (-700) := dyad_add _ _ _ (by norm_num) (by norm_num) (by norm_num)
  have e4 : dyad 1 (-700) * dyad (-1) 0 = dyad (-1) (-700) := dyad_mul _ _ _ _ (by norm_num) (by norm_num) (by norm_num)
  have e5 : dyad (-1) (-700) + dyad 1 (-700) = dyad 0 (-700) := dyad_add _ _ _ (by norm_num) (by norm_num) (by norm_num)
  have e6 : dyad 0 (-700) * dyad (-1) 0 = dyad 0 (-700) := dyad_mul _ _ _ _ (by norm_num) (by norm_num) (by norm_num)
  have e7 : dyad 0 (-700) + dyad (-1) (-700) = dyad (-1) (-700) := dyad_add _ _ _ (by norm_num) (by norm_num) (by norm_num)
  have e8 : divF (dyad (-1) (-700)) (dyad (-1) (-700)) = .ok (dyad 1 0) := by
    refine dy_div (by norm_num) (fl_exact _ _ ?_ (by norm_num) (by norm_num) (by norm_num))
    have hp : (0:ℝ) < 2 ^ (-700 : ℤ) := by positivity
    generalize (2:ℝ) ^ (-700 : ℤ) = b at *
    simp only [Int.cast_neg, Int.cast_one, zpow_zero]
    field_simp
  have e9 : dyad (-1) 0 - dyad 1 0 = dyad (-2) 0 := dyad_sub _ _ _ (by norm_num) (by norm_num) (by norm_num)
  unfold newtonF
  simp only [e1, e2, e3, e4, e5, e6, e7]
  rw [dy_isZero, e8]
  show Except.ok (dyad (-1) 0 - dyad 1 0) = _
  rw [e9]

theorem newton_tiny2 : newtonF (dyad 1 (-700)) (dyad 1 (-700)) (dyad (-1) (-700)) (dyad 0 0) = .ok (dyad 1 0) := by
  have e1 : (⟨some 2⟩ : FP float64) * dyad 1 (-700) = dyad 2 (-700) := by
    rw [show (⟨some 2⟩ : FP float64) = dyad 2 0 by simp [dyad]]
    exact dyad_mul _ _ _ _ (by norm_num) (by norm_num) (by norm_num)
  have e2 : dyad 2 (-700) * dyad 0 0 = dyad 0 (-700) := dyad_mul _ _ _ _ (by norm_num) (by norm_num) (by norm_num)
  have e3 : dyad 0 (-700) + dyad 1 (-700) = dyad 1 (-700) := dyad_add _ _ _ (by norm_num) (by norm_num) (by norm_num)
  have e4 : dyad 1 (-700) * dyad 0 0 = dyad 0 (-700) := dyad_mul _ _ _ _ (by norm_num) (by norm_num) (by norm_num)
  have e7 : dyad 0 (-700) + dyad (-1) (-700) = dyad (-1) (-700) := dyad_add _ _ _ (by norm_num) (by norm_num) (by norm_num)
  have e8 : divF (dyad (-1) (-700)) (dyad 1 (-700)) = .ok (dyad (-1) 0) := by
    refine dy_div (by norm_num) (fl_exact _ _ ?_ (by norm_num) (by norm_num) (by norm_num))
    have hp : (0:ℝ) < 2 ^ (-700 : ℤ) := by positivity
    generalize (2:ℝ) ^ (-700 : ℤ) = b at *
    simp only [Int.cast_neg, Int.cast_one, zpow_zero]
    field_simp
  have e9 : dyad 0 0 - dyad (-1) 0 = dyad 1 0 := dyad_sub _ _ _ (by norm_num) (by norm_num) (by norm_num)
  unfold newtonF
  simp only [e1, e2, e3, e4, e7]
  rw [dy_isZero, e8]
  show Except.ok (dyad 0 0 - dyad (-1) 0) = _
  rw [e9]

/-- **C94 fails.**  `roots_quadratic(q, q, -q)` with `q = 2^-700` in double precision, with one Newton step and any tolerance up to 0.01, returns
the numbers -2 and 1.  Those are not close to the roots of `x² + x - 1`: the products of the coefficients underflow. -/
theorem C94_underflow_violated : ∃ q2 q1 q0 : FP float64, q2.num = 2 ^ (-700 : ℤ) ∧ q1.num = 2 ^ (-700 : ℤ) ∧ q0.num = -2 ^ (-700 : ℤ) ∧
    ∀ (tol : FP float64), tol.Finite → 0 ≤ tol.num → tol.num ≤ 1 / 100 →
      rootsQuadraticF q2 q1 q0 tol 1 false = .ok [⟨some (-2)⟩, ⟨some 1⟩] ∧
      (∀ t, quadF q2 q1 q0 t = 0 → 1 / 3 < |t - -2| ∧ 1 / 3 < |t - 1|) ∧
      ∀ r : ℝ, r = -2 ∨ r = 1 → 1 / 7 * quadAbsF q2 q1 q0 r ≤ |quadF q2 q1 q0 r| := by
  have n2 : (dyad 1 (-700)).num = 2 ^ (-700 : ℤ) := by simp [dyad, FP.num]
  have n0 : (dyad (-1) (-700)).num = -2 ^ (-700 : ℤ) := by simp [dyad, FP.num]
  refine ⟨dyad 1 (-700), dyad 1 (-700), dyad (-1) (-700), n2, n2, n0, ?_⟩
  intro tol hf h0 h1
  have hp : (0:ℝ) < 2 ^ (-700 : ℤ) := by positivity
  refine ⟨?_, ?_, ?_⟩
  · unfold rootsQuadraticF
    rw [start_tiny tol hf h0 h1]
    show refineF _ _ _ 1 [_, _] = _
    simp only [refineF, newtonsF, newton_tiny1, newton_tiny2]
    rw [show (⟨some (-2)⟩ : FP float64) = dyad (-2) 0 by simp [dyad], show (⟨some 1⟩ : FP float64) = dyad 1 0 by simp [dyad]]
    rfl
  · intro t ht
    rw [quadF, n2, n0] at ht
    generalize (2:ℝ) ^ (-700 : ℤ) = b at *
    have h : t ^ 2 + t - 1 = 0 := by
      have : b * (t ^ 2 + t - 1) = 0 := by linarith
      exact (mul_eq_zero.1 this).resolve_left hp.ne'
    rw [lt_abs, lt_abs]
    constructor
    · left; by_contra hc; push Not at hc
      nlinarith
    · right; by_contra hc; push Not at hc
      nlinarith
  · intro r hr
    rw [quadF, quadAbsF, n2, n0]
    generalize (2:ℝ) ^ (-700 : ℤ) = b at *
    rw [abs_neg, abs_of_pos hp]
    rcases hr with rfl | rfl
    · rw [show b * (-2) ^ 2 + b * -2 + -b = b by ring, abs_of_pos hp, abs_neg, abs_of_pos (by norm_num : (0:ℝ) < 2)]
      linarith
    · rw [show b * 1 ^ 2 + b * 1 + -b = b by ring, abs_of_pos hp, abs_one]
      linarith

end

end Verif.Tools
