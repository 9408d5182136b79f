import Verif.Solver.FloatProps

/-! # Which numbers `float64` represents, and which results overflow -/

namespace Verif.Solver
open Scalar Vect

theorem ieeeRound_err (p : ℕ) (emin : ℤ) (z : ℝ) :
    |(roundEven (z / spacing p emin z) : ℝ) * spacing p emin z - z| ≤ spacing p emin z / 2 := by
  set a := spacing p emin z with ha
  have ha0 : 0 < a := by rw [ha, spacing]; positivity
  have : (roundEven (z / a) : ℝ) * a - z = ((roundEven (z / a) : ℝ) - z / a) * a := by field_simp
  rw [this, abs_mul, abs_of_pos ha0]
  nlinarith [roundEven_err (z / a)]

/-- a result does not overflow unless it exceeds `2^1023` -/
theorem float64_range (z : ℝ) (h : |z| ≤ 2 ^ (1023 : ℤ)) : (float64.fl z).isSome = true := by
  show (ieeeRound 52 (-1074) 1024 z).isSome = true
  have h1 := ieeeRound_err 52 (-1074) z
  simp only [ieeeRound]
  rw [if_pos]
  · rfl
  set a := spacing 52 (-1074) z with ha
  have h2 : a ≤ |z| + 1 := by
    rw [ha, spacing]
    rcases eq_or_ne z 0 with rfl | hz
    · have : (2:ℝ) ^ (max (Int.log 2 |(0:ℝ)| - (52 : ℕ)) (-1074)) ≤ 2 ^ (0 : ℤ) := by
        refine zpow_le_zpow_right₀ (by norm_num) ?_
        rw [abs_zero, Int.log_zero_right]
        norm_num
      rw [zpow_zero] at this
      rw [abs_zero, zero_add]
      rw [abs_zero] at this
      exact this
    have hp : 0 < |z| := abs_pos.2 hz
    have e1 : (2:ℝ) ^ (Int.log 2 |z|) ≤ |z| := by
      have := Int.zpow_log_le_self (b := 2) (by norm_num) hp
      exact_mod_cast this
    rcases max_cases (Int.log 2 |z| - (52 : ℕ)) (-1074) with ⟨e, _⟩ | ⟨e, _⟩
    · rw [e]
      have : (2:ℝ) ^ (Int.log 2 |z| - (52 : ℕ)) ≤ 2 ^ (Int.log 2 |z|) := zpow_le_zpow_right₀ (by norm_num) (by omega)
      linarith
    · rw [e]
      have : (2:ℝ) ^ (-1074 : ℤ) ≤ 2 ^ (0 : ℤ) := zpow_le_zpow_right₀ (by norm_num) (by norm_num)
      rw [zpow_zero] at this
      linarith
  have h3 : |(roundEven (z / a) : ℝ) * a| ≤ |z| + a / 2 := by
    have := abs_sub_abs_le_abs_sub ((roundEven (z / a) : ℝ) * a) z
    linarith
  have h4 : (2:ℝ) ^ (1024 : ℤ) = 2 * 2 ^ (1023 : ℤ) := by
    rw [show (1024 : ℤ) = 1 + 1023 by norm_num, zpow_add₀ (by norm_num), zpow_one]
  have h5 : (2:ℝ) ^ (1 : ℤ) ≤ 2 ^ (1023 : ℤ) := zpow_le_zpow_right₀ (by norm_num) (by norm_num)
  rw [zpow_one] at h5
  rw [h4]
  generalize (2:ℝ) ^ (1023 : ℤ) = M at *
  clear h4 h1 ha
  linarith

/-- the spacing of the numbers around `m 2^k` divides `2^l`, if `|m 2^k| < 2^(53 + l)` -/
theorem spacing_le (z : ℝ) (l : ℤ) (hl : -1074 ≤ l) (h0 : z ≠ 0) (hz : |z| < 2 ^ (53 + l)) : ∃ e : ℕ, spacing 52 (-1074) z = 2 ^ l * (2 ^ e)⁻¹ := by
  have h1 : max (Int.log 2 |z| - 52) (-1074) ≤ l := by
    refine max_le ?_ hl
    have := (Int.lt_zpow_iff_log_lt (b := 2) (by norm_num) (abs_pos.2 h0)).1 (by exact_mod_cast hz)
    omega
  refine ⟨(l - max (Int.log 2 |z| - 52) (-1074)).toNat, ?_⟩
  rw [spacing, ← zpow_natCast, ← zpow_neg, ← zpow_add₀ (by norm_num)]
  congr 1
  push_cast
  omega

/-- `m 2^k` is a `float64` number, if `m` has less than 54 bits and `k` is not extreme -/
theorem float64_dyadic (m : ℤ) (k : ℤ) (h : |m| < 2 ^ 53) (hk : -1074 ≤ k) (hk' : k ≤ 900) : float64.fl ((m : ℝ) * 2 ^ k) = some ((m : ℝ) * 2 ^ k) := by
  show ieeeRound 52 (-1074) 1024 ((m : ℝ) * 2 ^ k) = some ((m : ℝ) * 2 ^ k)
  have hm : |(m : ℝ)| < 2 ^ 53 := by
    have : ((|m| : ℤ) : ℝ) < ((2 ^ 53 : ℤ) : ℝ) := by exact_mod_cast h
    rw [Int.cast_abs, Int.cast_pow] at this
    exact this
  have hp : (0:ℝ) < 2 ^ k := by positivity
  have hz : |(m : ℝ) * 2 ^ k| < 2 ^ (53 + k) := by
    rw [abs_mul, abs_of_pos hp, zpow_add₀ (by norm_num), show ((2:ℝ) ^ (53 : ℤ)) = 2 ^ 53 from zpow_natCast 2 53]
    exact mul_lt_mul_of_pos_right hm hp
  rcases eq_or_ne m 0 with rfl | h0
  · have e2 : ∀ a : ℝ, roundEven (0 / a) = 0 := by simp [roundEven]
    have e3 : (0:ℝ) < 2 ^ (1024 : ℤ) := by positivity
    simp only [ieeeRound, Int.cast_zero, zero_mul, e2, abs_zero, if_pos e3]
  obtain ⟨e, hs⟩ := spacing_le _ k hk (mul_ne_zero (by exact_mod_cast h0) hp.ne') hz
  have hr : roundEven ((m : ℝ) * 2 ^ k / (2 ^ k * (2 ^ e)⁻¹)) = m * 2 ^ e := by
    have : (m : ℝ) * 2 ^ k / (2 ^ k * (2 ^ e)⁻¹) = ((m * 2 ^ e : ℤ) : ℝ) := by push_cast; field_simp
    rw [this, roundEven, Int.fract_intCast, if_neg (by norm_num), round_intCast]
  simp only [ieeeRound, hs, hr]
  have hy : ((m * 2 ^ e : ℤ) : ℝ) * (2 ^ k * (2 ^ e)⁻¹) = m * 2 ^ k := by push_cast; field_simp
  rw [hy, if_pos]
  exact hz.trans_le (zpow_le_zpow_right₀ (by norm_num) (by omega))

/-- an odd number of 54 bits is rounded to the multiple of 4 next to it -/
theorem float64_tie (q : ℤ) (k : ℤ) (h1 : 2 ^ 53 ≤ |4 * q + 1|) (h : |4 * q + 1| < 2 ^ 54) (hk : -1074 ≤ k) (hk' : k ≤ 900) :
    float64.fl (((4 * q + 1 : ℤ) : ℝ) * 2 ^ k) = some (((4 * q : ℤ) : ℝ) * 2 ^ k) := by
  show ieeeRound 52 (-1074) 1024 _ = some _
  have hp : (0:ℝ) < 2 ^ k := by positivity
  have hz : |((4 * q + 1 : ℤ) : ℝ) * 2 ^ k| < 2 ^ (54 + k) := by
    have : ((|4 * q + 1| : ℤ) : ℝ) < ((2 ^ 54 : ℤ) : ℝ) := by exact_mod_cast h
    rw [Int.cast_abs, Int.cast_pow] at this
    rw [abs_mul, abs_of_pos hp, zpow_add₀ (by norm_num), show ((2:ℝ) ^ (54 : ℤ)) = 2 ^ 54 from zpow_natCast 2 54]
    exact mul_lt_mul_of_pos_right this hp
  have hz1 : (2:ℝ) ^ (53 + k) ≤ |((4 * q + 1 : ℤ) : ℝ) * 2 ^ k| := by
    have : ((2 ^ 53 : ℤ) : ℝ) ≤ ((|4 * q + 1| : ℤ) : ℝ) := by exact_mod_cast h1
    rw [Int.cast_abs, Int.cast_pow] at this
    rw [abs_mul, abs_of_pos hp, zpow_add₀ (by norm_num), show ((2:ℝ) ^ (53 : ℤ)) = 2 ^ 53 from zpow_natCast 2 53]
    exact mul_le_mul_of_nonneg_right this hp.le
  have hpos : 0 < |((4 * q + 1 : ℤ) : ℝ) * 2 ^ k| := lt_of_lt_of_le (by positivity) hz1
  have hs : spacing 52 (-1074) (((4 * q + 1 : ℤ) : ℝ) * 2 ^ k) = 2 ^ (k + 1) := by
    rw [spacing]
    congr 1
    have e1 := (Int.lt_zpow_iff_log_lt (b := 2) (by norm_num) hpos).1 (by exact_mod_cast hz)
    have e2 := (Int.zpow_le_iff_le_log (b := 2) (by norm_num) hpos).1 (by exact_mod_cast hz1)
    push_cast at e1 e2 ⊢
    omega
  have hr : roundEven (((4 * q + 1 : ℤ) : ℝ) * 2 ^ k / 2 ^ (k + 1)) = 2 * q := by
    have e : ((4 * q + 1 : ℤ) : ℝ) * 2 ^ k / 2 ^ (k + 1) = ((2 * q : ℤ) : ℝ) + 1 / 2 := by
      rw [zpow_add₀ (by norm_num), zpow_one]
      push_cast
      field_simp
      ring
    have hfl : ⌊((2 * q : ℤ) : ℝ) + 1 / 2⌋ = 2 * q := by
      rw [Int.floor_intCast_add]
      norm_num
    rw [e, roundEven, if_pos, hfl, if_pos (even_two_mul q)]
    rw [Int.fract, hfl]
    ring
  simp only [ieeeRound, hs, hr]
  have hy : ((2 * q : ℤ) : ℝ) * 2 ^ (k + 1) = ((4 * q : ℤ) : ℝ) * 2 ^ k := by
    rw [zpow_add₀ (by norm_num), zpow_one]; push_cast; ring
  rw [hy, if_pos]
  have : |4 * q| < 2 ^ 55 := by
    have := abs_sub_abs_le_abs_sub (4 * q) (4 * q + 1)
    have e : |4 * q - (4 * q + 1)| = 1 := by rw [show 4 * q - (4 * q + 1) = -1 by ring]; rfl
    omega
  have hm : ((|4 * q| : ℤ) : ℝ) < ((2 ^ 55 : ℤ) : ℝ) := by exact_mod_cast this
  rw [Int.cast_abs, Int.cast_pow] at hm
  rw [abs_mul, abs_of_pos hp]
  calc |((4 * q : ℤ) : ℝ)| * 2 ^ k < 2 ^ 55 * 2 ^ k := mul_lt_mul_of_pos_right hm hp
    _ = 2 ^ (55 + k) := by rw [zpow_add₀ (by norm_num), show ((2:ℝ) ^ (55 : ℤ)) = 2 ^ 55 from zpow_natCast 2 55]
    _ ≤ _ := zpow_le_zpow_right₀ (by norm_num) (by omega)

end Verif.Solver
