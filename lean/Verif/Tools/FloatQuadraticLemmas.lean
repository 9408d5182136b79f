import Verif.Tools.FloatQuadratic
import Mathlib.Tactic.Linarith
import Mathlib.Tactic.LinearCombination
import Mathlib.Tactic.FieldSimp
import Mathlib.Tactic.Positivity

/-! # C94: error analysis of the formulas of `roots_quadratic`, in real numbers -/

namespace Verif.Tools.Quadratic

/-- the discriminant, from rounded products -/
theorem disc_error {e a2 a1 a0 p q4 q ρ : ℝ} (he : 0 ≤ e) (he' : e ≤ 1 / 100) (hp : |p - a1 * a1| ≤ e * |a1 * a1|) (hq4 : |q4 - 4 * a2| ≤ e * |4 * a2|)
    (hq : |q - q4 * a0| ≤ e * |q4 * a0|) (hρ : |ρ - (p - q)| ≤ e * |p - q|) :
    |ρ - (a1 ^ 2 - 4 * a0 * a2)| ≤ 3.04 * e * (a1 ^ 2 + 4 * |a0 * a2|) := by
  have hA : |a1 * a1| = a1 ^ 2 := by rw [← sq, abs_of_nonneg (sq_nonneg _)]
  have hB : |4 * a2| * |a0| = 4 * |a0 * a2| := by rw [abs_mul, abs_mul, abs_of_pos (by norm_num : (0:ℝ) < 4)]; ring
  have h0 := abs_nonneg (a0 * a2)
  have h1 := sq_nonneg a1
  set A := a1 ^ 2
  set B := |a0 * a2|
  rw [hA] at hp
  have b1 : |q4 * a0 - 4 * a0 * a2| ≤ e * (4 * B) := by
    rw [show q4 * a0 - 4 * a0 * a2 = (q4 - 4 * a2) * a0 by ring, abs_mul, ← hB, ← mul_assoc]
    exact mul_le_mul_of_nonneg_right hq4 (abs_nonneg _)
  have hC : |4 * a0 * a2| = 4 * B := by rw [mul_assoc, abs_mul, abs_of_pos (by norm_num : (0:ℝ) < 4)]
  have b2 : |q4 * a0| ≤ (1 + e) * (4 * B) := by
    have := abs_sub_abs_le_abs_sub (q4 * a0) (4 * a0 * a2)
    linarith
  have b3 : |q - 4 * a0 * a2| ≤ (2.01 * e) * (4 * B) := by
    have := abs_sub_le q (q4 * a0) (4 * a0 * a2)
    have h3 : e * |q4 * a0| ≤ e * ((1 + e) * (4 * B)) := mul_le_mul_of_nonneg_left b2 he
    have h4 : e * (e * (4 * B)) ≤ 1 / 100 * (e * (4 * B)) := mul_le_mul_of_nonneg_right he' (by positivity)
    linarith
  have b4 : |p - q - (A - 4 * a0 * a2)| ≤ e * A + 2.01 * e * (4 * B) := by
    have := abs_sub (p - a1 * a1) (q - 4 * a0 * a2)
    have e1 : p - a1 * a1 - (q - 4 * a0 * a2) = p - q - (A - 4 * a0 * a2) := by simp only [A]; ring
    rw [e1] at this
    linarith
  have b5 : |p - q| ≤ (1 + e) * A + (1 + 2.01 * e) * (4 * B) := by
    have h5 := abs_sub_abs_le_abs_sub (p - q) (A - 4 * a0 * a2)
    have h6 := abs_sub A (4 * a0 * a2)
    rw [abs_of_nonneg h1, hC] at h6
    linarith
  have b6 := abs_sub_le ρ (p - q) (A - 4 * a0 * a2)
  have b7 : e * |p - q| ≤ e * ((1 + e) * A + (1 + 2.01 * e) * (4 * B)) := mul_le_mul_of_nonneg_left b5 he
  have b8 : e * (e * A) ≤ 1 / 100 * (e * A) := mul_le_mul_of_nonneg_right he' (by positivity)
  have b9 : e * (e * B) ≤ 1 / 100 * (e * B) := mul_le_mul_of_nonneg_right he' (by positivity)
  have b10 : 0 ≤ e * A := by positivity
  have b11 : 0 ≤ e * B := by positivity
  linarith

/-- the number `d` nearly solves `d² + a1 d + a0 a2 = 0` -/
theorem d_error {e a2 a1 a0 ρ s c t d : ℝ} (he : 0 ≤ e) (he' : e ≤ 1 / 100) (hρ : |ρ - (a1 ^ 2 - 4 * a0 * a2)| ≤ 3.04 * e * (a1 ^ 2 + 4 * |a0 * a2|))
    (h0 : 0 ≤ ρ) (hs : |s - √ρ| ≤ e * √ρ) (hc : |c| = |s|) (hc' : 0 ≤ a1 * c) (ht : |t - (a1 + c)| ≤ e * |a1 + c|)
    (hd : |d - -(1 / 2) * t| ≤ e * |-(1 / 2) * t|) :
    |d ^ 2 + a1 * d + a0 * a2| ≤ 5.2 * e * (d ^ 2 + |a1| * |d| + |a0 * a2|) := by
  have hW : 0 ≤ a1 ^ 2 + 4 * |a0 * a2| := by positivity
  set W := a1 ^ 2 + 4 * |a0 * a2| with hWdef
  have hr : √ρ * √ρ = ρ := Real.mul_self_sqrt h0
  have hr0 := Real.sqrt_nonneg ρ
  -- s² against ρ
  have s1 : |s + √ρ| ≤ (2 + e) * √ρ := by
    have := abs_add_le (s - √ρ) (2 * √ρ)
    rw [show s - √ρ + 2 * √ρ = s + √ρ by ring, abs_of_nonneg (by positivity : 0 ≤ 2 * √ρ)] at this
    linarith
  have s2 : |s ^ 2 - ρ| ≤ 2.01 * e * ρ := by
    have : s ^ 2 - ρ = (s - √ρ) * (s + √ρ) := by linear_combination hr
    rw [this, abs_mul]
    calc _ ≤ e * √ρ * ((2 + e) * √ρ) := mul_le_mul hs s1 (abs_nonneg _) (by positivity)
      _ = e * (2 + e) * ρ := by linear_combination e * (2 + e) * hr
      _ ≤ _ := by
        have : e * (e * ρ) ≤ 1 / 100 * (e * ρ) := mul_le_mul_of_nonneg_right he' (by positivity)
        linarith
  have hD : |a1 ^ 2 - 4 * a0 * a2| ≤ W := by
    have := abs_sub (a1 ^ 2) (4 * (a0 * a2))
    rw [abs_of_nonneg (sq_nonneg a1), abs_mul, abs_of_pos (by norm_num : (0:ℝ) < 4)] at this
    rwa [mul_assoc]
  have r1 : ρ ≤ 1.0304 * W := by
    have := abs_sub_abs_le_abs_sub ρ (a1 ^ 2 - 4 * a0 * a2)
    rw [abs_of_nonneg h0] at this
    have : e * W ≤ 1 / 100 * W := mul_le_mul_of_nonneg_right he' hW
    linarith
  have s3 : |s ^ 2 - (a1 ^ 2 - 4 * a0 * a2)| ≤ 5.12 * (e * W) := by
    have h1 := abs_sub_le (s ^ 2) ρ (a1 ^ 2 - 4 * a0 * a2)
    have h2 : e * ρ ≤ e * (1.0304 * W) := mul_le_mul_of_nonneg_left r1 he
    have h3 : 0 ≤ e * W := by positivity
    linarith
  -- the exact d0
  obtain ⟨d0, hd0⟩ : ∃ d0, d0 = -(1 / 2) * (a1 + c) := ⟨_, rfl⟩
  have hcs : c ^ 2 = s ^ 2 := sq_eq_sq_iff_abs_eq_abs _ _ |>.2 hc
  have q1 : |d0 ^ 2 + a1 * d0 + a0 * a2| ≤ 1.28 * (e * W) := by
    have : d0 ^ 2 + a1 * d0 + a0 * a2 = 1 / 4 * (s ^ 2 - (a1 ^ 2 - 4 * a0 * a2)) := by rw [← hcs, hd0]; ring
    rw [this, abs_mul, abs_of_pos (by norm_num : (0:ℝ) < 1 / 4)]
    linarith
  have ha : |a1 + c| = 2 * |d0| := by
    rw [hd0, abs_mul, show |(-(1 / 2) : ℝ)| = 1 / 2 by norm_num]; ring
  have hac : |a1| ≤ 2 * |d0| := by
    rw [← ha]
    refine sq_le_sq.1 ?_
    nlinarith [sq_nonneg c]
  have d1 : |d - d0| ≤ 2.01 * (e * |d0|) := by
    have e1 : |-(1 / 2) * t - d0| ≤ e * |d0| := by
      rw [show -(1 / 2) * t - d0 = -(1 / 2) * (t - (a1 + c)) by rw [hd0]; ring, abs_mul, show |(-(1 / 2) : ℝ)| = 1 / 2 by norm_num]
      rw [ha] at ht
      linarith
    have e2 : |-(1 / 2) * t| ≤ (1 + e) * |d0| := by
      have := abs_sub_abs_le_abs_sub (-(1 / 2) * t) d0
      linarith
    have e3 := abs_sub_le d (-(1 / 2) * t) d0
    have e4 : e * |-(1 / 2) * t| ≤ e * ((1 + e) * |d0|) := mul_le_mul_of_nonneg_left e2 he
    have e5 : e * (e * |d0|) ≤ 1 / 100 * (e * |d0|) := mul_le_mul_of_nonneg_right he' (by positivity)
    linarith
  have d2 : |d0| ≤ 1.021 * |d| := by
    have e1 := abs_sub_abs_le_abs_sub d0 d
    rw [abs_sub_comm] at e1
    have e2 : e * |d0| ≤ 1 / 100 * |d0| := mul_le_mul_of_nonneg_right he' (abs_nonneg _)
    have e3 := abs_nonneg d
    linarith
  have d3 : |d - d0| ≤ 2.053 * (e * |d|) := by
    have e1 : e * |d0| ≤ e * (1.021 * |d|) := mul_le_mul_of_nonneg_left d2 he
    have e2 : 0 ≤ e * |d| := by positivity
    linarith
  have hd2 : |d| * |d| = d ^ 2 := by rw [← abs_mul, ← sq, abs_of_nonneg (sq_nonneg d)]
  have d4 : |d + d0 + a1| ≤ 2.021 * |d| + |a1| := by
    have e1 := abs_add_le (d + d0) a1
    have e2 := abs_add_le d d0
    linarith
  have d5 : |(d - d0) * (d + d0 + a1)| ≤ 2.053 * (e * |d|) * (2.021 * |d| + |a1|) := by
    rw [abs_mul]
    exact mul_le_mul d3 d4 (abs_nonneg _) (by positivity)
  have hW2 : e * W ≤ e * (2.042 * (|a1| * |d|) + 4 * |a0 * a2|) := by
    refine mul_le_mul_of_nonneg_left ?_ he
    have e1 : a1 ^ 2 ≤ |a1| * (2.042 * |d|) := by
      rw [← sq_abs, sq]
      exact mul_le_mul_of_nonneg_left (by linarith) (abs_nonneg _)
    rw [hWdef]
    linarith
  have fin := abs_add_le (d0 ^ 2 + a1 * d0 + a0 * a2) ((d - d0) * (d + d0 + a1))
  rw [show d0 ^ 2 + a1 * d0 + a0 * a2 + (d - d0) * (d + d0 + a1) = d ^ 2 + a1 * d + a0 * a2 by ring] at fin
  have f1 : 0 ≤ e * d ^ 2 := by positivity
  have f2 : 0 ≤ e * (|a1| * |d|) := by positivity
  have f3 : 0 ≤ e * |a0 * a2| := by positivity
  have f4 : 2.053 * (e * |d|) * (2.021 * |d| + |a1|) = 2.053 * 2.021 * (e * d ^ 2) + 2.053 * (e * (|a1| * |d|)) := by rw [← hd2]; ring
  rw [f4] at d5
  linarith

/-- from a point to its rounded value -/
theorem round_error {e κ a2 a1 a0 x r : ℝ} (he : 0 ≤ e) (he' : e ≤ 1 / 100) (hκ : 0 ≤ κ)
    (hx : |a2 * x ^ 2 + a1 * x + a0| ≤ κ * (|a2| * x ^ 2 + |a1| * |x| + |a0|)) (hr : |r - x| ≤ e * |r|) :
    |a2 * r ^ 2 + a1 * r + a0| ≤ (1.0201 * κ + 2.01 * e) * (|a2| * r ^ 2 + |a1| * |r| + |a0|) := by
  have x1 : |x| ≤ (1 + e) * |r| := by
    have := abs_sub_abs_le_abs_sub x r
    rw [abs_sub_comm] at this
    linarith
  have x1' : |x| ≤ 1.01 * |r| := x1.trans (mul_le_mul_of_nonneg_right (by linarith) (abs_nonneg _))
  have x2 : x ^ 2 ≤ 1.0201 * r ^ 2 := by
    rw [← sq_abs x, ← sq_abs r]
    nlinarith [abs_nonneg x, abs_nonneg r]
  have x3 : |a2| * x ^ 2 + |a1| * |x| + |a0| ≤ 1.0201 * (|a2| * r ^ 2 + |a1| * |r| + |a0|) := by
    have h1 : |a2| * x ^ 2 ≤ |a2| * (1.0201 * r ^ 2) := mul_le_mul_of_nonneg_left x2 (abs_nonneg _)
    have h2 : |a1| * |x| ≤ |a1| * (1.01 * |r|) := mul_le_mul_of_nonneg_left x1' (abs_nonneg _)
    have h3 := abs_nonneg a0
    have h4 : 0 ≤ |a1| * |r| := by positivity
    linarith
  have y1 : |(r - x) * (a2 * (r + x) + a1)| ≤ e * |r| * (|a2| * (2.01 * |r|) + |a1|) := by
    rw [abs_mul]
    refine mul_le_mul hr ?_ (abs_nonneg _) (by positivity)
    refine (abs_add_le _ _).trans (add_le_add ?_ le_rfl)
    rw [abs_mul]
    refine mul_le_mul_of_nonneg_left ?_ (abs_nonneg _)
    have := abs_add_le r x
    linarith
  have fin := abs_add_le (a2 * x ^ 2 + a1 * x + a0) ((r - x) * (a2 * (r + x) + a1))
  rw [show a2 * x ^ 2 + a1 * x + a0 + (r - x) * (a2 * (r + x) + a1) = a2 * r ^ 2 + a1 * r + a0 by ring] at fin
  have y2 : κ * (|a2| * x ^ 2 + |a1| * |x| + |a0|) ≤ κ * (1.0201 * (|a2| * r ^ 2 + |a1| * |r| + |a0|)) := mul_le_mul_of_nonneg_left x3 hκ
  have y3 : e * |r| * (|a2| * (2.01 * |r|) + |a1|) = 2.01 * (e * (|a2| * r ^ 2)) + e * (|a1| * |r|) := by rw [← sq_abs r]; ring
  rw [y3] at y1
  have y4 : 0 ≤ e * (|a1| * |r|) := by positivity
  have y5 : 0 ≤ e * |a0| := by positivity
  linarith

theorem first_root {κ a2 a1 a0 d : ℝ} (h2 : a2 ≠ 0) (h : |d ^ 2 + a1 * d + a0 * a2| ≤ κ * (d ^ 2 + |a1| * |d| + |a0 * a2|)) :
    |a2 * (d / a2) ^ 2 + a1 * (d / a2) + a0| ≤ κ * (|a2| * (d / a2) ^ 2 + |a1| * |d / a2| + |a0|) := by
  have hp : 0 < |a2| := abs_pos.2 h2
  have e1 : a2 * (d / a2) ^ 2 + a1 * (d / a2) + a0 = (d ^ 2 + a1 * d + a0 * a2) / a2 := by field_simp
  have e2 : |a2| * (d / a2) ^ 2 + |a1| * |d / a2| + |a0| = (d ^ 2 + |a1| * |d| + |a0 * a2|) / |a2| := by
    rw [abs_div, abs_mul, ← sq_abs (d / a2), abs_div, ← sq_abs d]; field_simp
  rw [e1, e2, abs_div, ← mul_div_assoc]
  gcongr

theorem second_root {κ a2 a1 a0 d : ℝ} (hd : d ≠ 0) (h : |d ^ 2 + a1 * d + a0 * a2| ≤ κ * (d ^ 2 + |a1| * |d| + |a0 * a2|)) :
    |a2 * (a0 / d) ^ 2 + a1 * (a0 / d) + a0| ≤ κ * (|a2| * (a0 / d) ^ 2 + |a1| * |a0 / d| + |a0|) := by
  have hp : 0 < |d| := abs_pos.2 hd
  have e1 : a2 * (a0 / d) ^ 2 + a1 * (a0 / d) + a0 = (a0 / d ^ 2) * (d ^ 2 + a1 * d + a0 * a2) := by field_simp; ring
  have e2 : |a2| * (a0 / d) ^ 2 + |a1| * |a0 / d| + |a0| = |a0 / d ^ 2| * (d ^ 2 + |a1| * |d| + |a0 * a2|) := by
    rw [abs_div, abs_mul, abs_div, abs_pow, ← sq_abs (a0 / d), abs_div, ← sq_abs d]; field_simp; ring
  rw [e1, e2, abs_mul]
  calc _ ≤ |a0 / d ^ 2| * (κ * (d ^ 2 + |a1| * |d| + |a0 * a2|)) := mul_le_mul_of_nonneg_left h (abs_nonneg _)
    _ = _ := by ring

end Verif.Tools.Quadratic
