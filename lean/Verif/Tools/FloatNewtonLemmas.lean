import Verif.Tools.FloatQuadraticLemmas

/-! # C94: error analysis of the Newton steps of `roots_quadratic`, in real numbers -/

namespace Verif.Tools.Quadratic

/-- the value of the quadratic by Horner's rule -/
theorem value_error {e a2 a1 a0 r m1 s1 m2 v : ℝ} (he : 0 ≤ e) (he' : e ≤ 1 / 100) (h1 : |m1 - a2 * r| ≤ e * |a2 * r|)
    (h2 : |s1 - (m1 + a1)| ≤ e * |m1 + a1|) (h3 : |m2 - s1 * r| ≤ e * |s1 * r|) (h4 : |v - (m2 + a0)| ≤ e * |m2 + a0|) :
    |v - (a2 * r ^ 2 + a1 * r + a0)| ≤ 4.1 * e * (|a2| * r ^ 2 + |a1| * |r| + |a0|) := by
  have hM : |a2 * r| = |a2| * |r| := abs_mul _ _
  set M := |a2| * |r| with hMdef
  have hM0 : 0 ≤ M := by positivity
  have ha1 := abs_nonneg a1
  have hr0 := abs_nonneg r
  have small : ∀ x : ℝ, 0 ≤ x → e * (e * x) ≤ 1 / 100 * (e * x) := fun x hx => mul_le_mul_of_nonneg_right he' (by positivity)
  rw [hM] at h1
  have b1 : |m1| ≤ (1 + e) * M := by
    have := abs_sub_abs_le_abs_sub m1 (a2 * r)
    rw [hM] at this
    linarith
  have b2 : |m1 + a1| ≤ (1 + e) * M + |a1| := (abs_add_le _ _).trans (by linarith)
  have b3 : |s1 - (a2 * r + a1)| ≤ e * (2.01 * M + |a1|) := by
    have g1 := abs_add_le (s1 - (m1 + a1)) (m1 - a2 * r)
    rw [show s1 - (m1 + a1) + (m1 - a2 * r) = s1 - (a2 * r + a1) by ring] at g1
    have g2 : e * |m1 + a1| ≤ e * ((1 + e) * M + |a1|) := mul_le_mul_of_nonneg_left b2 he
    have g3 := small M hM0
    linarith
  have b4 : |s1| ≤ (1 + 2.01 * e) * M + (1 + e) * |a1| := by
    have g1 := abs_sub_abs_le_abs_sub s1 (a2 * r + a1)
    have g2 := abs_add_le (a2 * r) a1
    rw [hM] at g2
    linarith
  have b5 : |m2 - (a2 * r + a1) * r| ≤ e * (3.04 * M + 2.01 * |a1|) * |r| := by
    have g1 := abs_add_le (m2 - s1 * r) ((s1 - (a2 * r + a1)) * r)
    rw [show m2 - s1 * r + (s1 - (a2 * r + a1)) * r = m2 - (a2 * r + a1) * r by ring, abs_mul (s1 - _)] at g1
    rw [abs_mul] at h3
    have g2 : |s1 - (a2 * r + a1)| * |r| ≤ e * (2.01 * M + |a1|) * |r| := mul_le_mul_of_nonneg_right b3 hr0
    have g3 : e * (|s1| * |r|) ≤ e * (((1 + 2.01 * e) * M + (1 + e) * |a1|) * |r|) :=
      mul_le_mul_of_nonneg_left (mul_le_mul_of_nonneg_right b4 hr0) he
    have g4 := small (M * |r|) (by positivity)
    have g5 := small (|a1| * |r|) (by positivity)
    have g6 : 0 ≤ e * (M * |r|) := by positivity
    linarith
  have b6 : |m2| ≤ (1 + 3.04 * e) * (M * |r|) + (1 + 2.01 * e) * (|a1| * |r|) := by
    have g1 := abs_sub_abs_le_abs_sub m2 ((a2 * r + a1) * r)
    have g2 : |(a2 * r + a1) * r| ≤ (M + |a1|) * |r| := by
      rw [abs_mul]
      refine mul_le_mul_of_nonneg_right ?_ hr0
      rw [← hM]
      exact abs_add_le _ _
    linarith
  have b7 : e * |m2 + a0| ≤ e * ((1 + 3.04 * e) * (M * |r|) + (1 + 2.01 * e) * (|a1| * |r|) + |a0|) :=
    mul_le_mul_of_nonneg_left ((abs_add_le _ _).trans (by linarith)) he
  have g1 := abs_add_le (v - (m2 + a0)) (m2 - (a2 * r + a1) * r)
  rw [show v - (m2 + a0) + (m2 - (a2 * r + a1) * r) = v - (a2 * r ^ 2 + a1 * r + a0) by ring] at g1
  have hMr : M * |r| = |a2| * r ^ 2 := by rw [hMdef, ← sq_abs r]; ring
  rw [← hMr]
  have g4 := small (M * |r|) (by positivity)
  have g5 := small (|a1| * |r|) (by positivity)
  have g6 : 0 ≤ e * (M * |r|) := by positivity
  have g7 : 0 ≤ e * (|a1| * |r|) := by positivity
  have g8 : 0 ≤ e * |a0| := by positivity
  linarith

/-- the derivative -/
theorem derivative_error {e a2 a1 r b1 m3 D' : ℝ} (he : 0 ≤ e) (he' : e ≤ 1 / 100) (h1 : |b1 - 2 * a2| ≤ e * |2 * a2|)
    (h2 : |m3 - b1 * r| ≤ e * |b1 * r|) (h3 : |D' - (m3 + a1)| ≤ e * |m3 + a1|) :
    |D' - (2 * a2 * r + a1)| ≤ 3.1 * e * (2 * |a2| * |r| + |a1|) := by
  have hr0 := abs_nonneg r
  have hM : |2 * a2 * r| = 2 * |a2| * |r| := by rw [abs_mul, abs_mul, abs_of_pos (by norm_num : (0:ℝ) < 2)]
  have hM0 : 0 ≤ 2 * |a2| * |r| := by positivity
  have b1' : |b1 * r - 2 * a2 * r| ≤ e * (2 * |a2| * |r|) := by
    rw [← hM, abs_mul (2 * a2), ← mul_assoc, show b1 * r - 2 * a2 * r = (b1 - 2 * a2) * r by ring, abs_mul]
    exact mul_le_mul_of_nonneg_right h1 hr0
  set M := 2 * |a2| * |r|
  have b2 : |b1 * r| ≤ (1 + e) * M := by
    have := abs_sub_abs_le_abs_sub (b1 * r) (2 * a2 * r)
    linarith
  have small : e * (e * M) ≤ 1 / 100 * (e * M) := mul_le_mul_of_nonneg_right he' (by positivity)
  have b3 : |m3 - 2 * a2 * r| ≤ 2.01 * (e * M) := by
    have g1 := abs_sub_le m3 (b1 * r) (2 * a2 * r)
    have g2 : e * |b1 * r| ≤ e * ((1 + e) * M) := mul_le_mul_of_nonneg_left b2 he
    linarith
  have b4 : |m3| ≤ M + 2.01 * (e * M) := by
    have := abs_sub_abs_le_abs_sub m3 (2 * a2 * r)
    linarith
  have b5 : e * |m3 + a1| ≤ e * (M + 2.01 * (e * M) + |a1|) := mul_le_mul_of_nonneg_left ((abs_add_le _ _).trans (by linarith)) he
  have g1 := abs_add_le (D' - (m3 + a1)) (m3 - 2 * a2 * r)
  rw [show D' - (m3 + a1) + (m3 - 2 * a2 * r) = D' - (2 * a2 * r + a1) by ring] at g1
  have g2 : 0 ≤ e * |a1| := by positivity
  have g3 : 0 ≤ e * M := by positivity
  linarith

theorem quadratic_part {α τ δ B θ Q : ℝ} (hα : 0 ≤ α) (hτ : 0 ≤ τ) (hδ : 0 < δ) (hB : 0 ≤ B) (h1 : τ * δ ≤ 1.014 * B) (h2 : B ≤ θ ^ 2 / 100 * Q)
    (h3 : θ ^ 2 * (α * Q) ≤ 0.51 * δ ^ 2) : α * τ ^ 2 ≤ 0.006 * B := by
  have g1 : (τ * δ) ^ 2 ≤ (1.014 * B) ^ 2 := pow_le_pow_left₀ (by positivity) h1 2
  have g2 : α * (τ * δ) ^ 2 ≤ α * (1.014 * B) ^ 2 := mul_le_mul_of_nonneg_left g1 hα
  have g3 : α * (B * B) ≤ α * (θ ^ 2 / 100 * Q * B) := mul_le_mul_of_nonneg_left (mul_le_mul_of_nonneg_right h2 hB) hα
  have g4 : θ ^ 2 * (α * Q) * B ≤ 0.51 * δ ^ 2 * B := mul_le_mul_of_nonneg_right h3 hB
  have g6 : 0 ≤ B * δ ^ 2 := by positivity
  have g5 : (α * τ ^ 2) * δ ^ 2 ≤ 0.006 * B * δ ^ 2 := by
    have e1 : α * (τ * δ) ^ 2 = (α * τ ^ 2) * δ ^ 2 := by ring
    have e2 : α * (1.014 * B) ^ 2 = 1.028196 * (α * (B * B)) := by ring
    have e3 : α * (θ ^ 2 / 100 * Q * B) = 1 / 100 * (θ ^ 2 * (α * Q) * B) := by ring
    rw [e1, e2] at g2
    rw [e3] at g3
    linarith
  exact le_of_mul_le_mul_right g5 (by positivity)

theorem step_part {Q A R δ τ B θ : ℝ} (hR : 0 ≤ R) (hQ : 0 ≤ Q) (hθ : 0 < θ) (hθ1 : θ ≤ 1) (hδ : 0 < δ) (hB : B ≤ θ ^ 2 / 100 * Q) (h1 : 0.99 * Q ≤ 2 * (A * R))
    (h2 : θ * A ≤ δ) (h3 : τ * δ ≤ 1.014 * B) : τ ≤ 0.021 * R := by
  have hθ2 : θ ^ 2 ≤ θ := by nlinarith
  have g2 : θ ^ 2 * Q ≤ θ * Q := mul_le_mul_of_nonneg_right hθ2 hQ
  have g3 : θ * A * R ≤ δ * R := mul_le_mul_of_nonneg_right h2 hR
  have g4 : θ * (0.99 * Q) ≤ θ * (2 * (A * R)) := mul_le_mul_of_nonneg_left h1 hθ.le
  have g6 : 0 ≤ δ * R := by positivity
  have g5 : τ * δ ≤ 0.021 * R * δ := by linarith
  exact le_of_mul_le_mul_right g5 hδ

/-- A Newton step before the last rounding. -/
theorem newton_core {e κ θ a2 a1 a0 r v D' t : ℝ} (he : 0 ≤ e) (hκ : 0 ≤ κ) (hθ : 0 < θ) (hθ1 : θ ≤ 1) (hκθ : κ + 5 * e ≤ θ ^ 2 / 100)
    (hq : |a2 * r ^ 2 + a1 * r + a0| ≤ κ * (|a2| * r ^ 2 + |a1| * |r| + |a0|)) (hD0 : 2 * a2 * r + a1 ≠ 0)
    (hD : θ * (2 * |a2| * |r| + |a1|) ≤ |2 * a2 * r + a1|)
    (hv : |v - (a2 * r ^ 2 + a1 * r + a0)| ≤ 4.1 * e * (|a2| * r ^ 2 + |a1| * |r| + |a0|))
    (hD' : |D' - (2 * a2 * r + a1)| ≤ 3.1 * e * (2 * |a2| * |r| + |a1|)) (ht : |t - v / D'| ≤ e * |v / D'|) :
    |a2 * (r - t) ^ 2 + a1 * (r - t) + a0| ≤ (0.026 * κ + 4.2066 * e) * (|a2| * r ^ 2 + |a1| * |r| + |a0|) ∧ |r| ≤ 1.022 * |r - t| := by
  have hr0 := abs_nonneg r
  have hθ2 : θ ^ 2 ≤ θ := by nlinarith
  have he1 : 5 * e ≤ θ / 100 := by linarith
  have he2 : e ≤ 1 / 500 := by linarith
  have hκ1 : κ ≤ 1 / 100 := by linarith
  obtain ⟨Q, hQ⟩ : ∃ Q, Q = |a2| * r ^ 2 + |a1| * |r| + |a0| := ⟨_, rfl⟩
  obtain ⟨q, hqd⟩ : ∃ q, q = a2 * r ^ 2 + a1 * r + a0 := ⟨_, rfl⟩
  obtain ⟨D, hDd⟩ : ∃ D, D = 2 * a2 * r + a1 := ⟨_, rfl⟩
  obtain ⟨A, hA⟩ : ∃ A, A = 2 * |a2| * |r| + |a1| := ⟨_, rfl⟩
  have hQ0 : 0 ≤ Q := by rw [hQ]; positivity
  have hA0 : 0 ≤ A := by rw [hA]; positivity
  rw [← hQ, ← hqd] at hq hv
  rw [← hDd, ← hA] at hD hD'
  rw [← hDd] at hD0
  have hDp : 0 < |D| := abs_pos.2 hD0
  -- the error of the derivative is small relative to the derivative
  have d1 : e * A ≤ |D| / 500 := by
    have g1 : e * A ≤ θ / 500 * A := mul_le_mul_of_nonneg_right (by linarith) hA0
    linarith
  have d2 : 0.99 * |D| ≤ |D'| := by
    have g1 := abs_sub_abs_le_abs_sub D D'
    rw [abs_sub_comm] at g1
    linarith
  have hD'0 : D' ≠ 0 := by
    intro h
    rw [h, abs_zero] at d2
    linarith
  have hD'p : 0 < |D'| := abs_pos.2 hD'0
  have v1 : |v| ≤ (κ + 4.1 * e) * Q := by
    have g1 := abs_sub_abs_le_abs_sub v q
    linarith
  -- the quotient
  obtain ⟨T, hT⟩ : ∃ T, T = v / D' := ⟨_, rfl⟩
  rw [← hT] at ht
  have hTD : T * D' = v := by rw [hT]; field_simp
  have t1 : |T| * |D| ≤ 1.011 * |v| := by
    have g1 : |T| * |D'| = |v| := by rw [← abs_mul, hTD]
    have g2 : |T| * (0.99 * |D|) ≤ |T| * |D'| := mul_le_mul_of_nonneg_left d2 (abs_nonneg _)
    have g3 : 0 ≤ |T| * |D| := by positivity
    linarith
  have t2 : |t| ≤ 1.002 * |T| := by
    have g1 := abs_sub_abs_le_abs_sub t T
    have g2 : e * |T| ≤ 1 / 500 * |T| := mul_le_mul_of_nonneg_right he2 (abs_nonneg _)
    linarith
  have hv0 := abs_nonneg v
  have t3 : |t| * |D| ≤ 1.014 * |v| := by
    have g1 : |t| * |D| ≤ 1.002 * |T| * |D| := mul_le_mul_of_nonneg_right t2 hDp.le
    linarith
  obtain ⟨B, hB⟩ : ∃ B, B = (κ + 4.1 * e) * Q := ⟨_, rfl⟩
  rw [← hB] at v1
  have hB0 : 0 ≤ B := hv0.trans v1
  -- the linear part
  have l1 : |q - t * D| ≤ 0.02 * B + 4.1 * e * Q := by
    have g1 : |(t - T) * D| ≤ 0.0021 * B := by
      rw [abs_mul]
      have g2 : |t - T| * |D| ≤ e * |T| * |D| := mul_le_mul_of_nonneg_right ht hDp.le
      have g3 : e * (|T| * |D|) ≤ 1 / 500 * (1.011 * |v|) := mul_le_mul he2 t1 (by positivity) (by norm_num)
      linarith
    have g4 : |T * (D - D')| ≤ 0.0064 * B := by
      rw [abs_mul, abs_sub_comm]
      have g5 : |T| * |D' - D| ≤ |T| * (3.1 * (|D| / 500)) := mul_le_mul_of_nonneg_left (by linarith) (abs_nonneg _)
      linarith
    have g6 : q - t * D = -((t - T) * D) - T * (D - D') - (v - q) := by rw [← hTD]; ring
    rw [g6]
    have g7 := abs_sub (-((t - T) * D) - T * (D - D')) (v - q)
    have g8 := abs_sub (-((t - T) * D)) (T * (D - D'))
    rw [abs_neg] at g8
    linarith
  -- the size of Q
  have q1 : 0.99 * Q ≤ 2 * (|a2| * r ^ 2 + |a1| * |r|) := by
    have g1 : |a0| ≤ |q| + (|a2| * r ^ 2 + |a1| * |r|) := by
      have g2 := abs_sub q (a2 * r ^ 2 + a1 * r)
      rw [show q - (a2 * r ^ 2 + a1 * r) = a0 by rw [hqd]; ring] at g2
      have g3 := abs_add_le (a2 * r ^ 2) (a1 * r)
      rw [abs_mul a2, abs_mul a1, abs_of_nonneg (sq_nonneg r)] at g3
      linarith
    have g4 : κ * Q ≤ 1 / 100 * Q := mul_le_mul_of_nonneg_right hκ1 hQ0
    linarith
  have q2 : |a2| * Q ≤ 0.51 * A ^ 2 := by
    have g1 : |a2| * (0.99 * Q) ≤ |a2| * (2 * (|a2| * r ^ 2 + |a1| * |r|)) := mul_le_mul_of_nonneg_left q1 (abs_nonneg _)
    have g2 : A ^ 2 = 4 * (|a2| * (|a2| * r ^ 2 + |a1| * |r|)) + |a1| ^ 2 := by rw [hA, ← sq_abs r]; ring
    have g3 := sq_nonneg |a1|
    have g4 := sq_nonneg A
    clear hv hq hv0 t3 t2 t1 d2 d1 hD' hD ht v1 l1
    linarith
  have q3 : θ ^ 2 * (|a2| * Q) ≤ 0.51 * |D| ^ 2 := by
    have g1 : θ ^ 2 * (|a2| * Q) ≤ θ ^ 2 * (0.51 * A ^ 2) := mul_le_mul_of_nonneg_left q2 (sq_nonneg _)
    have g2 : (θ * A) ^ 2 ≤ |D| ^ 2 := pow_le_pow_left₀ (by positivity) hD 2
    linarith
  -- the quadratic part
  have b1 : B ≤ θ ^ 2 / 100 * Q := by rw [hB]; exact mul_le_mul_of_nonneg_right (by linarith) hQ0
  have p1 : |a2 * t ^ 2| ≤ 0.006 * B := by
    rw [abs_mul, abs_of_nonneg (sq_nonneg t), ← sq_abs]
    exact quadratic_part (abs_nonneg _) (abs_nonneg _) hDp hB0 (by linarith) b1 q3
  -- the new point before rounding
  have y1 : |a2 * (r - t) ^ 2 + a1 * (r - t) + a0| ≤ 0.026 * B + 4.1 * e * Q := by
    rw [show a2 * (r - t) ^ 2 + a1 * (r - t) + a0 = q - t * D + a2 * t ^ 2 by rw [hqd, hDd]; ring]
    exact (abs_add_le _ _).trans (by linarith)
  have t4 : |t| ≤ 0.021 * |r| := by
    have g1 : 0.99 * Q ≤ 2 * (A * |r|) := by
      have g2 : |a2| * r ^ 2 + |a1| * |r| ≤ A * |r| := by
        have g0 : |r| * |r| = r ^ 2 := by rw [← sq, sq_abs]
        rw [hA, add_mul, mul_assoc, g0]
        have : 0 ≤ |a2| * r ^ 2 := by positivity
        clear hv hq hv0 t3 t2 t1 d2 d1 hD' hD ht v1 l1 q1 q2 q3 b1 p1 y1
        linarith
      clear hv hq hv0 t3 t2 t1 d2 d1 hD' hD ht v1 l1 q2 q3 b1 p1 y1
      linarith
    exact step_part hr0 hQ0 hθ hθ1 hDp b1 g1 hD (by linarith)
  have y2 : |r| ≤ 1.022 * |r - t| := by
    have g1 := abs_sub_abs_le_abs_sub r (r - t)
    rw [show r - (r - t) = t by ring] at g1
    linarith
  refine ⟨y1.trans (le_of_eq ?_), y2⟩
  rw [← hQ, hB]; ring

/-- One Newton step from a good approximation where the derivative is not small. -/
theorem newton_error {e κ θ a2 a1 a0 r v D' t r' : ℝ} (he : 0 ≤ e) (hκ : 0 ≤ κ) (hθ : 0 < θ) (hθ1 : θ ≤ 1) (hκθ : κ + 5 * e ≤ θ ^ 2 / 100)
    (hq : |a2 * r ^ 2 + a1 * r + a0| ≤ κ * (|a2| * r ^ 2 + |a1| * |r| + |a0|)) (hD0 : 2 * a2 * r + a1 ≠ 0)
    (hD : θ * (2 * |a2| * |r| + |a1|) ≤ |2 * a2 * r + a1|)
    (hv : |v - (a2 * r ^ 2 + a1 * r + a0)| ≤ 4.1 * e * (|a2| * r ^ 2 + |a1| * |r| + |a0|))
    (hD' : |D' - (2 * a2 * r + a1)| ≤ 3.1 * e * (2 * |a2| * |r| + |a1|)) (ht : |t - v / D'| ≤ e * |v / D'|) (hr' : |r' - (r - t)| ≤ e * |r'|) :
    |a2 * r' ^ 2 + a1 * r' + a0| ≤ (κ / 10 + 7 * e) * (|a2| * r' ^ 2 + |a1| * |r'| + |a0|) := by
  obtain ⟨y1, y2⟩ := newton_core he hκ hθ hθ1 hκθ hq hD0 hD hv hD' ht
  have he2 : e ≤ 1 / 500 := by nlinarith
  clear hq hD0 hD hv hD' ht
  obtain ⟨Q, hQ⟩ : ∃ Q, Q = |a2| * r ^ 2 + |a1| * |r| + |a0| := ⟨_, rfl⟩
  rw [← hQ] at y1
  have y3 : Q ≤ 1.045 * (|a2| * (r - t) ^ 2 + |a1| * |r - t| + |a0|) := by
    have g1 : r ^ 2 ≤ 1.045 * (r - t) ^ 2 := by
      rw [← sq_abs r, ← sq_abs (r - t)]
      have g0 := pow_le_pow_left₀ (abs_nonneg r) y2 2
      have g1 := sq_nonneg (r - t)
      rw [mul_pow] at g0
      norm_num at g0 ⊢
      linarith
    have g2 : |a2| * r ^ 2 ≤ |a2| * (1.045 * (r - t) ^ 2) := mul_le_mul_of_nonneg_left g1 (abs_nonneg _)
    have g3 : |a1| * |r| ≤ |a1| * (1.022 * |r - t|) := mul_le_mul_of_nonneg_left y2 (abs_nonneg _)
    have g4 := abs_nonneg a0
    have g5 : 0 ≤ |a1| * |r - t| := by positivity
    rw [hQ]
    linarith
  have y4 : |a2 * (r - t) ^ 2 + a1 * (r - t) + a0| ≤ (0.03 * κ + 4.5 * e) * (|a2| * (r - t) ^ 2 + |a1| * |r - t| + |a0|) := by
    have g2 : (0.026 * κ + 4.2066 * e) * Q ≤ (0.026 * κ + 4.2066 * e) * (1.045 * (|a2| * (r - t) ^ 2 + |a1| * |r - t| + |a0|)) :=
      mul_le_mul_of_nonneg_left y3 (by positivity)
    have g3 : (0.026 * κ + 4.2066 * e) * 1.045 ≤ 0.03 * κ + 4.5 * e := by linarith
    have g4 := mul_le_mul_of_nonneg_right g3 (by positivity : 0 ≤ |a2| * (r - t) ^ 2 + |a1| * |r - t| + |a0|)
    linarith
  have fin := round_error he (by linarith) (by positivity : 0 ≤ 0.03 * κ + 4.5 * e) y4 hr'
  refine fin.trans (mul_le_mul_of_nonneg_right ?_ (by positivity))
  linarith

/-- the derivative is not small near the roots if the discriminant is not -/
theorem separated {σ κ a2 a1 a0 r : ℝ} (hσ : 0 < σ) (hσ1 : σ ≤ 1) (hκ : 0 ≤ κ) (hκσ : κ ≤ σ / 200)
    (hW : 0 < a1 ^ 2 + 4 * |a0 * a2|) (hdisc : σ * (a1 ^ 2 + 4 * |a0 * a2|) ≤ a1 ^ 2 - 4 * a0 * a2)
    (hq : |a2 * r ^ 2 + a1 * r + a0| ≤ κ * (|a2| * r ^ 2 + |a1| * |r| + |a0|)) :
    2 * a2 * r + a1 ≠ 0 ∧ Real.sqrt (σ / 11) * (2 * |a2| * |r| + |a1|) ≤ |2 * a2 * r + a1| := by
  obtain ⟨W, hWd⟩ : ∃ W, W = a1 ^ 2 + 4 * |a0 * a2| := ⟨_, rfl⟩
  obtain ⟨D, hDd⟩ : ∃ D, D = 2 * a2 * r + a1 := ⟨_, rfl⟩
  obtain ⟨A, hA⟩ : ∃ A, A = 2 * |a2| * |r| + |a1| := ⟨_, rfl⟩
  have hA0 : 0 ≤ A := by rw [hA]; positivity
  rw [← hWd] at hW hdisc
  rw [← hDd, ← hA]
  have hcross : |a0 * a2| = |a2| * |a0| := by rw [abs_mul, mul_comm]
  have d1 : D ^ 2 = (a1 ^ 2 - 4 * a0 * a2) + 4 * (a2 * (a2 * r ^ 2 + a1 * r + a0)) := by rw [hDd]; ring
  have d2 : |4 * (a2 * (a2 * r ^ 2 + a1 * r + a0))| ≤ κ * (A ^ 2 + W) := by
    rw [abs_mul, abs_mul, abs_of_pos (by norm_num : (0:ℝ) < 4)]
    have g1 : |a2| * |a2 * r ^ 2 + a1 * r + a0| ≤ |a2| * (κ * (|a2| * r ^ 2 + |a1| * |r| + |a0|)) := mul_le_mul_of_nonneg_left hq (abs_nonneg _)
    have g2 : 4 * (|a2| * (|a2| * r ^ 2 + |a1| * |r| + |a0|)) ≤ A ^ 2 + W := by
      have : A ^ 2 = 4 * (|a2| * (|a2| * r ^ 2 + |a1| * |r|)) + |a1| ^ 2 := by rw [hA, ← sq_abs r]; ring
      rw [this, hWd, hcross]
      have h1 := sq_nonneg |a1|
      have h2 := sq_nonneg a1
      linarith
    have g3 := mul_le_mul_of_nonneg_left g2 hκ
    linarith
  have d3 : A ≤ |D| + 2 * |a1| := by
    have g1 := abs_sub D a1
    rw [show D - a1 = 2 * a2 * r by rw [hDd]; ring, abs_mul, abs_mul, abs_of_pos (by norm_num : (0:ℝ) < 2)] at g1
    rw [hA]
    linarith
  have d4 : A ^ 2 ≤ 2 * D ^ 2 + 8 * W := by
    have g1 : A ^ 2 ≤ (|D| + 2 * |a1|) ^ 2 := pow_le_pow_left₀ hA0 d3 2
    have g2 : |a1| ^ 2 ≤ W := by rw [sq_abs, hWd]; have := abs_nonneg (a0 * a2); linarith
    rw [← sq_abs D]
    nlinarith [sq_nonneg (|D| - 2 * |a1|)]
  have d5 : (σ - 9 * κ) * W ≤ (1 + 2 * κ) * D ^ 2 := by
    have g1 := (abs_le.1 d2).1
    have g2 := mul_le_mul_of_nonneg_left d4 hκ
    linarith
  have d6 : 0.94 * (σ * W) ≤ D ^ 2 := by
    have g1 : κ * W ≤ σ / 200 * W := mul_le_mul_of_nonneg_right hκσ hW.le
    have g2 : κ * D ^ 2 ≤ 1 / 200 * D ^ 2 := mul_le_mul_of_nonneg_right (by linarith) (sq_nonneg _)
    have g3 : 0 ≤ σ * W := by positivity
    linarith
  have hpos : 0 < D ^ 2 := lt_of_lt_of_le (by positivity) d6
  refine ⟨fun h => by rw [h] at hpos; norm_num at hpos, ?_⟩
  refine (le_abs_self _).trans (sq_le_sq.1 ?_)
  rw [mul_pow, Real.sq_sqrt (by positivity)]
  have g1 := mul_le_mul_of_nonneg_left d4 hσ.le
  have g2 : σ * D ^ 2 ≤ 1 * D ^ 2 := mul_le_mul_of_nonneg_right hσ1 (sq_nonneg _)
  linarith

end Verif.Tools.Quadratic
