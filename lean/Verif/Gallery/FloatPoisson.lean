import Verif.Gallery.PoissonProps
import Verif.Solver.FloatProps

/-!
# The Poisson products of the gallery in floating-point arithmetic

`2*x` and `4*x` (`gallery.py:5, 14`) convert the Python integers 2 and 4 to the dtype of `x`, which is exact.
-/

namespace Verif.Gallery
open Verif.Solver Verif.Solver.Scalar Verif.Solver.Vect Matrix
variable {F : FloatFormat}

/-- the integer 2 as a number of the format -/
noncomputable instance : OfNat (FP F) 2 := ⟨⟨some 2⟩⟩
/-- the integer 4 as a number of the format -/
noncomputable instance : OfNat (FP F) 4 := ⟨⟨some 4⟩⟩

/-- `a` is computed from data with `k` roundings: exact value `A`, sum of the magnitudes of its terms `X`, underflow `t` -/
def Near (k : ℕ) (a : FP F) (A X t : ℝ) : Prop := |A| ≤ X ∧ 0 ≤ t ∧ (a.Finite → |a.num - A| ≤ ((1 + F.u) ^ k - 1) * X + t)

theorem near_mul (c a : FP F) : Near 1 (c * a) (c.num * a.num) (|c.num| * |a.num|) F.tiny := by
  refine ⟨(abs_mul _ _).le, F.tiny_nonneg, fun h => ?_⟩
  obtain ⟨-, -, h1⟩ := FP.mul_spec h
  have h2 := mul_le_mul_of_nonneg_left (min_le_left |c.num * a.num| |(c * a).num|) F.u_nonneg
  rw [pow_one, add_sub_cancel_left, ← abs_mul]
  linarith

theorem near_sub {k : ℕ} {a : FP F} {A X t : ℝ} (h : Near k a A X t) (b : FP F) :
    Near (k + 1) (a - b) (A - b.num) (X + |b.num|) ((1 + F.u) * t + F.tiny) := by
  obtain ⟨h1, h2, h3⟩ := h
  have hu := F.u_nonneg
  have ht := F.tiny_nonneg
  refine ⟨(abs_sub _ _).trans (add_le_add h1 le_rfl), by positivity, fun hf => ?_⟩
  obtain ⟨f1, -, f3⟩ := FP.sub_spec hf
  have f4 := f3.trans (add_le_add (mul_le_mul_of_nonneg_left (min_le_left _ _) hu) le_rfl)
  have e1 := h3 f1
  have e2 : |a.num - b.num| ≤ |a.num - A| + (X + |b.num|) := by
    calc |a.num - b.num| = |(a.num - A) + (A - b.num)| := by ring_nf
      _ ≤ |a.num - A| + |A - b.num| := abs_add_le _ _
      _ ≤ _ := add_le_add le_rfl ((abs_sub _ _).trans (add_le_add h1 le_rfl))
  have e3 : |(a - b).num - (A - b.num)| ≤ |(a - b).num - (a.num - b.num)| + |a.num - A| := by
    calc |(a - b).num - (A - b.num)| = |((a - b).num - (a.num - b.num)) + (a.num - A)| := by ring_nf
      _ ≤ _ := abs_add_le _ _
  have hp : 1 ≤ (1 + F.u) ^ k := one_le_pow₀ (by linarith)
  have hX : 0 ≤ X := (abs_nonneg _).trans h1
  have hb := abs_nonneg b.num
  have e4 : F.u * |a.num - b.num| ≤ F.u * (|a.num - A| + (X + |b.num|)) := mul_le_mul_of_nonneg_left e2 hu
  have e5 : (1 + F.u) * |a.num - A| ≤ (1 + F.u) * (((1 + F.u) ^ k - 1) * X + t) := mul_le_mul_of_nonneg_left e1 (by linarith)
  have e6 : F.u * |b.num| ≤ ((1 + F.u) ^ (k + 1) - 1) * |b.num| := by
    refine mul_le_mul_of_nonneg_right ?_ hb
    rw [pow_succ]
    nlinarith
  have e7 : ((1 + F.u) ^ (k + 1) - 1) * X = (1 + F.u) * (((1 + F.u) ^ k - 1) * X) + F.u * X := by rw [pow_succ]; ring
  have e8 : ((1 + F.u) ^ (k + 1) - 1) * (X + |b.num|) = ((1 + F.u) ^ (k + 1) - 1) * X + ((1 + F.u) ^ (k + 1) - 1) * |b.num| := by ring
  rw [e8, e7]
  nlinarith

theorem near_mono {k : ℕ} {a : FP F} {A X t : ℝ} (h : Near k a A X t) : Near (k + 1) a A X ((1 + F.u) * t + F.tiny) := by
  obtain ⟨h1, h2, h3⟩ := h
  have hu := F.u_nonneg
  have ht := F.tiny_nonneg
  refine ⟨h1, by positivity, fun hf => (h3 hf).trans (add_le_add ?_ (by nlinarith))⟩
  exact mul_le_mul_of_nonneg_right (sub_le_sub_right (pow_le_pow_right₀ (by linarith) (Nat.le_succ k)) 1) ((abs_nonneg _).trans h1)

theorem near_csub {k : ℕ} {a : FP F} {A X t : ℝ} (h : Near k a A X t) (c : Prop) [Decidable c] (b : FP F) :
    Near (k + 1) (csub c a b) (A - if c then b.num else 0) (X + if c then |b.num| else 0) ((1 + F.u) * t + F.tiny) := by
  unfold csub
  split
  · exact near_sub h b
  · rw [sub_zero, add_zero]
    exact near_mono h

/-- **Specification.**  Underflow in a sum of `k + 1` operations. -/
noncomputable def underflow (F : FloatFormat) : ℕ → ℝ
  | 0 => F.tiny
  | k + 1 => (1 + F.u) * underflow F k + F.tiny

theorem two_num : (2 : FP F).num = 2 := rfl
theorem four_num : (4 : FP F).num = 4 := rfl

/-- the matrix of the absolute values of the entries -/
theorem abs_T (n : ℕ) : (T ℝ n).map abs = (4 : ℝ) • (1 : Matrix (Fin n) (Fin n) ℝ) - T ℝ n := by
  ext i j
  simp only [Matrix.map_apply, Matrix.sub_apply, Matrix.smul_apply, Matrix.one_apply, T, smul_eq_mul]
  by_cases h : i = j
  · simp only [if_pos h]; norm_num
  · simp only [if_neg h]
    split <;> norm_num

theorem abs_T_mulVec (n : ℕ) (x : ℕ → ℝ) (i : Fin n) : ((T ℝ n).map abs *ᵥ fun j : Fin n => x j) i =
    2 * x i + (if (i : ℕ) + 1 < n then x (i + 1) else 0) + (if 1 ≤ (i : ℕ) then x (i - 1) else 0) := by
  rw [abs_T, Matrix.sub_mulVec, Pi.sub_apply, T_mulVec, Matrix.smul_mulVec, Matrix.one_mulVec, tri]
  simp only [Pi.smul_apply, smul_eq_mul]
  ring

theorem abs_L (n : ℕ) : (L ℝ n).map abs = (8 : ℝ) • (1 : Matrix (Fin n × Fin n) (Fin n × Fin n) ℝ) - L ℝ n := by
  ext ⟨b, j⟩ ⟨b', j'⟩
  simp only [Matrix.map_apply, Matrix.sub_apply, Matrix.smul_apply, Matrix.one_apply, L, T, Matrix.add_apply, Matrix.kroneckerMap_apply,
    smul_eq_mul, Prod.mk.injEq]
  by_cases h : b = b'
  · by_cases h' : j = j'
    · simp only [h, h', and_self, if_true]; norm_num
    · simp only [h, h', and_false, if_true, if_false]
      split <;> norm_num
  · by_cases h' : j = j'
    · simp only [h, h', false_and, if_true, if_false]
      split <;> norm_num
    · simp only [h, h', false_and, if_false]
      norm_num

end Verif.Gallery
