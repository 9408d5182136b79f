import Verif.Solver.FloatRange
import Mathlib.Algebra.Order.Archimedean.Basic

/-!
# `float64` without underflow

The arithmetic of `float64` in which a result that is not zero but smaller than `2^-1022` counts as not finite.  Its relative error is at most `2^-53`,
with no absolute part.  A computation in this arithmetic with a finite result is one in `float64` none of whose steps underflows.
-/

namespace Verif.Solver
open Scalar

/-- the relative error of results that are not subnormal -/
theorem float64_normal {z y : ℝ} (hz : z = 0 ∨ (2:ℝ) ^ (-1022 : ℤ) ≤ |z|) (h : float64.fl z = some y) : |y - z| ≤ 2⁻¹ ^ 53 * min |z| |y| := by
  rcases hz with rfl | hz
  · have h0 := float64_dyadic 0 0 (by norm_num) (by norm_num) (by norm_num)
    rw [Int.cast_zero, zero_mul, h] at h0
    cases h0
    simp
  have hp : 0 < |z| := lt_of_lt_of_le (by positivity) hz
  have e1 := (Int.zpow_le_iff_le_log (b := 2) (by norm_num) hp).1 (by exact_mod_cast hz)
  refine le_of_forall_pos_le_add fun ε hε => ?_
  obtain ⟨k, hk⟩ := exists_pow_lt_of_lt_one hε (by norm_num : (2⁻¹ : ℝ) < 1)
  have hsp : spacing 52 (-1074 - k) z = spacing 52 (-1074) z := by
    unfold spacing
    congr 1
    push_cast
    omega
  have h2 : (ieee 52 (-1074 - k) 1024).fl z = some y := by
    rw [← h]
    show ieeeRound _ _ _ _ = ieeeRound _ _ _ _
    simp only [ieeeRound, hsp]
  refine ((ieee 52 (-1074 - k) 1024).err z y h2).trans (add_le_add le_rfl ?_)
  refine le_trans ?_ hk.le
  show (2:ℝ) ^ (-1074 - (k : ℤ) - 1) ≤ _
  rw [inv_pow, ← zpow_natCast, ← zpow_neg]
  exact zpow_le_zpow_right₀ (by norm_num) (by omega)

/-- `float64` without underflow -/
noncomputable def normal64 : FloatFormat where
  fl z := open Classical in if z = 0 ∨ (2:ℝ) ^ (-1022 : ℤ) ≤ |z| then float64.fl z else none
  u := 2⁻¹ ^ 53
  tiny := 0
  u_nonneg := by positivity
  tiny_nonneg := le_rfl
  err := by
    intro z y h
    split at h
    · rename_i hz
      rw [add_zero]
      exact float64_normal hz h
    · cases h

theorem normal64_sub {z y : ℝ} (h : normal64.fl z = some y) : float64.fl z = some y := by
  have e : normal64.fl z = (open Classical in if z = 0 ∨ (2:ℝ) ^ (-1022 : ℤ) ≤ |z| then float64.fl z else none) := rfl
  rw [e] at h
  split at h
  · exact h
  · cases h

/-- integers are exact -/
theorem normal64_int (m : ℤ) (h : |m| < 2 ^ 53) : normal64.fl m = some (m : ℝ) := by
  have h0 := float64_dyadic m 0 h (by norm_num) (by norm_num)
  rw [zpow_zero, mul_one] at h0
  have e : normal64.fl m = (open Classical in if (m : ℝ) = 0 ∨ (2:ℝ) ^ (-1022 : ℤ) ≤ |(m : ℝ)| then float64.fl m else none) := rfl
  rw [e, if_pos, h0]
  by_cases hm : m = 0
  · left; exact_mod_cast hm
  · right
    have h1 : (1 : ℝ) ≤ |(m : ℝ)| := by exact_mod_cast Int.one_le_abs hm
    exact (zpow_le_one_of_nonpos₀ (by norm_num) (by norm_num)).trans h1

/-- the number in `float64` -/
def FP.to64 (a : FP normal64) : FP float64 := ⟨a.val⟩

theorem FP.op2_to64 {f : ℝ → ℝ → Option ℝ} {a b : FP normal64} (h : (FP.op2 f a b).Finite) : FP.op2 f a.to64 b.to64 = (FP.op2 f a b).to64 := by
  obtain ⟨y, hy⟩ := Option.isSome_iff_exists.1 h
  have hy' := hy
  simp only [op2, Option.bind_eq_some_iff] at hy
  obtain ⟨x1, h1, x2, h2, z, hz, hy⟩ := hy
  show (⟨_⟩ : FP float64) = ⟨_⟩
  rw [hy']
  simp only [to64, h1, h2, Option.bind_some, hz, normal64_sub hy]

theorem FP.sqrt_to64 {a : FP normal64} (h : (sqrt a).Finite) : sqrt a.to64 = (sqrt a).to64 := by
  classical
  obtain ⟨y, hy⟩ := Option.isSome_iff_exists.1 h
  have e : (sqrt a).val = a.val.bind fun x => if x < 0 then none else normal64.fl (Real.sqrt x) := rfl
  have hy' := hy
  rw [e, Option.bind_eq_some_iff] at hy'
  obtain ⟨x, h1, h2⟩ := hy'
  show (⟨_⟩ : FP float64) = ⟨_⟩
  rw [hy]
  split at h2
  · cases h2
  · rename_i hx
    simp only [to64, h1, Option.bind_some, if_neg hx, normal64_sub h2]

end Verif.Solver
