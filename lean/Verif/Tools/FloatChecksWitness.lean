import Verif.Tools.FloatChecksProps
import Verif.Solver.FloatRange

/-! # C92: a symmetric operator that `check_symmetric` rejects because of rounding -/

namespace Verif.Tools
open Verif.Solver Verif.Solver.Scalar Verif.Solver.Vect

/-- the number `m 2^k` -/
noncomputable def dyad (m k : ℤ) : FP float64 := ⟨some ((m : ℝ) * 2 ^ k)⟩

theorem dyad_mul (a b k l : ℤ) (h : |a * b| < 2 ^ 53) (h1 : -1074 ≤ k + l) (h2 : k + l ≤ 900) : dyad a k * dyad b l = dyad (a * b) (k + l) := by
  show FP.op2 _ _ _ = _
  simp only [FP.op2, dyad, Option.bind_some]
  rw [show (a : ℝ) * 2 ^ k * (b * 2 ^ l) = ((a * b : ℤ) : ℝ) * 2 ^ (k + l) by rw [zpow_add₀ (by norm_num)]; push_cast; ring,
    float64_dyadic _ _ h h1 h2]

theorem dyad_add (a b k : ℤ) (h : |a + b| < 2 ^ 53) (h1 : -1074 ≤ k) (h2 : k ≤ 900) : dyad a k + dyad b k = dyad (a + b) k := by
  show FP.op2 _ _ _ = _
  simp only [FP.op2, dyad, Option.bind_some]
  rw [show (a : ℝ) * 2 ^ k + b * 2 ^ k = ((a + b : ℤ) : ℝ) * 2 ^ k by push_cast; ring, float64_dyadic _ _ h h1 h2]

theorem dyad_sub (a b k : ℤ) (h : |a - b| < 2 ^ 53) (h1 : -1074 ≤ k) (h2 : k ≤ 900) : dyad a k - dyad b k = dyad (a - b) k := by
  show FP.op2 _ _ _ = _
  simp only [FP.op2, dyad, Option.bind_some]
  rw [show (a : ℝ) * 2 ^ k - b * 2 ^ k = ((a - b : ℤ) : ℝ) * 2 ^ k by push_cast; ring, float64_dyadic _ _ h h1 h2]

theorem dyad_shift (a k l : ℤ) (e : ℕ) (h : k + e = l) : dyad (a * 2 ^ e) k = dyad a l := by
  subst h
  unfold dyad
  congr 2
  rw [zpow_add₀ (by norm_num), zpow_natCast]
  push_cast
  ring

theorem dyad_zero (k : ℤ) : (⟨some 0⟩ : FP float64) = dyad 0 k := by simp [dyad]

/-- the array `[a 2^k, b 2^k]` -/
noncomputable def pair (a b k : ℤ) : FV float64 2 := ⟨![dyad a k, dyad b k]⟩

theorem pair_dot (a b k c d l : ℤ) (h1 : |a * c| < 2 ^ 53) (h2 : |b * d| < 2 ^ 53) (h3 : |a * c + b * d| < 2 ^ 53) (h4 : -1074 ≤ k + l)
    (h5 : k + l ≤ 900) : dot (pair a b k) (pair c d l) = dyad (a * c + b * d) (k + l) := by
  show FV.sum (pair a b k) (pair c d l) (List.finRange 2) ⟨some 0⟩ = _
  rw [dyad_zero (k + l), show List.finRange 2 = [0, 1] from rfl]
  simp only [FV.sum, List.foldl_cons, List.foldl_nil, pair, Matrix.cons_val_zero, Matrix.cons_val_one, dyad_mul a c k l h1 h4 h5,
    dyad_mul b d k l h2 h4 h5]
  rw [dyad_add 0 (a * c) _ (by simpa using h1) h4 h5, zero_add, dyad_add _ _ _ h3 h4 h5]

/-- **C92 is violated without the restriction on small products.**  For the vector `x = (67108857, 67108856) / 2^27`, which lies between 0 and 1,
and the symmetric array `A = [[67108854, -67108855], [-67108855, 67108856]]` of `float64` integers, all entries of `w = A x` and `A w` are computed
exactly, but `np.dot(x, r)` is `4 / 2^54` instead of `5 / 2^54`: `check_symmetric` returns False, with the machine epsilon and whatever its
computed cube root is, as long as it is at most `1/16`. -/
theorem C92_symmetric_violated (eps3 : FP float64) (hf : eps3.Finite) (h0 : 0 ≤ eps3.num) (h3 : eps3.num ≤ 1 / 16) (draw : ℕ → FV float64 2)
    (repeats i : ℕ) (hi : i < repeats) (hx : draw i = pair 67108857 67108856 (-27)) :
    let rows := ![pair 67108854 (-67108855) 0, pair (-67108855) 67108856 0]
    (∀ k l, FV.entries rows k l = FV.entries rows l k) ∧
    (∀ j, 0 ≤ ((draw i).data j).num ∧ ((draw i).data j).num < 1) ∧
    (∀ j, ((FV.dense rows (draw i)).data j).num = denseLin (FV.entries rows) (draw i).vec j) ∧
    checkSymmetricF (FV.dense rows) (dyad 1 (-52)) eps3 draw repeats = false := by
  intro rows
  have hd : ∀ a b k : ℤ, k = 0 → |67108854 * a| < 2 ^ 53 → |-67108855 * b| < 2 ^ 53 → |-67108855 * a| < 2 ^ 53 → |67108856 * b| < 2 ^ 53 →
      |67108854 * a + -67108855 * b| < 2 ^ 53 → |-67108855 * a + 67108856 * b| < 2 ^ 53 →
      FV.dense rows (pair a b (-27)) = pair (67108854 * a + -67108855 * b) (-67108855 * a + 67108856 * b) (-27) := by
    intro a b k _ h1 h2 h3 h4 h5 h6
    have e1 := pair_dot 67108854 (-67108855) 0 a b (-27) h1 h2 h5 (by norm_num) (by norm_num)
    have e2 := pair_dot (-67108855) 67108856 0 a b (-27) h3 h4 h6 (by norm_num) (by norm_num)
    unfold FV.dense
    rw [pair]
    congr 1
    funext j
    fin_cases j
    · exact e1
    · exact e2
  have hw : FV.dense rows (pair 67108857 67108856 (-27)) = pair (-2) 1 (-27) := by
    rw [hd _ _ 0 rfl (by norm_num) (by norm_num) (by norm_num) (by norm_num) (by norm_num) (by norm_num)]
    norm_num
  have hr : FV.dense rows (pair (-2) 1 (-27)) = pair (-201326563) 201326566 (-27) := by
    rw [hd _ _ 0 rfl (by norm_num) (by norm_num) (by norm_num) (by norm_num) (by norm_num) (by norm_num)]
    norm_num
  refine ⟨?_, ?_, ?_, ?_⟩
  · intro k l
    fin_cases k <;> fin_cases l <;> simp [FV.entries, rows, pair, dyad, FP.num]
  · intro j
    rw [hx]
    have e : (2:ℝ) ^ (-27 : ℤ) = 1 / 134217728 := by norm_num
    fin_cases j <;> simp only [pair, dyad, FP.num, Fin.zero_eta, Fin.mk_one, Matrix.cons_val_zero, Matrix.cons_val_one, Option.getD_some, e] <;>
      norm_num
  · intro j
    rw [hx, hw]
    show _ = ∑ l, FV.entries rows j l * ((pair 67108857 67108856 (-27)).data l).num
    rw [Fin.sum_univ_two]
    fin_cases j <;> simp [FV.entries, rows, pair, dyad, FP.num] <;> norm_num
  · rw [← Bool.not_eq_true, checkSymmetricF_iff]
    intro hall
    have hfound := hall i hi
    have hs : dot (pair (-2) 1 (-27)) (pair (-2) 1 (-27)) = dyad 5 (-54) := by
      rw [pair_dot _ _ _ _ _ _ (by norm_num) (by norm_num) (by norm_num) (by norm_num) (by norm_num)]
      norm_num
    have ht : dot (pair 67108857 67108856 (-27)) (pair (-201326563) 201326566 (-27)) = dyad 4 (-54) := by
      show FV.sum (pair 67108857 67108856 (-27)) (pair (-201326563) 201326566 (-27)) (List.finRange 2) ⟨some 0⟩ = _
      rw [dyad_zero (-52), show List.finRange 2 = [0, 1] from rfl]
      simp only [FV.sum, List.foldl_cons, List.foldl_nil, pair, Matrix.cons_val_zero, Matrix.cons_val_one]
      have e1 : dyad 67108857 (-27) * dyad (-201326563) (-27) = dyad (-3377698881667123) (-52) := by
        rw [← dyad_shift _ (-54) (-52) 2 (by norm_num)]
        show FP.op2 _ _ _ = _
        simp only [FP.op2, dyad, Option.bind_some]
        rw [show ((67108857 : ℤ) : ℝ) * 2 ^ (-27 : ℤ) * (((-201326563 : ℤ) : ℝ) * 2 ^ (-27 : ℤ)) =
          ((4 * (-3377698881667123) + 1 : ℤ) : ℝ) * 2 ^ (-54 : ℤ) by norm_num,
          float64_tie _ _ (by norm_num) (by norm_num) (by norm_num) (by norm_num)]
        norm_num
      have e2 : dyad 67108856 (-27) * dyad 201326566 (-27) = dyad 3377698881667124 (-52) := by
        show FP.op2 _ _ _ = _
        simp only [FP.op2, dyad, Option.bind_some]
        rw [show ((67108856 : ℤ) : ℝ) * 2 ^ (-27 : ℤ) * (((201326566 : ℤ) : ℝ) * 2 ^ (-27 : ℤ)) =
          ((3377698881667124 : ℤ) : ℝ) * 2 ^ (-52 : ℤ) by norm_num,
          float64_dyadic _ _ (by norm_num) (by norm_num) (by norm_num)]
      rw [e1, e2, dyad_add _ _ _ (by norm_num) (by norm_num) (by norm_num), dyad_add _ _ _ (by norm_num) (by norm_num) (by norm_num)]
      exact (dyad_shift 1 (-54) (-52) 2 (by norm_num)).symm
    have he : dyad 5 (-54) + dyad 1 (-52) = dyad 9 (-54) := by
      rw [← dyad_shift 1 (-54) (-52) 2 (by norm_num), dyad_add _ _ _ (by norm_num) (by norm_num) (by norm_num)]
      norm_num
    have hz : Scalar.abs (dyad 5 (-54) - dyad 4 (-54)) = dyad 1 (-54) := by
      rw [dyad_sub _ _ _ (by norm_num) (by norm_num) (by norm_num)]
      show (⟨_⟩ : FP float64) = _
      have e : (0:ℝ) < 2 ^ (-54 : ℤ) := by positivity
      simp [dyad, abs_of_pos e]
    have e0 : asymmetryFoundF (FV.dense rows) (dyad 1 (-52)) eps3 (draw i) =
        lt ((dyad 5 (-54) + dyad 1 (-52)) * eps3) (Scalar.abs (dyad 5 (-54) - dyad 4 (-54))) := by
      unfold asymmetryFoundF
      simp only
      rw [hx, hw, hr, hs, ht]
    rw [e0, he, hz] at hfound
    have h9 : (dyad 9 (-54)).num = 9 * 2 ^ (-54 : ℤ) := by simp [dyad, FP.num]
    have h1 : (dyad 1 (-54)).num = 2 ^ (-54 : ℤ) := by simp [dyad, FP.num]
    have hfin : (dyad 9 (-54) * eps3).Finite := by
      show (Option.bind _ _).isSome = true
      rw [FP.Finite.val_eq hf]
      refine float64_range _ ?_
      have k1 : (1:ℝ) ≤ 2 ^ (1023 : ℤ) := one_le_zpow₀ (by norm_num) (by norm_num)
      refine le_trans ?_ k1
      rw [abs_mul, abs_of_nonneg h0]
      have : |((9 : ℤ) : ℝ) * 2 ^ (-54 : ℤ)| ≤ 1 := by norm_num
      nlinarith [abs_nonneg (((9 : ℤ) : ℝ) * 2 ^ (-54 : ℤ))]
    obtain ⟨-, -, hb⟩ := FP.mul_spec hfin
    have hb2 := hb.trans (add_le_add (mul_le_mul_of_nonneg_left (min_le_left _ _) float64.u_nonneg) le_rfl)
    rw [lt_of hfin (show (dyad 1 (-54)).Finite from rfl)] at hfound
    · cases hfound
    have htiny : (2:ℝ) ^ (-1075 : ℤ) ≤ 2 ^ (-60 : ℤ) := zpow_le_zpow_right₀ (by norm_num) (by norm_num)
    have hT : float64.tiny = 2 ^ (-1075 : ℤ) := rfl
    have hu : float64.u = 2⁻¹ ^ 53 := rfl
    rw [← hT] at htiny
    rw [h1]
    rw [h9, hu, abs_of_nonneg (show 0 ≤ 9 * (2:ℝ) ^ (-54 : ℤ) * eps3.num by positivity)] at hb2
    have := (abs_le.1 hb2).2
    norm_num at this htiny ⊢
    linarith

end Verif.Tools
