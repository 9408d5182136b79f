import Verif.Linop.FloatExpr
import Verif.Solver.FloatProps

/-! # C91: rounding errors of products with operators -/

namespace Verif.Linop
open Verif.Solver Verif.Solver.Scalar Verif.Solver.Vect Matrix

variable {F : FloatFormat}

namespace FExpr

theorem size_nonneg : ∀ {m n : ℕ} (e : FExpr F m n) (i : Fin m) (j : Fin n), 0 ≤ e.size i j
  | _, _, .arr A, i, j => abs_nonneg _
  | _, _, .diag d, i, j => by
    rw [size, Matrix.diagonal_apply]
    split
    · exact abs_nonneg _
    · exact le_rfl
  | _, _, .ident _, i, j => by
    rw [size, Matrix.one_apply]
    split <;> norm_num
  | _, _, .scal a e, i, j => mul_nonneg (abs_nonneg _) (size_nonneg e i j)
  | _, _, .mul e f, i, j => by
    show 0 ≤ ∑ k, e.size i k * f.size k j
    exact Finset.sum_nonneg fun k _ => mul_nonneg (size_nonneg e i k) (size_nonneg f k j)
  | _, _, .add e f, i, j => add_nonneg (size_nonneg e i j) (size_nonneg f i j)
  | _, _, .sub e f, i, j => add_nonneg (size_nonneg e i j) (size_nonneg f i j)
  | _, _, .zero _ _, i, j => le_rfl
  | _, _, .hcat e f, i, j => by
    refine Fin.addCases (fun j => ?_) (fun j => ?_) j
    · simpa [size] using size_nonneg e i j
    · simpa [size] using size_nonneg f i j
  | _, _, .vcat e f, i, j => by
    refine Fin.addCases (fun i => ?_) (fun i => ?_) i
    · simpa [size] using size_nonneg e i j
    · simpa [size] using size_nonneg f i j
  | _, _, .bdiag e f, i, j => by
    refine Fin.addCases (fun i => ?_) (fun i => ?_) i <;> refine Fin.addCases (fun j => ?_) (fun j => ?_) j
    · simpa [size] using size_nonneg e i j
    · simp [size]
    · simp [size]
    · simpa [size] using size_nonneg f i j

theorem abs_matrix_le : ∀ {m n : ℕ} (e : FExpr F m n) (i : Fin m) (j : Fin n), |e.matrix i j| ≤ e.size i j
  | _, _, .arr A, i, j => le_rfl
  | _, _, .diag d, i, j => by
    rw [size, matrix, Matrix.diagonal_apply, Matrix.diagonal_apply]
    split
    · exact le_rfl
    · simp
  | _, _, .ident _, i, j => by
    rw [size, matrix, Matrix.one_apply]
    split <;> norm_num
  | _, _, .scal a e, i, j => by
    show |a.num * e.matrix i j| ≤ |a.num| * e.size i j
    rw [abs_mul]
    exact mul_le_mul_of_nonneg_left (abs_matrix_le e i j) (abs_nonneg _)
  | _, _, .mul e f, i, j => by
    show |∑ k, e.matrix i k * f.matrix k j| ≤ ∑ k, e.size i k * f.size k j
    refine (Finset.abs_sum_le_sum_abs _ _).trans (Finset.sum_le_sum fun k _ => ?_)
    rw [abs_mul]
    exact mul_le_mul (abs_matrix_le e i k) (abs_matrix_le f k j) (abs_nonneg _) (size_nonneg e i k)
  | _, _, .add e f, i, j => (abs_add_le _ _).trans (add_le_add (abs_matrix_le e i j) (abs_matrix_le f i j))
  | _, _, .sub e f, i, j => (abs_sub _ _).trans (add_le_add (abs_matrix_le e i j) (abs_matrix_le f i j))
  | _, _, .zero _ _, i, j => abs_zero.le
  | _, _, .hcat e f, i, j => by
    refine Fin.addCases (fun j => ?_) (fun j => ?_) j
    · simpa [size, matrix] using abs_matrix_le e i j
    · simpa [size, matrix] using abs_matrix_le f i j
  | _, _, .vcat e f, i, j => by
    refine Fin.addCases (fun i => ?_) (fun i => ?_) i
    · simpa [size, matrix] using abs_matrix_le e i j
    · simpa [size, matrix] using abs_matrix_le f i j
  | _, _, .bdiag e f, i, j => by
    refine Fin.addCases (fun i => ?_) (fun i => ?_) i <;> refine Fin.addCases (fun j => ?_) (fun j => ?_) j
    · simpa [size, matrix] using abs_matrix_le e i j
    · simp [size, matrix]
    · simp [size, matrix]
    · simpa [size, matrix] using abs_matrix_le f i j

theorem under_nonneg : ∀ {m n : ℕ} (e : FExpr F m n) (i : Fin m), 0 ≤ e.under i
  | _, _, .arr A, i => by
    have := F.u_nonneg
    have := F.tiny_nonneg
    show 0 ≤ 3 * _ * (1 + F.u) ^ _ * F.tiny
    positivity
  | _, _, .diag d, i => F.tiny_nonneg
  | _, _, .ident _, i => le_rfl
  | _, _, .scal a e, i => by
    have := F.u_nonneg
    have := F.tiny_nonneg
    have := under_nonneg e i
    show 0 ≤ (1 + F.u) * (|a.num| * e.under i) + F.tiny
    positivity
  | _, _, .mul e f, i => by
    have := F.u_nonneg
    have h : 0 ≤ ∑ k, e.size i k * f.under k := Finset.sum_nonneg fun k _ => mul_nonneg (size_nonneg e i k) (under_nonneg f k)
    exact add_nonneg (under_nonneg e i) (mul_nonneg (by positivity) h)
  | _, _, .add e f, i => by
    have := F.u_nonneg
    have := F.tiny_nonneg
    have := under_nonneg e i
    have := under_nonneg f i
    show 0 ≤ (1 + F.u) * (e.under i + f.under i) + F.tiny
    positivity
  | _, _, .sub e f, i => by
    have := F.u_nonneg
    have := F.tiny_nonneg
    have := under_nonneg e i
    have := under_nonneg f i
    show 0 ≤ (1 + F.u) * (e.under i + f.under i) + F.tiny
    positivity
  | _, _, .zero _ _, i => le_rfl
  | _, _, .hcat e f, i => by
    have := F.u_nonneg
    have := F.tiny_nonneg
    have := under_nonneg e i
    have := under_nonneg f i
    show 0 ≤ (1 + F.u) * (e.under i + f.under i) + F.tiny
    positivity
  | _, _, .vcat e f, i => by
    refine Fin.addCases (fun i => ?_) (fun i => ?_) i
    · simpa [under] using under_nonneg e i
    · simpa [under] using under_nonneg f i
  | _, _, .bdiag e f, i => by
    refine Fin.addCases (fun i => ?_) (fun i => ?_) i
    · simpa [under] using under_nonneg e i
    · simpa [under] using under_nonneg f i

/-- a finite entry of the result used only finite entries of the vector, or entries that do not matter -/
theorem finite_of : ∀ {m n : ℕ} (e : FExpr F m n) (x : FV F n) (i : Fin m), ((e.mulVec x).data i).Finite →
    ∀ j, (x.data j).Finite ∨ e.size i j = 0
  | _, _, .arr A, x, i, h, j => .inl ((FV.sum_spec _ x (List.finRange _) h).1 j (List.mem_finRange j)).2
  | _, _, .diag d, x, i, h, j => by
    rcases eq_or_ne i j with rfl | hij
    · exact .inl (FP.mul_spec h).2.1
    · exact .inr (Matrix.diagonal_apply_ne _ hij)
  | _, _, .ident _, x, i, h, j => by
    rcases eq_or_ne i j with rfl | hij
    · exact .inl h
    · exact .inr (Matrix.one_apply_ne hij)
  | _, _, .scal a e, x, i, h, j => by
    by_cases ha : a.val = some 0
    · refine .inr ?_
      show |a.num| * e.size i j = 0
      rw [FP.num, ha]
      simp
    · rw [mulVec, if_neg ha] at h
      rcases finite_of e x i (FP.mul_spec h).2.1 j with h1 | h1
      · exact .inl h1
      · exact .inr (by show |a.num| * e.size i j = 0; rw [h1, mul_zero])
  | _, _, .mul e f, x, i, h, k => by
    by_cases hx : (x.data k).Finite
    · exact .inl hx
    refine .inr ?_
    show ∑ j, e.size i j * f.size j k = 0
    refine Finset.sum_eq_zero fun j _ => ?_
    rcases finite_of e _ i h j with h1 | h1
    · rcases finite_of f x j h1 k with h2 | h2
      · exact absurd h2 hx
      · rw [h2, mul_zero]
    · rw [h1, zero_mul]
  | _, _, .add e f, x, i, h, j => by
    obtain ⟨h1, h2, -⟩ := FP.add_spec h
    rcases finite_of e x i h1 j with h3 | h3
    · exact .inl h3
    rcases finite_of f x i h2 j with h4 | h4
    · exact .inl h4
    exact .inr (by show e.size i j + f.size i j = 0; rw [h3, h4, add_zero])
  | _, _, .sub e f, x, i, h, j => by
    obtain ⟨h1, h2, -⟩ := FP.sub_spec h
    rcases finite_of e x i h1 j with h3 | h3
    · exact .inl h3
    rcases finite_of f x i h2 j with h4 | h4
    · exact .inl h4
    exact .inr (by show e.size i j + f.size i j = 0; rw [h3, h4, add_zero])
  | _, _, .zero _ _, x, i, h, j => .inr rfl
  | _, _, .hcat e f, x, i, h, j => by
    obtain ⟨h1, h2, -⟩ := FP.add_spec h
    refine Fin.addCases (fun j => ?_) (fun j => ?_) j
    · simpa [size, FV.fst] using finite_of e x.fst i h1 j
    · simpa [size, FV.snd] using finite_of f x.snd i h2 j
  | _, _, .vcat e f, x, i, h, j => by
    revert h
    refine Fin.addCases (fun i h => ?_) (fun i h => ?_) i
    · simpa [size] using finite_of e x i (by simpa [mulVec] using h) j
    · simpa [size] using finite_of f x i (by simpa [mulVec] using h) j
  | _, _, .bdiag e f, x, i, h, j => by
    revert h
    refine Fin.addCases (fun i h => ?_) (fun i h => ?_) i <;> refine Fin.addCases (fun j => ?_) (fun j => ?_) j
    · simpa [size, FV.fst] using finite_of e x.fst i (by simpa [mulVec] using h) j
    · exact .inr (by simp [size])
    · exact .inr (by simp [size])
    · simpa [size, FV.snd] using finite_of f x.snd i (by simpa [mulVec] using h) j

/-- a rounded sum of two numbers with errors -/
theorem round_add {u tiny y a b A B Xa Xb ga gb ta tb : ℝ} (hu : 0 ≤ u) (k l : ℕ)
    (hy : |y - (a + b)| ≤ u * |a + b| + tiny) (ha : |a - A| ≤ ga * Xa + ta) (hb : |b - B| ≤ gb * Xb + tb)
    (hA : |A| ≤ Xa) (hB : |B| ≤ Xb) (hga : ga = (1 + u) ^ k - 1) (hgb : gb = (1 + u) ^ l - 1) :
    |y - (A + B)| ≤ ((1 + u) ^ (max k l + 1) - 1) * (Xa + Xb) + ((1 + u) * (ta + tb) + tiny) := by
  set g := (1 + u) ^ max k l - 1 with hg
  have h1 : ga ≤ g := by rw [hga, hg]; gcongr <;> [linarith; exact le_max_left _ _]
  have h2 : gb ≤ g := by rw [hgb, hg]; gcongr <;> [linarith; exact le_max_right _ _]
  have hXa : 0 ≤ Xa := (abs_nonneg _).trans hA
  have hXb : 0 ≤ Xb := (abs_nonneg _).trans hB
  have ha' : |a - A| ≤ g * Xa + ta := ha.trans (by gcongr)
  have hb' : |b - B| ≤ g * Xb + tb := hb.trans (by gcongr)
  have h3 : |a + b| ≤ (Xa + Xb) + (g * Xa + ta) + (g * Xb + tb) := by
    have : a + b = (A + B) + (a - A) + (b - B) := by ring
    rw [this]
    exact (abs_add_le _ _).trans (add_le_add ((abs_add_le _ _).trans (add_le_add ((abs_add_le _ _).trans (add_le_add hA hB)) ha')) hb')
  have h4 : |y - (A + B)| ≤ |y - (a + b)| + |a - A| + |b - B| := by
    have : y - (A + B) = (y - (a + b)) + (a - A) + (b - B) := by ring
    rw [this]
    exact (abs_add_le _ _).trans (add_le_add (abs_add_le _ _) le_rfl)
  have h5 : (1 + u) ^ (max k l + 1) = (g + 1) * (1 + u) := by rw [pow_succ, hg]; ring
  rw [h5]
  have := mul_le_mul_of_nonneg_left h3 hu
  nlinarith

theorem abs_mulVec_le {m n : ℕ} (e : FExpr F m n) (x : Fin n → ℝ) (i : Fin m) : |(e.matrix *ᵥ x) i| ≤ (e.size *ᵥ fun j => |x j|) i := by
  show |∑ j, e.matrix i j * x j| ≤ ∑ j, e.size i j * |x j|
  refine (Finset.abs_sum_le_sum_abs _ _).trans (Finset.sum_le_sum fun j _ => ?_)
  rw [abs_mul]
  exact mul_le_mul_of_nonneg_right (abs_matrix_le e i j) (abs_nonneg _)

/-- the values of an array -/
noncomputable def _root_.Verif.Solver.FV.nums {n : ℕ} (x : FV F n) : Fin n → ℝ := fun j => (x.data j).num

/-- more roundings, a larger bound -/
theorem bound_le {m n m' n' : ℕ} {e : FExpr F m n} {f : FExpr F m' n'} {x : Fin n → ℝ} {y : Fin n' → ℝ} {i : Fin m} {j : Fin m'}
    (h : e.roundings ≤ f.roundings) (h1 : (e.size *ᵥ fun k => |x k|) i = (f.size *ᵥ fun k => |y k|) j) (h2 : e.under i = f.under j)
    (h3 : 0 ≤ (e.size *ᵥ fun k => |x k|) i) : e.bound x i ≤ f.bound y j := by
  have := F.u_nonneg
  unfold bound
  rw [h2, ← h1]
  gcongr
  linarith

/-- a row of two blocks -/
theorem hcat_mulVec {m n p : ℕ} (A : Matrix (Fin m) (Fin n) ℝ) (B : Matrix (Fin m) (Fin p) ℝ) (x : Fin (n + p) → ℝ) (i : Fin m) :
    ((Matrix.of fun i => Fin.append (A i) (B i)) *ᵥ x) i =
      (A *ᵥ fun j => x (Fin.castAdd p j)) i + (B *ᵥ fun j => x (Fin.natAdd n j)) i := by
  simp [Matrix.mulVec, dotProduct, Fin.sum_univ_add]

theorem err : ∀ {m n : ℕ} (e : FExpr F m n) (x : FV F n) (i : Fin m), ((e.mulVec x).data i).Finite →
    |((e.mulVec x).data i).num - (e.matrix *ᵥ x.nums) i| ≤ e.bound x.nums i
  | _, n, .arr A, x, i, h => by
    have h1 := (FV.sum_spec (⟨A i⟩ : FV F n) x (List.finRange n) h).2
    rw [← Fin.sum_univ_def, ← Fin.sum_univ_def, List.length_finRange] at h1
    simp only [abs_mul] at h1
    exact h1
  | _, _, .diag d, x, i, h => by
    have h1 := (FP.mul_spec h).2.2
    have hu := F.u_nonneg
    unfold bound
    rw [matrix, size, Matrix.mulVec_diagonal, Matrix.mulVec_diagonal, ← abs_mul]
    refine h1.trans ?_
    rw [roundings, pow_one, under, add_sub_cancel_left]
    gcongr
    exact min_le_left _ _
  | _, _, .ident _, x, i, h => by
    unfold bound
    rw [matrix, size, Matrix.one_mulVec, roundings, under, pow_zero, sub_self, zero_mul, add_zero]
    show |(x.data i).num - (x.data i).num| ≤ 0
    simp
  | _, _, .scal a e, x, i, h => by
    have hu := F.u_nonneg
    have hX := abs_mulVec_le e x.nums i
    have hX0 := (abs_nonneg _).trans hX
    unfold bound
    rw [matrix, size, Matrix.smul_mulVec, Matrix.smul_mulVec, roundings, under, Pi.smul_apply, Pi.smul_apply, smul_eq_mul, smul_eq_mul]
    by_cases ha : a.val = some 0
    · have ha0 : a.num = 0 := by rw [FP.num, ha]; rfl
      rw [mulVec, if_pos ha, ha0, abs_zero, zero_mul, zero_mul, mul_zero]
      have : ((zeros : FV F _).data i).num = 0 := rfl
      rw [this]
      simpa using F.tiny_nonneg
    · rw [mulVec, if_neg ha] at h ⊢
      obtain ⟨-, h2, h3⟩ := FP.mul_spec h
      have ih := err e x i h2
      unfold bound at ih
      set y := ((e.mulVec x).data i).num
      set Y := (e.matrix *ᵥ x.nums) i
      set X := (e.size *ᵥ fun j => |x.nums j|) i
      set G := (1 + F.u) ^ e.roundings with hG
      show |(a * (e.mulVec x).data i).num - a.num * Y| ≤ _
      set z := (a * (e.mulVec x).data i).num
      have h3' : |z - a.num * y| ≤ F.u * (|a.num| * |y|) + F.tiny := by
        rw [← abs_mul]
        refine h3.trans ?_
        gcongr
        exact min_le_left _ _
      have h4 : |y| ≤ X + ((G - 1) * X + e.under i) := by
        have : y = Y + (y - Y) := by ring
        rw [this]
        exact (abs_add_le _ _).trans (add_le_add hX ih)
      have h5 : |z - a.num * Y| ≤ |z - a.num * y| + |a.num| * |y - Y| := by
        have : z - a.num * Y = (z - a.num * y) + a.num * (y - Y) := by ring
        rw [this]
        refine (abs_add_le _ _).trans ?_
        rw [abs_mul]
      have e1 := mul_le_mul_of_nonneg_left ih (abs_nonneg a.num)
      have e2 := mul_le_mul_of_nonneg_left (mul_le_mul_of_nonneg_left h4 (abs_nonneg a.num)) hu
      rw [pow_succ, ← hG]
      nlinarith
  | _, _, .mul e f, x, i, h => by
    have hu := F.u_nonneg
    have ih := err e (f.mulVec x) i h
    have hfin := finite_of e (f.mulVec x) i h
    have ihf := fun j => err f x j
    set y := f.mulVec x with hy
    unfold bound at ih ihf ⊢
    rw [matrix, size, roundings, under, ← Matrix.mulVec_mulVec, ← Matrix.mulVec_mulVec]
    show |((e.mulVec y).data i).num - (e.matrix *ᵥ (f.matrix *ᵥ x.nums)) i| ≤ _
    set Y := f.matrix *ᵥ x.nums
    set X := f.size *ᵥ fun j => |x.nums j|
    set Ge := (1 + F.u) ^ e.roundings with hGe
    set Gf := (1 + F.u) ^ f.roundings with hGf
    have hGe1 : 1 ≤ Ge := one_le_pow₀ (by linarith)
    have hd : ∀ j, e.size i j * |y.nums j - Y j| ≤ e.size i j * ((Gf - 1) * X j + f.under j) := by
      intro j
      rcases hfin j with h1 | h1
      · exact mul_le_mul_of_nonneg_left (ihf j h1) (size_nonneg e i j)
      · rw [h1, zero_mul, zero_mul]
    have hXY : ∀ j, |Y j| ≤ X j := fun j => abs_mulVec_le f x.nums j
    have h1 : |(e.matrix *ᵥ y.nums) i - (e.matrix *ᵥ Y) i| ≤ ∑ j, e.size i j * ((Gf - 1) * X j + f.under j) := by
      rw [← Pi.sub_apply, ← Matrix.mulVec_sub]
      show |∑ j, e.matrix i j * (y.nums j - Y j)| ≤ _
      refine (Finset.abs_sum_le_sum_abs _ _).trans (Finset.sum_le_sum fun j _ => ?_)
      rw [abs_mul]
      exact (mul_le_mul_of_nonneg_right (abs_matrix_le e i j) (abs_nonneg _)).trans (hd j)
    have h2 : (e.size *ᵥ fun j => |y.nums j|) i ≤ ∑ j, e.size i j * (X j + ((Gf - 1) * X j + f.under j)) := by
      show ∑ j, e.size i j * |y.nums j| ≤ _
      refine Finset.sum_le_sum fun j _ => ?_
      have : |y.nums j| ≤ X j + |y.nums j - Y j| := by
        have e1 : y.nums j = Y j + (y.nums j - Y j) := by ring
        calc |y.nums j| = |Y j + (y.nums j - Y j)| := by rw [← e1]
          _ ≤ _ := (abs_add_le _ _).trans (by gcongr; exact hXY j)
      calc e.size i j * |y.nums j| ≤ e.size i j * (X j + |y.nums j - Y j|) := mul_le_mul_of_nonneg_left this (size_nonneg e i j)
        _ = e.size i j * X j + e.size i j * |y.nums j - Y j| := by ring
        _ ≤ e.size i j * X j + e.size i j * ((Gf - 1) * X j + f.under j) := add_le_add le_rfl (hd j)
        _ = _ := by ring
    have s1 : ∑ j, e.size i j * ((Gf - 1) * X j + f.under j) = (Gf - 1) * (e.size *ᵥ X) i + (e.size *ᵥ f.under) i := by
      simp only [Matrix.mulVec, dotProduct, Finset.mul_sum, ← Finset.sum_add_distrib]
      exact Finset.sum_congr rfl fun j _ => by ring
    have s2 : ∑ j, e.size i j * (X j + ((Gf - 1) * X j + f.under j)) = Gf * (e.size *ᵥ X) i + (e.size *ᵥ f.under) i := by
      simp only [Matrix.mulVec, dotProduct, Finset.mul_sum, ← Finset.sum_add_distrib]
      exact Finset.sum_congr rfl fun j _ => by ring
    rw [s1] at h1
    rw [s2] at h2
    have h3 := abs_sub_le ((e.mulVec y).data i).num ((e.matrix *ᵥ y.nums) i) ((e.matrix *ᵥ Y) i)
    have h4 := mul_le_mul_of_nonneg_left h2 (show 0 ≤ Ge - 1 by linarith)
    rw [pow_add, ← hGe, ← hGf]
    nlinarith
  | _, _, .add e f, x, i, h => by
    obtain ⟨h1, h2, h3⟩ := FP.add_spec h
    have hu := F.u_nonneg
    have ih1 := err e x i h1
    have ih2 := err f x i h2
    unfold bound at ih1 ih2 ⊢
    rw [matrix, size, roundings, under, Matrix.add_mulVec, Matrix.add_mulVec, Pi.add_apply, Pi.add_apply]
    exact round_add hu _ _ (h3.trans (by gcongr; exact min_le_left _ _)) ih1 ih2 (abs_mulVec_le e _ i) (abs_mulVec_le f _ i) rfl rfl
  | _, _, .sub e f, x, i, h => by
    obtain ⟨h1, h2, h3⟩ := FP.sub_spec h
    have hu := F.u_nonneg
    have ih1 := err e x i h1
    have ih2 := err f x i h2
    unfold bound at ih1 ih2 ⊢
    rw [matrix, size, roundings, under, Matrix.sub_mulVec, Matrix.add_mulVec, Pi.sub_apply, Pi.add_apply, sub_eq_add_neg ((e.matrix *ᵥ _) i)]
    refine round_add hu _ _ (b := -((f.mulVec x).data i).num) (h3.trans (by rw [← sub_eq_add_neg]; gcongr; exact min_le_left _ _)) ih1
      (?_ : _ ≤ ((1 + F.u) ^ f.roundings - 1) * _ + f.under i) (abs_mulVec_le e _ i) (by rw [abs_neg]; exact abs_mulVec_le f _ i) rfl rfl
    rw [← neg_sub', abs_neg]
    exact ih2
  | _, _, .zero _ _, x, i, h => by
    unfold bound
    rw [matrix, size, roundings, under, Matrix.zero_mulVec, pow_zero, sub_self, zero_mul, add_zero, Pi.zero_apply, sub_zero]
    exact abs_zero.le
  | _, _, .hcat e f, x, i, h => by
    obtain ⟨h1, h2, h3⟩ := FP.add_spec h
    have hu := F.u_nonneg
    have ih1 := err e x.fst i h1
    have ih2 := err f x.snd i h2
    unfold bound at ih1 ih2 ⊢
    rw [matrix, size, roundings, under, hcat_mulVec, hcat_mulVec]
    exact round_add hu _ _ (h3.trans (by gcongr; exact min_le_left _ _)) ih1 ih2 (abs_mulVec_le e _ i) (abs_mulVec_le f _ i) rfl rfl
  | _, _, .vcat e f, x, i, h => by
    revert h
    refine Fin.addCases (fun i h => ?_) (fun i h => ?_) i
    · have h1 : ((e.mulVec x).data i).Finite := by simpa [mulVec] using h
      have ih := err e x i h1
      have e1 : ((FExpr.vcat e f).mulVec x).data (Fin.castAdd _ i) = (e.mulVec x).data i := by simp [mulVec]
      have e2 : ((FExpr.vcat e f).matrix *ᵥ x.nums) (Fin.castAdd _ i) = (e.matrix *ᵥ x.nums) i := by simp [matrix, Matrix.mulVec]
      rw [e1, e2]
      refine ih.trans (bound_le (by rw [roundings]; exact le_max_left _ _) ?_ ?_ ?_)
      · simp [size, Matrix.mulVec]
      · simp [under]
      · exact (abs_nonneg _).trans (abs_mulVec_le e x.nums i)
    · have h1 : ((f.mulVec x).data i).Finite := by simpa [mulVec] using h
      have ih := err f x i h1
      have e1 : ((FExpr.vcat e f).mulVec x).data (Fin.natAdd _ i) = (f.mulVec x).data i := by simp [mulVec]
      have e2 : ((FExpr.vcat e f).matrix *ᵥ x.nums) (Fin.natAdd _ i) = (f.matrix *ᵥ x.nums) i := by simp [matrix, Matrix.mulVec]
      rw [e1, e2]
      refine ih.trans (bound_le (by rw [roundings]; exact le_max_right _ _) ?_ ?_ ?_)
      · simp [size, Matrix.mulVec]
      · simp [under]
      · exact (abs_nonneg _).trans (abs_mulVec_le f x.nums i)
  | _, _, .bdiag e f, x, i, h => by
    revert h
    refine Fin.addCases (fun i h => ?_) (fun i h => ?_) i
    · have h1 : ((e.mulVec x.fst).data i).Finite := by simpa [mulVec] using h
      have ih := err e x.fst i h1
      have e1 : ((FExpr.bdiag e f).mulVec x).data (Fin.castAdd _ i) = (e.mulVec x.fst).data i := by simp [mulVec]
      have e2 : ((FExpr.bdiag e f).matrix *ᵥ x.nums) (Fin.castAdd _ i) = (e.matrix *ᵥ x.fst.nums) i := by
        simp [matrix, Matrix.mulVec, dotProduct, Fin.sum_univ_add, FV.nums, FV.fst]
      rw [e1, e2]
      refine ih.trans (bound_le (by rw [roundings]; exact le_max_left _ _) ?_ ?_ ?_)
      · simp [size, Matrix.mulVec, dotProduct, Fin.sum_univ_add, FV.nums, FV.fst]
      · simp [under]
      · exact (abs_nonneg _).trans (abs_mulVec_le e x.fst.nums i)
    · have h1 : ((f.mulVec x.snd).data i).Finite := by simpa [mulVec] using h
      have ih := err f x.snd i h1
      have e1 : ((FExpr.bdiag e f).mulVec x).data (Fin.natAdd _ i) = (f.mulVec x.snd).data i := by simp [mulVec]
      have e2 : ((FExpr.bdiag e f).matrix *ᵥ x.nums) (Fin.natAdd _ i) = (f.matrix *ᵥ x.snd.nums) i := by
        simp [matrix, Matrix.mulVec, dotProduct, Fin.sum_univ_add, FV.nums, FV.snd]
      rw [e1, e2]
      refine ih.trans (bound_le (by rw [roundings]; exact le_max_right _ _) ?_ ?_ ?_)
      · simp [size, Matrix.mulVec, dotProduct, Fin.sum_univ_add, FV.nums, FV.snd]
      · simp [under]
      · exact (abs_nonneg _).trans (abs_mulVec_le f x.snd.nums i)

theorem matrix_T : ∀ {m n : ℕ} (e : FExpr F m n), e.T.matrix = e.matrixᵀ
  | _, _, .arr A => rfl
  | _, _, .diag d => (Matrix.diagonal_transpose _).symm
  | _, _, .ident _ => Matrix.transpose_one.symm
  | _, _, .scal a e => by rw [T, matrix, matrix, matrix_T e, Matrix.transpose_smul]
  | _, _, .mul e f => by rw [T, matrix, matrix, matrix_T e, matrix_T f, Matrix.transpose_mul]
  | _, _, .add e f => by rw [T, matrix, matrix, matrix_T e, matrix_T f, Matrix.transpose_add]
  | _, _, .sub e f => by rw [T, matrix, matrix, matrix_T e, matrix_T f, Matrix.transpose_sub]
  | _, _, .zero _ _ => Matrix.transpose_zero.symm
  | _, _, .hcat e f => by
    rw [T, matrix, matrix, matrix_T e, matrix_T f]
    ext i j
    refine Fin.addCases (fun i => ?_) (fun i => ?_) i <;> simp
  | _, _, .vcat e f => by
    rw [T, matrix, matrix, matrix_T e, matrix_T f]
    ext i j
    refine Fin.addCases (fun j => ?_) (fun j => ?_) j <;> simp
  | _, _, .bdiag e f => by
    rw [T, matrix, matrix, matrix_T e, matrix_T f]
    ext i j
    refine Fin.addCases (fun i => ?_) (fun i => ?_) i <;> refine Fin.addCases (fun j => ?_) (fun j => ?_) j <;> simp

theorem size_T : ∀ {m n : ℕ} (e : FExpr F m n), e.T.size = e.sizeᵀ
  | _, _, .arr A => rfl
  | _, _, .diag d => (Matrix.diagonal_transpose _).symm
  | _, _, .ident _ => Matrix.transpose_one.symm
  | _, _, .scal a e => by rw [T, size, size, size_T e, Matrix.transpose_smul]
  | _, _, .mul e f => by rw [T, size, size, size_T e, size_T f, Matrix.transpose_mul]
  | _, _, .add e f => by rw [T, size, size, size_T e, size_T f, Matrix.transpose_add]
  | _, _, .sub e f => by rw [T, size, size, size_T e, size_T f, Matrix.transpose_add]
  | _, _, .zero _ _ => Matrix.transpose_zero.symm
  | _, _, .hcat e f => by
    rw [T, size, size, size_T e, size_T f]
    ext i j
    refine Fin.addCases (fun i => ?_) (fun i => ?_) i <;> simp
  | _, _, .vcat e f => by
    rw [T, size, size, size_T e, size_T f]
    ext i j
    refine Fin.addCases (fun j => ?_) (fun j => ?_) j <;> simp
  | _, _, .bdiag e f => by
    rw [T, size, size, size_T e, size_T f]
    ext i j
    refine Fin.addCases (fun i => ?_) (fun i => ?_) i <;> refine Fin.addCases (fun j => ?_) (fun j => ?_) j <;> simp

end FExpr

open FExpr

/-- **C91, products.**  Every finite entry of `A * x` is the true one up to `((1+u)^r - 1) (|A| |x|)_i` and the effect of underflow, and it did
not come from entries of `x` that are not finite. -/
theorem C91_products {m n : ℕ} (e : FExpr F m n) (x : FV F n) (i : Fin m) (h : ((e.mulVec x).data i).Finite) :
    |((e.mulVec x).data i).num - (e.matrix *ᵥ x.nums) i| ≤ e.bound x.nums i ∧ (∀ j, ¬ (x.data j).Finite → e.matrix i j = 0) := by
  refine ⟨err e x i h, fun j hj => ?_⟩
  rcases finite_of e x i h j with h1 | h1
  · exact absurd h1 hj
  · have := abs_matrix_le e i j
    rw [h1] at this
    exact abs_eq_zero.1 (le_antisymm this (abs_nonneg _))

/-- **C91, laws.**  Two ways to build the same matrix give the same products up to the two errors. -/
theorem C91_laws {m n : ℕ} (e f : FExpr F m n) (hef : e.matrix = f.matrix) (x : FV F n) (i : Fin m)
    (h1 : ((e.mulVec x).data i).Finite) (h2 : ((f.mulVec x).data i).Finite) :
    |((e.mulVec x).data i).num - ((f.mulVec x).data i).num| ≤ e.bound x.nums i + f.bound x.nums i := by
  have e1 := err e x i h1
  have e2 := err f x i h2
  rw [hef] at e1
  rw [abs_sub_comm] at e2
  exact (abs_sub_le _ _ _).trans (add_le_add e1 e2)

/-- **C91, transposes.**  `A.T` stands for the transposed matrix, and `(A x)'y` and `x'(A.T y)` agree up to the errors of the two products. -/
theorem C91_transpose {m n : ℕ} (e : FExpr F m n) :
    e.T.matrix = e.matrixᵀ ∧ e.T.size = e.sizeᵀ ∧ ∀ (x : FV F n) (y : FV F m), (e.mulVec x).Finite → (e.T.mulVec y).Finite →
      |(e.mulVec x).nums ⬝ᵥ y.nums - x.nums ⬝ᵥ (e.T.mulVec y).nums| ≤
        ∑ i, e.bound x.nums i * |y.nums i| + ∑ j, |x.nums j| * e.T.bound y.nums j := by
  refine ⟨matrix_T e, size_T e, fun x y hx hy => ?_⟩
  have h0 : (e.matrix *ᵥ x.nums) ⬝ᵥ y.nums = x.nums ⬝ᵥ (e.T.matrix *ᵥ y.nums) := by
    rw [matrix_T, Matrix.mulVec_transpose, dotProduct_comm, Matrix.dotProduct_mulVec, dotProduct_comm]
  have h1 : |(e.mulVec x).nums ⬝ᵥ y.nums - (e.matrix *ᵥ x.nums) ⬝ᵥ y.nums| ≤ ∑ i, e.bound x.nums i * |y.nums i| := by
    rw [← sub_dotProduct]
    refine (Finset.abs_sum_le_sum_abs _ _).trans (Finset.sum_le_sum fun i _ => ?_)
    rw [abs_mul]
    exact mul_le_mul_of_nonneg_right (err e x i (hx i)) (abs_nonneg _)
  have h2 : |x.nums ⬝ᵥ (e.T.matrix *ᵥ y.nums) - x.nums ⬝ᵥ (e.T.mulVec y).nums| ≤ ∑ j, |x.nums j| * e.T.bound y.nums j := by
    rw [abs_sub_comm, ← dotProduct_sub]
    refine (Finset.abs_sum_le_sum_abs _ _).trans (Finset.sum_le_sum fun j _ => ?_)
    rw [abs_mul]
    exact mul_le_mul_of_nonneg_left (err e.T y j (hy j)) (abs_nonneg _)
  rw [h0] at h1
  exact (abs_sub_le _ _ _).trans (add_le_add h1 h2)

/-- **C91, `to_array`.** -/
theorem C91_to_array {m n : ℕ} (e : FExpr F m n) (i : Fin m) (j : Fin n) (h : ((e.column j).data i).Finite) :
    |((e.column j).data i).num - e.matrix i j| ≤ ((1 + F.u) ^ e.roundings - 1) * e.size i j + e.under i := by
  have h1 := err e _ i h
  have h2 : (FV.nums (⟨fun k => ⟨some (if k = j then 1 else 0)⟩⟩ : FV F n)) = Pi.single j 1 := by
    ext k
    simp [FV.nums, FP.num, Pi.single_apply]
  rw [h2, FExpr.bound] at h1
  have h3 : (fun k => |(Pi.single j 1 : Fin n → ℝ) k|) = Pi.single j 1 := by
    ext k
    rw [Pi.single_apply]
    split <;> simp
  rw [h3, Matrix.mulVec_single_one, Matrix.mulVec_single_one] at h1
  exact h1

/-- **C91, entries without cancellation.**  If nothing cancels (all entries of the arrays and of `x` and all scalars are nonnegative, and there are
no differences) the relative error is at most `(1+u)^r - 1`, and underflow. -/
theorem C91_relative {m n : ℕ} (e : FExpr F m n) (he : e.size = e.matrix) (x : FV F n) (hx : ∀ j, 0 ≤ (x.data j).num) (i : Fin m)
    (h : ((e.mulVec x).data i).Finite) :
    |((e.mulVec x).data i).num - (e.matrix *ᵥ x.nums) i| ≤ ((1 + F.u) ^ e.roundings - 1) * (e.matrix *ᵥ x.nums) i + e.under i := by
  have h1 := err e x i h
  have h2 : (fun j => |x.nums j|) = x.nums := funext fun j => abs_of_nonneg (hx j)
  rw [FExpr.bound, he, h2] at h1
  exact h1

/-- **C91 for the solvers.**  A square operator meets the condition on operators of C90 (`C90_cg_partial`, `C90_cgs`), for vectors whose products
do not underflow. -/
theorem C91_solvers {n : ℕ} (hn : (1 + F.u) ^ (n + 2) ≤ 3 / 2) (e : FExpr F n n) (L : List (FV F n)) {del : ℝ} (hdel : 0 ≤ del)
    (hL : ∀ v ∈ L, ‖(WithLp.toLp 2 e.under : EuclideanSpace ℝ (Fin n))‖ ≤ del * ‖v.vec‖) :
    (F.rounding n hn).Computes e.mulVec (denseLin e.matrix) (frobenius e.size) (((1 + F.u) ^ e.roundings - 1) * frobenius e.size + del) L := by
  have hu := F.u_nonneg
  have hg : 0 ≤ (1 + F.u) ^ e.roundings - 1 := sub_nonneg.2 (one_le_pow₀ (by linarith))
  have hf : 0 ≤ frobenius e.size := Real.sqrt_nonneg _
  have hle : frobenius e.matrix ≤ frobenius e.size := by
    refine Real.sqrt_le_sqrt (Finset.sum_le_sum fun i _ => Finset.sum_le_sum fun j _ => ?_)
    rw [← sq_abs]
    exact pow_le_pow_left₀ (abs_nonneg _) (abs_matrix_le e i j) 2
  refine ⟨hf, add_nonneg (mul_nonneg hg hf) hdel, fun x => (denseLin_bound _ x).trans (by gcongr), fun v hv _ h => ?_⟩
  set a : EuclideanSpace ℝ (Fin n) := WithLp.toLp 2 fun j => |v.vec j| with ha
  have hna : ‖a‖ = ‖v.vec‖ := by
    rw [EuclideanSpace.norm_eq, EuclideanSpace.norm_eq]
    simp [ha]
  set o : EuclideanSpace ℝ (Fin n) := WithLp.toLp 2 e.under with ho
  have h1 : ‖(e.mulVec v).vec - denseLin e.matrix v.vec‖ ≤ ‖((1 + F.u) ^ e.roundings - 1) • denseLin e.size a + o‖ := by
    rw [EuclideanSpace.norm_eq, EuclideanSpace.norm_eq]
    refine Real.sqrt_le_sqrt (Finset.sum_le_sum fun i _ => ?_)
    rw [Real.norm_eq_abs, Real.norm_eq_abs]
    exact pow_le_pow_left₀ (abs_nonneg _) ((err e v i (h i)).trans (le_abs_self _)) 2
  calc ‖(e.mulVec v).vec - denseLin e.matrix v.vec‖ ≤ ‖((1 + F.u) ^ e.roundings - 1) • denseLin e.size a + o‖ := h1
    _ ≤ ‖((1 + F.u) ^ e.roundings - 1) • denseLin e.size a‖ + ‖o‖ := norm_add_le _ _
    _ ≤ ((1 + F.u) ^ e.roundings - 1) * (frobenius e.size * ‖v.vec‖) + del * ‖v.vec‖ := by
      rw [norm_smul, Real.norm_eq_abs, abs_of_nonneg hg, ← hna]
      refine add_le_add (mul_le_mul_of_nonneg_left (denseLin_bound _ _) hg) ?_
      rw [hna]
      exact hL v hv
    _ = _ := by
      show _ = _ * ‖v.vec‖
      ring

/-! ### A concrete case

`(A + 2 I) x` in `float64`, for `A = [1 2; 3 4]` and `x = (5, 6)`. -/

open Float64Example in
/-- the product is finite, exact, and so is the product with the transpose -/
example :
    let A : FExpr float64 2 2 := .arr fun i j => I (2 * i + j + 1)
    let e : FExpr float64 2 2 := .add A (.scal (I 2) (.ident 2))
    let x : FV float64 2 := ⟨fun j => I (j + 5)⟩
    (e.mulVec x).Finite ∧ (e.T.mulVec x).Finite ∧ (e.mulVec x).nums = ![27, 51] ∧ e.roundings = 4 ∧ e.matrix = !![3, 2; 3, 6] ∧ e.size = e.matrix := by
  intro A e x
  have hsum : ∀ v w : FV float64 2, FV.sum v w (List.finRange 2) ⟨some 0⟩ = (⟨some 0⟩ + v.data 0 * w.data 0) + v.data 1 * w.data 1 := by
    intro v w
    rw [show List.finRange 2 = [0, 1] from rfl]
    rfl
  have hz : (⟨some 0⟩ : FP float64) = I 0 := by simp [I]
  have h2 : ¬ (I 2).val = some 0 := by simp [I]
  have hA : ∀ i, ((e.mulVec x).data i) = I (if i = 0 then 27 else 51) := by
    intro i
    show dot (⟨fun j => I (2 * i + j + 1)⟩ : FV float64 2) x + ((FExpr.scal (I 2) (.ident 2)).mulVec x).data i = _
    have hd : dot (⟨fun j => I (2 * i + j + 1)⟩ : FV float64 2) x = FV.sum (⟨fun j => I (2 * i + j + 1)⟩ : FV float64 2) x (List.finRange 2) ⟨some 0⟩ := rfl
    rw [FExpr.mulVec, if_neg h2, hd, hsum, hz]
    show (I 0 + I _ * I _) + I _ * I _ + I 2 * I _ = _
    fin_cases i <;> simp [I_mul, I_add]
  have hT : ∀ i, ((e.T.mulVec x).data i) = I (if i = 0 then 33 else 46) := by
    intro i
    show dot (⟨fun j => I (2 * j + i + 1)⟩ : FV float64 2) x + ((FExpr.scal (I 2) (.ident 2)).mulVec x).data i = _
    have hd : dot (⟨fun j => I (2 * j + i + 1)⟩ : FV float64 2) x = FV.sum (⟨fun j => I (2 * j + i + 1)⟩ : FV float64 2) x (List.finRange 2) ⟨some 0⟩ := rfl
    rw [FExpr.mulVec, if_neg h2, hd, hsum, hz]
    show (I 0 + I _ * I _) + I _ * I _ + I 2 * I _ = _
    fin_cases i <;> simp [I_mul, I_add]
  refine ⟨fun i => by rw [hA]; rfl, fun i => by rw [hT]; rfl, ?_, rfl, ?_, ?_⟩
  · ext i
    rw [FV.nums, hA]
    fin_cases i <;> simp [I, FP.num]
  · ext i j
    fin_cases i <;> fin_cases j <;> simp [e, A, FExpr.matrix, I, FP.num] <;> norm_num
  · ext i j
    fin_cases i <;> fin_cases j <;> simp [e, A, FExpr.matrix, FExpr.size, I, FP.num] <;> norm_num

end Verif.Linop
