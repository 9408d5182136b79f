import Verif.Gallery.PoissonProps
import Mathlib.Algebra.Order.Chebyshev
import Mathlib.Analysis.InnerProductSpace.PiL2

/-!
# How ill-conditioned the Poisson operators are

A discrete Poincaré inequality: lower bounds for the quadratic forms, and so for `|Tx|` and `|Lx|`.
-/

namespace Verif.Gallery
open Matrix Finset

theorem T_energy (n : ℕ) (x : Fin n → ℝ) :
    ∃ f : ℕ → ℝ, f 0 = 0 ∧ (∀ i : Fin n, f (i + 1) = x i) ∧
      x ⬝ᵥ (T ℝ n *ᵥ x) = ∑ i ∈ range n, (f (i + 1) - f i) ^ 2 + f n ^ 2 := by
  obtain ⟨f, hf0, hfn, hfx⟩ : ∃ f : Nat → ℝ, f 0 = 0 ∧ f (n + 1) = 0 ∧ ∀ i : Fin n, f (i + 1) = x i := by
    refine ⟨fun k => if h : 1 ≤ k ∧ k ≤ n then x ⟨k - 1, by omega⟩ else 0, by simp, by simp, fun i => ?_⟩
    have : 1 ≤ (i : Nat) + 1 ∧ (i : Nat) + 1 ≤ n := by have := i.2; omega
    simp only [dif_pos this, Nat.add_sub_cancel]
  refine ⟨f, hf0, hfx, ?_⟩
  have e : x ⬝ᵥ (T ℝ n *ᵥ x) = ∑ i ∈ range n, f (i + 1) * (2 * f (i + 1) - f i - f (i + 2)) := by
    rw [← Fin.sum_univ_eq_sum_range (fun i => f (i + 1) * (2 * f (i + 1) - f i - f (i + 2))) n]
    unfold dotProduct
    refine Finset.sum_congr rfl fun i _ => ?_
    have hx' : x = fun j : Fin n => f (j + 1) := funext fun j => (hfx j).symm
    have := T_mulVec n (fun k => f (k + 1)) i
    rw [hx', this]
    simp only [tri]
    congr 1
    have h1 : (if (i : Nat) + 1 < n then f (i + 1 + 1) else 0) = f (i + 2) := by
      split
      · rfl
      · have : (i : Nat) + 2 = n + 1 := by have := i.2; omega
        rw [this, hfn]
    have h2 : (if 1 ≤ (i : Nat) then f (i - 1 + 1) else 0) = f i := by
      split
      · congr 1; omega
      · have : (i : Nat) = 0 := by omega
        rw [this, hf0]
    rw [h1, h2]; ring
  rw [e, energy_sum, hf0, hfn]
  ring

/-- **C46 (conditioning).** The quadratic form of the 1D Poisson matrix of order `n` is at least `2 / (n (n+1))` times the square
of the norm. -/
theorem C46_poincare (n : ℕ) (x : Fin n → ℝ) : 2 * (x ⬝ᵥ x) ≤ n * (n + 1) * (x ⬝ᵥ (T ℝ n *ᵥ x)) := by
  obtain ⟨f, h0, hx, hE⟩ := T_energy n x
  rw [hE]
  set D := ∑ i ∈ range n, (f (i + 1) - f i) ^ 2 with hD
  have hk : ∀ k, k ≤ n → f k ^ 2 ≤ k * D := by
    intro k hk
    have h1 : f k = ∑ i ∈ range k, (f (i + 1) - f i) := by rw [Finset.sum_range_sub, h0, sub_zero]
    have h2 := sq_sum_le_card_mul_sum_sq (s := range k) (f := fun i => f (i + 1) - f i)
    rw [← h1, card_range] at h2
    refine h2.trans (mul_le_mul_of_nonneg_left ?_ (Nat.cast_nonneg k))
    exact Finset.sum_le_sum_of_subset_of_nonneg (range_mono hk) fun i _ _ => sq_nonneg _
  have hs : x ⬝ᵥ x = ∑ i ∈ range n, f (i + 1) ^ 2 := by
    rw [← Fin.sum_univ_eq_sum_range (fun i => f (i + 1) ^ 2) n]
    exact Finset.sum_congr rfl fun i _ => by rw [hx]; ring
  have hsum : ∑ i ∈ range n, f (i + 1) ^ 2 ≤ ∑ i ∈ range n, ((i : ℝ) + 1) * D :=
    Finset.sum_le_sum fun i hi => by
      have := hk (i + 1) (mem_range.1 hi)
      push_cast at this
      exact this
  have hg : ∀ m : ℕ, 2 * ∑ i ∈ range m, ((i : ℝ) + 1) = m * (m + 1) := by
    intro m
    induction m with
    | zero => simp
    | succ m ih => rw [sum_range_succ, mul_add, ih]; push_cast; ring
  rw [← Finset.sum_mul] at hsum
  have hn : 0 ≤ (n : ℝ) * (n + 1) * f n ^ 2 := by positivity
  calc 2 * (x ⬝ᵥ x) ≤ 2 * ((∑ i ∈ range n, ((i : ℝ) + 1)) * D) := by rw [hs]; linarith
    _ = n * (n + 1) * D := by rw [← hg n]; ring
    _ ≤ _ := by nlinarith

theorem L_energy (n : ℕ) (x : Fin n × Fin n → ℝ) :
    x ⬝ᵥ (L ℝ n *ᵥ x) = ∑ b, (fun k => x (b, k)) ⬝ᵥ (T ℝ n *ᵥ fun k => x (b, k)) +
      ∑ j, (fun k => x (k, j)) ⬝ᵥ (T ℝ n *ᵥ fun k => x (k, j)) := by
  simp only [dotProduct, Fintype.sum_prod_type, L_mulVec, mul_add, Finset.sum_add_distrib]
  congr 1
  exact Finset.sum_comm

/-- **C47 (conditioning).** The quadratic form of the 2D Poisson matrix on an `n` by `n` grid is at least `4 / (n (n+1))` times
the square of the norm. -/
theorem C47_poincare (n : ℕ) (x : Fin n × Fin n → ℝ) : 4 * (x ⬝ᵥ x) ≤ n * (n + 1) * (x ⬝ᵥ (L ℝ n *ᵥ x)) := by
  have e := L_energy n x
  have e1 : x ⬝ᵥ x = ∑ b, (fun k => x (b, k)) ⬝ᵥ (fun k => x (b, k)) := by
    simp only [dotProduct, Fintype.sum_prod_type]
  have e2 : x ⬝ᵥ x = ∑ j, (fun k => x (k, j)) ⬝ᵥ (fun k => x (k, j)) := by
    simp only [dotProduct, Fintype.sum_prod_type]
    exact Finset.sum_comm
  have h1 : 2 * (x ⬝ᵥ x) ≤ n * (n + 1) * ∑ b, (fun k => x (b, k)) ⬝ᵥ (T ℝ n *ᵥ fun k => x (b, k)) := by
    rw [e1, mul_sum, mul_sum]; exact Finset.sum_le_sum fun b _ => C46_poincare n _
  have h2 : 2 * (x ⬝ᵥ x) ≤ n * (n + 1) * ∑ j, (fun k => x (k, j)) ⬝ᵥ (T ℝ n *ᵥ fun k => x (k, j)) := by
    rw [e2, mul_sum, mul_sum]; exact Finset.sum_le_sum fun b _ => C46_poincare n _
  rw [e, mul_add]; linarith

/-- **C46 (conditioning).** The quadratic form of the 1D Poisson matrix is at most 4 times the square of the norm. -/
theorem C46_upper (n : ℕ) (x : Fin n → ℝ) : x ⬝ᵥ (T ℝ n *ᵥ x) ≤ 4 * (x ⬝ᵥ x) := by
  obtain ⟨f, h0, hx, hE⟩ := T_energy n x
  have hs : x ⬝ᵥ x = ∑ i ∈ range n, f (i + 1) ^ 2 := by
    rw [← Fin.sum_univ_eq_sum_range (fun i => f (i + 1) ^ 2) n]
    exact Finset.sum_congr rfl fun i _ => by rw [hx]; ring
  have h1 : ∑ i ∈ range n, (f (i + 1) - f i) ^ 2 ≤ ∑ i ∈ range n, (2 * f (i + 1) ^ 2 + 2 * f i ^ 2) :=
    Finset.sum_le_sum fun i _ => by nlinarith [sq_nonneg (f (i + 1) + f i)]
  have h2 : ∑ i ∈ range n, f i ^ 2 + f n ^ 2 = ∑ i ∈ range n, f (i + 1) ^ 2 := by
    rw [← sum_range_succ, sum_range_succ', h0]; ring
  rw [sum_add_distrib, ← mul_sum, ← mul_sum] at h1
  rw [hE, hs]
  linarith [sq_nonneg (f n)]

/-- **C47 (conditioning).** The quadratic form of the 2D Poisson matrix is at most 8 times the square of the norm. -/
theorem C47_upper (n : ℕ) (x : Fin n × Fin n → ℝ) : x ⬝ᵥ (L ℝ n *ᵥ x) ≤ 8 * (x ⬝ᵥ x) := by
  have e1 : x ⬝ᵥ x = ∑ b, (fun k => x (b, k)) ⬝ᵥ (fun k => x (b, k)) := by
    simp only [dotProduct, Fintype.sum_prod_type]
  have e2 : x ⬝ᵥ x = ∑ j, (fun k => x (k, j)) ⬝ᵥ (fun k => x (k, j)) := by
    simp only [dotProduct, Fintype.sum_prod_type]
    exact Finset.sum_comm
  have h1 : ∑ b, (fun k => x (b, k)) ⬝ᵥ (T ℝ n *ᵥ fun k => x (b, k)) ≤ 4 * (x ⬝ᵥ x) := by
    rw [e1, mul_sum]; exact Finset.sum_le_sum fun b _ => C46_upper n _
  have h2 : ∑ j, (fun k => x (k, j)) ⬝ᵥ (T ℝ n *ᵥ fun k => x (k, j)) ≤ 4 * (x ⬝ᵥ x) := by
    rw [e2, mul_sum]; exact Finset.sum_le_sum fun b _ => C46_upper n _
  rw [L_energy]; linarith

end Verif.Gallery
