import Verif.Gallery.PoissonLemmas
import Mathlib.LinearAlgebra.Matrix.Kronecker
import Mathlib.Analysis.Matrix.Order
import Mathlib.Analysis.Matrix.PosDef
import Mathlib.Tactic.NoncommRing

/-!
# C46, C47: the Poisson operators of the gallery
-/

namespace Verif.Gallery
open Matrix Finset
open scoped Kronecker

/-- specification: the tridiagonal matrix (-1, 2, -1) of order `n` -/
def T (K : Type) [Ring K] (n : Nat) : Matrix (Fin n) (Fin n) K := fun i j =>
  if i = j then 2 else if (i : Nat) + 1 = j ∨ (j : Nat) + 1 = i then -1 else 0

/-- specification: the five-point Laplacian on an `n` by `n` grid -/
def L (K : Type) [CommRing K] (n : Nat) : Matrix (Fin n × Fin n) (Fin n × Fin n) K := 1 ⊗ₖ T K n + T K n ⊗ₖ 1

theorem T_mulVec {K : Type} [Ring K] (n : Nat) (x : Nat → K) (i : Fin n) :
    (T K n *ᵥ fun j : Fin n => x j) i = tri n x i := by
  unfold mulVec dotProduct tri
  have h : ∀ j : Fin n, T K n i j * x j =
      (if i = j then 2 * x i else 0) - (if (i : Nat) + 1 = (j : Nat) then x (i + 1) else 0) -
        (if (j : Nat) + 1 = (i : Nat) then x (i - 1) else 0) := by
    intro j
    unfold T
    by_cases h1 : i = j
    · subst h1; simp
    · have h1' : (i : Nat) ≠ j := fun h => h1 (Fin.ext h)
      by_cases h2 : (i : Nat) + 1 = j
      · have h3 : ¬ (j : Nat) + 1 = i := by omega
        simp [h1, h2, h3]
      · by_cases h3 : (j : Nat) + 1 = i
        · have : (i : Nat) - 1 = j := by omega
          simp [h1, h2, h3, this]
        · simp [h1, h2, h3]
  rw [Finset.sum_congr rfl fun j _ => h j, Finset.sum_sub_distrib, Finset.sum_sub_distrib]
  congr 1
  · congr 1
    · simp
    · by_cases c : (i : Nat) + 1 < n
      · rw [if_pos c, Finset.sum_eq_single (⟨i + 1, c⟩ : Fin n)]
        · simp
        · intro b _ hb
          rw [if_neg]; intro e; exact hb (Fin.ext e.symm)
        · simp
      · rw [if_neg c]
        apply Finset.sum_eq_zero
        intro j _
        rw [if_neg]; have := j.2; omega
  · by_cases c : 1 ≤ (i : Nat)
    · rw [if_pos c, Finset.sum_eq_single (⟨i - 1, by have := i.2; omega⟩ : Fin n)]
      · rw [if_pos]; simp only; omega
      · intro b _ hb
        rw [if_neg]; intro e; apply hb; apply Fin.ext; simp only; omega
      · simp
    · rw [if_neg c]
      apply Finset.sum_eq_zero
      intro j _
      rw [if_neg]; omega

/-- **C46 (product).** For every array `x`, of any size including 0 and 1, over any ring, `Poisson1dMatvec(x)` returns
normally an array of the same size whose entries are those of the tridiagonal matrix (-1, 2, -1) times `x`. -/
theorem C46_poisson1d {K : Type} [Ring K] (x : Arr K) :
    ∃ y, poisson1d x = some y ∧ y.len = x.len ∧
      ∀ i : Fin x.len, y.get i = (T K x.len *ᵥ fun j : Fin x.len => x.get j) i := by
  obtain ⟨y, h1, h2, h3⟩ := poisson1d_get x
  exact ⟨y, h1, h2, fun i => by rw [h3 i i.2, T_mulVec]⟩

theorem energy_sum (f : Nat → ℝ) (n : Nat) :
    ∑ i ∈ range n, f (i + 1) * (2 * f (i + 1) - f i - f (i + 2)) =
      ∑ i ∈ range n, (f (i + 1) - f i) ^ 2 + f n * (f n - f (n + 1)) - f 0 * (f 0 - f 1) := by
  induction n with
  | zero => simp
  | succ n ih => rw [sum_range_succ, sum_range_succ, ih]; ring

/-- **C46 (definiteness).** The matrix of the 1D Poisson operator is symmetric positive definite, for every order. -/
theorem C46_posDef (n : Nat) : (T ℝ n).PosDef := by
  refine PosDef.of_dotProduct_mulVec_pos ?_ ?_
  · ext i j
    simp only [conjTranspose_apply, T, star_trivial]
    by_cases h : i = j
    · subst h; simp
    · rw [if_neg (Ne.symm h), if_neg h]
      exact if_congr or_comm rfl rfl
  · intro x hx
    -- extension of x by zeros on both sides
    obtain ⟨f, hf0, hfn, hfx⟩ : ∃ f : Nat → ℝ, f 0 = 0 ∧ f (n + 1) = 0 ∧ ∀ i : Fin n, f (i + 1) = x i := by
      refine ⟨fun k => if h : 1 ≤ k ∧ k ≤ n then x ⟨k - 1, by omega⟩ else 0, by simp, by simp, fun i => ?_⟩
      have : 1 ≤ (i : Nat) + 1 ∧ (i : Nat) + 1 ≤ n := by have := i.2; omega
      simp only [dif_pos this, Nat.add_sub_cancel]
    have e : star x ⬝ᵥ (T ℝ n *ᵥ x) = ∑ i ∈ range n, f (i + 1) * (2 * f (i + 1) - f i - f (i + 2)) := by
      rw [← Fin.sum_univ_eq_sum_range (fun i => f (i + 1) * (2 * f (i + 1) - f i - f (i + 2))) n]
      unfold dotProduct
      refine Finset.sum_congr rfl fun i _ => ?_
      have hx' : x = fun j : Fin n => f (j + 1) := funext fun j => (hfx j).symm
      have := T_mulVec n (fun k => f (k + 1)) i
      rw [hx', this]
      simp only [Pi.star_apply, star_trivial, tri]
      congr 1
      have h1 : (if (i : Nat) + 1 < n then f (i + 1 + 1) else 0) = f (i + 2) := by
        split
        · rfl
        · have : (i : Nat) + 2 = n + 1 := by have := i.2; omega
          rw [this, hfn]
      have h2 : (if 1 ≤ (i : Nat) then f (i - 1 + 1) else 0) = f i := by
        split
        · congr 1; omega
        · have : (i : Nat) = 0 := by omega
          rw [this, hf0]
      rw [h1, h2]; ring
    rw [e, energy_sum, hf0, hfn]
    have hs : 0 ≤ ∑ i ∈ range n, (f (i + 1) - f i) ^ 2 := Finset.sum_nonneg fun i _ => sq_nonneg _
    have hne : ∑ i ∈ range n, (f (i + 1) - f i) ^ 2 ≠ 0 := by
      intro h0
      apply hx
      have hz := (Finset.sum_eq_zero_iff_of_nonneg fun i _ => sq_nonneg _).1 h0
      have hall : ∀ k, k ≤ n → f k = 0 := by
        intro k
        induction k with
        | zero => intro _; exact hf0
        | succ k ih =>
          intro hk
          have h1 := hz k (mem_range.2 (by omega))
          have h2 := ih (by omega)
          have := pow_eq_zero_iff (two_ne_zero) |>.1 h1
          linarith
      funext i
      rw [← hfx i]
      exact hall _ (by have := i.2; omega)
    have := lt_of_le_of_ne hs (Ne.symm hne)
    nlinarith [sq_nonneg (f n)]

theorem L_mulVec {K : Type} [CommRing K] (n : Nat) (x : Fin n × Fin n → K) (b j : Fin n) :
    (L K n *ᵥ x) (b, j) = (T K n *ᵥ fun k => x (b, k)) j + (T K n *ᵥ fun k => x (k, j)) b := by
  unfold L
  rw [add_mulVec, Pi.add_apply]
  congr 1
  · simp only [mulVec, dotProduct, Fintype.sum_prod_type, kroneckerMap_apply, one_apply]
    rw [Finset.sum_eq_single b]
    · simp
    · intro c _ hc; simp [Ne.symm hc]
    · simp
  · simp only [mulVec, dotProduct, Fintype.sum_prod_type, kroneckerMap_apply, one_apply]
    refine Finset.sum_congr rfl fun c _ => ?_
    rw [Finset.sum_eq_single j]
    · simp
    · intro d _ hd; simp [Ne.symm hd]
    · simp

/-- **C47 (product).** For every `n` (including 0 and 1) and every array `x` of `n*n` entries over any commutative ring,
`Poisson2dMatvec(x)` returns normally an array of the same size whose entries, arranged by rows in an `n` by `n` grid, are
those of the five-point Laplacian times `x`. -/
theorem C47_poisson2d {K : Type} [CommRing K] (n : Nat) (x : Arr K) (hx : x.len = n * n) :
    ∃ y, poisson2d x = some y ∧ y.len = n * n ∧
      ∀ i j : Fin n, y.get (i * n + j) = (L K n *ᵥ fun p : Fin n × Fin n => x.get (p.1 * n + p.2)) (i, j) := by
  obtain ⟨y, h1, h2, h3⟩ := poisson2d_get x n hx
  refine ⟨y, h1, h2, fun i j => ?_⟩
  rw [h3 i j i.2 j.2, L_mulVec]
  have t1 := T_mulVec n (fun k => x.get (i * n + k)) j
  have t2 := T_mulVec n (fun k => x.get (k * n + j)) i
  rw [t1, t2]
  unfold five tri
  beta_reduce
  have e1 : (i : Nat) * n + (j + 1) = i * n + j + 1 := rfl
  have e2 : (if 1 ≤ (j : Nat) then x.get ((i : Nat) * n + j - 1) else 0) =
      if 1 ≤ (j : Nat) then x.get ((i : Nat) * n + (j - 1)) else 0 := by
    split
    · congr 1; omega
    · rfl
  rw [e1, e2]; ring

/-- **C47 (definiteness).** The matrix of the 2D Poisson operator is symmetric positive definite, for every `n`. -/
theorem C47_posDef (n : Nat) : (L ℝ n).PosDef :=
  (PosDef.one.kronecker (C46_posDef n)).add ((C46_posDef n).kronecker PosDef.one)

/-- a grid of 9 points: the hypothesis of `C47_poisson2d` is met, and the centre entry is `4*5-2-4-6-8 = 0` -/
example : ∃ y, poisson2d { len := 9, get := fun i => (i : ℤ) + 1 } = some y ∧ y.get 4 = 0 := by
  obtain ⟨y, h1, _, h3⟩ := poisson2d_get { len := 9, get := fun i => (i : ℤ) + 1 } 3 rfl
  exact ⟨y, h1, h3 1 1 (by omega) (by omega)⟩

end Verif.Gallery
