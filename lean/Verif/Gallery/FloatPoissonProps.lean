import Verif.Gallery.FloatPoisson
import Verif.Solver.FloatWitness
import Verif.Linop.FloatExprFinite

/-! # C93: the Poisson products of the gallery in floating-point arithmetic -/

namespace Verif.Gallery
open Verif.Solver Verif.Solver.Scalar Verif.Solver.Vect Matrix
variable {F : FloatFormat}

/-- **C93 (1D).**  `Poisson1dMatvec(x)` in floating-point arithmetic returns normally an array of the same size; every finite entry differs from the
one of the matrix (-1, 2, -1) times `x` by at most three roundings of the sum of the absolute values of its terms, and underflow. -/
theorem C93_poisson1d (x : Arr (FP F)) :
    ∃ y, poisson1d x = some y ∧ y.len = x.len ∧ ∀ i : Fin x.len, (y.get i).Finite →
      |(y.get i).num - (T ℝ x.len *ᵥ fun j : Fin x.len => (x.get j).num) i| ≤
        ((1 + F.u) ^ 3 - 1) * ((T ℝ x.len).map abs *ᵥ fun j : Fin x.len => |(x.get j).num|) i + underflow F 2 := by
  obtain ⟨y, h1, h2, h3⟩ := poisson1d_triC x
  refine ⟨y, h1, h2, fun i hf => ?_⟩
  have key := near_csub (near_csub (near_mul 2 (x.get i)) ((i : ℕ) + 1 < x.len) (x.get (i + 1))) (1 ≤ (i : ℕ)) (x.get (i - 1))
  rw [h3 i i.2] at hf ⊢
  have := key.2.2 hf
  rw [T_mulVec x.len (fun k => (x.get k).num) i, abs_T_mulVec x.len (fun k => |(x.get k).num|) i, tri]
  rw [two_num, abs_of_pos (by norm_num : (0:ℝ) < 2)] at this
  exact this

theorem abs_L_mulVec (n : ℕ) (x : Fin n × Fin n → ℝ) (b j : Fin n) : ((L ℝ n).map abs *ᵥ x) (b, j) =
    ((T ℝ n).map abs *ᵥ fun k => x (b, k)) j + ((T ℝ n).map abs *ᵥ fun k => x (k, j)) b := by
  rw [abs_L, abs_T, Matrix.sub_mulVec, Matrix.sub_mulVec, Matrix.sub_mulVec, Pi.sub_apply, Pi.sub_apply, Pi.sub_apply, L_mulVec]
  simp only [Matrix.smul_mulVec, Matrix.one_mulVec, Pi.smul_apply, smul_eq_mul]
  ring

/-- **C93 (2D).**  `Poisson2dMatvec(x)` in floating-point arithmetic, for an array of `n*n` entries: every finite entry differs from the one of the
five-point Laplacian times `x` by at most five roundings of the sum of the absolute values of its terms, and underflow. -/
theorem C93_poisson2d (n : ℕ) (x : Arr (FP F)) (hx : x.len = n * n) :
    ∃ y, poisson2d x = some y ∧ y.len = n * n ∧ ∀ i j : Fin n, (y.get (i * n + j)).Finite →
      |(y.get (i * n + j)).num - (L ℝ n *ᵥ fun p : Fin n × Fin n => (x.get (p.1 * n + p.2)).num) (i, j)| ≤
        ((1 + F.u) ^ 5 - 1) * ((L ℝ n).map abs *ᵥ fun p : Fin n × Fin n => |(x.get (p.1 * n + p.2)).num|) (i, j) + underflow F 4 := by
  obtain ⟨y, h1, h2, h3⟩ := poisson2d_fiveC x n hx
  refine ⟨y, h1, h2, fun i j hf => ?_⟩
  rw [h3 i j i.2 j.2] at hf ⊢
  have t1 := T_mulVec n (fun k => (x.get (i * n + k)).num) j
  have t2 := T_mulVec n (fun k => (x.get (k * n + j)).num) i
  have t3 := abs_T_mulVec n (fun k => |(x.get (i * n + k)).num|) j
  have t4 := abs_T_mulVec n (fun k => |(x.get (k * n + j)).num|) i
  rw [L_mulVec, abs_L_mulVec, t1, t2, t3, t4]
  simp only [tri]
  have e1 : (i : ℕ) * n + (j + 1) = i * n + j + 1 := rfl
  have e2 : ∀ f : ℕ → ℝ, (if 1 ≤ (j : ℕ) then f ((i : ℕ) * n + (j - 1)) else 0) = if 1 ≤ (j : ℕ) then f ((i : ℕ) * n + j - 1) else 0 := by
    intro f
    split
    · congr 1; omega
    · rfl
  rw [e1, e2 fun k => (x.get k).num, e2 fun k => |(x.get k).num|]
  have u4 : underflow F 4 = (1 + F.u) * ((1 + F.u) * ((1 + F.u) * ((1 + F.u) * F.tiny + F.tiny) + F.tiny) + F.tiny) + F.tiny := rfl
  have k0 := near_mul 4 (x.get (i * n + j))
  rw [four_num, abs_of_pos (by norm_num : (0:ℝ) < 4)] at k0
  have k1 := near_csub k0 (1 ≤ (i : ℕ)) (x.get ((i - 1) * n + j))
  unfold fiveC at hf ⊢
  by_cases c : (i : ℕ) + 1 < n
  · rw [if_pos c] at hf ⊢
    have k4 := near_csub (near_csub (near_csub k1 ((i : ℕ) + 1 < n) (x.get ((i + 1) * n + j))) ((j : ℕ) + 1 < n) (x.get (i * n + j + 1)))
      (1 ≤ (j : ℕ)) (x.get (i * n + j - 1))
    have k5 := k4.2.2 hf
    rw [u4]
    convert k5 using 2
    · congr 1; ring
    · ring
  · rw [if_neg c] at hf ⊢
    have k4 := near_mono (near_csub (near_csub k1 (1 ≤ (j : ℕ)) (x.get (i * n + j - 1))) ((j : ℕ) + 1 < n) (x.get (i * n + j + 1)))
    have k5 := k4.2.2 hf
    simp only [if_neg c]
    rw [u4]
    convert k5 using 2
    · congr 1; ring
    · ring

/-! ### Overflow -/

/-- `Near`, and the number is finite if the bound does not exceed `M` -/
def NearF (M : ℝ) (k : ℕ) (a : FP F) (A X t : ℝ) : Prop := Near k a A X t ∧ ((1 + F.u) ^ k * X + t ≤ M → a.Finite)

theorem nearF_mul {M : ℝ} (hM : F.Reaches M) {c a : FP F} (hc : c.Finite) (ha : a.Finite) :
    NearF M 1 (c * a) (c.num * a.num) (|c.num| * |a.num|) F.tiny := by
  refine ⟨near_mul c a, fun h => FP.mul_finite hM hc ha (le_trans ?_ h)⟩
  rw [abs_mul, pow_one]
  have h1 := mul_nonneg F.u_nonneg (mul_nonneg (abs_nonneg c.num) (abs_nonneg a.num))
  linarith [F.tiny_nonneg]

theorem nearF_csub {M : ℝ} (hM : F.Reaches M) {k : ℕ} {a : FP F} {A X t : ℝ} (h : NearF M k a A X t) (c : Prop) [Decidable c] {b : FP F}
    (hb : c → b.Finite) :
    NearF M (k + 1) (csub c a b) (A - if c then b.num else 0) (X + if c then |b.num| else 0) ((1 + F.u) * t + F.tiny) := by
  refine ⟨near_csub h.1 c b, fun hle => ?_⟩
  obtain ⟨⟨h1, h2, h3⟩, h4⟩ := h
  have hu := F.u_nonneg
  have ht := F.tiny_nonneg
  have hp : 1 ≤ (1 + F.u) ^ k := one_le_pow₀ (by linarith)
  have hX : 0 ≤ X := (abs_nonneg _).trans h1
  have hB : 0 ≤ if c then |b.num| else 0 := by split <;> positivity
  have hgrow : (1 + F.u) ^ k * X + t + (if c then |b.num| else 0) ≤ M := by
    refine le_trans ?_ hle
    rw [pow_succ]
    have e1 : 0 ≤ (1 + F.u) ^ k * F.u * X := by positivity
    have e2 : (if c then |b.num| else 0) ≤ (1 + F.u) ^ k * (1 + F.u) * (if c then |b.num| else 0) := by
      refine le_mul_of_one_le_left hB ?_
      nlinarith
    nlinarith
  have ha : a.Finite := h4 (by linarith)
  unfold csub
  split
  · rename_i hc
    rw [if_pos hc] at hgrow
    refine FP.sub_finite hM ha (hb hc) (le_trans ?_ hgrow)
    have e1 := h3 ha
    have e2 : |a.num| ≤ |a.num - A| + |A| := by
      calc |a.num| = |(a.num - A) + A| := by ring_nf
        _ ≤ _ := abs_add_le _ _
    have e3 := abs_sub a.num b.num
    nlinarith
  · exact ha

/-- **C93 (overflow).**  If numbers up to `M` do not overflow, the entries of `x` are finite and the bound of the results is at most `M`, then
`Poisson1dMatvec(x)` and `Poisson2dMatvec(x)` have finite entries (`C91_float64`: in `float64`, `M = 2^1023`). -/
theorem C93_finite {M : ℝ} (hM : F.Reaches M) (x : Arr (FP F)) (hf : ∀ j < x.len, (x.get j).Finite) :
    (∃ y, poisson1d x = some y ∧ ∀ i : Fin x.len,
      (1 + F.u) ^ 3 * ((T ℝ x.len).map abs *ᵥ fun j : Fin x.len => |(x.get j).num|) i + underflow F 2 ≤ M → (y.get i).Finite) ∧
    (∀ n, x.len = n * n → ∃ y, poisson2d x = some y ∧ ∀ i j : Fin n,
      (1 + F.u) ^ 5 * ((L ℝ n).map abs *ᵥ fun p : Fin n × Fin n => |(x.get (p.1 * n + p.2)).num|) (i, j) + underflow F 4 ≤ M →
        (y.get (i * n + j)).Finite) := by
  constructor
  · obtain ⟨y, h1, h2, h3⟩ := poisson1d_triC x
    refine ⟨y, h1, fun i hle => ?_⟩
    rw [h3 i i.2]
    refine (nearF_csub hM (nearF_csub hM (nearF_mul hM (show (2 : FP F).Finite from rfl) (hf i i.2)) ((i : ℕ) + 1 < x.len)
      (fun h => hf _ h)) (1 ≤ (i : ℕ)) (fun _ => hf _ (by have := i.2; omega))).2 ?_
    rw [abs_T_mulVec x.len (fun k => |(x.get k).num|) i] at hle
    rw [two_num, abs_of_pos (by norm_num : (0:ℝ) < 2)]
    exact hle
  · intro n hx
    obtain ⟨y, h1, h2, h3⟩ := poisson2d_fiveC x n hx
    refine ⟨y, h1, fun i j hle => ?_⟩
    rw [h3 i j i.2 j.2]
    have t3 := abs_T_mulVec n (fun k => |(x.get (i * n + k)).num|) j
    have t4 := abs_T_mulVec n (fun k => |(x.get (k * n + j)).num|) i
    rw [abs_L_mulVec, t3, t4] at hle
    have e1 : (i : ℕ) * n + (j + 1) = i * n + j + 1 := rfl
    have e2 : (if 1 ≤ (j : ℕ) then |(x.get ((i : ℕ) * n + (j - 1))).num| else 0) =
        if 1 ≤ (j : ℕ) then |(x.get ((i : ℕ) * n + j - 1)).num| else 0 := by
      split
      · congr 3; omega
      · rfl
    rw [e1, e2] at hle
    have hpos : ∀ b : ℕ, b < n → b * n + n ≤ n * n := by
      intro b hb
      have := Nat.mul_le_mul_right n (Nat.succ_le_of_lt hb)
      rw [Nat.succ_mul] at this
      exact this
    have hi := hpos i i.2
    have hj := j.2
    have u4 : underflow F 4 = (1 + F.u) * ((1 + F.u) * ((1 + F.u) * ((1 + F.u) * F.tiny + F.tiny) + F.tiny) + F.tiny) + F.tiny := rfl
    rw [u4] at hle
    have k0 := nearF_mul hM (show (4 : FP F).Finite from rfl) (hf (i * n + j) (by omega))
    rw [four_num, abs_of_pos (by norm_num : (0:ℝ) < 4)] at k0
    have k1 := nearF_csub hM k0 (1 ≤ (i : ℕ)) (b := x.get ((i - 1) * n + j)) (fun h => hf _ (by
      have := hpos (i - 1) (by omega)
      omega))
    unfold fiveC
    by_cases c : (i : ℕ) + 1 < n
    · rw [if_pos c]
      have k4 := nearF_csub hM (nearF_csub hM (nearF_csub hM k1 ((i : ℕ) + 1 < n) (b := x.get ((i + 1) * n + j)) (fun h => hf _ (by
          have := hpos (i + 1) h
          omega)))
        ((j : ℕ) + 1 < n) (b := x.get (i * n + j + 1)) (fun h => hf _ (by omega)))
        (1 ≤ (j : ℕ)) (b := x.get (i * n + j - 1)) (fun h => hf _ (by omega))
      refine k4.2 (le_trans (le_of_eq ?_) hle)
      ring
    · rw [if_neg c]
      have k4 := nearF_csub hM (nearF_csub hM k1 (1 ≤ (j : ℕ)) (b := x.get (i * n + j - 1)) (fun h => hf _ (by omega)))
        ((j : ℕ) + 1 < n) (b := x.get (i * n + j + 1)) (fun h => hf _ (by omega))
      refine k4.2 (le_trans ?_ hle)
      simp only [if_neg c]
      have hu := F.u_nonneg
      have ht := F.tiny_nonneg
      have hX := (abs_nonneg _).trans k4.1.1
      set X := 4 * |(x.get (i * n + j)).num| + (if 1 ≤ (i : ℕ) then |(x.get ((i - 1) * n + j)).num| else 0) +
        (if 1 ≤ (j : ℕ) then |(x.get (i * n + j - 1)).num| else 0) + (if (j : ℕ) + 1 < n then |(x.get (i * n + j + 1)).num| else 0) with hXd
      have g1 : (1 + F.u) ^ (1 + 1 + 1 + 1) * X ≤ (1 + F.u) ^ 5 * X :=
        mul_le_mul_of_nonneg_right (pow_le_pow_right₀ (by linarith) (by norm_num)) hX
      have g2 : ∀ t : ℝ, 0 ≤ t → t ≤ (1 + F.u) * t + F.tiny := fun t h => by nlinarith
      refine (add_le_add g1 (g2 _ (by positivity))).trans (le_of_eq ?_)
      rw [hXd]
      ring

end Verif.Gallery
