import Verif.Solver.FloatFormat

/-!
# Dense operators in floating-point arithmetic

`linop_from_ndarray(A) * x` (`linop.py:723-745`): every entry of the product is a sum of products, computed from left to right.
-/

namespace Verif.Solver
open Scalar Vect

variable {F : FloatFormat} {n : ℕ}

/-- `np.dot(A, x)` for an array `A` with the given rows -/
noncomputable def FV.dense (rows : Fin n → FV F n) (v : FV F n) : FV F n := ⟨fun i => dot (rows i) v⟩

/-- **Specification.**  The linear operator with the given matrix. -/
noncomputable def denseLin (M : Fin n → Fin n → ℝ) : EuclideanSpace ℝ (Fin n) →ₗ[ℝ] EuclideanSpace ℝ (Fin n) where
  toFun x := WithLp.toLp 2 fun i => ∑ j, M i j * x j
  map_add' x y := by
    ext i
    simp only [PiLp.add_apply, mul_add, Finset.sum_add_distrib]
  map_smul' a x := by
    ext i
    simp only [PiLp.smul_apply, smul_eq_mul, RingHom.id_apply, Finset.mul_sum]
    exact Finset.sum_congr rfl fun j _ => by ring

/-- **Specification.**  The Frobenius norm. -/
noncomputable def frobenius (M : Fin n → Fin n → ℝ) : ℝ := Real.sqrt (∑ i, ∑ j, M i j ^ 2)

/-- the norms of the rows -/
noncomputable def rowNorms (M : Fin n → Fin n → ℝ) : EuclideanSpace ℝ (Fin n) := WithLp.toLp 2 fun i => Real.sqrt (∑ j, M i j ^ 2)

theorem norm_rowNorms (M : Fin n → Fin n → ℝ) : ‖rowNorms M‖ = frobenius M := by
  rw [EuclideanSpace.norm_eq, frobenius]
  congr 1
  refine Finset.sum_congr rfl fun i _ => ?_
  rw [Real.norm_eq_abs, sq_abs]
  exact Real.sq_sqrt (Finset.sum_nonneg fun j _ => sq_nonneg _)

theorem sum_abs_le (M : Fin n → Fin n → ℝ) (x : EuclideanSpace ℝ (Fin n)) (i : Fin n) :
    ∑ j, |M i j * x j| ≤ ‖x‖ * |rowNorms M i| := by
  have h := Real.sum_mul_le_sqrt_mul_sqrt Finset.univ (fun j => |M i j|) fun j => |x j|
  simp only [sq_abs] at h
  have e1 : |rowNorms M i| = Real.sqrt (∑ j, M i j ^ 2) := abs_of_nonneg (Real.sqrt_nonneg _)
  have e2 : ‖x‖ = Real.sqrt (∑ j, x j ^ 2) := by
    rw [EuclideanSpace.norm_eq]
    simp only [Real.norm_eq_abs, sq_abs]
  rw [e1, e2, mul_comm]
  simpa only [abs_mul] using h

theorem denseLin_bound (M : Fin n → Fin n → ℝ) (x : EuclideanSpace ℝ (Fin n)) : ‖denseLin M x‖ ≤ frobenius M * ‖x‖ := by
  have h := FV.norm_coord (d := denseLin M x) (y := rowNorms M) (u := ‖x‖) (t := 0) (norm_nonneg _) le_rfl fun i => by
    rw [add_zero]
    exact (Finset.abs_sum_le_sum_abs _ _).trans (sum_abs_le M x i)
  rw [norm_rowNorms, mul_zero, add_zero] at h
  rw [mul_comm]; exact h

/-- the entries of the array -/
noncomputable def FV.entries (rows : Fin n → FV F n) (i j : Fin n) : ℝ := ((rows i).data j).num

theorem FV.dense_err (rows : Fin n → FV F n) (v : FV F n) (h : (FV.dense rows v).Finite) :
    ‖(FV.dense rows v).vec - denseLin (FV.entries rows) v.vec‖ ≤
      ((1 + F.u) ^ (n + 1) - 1) * frobenius (FV.entries rows) * ‖v.vec‖ + Real.sqrt n * (3 * n * (1 + F.u) ^ n * F.tiny) := by
  have hu := F.u_nonneg
  have ht := F.tiny_nonneg
  have hg : 0 ≤ (1 + F.u) ^ (n + 1) - 1 := by
    have : 1 ≤ (1 + F.u) ^ (n + 1) := one_le_pow₀ (by linarith)
    linarith
  have key := FV.norm_coord (d := (FV.dense rows v).vec - denseLin (FV.entries rows) v.vec) (y := rowNorms (FV.entries rows))
    (u := ((1 + F.u) ^ (n + 1) - 1) * ‖v.vec‖) (t := 3 * n * (1 + F.u) ^ n * F.tiny) (mul_nonneg hg (norm_nonneg _)) (by positivity)
    fun i => by
      have h1 := (FV.sum_spec (rows i) v (List.finRange n) (h i)).2
      rw [← Fin.sum_univ_def, ← Fin.sum_univ_def, List.length_finRange] at h1
      refine h1.trans ?_
      have h2 := mul_le_mul_of_nonneg_left (sum_abs_le (FV.entries rows) v.vec i) hg
      have h3 : (((1 + F.u) ^ (n + 1) - 1) * ∑ j, |((rows i).data j).num * (v.data j).num|) ≤
          ((1 + F.u) ^ (n + 1) - 1) * (‖v.vec‖ * |rowNorms (FV.entries rows) i|) := h2
      linarith
  rw [norm_rowNorms] at key
  refine key.trans (le_of_eq ?_)
  ring

/-- A dense array computes the products with its matrix up to a relative error, for vectors whose entries are not so small that
products underflow: `del |v|` has to be at least the possible underflow. -/
theorem FV.dense_computes (hn : (1 + F.u) ^ (n + 2) ≤ 3 / 2) (rows : Fin n → FV F n) (L : List (FV F n)) {del : ℝ} (hdel : 0 ≤ del)
    (hL : ∀ v ∈ L, Real.sqrt n * (3 * n * (1 + F.u) ^ n * F.tiny) ≤ del * ‖v.vec‖) :
    (F.rounding n hn).Computes (FV.dense rows) (denseLin (FV.entries rows)) (frobenius (FV.entries rows))
      (((1 + F.u) ^ (n + 1) - 1) * frobenius (FV.entries rows) + del) L where
  N_nonneg := Real.sqrt_nonneg _
  c_nonneg := by
    have hu := F.u_nonneg
    have : 1 ≤ (1 + F.u) ^ (n + 1) := one_le_pow₀ (by linarith)
    have h2 : 0 ≤ frobenius (FV.entries rows) := Real.sqrt_nonneg _
    exact add_nonneg (mul_nonneg (by linarith) h2) hdel
  bound := denseLin_bound _
  err := fun v hv _ h => by
    refine (FV.dense_err rows v h).trans ?_
    have := hL v hv
    have e : (F.rounding n hn).vec v = v.vec := rfl
    rw [e]
    linarith

end Verif.Solver
