import Verif.Gallery.FloatPoissonProps

/-! # C93: exact products of integers, and the Poisson operators in the solvers of C90 -/

namespace Verif.Gallery
open Verif.Solver Verif.Solver.Scalar Verif.Solver.Vect Matrix

/-! ### Integers -/

section
open Float64Example

theorem csub_I (c : Prop) [Decidable c] {a b : ℤ} {A B : ℤ} (ha : |a| ≤ A) (hb : |b| ≤ B) (h : A + B < 2 ^ 53) :
    csub c (I a) (I b) = I (csub c a b) ∧ |csub c a b| ≤ A + B := by
  have h1 := abs_sub a b
  unfold csub
  split
  · exact ⟨I_sub a b (by omega), by omega⟩
  · exact ⟨rfl, by have := abs_nonneg b; omega⟩

theorem two_I : (2 : FP float64) = I 2 := by
  show (⟨some 2⟩ : FP float64) = ⟨some ((2 : ℤ) : ℝ)⟩
  norm_num

theorem four_I : (4 : FP float64) = I 4 := by
  show (⟨some 4⟩ : FP float64) = ⟨some ((4 : ℤ) : ℝ)⟩
  norm_num

/-- **C93 (integers).**  On `float64` arrays of integers up to `2^49` in magnitude both products are exact. -/
theorem C93_exact (len : ℕ) (m : ℕ → ℤ) (hm : ∀ j, |m j| ≤ 2 ^ 49) :
    (∃ y, poisson1d ⟨len, fun j => I (m j)⟩ = some y ∧ y.len = len ∧ ∀ i : Fin len, y.get i = I ((T ℤ len *ᵥ fun j : Fin len => m j) i)) ∧
    (∀ n, len = n * n → ∃ y, poisson2d ⟨len, fun j => I (m j)⟩ = some y ∧ y.len = len ∧ ∀ i j : Fin n,
      y.get (i * n + j) = I ((L ℤ n *ᵥ fun p : Fin n × Fin n => m (p.1 * n + p.2)) (i, j))) := by
  have hmul : ∀ c : ℤ, |c| ≤ 4 → ∀ j, I c * I (m j) = I (c * m j) := by
    intro c hc j
    refine I_mul _ _ ?_
    rw [abs_mul]
    have := mul_le_mul hc (hm j) (abs_nonneg _) (by norm_num)
    omega
  constructor
  · obtain ⟨y, h1, h2, h3⟩ := poisson1d_triC (⟨len, fun j => I (m j)⟩ : Arr (FP float64))
    obtain ⟨z, z1, -, z3⟩ := poisson1d_triC (⟨len, m⟩ : Arr ℤ)
    obtain ⟨z', w1, -, w3⟩ := C46_poisson1d (⟨len, m⟩ : Arr ℤ)
    rw [z1] at w1
    obtain rfl := Option.some.inj w1
    refine ⟨y, h1, h2, fun i => ?_⟩
    rw [h3 i i.2, ← w3 i, z3 i i.2, triC, triC, two_I, hmul 2 (by norm_num)]
    have b0 : |2 * m i| ≤ 2 ^ 50 := by rw [abs_mul]; have := hm i; norm_num at this ⊢; omega
    obtain ⟨e1, b1⟩ := csub_I ((i : ℕ) + 1 < len) b0 (hm (i + 1)) (by norm_num)
    obtain ⟨e2, b2⟩ := csub_I (1 ≤ (i : ℕ)) b1 (hm (i - 1)) (by norm_num)
    dsimp only at e1 e2 ⊢
    rw [e1, e2]
  · intro n hn
    obtain ⟨y, h1, h2, h3⟩ := poisson2d_fiveC (⟨len, fun j => I (m j)⟩ : Arr (FP float64)) n hn
    obtain ⟨z, z1, -, z3⟩ := poisson2d_fiveC (⟨len, m⟩ : Arr ℤ) n hn
    obtain ⟨z', w1, -, w3⟩ := C47_poisson2d n (⟨len, m⟩ : Arr ℤ) hn
    rw [z1] at w1
    obtain rfl := Option.some.inj w1
    refine ⟨y, h1, h2.trans hn.symm, fun i j => ?_⟩
    rw [h3 i j i.2 j.2, ← w3 i j, z3 i j i.2 j.2, fiveC, fiveC, four_I]
    dsimp only
    rw [hmul 4 (by norm_num)]
    have b0 : |4 * m (i * n + j)| ≤ 2 ^ 51 := by rw [abs_mul]; have := hm (i * n + j); norm_num at this ⊢; omega
    obtain ⟨e1, b1⟩ := csub_I (1 ≤ (i : ℕ)) b0 (hm ((i - 1) * n + j)) (by norm_num)
    rw [e1]
    split
    · rename_i c
      obtain ⟨e2, b2⟩ := csub_I ((i : ℕ) + 1 < n) b1 (hm ((i + 1) * n + j)) (by norm_num)
      obtain ⟨e3, b3⟩ := csub_I ((j : ℕ) + 1 < n) b2 (hm (i * n + j + 1)) (by norm_num)
      obtain ⟨e4, b4⟩ := csub_I (1 ≤ (j : ℕ)) b3 (hm (i * n + j - 1)) (by norm_num)
      rw [e2, e3, e4]
    · obtain ⟨e2, b2⟩ := csub_I (1 ≤ (j : ℕ)) b1 (hm (i * n + j - 1)) (by norm_num)
      obtain ⟨e3, b3⟩ := csub_I ((j : ℕ) + 1 < n) b2 (hm (i * n + j + 1)) (by norm_num)
      rw [e2, e3]

end

/-! ### Norms -/

/-- a symmetric matrix with nonnegative entries and row sums up to `s` has norm at most `s` -/
theorem schur {ι : Type} [Fintype ι] (M : ι → ι → ℝ) (h0 : ∀ i j, 0 ≤ M i j) (hs : ∀ i j, M i j = M j i) {s : ℝ} (h : ∀ i, ∑ j, M i j ≤ s)
    (v : ι → ℝ) : ∑ i, (∑ j, M i j * v j) ^ 2 ≤ s ^ 2 * ∑ j, v j ^ 2 := by
  have h1 : ∀ i, (∑ j, M i j * v j) ^ 2 ≤ s * ∑ j, M i j * v j ^ 2 := by
    intro i
    have := Finset.sum_mul_sq_le_sq_mul_sq Finset.univ (fun j => Real.sqrt (M i j)) (fun j => Real.sqrt (M i j) * v j)
    have e1 : ∀ j, Real.sqrt (M i j) * (Real.sqrt (M i j) * v j) = M i j * v j := fun j => by
      rw [← mul_assoc, Real.mul_self_sqrt (h0 i j)]
    have e2 : ∀ j, Real.sqrt (M i j) ^ 2 = M i j := fun j => Real.sq_sqrt (h0 i j)
    have e3 : ∀ j, (Real.sqrt (M i j) * v j) ^ 2 = M i j * v j ^ 2 := fun j => by rw [mul_pow, e2]
    simp only [e1, e2, e3] at this
    exact this.trans (mul_le_mul_of_nonneg_right (h i) (Finset.sum_nonneg fun j _ => mul_nonneg (h0 i j) (sq_nonneg _)))
  calc ∑ i, (∑ j, M i j * v j) ^ 2 ≤ ∑ i, s * ∑ j, M i j * v j ^ 2 := Finset.sum_le_sum fun i _ => h1 i
    _ = s * ∑ j, (∑ i, M j i) * v j ^ 2 := by
        rw [← Finset.mul_sum, Finset.sum_comm]
        congr 1
        refine Finset.sum_congr rfl fun j _ => ?_
        rw [Finset.sum_mul]
        exact Finset.sum_congr rfl fun i _ => by rw [hs i j]
    _ ≤ s ^ 2 * ∑ j, v j ^ 2 := by
        rcases isEmpty_or_nonempty ι with he | ⟨⟨i0⟩⟩
        · simp
        have hs0 : 0 ≤ s := (Finset.sum_nonneg fun j _ => h0 i0 j).trans (h i0)
        rw [sq, mul_assoc, Finset.mul_sum (s := Finset.univ) (a := s) (f := fun j => v j ^ 2)]
        exact mul_le_mul_of_nonneg_left (Finset.sum_le_sum fun j _ => mul_le_mul_of_nonneg_right (h j) (sq_nonneg _)) hs0

variable {F : FloatFormat}

/-- an operator with small errors relative to the sum of the absolute values of the terms meets the condition on operators of C90 -/
theorem computes_of_abs {n : ℕ} (hn : (1 + F.u) ^ (n + 2) ≤ 3 / 2) (op : FV F n → FV F n) (A : Matrix (Fin n) (Fin n) ℝ) {s g t c : ℝ} (hs0 : 0 ≤ s)
    (hsym : ∀ i j, |A i j| = |A j i|) (hrow : ∀ i, ∑ j, |A i j| ≤ s) (hg : 0 ≤ g) (ht : 0 ≤ t) (vs : List (FV F n))
    (herr : ∀ v i, ((op v).data i).Finite →
      |((op v).data i).num - ∑ j, A i j * (v.data j).num| ≤ g * ∑ j, |A i j| * |(v.data j).num| + t)
    (hc0 : 0 ≤ c) (hc : ∀ v ∈ vs, g * s * ‖v.vec‖ + Real.sqrt n * t ≤ c * ‖v.vec‖) :
    (F.rounding n hn).Computes op (denseLin A) s c vs := by
  have habs : ∀ x : EuclideanSpace ℝ (Fin n),
      ‖(WithLp.toLp 2 fun i => ∑ j, |A i j| * |x j| : EuclideanSpace ℝ (Fin n))‖ ≤ s * ‖x‖ := by
    intro x
    rw [EuclideanSpace.norm_eq, EuclideanSpace.norm_eq]
    refine Real.sqrt_le_iff.2 ⟨by positivity, ?_⟩
    rw [mul_pow, Real.sq_sqrt (Finset.sum_nonneg fun i _ => sq_nonneg _)]
    have := schur (fun i j => |A i j|) (fun i j => abs_nonneg _) hsym hrow fun j => |x j|
    simpa only [Real.norm_eq_abs, sq_abs] using this
  refine ⟨hs0, hc0, fun x => ?_, fun v hv _ h => ?_⟩
  · have h1 := FV.norm_coord (d := denseLin A x) (y := (WithLp.toLp 2 fun i => ∑ j, |A i j| * |x j| : EuclideanSpace ℝ (Fin n))) (u := 1) (t := 0)
      zero_le_one le_rfl fun i => by
        rw [one_mul, add_zero]
        refine le_trans (b := ∑ j, |A i j| * |x j|) ?_ (le_abs_self _)
        show |∑ j, A i j * x j| ≤ _
        simp only [← abs_mul]
        exact Finset.abs_sum_le_sum_abs _ _
    rw [one_mul, mul_zero, add_zero] at h1
    exact h1.trans (habs x)
  · have h1 := FV.norm_coord (d := (op v).vec - denseLin A v.vec)
      (y := (WithLp.toLp 2 fun i => ∑ j, |A i j| * |v.vec j| : EuclideanSpace ℝ (Fin n))) (u := g) (t := t) hg ht fun i => by
        refine (herr v i (h i)).trans (add_le_add (mul_le_mul_of_nonneg_left ?_ hg) le_rfl)
        exact le_abs_self _
    refine le_trans h1 (le_trans ?_ (hc v hv))
    have := mul_le_mul_of_nonneg_left (habs v.vec) hg
    linarith

/-! ### The operators -/

/-- the array with the entries of `v` -/
def arrOf {n : ℕ} (v : FV F n) : Arr (FP F) := ⟨n, fun i => if h : i < n then v.data ⟨i, h⟩ else ⟨none⟩⟩

theorem arrOf_get {n : ℕ} (v : FV F n) (i : Fin n) : (arrOf v).get i = v.data i := dif_pos i.2

/-- a function of `gallery.py` applied to an array of `n` numbers; not finite if it raises an exception -/
def galleryOp (f : Arr (FP F) → Option (Arr (FP F))) {n : ℕ} (v : FV F n) : FV F n :=
  ⟨fun i => match f (arrOf v) with
    | some y => y.get i
    | none => ⟨none⟩⟩

/-- **Specification.**  The five-point Laplacian with the points of the grid numbered by rows: point `(b, j)` has number `b * n + j`. -/
noncomputable def grid (n : ℕ) : Matrix (Fin (n * n)) (Fin (n * n)) ℝ := (L ℝ n).submatrix finProdFinEquiv.symm finProdFinEquiv.symm

theorem T_symm (n : ℕ) (i j : Fin n) : T ℝ n i j = T ℝ n j i := by
  simp only [T]
  by_cases h : i = j
  · rw [if_pos h, if_pos h.symm]
  · rw [if_neg h, if_neg (Ne.symm h)]
    exact if_congr or_comm rfl rfl

theorem T_row (n : ℕ) (i : Fin n) : ∑ j, |T ℝ n i j| ≤ 4 := by
  have h := abs_T_mulVec n (fun _ => 1) i
  simp only [Matrix.mulVec, dotProduct, Matrix.map_apply, mul_one] at h
  rw [h]
  split <;> split <;> norm_num

theorem L_symm (n : ℕ) (p q : Fin n × Fin n) : L ℝ n p q = L ℝ n q p := by
  simp only [L, Matrix.add_apply, Matrix.kroneckerMap_apply, Matrix.one_apply]
  rw [T_symm n p.2, T_symm n p.1]
  simp only [eq_comm]

theorem L_row (n : ℕ) (p : Fin n × Fin n) : ∑ q, |L ℝ n p q| ≤ 8 := by
  have h := abs_L_mulVec n (fun _ => 1) p.1 p.2
  have h1 := T_row n p.1
  have h2 := T_row n p.2
  simp only [Matrix.mulVec, dotProduct, Matrix.map_apply, mul_one] at h
  linarith

/-- a bound with a relative part for the operators of C90 -/
theorem bound_mono {n m : ℕ} (hm : m ≤ n + 1) (s v t : ℝ) (hs : 0 ≤ s) (hv : 0 ≤ v) (h : Real.sqrt n * t ≤ F.u * s * v) :
    ((1 + F.u) ^ m - 1) * s * v + Real.sqrt n * t ≤ (((1 + F.u) ^ (n + 1) - 1) * s + F.u * s) * v := by
  have hu := F.u_nonneg
  have h1 : (1 + F.u) ^ m ≤ (1 + F.u) ^ (n + 1) := pow_le_pow_right₀ (by linarith) hm
  have h2 : ((1 + F.u) ^ m - 1) * (s * v) ≤ ((1 + F.u) ^ (n + 1) - 1) * (s * v) := mul_le_mul_of_nonneg_right (by linarith) (by positivity)
  nlinarith

theorem underflow_nonneg (F : FloatFormat) : ∀ k, 0 ≤ underflow F k
  | 0 => F.tiny_nonneg
  | k + 1 => by
    have := underflow_nonneg F k
    have hu := F.u_nonneg
    have ht := F.tiny_nonneg
    unfold underflow
    positivity

/-- **C93 for the solvers (1D).**  The operator `Poisson1dMatvec` meets the condition on operators of C90 (`C90_cg_partial`, `C90_cgs`) with norm 4
and the relative error of `n + 1` roundings, for vectors whose products do not underflow. -/
theorem C93_computes1 {n : ℕ} (h2 : 2 ≤ n) (hn : (1 + F.u) ^ (n + 2) ≤ 3 / 2) (vs : List (FV F n))
    (hv : ∀ v ∈ vs, Real.sqrt n * underflow F 2 ≤ F.u * 4 * ‖v.vec‖) :
    (F.rounding n hn).Computes (galleryOp poisson1d) (denseLin (T ℝ n)) 4 (((1 + F.u) ^ (n + 1) - 1) * 4 + F.u * 4) vs := by
  have hu := F.u_nonneg
  have hg : ∀ m : ℕ, 0 ≤ (1 + F.u) ^ m - 1 := fun m => sub_nonneg.2 (one_le_pow₀ (by linarith))
  refine computes_of_abs hn _ _ (by norm_num) (fun i j => by rw [T_symm]) (T_row n) (hg 3) (underflow_nonneg F 2) vs (fun v i hf => ?_)
    (add_nonneg (mul_nonneg (hg _) (by norm_num)) (by positivity)) fun v h => bound_mono (by omega) _ _ _ (by norm_num) (norm_nonneg _) (hv v h)
  obtain ⟨y, e1, e2, e3⟩ := C93_poisson1d (arrOf v)
  have ey : (galleryOp poisson1d v).data i = y.get i := by
    simp only [galleryOp, e1]
  rw [ey] at hf ⊢
  have := e3 i hf
  change |(y.get i).num - ∑ j : Fin n, T ℝ n i j * ((arrOf v).get j).num| ≤
    ((1 + F.u) ^ 3 - 1) * (∑ j : Fin n, |T ℝ n i j| * |((arrOf v).get j).num|) + underflow F 2 at this
  simpa only [arrOf_get] using this

/-- **C93 for the solvers (2D).**  The operator `Poisson2dMatvec` on an `n` by `n` grid, with norm 8. -/
theorem C93_computes2 {n : ℕ} (h2 : 2 ≤ n) (hn : (1 + F.u) ^ (n * n + 2) ≤ 3 / 2) (vs : List (FV F (n * n)))
    (hv : ∀ v ∈ vs, Real.sqrt (n * n : ℕ) * underflow F 4 ≤ F.u * 8 * ‖v.vec‖) :
    (F.rounding (n * n) hn).Computes (galleryOp poisson2d) (denseLin (grid n)) 8 (((1 + F.u) ^ (n * n + 1) - 1) * 8 + F.u * 8) vs := by
  have hu := F.u_nonneg
  have hg : ∀ m : ℕ, 0 ≤ (1 + F.u) ^ m - 1 := fun m => sub_nonneg.2 (one_le_pow₀ (by linarith))
  have hsum : ∀ (i : Fin (n * n)) (f : ℝ → ℝ) (g : Fin (n * n) → ℝ),
      ∑ j, f (grid n i j) * g j = ∑ q, f (L ℝ n (finProdFinEquiv.symm i) q) * g (finProdFinEquiv q) := by
    intro i f g
    rw [← finProdFinEquiv.sum_comp]
    simp only [grid, Matrix.submatrix_apply, Equiv.symm_apply_apply]
  refine computes_of_abs hn _ _ (by norm_num) (fun i j => by simp only [grid, Matrix.submatrix_apply]; rw [L_symm]) (fun i => ?_) (hg 5)
    (underflow_nonneg F 4) vs (fun v i hf => ?_)
    (add_nonneg (mul_nonneg (hg _) (by norm_num)) (by positivity)) fun v h => bound_mono (by nlinarith) _ _ _ (by norm_num) (norm_nonneg _) (hv v h)
  · have := hsum i (fun a => |a|) fun _ => 1
    simp only [mul_one] at this
    rw [this]
    exact L_row n _
  obtain ⟨y, e1, e2, e3⟩ := C93_poisson2d n (arrOf v) rfl
  obtain ⟨⟨b, j⟩, rfl⟩ := finProdFinEquiv.surjective i
  have hval : ∀ p : Fin n × Fin n, ((finProdFinEquiv p : Fin (n * n)) : ℕ) = p.1 * n + p.2 := by
    intro p
    rw [finProdFinEquiv_apply_val, Nat.mul_comm n, Nat.add_comm]
  have ey : (galleryOp poisson2d v).data (finProdFinEquiv (b, j)) = y.get (b * n + j) := by
    simp only [galleryOp, e1, hval]
  have hx : ∀ p : Fin n × Fin n, (arrOf v).get (p.1 * n + p.2) = v.data (finProdFinEquiv p) := by
    intro p
    rw [← hval, arrOf_get]
  rw [ey] at hf ⊢
  have := e3 b j hf
  simp only [Matrix.mulVec, dotProduct, Matrix.map_apply, hx] at this
  have s1 := hsum (finProdFinEquiv (b, j)) (fun a => a) fun k => (v.data k).num
  have s2 := hsum (finProdFinEquiv (b, j)) (fun a => |a|) fun k => |(v.data k).num|
  rw [Equiv.symm_apply_apply] at s1 s2
  rw [s1, s2]
  exact this

/-- **C93, CG on the 1D Poisson problem.**  In every floating-point format, for `n >= 2` unknowns and `k` products with `8 (n + k + 2) u <= 1`: if CG
returns finite numbers, the reported residual norm is the one of the returned `x` up to `roundoff`. -/
theorem C93_cg_partial {n : ℕ} (h2 : 2 ≤ n) (o : KrylovOpts (FP F) (FV F n)) (hpre : o.precon = none)
    (self : CGObj (FP F) (FV F n)) (rhs : FV F n) (kw : CGKw (FV F n)) (hsym : kw.checkSymmetric = true → kw.symOK = true)
    (hst : kw.storeIterates = true) :
    let out := cgSolve (galleryOp poisson1d) o n self rhs kw
    8 * (n + out.1.nMatvec + 2) * F.u ≤ 1 → (∀ v ∈ out.2, Real.sqrt n * underflow F 2 ≤ F.u * 4 * ‖v.vec‖) →
    ∃ x rho, out.1.x = some x ∧ out.1.residNorm = some rho ∧
      (x.Finite → rho.Finite → ∀ theta, (∀ y ∈ out.1.iterates.drop self.iterates.length, ‖y.vec‖ ≤ theta) →
        rhs.Finite ∧ |rho.num - ‖rhs.vec - denseLin (T ℝ n) x.vec‖| ≤ roundoff F n out.1.nMatvec 4 theta ‖rhs.vec‖ |rho.num|) := by
  intro out hk hL
  obtain ⟨x, rho, e1, e2, e3, -⟩ := C90_cg_partial (F.rounding n (pow_of_small F hk)) (galleryOp poisson1d) (denseLin (T ℝ n))
    4 (((1 + F.u) ^ (n + 1) - 1) * 4 + F.u * 4) o hpre n self rhs kw hsym hst
  refine ⟨x, rho, e1, e2, fun hx hr theta hth => ?_⟩
  obtain ⟨g1, g2, g3⟩ := e3 (C93_computes1 h2 _ _ hL) hx hr theta hth
  refine ⟨g1, le_trans g3 (le_trans ?_ (roundoff_le hk (by norm_num) ((norm_nonneg _).trans g2) (norm_nonneg _) (abs_nonneg _)))⟩
  gcongr
  · have := one_le_pow₀ (M₀ := ℝ) (a := 1 + F.u) (n := n + 2) (by linarith [F.u_nonneg])
    show 0 ≤ 2 * ((1 + F.u) ^ (n + 2) - 1)
    linarith
  · exact le_abs_self _
  · exact le_rfl

/-- **C93, CG on the 2D Poisson problem.** -/
theorem C93_cg2_partial {n : ℕ} (h2 : 2 ≤ n) (o : KrylovOpts (FP F) (FV F (n * n))) (hpre : o.precon = none)
    (self : CGObj (FP F) (FV F (n * n))) (rhs : FV F (n * n)) (kw : CGKw (FV F (n * n))) (hsym : kw.checkSymmetric = true → kw.symOK = true)
    (hst : kw.storeIterates = true) :
    let out := cgSolve (galleryOp poisson2d) o (n * n) self rhs kw
    8 * ((n * n : ℕ) + out.1.nMatvec + 2) * F.u ≤ 1 → (∀ v ∈ out.2, Real.sqrt (n * n : ℕ) * underflow F 4 ≤ F.u * 8 * ‖v.vec‖) →
    ∃ x rho, out.1.x = some x ∧ out.1.residNorm = some rho ∧
      (x.Finite → rho.Finite → ∀ theta, (∀ y ∈ out.1.iterates.drop self.iterates.length, ‖y.vec‖ ≤ theta) →
        rhs.Finite ∧ |rho.num - ‖rhs.vec - denseLin (grid n) x.vec‖| ≤ roundoff F (n * n) out.1.nMatvec 8 theta ‖rhs.vec‖ |rho.num|) := by
  intro out hk hL
  obtain ⟨x, rho, e1, e2, e3, -⟩ := C90_cg_partial (F.rounding (n * n) (pow_of_small F hk)) (galleryOp poisson2d) (denseLin (grid n))
    8 (((1 + F.u) ^ (n * n + 1) - 1) * 8 + F.u * 8) o hpre (n * n) self rhs kw hsym hst
  refine ⟨x, rho, e1, e2, fun hx hr theta hth => ?_⟩
  obtain ⟨g1, g2, g3⟩ := e3 (C93_computes2 h2 _ _ hL) hx hr theta hth
  refine ⟨g1, le_trans g3 (le_trans ?_ (roundoff_le hk (by norm_num) ((norm_nonneg _).trans g2) (norm_nonneg _) (abs_nonneg _)))⟩
  gcongr
  · have := one_le_pow₀ (M₀ := ℝ) (a := 1 + F.u) (n := n * n + 2) (by linarith [F.u_nonneg])
    show 0 ≤ 2 * ((1 + F.u) ^ (n * n + 2) - 1)
    linarith
  · exact le_abs_self _
  · exact le_rfl

/-! ### Examples -/

section
open Float64Example

/-- `[1, 2, 3]`, exactly -/
example : ∃ y, poisson1d ⟨3, fun j => I (if j < 3 then (j : ℤ) + 1 else 0)⟩ = some y ∧ y.get 0 = I 0 ∧ y.get 1 = I 0 ∧ y.get 2 = I 4 := by
  obtain ⟨y, h1, -, h3⟩ := (C93_exact 3 (fun j => if j < 3 then (j : ℤ) + 1 else 0) (fun j => by
    split
    · rw [abs_of_nonneg (by positivity)]; omega
    · norm_num)).1
  refine ⟨y, h1, ?_, ?_, ?_⟩
  · exact (h3 0).trans (congrArg I (by decide))
  · exact (h3 1).trans (congrArg I (by decide))
  · exact (h3 2).trans (congrArg I (by decide))

/-- an array with two entries -/
noncomputable def two (a b : ℤ) : FV float64 2 := ⟨![I a, I b]⟩

theorem two_op (a b : ℤ) (ha : |a| ≤ 2 ^ 49) (hb : |b| ≤ 2 ^ 49) : galleryOp poisson1d (two a b) = two (2 * a - b) (2 * b - a) := by
  obtain ⟨y, e1, e2, e3⟩ := poisson1d_triC (arrOf (two a b))
  have g0 : (arrOf (two a b)).get 0 = I a := rfl
  have g1 : (arrOf (two a b)).get 1 = I b := rfl
  have f0 := e3 0 (by show 0 < 2; norm_num)
  have f1 := e3 1 (by show 1 < 2; norm_num)
  have hl : (arrOf (two a b)).len = 2 := rfl
  rw [triC, hl] at f0 f1
  simp only [csub, g0, g1, zero_add, Nat.sub_self, two_I, show ¬ (1 ≤ 0) by norm_num, show (1 < 2) by norm_num, show ¬ (1 + 1 < 2) by norm_num,
    le_refl, if_true, if_false] at f0 f1
  have ha' := abs_le.1 ha
  have hb' := abs_le.1 hb
  rw [I_mul 2 a (by rw [abs_lt]; constructor <;> omega), I_sub _ _ (by rw [abs_lt]; constructor <;> omega)] at f0
  rw [I_mul 2 b (by rw [abs_lt]; constructor <;> omega), I_sub _ _ (by rw [abs_lt]; constructor <;> omega)] at f1
  unfold galleryOp
  rw [e1]
  show (⟨fun i => y.get i⟩ : FV float64 2) = ⟨_⟩
  congr 1
  funext i
  fin_cases i
  · exact f0
  · exact f1

/-- the hypotheses of `C93_finite` and `C93_computes1` for `[3, 5]` -/
example : (∀ j < (arrOf (two 3 5)).len, ((arrOf (two 3 5)).get j).Finite) ∧ float64.Reaches (2 ^ (1023 : ℤ)) ∧
    (1 + float64.u) ^ (2 + 2) ≤ 3 / 2 ∧ Real.sqrt (2 : ℕ) * underflow float64 2 ≤ float64.u * 4 * ‖(two 3 5).vec‖ := by
  have hu : float64.u = 2⁻¹ ^ 53 := rfl
  have ht : float64.tiny = 2 ^ (-1075 : ℤ) := rfl
  refine ⟨?_, float64_range, ?_, ?_⟩
  · intro j hj
    have : j < 2 := hj
    interval_cases j
    · exact (rfl : (I 3).Finite)
    · exact (rfl : (I 5).Finite)
  · rw [hu]; norm_num
  · have h1 : (1:ℝ) ≤ ‖(two 3 5).vec‖ := by
      rw [EuclideanSpace.norm_eq, Fin.sum_univ_two]
      refine Real.le_sqrt_of_sq_le ?_
      simp [FV.vec, two, I, FP.num]
      norm_num
    have h2 : Real.sqrt (2 : ℕ) ≤ 2 := by
      rw [Real.sqrt_le_iff]; norm_num
    have h3 : underflow float64 2 ≤ 2 ^ (-60 : ℤ) := by
      have h4 : (2:ℝ) ^ (-1075 : ℤ) ≤ 2 ^ (-70 : ℤ) := zpow_le_zpow_right₀ (by norm_num) (by norm_num)
      simp only [underflow]
      rw [hu, ht]
      generalize (2:ℝ) ^ (-1075 : ℤ) = t at *
      norm_num at h4 ⊢
      linarith
    have h5 := underflow_nonneg float64 2
    have h6 : Real.sqrt (2 : ℕ) * underflow float64 2 ≤ 2 * 2 ^ (-60 : ℤ) := mul_le_mul h2 h3 h5 (by norm_num)
    rw [hu]
    norm_num at h6 ⊢
    linarith

/-- a run of CG on the 1D problem with two unknowns, started at the solution: the conditions of `C93_cg_partial` are met -/
example :
    let out := cgSolve (galleryOp poisson1d) { abstol := I 1, reltol := I 0 } 2 {} (two 1 1) { storeIterates := true, guess := some (two 1 1) }
    out.1.x = some (two 1 1) ∧ out.1.residNorm = some (I 0) ∧ out.1.nMatvec = 1 ∧ out.2 = [two 1 1] ∧ (two 1 1).Finite ∧
      8 * (((2 : ℕ) : ℝ) + out.1.nMatvec + 2) * float64.u ≤ 1 := by
  intro out
  have ho : out = cgSolve (galleryOp poisson1d) { abstol := I 1, reltol := I 0 } 2 {} (two 1 1) { storeIterates := true, guess := some (two 1 1) } := rfl
  have hop : galleryOp poisson1d (two 1 1) = two 1 1 := two_op 1 1 (by norm_num) (by norm_num)
  have hr : -two 1 1 + two 1 1 = two 0 0 := by
    show (⟨_⟩ : FV float64 2) = ⟨_⟩
    congr 1
    funext i
    show -((two 1 1).data i) + _ = _
    fin_cases i
    · exact (congrArg (· + I 1) (I_neg 1)).trans (I_add (-1) 1 (by norm_num))
    · exact (congrArg (· + I 1) (I_neg 1)).trans (I_add (-1) 1 (by norm_num))
  have hd : dot (two 0 0) (two 0 0) = I 0 := by
    have h0 : (⟨some 0⟩ : FP float64) = I 0 := by simp [I]
    show FV.sum (two 0 0) (two 0 0) (List.finRange 2) ⟨some 0⟩ = _
    rw [h0, show List.finRange 2 = [0, 1] from rfl]
    simp only [FV.sum, List.foldl_cons, List.foldl_nil, two, Matrix.cons_val_zero, Matrix.cons_val_one]
    rw [I_mul 0 0 (by norm_num), I_add _ _ (by norm_num), I_add _ _ (by norm_num)]
    norm_num
  have hs : sqrt (I 0) = I 0 := I_sqrt 0 (by norm_num) (by norm_num)
  have hi : (cgInit (galleryOp poisson1d) { abstol := I 1, reltol := I 0 } { storeIterates := true, guess := some (two 1 1) }
      ({} : CGObj _ _) (two 1 1)) =
      ({ x := two 1 1, r := two 0 0, p := -two 0 0, ry := I 0, residNorm := I 0, nMatvec := 1, definite := true, infiniteDescent := none,
         residHistory := [I 0], resids := [], iterates := [two 1 1], calls := [two 1 1] }, I 1) := by
    simp [cgInit, applyPrecon, hop, hr, hd, hs, I_abs, I_mul, pymax, I_lt]
  rw [cgSolve_eq rfl, hi] at ho
  simp only at ho
  rw [cgLoop, dif_neg (by simp [cgCont, gt, I_lt])] at ho
  rw [ho]
  have hu : float64.u = 2⁻¹ ^ 53 := rfl
  refine ⟨rfl, rfl, rfl, rfl, ?_, ?_⟩
  · intro i
    fin_cases i <;> rfl
  · rw [hu]; norm_num

end

end Verif.Gallery
