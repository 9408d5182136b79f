import Verif.Link.Props
import Verif.Gallery.Energy

/-!
# C66: the Poisson operators of the gallery as operators of the solvers

`A = LinearOperator(n, n, lambda x: Poisson1dMatvec(x), symmetric=True)`, `rhs = A * e`, `cg.solve(rhs)`: the scripts of
`cg/tests/test_diagdom.py:29-47, 64-85`, for every size, every `e`, and the other solvers.
-/

namespace Verif.Link
open Verif.Linop Verif.Solver
open Gallery (poisson1d poisson2d C46_posDef C47_posDef C46_poisson1d C47_poisson2d)

open Classical

/-! ### The operators -/

/-- a function of `gallery.py` as the `matvec` of a `LinearOperator`: `2*x` and `4*x` (`gallery.py:5, 14`) have the dtype of
`x`, and the in-place subtractions keep it; a failing slice assignment raises `ValueError` -/
noncomputable def galleryFn (f : Gallery.Arr ℂ → Option (Gallery.Arr ℂ)) : Fn ℂ := fun x =>
  match f ⟨x.data.length, fun i => x.data.getD i 0⟩ with
  | some y => .ok ⟨x.kind, (List.range y.len).map y.get⟩
  | none => .error .valueError

/-- specification: entry `(i, j)` of the tridiagonal matrix (-1, 2, -1) -/
def t1 (i j : ℕ) : ℂ := if i = j then 2 else if i + 1 = j ∨ j + 1 = i then -1 else 0

/-- the matrix the caller means by the 1D operator -/
def mat1 (n : ℕ) : Mat ℂ := ⟨n, n, .real, t1⟩

/-- the matrix the caller means by the 2D operator: point `(b, j)` of the grid has number `b * n + j` -/
def mat2 (n : ℕ) : Mat ℂ := ⟨n * n, n * n, .real, fun p q =>
  (if p / n = q / n then t1 (p % n) (q % n) else 0) + (if p % n = q % n then t1 (p / n) (q / n) else 0)⟩

/-- `LinearOperator(n, n, lambda x: Poisson1dMatvec(x), symmetric=True)`, `test_diagdom.py:38-40` -/
noncomputable def newPoisson1 (n : ℕ) : Cmd ℂ := .new (mat1 n) true false (galleryFn poisson1d) none none

/-- `LinearOperator(n2, n2, lambda x: Poisson2dMatvec(x), symmetric=True)`, `test_diagdom.py:75-77` -/
noncomputable def newPoisson2 (n : ℕ) : Cmd ℂ := .new (mat2 n) true false (galleryFn poisson2d) none none

/-- specification: the five-point Laplacian with the points of the grid numbered by rows -/
noncomputable def lap (n : ℕ) : Matrix (Fin (n * n)) (Fin (n * n)) ℝ :=
  (Gallery.L ℝ n).submatrix finProdFinEquiv.symm finProdFinEquiv.symm

theorem t1_T (n : ℕ) (i j : Fin n) : t1 i j = ((Gallery.T ℝ n i j : ℝ) : ℂ) := by
  unfold t1 Gallery.T
  by_cases h : i = j
  · subst h; simp
  · have h' : (i : ℕ) ≠ j := fun e => h (Fin.ext e)
    by_cases h2 : (i : ℕ) + 1 = j ∨ (j : ℕ) + 1 = i <;> simp [h, h', h2]

theorem t1_T' (n : ℕ) (i j : Fin n) : t1 i j = Gallery.T ℂ n i j := by
  unfold t1 Gallery.T
  by_cases h : i = j
  · subst h; simp
  · have h' : (i : ℕ) ≠ j := fun e => h (Fin.ext e)
    by_cases h2 : (i : ℕ) + 1 = j ∨ (j : ℕ) + 1 = i <;> simp [h, h', h2]

theorem t1_symm (i j : ℕ) : t1 i j = t1 j i := by
  unfold t1
  by_cases h : i = j
  · subst h; rfl
  · rw [if_neg h, if_neg (Ne.symm h)]
    exact if_congr or_comm rfl rfl

theorem t1_real (i j : ℕ) : t1 i j ∈ (DTypes.sub .real : Subring ℂ) := by
  unfold t1
  split
  · exact ⟨2, by simp⟩
  · split
    · exact Subring.neg_mem _ (Subring.one_mem _)
    · exact Subring.zero_mem _

theorem isReal1 (n : ℕ) : IsReal (mat1 n) (Gallery.T ℝ n) := ⟨rfl, rfl, by simp [mat1], fun i j => t1_T n i j⟩

theorem mat1_app (n : ℕ) (x : List ℂ) (i : Fin n) :
    ∑ j ∈ Finset.range n, t1 i j * x.getD j 0 = (Gallery.T ℂ n).mulVec (fun j : Fin n => x.getD j 0) i := by
  rw [Finset.sum_range]
  simp only [Matrix.mulVec, dotProduct]
  exact Finset.sum_congr rfl fun j _ => by rw [t1_T']

theorem div_fin {n : ℕ} (p : Fin (n * n)) : (p : ℕ) / n < n := Nat.div_lt_of_lt_mul p.2

theorem mod_fin {n : ℕ} (p : Fin (n * n)) : (p : ℕ) % n < n :=
  Nat.mod_lt _ (Nat.pos_of_ne_zero fun h => by subst h; exact absurd p.2 (by simp))

theorem mat2_L (n : ℕ) (p q : Fin (n * n)) : (mat2 n).e p q = ((lap n p q : ℝ) : ℂ) := by
  have hp : finProdFinEquiv.symm p = (⟨p / n, div_fin p⟩, ⟨p % n, mod_fin p⟩) := rfl
  have hq : finProdFinEquiv.symm q = (⟨q / n, div_fin q⟩, ⟨q % n, mod_fin q⟩) := rfl
  simp only [lap, Matrix.submatrix_apply, hp, hq, Gallery.L, Matrix.add_apply, Matrix.kroneckerMap_apply, Matrix.one_apply,
    Fin.mk.injEq, mat2, Complex.ofReal_add, Complex.ofReal_mul]
  have a := t1_T n ⟨p % n, mod_fin p⟩ ⟨q % n, mod_fin q⟩
  have b := t1_T n ⟨p / n, div_fin p⟩ ⟨q / n, div_fin q⟩
  simp only at a b
  rw [← a, ← b]
  congr 1
  · split <;> simp
  · split <;> simp

theorem isReal2 (n : ℕ) : IsReal (mat2 n) (lap n) := ⟨rfl, rfl, by simp [mat2], mat2_L n⟩

theorem lap_posDef (n : ℕ) : (lap n).PosDef := (C47_posDef n).submatrix finProdFinEquiv.symm.injective

/-! ### They are what the caller says -/

theorem computes1 (n : ℕ) : Computes (mat1 n) (galleryFn poisson1d) := by
  intro x _ hx y hy
  have hx : x.data.length = n := hx
  obtain ⟨z, h1, h2, h3⟩ := C46_poisson1d (K := ℂ) ⟨x.data.length, fun i => x.data.getD i 0⟩
  simp only [galleryFn, h1] at hy
  cases hy
  simp only [Mat.app, mat1]
  subst hx
  rw [show z.len = x.data.length from h2]
  refine List.map_congr_left fun i hi => ?_
  rw [List.mem_range] at hi
  rw [h3 ⟨i, hi⟩]
  exact (mat1_app _ x.data ⟨i, hi⟩).symm

theorem returns1 (n : ℕ) : ReturnsOn (mat1 n).cols (galleryFn poisson1d) := by
  intro x _ _
  obtain ⟨z, h1, -⟩ := C46_poisson1d (K := ℂ) ⟨x.data.length, fun i => x.data.getD i 0⟩
  simp only [galleryFn, h1]
  exact ⟨_, rfl⟩

theorem sum_grid {n : ℕ} (f : ℕ → ℂ) :
    ∑ q ∈ Finset.range (n * n), f q = ∑ p : Fin n × Fin n, f (p.1 * n + p.2) := by
  rw [Finset.sum_range, ← finProdFinEquiv.sum_comp]
  refine Finset.sum_congr rfl fun p _ => ?_
  congr 1
  simp only [finProdFinEquiv, Equiv.coe_fn_mk]
  ring

theorem computes2 (n : ℕ) : Computes (mat2 n) (galleryFn poisson2d) := by
  intro x _ hx y hy
  have hx : x.data.length = n * n := hx
  obtain ⟨z, h1, h2, h3⟩ := C47_poisson2d (K := ℂ) n ⟨x.data.length, fun i => x.data.getD i 0⟩ hx
  simp only [galleryFn, h1] at hy
  cases hy
  simp only [Mat.app, mat2]
  rw [h2]
  refine List.map_congr_left fun p hp => ?_
  rw [List.mem_range] at hp
  have d := div_fin ⟨p, hp⟩
  have m := mod_fin ⟨p, hp⟩
  simp only at d m
  have hpq : p = p / n * n + p % n := (Nat.div_add_mod' p n).symm
  have h4 := h3 ⟨p / n, d⟩ ⟨p % n, m⟩
  simp only at h4
  rw [← hpq] at h4
  rw [h4, sum_grid]
  simp only [Matrix.mulVec, dotProduct, Gallery.L, Matrix.add_apply, Matrix.kroneckerMap_apply, Matrix.one_apply]
  refine Finset.sum_congr rfl fun q _ => ?_
  have e1 : ((q.1 : ℕ) * n + q.2) / n = q.1 := by
    rw [mul_comm, Nat.mul_add_div (by omega), Nat.div_eq_of_lt q.2.2, add_zero]
  have e2 : ((q.1 : ℕ) * n + q.2) % n = q.2 := by rw [mul_comm, Nat.mul_add_mod, Nat.mod_eq_of_lt q.2.2]
  rw [e1, e2]
  have a := t1_T' n ⟨p % n, m⟩ q.2
  have b := t1_T' n ⟨p / n, d⟩ q.1
  simp only at a b
  rw [← a, ← b]
  congr 2
  · have : (⟨p / n, d⟩ : Fin n) = q.1 ↔ p / n = q.1 := Fin.ext_iff
    by_cases h : p / n = (q.1 : ℕ) <;> simp [h, this]
  · have : (⟨p % n, m⟩ : Fin n) = q.2 ↔ p % n = q.2 := Fin.ext_iff
    by_cases h : p % n = (q.2 : ℕ) <;> simp [h, this]

theorem returns2 (n : ℕ) : ReturnsOn (mat2 n).cols (galleryFn poisson2d) := by
  intro x _ hx
  obtain ⟨z, h1, -⟩ := C47_poisson2d (K := ℂ) n ⟨x.data.length, fun i => x.data.getD i 0⟩ hx
  simp only [galleryFn, h1]
  exact ⟨_, rfl⟩

/-- **C66, use in programs.** Anywhere in a program, the constructor calls of `test_diagdom.py` are meaningful and complete,
that is, all theorems about programs of the operator layer (C01-C13, C63-C65) apply to programs that contain them. -/
theorem C66_meaningful (mats : List (Mat ℂ)) (n : ℕ) :
    (newPoisson1 n).WF mats ∧ (newPoisson1 n).Complete ∧ (newPoisson2 n).WF mats ∧ (newPoisson2 n).Complete := by
  refine ⟨⟨?_, ?_, by simp, computes1 n, by simp, by simp⟩, ⟨returns1 n, by simp, by simp, by simp [mat1]⟩,
    ⟨?_, ?_, by simp, computes2 n, by simp, by simp⟩, ⟨returns2 n, by simp, by simp, by simp [mat2]⟩⟩
  · intro i _ j _; exact t1_real i j
  · intro _; exact ⟨rfl, rfl, rfl, fun i _ j _ => t1_symm i j⟩
  · intro i _ j _
    refine Subring.add_mem _ ?_ ?_ <;> split
    · exact t1_real _ _
    · exact Subring.zero_mem _
    · exact t1_real _ _
    · exact Subring.zero_mem _
  · intro _
    refine ⟨rfl, rfl, rfl, fun i _ j _ => ?_⟩
    simp only [mat2, Mat.T]
    rw [t1_symm (i % n), t1_symm (i / n)]
    congr 1
    · exact if_congr eq_comm rfl rfl
    · exact if_congr eq_comm rfl rfl

/-! ### The solvers on them -/

/-- one of the two operators -/
inductive Poisson
  | one (n : ℕ)
  | two (n : ℕ)

/-- number of unknowns -/
def Poisson.size : Poisson → ℕ
  | .one n => n
  | .two n => n * n

/-- the constructor call -/
noncomputable def Poisson.cmd : Poisson → Cmd ℂ
  | .one n => newPoisson1 n
  | .two n => newPoisson2 n

/-- the matrix, as the operator layer sees it -/
def Poisson.mat : Poisson → Mat ℂ
  | .one n => mat1 n
  | .two n => mat2 n

/-- specification: the matrix -/
noncomputable def Poisson.matrix : (p : Poisson) → Matrix (Fin p.size) (Fin p.size) ℝ
  | .one n => Gallery.T ℝ n
  | .two n => lap n

/-- bound for the norm of the inverse: `n (n+1) / 2` in one dimension, `n (n+1) / 4` in two -/
noncomputable def Poisson.bound : Poisson → ℝ
  | .one n => n * (n + 1) / 2
  | .two n => n * (n + 1) / 4

theorem Poisson.isReal (p : Poisson) : IsReal p.mat p.matrix := by
  cases p with
  | one n => exact isReal1 n
  | two n => exact isReal2 n

theorem Poisson.posDef (p : Poisson) : p.matrix.PosDef := by
  cases p with
  | one n => exact C46_posDef n
  | two n => exact lap_posDef n

theorem Poisson.bound_nonneg (p : Poisson) : 0 ≤ p.bound := by
  cases p <;> simp only [Poisson.bound] <;> positivity

theorem lap_forms (n : ℕ) (x : Fin (n * n) → ℝ) :
    (x ∘ finProdFinEquiv) ⬝ᵥ (x ∘ finProdFinEquiv) = x ⬝ᵥ x ∧
    (x ∘ finProdFinEquiv) ⬝ᵥ (Gallery.L ℝ n).mulVec (x ∘ finProdFinEquiv) = x ⬝ᵥ (lap n).mulVec x := by
  constructor
  · simp only [dotProduct]
    exact finProdFinEquiv.sum_comp fun i => x i * x i
  · simp only [dotProduct, lap, Matrix.mulVec, Matrix.submatrix_apply]
    rw [← finProdFinEquiv.sum_comp]
    refine Finset.sum_congr rfl fun i _ => ?_
    simp only [Function.comp_apply, Equiv.symm_apply_apply]
    congr 1
    rw [← finProdFinEquiv.sum_comp]
    exact Finset.sum_congr rfl fun j _ => by rw [Equiv.symm_apply_apply]

theorem lap_dot (n : ℕ) (x : Fin (n * n) → ℝ) : 4 * (x ⬝ᵥ x) ≤ n * (n + 1) * (x ⬝ᵥ (lap n).mulVec x) := by
  have h := Gallery.C47_poincare n (x ∘ finProdFinEquiv)
  rwa [(lap_forms n x).1, (lap_forms n x).2] at h

theorem lap_upper (n : ℕ) (x : Fin (n * n) → ℝ) : x ⬝ᵥ (lap n).mulVec x ≤ 8 * (x ⬝ᵥ x) := by
  have h := Gallery.C47_upper n (x ∘ finProdFinEquiv)
  rwa [(lap_forms n x).1, (lap_forms n x).2] at h

theorem norm_of_dot {n : ℕ} (M : Matrix (Fin n) (Fin n) ℝ) (c : ℝ) (hc : 0 ≤ c)
    (h : ∀ x : Fin n → ℝ, x ⬝ᵥ x ≤ c * (x ⬝ᵥ M.mulVec x)) (x : RVec n) : ‖x‖ ≤ c * ‖lin M x‖ := by
  have h1 : ‖x‖ ^ 2 = x.ofLp ⬝ᵥ x.ofLp := by
    rw [EuclideanSpace.norm_sq_eq]; exact Finset.sum_congr rfl fun i _ => by rw [Real.norm_eq_abs, sq_abs, sq]
  have h2 : x.ofLp ⬝ᵥ M.mulVec x.ofLp = inner ℝ x (lin M x) := by
    simp only [lin_apply, PiLp.inner_apply, RCLike.inner_apply, conj_trivial, dotProduct]
    exact Finset.sum_congr rfl fun i _ => mul_comm _ _
  have h3 := h x.ofLp
  rw [← h1, h2] at h3
  have h4 := real_inner_le_norm x (lin M x)
  rcases (norm_nonneg x).eq_or_lt with h0 | h0
  · rw [← h0]; positivity
  · have : ‖x‖ * ‖x‖ ≤ (c * ‖lin M x‖) * ‖x‖ := by nlinarith
    exact le_of_mul_le_mul_right this h0

theorem half_le {k a b c : ℝ} (hk : 0 < k) (h : k * a ≤ c * b) : a ≤ c / k * b := by
  rw [div_mul_eq_mul_div, le_div_iff₀ hk]; linarith

/-- **C66, conditioning.** `|x| <= bound * |A x|`. -/
theorem C66_conditioning (p : Poisson) (x : RVec p.size) : ‖x‖ ≤ p.bound * ‖lin p.matrix x‖ := by
  cases p with
  | one n =>
    refine norm_of_dot _ _ (Poisson.bound_nonneg (.one n)) (fun x => ?_) x
    exact half_le (by norm_num) (Gallery.C46_poincare n x)
  | two n =>
    refine norm_of_dot _ _ (Poisson.bound_nonneg (.two n)) (fun x => ?_) x
    exact half_le (by norm_num) (lap_dot n x)

theorem poisson_error (p : Poisson) (e x : RVec p.size) {t : ℝ} (h : ‖lin p.matrix e - lin p.matrix x‖ ≤ t) :
    ‖e - x‖ ≤ p.bound * t := by
  refine (C66_conditioning p (e - x)).trans (mul_le_mul_of_nonneg_left ?_ p.bound_nonneg)
  rwa [map_sub]

variable {env : List Nat} {h : Heap ℂ} {mats : List (Mat ℂ)}

/-- **C66, product.** In any program that builds a Poisson operator, `A * e` is the finite-difference matrix times `e`: the
tridiagonal matrix (-1, 2, -1), respectively the five-point Laplacian. -/
theorem C66_product (p : Poisson) (R : ReachTotal env h mats) {i r : ℕ} (hr : env[i]? = some r) (hA : mats[i]? = some p.mat)
    {fuel : ℕ} (hf : h.length ≤ fuel) (e : RVec p.size) :
    apply h fuel r p.size p.size (.fin e) = .fin (WithLp.toLp 2 (p.matrix.mulVec e.ofLp)) := by
  rw [(api_ops R hr hA p.isReal hf).1]; rfl

/-- **C66, CG.** `test_diagdom.py`: `rhs = A * e`, then `cg.solve(rhs)`, in exact arithmetic, with any starting guess and any
product budget of at least the number of unknowns (plus one with a guess): CG converges within that number of products and the
error is at most `bound` times the stopping threshold; with zero tolerances the result is `e`. -/
theorem C66_cg (p : Poisson) (R : ReachTotal env h mats) {i r : ℕ} (hr : env[i]? = some r) (hA : mats[i]? = some p.mat)
    {fuel : ℕ} (hf : h.length ≤ fuel) (e : RVec p.size) (guess : Option (RVec p.size)) (abstol reltol : ℝ) (hat : 0 ≤ abstol)
    (self : CGObj Fl (Vec (RVec p.size))) (kw : CGKw (Vec (RVec p.size))) (hk : kw.Runs) (hg : kw.guess = guess.map Vec.fin)
    (hm : ∀ k, kw.matvecMax = some k → p.size + (if guess.isSome then 1 else 0) ≤ k) :
    let A := apply h fuel r p.size p.size
    let out := cgSolve A { abstol := .fin abstol, reltol := .fin reltol } p.size self (A (.fin e)) kw
    out.1.converged = true ∧ out.1.nMatvec ≤ p.size + (if guess.isSome then 1 else 0) ∧
    ∃ x, out.1.x = some (.fin x) ∧
      ‖e - x‖ ≤ p.bound * max abstol (reltol * ‖lin p.matrix (e - guess.getD 0)‖) ∧ (abstol = 0 → reltol = 0 → x = e) := by
  have hop := (api_ops R hr hA p.isReal hf).1
  have hfr : Module.finrank ℝ (RVec p.size) = p.size := finrank_euclideanSpace_fin
  intro A out
  have hT := C28_terminates_partial
    { A := lin p.matrix, b := lin p.matrix e, guess := guess, abstol := abstol, reltol := reltol }
    ⟨(spd_lin p.posDef).1, (spd_lin p.posDef).2⟩ self kw hk hg hat
    (by rw [hfr, hg, Option.isSome_map]; exact hm)
  simp only [hfr, hg, CGProblem.opts, Option.isSome_map] at hT
  have hb : A (.fin e) = .fin (lin p.matrix e) := by rw [show A = _ from hop]; rfl
  rw [← hop] at hT
  simp only [out, hb]
  obtain ⟨h1, h2, ⟨x, h3, h4, -⟩, -⟩ := hT
  refine ⟨h1, h2, x, h3, ?_, fun e1 e2 => ?_⟩
  · rw [map_sub]; exact poisson_error p e x h4
  · subst e1 e2
    have h5 := poisson_error p e x h4
    rw [zero_mul, max_self, mul_zero] at h5
    exact (sub_eq_zero.1 (norm_le_zero_iff.1 h5)).symm

/-- **C66, CGS.** The same for CGS with the default budget. -/
theorem C66_cgs (p : Poisson) (R : ReachTotal env h mats) {i r : ℕ} (hr : env[i]? = some r) (hA : mats[i]? = some p.mat)
    {fuel : ℕ} (hf : h.length ≤ fuel) (e : RVec p.size) (guess : Option (RVec p.size)) (abstol reltol : ℝ) (hat : 0 ≤ abstol)
    (kw : KrylovKw (Vec (RVec p.size))) (hg : kw.guess = guess.map Vec.fin) (hm : kw.matvecMax = none) :
    let A := apply h fuel r p.size p.size
    let out := cgsSolve A { abstol := .fin abstol, reltol := .fin reltol } p.size (A (.fin e)) kw
    out.1.converged = true ∧ out.1.nMatvec ≤ 2 * p.size ∧
    ∃ x, out.1.x = .fin x ∧ ‖e - x‖ ≤ p.bound * max abstol (reltol * ‖lin p.matrix (e - guess.getD 0)‖) := by
  intro A out
  have hb : A (.fin e) = .fin (lin p.matrix e) := C66_product p R hr hA hf e
  simp only [out, hb]
  obtain ⟨h1, h2, x, h3, h4⟩ := C64_cgs R hr hA p.isReal p.posDef hf (lin p.matrix e) guess abstol reltol hat kw hg hm
  exact ⟨h1, h2, x, h3, by rw [map_sub]; exact poisson_error p e x h4⟩

/-- **C66, Bi-CGSTAB.** The same for Bi-CGSTAB (at least one unknown). -/
theorem C66_bicgstab (p : Poisson) (hp : 0 < p.size) (R : ReachTotal env h mats) {i r : ℕ} (hr : env[i]? = some r)
    (hA : mats[i]? = some p.mat) {fuel : ℕ} (hf : h.length ≤ fuel) (e : RVec p.size) (guess : Option (RVec p.size))
    (abstol reltol : ℝ) (hat : 0 ≤ abstol) (kw : KrylovKw (Vec (RVec p.size))) (hg : kw.guess = guess.map Vec.fin)
    (hm : kw.matvecMax = none) :
    let A := apply h fuel r p.size p.size
    let out := biSolve A { abstol := .fin abstol, reltol := .fin reltol } p.size (A (.fin e)) kw
    out.1.converged = true ∧ out.1.nMatvec ≤ 2 * p.size ∧
    ∃ x, out.1.x = .fin x ∧ ‖e - x‖ ≤ p.bound * max abstol (reltol * ‖lin p.matrix (e - guess.getD 0)‖) := by
  have hop := (api_ops R hr hA p.isReal hf).1
  have hfr : Module.finrank ℝ (RVec p.size) = p.size := finrank_euclideanSpace_fin
  intro A out
  have hb : A (.fin e) = .fin (lin p.matrix e) := C66_product p R hr hA hf e
  have hT := C55_bicgstab_spd
    { A := lin p.matrix, b := lin p.matrix e, guess := guess, abstol := abstol, reltol := reltol, precon := none } rfl
    (spd_lin p.posDef) p.size hfr.le hp kw hg (le_trans hat (le_max_left _ _)) (by rw [hm]; simp)
  simp only [LinProblem.opts] at hT
  rw [← hop] at hT
  simp only [out, hb]
  obtain ⟨h1, h2, x, h3, h4⟩ := hT
  exact ⟨h1, h2, x, h3, by rw [map_sub]; exact poisson_error p e x h4⟩

/-- **C66, TFQMR.** The same for TFQMR, when the threshold is positive and the start does not pass the test. -/
theorem C66_tfqmr (p : Poisson) (R : ReachTotal env h mats) {i r : ℕ} (hr : env[i]? = some r) (hA : mats[i]? = some p.mat)
    {fuel : ℕ} (hf : h.length ≤ fuel) (e : RVec p.size) (guess : Option (RVec p.size)) (abstol reltol : ℝ)
    (ht : 0 < max abstol (reltol * ‖lin p.matrix (e - guess.getD 0)‖))
    (hs : max abstol (reltol * ‖lin p.matrix (e - guess.getD 0)‖) < ‖lin p.matrix (e - guess.getD 0)‖)
    (kw : KrylovKw (Vec (RVec p.size))) (hg : kw.guess = guess.map Vec.fin) (hm : kw.matvecMax = none) :
    ∃ res products x, tfSolve (apply h fuel r p.size p.size) { abstol := .fin abstol, reltol := .fin reltol } p.size
        (apply h fuel r p.size p.size (.fin e)) kw = .ok (res, products) ∧
      res.converged = true ∧ res.nMatvec ≤ 2 * p.size ∧ res.x = .fin x ∧
      ‖e - x‖ ≤ p.bound * max abstol (reltol * ‖lin p.matrix (e - guess.getD 0)‖) := by
  rw [map_sub] at ht hs
  obtain ⟨res, products, x, h1, h2, h3, h4, h5⟩ :=
    C64_tfqmr R hr hA p.isReal p.posDef hf (lin p.matrix e) guess abstol reltol ht hs kw hg hm
  refine ⟨res, products, x, ?_, h2, h3, h4, by rw [map_sub]; exact poisson_error p e x h5.le⟩
  rw [C66_product p R hr hA hf e]
  exact h1

/-- **C66, LSQR.** LSQR without damping, with zero tolerances and the default limit: `e`, if it is not zero. -/
theorem C66_lsqr (p : Poisson) (R : ReachTotal env h mats) {i r : ℕ} (hr : env[i]? = some r) (hA : mats[i]? = some p.mat)
    {fuel : ℕ} (hf : h.length ≤ fuel) (e : RVec p.size) (he : e ≠ 0) (conlim : ℝ) (storeResids storeIterates : Bool)
    (window : ℕ) (hw : window ≠ 0) :
    ∃ t, getT h r = some t ∧ ∃ res s,
      lsqrSolve (apply h fuel r p.size p.size) (apply h fuel t p.size p.size) p.size (apply h fuel r p.size p.size (.fin e))
        { itnlim := 0, damp := .fin 0, atol := .fin 0, btol := .fin 0, conlim := .fin conlim, etol := .fin 0, inf := .nan,
          storeResids := storeResids, storeIterates := storeIterates, window := window } = .ok (res, s) ∧
      res.optimal = true ∧ res.x = .fin e := by
  have hn : 0 < p.size := by
    rcases Nat.eq_zero_or_pos p.size with h0 | h0
    · exact absurd (by ext i; exact absurd i.2 (by omega)) he
    · exact h0
  have hs : p.matrix.transpose = p.matrix := by simpa using p.posDef.isHermitian.eq
  have inj : ∀ z : RVec p.size, lin p.matrix z = 0 → z = 0 := fun z hz => by
    have := C66_conditioning p z
    rw [hz, norm_zero, mul_zero] at this
    exact norm_le_zero_iff.1 this
  obtain ⟨t, ht, res, s, x, h1, h2, h3, h4⟩ := C64_lsqr R hr hA hn p.isReal hf (lin p.matrix e) (fun h0 => by
    rw [hs] at h0
    have h1 : lin p.matrix (lin p.matrix e) = 0 := by rw [lin_apply p.matrix (lin p.matrix e), h0]; rfl
    exact he (inj _ (inj _ h1))) 0 conlim storeResids storeIterates window hw
  refine ⟨t, ht, res, s, by rw [C66_product p R hr hA hf e]; exact h1, h2, ?_⟩
  rw [h3]
  congr 1
  rw [hs, mul_zero, zero_smul] at h4
  have h5 : lin p.matrix (lin p.matrix (e - x)) = 0 := by
    rw [map_sub, lin_apply p.matrix (_ - _)]
    exact congrArg (WithLp.toLp 2) h4
  have := inj _ (inj _ h5)
  exact (sub_eq_zero.1 this).symm

/-- the scripts of `test_diagdom.py`: one statement builds the operator; the default tolerances are `1e-8` and `1e-6` and the
budget is `2n` -/
theorem C66_script (p : Poisson) :
    ∃ h r, execAll [p.cmd] ([], []) = .ok ([r], h) ∧ ReachTotal [r] h [p.mat] := by
  have hs : specAll [p.cmd] [] = .ok [p.mat] := by cases p <;> rfl
  have hw : WFAll [] [p.cmd] := by
    refine ⟨?_, fun _ _ => trivial⟩
    cases p with
    | one n => exact (C66_meaningful [] n).1
    | two n => exact (C66_meaningful [] n).2.2.1
  have hc : ∀ c ∈ [p.cmd], c.Complete := by
    intro c hc
    rw [List.mem_singleton] at hc
    subst hc
    cases p with
    | one n => exact (C66_meaningful [] n).2.1
    | two n => exact (C66_meaningful [] n).2.2.2
  obtain ⟨env, h, h1, h2, h3⟩ := C64_programs [p.cmd] hw hc _ hs
  match env, h2, h1, h3 with
  | [r], _, h1, h3 => exact ⟨h, r, h1, h3⟩

/-- `test_diagdom.py:29-47` for every `n` and every `e`, with zero tolerances -/
example (n : ℕ) (e : RVec n) : ∃ h r, execAll [newPoisson1 n] ([], []) = .ok ([r], h) ∧
    (cgSolve (apply h h.length r n n) { abstol := .fin 0, reltol := .fin 0 } n {} (apply h h.length r n n (.fin e))
      { matvecMax := some (2 * n) }).1.x = some (.fin e) := by
  obtain ⟨h, r, h1, h2⟩ := C66_script (.one n)
  refine ⟨h, r, h1, ?_⟩
  obtain ⟨-, -, x, hx, -, hx2⟩ := C66_cg (.one n) h2 (i := 0) rfl rfl le_rfl e none 0 0 le_rfl {} { matvecMax := some (2 * n) }
    rfl rfl (by intro k hk; cases hk; simp [Poisson.size]; omega)
  exact hx.trans (congrArg (fun v => some (Vec.fin v)) (hx2 rfl rfl))

/-- a program with a Poisson operator in an expression: `A + A` for the 3 by 3 grid -/
example : ∃ env h mats, execAll [newPoisson2 3, .add 0 0] ([], []) = .ok (env, h) ∧ ReachTotal env h mats ∧
    mats[0]? = some (Poisson.two 3).mat := by
  have hs : specAll [newPoisson2 3, .add 0 0] [] = .ok [mat2 3, (mat2 3).add (mat2 3)] := rfl
  obtain ⟨env, h, h1, h2, h3⟩ := C64_programs [newPoisson2 3, .add 0 0]
    ⟨(C66_meaningful [] 3).2.2.1, fun _ _ => ⟨trivial, fun _ _ => trivial⟩⟩
    (by simp only [List.mem_cons, List.not_mem_nil, or_false, forall_eq_or_imp, forall_eq]
        exact ⟨(C66_meaningful [] 3).2.2.2, trivial⟩) _ hs
  exact ⟨env, h, _, h1, h3, rfl⟩

end Verif.Link
