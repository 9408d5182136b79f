import Verif.Solver.CG
import Verif.Solver.CGS
import Verif.Solver.BiCGSTAB
import Verif.Solver.TFQMR
import Mathlib.Analysis.InnerProductSpace.PiL2
import Mathlib.Analysis.SpecialFunctions.Pow.Real

/-!
# Exact complex arithmetic

Complex numbers and vectors with complex entries, each with one extra value `nan` as in `Verif.Solver.Exact`.  `np.dot` does not
conjugate; `np.linalg.norm` is the Euclidean norm.  The solvers `cg`, `cgs`, `bicgstab` and `tfqmr` compare real numbers only
(results of `np.abs`, `np.linalg.norm`, `np.real`, `np.imag` and of operations on these); here a comparison with a number that is not real is
false.
-/

namespace Verif.Solver

/-- a complex scalar in exact arithmetic -/
inductive Cx
  | fin (z : ℂ)
  | nan

/-- an array of complex numbers in exact arithmetic; `ι` are the indices -/
inductive CVec (ι : Type) : Type
  | fin (v : EuclideanSpace ℂ ι)
  | nan

namespace Cx

def lift1 (f : ℂ → ℂ) : Cx → Cx
  | fin a => fin (f a)
  | nan => nan
def lift2 (f : ℂ → ℂ → ℂ) : Cx → Cx → Cx
  | fin a, fin b => fin (f a b)
  | _, _ => nan

open Classical in
/-- division: undefined by zero -/
noncomputable def div : Cx → Cx → Cx
  | fin a, fin b => if b = 0 then nan else fin (a / b)
  | _, _ => nan

open Classical in
noncomputable def le : Cx → Cx → Bool
  | fin a, fin b => decide (a.im = 0 ∧ b.im = 0 ∧ a.re ≤ b.re)
  | _, _ => false

open Classical in
noncomputable def lt : Cx → Cx → Bool
  | fin a, fin b => decide (a.im = 0 ∧ b.im = 0 ∧ a.re < b.re)
  | _, _ => false

/-- `np.sqrt` is the principal square root, `np.abs` the modulus. -/
noncomputable instance : Scalar Cx where
  add := lift2 (· + ·)
  sub := lift2 (· - ·)
  mul := lift2 (· * ·)
  neg := lift1 (- ·)
  div := div
  sqrt := lift1 (fun z => z ^ ((1 / 2 : ℝ) : ℂ))
  abs := lift1 (fun z => (‖z‖ : ℂ))
  lit q := fin (q : ℂ)
  le := le
  lt := lt
  re := lift1 (fun z => (z.re : ℂ))
  im := lift1 (fun z => (z.im : ℂ))

/-- a real number -/
def ofReal (a : ℝ) : Cx := fin (a : ℂ)

@[simp] theorem fin_add (a b : ℂ) : fin a + fin b = fin (a + b) := rfl
@[simp] theorem fin_sub (a b : ℂ) : fin a - fin b = fin (a - b) := rfl
@[simp] theorem fin_mul (a b : ℂ) : fin a * fin b = fin (a * b) := rfl
@[simp] theorem fin_neg (a : ℂ) : -fin a = fin (-a) := rfl
theorem fin_div (a : ℂ) {b : ℂ} (hb : b ≠ 0) : fin a / fin b = fin (a / b) := by
  change div _ _ = _; simp [div, hb]
theorem div_zero (a : ℂ) : fin a / fin 0 = nan := by
  change div _ _ = _; simp [div]
@[simp] theorem fin_sqrt (a : ℂ) : Scalar.sqrt (fin a) = fin (a ^ ((1 / 2 : ℝ) : ℂ)) := rfl
@[simp] theorem fin_abs (a : ℂ) : Scalar.abs (fin a) = fin (‖a‖ : ℂ) := rfl
@[simp] theorem lit_eq (q : ℚ) : (Scalar.lit q : Cx) = fin (q : ℂ) := rfl
@[simp] theorem fin_re (a : ℂ) : Scalar.re (fin a) = fin (a.re : ℂ) := rfl
@[simp] theorem fin_im (a : ℂ) : Scalar.im (fin a) = fin (a.im : ℂ) := rfl
@[simp] theorem nan_add (a : Cx) : nan + a = nan := by cases a <;> rfl
@[simp] theorem add_nan (a : Cx) : a + nan = nan := by cases a <;> rfl
@[simp] theorem nan_sub (a : Cx) : nan - a = nan := by cases a <;> rfl
@[simp] theorem sub_nan (a : Cx) : a - nan = nan := by cases a <;> rfl
@[simp] theorem nan_mul (a : Cx) : nan * a = nan := by cases a <;> rfl
@[simp] theorem mul_nan (a : Cx) : a * nan = nan := by cases a <;> rfl
@[simp] theorem nan_div (a : Cx) : nan / a = nan := by cases a <;> rfl
@[simp] theorem div_nan (a : Cx) : a / nan = nan := by cases a <;> rfl
@[simp] theorem neg_nan : -nan = nan := rfl
@[simp] theorem abs_nan : Scalar.abs nan = nan := rfl
@[simp] theorem sqrt_nan : Scalar.sqrt nan = nan := rfl
@[simp] theorem re_nan : Scalar.re nan = nan := rfl
@[simp] theorem im_nan : Scalar.im nan = nan := rfl

theorem le_iff {a b : Cx} : Scalar.le a b = true ↔ ∃ x y : ℝ, a = fin x ∧ b = fin y ∧ x ≤ y := by
  change le a b = true ↔ _
  cases a with
  | nan => simp [le]
  | fin z =>
    cases b with
    | nan => simp [le]
    | fin w =>
      simp only [le, decide_eq_true_eq, fin.injEq]
      constructor
      · rintro ⟨h1, h2, h3⟩
        exact ⟨z.re, w.re, by apply Complex.ext <;> simp [h1], by apply Complex.ext <;> simp [h2], h3⟩
      · rintro ⟨x, y, rfl, rfl, h⟩; simpa using h
theorem lt_iff {a b : Cx} : Scalar.lt a b = true ↔ ∃ x y : ℝ, a = fin x ∧ b = fin y ∧ x < y := by
  change lt a b = true ↔ _
  cases a with
  | nan => simp [lt]
  | fin z =>
    cases b with
    | nan => simp [lt]
    | fin w =>
      simp only [lt, decide_eq_true_eq, fin.injEq]
      constructor
      · rintro ⟨h1, h2, h3⟩
        exact ⟨z.re, w.re, by apply Complex.ext <;> simp [h1], by apply Complex.ext <;> simp [h2], h3⟩
      · rintro ⟨x, y, rfl, rfl, h⟩; simpa using h
@[simp] theorem fin_le (a b : ℝ) : Scalar.le (fin (a : ℂ)) (fin (b : ℂ)) = true ↔ a ≤ b := by
  change le _ _ = true ↔ _; simp [le]
@[simp] theorem fin_lt (a b : ℝ) : Scalar.lt (fin (a : ℂ)) (fin (b : ℂ)) = true ↔ a < b := by
  change lt _ _ = true ↔ _; simp [lt]
@[simp] theorem le_nan (a : Cx) : Scalar.le a nan = false := by cases a <;> rfl
@[simp] theorem nan_le (a : Cx) : Scalar.le nan a = false := by cases a <;> rfl
@[simp] theorem lt_nan (a : Cx) : Scalar.lt a nan = false := by cases a <;> rfl
@[simp] theorem nan_lt (a : Cx) : Scalar.lt nan a = false := by cases a <;> rfl

@[simp] theorem fin_pymax (a b : ℝ) : Scalar.pymax (fin (a : ℂ)) (fin (b : ℂ)) = fin ((max a b : ℝ) : ℂ) := by
  unfold Scalar.pymax
  by_cases h : a < b
  · simp [h, max_eq_right h.le]
  · simp [h, max_eq_left (not_lt.1 h)]

/-- `np.abs(np.sqrt(z))` -/
theorem abs_sqrt (z : ℂ) : Scalar.abs (Scalar.sqrt (fin z)) = fin (Real.sqrt ‖z‖ : ℂ) := by
  rw [fin_sqrt, fin_abs, Complex.norm_cpow_real, Real.sqrt_eq_rpow]

theorem sqrt_real {a : ℝ} (ha : 0 ≤ a) : Scalar.sqrt (fin (a : ℂ)) = fin (Real.sqrt a : ℂ) := by
  rw [fin_sqrt, ← Complex.ofReal_cpow ha, Real.sqrt_eq_rpow]

theorem add_fin {a b : Cx} {z : ℂ} (h : a + b = fin z) : ∃ x y, a = fin x ∧ b = fin y ∧ z = x + y := by
  cases a <;> cases b <;> simp at h; exact ⟨_, _, rfl, rfl, h.symm⟩
theorem mul_fin {a b : Cx} {z : ℂ} (h : a * b = fin z) : ∃ x y, a = fin x ∧ b = fin y ∧ z = x * y := by
  cases a <;> cases b <;> simp at h; exact ⟨_, _, rfl, rfl, h.symm⟩
theorem sub_fin {a b : Cx} {z : ℂ} (h : a - b = fin z) : ∃ x y, a = fin x ∧ b = fin y ∧ z = x - y := by
  cases a <;> cases b <;> simp at h; exact ⟨_, _, rfl, rfl, h.symm⟩
theorem div_fin {a b : Cx} {z : ℂ} (h : a / b = fin z) :
    ∃ x y, a = fin x ∧ b = fin y ∧ y ≠ 0 ∧ z = x / y := by
  cases a with
  | nan => simp at h
  | fin x =>
    cases b with
    | nan => simp at h
    | fin y =>
      by_cases hy : y = 0
      · subst hy; rw [div_zero] at h; cases h
      · rw [fin_div x hy] at h; cases h; exact ⟨x, y, rfl, rfl, hy, rfl⟩

end Cx

namespace CVec
variable {ι : Type} [Fintype ι]

open Classical in
/-- `np.dot(u, v)` is the sum of the products of the entries, without conjugation. -/
noncomputable instance : Vect Cx (CVec ι) where
  add
    | fin u, fin v => fin (u + v)
    | _, _ => nan
  sub
    | fin u, fin v => fin (u - v)
    | _, _ => nan
  neg
    | fin u => fin (-u)
    | nan => nan
  zeros := fin 0
  smul
    | .fin a, fin v => fin (a • v)
    | _, _ => nan
  vdiv
    | fin v, .fin a => if a = 0 then nan else fin (a⁻¹ • v)
    | _, _ => nan
  dot
    | fin u, fin v => .fin (∑ i, u i * v i)
    | _, _ => .nan
  norm
    | fin u => .fin (‖u‖ : ℂ)
    | nan => .nan

@[simp] theorem fin_add (u v : EuclideanSpace ℂ ι) : fin u + fin v = fin (u + v) := rfl
@[simp] theorem fin_sub (u v : EuclideanSpace ℂ ι) : fin u - fin v = fin (u - v) := rfl
@[simp] theorem fin_neg (u : EuclideanSpace ℂ ι) : -fin u = fin (-u) := rfl
@[simp] theorem zeros_eq : (Vect.zeros : CVec ι) = fin 0 := rfl
@[simp] theorem fin_smul (a : ℂ) (v : EuclideanSpace ℂ ι) : Vect.smul (Cx.fin a) (fin v) = fin (a • v) := rfl
@[simp] theorem fin_dot (u v : EuclideanSpace ℂ ι) : Vect.dot (fin u) (fin v) = Cx.fin (∑ i, u i * v i) := rfl
@[simp] theorem fin_norm (u : EuclideanSpace ℂ ι) : Vect.norm (fin u) = Cx.fin (‖u‖ : ℂ) := rfl
@[simp] theorem nan_add (a : CVec ι) : nan + a = nan := by cases a <;> rfl
@[simp] theorem add_nan (a : CVec ι) : a + nan = nan := by cases a <;> rfl
@[simp] theorem nan_sub (a : CVec ι) : nan - a = nan := by cases a <;> rfl
@[simp] theorem sub_nan (a : CVec ι) : a - nan = nan := by cases a <;> rfl
@[simp] theorem neg_nan : -(nan : CVec ι) = nan := rfl
@[simp] theorem nan_smul (v : CVec ι) : Vect.smul Cx.nan v = nan := by cases v <;> rfl
@[simp] theorem smul_nan (a : Cx) : Vect.smul a (nan : CVec ι) = nan := by cases a <;> rfl
@[simp] theorem nan_dot (v : CVec ι) : Vect.dot nan v = Cx.nan := by cases v <;> rfl
@[simp] theorem dot_nan (v : CVec ι) : Vect.dot v nan = Cx.nan := by cases v <;> rfl
@[simp] theorem norm_nan : Vect.norm (nan : CVec ι) = Cx.nan := rfl

theorem add_fin {a b : CVec ι} {z : EuclideanSpace ℂ ι} (h : a + b = fin z) : ∃ x y, a = fin x ∧ b = fin y ∧ z = x + y := by
  cases a <;> cases b <;> simp at h; exact ⟨_, _, rfl, rfl, h.symm⟩
theorem sub_fin {a b : CVec ι} {z : EuclideanSpace ℂ ι} (h : a - b = fin z) : ∃ x y, a = fin x ∧ b = fin y ∧ z = x - y := by
  cases a <;> cases b <;> simp at h; exact ⟨_, _, rfl, rfl, h.symm⟩
theorem smul_fin {a : Cx} {b : CVec ι} {z : EuclideanSpace ℂ ι} (h : Vect.smul a b = fin z) :
    ∃ x y, a = .fin x ∧ b = fin y ∧ z = x • y := by
  cases a <;> cases b <;> simp at h; exact ⟨_, _, rfl, rfl, h.symm⟩
theorem norm_fin {a : CVec ι} {z : ℂ} (h : Vect.norm a = .fin z) : ∃ x, a = fin x ∧ z = (‖x‖ : ℂ) := by
  cases a <;> simp at h; exact ⟨_, rfl, h.symm⟩

/-- a matrix as an operator on exact vectors -/
def op (A : EuclideanSpace ℂ ι → EuclideanSpace ℂ ι) : CVec ι → CVec ι
  | fin v => fin (A v)
  | nan => nan
omit [Fintype ι] in
@[simp] theorem op_fin (A : EuclideanSpace ℂ ι → EuclideanSpace ℂ ι) (v : EuclideanSpace ℂ ι) : op A (fin v) = fin (A v) := rfl
omit [Fintype ι] in
@[simp] theorem op_nan (A : EuclideanSpace ℂ ι → EuclideanSpace ℂ ι) : op A (nan : CVec ι) = nan := rfl
omit [Fintype ι] in
theorem op_eq_fin {A : EuclideanSpace ℂ ι → EuclideanSpace ℂ ι} {a : CVec ι} {z : EuclideanSpace ℂ ι} (h : op A a = fin z) :
    ∃ x, a = fin x ∧ z = A x := by
  cases a <;> simp at h; exact ⟨_, rfl, h.symm⟩

end CVec
end Verif.Solver
