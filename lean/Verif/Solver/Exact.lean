import Verif.Solver.Arith
import Mathlib.Analysis.InnerProductSpace.Basic
import Mathlib.Analysis.Real.Sqrt

/-!
# Exact arithmetic

Real numbers and vectors of a real inner product space, each with one extra value `nan` for "not finite":
division by zero and square roots of negative numbers give `nan`, `nan` is absorbing, and comparisons with `nan`
are false.  (Infinities are not distinguished from NaN.)
-/

namespace Verif.Solver

/-- a scalar in exact arithmetic -/
inductive Fl
  | fin (a : ℝ)
  | nan

/-- a vector in exact arithmetic -/
inductive Vec (E : Type) : Type
  | fin (v : E)
  | nan

namespace Fl

def lift1 (f : ℝ → ℝ) : Fl → Fl
  | fin a => fin (f a)
  | nan => nan
def lift2 (f : ℝ → ℝ → ℝ) : Fl → Fl → Fl
  | fin a, fin b => fin (f a b)
  | _, _ => nan

open Classical in
/-- division: undefined by zero -/
noncomputable def div : Fl → Fl → Fl
  | fin a, fin b => if b = 0 then nan else fin (a / b)
  | _, _ => nan

open Classical in
/-- square root: undefined for negative numbers -/
noncomputable def sqrt : Fl → Fl
  | fin a => if a < 0 then nan else fin (Real.sqrt a)
  | nan => nan

open Classical in
noncomputable def le : Fl → Fl → Bool
  | fin a, fin b => decide (a ≤ b)
  | _, _ => false

open Classical in
noncomputable def lt : Fl → Fl → Bool
  | fin a, fin b => decide (a < b)
  | _, _ => false

noncomputable instance : Scalar Fl where
  add := lift2 (· + ·)
  sub := lift2 (· - ·)
  mul := lift2 (· * ·)
  neg := lift1 (- ·)
  div := div
  sqrt := sqrt
  abs := lift1 (|·|)
  lit q := fin (q : ℝ)
  le := le
  lt := lt

@[simp] theorem fin_add (a b : ℝ) : fin a + fin b = fin (a + b) := rfl
@[simp] theorem fin_sub (a b : ℝ) : fin a - fin b = fin (a - b) := rfl
@[simp] theorem fin_mul (a b : ℝ) : fin a * fin b = fin (a * b) := rfl
@[simp] theorem fin_neg (a : ℝ) : -fin a = fin (-a) := rfl
theorem fin_div (a : ℝ) {b : ℝ} (hb : b ≠ 0) : fin a / fin b = fin (a / b) := by
  change div _ _ = _; simp [div, hb]
theorem fin_sqrt {a : ℝ} (ha : 0 ≤ a) : Scalar.sqrt (fin a) = fin (Real.sqrt a) := by
  change sqrt _ = _; simp [sqrt, not_lt.2 ha]
@[simp] theorem fin_abs (a : ℝ) : Scalar.abs (fin a) = fin |a| := rfl
@[simp] theorem re_eq (a : Fl) : Scalar.re a = a := rfl
@[simp] theorem im_eq (a : Fl) : Scalar.im a = fin 0 := congrArg fin (Rat.cast_zero)
@[simp] theorem lit_eq (q : ℚ) : (Scalar.lit q : Fl) = fin (q : ℝ) := rfl
@[simp] theorem nan_add (a : Fl) : nan + a = nan := by cases a <;> rfl
@[simp] theorem add_nan (a : Fl) : a + nan = nan := by cases a <;> rfl
@[simp] theorem nan_sub (a : Fl) : nan - a = nan := by cases a <;> rfl
@[simp] theorem sub_nan (a : Fl) : a - nan = nan := by cases a <;> rfl
@[simp] theorem nan_mul (a : Fl) : nan * a = nan := by cases a <;> rfl
@[simp] theorem mul_nan (a : Fl) : a * nan = nan := by cases a <;> rfl
@[simp] theorem nan_div (a : Fl) : nan / a = nan := by cases a <;> rfl
@[simp] theorem div_nan (a : Fl) : a / nan = nan := by cases a <;> rfl
@[simp] theorem neg_nan : -nan = nan := rfl
@[simp] theorem abs_nan : Scalar.abs nan = nan := rfl
@[simp] theorem sqrt_nan : Scalar.sqrt nan = nan := rfl

theorem le_iff {a b : Fl} : Scalar.le a b = true ↔ ∃ x y, a = fin x ∧ b = fin y ∧ x ≤ y := by
  change le a b = true ↔ _
  cases a <;> cases b <;> simp [le]
theorem lt_iff {a b : Fl} : Scalar.lt a b = true ↔ ∃ x y, a = fin x ∧ b = fin y ∧ x < y := by
  change lt a b = true ↔ _
  cases a <;> cases b <;> simp [lt]
@[simp] theorem fin_le (a b : ℝ) : Scalar.le (fin a) (fin b) = true ↔ a ≤ b := by
  change le _ _ = true ↔ _; simp [le]
@[simp] theorem fin_lt (a b : ℝ) : Scalar.lt (fin a) (fin b) = true ↔ a < b := by
  change lt _ _ = true ↔ _; simp [lt]
@[simp] theorem le_nan (a : Fl) : Scalar.le a nan = false := by cases a <;> rfl
@[simp] theorem nan_le (a : Fl) : Scalar.le nan a = false := by cases a <;> rfl
@[simp] theorem lt_nan (a : Fl) : Scalar.lt a nan = false := by cases a <;> rfl
@[simp] theorem nan_lt (a : Fl) : Scalar.lt nan a = false := by cases a <;> rfl

@[simp] theorem fin_pymax (a b : ℝ) : Scalar.pymax (fin a) (fin b) = fin (max a b) := by
  unfold Scalar.pymax
  by_cases h : a < b
  · simp [h, max_eq_right h.le]
  · simp [h, max_eq_left (not_lt.1 h)]
@[simp] theorem pymax_nan (a : Fl) : Scalar.pymax a nan = a := by simp [Scalar.pymax]
@[simp] theorem nan_pymax (a : Fl) : Scalar.pymax nan a = nan := by simp [Scalar.pymax]

theorem add_fin {a b : Fl} {z : ℝ} (h : a + b = fin z) : ∃ x y, a = fin x ∧ b = fin y ∧ z = x + y := by
  cases a <;> cases b <;> simp at h; exact ⟨_, _, rfl, rfl, h.symm⟩
theorem mul_fin {a b : Fl} {z : ℝ} (h : a * b = fin z) : ∃ x y, a = fin x ∧ b = fin y ∧ z = x * y := by
  cases a <;> cases b <;> simp at h; exact ⟨_, _, rfl, rfl, h.symm⟩
theorem sub_fin {a b : Fl} {z : ℝ} (h : a - b = fin z) : ∃ x y, a = fin x ∧ b = fin y ∧ z = x - y := by
  cases a <;> cases b <;> simp at h; exact ⟨_, _, rfl, rfl, h.symm⟩
theorem neg_fin {a : Fl} {z : ℝ} (h : -a = fin z) : ∃ x, a = fin x ∧ z = -x := by
  cases a <;> simp at h; exact ⟨_, rfl, h.symm⟩
theorem div_fin {a b : Fl} {z : ℝ} (h : a / b = fin z) :
    ∃ x y, a = fin x ∧ b = fin y ∧ y ≠ 0 ∧ z = x / y := by
  cases a with
  | nan => simp at h
  | fin x =>
    cases b with
    | nan => simp at h
    | fin y =>
      by_cases hy : y = 0
      · subst hy
        have : (fin x / fin 0 : Fl) = nan := by change div _ _ = _; simp [div]
        rw [this] at h; cases h
      · rw [fin_div x hy] at h
        cases h
        exact ⟨x, y, rfl, rfl, hy, rfl⟩
theorem sqrt_fin {a : Fl} {z : ℝ} (h : Scalar.sqrt a = fin z) : ∃ x, a = fin x ∧ 0 ≤ x ∧ z = Real.sqrt x := by
  cases a with
  | nan => simp at h
  | fin x =>
    by_cases hx : x < 0
    · have : (Scalar.sqrt (fin x) : Fl) = nan := by change sqrt _ = _; simp [sqrt, hx]
      rw [this] at h; cases h
    · rw [fin_sqrt (not_lt.1 hx)] at h
      cases h
      exact ⟨x, rfl, not_lt.1 hx, rfl⟩
theorem abs_fin {a : Fl} {z : ℝ} (h : Scalar.abs a = fin z) : ∃ x, a = fin x ∧ z = |x| := by
  cases a <;> simp at h; exact ⟨_, rfl, h.symm⟩

theorem fin_ne_nan (a : ℝ) : fin a ≠ nan := by simp

end Fl

namespace Vec
variable {E : Type} [NormedAddCommGroup E] [InnerProductSpace ℝ E]

open Classical in
noncomputable instance : Vect Fl (Vec E) where
  add
    | fin u, fin v => fin (u + v)
    | _, _ => nan
  sub
    | fin u, fin v => fin (u - v)
    | _, _ => nan
  neg
    | fin u => fin (-u)
    | nan => nan
  zeros := fin 0
  smul
    | .fin a, fin v => fin (a • v)
    | _, _ => nan
  vdiv
    | fin v, .fin a => if a = 0 then nan else fin (a⁻¹ • v)
    | _, _ => nan
  dot
    | fin u, fin v => .fin (inner ℝ u v)
    | _, _ => .nan
  norm
    | fin u => .fin ‖u‖
    | nan => .nan

@[simp] theorem fin_add (u v : E) : fin u + fin v = fin (u + v) := rfl
@[simp] theorem fin_sub (u v : E) : fin u - fin v = fin (u - v) := rfl
@[simp] theorem fin_neg (u : E) : -fin u = fin (-u) := rfl
@[simp] theorem zeros_eq : (Vect.zeros : Vec E) = fin 0 := rfl
@[simp] theorem fin_smul (a : ℝ) (v : E) : Vect.smul (Fl.fin a) (fin v) = fin (a • v) := rfl
theorem fin_vdiv (v : E) {a : ℝ} (ha : a ≠ 0) : Vect.vdiv (fin v) (Fl.fin a) = fin (a⁻¹ • v) := if_neg ha
theorem vdiv_zero (v : E) : Vect.vdiv (fin v) (Fl.fin 0) = nan := if_pos rfl
@[simp] theorem fin_dot (u v : E) : Vect.dot (fin u) (fin v) = Fl.fin (inner ℝ u v) := rfl
@[simp] theorem fin_norm (u : E) : Vect.norm (fin u) = Fl.fin ‖u‖ := rfl
@[simp] theorem nan_add (a : Vec E) : nan + a = nan := by cases a <;> rfl
@[simp] theorem add_nan (a : Vec E) : a + nan = nan := by cases a <;> rfl
@[simp] theorem nan_sub (a : Vec E) : nan - a = nan := by cases a <;> rfl
@[simp] theorem sub_nan (a : Vec E) : a - nan = nan := by cases a <;> rfl
@[simp] theorem neg_nan : -(nan : Vec E) = nan := rfl
@[simp] theorem nan_smul (v : Vec E) : Vect.smul Fl.nan v = nan := by cases v <;> rfl
@[simp] theorem smul_nan (a : Fl) : Vect.smul a (nan : Vec E) = nan := by cases a <;> rfl
@[simp] theorem nan_vdiv (a : Fl) : Vect.vdiv (nan : Vec E) a = nan := by cases a <;> rfl
@[simp] theorem vdiv_nan (v : Vec E) : Vect.vdiv v Fl.nan = nan := by cases v <;> rfl
@[simp] theorem nan_dot (v : Vec E) : Vect.dot nan v = Fl.nan := by cases v <;> rfl
@[simp] theorem dot_nan (v : Vec E) : Vect.dot v nan = Fl.nan := by cases v <;> rfl
@[simp] theorem norm_nan : Vect.norm (nan : Vec E) = Fl.nan := rfl

theorem add_fin {a b : Vec E} {z : E} (h : a + b = fin z) : ∃ x y, a = fin x ∧ b = fin y ∧ z = x + y := by
  cases a <;> cases b <;> simp at h; exact ⟨_, _, rfl, rfl, h.symm⟩
theorem sub_fin {a b : Vec E} {z : E} (h : a - b = fin z) : ∃ x y, a = fin x ∧ b = fin y ∧ z = x - y := by
  cases a <;> cases b <;> simp at h; exact ⟨_, _, rfl, rfl, h.symm⟩
theorem neg_fin {a : Vec E} {z : E} (h : -a = fin z) : ∃ x, a = fin x ∧ z = -x := by
  cases a <;> simp at h; exact ⟨_, rfl, h.symm⟩
theorem smul_fin {a : Fl} {b : Vec E} {z : E} (h : Vect.smul a b = fin z) :
    ∃ x y, a = .fin x ∧ b = fin y ∧ z = x • y := by
  cases a <;> cases b <;> simp at h; exact ⟨_, _, rfl, rfl, h.symm⟩
theorem vdiv_fin {b : Vec E} {a : Fl} {z : E} (h : Vect.vdiv b a = fin z) :
    ∃ x y, a = .fin x ∧ b = fin y ∧ x ≠ 0 ∧ z = x⁻¹ • y := by
  cases a with
  | nan => simp at h
  | fin x =>
    cases b with
    | nan => simp at h
    | fin y =>
      by_cases hx : x = 0
      · subst hx; rw [vdiv_zero] at h; cases h
      · rw [fin_vdiv y hx] at h; cases h; exact ⟨x, y, rfl, rfl, hx, rfl⟩
theorem dot_fin {a b : Vec E} {z : ℝ} (h : Vect.dot a b = .fin z) : ∃ x y, a = fin x ∧ b = fin y ∧ z = inner ℝ x y := by
  cases a <;> cases b <;> simp at h; exact ⟨_, _, rfl, rfl, h.symm⟩
theorem norm_fin {a : Vec E} {z : ℝ} (h : Vect.norm a = .fin z) : ∃ x, a = fin x ∧ z = ‖x‖ := by
  cases a <;> simp at h; exact ⟨_, rfl, h.symm⟩

end Vec

namespace Vec
variable {E : Type}

/-- A linear map as an operator on exact vectors (products with a non-finite vector are non-finite). -/
def op {F : Type} (A : E → F) : Vec E → Vec F
  | fin v => fin (A v)
  | nan => nan
@[simp] theorem op_fin {F : Type} (A : E → F) (v : E) : op A (fin v) = fin (A v) := rfl
@[simp] theorem op_nan {F : Type} (A : E → F) : op A (nan : Vec E) = nan := rfl
theorem op_eq_fin {F : Type} {A : E → F} {a : Vec E} {z : F} (h : op A a = fin z) : ∃ x, a = fin x ∧ z = A x := by
  cases a <;> simp at h; exact ⟨_, rfl, h.symm⟩

end Vec
end Verif.Solver
