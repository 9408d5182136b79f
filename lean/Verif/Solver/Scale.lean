import Verif.Solver.Exact
import Verif.Solver.CG
import Verif.Solver.Minres
import Mathlib.Analysis.InnerProductSpace.LinearMap

/-!
# Units and coordinates

`Fl.sc c` multiplies a number by `c`; `Vec.sc Q c` takes a vector to other coordinates by the isometry `Q` and multiplies it by `c`.
The lemmas say how the operations of exact arithmetic behave.
-/

namespace Verif.Solver
open Scalar Vect

variable {E E' : Type} [NormedAddCommGroup E] [InnerProductSpace ℝ E] [NormedAddCommGroup E'] [InnerProductSpace ℝ E']

/-- `c` times a number -/
def Fl.sc (c : ℝ) : Fl → Fl
  | .fin a => .fin (c * a)
  | .nan => .nan

/-- `c` times a vector, in the coordinates given by `Q` -/
def Vec.sc (Q : E →ₗᵢ[ℝ] E') (c : ℝ) : Vec E → Vec E'
  | .fin v => .fin (c • Q v)
  | .nan => .nan

@[simp] theorem Fl.sc_fin (c a : ℝ) : Fl.sc c (.fin a) = .fin (c * a) := rfl
@[simp] theorem Fl.sc_nan (c : ℝ) : Fl.sc c .nan = .nan := rfl
@[simp] theorem Vec.sc_fin (Q : E →ₗᵢ[ℝ] E') (c : ℝ) (v : E) : Vec.sc Q c (.fin v) = .fin (c • Q v) := rfl
@[simp] theorem Vec.sc_nan (Q : E →ₗᵢ[ℝ] E') (c : ℝ) : Vec.sc Q c .nan = .nan := rfl

namespace Fl
variable {c d e : ℝ} {a b : Fl}

theorem sc_one (a : Fl) : sc 1 a = a := by cases a <;> simp
theorem sc_sc (c d : ℝ) (a : Fl) : sc c (sc d a) = sc (c * d) a := by cases a <;> simp [mul_assoc]
theorem sc_lit0 (c : ℝ) : sc c (lit 0) = lit 0 := by simp
theorem sc_add : sc c a + sc c b = sc c (a + b) := by cases a <;> cases b <;> simp [mul_add]
theorem sc_sub : sc c a - sc c b = sc c (a - b) := by cases a <;> cases b <;> simp [mul_sub]
theorem sc_neg : -sc c a = sc c (-a) := by cases a <;> simp
theorem sc_mul (h : c * d = e) : sc c a * sc d b = sc e (a * b) := by
  subst h; cases a <;> cases b <;> simp only [sc_nan, sc_fin, nan_mul, mul_nan, fin_mul]
  congr 1; ring
theorem sc_mul_left : sc c a * b = sc c (a * b) := by
  cases a <;> cases b <;> simp only [sc_nan, sc_fin, nan_mul, mul_nan, fin_mul]
  congr 1; ring
theorem sc_mul_right : a * sc c b = sc c (a * b) := by
  cases a <;> cases b <;> simp only [sc_nan, sc_fin, nan_mul, mul_nan, fin_mul]
  congr 1; ring
theorem div_zero' (a : ℝ) : (fin a / fin 0 : Fl) = nan := by change div _ _ = _; simp [div]
theorem sc_div (hd : d ≠ 0) (h : c = e * d) : sc c a / sc d b = sc e (a / b) := by
  subst h
  cases a with
  | nan => simp
  | fin a =>
    cases b with
    | nan => simp
    | fin b =>
      by_cases hb : b = 0
      · subst hb; rw [sc_fin, sc_fin, mul_zero, div_zero', div_zero']; rfl
      · rw [sc_fin, sc_fin, fin_div _ (mul_ne_zero hd hb), fin_div _ hb, sc_fin]
        congr 1; field_simp
/-- a quotient of two numbers in the same unit has no unit -/
theorem sc_ratio (hc : c ≠ 0) : sc c a / sc c b = a / b := by rw [sc_div hc (one_mul c).symm, sc_one]
theorem sc_sqrt (hd : 0 < d) (h : c = d * d) : Scalar.sqrt (sc c a) = sc d (Scalar.sqrt a) := by
  subst h
  cases a with
  | nan => rfl
  | fin a =>
    by_cases ha : a < 0
    · have h1 : Scalar.sqrt (fin a) = nan := by change sqrt _ = _; simp [sqrt, ha]
      have h2 : Scalar.sqrt (fin (d * d * a)) = nan := by
        change sqrt _ = _; simp [sqrt, mul_neg_of_pos_of_neg (mul_pos hd hd) ha]
      rw [sc_fin, h1, h2]; rfl
    · rw [sc_fin, fin_sqrt (not_lt.1 ha), fin_sqrt (mul_nonneg (mul_pos hd hd).le (not_lt.1 ha)), sc_fin,
        Real.sqrt_mul (mul_pos hd hd).le, Real.sqrt_mul_self hd.le]
theorem sc_abs (hc : 0 < c) : Scalar.abs (sc c a) = sc c (Scalar.abs a) := by
  cases a <;> simp [abs_mul, abs_of_pos hc]
theorem sc_le (hc : 0 < c) : Scalar.le (sc c a) (sc c b) = Scalar.le a b := by
  cases a <;> cases b <;> simp only [sc_nan, sc_fin, le_nan, nan_le]
  rw [Bool.eq_iff_iff, fin_le, fin_le, mul_le_mul_iff_right₀ hc]
theorem sc_lt (hc : 0 < c) : Scalar.lt (sc c a) (sc c b) = Scalar.lt a b := by
  cases a <;> cases b <;> simp only [sc_nan, sc_fin, lt_nan, nan_lt]
  rw [Bool.eq_iff_iff, fin_lt, fin_lt, mul_lt_mul_iff_right₀ hc]
theorem sc_gt (hc : 0 < c) : gt (sc c a) (sc c b) = gt a b := sc_lt hc
theorem sc_pymax (hc : 0 < c) : pymax (sc c a) (sc c b) = sc c (pymax a b) := by
  unfold pymax; rw [sc_lt hc]; split <;> rfl
theorem sc_pymin (hc : 0 < c) : pymin (sc c a) (sc c b) = sc c (pymin a b) := by
  unfold pymin; rw [sc_lt hc]; split <;> rfl
theorem sc_feq (hc : 0 < c) : feq (sc c a) (sc c b) = feq a b := by
  unfold feq; rw [sc_le hc, sc_le hc]
theorem sc_le0 (hc : 0 < c) : Scalar.le (sc c a) (lit 0) = Scalar.le a (lit 0) := by
  rw [← sc_lit0 c, sc_le hc, sc_lit0]
theorem sc_lt0 (hc : 0 < c) : Scalar.lt (sc c a) (lit 0) = Scalar.lt a (lit 0) := by
  rw [← sc_lit0 c, sc_lt hc, sc_lit0]
theorem sc_notPositive (hc : 0 < c) : notPositive (sc c a) = notPositive a := by
  unfold notPositive
  have h1 : (im (sc c a) : Fl) = sc c (im a) := by simp
  have h2 : (re (sc c a) : Fl) = sc c (re a) := by simp
  rw [h1, h2, sc_abs hc, sc_mul_right, sc_gt hc, sc_le0 hc]

end Fl

namespace Vec
variable {Q : E →ₗᵢ[ℝ] E'} {c d e : ℝ} {u v : Vec E} {a : Fl}

theorem sc_zeros : sc Q c zeros = (zeros : Vec E') := by simp
theorem sc_add : sc Q c u + sc Q c v = sc Q c (u + v) := by cases u <;> cases v <;> simp
theorem sc_sub : sc Q c u - sc Q c v = sc Q c (u - v) := by cases u <;> cases v <;> simp [smul_sub]
theorem sc_neg : -sc Q c u = sc Q c (-u) := by cases u <;> simp
theorem sc_smul (h : d * c = e) : smul (Fl.sc d a) (sc Q c v) = sc Q e (smul a v) := by
  subst h
  cases a <;> cases v <;> simp only [Fl.sc_nan, Fl.sc_fin, sc_nan, sc_fin, nan_smul, smul_nan, fin_smul]
  congr 1; rw [map_smul, smul_smul, smul_smul]; congr 1; ring
theorem sc_smul' : smul a (sc Q c v) = sc Q c (smul a v) := by
  have := sc_smul (Q := Q) (a := a) (v := v) (one_mul c); rwa [Fl.sc_one] at this
theorem sc_vdiv (hd : d ≠ 0) (h : c = e * d) : vdiv (sc Q c v) (Fl.sc d a) = sc Q e (vdiv v a) := by
  subst h
  cases a with
  | nan => simp
  | fin a =>
    cases v with
    | nan => simp
    | fin v =>
      by_cases ha : a = 0
      · subst ha; rw [Fl.sc_fin, sc_fin, mul_zero, vdiv_zero, vdiv_zero]; rfl
      · rw [Fl.sc_fin, sc_fin, fin_vdiv _ (mul_ne_zero hd ha), fin_vdiv _ ha, sc_fin, map_smul, smul_smul, smul_smul]
        congr 2; field_simp
theorem sc_dot (h : c * d = e) : dot (sc Q c u) (sc Q d v) = Fl.sc e (dot u v) := by
  subst h
  cases u <;> cases v <;> simp only [Fl.sc_nan, Fl.sc_fin, sc_nan, sc_fin, nan_dot, dot_nan, fin_dot]
  rw [inner_smul_left, inner_smul_right, LinearIsometry.inner_map_map]
  congr 1; simp; ring
theorem sc_norm (hc : 0 ≤ c) : norm (sc Q c v) = Fl.sc c (norm v) := by
  cases v <;> simp [norm_smul, abs_of_nonneg hc]

/-- an operator in other units: `b` is the unit of its products -/
theorem sc_op {A : E →ₗ[ℝ] E} {A' : E' →ₗ[ℝ] E'} {b : ℝ} (hA : ∀ v, A' (Q v) = b • Q (A v)) (h : c * b = e) :
    Vec.op A' (sc Q c v) = sc Q e (Vec.op A v) := by
  subst h
  cases v with
  | nan => rfl
  | fin v => simp only [sc_fin, op_fin, map_smul, hA, smul_smul]

end Vec
end Verif.Solver
