import Verif.Solver.Rounding
import Mathlib.Analysis.InnerProductSpace.PiL2
import Mathlib.Data.Int.Log
import Mathlib.Algebra.Order.Round
import Mathlib.Analysis.SpecialFunctions.Pow.Real

/-!
# Floating-point arithmetic

Numbers of a floating-point format, arrays of them, and the operations of NumPy on them: every operation computes the exact result and rounds it.
`ieee` is the rounding of IEEE 754 to the nearest number, ties to even; `ieee 52 (-1074) 1024` is that of NumPy's `float64`.
Infinities and NaN are one value, and comparisons with it are false.
-/

namespace Verif.Solver
open Scalar Vect

/-- A rounding function; `none` is an overflow. -/
structure FloatFormat where
  fl : ℝ → Option ℝ
  u : ℝ
  tiny : ℝ
  u_nonneg : 0 ≤ u
  tiny_nonneg : 0 ≤ tiny
  err : ∀ z y, fl z = some y → |y - z| ≤ u * min |z| |y| + tiny

/-- a number; `none` is not finite -/
structure FP (F : FloatFormat) where
  val : Option ℝ

/-- an operation on two numbers with a rounded result -/
noncomputable def FP.op2 {F : FloatFormat} (f : ℝ → ℝ → Option ℝ) (a b : FP F) : FP F :=
  ⟨a.val.bind fun x => b.val.bind fun y => (f x y).bind F.fl⟩

noncomputable instance (F : FloatFormat) : Scalar (FP F) where
  add a b := FP.op2 (fun x y => some (x + y)) a b
  sub a b := FP.op2 (fun x y => some (x - y)) a b
  mul a b := FP.op2 (fun x y => some (x * y)) a b
  div a b := open Classical in FP.op2 (fun x y => if y = 0 then none else some (x / y)) a b
  neg a := ⟨a.val.map fun x => -x⟩
  sqrt a := open Classical in ⟨a.val.bind fun x => if x < 0 then none else F.fl (Real.sqrt x)⟩
  abs a := ⟨a.val.map fun x => |x|⟩
  lit q := ⟨F.fl q⟩
  le a b := open Classical in match a.val, b.val with
    | some x, some y => decide (x ≤ y)
    | _, _ => false
  lt a b := open Classical in match a.val, b.val with
    | some x, some y => decide (x < y)
    | _, _ => false

/-- an array of `n` numbers -/
structure FV (F : FloatFormat) (n : ℕ) where
  data : Fin n → FP F

/-- the sum of products, from left to right -/
noncomputable def FV.sum {F : FloatFormat} {n : ℕ} (v w : FV F n) (l : List (Fin n)) (s : FP F) : FP F :=
  l.foldl (fun s i => s + v.data i * w.data i) s

noncomputable instance (F : FloatFormat) (n : ℕ) : Vect (FP F) (FV F n) where
  add v w := ⟨fun i => v.data i + w.data i⟩
  sub v w := ⟨fun i => v.data i - w.data i⟩
  neg v := ⟨fun i => -v.data i⟩
  zeros := ⟨fun _ => ⟨some 0⟩⟩
  smul a v := ⟨fun i => a * v.data i⟩
  vdiv v a := ⟨fun i => v.data i / a⟩
  dot v w := FV.sum v w (List.finRange n) ⟨some 0⟩
  norm v := sqrt (FV.sum v v (List.finRange n) ⟨some 0⟩)

namespace FP
variable {F : FloatFormat}

/-- the real number; 0 if it is not finite -/
noncomputable def num (a : FP F) : ℝ := a.val.getD 0

def Finite (a : FP F) : Prop := a.val.isSome = true

theorem Finite.val_eq {a : FP F} (h : a.Finite) : a.val = some a.num := by
  obtain ⟨x, hx⟩ := Option.isSome_iff_exists.1 h
  rw [num, hx]; rfl

theorem op2_spec {f : ℝ → ℝ → Option ℝ} {a b : FP F} (h : (op2 f a b).Finite) :
    a.Finite ∧ b.Finite ∧ ∃ z, f a.num b.num = some z ∧ |(op2 f a b).num - z| ≤ F.u * min |z| |(op2 f a b).num| + F.tiny := by
  obtain ⟨y, hy⟩ := Option.isSome_iff_exists.1 h
  simp only [op2, Option.bind_eq_some_iff] at hy
  obtain ⟨x1, h1, x2, h2, z, hz, hy⟩ := hy
  have e1 : a.num = x1 := by rw [num, h1]; rfl
  have e2 : b.num = x2 := by rw [num, h2]; rfl
  refine ⟨by rw [Finite, h1]; rfl, by rw [Finite, h2]; rfl, z, by rw [e1, e2]; exact hz, ?_⟩
  have e3 : (op2 f a b).num = y := by
    simp only [op2, num, h1, h2, Option.bind_some, hz, hy, Option.getD_some]
  rw [e3]
  exact F.err z y hy

theorem add_spec {a b : FP F} (h : (a + b).Finite) : a.Finite ∧ b.Finite ∧
    |(a + b).num - (a.num + b.num)| ≤ F.u * min |a.num + b.num| |(a + b).num| + F.tiny := by
  obtain ⟨h1, h2, z, hz, h3⟩ := op2_spec (f := fun x y => some (x + y)) h
  cases hz
  exact ⟨h1, h2, h3⟩

theorem sub_spec {a b : FP F} (h : (a - b).Finite) : a.Finite ∧ b.Finite ∧
    |(a - b).num - (a.num - b.num)| ≤ F.u * min |a.num - b.num| |(a - b).num| + F.tiny := by
  obtain ⟨h1, h2, z, hz, h3⟩ := op2_spec (f := fun x y => some (x - y)) h
  cases hz
  exact ⟨h1, h2, h3⟩

theorem mul_spec {a b : FP F} (h : (a * b).Finite) : a.Finite ∧ b.Finite ∧
    |(a * b).num - a.num * b.num| ≤ F.u * min |a.num * b.num| |(a * b).num| + F.tiny := by
  obtain ⟨h1, h2, z, hz, h3⟩ := op2_spec (f := fun x y => some (x * y)) h
  cases hz
  exact ⟨h1, h2, h3⟩

theorem neg_spec {a : FP F} (h : (-a).Finite) : a.Finite ∧ (-a).num = -a.num := by
  have e : (-a).val = a.val.map fun x => -x := rfl
  rw [Finite, e, Option.isSome_map] at h
  refine ⟨h, ?_⟩
  rw [num, e, Finite.val_eq h]; rfl

theorem abs_spec {a : FP F} (h : (Scalar.abs a).Finite) : a.Finite ∧ (Scalar.abs a).num = |a.num| := by
  have e : (Scalar.abs a).val = a.val.map fun x => |x| := rfl
  rw [Finite, e, Option.isSome_map] at h
  refine ⟨h, ?_⟩
  rw [num, e, Finite.val_eq h]; rfl

theorem sqrt_spec {a : FP F} (h : (sqrt a).Finite) : a.Finite ∧ 0 ≤ a.num ∧
    |(sqrt a).num - Real.sqrt a.num| ≤ F.u * min |Real.sqrt a.num| |(sqrt a).num| + F.tiny := by
  classical
  obtain ⟨y, hy⟩ := Option.isSome_iff_exists.1 h
  have e : (sqrt a).val = a.val.bind fun x => if x < 0 then none else F.fl (Real.sqrt x) := rfl
  have hy' := hy
  rw [e, Option.bind_eq_some_iff] at hy'
  obtain ⟨x, h1, h2⟩ := hy'
  have e1 : a.num = x := by rw [num, h1]; rfl
  split at h2
  · cases h2
  · rename_i hx
    refine ⟨by rw [Finite, h1]; rfl, by rw [e1]; exact not_lt.1 hx, ?_⟩
    have e3 : (sqrt a).num = y := by rw [num, hy]; rfl
    rw [e3, e1]
    exact F.err _ _ h2

theorem le_spec {a b : FP F} (h : le a b = true) : a.num ≤ b.num := by
  classical
  have e : le a b = (match a.val, b.val with
    | some x, some y => decide (x ≤ y)
    | _, _ => false) := rfl
  rw [e] at h
  cases ha : a.val with
  | none => rw [ha] at h; cases h
  | some x =>
    cases hb : b.val with
    | none => rw [ha, hb] at h; cases h
    | some y =>
      rw [ha, hb] at h
      rw [num, num, ha, hb]
      exact of_decide_eq_true h

end FP

namespace FV
variable {F : FloatFormat} {n : ℕ}

/-- the vector an array stands for -/
noncomputable def vec (v : FV F n) : EuclideanSpace ℝ (Fin n) := WithLp.toLp 2 fun i => (v.data i).num

def Finite (v : FV F n) : Prop := ∀ i, (v.data i).Finite

@[simp] theorem vec_apply (v : FV F n) (i : Fin n) : v.vec i = (v.data i).num := rfl

/-- from the coordinates to norms -/
theorem norm_coord {d y : EuclideanSpace ℝ (Fin n)} {u t : ℝ} (hu : 0 ≤ u) (ht : 0 ≤ t) (h : ∀ i, |d i| ≤ u * |y i| + t) :
    ‖d‖ ≤ u * ‖y‖ + Real.sqrt n * t := by
  set a : EuclideanSpace ℝ (Fin n) := WithLp.toLp 2 fun i => |y i| with ha
  set o : EuclideanSpace ℝ (Fin n) := WithLp.toLp 2 fun _ => t with ho
  have h1 : ‖d‖ ≤ ‖u • a + o‖ := by
    rw [EuclideanSpace.norm_eq, EuclideanSpace.norm_eq]
    refine Real.sqrt_le_sqrt (Finset.sum_le_sum fun i _ => ?_)
    rw [Real.norm_eq_abs, Real.norm_eq_abs]
    refine pow_le_pow_left₀ (abs_nonneg _) ((h i).trans ?_) 2
    exact le_abs_self _
  have h2 : ‖a‖ = ‖y‖ := by
    rw [EuclideanSpace.norm_eq, EuclideanSpace.norm_eq]
    congr 1
    refine Finset.sum_congr rfl fun i _ => ?_
    simp [ha]
  have h3 : ‖o‖ = Real.sqrt n * t := by
    rw [EuclideanSpace.norm_eq]
    simp only [ho, Real.norm_eq_abs, Finset.sum_const, Finset.card_univ, Fintype.card_fin, nsmul_eq_mul]
    rw [Real.sqrt_mul (Nat.cast_nonneg n), sq_abs, Real.sqrt_sq ht]
  calc ‖d‖ ≤ ‖u • a + o‖ := h1
    _ ≤ ‖u • a‖ + ‖o‖ := norm_add_le _ _
    _ = _ := by rw [norm_smul, Real.norm_eq_abs, abs_of_nonneg hu, h2, h3]

/-- Sums of products: the error is at most `((1+u)^(k+1) - 1) * sum |v_i w_i| + 3 k (1+u)^k tiny`. -/
theorem sum_spec (v w : FV F n) : ∀ l : List (Fin n), (FV.sum v w l ⟨some 0⟩).Finite →
    (∀ i ∈ l, (v.data i).Finite ∧ (w.data i).Finite) ∧
    |(FV.sum v w l ⟨some 0⟩).num - (l.map fun i => (v.data i).num * (w.data i).num).sum| ≤
      ((1 + F.u) ^ (l.length + 1) - 1) * (l.map fun i => |(v.data i).num * (w.data i).num|).sum +
        3 * l.length * (1 + F.u) ^ l.length * F.tiny := by
  intro l
  induction l using List.reverseRecOn with
  | nil => intro _; simp [FV.sum, FP.num]
  | append_singleton l i ih =>
    intro h
    have e : FV.sum v w (l ++ [i]) ⟨some 0⟩ = FV.sum v w l ⟨some 0⟩ + v.data i * w.data i := by
      simp only [FV.sum, List.foldl_append, List.foldl_cons, List.foldl_nil]
    rw [e] at h ⊢
    obtain ⟨h1, h2, h3⟩ := FP.add_spec h
    obtain ⟨h4, h5, h6⟩ := FP.mul_spec h2
    obtain ⟨h7, h8⟩ := ih h1
    refine ⟨fun j hj => ?_, ?_⟩
    · rcases List.mem_append.1 hj with hj | hj
      · exact h7 j hj
      · rw [List.mem_singleton.1 hj]; exact ⟨h4, h5⟩
    · simp only [List.map_append, List.map_cons, List.map_nil, List.sum_append, List.sum_cons, List.sum_nil, add_zero, List.length_append,
        List.length_cons, List.length_nil, zero_add]
      set s := (FV.sum v w l ⟨some 0⟩).num
      set m := (v.data i * w.data i).num
      set s' := (FV.sum v w l ⟨some 0⟩ + v.data i * w.data i).num
      set T := (l.map fun i => (v.data i).num * (w.data i).num).sum
      set B := (l.map fun i => |(v.data i).num * (w.data i).num|).sum with hB
      set p := (v.data i).num * (w.data i).num
      set k := l.length
      have hu := F.u_nonneg
      have ht := F.tiny_nonneg
      have hTB : |T| ≤ B := by
        have : ∀ l : List (Fin n), |(l.map fun i => (v.data i).num * (w.data i).num).sum| ≤
            (l.map fun i => |(v.data i).num * (w.data i).num|).sum := by
          intro l
          induction l with
          | nil => simp
          | cons a l ih' => simp only [List.map_cons, List.sum_cons]; exact (abs_add_le _ _).trans (by gcongr)
        exact this l
      have hB0 : 0 ≤ B := (abs_nonneg _).trans hTB
      have hp0 := abs_nonneg p
      have e6 : |m - p| ≤ F.u * |p| + F.tiny := h6.trans (by gcongr; exact min_le_left _ _)
      have e3 : |s' - (s + m)| ≤ F.u * |s + m| + F.tiny := h3.trans (by gcongr; exact min_le_left _ _)
      have e7 : |s + m| ≤ B + |p| + |s - T| + |m - p| := by
        have : s + m = T + p + (s - T) + (m - p) := by ring
        rw [this]
        refine (abs_add_le _ _).trans (add_le_add ((abs_add_le _ _).trans (add_le_add ((abs_add_le _ _).trans ?_) le_rfl)) le_rfl)
        gcongr
      have e8 : |s' - (T + p)| ≤ |s' - (s + m)| + |s - T| + |m - p| := by
        have : s' - (T + p) = (s' - (s + m)) + (s - T) + (m - p) := by ring
        rw [this]
        exact (abs_add_le _ _).trans (add_le_add (abs_add_le _ _) le_rfl)
      have hE : 1 ≤ (1 + F.u) ^ k := one_le_pow₀ (by linarith)
      set G := (1 + F.u) ^ k with hG
      have hpow : (1 + F.u) ^ (k + 1) = G * (1 + F.u) := pow_succ _ _
      have hpow2 : (1 + F.u) ^ (k + 1 + 1) = G * (1 + F.u) * (1 + F.u) := by rw [pow_succ, pow_succ]
      rw [hpow2, hpow]
      rw [hpow] at h8
      have hk : (0:ℝ) ≤ k := Nat.cast_nonneg k
      push_cast
      have e9 := mul_le_mul_of_nonneg_left e7 hu
      have q1 : (1 + F.u) * |s - T| ≤ (1 + F.u) * ((G * (1 + F.u) - 1) * B + 3 * k * G * F.tiny) := mul_le_mul_of_nonneg_left h8 (by linarith)
      have q2 : (1 + F.u) * |m - p| ≤ (1 + F.u) * (F.u * |p| + F.tiny) := mul_le_mul_of_nonneg_left e6 (by linarith)
      have q3 : 0 ≤ (G - 1) * |p| := mul_nonneg (by linarith) hp0
      have q4 : 0 ≤ (G - 1) * F.tiny := mul_nonneg (by linarith) ht
      have q5 : 0 ≤ F.u * ((G - 1) * |p|) := mul_nonneg hu q3
      have q6 : 0 ≤ F.u * (F.u * ((G - 1) * |p|)) := mul_nonneg hu q5
      have q7 : 0 ≤ F.u * ((G - 1) * F.tiny) := mul_nonneg hu q4
      have q8 : 0 ≤ F.u * F.tiny := mul_nonneg hu ht
      nlinarith

/-- the error of the square root of a perturbed square -/
theorem sqrt_err {d nu al B : ℝ} (hd : 0 ≤ d) (hnu : 0 ≤ nu) (hal : 0 ≤ al) (hB : 0 ≤ B) (h : |d - nu ^ 2| ≤ al * nu ^ 2 + B) :
    |Real.sqrt d - nu| ≤ al * nu + Real.sqrt B := by
  have h0 := Real.sqrt_nonneg d
  have hb := Real.sqrt_nonneg B
  have h1 : |Real.sqrt d - nu| * (Real.sqrt d + nu) ≤ al * nu ^ 2 + B := by
    have : |Real.sqrt d - nu| * (Real.sqrt d + nu) = |d - nu ^ 2| := by
      rw [← abs_of_nonneg (add_nonneg h0 hnu), ← abs_mul]
      congr 1
      nlinarith [Real.sq_sqrt hd]
    rw [this]; exact h
  have h2 : |Real.sqrt d - nu| ≤ Real.sqrt d + nu := by
    rw [abs_le]; constructor <;> linarith
  have h3 := Real.sq_sqrt hB
  by_contra hc
  push Not at hc
  have h4 : 0 ≤ al * nu := mul_nonneg hal hnu
  nlinarith

/-- `sqrt(dot(v, v))` -/
theorem root_spec (v : FV F n) (hn : (1 + F.u) ^ (n + 2) ≤ 3 / 2) (h : (sqrt (FV.sum v v (List.finRange n) ⟨some 0⟩)).Finite) :
    v.Finite ∧ |(sqrt (FV.sum v v (List.finRange n) ⟨some 0⟩)).num - ‖v.vec‖| ≤
      2 * ((1 + F.u) ^ (n + 2) - 1) * (sqrt (FV.sum v v (List.finRange n) ⟨some 0⟩)).num +
        2 * ((1 + F.u) * Real.sqrt (3 * n * (1 + F.u) ^ n * F.tiny) + F.tiny) := by
  have hu := F.u_nonneg
  have ht := F.tiny_nonneg
  obtain ⟨h1, h2, h3⟩ := FP.sqrt_spec h
  obtain ⟨h4, h5⟩ := sum_spec v v (List.finRange n) h1
  refine ⟨fun i => (h4 i (List.mem_finRange i)).1, ?_⟩
  have hnorm : ((List.finRange n).map fun i => (v.data i).num * (v.data i).num).sum = ‖v.vec‖ ^ 2 := by
    rw [EuclideanSpace.norm_sq_eq, ← Fin.sum_univ_def]
    refine Finset.sum_congr rfl fun i _ => ?_
    rw [Real.norm_eq_abs, sq_abs, vec_apply]; ring
  have habs : ((List.finRange n).map fun i => |(v.data i).num * (v.data i).num|).sum = ‖v.vec‖ ^ 2 := by
    rw [← hnorm]
    simp only [abs_mul_self]
  rw [hnorm, habs, List.length_finRange] at h5
  set d := (FV.sum v v (List.finRange n) ⟨some 0⟩).num
  set q := (sqrt (FV.sum v v (List.finRange n) ⟨some 0⟩)).num
  set nu := ‖v.vec‖
  have hnu : 0 ≤ nu := norm_nonneg _
  have hE : 1 ≤ (1 + F.u) ^ (n + 1) := one_le_pow₀ (by linarith)
  have hB : 0 ≤ 3 * n * (1 + F.u) ^ n * F.tiny := by positivity
  have h6 := sqrt_err h2 hnu (by linarith) hB h5
  have h7 : |q - Real.sqrt d| ≤ F.u * Real.sqrt d + F.tiny := by
    refine h3.trans ?_
    gcongr
    exact (min_le_left _ _).trans (abs_of_nonneg (Real.sqrt_nonneg d)).le
  have hpow : (1 + F.u) ^ (n + 2) = (1 + F.u) ^ (n + 1) * (1 + F.u) := pow_succ _ _
  rw [hpow] at hn ⊢
  set G := (1 + F.u) ^ (n + 1)
  set b := Real.sqrt (3 * n * (1 + F.u) ^ n * F.tiny)
  have hb : 0 ≤ b := Real.sqrt_nonneg _
  have h8 : |q - nu| ≤ (G * (1 + F.u) - 1) * nu + ((1 + F.u) * b + F.tiny) := by
    have e1 : |q - nu| ≤ |q - Real.sqrt d| + |Real.sqrt d - nu| := abs_sub_le _ _ _
    have e2 : Real.sqrt d ≤ nu + ((G - 1) * nu + b) := by
      have := (abs_le.1 h6).2
      linarith
    have e3 := mul_le_mul_of_nonneg_left e2 hu
    nlinarith
  have h9 : nu ≤ 2 * q + 2 * ((1 + F.u) * b + F.tiny) := by
    have e1 := (abs_le.1 h8).1
    have e2 : (G * (1 + F.u) - 1) * nu ≤ 1 / 2 * nu := mul_le_mul_of_nonneg_right (by linarith) hnu
    linarith
  have h10 : 0 ≤ G * (1 + F.u) - 1 := by nlinarith
  have h11 := mul_le_mul_of_nonneg_left h9 h10
  have h12 : (G * (1 + F.u) - 1) * (2 * ((1 + F.u) * b + F.tiny)) ≤ 1 / 2 * (2 * ((1 + F.u) * b + F.tiny)) :=
    mul_le_mul_of_nonneg_right (by linarith) (by positivity)
  linarith

end FV

theorem u_le_of_pow {F : FloatFormat} {n : ℕ} (hn : (1 + F.u) ^ (n + 2) ≤ 3 / 2) : F.u ≤ 1 / 4 := by
  have h1 := one_add_mul_le_pow (a := F.u) (by linarith [F.u_nonneg]) (n + 2)
  push_cast at h1
  have h2 : 0 ≤ (n : ℝ) * F.u := mul_nonneg (Nat.cast_nonneg n) F.u_nonneg
  linarith

/-- The arithmetic of arrays of length `n` in a floating-point format meets `Rounding`, if `(1 + u)^(n+2) <= 3/2`; for `float64` this is
`n < 10^15`. -/
noncomputable def FloatFormat.rounding (F : FloatFormat) (n : ℕ) (hn : (1 + F.u) ^ (n + 2) ≤ 3 / 2) :
    Rounding (FP F) (FV F n) (EuclideanSpace ℝ (Fin n)) where
  num := FP.num
  vec := FV.vec
  finS := FP.Finite
  finV := FV.Finite
  u := F.u
  tiny := Real.sqrt n * F.tiny
  uNorm := 2 * ((1 + F.u) ^ (n + 2) - 1)
  tinyNorm := 2 * ((1 + F.u) * Real.sqrt (3 * n * (1 + F.u) ^ n * F.tiny) + F.tiny)
  u_nonneg := F.u_nonneg
  u_le := u_le_of_pow hn
  tiny_nonneg := mul_nonneg (Real.sqrt_nonneg _) F.tiny_nonneg
  zeros_fin := fun _ => rfl
  zeros_eq := by ext i; rfl
  neg_fin := fun v h i => (FP.neg_spec (h i)).1
  neg_eq := fun v h => by ext i; exact (FP.neg_spec (h i)).2
  add_fin := fun v w h => ⟨fun i => (FP.add_spec (h i)).1, fun i => (FP.add_spec (h i)).2.1⟩
  add_err := fun v w h => FV.norm_coord F.u_nonneg F.tiny_nonneg fun i =>
    ((FP.add_spec (h i)).2.2).trans (by have := F.u_nonneg; gcongr; exact min_le_right _ _)
  sub_fin := fun v w h => ⟨fun i => (FP.sub_spec (h i)).1, fun i => (FP.sub_spec (h i)).2.1⟩
  sub_err := fun v w h => FV.norm_coord F.u_nonneg F.tiny_nonneg fun i =>
    ((FP.sub_spec (h i)).2.2).trans (by have := F.u_nonneg; gcongr; exact min_le_right _ _)
  smul_fin := fun a v h i => (FP.mul_spec (h i)).2.1
  smul_err := fun a v h => by
    have hu := F.u_nonneg
    rcases le_total ‖a.num • v.vec‖ ‖(smul a v).vec‖ with h' | h'
    · rw [min_eq_left h']
      exact FV.norm_coord F.u_nonneg F.tiny_nonneg fun i =>
        ((FP.mul_spec (h i)).2.2).trans (by gcongr; exact min_le_left _ _)
    · rw [min_eq_right h']
      exact FV.norm_coord F.u_nonneg F.tiny_nonneg fun i =>
        ((FP.mul_spec (h i)).2.2).trans (by gcongr; exact min_le_right _ _)
  root_fin := fun v h => (FV.root_spec v hn (FP.abs_spec h).1).1
  root_err := fun v h => by
    obtain ⟨h1, h2⟩ := FP.abs_spec h
    have h3 := (FV.root_spec v hn h1).2
    have hu := F.u_nonneg
    have h4 : 0 ≤ 2 * ((1 + F.u) ^ (n + 2) - 1) := by
      have : 1 ≤ (1 + F.u) ^ (n + 2) := one_le_pow₀ (by linarith)
      linarith
    rw [h2]
    have h5 : |(|(sqrt (dot v v)).num| - ‖v.vec‖)| ≤ |(sqrt (dot v v)).num - ‖v.vec‖| := by
      have := abs_abs_sub_abs_le_abs_sub (sqrt (dot v v)).num ‖v.vec‖
      rwa [abs_of_nonneg (norm_nonneg v.vec)] at this
    refine h5.trans (h3.trans ?_)
    gcongr
    exact le_abs_self _
  norm_fin := fun v h => (FV.root_spec v hn h).1
  norm_err := fun v h => (FV.root_spec v hn h).2
  le_num := fun a b _ _ h => FP.le_spec h

/-! ### IEEE 754 -/

/-- the nearest integer, ties to even -/
noncomputable def roundEven (w : ℝ) : ℤ := open Classical in
  if Int.fract w = 1 / 2 then (if Even ⌊w⌋ then ⌊w⌋ else ⌊w⌋ + 1) else round w

theorem roundEven_err (w : ℝ) : |(roundEven w : ℝ) - w| ≤ 1 / 2 := by
  unfold roundEven
  have h1 := Int.self_sub_floor w
  split
  · rename_i h
    split
    · rw [abs_le]; constructor <;> linarith
    · push_cast; rw [abs_le]; constructor <;> linarith
  · rw [abs_sub_comm]; exact abs_sub_round w

/-- rounding does not cross an integer -/
theorem le_abs_roundEven {w : ℝ} {m : ℤ} (h : (m : ℝ) ≤ |w|) : (m : ℝ) ≤ |(roundEven w : ℝ)| := by
  have h1 := abs_le.1 (roundEven_err w)
  by_contra hc
  push Not at hc
  rw [← Int.cast_abs] at hc
  have h2 : |roundEven w| + 1 ≤ m := by exact_mod_cast hc
  have h3 : (|roundEven w| : ℝ) + 1 ≤ m := by exact_mod_cast h2
  have h4 : |w| ≤ |(roundEven w : ℝ)| + 1 / 2 := by
    have := abs_sub_abs_le_abs_sub w (roundEven w : ℝ)
    rw [abs_sub_comm] at this
    linarith [roundEven_err w]
  linarith

/-- the spacing of the numbers around `z`, in a format with `p + 1` bits -/
noncomputable def spacing (p : ℕ) (emin : ℤ) (z : ℝ) : ℝ := 2 ^ max (Int.log 2 |z| - p) emin

/-- Rounding to the nearest number with `p + 1` bits, ties to even, with spacing at least `2^emin` (gradual underflow); `none` (overflow)
if the result is not less than `2^emax`. -/
noncomputable def ieeeRound (p : ℕ) (emin emax : ℤ) (z : ℝ) : Option ℝ := open Classical in
  let y := roundEven (z / spacing p emin z) * spacing p emin z
  if |y| < 2 ^ emax then some y else none

/-- IEEE 754 arithmetic -/
noncomputable def ieee (p : ℕ) (emin emax : ℤ) : FloatFormat where
  fl := ieeeRound p emin emax
  u := 2⁻¹ ^ (p + 1)
  tiny := 2 ^ (emin - 1)
  u_nonneg := by positivity
  tiny_nonneg := by positivity
  err := by
    intro z y h
    simp only [ieeeRound] at h
    split at h
    · rename_i hlt
      cases h
      set a := spacing p emin z with ha
      have ha0 : 0 < a := by rw [ha, spacing]; positivity
      have h1 : |(roundEven (z / a) : ℝ) * a - z| ≤ a / 2 := by
        have : (roundEven (z / a) : ℝ) * a - z = ((roundEven (z / a) : ℝ) - z / a) * a := by field_simp
        rw [this, abs_mul, abs_of_pos ha0]
        nlinarith [roundEven_err (z / a)]
      rcases eq_or_ne z 0 with rfl | hz
      · have e2 : roundEven (0 / a) = 0 := by simp [roundEven]
        rw [e2]
        have ht : (0:ℝ) ≤ 2 ^ (emin - 1) := by positivity
        simpa using ht
      refine h1.trans ?_
      have hmin : 0 ≤ min |z| |(roundEven (z / a) : ℝ) * a| := le_min (abs_nonneg _) (abs_nonneg _)
      rcases le_total (Int.log 2 |z| - p) emin with hl | hl
      · have : a / 2 = 2 ^ (emin - 1) := by
          rw [ha, spacing, max_eq_right hl, zpow_sub_one₀ (by norm_num)]; ring
        rw [this]
        have : 0 ≤ (2:ℝ)⁻¹ ^ (p + 1) * min |z| |(roundEven (z / a) : ℝ) * a| := by positivity
        linarith
      · have e1 : a = 2 ^ (Int.log 2 |z|) * 2⁻¹ ^ p := by
          rw [ha, spacing, max_eq_left hl, zpow_sub₀ (by norm_num), zpow_natCast, inv_pow]; rfl
        have ht : (0:ℝ) ≤ 2 ^ (emin - 1) := by positivity
        have hz' : 0 < |z| := abs_pos.2 hz
        have e2 : (2:ℝ) ^ (Int.log 2 |z|) ≤ |z| := by
          have := Int.zpow_log_le_self (b := 2) (by norm_num) hz'
          exact_mod_cast this
        have e3 : (2:ℝ) ^ (Int.log 2 |z|) ≤ |(roundEven (z / a) : ℝ) * a| := by
          have : ((2 ^ p : ℤ) : ℝ) ≤ |z / a| := by
            rw [abs_div, abs_of_pos ha0, le_div_iff₀ ha0, e1]
            push_cast
            rw [inv_pow]
            field_simp
            exact e2
          have := le_abs_roundEven this
          rw [abs_mul, abs_of_pos ha0]
          calc (2:ℝ) ^ (Int.log 2 |z|) = ((2 ^ p : ℤ) : ℝ) * a := by
                rw [e1]; push_cast; rw [inv_pow]; field_simp
            _ ≤ _ := by gcongr
        have e4 : a / 2 = 2⁻¹ ^ (p + 1) * 2 ^ (Int.log 2 |z|) := by rw [e1, pow_succ]; ring
        rw [e4]
        have : (2:ℝ)⁻¹ ^ (p + 1) * 2 ^ (Int.log 2 |z|) ≤ 2⁻¹ ^ (p + 1) * min |z| |(roundEven (z / a) : ℝ) * a| := by
          gcongr
          exact le_min e2 e3
        linarith
    · cases h

/-- NumPy's `float64` -/
noncomputable def float64 : FloatFormat := ieee 52 (-1074) 1024

end Verif.Solver
