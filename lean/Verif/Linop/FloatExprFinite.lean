import Verif.Linop.FloatExprProps
import Verif.Solver.FloatRange

/-! # C91: products with operators do not overflow for no reason -/

namespace Verif.Solver

/-- **Specification.**  Results of at most `M` do not overflow. -/
def FloatFormat.Reaches (F : FloatFormat) (M : ℝ) : Prop := ∀ z, |z| ≤ M → (F.fl z).isSome = true

namespace FP
variable {F : FloatFormat} {M : ℝ}

theorem add_finite (hM : F.Reaches M) {a b : FP F} (ha : a.Finite) (hb : b.Finite) (h : |a.num + b.num| ≤ M) : (a + b).Finite := by
  show (Option.bind _ _).isSome = true
  rw [FP.Finite.val_eq ha, FP.Finite.val_eq hb]
  exact hM _ h

theorem sub_finite (hM : F.Reaches M) {a b : FP F} (ha : a.Finite) (hb : b.Finite) (h : |a.num - b.num| ≤ M) : (a - b).Finite := by
  show (Option.bind _ _).isSome = true
  rw [FP.Finite.val_eq ha, FP.Finite.val_eq hb]
  exact hM _ h

theorem mul_finite (hM : F.Reaches M) {a b : FP F} (ha : a.Finite) (hb : b.Finite) (h : |a.num * b.num| ≤ M) : (a * b).Finite := by
  show (Option.bind _ _).isSome = true
  rw [FP.Finite.val_eq ha, FP.Finite.val_eq hb]
  exact hM _ h

end FP
end Verif.Solver

namespace Verif.Linop
open Verif.Solver Verif.Solver.Scalar Verif.Solver.Vect Matrix

variable {F : FloatFormat} {M : ℝ}

namespace FExpr

/-- **Specification.**  How large entry `i` of a product can be, with a vector whose entries are at most `y` in absolute value. -/
noncomputable def major {m n : ℕ} (e : FExpr F m n) (y : Fin n → ℝ) (i : Fin m) : ℝ :=
  (1 + F.u) ^ e.roundings * (e.size *ᵥ y) i + e.under i

/-- **Specification.**  The entries of the operator are finite, and neither the product nor the products with the parts of the operator that lead
to it can exceed `M`. -/
def Fits (M : ℝ) : {m n : ℕ} → FExpr F m n → (Fin n → ℝ) → Prop
  | _, _, .arr A, y => (∀ i j, (A i j).Finite) ∧ ∀ i, (arr A).major y i ≤ M
  | _, _, .diag d, y => d.Finite ∧ ∀ i, (diag d).major y i ≤ M
  | _, _, .ident _, _ => True
  | _, _, .scal a e, y => a.val = some 0 ∨ (a.Finite ∧ e.Fits M y ∧ ∀ i, (scal a e).major y i ≤ M)
  | _, _, .mul e f, y => f.Fits M y ∧ e.Fits M (f.major y)
  | _, _, .add e f, y => e.Fits M y ∧ f.Fits M y ∧ ∀ i, (add e f).major y i ≤ M
  | _, _, .sub e f, y => e.Fits M y ∧ f.Fits M y ∧ ∀ i, (sub e f).major y i ≤ M
  | _, _, .zero _ _, _ => True
  | _, _, .hcat e f, y => e.Fits M (fun j => y (Fin.castAdd _ j)) ∧ f.Fits M (fun j => y (Fin.natAdd _ j)) ∧ ∀ i, (hcat e f).major y i ≤ M
  | _, _, .vcat e f, y => e.Fits M y ∧ f.Fits M y
  | _, _, .bdiag e f, y => e.Fits M (fun j => y (Fin.castAdd _ j)) ∧ f.Fits M (fun j => y (Fin.natAdd _ j))

theorem abs_num_le {m n : ℕ} (e : FExpr F m n) (x : FV F n) {y : Fin n → ℝ} (hy : ∀ j, |x.nums j| ≤ y j) (i : Fin m)
    (h : ((e.mulVec x).data i).Finite) : |((e.mulVec x).data i).num| ≤ e.major y i := by
  have h1 := err e x i h
  have h2 := abs_mulVec_le e x.nums i
  have h3 : (e.size *ᵥ fun j => |x.nums j|) i ≤ (e.size *ᵥ y) i := by
    show ∑ j, e.size i j * |x.nums j| ≤ ∑ j, e.size i j * y j
    exact Finset.sum_le_sum fun j _ => mul_le_mul_of_nonneg_left (hy j) (size_nonneg e i j)
  have h4 : (1:ℝ) ≤ (1 + F.u) ^ e.roundings := one_le_pow₀ (by linarith [F.u_nonneg])
  have h5 := abs_sub_abs_le_abs_sub ((e.mulVec x).data i).num ((e.matrix *ᵥ x.nums) i)
  unfold bound at h1
  unfold major
  nlinarith

theorem list_abs_sum {α : Type} (l : List α) (f : α → ℝ) : |(l.map f).sum| ≤ (l.map fun i => |f i|).sum := by
  induction l with
  | nil => simp
  | cons a l ih =>
    simp only [List.map_cons, List.sum_cons]
    exact (abs_add_le _ _).trans (by linarith)

theorem major_add {u t Xa Xb ua ub : ℝ} (hu : 0 ≤ u) (ht : 0 ≤ t) (hXa : 0 ≤ Xa) (hXb : 0 ≤ Xb) (hua : 0 ≤ ua) (hub : 0 ≤ ub) (k l : ℕ) :
    ((1 + u) ^ k * Xa + ua) + ((1 + u) ^ l * Xb + ub) ≤ (1 + u) ^ (max k l + 1) * (Xa + Xb) + ((1 + u) * (ua + ub) + t) := by
  have h1 : (1 + u) ^ k ≤ (1 + u) ^ (max k l + 1) := pow_le_pow_right₀ (by linarith) (by omega)
  have h2 : (1 + u) ^ l ≤ (1 + u) ^ (max k l + 1) := pow_le_pow_right₀ (by linarith) (by omega)
  have h3 := mul_le_mul_of_nonneg_right h1 hXa
  have h4 := mul_le_mul_of_nonneg_right h2 hXb
  have h5 : 0 ≤ u * (ua + ub) := by positivity
  linarith

theorem size_mulVec_nonneg {m n : ℕ} (e : FExpr F m n) {y : Fin n → ℝ} (hy : ∀ j, 0 ≤ y j) (i : Fin m) : 0 ≤ (e.size *ᵥ y) i := by
  show 0 ≤ ∑ j, e.size i j * y j
  exact Finset.sum_nonneg fun j _ => mul_nonneg (size_nonneg e i j) (hy j)

/-- the dot product of finite numbers -/
theorem sum_finite {n : ℕ} (hM : F.Reaches M) (v w : FV F n) (hv : v.Finite) (hw : w.Finite) (l : List (Fin n))
    (h : (1 + F.u) ^ (l.length + 1) * (l.map fun i => |(v.data i).num * (w.data i).num|).sum + 3 * l.length * (1 + F.u) ^ l.length * F.tiny ≤ M) :
    (FV.sum v w l ⟨some 0⟩).Finite := by
  induction l using List.reverseRecOn with
  | nil => rfl
  | append_singleton l j ih =>
    have hu := F.u_nonneg
    have ht := F.tiny_nonneg
    rw [List.map_append, List.sum_append, List.length_append] at h
    simp only [List.map_cons, List.map_nil, List.sum_cons, List.sum_nil, add_zero, List.length_cons, List.length_nil, zero_add] at h
    set k := l.length with hk
    set X := (l.map fun i => |(v.data i).num * (w.data i).num|).sum with hX
    have hX0 : 0 ≤ X := List.sum_nonneg (by simp only [List.mem_map]; rintro _ ⟨i, -, rfl⟩; exact abs_nonneg _)
    set z := |(v.data j).num * (w.data j).num| with hz
    have hz0 : 0 ≤ z := abs_nonneg _
    have hp : (1:ℝ) ≤ (1 + F.u) ^ k := one_le_pow₀ (by linarith)
    have hp1 : (1 + F.u) ^ (k + 1) = (1 + F.u) ^ k * (1 + F.u) := pow_succ _ _
    have hp2 : (1 + F.u) ^ (k + 1 + 1) = (1 + F.u) ^ k * (1 + F.u) * (1 + F.u) := by rw [pow_succ, pow_succ]
    set P := (1 + F.u) ^ k
    have hPu : P ≤ P * (1 + F.u) := le_mul_of_one_le_right (by linarith) (by linarith)
    have hPu2 : P * (1 + F.u) ≤ P * (1 + F.u) * (1 + F.u) := le_mul_of_one_le_right (by linarith) (by linarith)
    rw [hp2, hp1] at h
    rw [hp1] at ih
    push_cast at h
    have hk0 : (0:ℝ) ≤ k := Nat.cast_nonneg k
    have a1 : P * (1 + F.u) * X ≤ P * (1 + F.u) * (1 + F.u) * X := mul_le_mul_of_nonneg_right hPu2 hX0
    have a2 : (1 + F.u) * z ≤ P * (1 + F.u) * (1 + F.u) * z := mul_le_mul_of_nonneg_right (by nlinarith) hz0
    have a3 : 3 * k * P * F.tiny + F.tiny ≤ 3 * (k + 1) * (P * (1 + F.u)) * F.tiny := by
      have : 3 * k * P + 1 ≤ 3 * (k + 1) * (P * (1 + F.u)) := by nlinarith
      have := mul_le_mul_of_nonneg_right this ht
      linarith
    have hih := ih (by nlinarith)
    have hprod : (v.data j * w.data j).Finite := by
      refine FP.mul_finite hM (hv j) (hw j) ?_
      have : 0 ≤ 3 * (k:ℝ) * P * F.tiny := by positivity
      have : 0 ≤ P * (1 + F.u) * X := by positivity
      have : 0 ≤ F.u * z := by positivity
      show z ≤ M
      nlinarith
    have e : FV.sum v w (l ++ [j]) ⟨some 0⟩ = FV.sum v w l ⟨some 0⟩ + v.data j * w.data j := by
      rw [FV.sum, List.foldl_append]
      rfl
    rw [e]
    refine FP.add_finite hM hih hprod ?_
    have s1 := (FV.sum_spec v w l hih).2
    have s2 := (FP.mul_spec hprod).2.2
    have s3 := s2.trans (add_le_add (mul_le_mul_of_nonneg_left (min_le_left _ _) hu) le_rfl)
    have s4 : |(l.map fun i => (v.data i).num * (w.data i).num).sum| ≤ X := by
      exact list_abs_sum l _
    have s5 := abs_sub_abs_le_abs_sub (FV.sum v w l ⟨some 0⟩).num (l.map fun i => (v.data i).num * (w.data i).num).sum
    have s6 := abs_sub_abs_le_abs_sub (v.data j * w.data j).num ((v.data j).num * (w.data j).num)
    have s7 := abs_add_le (FV.sum v w l ⟨some 0⟩).num (v.data j * w.data j).num
    rw [← hk, hp1] at s1
    linarith

theorem finite {M : ℝ} (hM : F.Reaches M) : ∀ {m n : ℕ} (e : FExpr F m n) (x : FV F n) (y : Fin n → ℝ), x.Finite → (∀ j, |x.nums j| ≤ y j) →
    e.Fits M y → (e.mulVec x).Finite
  | _, n, .arr A, x, y, hx, hy, h, i => by
    refine sum_finite hM (⟨A i⟩ : FV F n) x (h.1 i) hx _ (le_trans ?_ (h.2 i))
    rw [← Fin.sum_univ_def, List.length_finRange]
    refine add_le_add (mul_le_mul_of_nonneg_left ?_ (pow_nonneg (by linarith [F.u_nonneg]) _)) le_rfl
    show _ ≤ ∑ j, |(A i j).num| * y j
    refine Finset.sum_le_sum fun j _ => ?_
    rw [abs_mul]
    exact mul_le_mul_of_nonneg_left (hy j) (abs_nonneg _)
  | _, n, .diag d, x, y, hx, hy, h, i => by
    refine FP.mul_finite hM (h.1 i) (hx i) (le_trans ?_ (h.2 i))
    have hu := F.u_nonneg
    have ht := F.tiny_nonneg
    rw [major, size, roundings, under, pow_one, Matrix.mulVec_diagonal, abs_mul]
    have := mul_le_mul_of_nonneg_left (hy i) (abs_nonneg (d.data i).num)
    have h1 : 0 ≤ |(d.data i).num| * |x.nums i| := by positivity
    have h2 : |x.nums i| = |(x.data i).num| := rfl
    rw [h2] at this h1
    nlinarith
  | _, _, .ident _, x, y, hx, _, _, i => hx i
  | _, _, .scal a e, x, y, hx, hy, h, i => by
    by_cases ha : a.val = some 0
    · rw [mulVec, if_pos ha]; rfl
    rcases h with h | ⟨h1, h2, h3⟩
    · exact absurd h ha
    have hf := finite hM e x y hx hy h2 i
    rw [mulVec, if_neg ha]
    refine FP.mul_finite hM h1 hf (le_trans ?_ (h3 i))
    have h4 := mul_le_mul_of_nonneg_left (abs_num_le e x hy i hf) (abs_nonneg a.num)
    rw [abs_mul]
    refine h4.trans ?_
    have hu := F.u_nonneg
    have ht := F.tiny_nonneg
    rw [major, major, size, roundings, under, Matrix.smul_mulVec, Pi.smul_apply, smul_eq_mul, pow_succ]
    have h5 : 0 ≤ |a.num| * ((1 + F.u) ^ e.roundings * (e.size *ᵥ y) i + e.under i) := (by positivity : 0 ≤ |a.num| * |((e.mulVec x).data i).num|).trans h4
    nlinarith
  | _, _, .mul e f, x, y, hx, hy, h, i => by
    have hf := finite hM f x y hx hy h.1
    exact finite hM e (f.mulVec x) (f.major y) hf (fun j => abs_num_le f x hy j (hf j)) h.2 i
  | _, _, .add e f, x, y, hx, hy, h, i => by
    have he := finite hM e x y hx hy h.1 i
    have hf := finite hM f x y hx hy h.2.1 i
    refine FP.add_finite hM he hf (le_trans ?_ (h.2.2 i))
    have h1 := abs_num_le e x hy i he
    have h2 := abs_num_le f x hy i hf
    refine (abs_add_le _ _).trans ?_
    have hu := F.u_nonneg
    have ht := F.tiny_nonneg
    have hy0 : ∀ j, 0 ≤ y j := fun j => (abs_nonneg _).trans (hy j)
    refine (add_le_add h1 h2).trans ?_
    refine (major_add hu ht (size_mulVec_nonneg e hy0 i) (size_mulVec_nonneg f hy0 i) (under_nonneg e i) (under_nonneg f i) _ _).trans (le_of_eq ?_)
    rw [major, size, Matrix.add_mulVec]
    rfl
  | _, _, .sub e f, x, y, hx, hy, h, i => by
    have he := finite hM e x y hx hy h.1 i
    have hf := finite hM f x y hx hy h.2.1 i
    refine FP.sub_finite hM he hf (le_trans ?_ (h.2.2 i))
    have h1 := abs_num_le e x hy i he
    have h2 := abs_num_le f x hy i hf
    refine (abs_sub _ _).trans ?_
    have hu := F.u_nonneg
    have ht := F.tiny_nonneg
    have hy0 : ∀ j, 0 ≤ y j := fun j => (abs_nonneg _).trans (hy j)
    refine (add_le_add h1 h2).trans ?_
    refine (major_add hu ht (size_mulVec_nonneg e hy0 i) (size_mulVec_nonneg f hy0 i) (under_nonneg e i) (under_nonneg f i) _ _).trans (le_of_eq ?_)
    rw [major, size, Matrix.add_mulVec]
    rfl
  | _, _, .zero _ _, x, y, _, _, _, i => rfl
  | _, _, .hcat e f, x, y, hx, hy, h, i => by
    have he := finite hM e x.fst _ (fun j => hx _) (fun j => hy _) h.1 i
    have hf := finite hM f x.snd _ (fun j => hx _) (fun j => hy _) h.2.1 i
    refine FP.add_finite hM he hf (le_trans ?_ (h.2.2 i))
    have h1 := abs_num_le e x.fst (fun j => hy (Fin.castAdd _ j)) i he
    have h2 := abs_num_le f x.snd (fun j => hy (Fin.natAdd _ j)) i hf
    refine (abs_add_le _ _).trans ?_
    have hu := F.u_nonneg
    have ht := F.tiny_nonneg
    have hy0 : ∀ j, 0 ≤ y j := fun j => (abs_nonneg _).trans (hy j)
    refine (add_le_add h1 h2).trans ?_
    refine (major_add hu ht (size_mulVec_nonneg e (fun _ => hy0 _) i) (size_mulVec_nonneg f (fun _ => hy0 _) i) (under_nonneg e i)
      (under_nonneg f i) _ _).trans (le_of_eq ?_)
    rw [major, size, hcat_mulVec]
    rfl
  | _, _, .vcat e f, x, y, hx, hy, h, i => by
    have he := finite hM e x y hx hy h.1
    have hf := finite hM f x y hx hy h.2
    change FP.Finite (Fin.append (e.mulVec _).data (f.mulVec _).data i)
    refine Fin.addCases (fun i => ?_) (fun i => ?_) i
    · rw [Fin.append_left]; exact he i
    · rw [Fin.append_right]; exact hf i
  | _, _, .bdiag e f, x, y, hx, hy, h, i => by
    have he := finite hM e x.fst _ (fun j => hx _) (fun j => hy _) h.1
    have hf := finite hM f x.snd _ (fun j => hx _) (fun j => hy _) h.2
    change FP.Finite (Fin.append (e.mulVec _).data (f.mulVec _).data i)
    refine Fin.addCases (fun i => ?_) (fun i => ?_) i
    · rw [Fin.append_left]; exact he i
    · rw [Fin.append_right]; exact hf i

end FExpr

open FExpr

/-- **C91, no overflow without cause.**  If the entries of the operator and the vector are finite, and no product with a part of the operator can
exceed `M` in absolute value, where results of at most `M` do not overflow, all entries of `A * x` are finite.  For `float64`, `M = 2^1023`. -/
theorem C91_finite {m n : ℕ} (hM : F.Reaches M) (e : FExpr F m n) (x : FV F n) (hx : x.Finite) (h : e.Fits M fun j => |x.nums j|) :
    (e.mulVec x).Finite :=
  FExpr.finite hM e x _ hx (fun _ => le_rfl) h

theorem C91_float64 : float64.Reaches (2 ^ (1023 : ℤ)) := float64_range

open Float64Example in
/-- the hypotheses of `C91_finite` for `2 I + 0` -/
example :
    let e : FExpr float64 1 1 := .add (.diag (J 2)) (.zero 1 1)
    (J 5).Finite ∧ (e.Fits (2 ^ (1023 : ℤ)) fun j => |(J 5).nums j|) := by
  have hb : (100 : ℝ) ≤ 2 ^ (1023 : ℤ) := by
    have : (2:ℝ) ^ (7 : ℤ) ≤ 2 ^ (1023 : ℤ) := zpow_le_zpow_right₀ (by norm_num) (by norm_num)
    refine le_trans (by norm_num) this
  have hu : float64.u = 2⁻¹ ^ 53 := rfl
  have ht : float64.tiny ≤ 1 := by
    have : (2:ℝ) ^ (-1075 : ℤ) ≤ 2 ^ (0 : ℤ) := zpow_le_zpow_right₀ (by norm_num) (by norm_num)
    rwa [zpow_zero] at this
  have ht0 := float64.tiny_nonneg
  intro e
  refine ⟨fun _ => rfl, ⟨fun _ => rfl, fun i => le_trans ?_ hb⟩, trivial, fun i => le_trans ?_ hb⟩
  · simp only [major, size, roundings, under, Matrix.mulVec_diagonal, FV.nums, J, I, FP.num, Option.getD_some, hu]
    norm_num
    linarith
  · simp only [major, size, roundings, under, Matrix.add_mulVec, Pi.add_apply, Matrix.mulVec_diagonal, Matrix.zero_mulVec, Pi.zero_apply, FV.nums, J,
      I, FP.num, Option.getD_some, hu]
    norm_num
    linarith

end Verif.Linop
