import Verif.Tools.FloatChecks
import Verif.Linop.FloatExprProps

/-! # C92: the checks of `tools/utils.py` in floating-point arithmetic -/

namespace Verif.Tools
open Verif.Solver Verif.Solver.Scalar Verif.Solver.Vect
open scoped RealInnerProductSpace

variable {F : FloatFormat} {n : ℕ}

theorem real_inner_eq (a b : ℝ) : ⟪a, b⟫ = a * b := by simp [mul_comm]

theorem inner_vec (v w : FV F n) : ⟪v.vec, w.vec⟫ = ∑ i, (v.data i).num * (w.data i).num := by
  rw [PiLp.inner_apply]
  refine Finset.sum_congr rfl fun i _ => ?_
  simp [mul_comm]

theorem sum_abs_mul_le (v w : FV F n) : ∑ i, |(v.data i).num * (w.data i).num| ≤ ‖v.vec‖ * ‖w.vec‖ := by
  have h := Real.sum_mul_le_sqrt_mul_sqrt Finset.univ (fun j => |(v.data j).num|) fun j => |(w.data j).num|
  simp only [sq_abs] at h
  rw [EuclideanSpace.norm_eq, EuclideanSpace.norm_eq]
  simp only [Real.norm_eq_abs, sq_abs, FV.vec_apply]
  simpa only [abs_mul] using h

theorem dotErr_nonneg (F : FloatFormat) (n : ℕ) : 0 ≤ dotErr F n :=
  sub_nonneg.2 (one_le_pow₀ (by linarith [F.u_nonneg]))

theorem dotTiny_nonneg (F : FloatFormat) (n : ℕ) : 0 ≤ dotTiny F n := by
  have := F.u_nonneg
  have := F.tiny_nonneg
  unfold dotTiny
  positivity

/-- a finite dot product -/
theorem dot_spec (v w : FV F n) (h : (dot v w).Finite) : v.Finite ∧ w.Finite ∧
    |(dot v w).num - ⟪v.vec, w.vec⟫| ≤ dotErr F n * (‖v.vec‖ * ‖w.vec‖) + dotTiny F n := by
  obtain ⟨h1, h2⟩ := FV.sum_spec v w (List.finRange n) h
  refine ⟨fun i => (h1 i (List.mem_finRange i)).1, fun i => (h1 i (List.mem_finRange i)).2, ?_⟩
  rw [← Fin.sum_univ_def, ← Fin.sum_univ_def, List.length_finRange, ← inner_vec] at h2
  refine h2.trans ?_
  exact add_le_add (mul_le_mul_of_nonneg_left (sum_abs_mul_le v w) (dotErr_nonneg F n)) le_rfl

theorem lt_spec {a b : FP F} (h : lt a b = true) : a.Finite ∧ b.Finite ∧ a.num < b.num := by
  classical
  have e : lt a b = (match a.val, b.val with
    | some x, some y => decide (x < y)
    | _, _ => false) := rfl
  rw [e] at h
  cases ha : a.val with
  | none => rw [ha] at h; cases h
  | some x =>
    cases hb : b.val with
    | none => rw [ha, hb] at h; cases h
    | some y =>
      rw [ha, hb] at h
      rw [FP.Finite, FP.Finite, FP.num, FP.num, ha, hb]
      exact ⟨rfl, rfl, of_decide_eq_true h⟩

theorem le_spec {a b : FP F} (h : le a b = true) : a.Finite ∧ b.Finite ∧ a.num ≤ b.num := by
  classical
  have e : le a b = (match a.val, b.val with
    | some x, some y => decide (x ≤ y)
    | _, _ => false) := rfl
  rw [e] at h
  cases ha : a.val with
  | none => rw [ha] at h; cases h
  | some x =>
    cases hb : b.val with
    | none => rw [ha, hb] at h; cases h
    | some y =>
      rw [ha, hb] at h
      rw [FP.Finite, FP.Finite, FP.num, FP.num, ha, hb]
      exact ⟨rfl, rfl, of_decide_eq_true h⟩

theorem lt_of {a b : FP F} (ha : a.Finite) (hb : b.Finite) (h : a.num < b.num) : lt a b = true := by
  classical
  have e : lt a b = (match a.val, b.val with
    | some x, some y => decide (x < y)
    | _, _ => false) := rfl
  rw [e, FP.Finite.val_eq ha, FP.Finite.val_eq hb]
  exact decide_eq_true h

theorem le_of {a b : FP F} (ha : a.Finite) (hb : b.Finite) (h : a.num ≤ b.num) : le a b = true := by
  classical
  have e : le a b = (match a.val, b.val with
    | some x, some y => decide (x ≤ y)
    | _, _ => false) := rfl
  rw [e, FP.Finite.val_eq ha, FP.Finite.val_eq hb]
  exact decide_eq_true h

theorem checkSymmetricF_iff (op : FV F n → FV F n) (eps eps3 : FP F) (draw : ℕ → FV F n) (repeats : ℕ) :
    checkSymmetricF op eps eps3 draw repeats = true ↔ ∀ i < repeats, asymmetryFoundF op eps eps3 (draw i) = false := by
  simp [checkSymmetricF]

theorem checkDefiniteF_iff (op : FV F n → FV F n) (semi : Bool) (draw : ℕ → FV F n) (repeats : ℕ) :
    checkDefiniteF op semi draw repeats = true ↔ ∀ i < repeats, negativeFoundF op semi (draw i) = false := by
  simp [checkDefiniteF]

/-- how far the two dot products of the check are apart -/
theorem symmetric_gap (hn : (1 + F.u) ^ (n + 2) ≤ 3 / 2) {op : FV F n → FV F n} {A : EuclideanSpace ℝ (Fin n) →ₗ[ℝ] EuclideanSpace ℝ (Fin n)}
    {N c : ℝ} {x : FV F n} (hop : (F.rounding n hn).Computes op A N c [x, op x]) (hA : ∀ u v, ⟪A u, v⟫ = ⟪u, A v⟫)
    (hs : (dot (op x) (op x)).Finite) (ht : (dot x (op (op x))).Finite) :
    |(dot (op x) (op x)).num - (dot x (op (op x))).num| ≤
      (2 * c + dotErr F n * (N + c)) * ‖x.vec‖ * ‖(op x).vec‖ + dotErr F n * ‖(op x).vec‖ ^ 2 + 2 * dotTiny F n := by
  obtain ⟨hw, -, h1⟩ := dot_spec _ _ hs
  obtain ⟨hx, hr, h2⟩ := dot_spec _ _ ht
  set w := (op x).vec
  set r := (op (op x)).vec
  have h3 : ‖w - A x.vec‖ ≤ c * ‖x.vec‖ := hop.err x (by simp) hx hw
  have h4 : ‖r - A w‖ ≤ c * ‖w‖ := hop.err (op x) (by simp) hw hr
  have hg := dotErr_nonneg F n
  have hr' : ‖r‖ ≤ (N + c) * ‖w‖ := by
    have : r = A w + (r - A w) := by abel
    rw [this]
    refine (norm_add_le _ _).trans ?_
    have : ‖A w‖ ≤ N * ‖w‖ := hop.bound w
    linarith
  have h5 : |⟪w, w⟫ - ⟪x.vec, r⟫| ≤ 2 * c * ‖x.vec‖ * ‖w‖ := by
    have e : ⟪w, w⟫ - ⟪x.vec, r⟫ = ⟪w - A x.vec, w⟫ - ⟪x.vec, r - A w⟫ := by
      rw [inner_sub_left, inner_sub_right, hA]; ring
    rw [e]
    have e1 := (abs_real_inner_le_norm (w - A x.vec) w).trans (mul_le_mul_of_nonneg_right h3 (norm_nonneg _))
    have e2 := (abs_real_inner_le_norm x.vec (r - A w)).trans (mul_le_mul_of_nonneg_left h4 (norm_nonneg _))
    refine (abs_sub _ _).trans ?_
    nlinarith
  have h6 : dotErr F n * (‖x.vec‖ * ‖r‖) ≤ dotErr F n * (N + c) * ‖x.vec‖ * ‖w‖ := by
    calc dotErr F n * (‖x.vec‖ * ‖r‖) ≤ dotErr F n * (‖x.vec‖ * ((N + c) * ‖w‖)) := by gcongr
      _ = _ := by ring
  have h7 : |(dot (op x) (op x)).num - (dot x (op (op x))).num| ≤
      |(dot (op x) (op x)).num - ⟪w, w⟫| + |⟪w, w⟫ - ⟪x.vec, r⟫| + |(dot x (op (op x))).num - ⟪x.vec, r⟫| := by
    have := abs_sub_le (dot (op x) (op x)).num ⟪w, w⟫ (dot x (op (op x))).num
    have := abs_sub_le ⟪w, w⟫ ⟪x.vec, r⟫ (dot x (op (op x))).num
    rw [abs_sub_comm (⟪x.vec, r⟫) _] at this
    linarith
  nlinarith

/-- the computed tolerance is not much smaller than the exact one -/
theorem epsa_ge {s eps eps3 : FP F} (hu : F.u ≤ 1 / 16) (h : ((s + eps) * eps3).Finite) (h0 : 0 ≤ s.num + eps.num) (h3 : 0 ≤ eps3.num)
    (h31 : eps3.num ≤ 1) : 7 / 8 * ((s.num + eps.num) * eps3.num) - 3 * F.tiny ≤ ((s + eps) * eps3).num := by
  obtain ⟨h1, -, h2⟩ := FP.mul_spec h
  obtain ⟨-, -, h4⟩ := FP.add_spec h1
  have hu0 := F.u_nonneg
  have ht := F.tiny_nonneg
  set p := (s + eps).num
  set q := ((s + eps) * eps3).num
  have h5 : (1 - F.u) * (s.num + eps.num) - F.tiny ≤ p := by
    have e := h4.trans (add_le_add (mul_le_mul_of_nonneg_left (min_le_left _ _) hu0) le_rfl)
    rw [abs_of_nonneg h0] at e
    have := (abs_le.1 e).1
    linarith
  have h6 : (1 - F.u) * (p * eps3.num) - F.tiny ≤ q ∨ p * eps3.num < 0 := by
    rcases lt_or_ge (p * eps3.num) 0 with hneg | hpos
    · exact .inr hneg
    · refine .inl ?_
      have e := h2.trans (add_le_add (mul_le_mul_of_nonneg_left (min_le_left _ _) hu0) le_rfl)
      rw [abs_of_nonneg hpos] at e
      have := (abs_le.1 e).1
      linarith
  have h7 := mul_le_mul_of_nonneg_right h5 h3
  have hte : F.tiny * eps3.num ≤ F.tiny := by nlinarith
  have hP : 0 ≤ (s.num + eps.num) * eps3.num := mul_nonneg h0 h3
  have h8 : 7 / 8 * ((s.num + eps.num) * eps3.num) ≤ (1 - F.u) * ((1 - F.u) * ((s.num + eps.num) * eps3.num)) := by
    have : 7 / 8 ≤ (1 - F.u) * (1 - F.u) := by nlinarith
    have := mul_le_mul_of_nonneg_right this hP
    linarith
  rcases h6 with h6 | h6
  · have h9 := mul_le_mul_of_nonneg_left h7 (show 0 ≤ 1 - F.u by linarith)
    nlinarith
  · have e := h2.trans (add_le_add (mul_le_mul_of_nonneg_left (min_le_left _ _) hu0) le_rfl)
    rw [abs_of_neg h6] at e
    have e1 := (abs_le.1 e).1
    have e2 : (1 - F.u) * ((s.num + eps.num) * eps3.num) - F.tiny ≤ p * eps3.num := by linarith
    have e3 := mul_le_mul_of_nonneg_left e2 (show 0 ≤ 1 + F.u by linarith)
    have e4 : 7 / 8 ≤ (1 + F.u) * (1 - F.u) := by nlinarith
    have e5 := mul_le_mul_of_nonneg_right e4 hP
    have e6 : F.u * F.tiny ≤ F.tiny := by nlinarith
    linarith

/-- the computed tolerance is not much larger than the exact one -/
theorem epsa_le {s eps eps3 : FP F} (hu : F.u ≤ 1 / 16) (h : ((s + eps) * eps3).Finite) (h0 : 0 ≤ s.num + eps.num) (h3 : 0 ≤ eps3.num)
    (h31 : eps3.num ≤ 1) : ((s + eps) * eps3).num ≤ 5 / 4 * ((s.num + eps.num) * eps3.num) + 3 * F.tiny := by
  obtain ⟨h1, -, h2⟩ := FP.mul_spec h
  obtain ⟨-, -, h4⟩ := FP.add_spec h1
  have hu0 := F.u_nonneg
  have ht := F.tiny_nonneg
  set p := (s + eps).num
  set q := ((s + eps) * eps3).num
  have e4 := h4.trans (add_le_add (mul_le_mul_of_nonneg_left (min_le_left _ _) hu0) le_rfl)
  rw [abs_of_nonneg h0] at e4
  have h5 : |p| ≤ (1 + F.u) * (s.num + eps.num) + F.tiny := by
    have := abs_sub_abs_le_abs_sub p (s.num + eps.num)
    rw [abs_of_nonneg h0] at this
    linarith
  have e2 := h2.trans (add_le_add (mul_le_mul_of_nonneg_left (min_le_left _ _) hu0) le_rfl)
  have h6 : q ≤ (1 + F.u) * (|p| * eps3.num) + F.tiny := by
    rw [abs_mul, abs_of_nonneg h3] at e2
    have := (abs_le.1 e2).2
    have e3 : p * eps3.num ≤ |p| * eps3.num := mul_le_mul_of_nonneg_right (le_abs_self _) h3
    linarith
  have h7 := mul_le_mul_of_nonneg_left (mul_le_mul_of_nonneg_right h5 h3) (show 0 ≤ 1 + F.u by linarith)
  have hte : F.tiny * eps3.num ≤ F.tiny := by nlinarith
  have hP : 0 ≤ (s.num + eps.num) * eps3.num := mul_nonneg h0 h3
  have h8 : (1 + F.u) * ((1 + F.u) * ((s.num + eps.num) * eps3.num)) ≤ 5 / 4 * ((s.num + eps.num) * eps3.num) := by
    have : (1 + F.u) * (1 + F.u) ≤ 5 / 4 := by nlinarith
    have := mul_le_mul_of_nonneg_right this hP
    linarith
  have h9 : (1 + F.u) * (F.tiny * eps3.num) ≤ 2 * F.tiny := by nlinarith
  nlinarith

/-- **C92, symmetric operators are accepted (partial).**  Let `op` compute the products with a symmetric `A` up to a relative error `c`, and let
`N` bound the norm of `A`.  `check_symmetric` returns True, unless a product `w = A x` with a vector that is drawn is so small that
`4 (2 c + dotErr (N + c)) |x| |w| > eps3 (|w|^2 + eps)`, or the difference of the two dot products overflows. -/
theorem C92_symmetric_partial (hn : (1 + F.u) ^ (n + 2) ≤ 3 / 2) (hu : F.u ≤ 1 / 16) (op : FV F n → FV F n)
    (A : EuclideanSpace ℝ (Fin n) →ₗ[ℝ] EuclideanSpace ℝ (Fin n)) (N c : ℝ) (hA : ∀ u v, ⟪A u, v⟫ = ⟪u, A v⟫) (eps eps3 : FP F)
    (h3' : 0 < eps3.num) (h31 : eps3.num ≤ 1) (he3 : 16 * dotErr F n ≤ eps3.num) (htiny : 8 * (dotTiny F n + F.tiny) ≤ eps3.num * eps.num)
    (draw : ℕ → FV F n) (repeats : ℕ) (hop : ∀ i < repeats, (F.rounding n hn).Computes op A N c [draw i, op (draw i)])
    (hw : ∀ i < repeats, 4 * (2 * c + dotErr F n * (N + c)) * (‖(draw i).vec‖ * ‖(op (draw i)).vec‖) ≤
      eps3.num * (‖(op (draw i)).vec‖ ^ 2 + eps.num))
    (_hfin : ∀ i < repeats, (dot (op (draw i)) (op (draw i)) - dot (draw i) (op (op (draw i)))).Finite) :
    checkSymmetricF op eps eps3 draw repeats = true := by
  rw [checkSymmetricF_iff]
  intro i hi
  by_contra hfound
  rw [Bool.not_eq_false] at hfound
  unfold asymmetryFoundF at hfound
  simp only at hfound
  obtain ⟨f1, f2, hlt⟩ := lt_spec hfound
  obtain ⟨f3, e3⟩ := FP.abs_spec f2
  obtain ⟨fs, ft, e4⟩ := FP.sub_spec f3
  rw [e3] at hlt
  have hgap := symmetric_gap hn (hop i hi) hA fs ft
  obtain ⟨-, -, hS⟩ := dot_spec _ _ fs
  rw [real_inner_self_eq_norm_sq] at hS
  set x := draw i
  set S := (dot (op x) (op x)).num
  set T := (dot x (op (op x))).num
  set W := ‖(op x).vec‖
  set X := ‖x.vec‖
  set g := dotErr F n
  set η := dotTiny F n
  set K := 2 * c + g * (N + c)
  have h3 := h3'.le
  have hwi := hw i hi
  have hg : 0 ≤ g := dotErr_nonneg F n
  have hη : 0 ≤ η := dotTiny_nonneg F n
  have ht := F.tiny_nonneg
  have hu0 := F.u_nonneg
  have hW2 : 0 ≤ W ^ 2 := sq_nonneg _
  have hS1 : S ≥ W ^ 2 - g * W ^ 2 - η := by
    have := (abs_le.1 hS).1
    nlinarith
  have hg1 : g ≤ 1 / 16 := by linarith
  have hpe : 0 ≤ eps3.num * eps.num := by linarith
  have hηe : η * eps3.num ≤ η := mul_le_of_le_one_right hη h31
  have hgW : g * W ^ 2 ≤ eps3.num * W ^ 2 / 16 := by nlinarith
  have hgW' : g * W ^ 2 ≤ W ^ 2 / 16 := by nlinarith
  -- the tolerance is not negative
  have h0 : 0 ≤ S + eps.num := by
    have : η ≤ eps.num := by
      by_contra hlt2
      push Not at hlt2
      nlinarith
    nlinarith
  have hE := epsa_ge hu f1 h0 h3 h31
  have hZ : |((dot (op x) (op x)) - (dot x (op (op x)))).num| ≤ (1 + F.u) * |S - T| + F.tiny := by
    have e := e4.trans (add_le_add (mul_le_mul_of_nonneg_left (min_le_left _ _) hu0) le_rfl)
    have := abs_sub_abs_le_abs_sub ((dot (op x) (op x)) - (dot x (op (op x)))).num (S - T)
    linarith
  have hgap0 : 0 ≤ |S - T| := abs_nonneg _
  have hZ2 : (1 + F.u) * |S - T| ≤ 17 / 16 * |S - T| := by nlinarith
  have hKXW : 4 * (K * X * W) ≤ eps3.num * W ^ 2 + eps3.num * eps.num := by nlinarith
  have hSe : (15 / 16 * W ^ 2 - η + eps.num) * eps3.num ≤ (S + eps.num) * eps3.num := mul_le_mul_of_nonneg_right (by linarith) h3
  have he3W : 0 ≤ eps3.num * W ^ 2 := mul_nonneg h3 hW2
  have hgap2 : |S - T| ≤ K * X * W + g * W ^ 2 + 2 * η := hgap
  linarith

/-- the two dot products of the check, for any operator -/
theorem gap_close (hn : (1 + F.u) ^ (n + 2) ≤ 3 / 2) {op : FV F n → FV F n} {A : EuclideanSpace ℝ (Fin n) →ₗ[ℝ] EuclideanSpace ℝ (Fin n)}
    {N c : ℝ} {x : FV F n} (hop : (F.rounding n hn).Computes op A N c [x, op x])
    (hs : (dot (op x) (op x)).Finite) (ht : (dot x (op (op x))).Finite) :
    ‖(op x).vec‖ ≤ (N + c) * ‖x.vec‖ ∧
    |((dot (op x) (op x)).num - (dot x (op (op x))).num) - (⟪A x.vec, A x.vec⟫ - ⟪x.vec, A (A x.vec)⟫)| ≤
      (4 * c * (N + c) + 2 * dotErr F n * (N + c) ^ 2) * ‖x.vec‖ ^ 2 + 2 * dotTiny F n := by
  obtain ⟨hw, -, h1⟩ := dot_spec _ _ hs
  obtain ⟨hx, hr, h2⟩ := dot_spec _ _ ht
  set w := (op x).vec
  set r := (op (op x)).vec
  set y := x.vec
  have h3 : ‖w - A y‖ ≤ c * ‖y‖ := hop.err x (by simp) hx hw
  have h4 : ‖r - A w‖ ≤ c * ‖w‖ := hop.err (op x) (by simp) hw hr
  have hg := dotErr_nonneg F n
  have hc := hop.c_nonneg
  have hN := hop.N_nonneg
  have hM : 0 ≤ N + c := by linarith
  have hb : ∀ v, ‖A v‖ ≤ N * ‖v‖ := hop.bound
  have hw' : ‖w‖ ≤ (N + c) * ‖y‖ := by
    have e : w = A y + (w - A y) := by abel
    rw [e]
    refine (norm_add_le _ _).trans ?_
    linarith [hb y]
  have hr' : ‖r‖ ≤ (N + c) * ((N + c) * ‖y‖) := by
    have e : r = A w + (r - A w) := by abel
    have : ‖r‖ ≤ (N + c) * ‖w‖ := by
      rw [e]
      refine (norm_add_le _ _).trans ?_
      linarith [hb w]
    exact this.trans (mul_le_mul_of_nonneg_left hw' hM)
  refine ⟨hw', ?_⟩
  have hy := norm_nonneg y
  have e : ⟪w, w⟫ - ⟪y, r⟫ - (⟪A y, A y⟫ - ⟪y, A (A y)⟫) =
      ⟪w - A y, w⟫ + ⟪A y, w - A y⟫ - ⟪y, r - A w⟫ - ⟪y, A (w - A y)⟫ := by
    rw [inner_sub_left, inner_sub_right, inner_sub_right, map_sub, inner_sub_right]; ring
  have k1 : |⟪w - A y, w⟫| ≤ c * ‖y‖ * ((N + c) * ‖y‖) :=
    (abs_real_inner_le_norm _ _).trans (mul_le_mul h3 hw' (norm_nonneg _) (by positivity))
  have k2 : |⟪A y, w - A y⟫| ≤ N * ‖y‖ * (c * ‖y‖) :=
    (abs_real_inner_le_norm _ _).trans (mul_le_mul (hb y) h3 (norm_nonneg _) (by positivity))
  have k3 : |⟪y, r - A w⟫| ≤ ‖y‖ * (c * ((N + c) * ‖y‖)) :=
    (abs_real_inner_le_norm _ _).trans (mul_le_mul_of_nonneg_left (h4.trans (mul_le_mul_of_nonneg_left hw' hc)) hy)
  have k4 : |⟪y, A (w - A y)⟫| ≤ ‖y‖ * (N * (c * ‖y‖)) :=
    (abs_real_inner_le_norm _ _).trans (mul_le_mul_of_nonneg_left ((hb _).trans (mul_le_mul_of_nonneg_left h3 hN)) hy)
  have k5 : dotErr F n * (‖w‖ * ‖w‖) ≤ dotErr F n * (((N + c) * ‖y‖) * ((N + c) * ‖y‖)) := by gcongr
  have k6 : dotErr F n * (‖y‖ * ‖r‖) ≤ dotErr F n * (‖y‖ * ((N + c) * ((N + c) * ‖y‖))) := by gcongr
  have k7 : 0 ≤ c * c * ‖y‖ ^ 2 := by positivity
  rw [abs_le] at *
  constructor <;> nlinarith

/-- **C92, operators that are not symmetric are rejected.**  If for one of the vectors `x` that are drawn `⟨A x, A x⟩` and `⟨x, A A x⟩` are
further apart than twice the tolerance and the rounding errors, `check_symmetric` returns False. -/
theorem C92_exposed (hn : (1 + F.u) ^ (n + 2) ≤ 3 / 2) (hu : F.u ≤ 1 / 16) (op : FV F n → FV F n)
    (A : EuclideanSpace ℝ (Fin n) →ₗ[ℝ] EuclideanSpace ℝ (Fin n)) (N c : ℝ) (eps eps3 : FP F)
    (h3 : 0 < eps3.num) (h31 : eps3.num ≤ 1) (he3 : 16 * dotErr F n ≤ eps3.num) (htiny : 8 * (dotTiny F n + F.tiny) ≤ eps3.num * eps.num)
    (draw : ℕ → FV F n) (repeats i : ℕ) (hi : i < repeats) (hop : (F.rounding n hn).Computes op A N c [draw i, op (draw i)])
    (hd : (dot (op (draw i)) (op (draw i)) - dot (draw i) (op (op (draw i)))).Finite)
    (hf : ((dot (op (draw i)) (op (draw i)) + eps) * eps3).Finite)
    (hA : 2 * eps3.num * ((N + c) ^ 2 * ‖(draw i).vec‖ ^ 2 + eps.num) +
        2 * ((4 * c * (N + c) + 2 * dotErr F n * (N + c) ^ 2) * ‖(draw i).vec‖ ^ 2) + 8 * (dotTiny F n + F.tiny) <
      |⟪A (draw i).vec, A (draw i).vec⟫ - ⟪(draw i).vec, A (A (draw i).vec)⟫|) :
    checkSymmetricF op eps eps3 draw repeats = false := by
  rw [← Bool.not_eq_true, checkSymmetricF_iff]
  intro hall
  have hfound := hall i hi
  clear hall
  set x := draw i
  obtain ⟨fs, ft, e4⟩ := FP.sub_spec hd
  obtain ⟨hw, hgap⟩ := gap_close hn hop fs ft
  obtain ⟨-, -, hS⟩ := dot_spec _ _ fs
  rw [real_inner_self_eq_norm_sq] at hS
  have habs : (Scalar.abs (dot (op x) (op x) - dot x (op (op x)))).Finite := by
    show (Option.map _ _).isSome = true
    rw [Option.isSome_map]
    exact hd
  obtain ⟨-, eabs⟩ := FP.abs_spec habs
  have hle : |(dot (op x) (op x) - dot x (op (op x))).num| ≤ ((dot (op x) (op x) + eps) * eps3).num := by
    rw [← eabs]
    by_contra hlt
    push Not at hlt
    have := lt_of hf habs hlt
    have e : asymmetryFoundF op eps eps3 x = true := this
    rw [e] at hfound
    cases hfound
  set S := (dot (op x) (op x)).num
  set T := (dot x (op (op x))).num
  set W := ‖(op x).vec‖
  set X := ‖x.vec‖
  set g := dotErr F n
  set η := dotTiny F n
  set M := N + c
  set D := ⟪A x.vec, A x.vec⟫ - ⟪x.vec, A (A x.vec)⟫
  have hg : 0 ≤ g := dotErr_nonneg F n
  have hη : 0 ≤ η := dotTiny_nonneg F n
  have ht := F.tiny_nonneg
  have hu0 := F.u_nonneg
  have hW2 : W ^ 2 ≤ M ^ 2 * X ^ 2 := by
    rw [← mul_pow]
    exact pow_le_pow_left₀ (norm_nonneg _) hw 2
  have hg1 : g ≤ 1 / 16 := by linarith
  have heps : η ≤ eps.num := by
    by_contra hlt2
    push Not at hlt2
    nlinarith
  have hW0 : 0 ≤ W ^ 2 := sq_nonneg _
  have hgW : g * W ^ 2 ≤ 1 / 16 * W ^ 2 := mul_le_mul_of_nonneg_right hg1 hW0
  have hWW : W * W = W ^ 2 := (sq W).symm
  rw [hWW] at hS
  have hS1 := (abs_le.1 hS).1
  have hS2 := (abs_le.1 hS).2
  have hE := epsa_le hu hf (by linarith) h3.le h31
  have hSe : (S + eps.num) * eps3.num ≤ (17 / 16 * (M ^ 2 * X ^ 2) + η + eps.num) * eps3.num := mul_le_mul_of_nonneg_right (by linarith) h3.le
  have hηe : η * eps3.num ≤ η := mul_le_of_le_one_right hη h31
  have hZ : (1 - F.u) * |S - T| - F.tiny ≤ |(dot (op x) (op x) - dot x (op (op x))).num| := by
    have e := e4.trans (add_le_add (mul_le_mul_of_nonneg_left (min_le_left _ _) hu0) le_rfl)
    have := abs_sub_abs_le_abs_sub (S - T) (dot (op x) (op x) - dot x (op (op x))).num
    rw [abs_sub_comm (S - T) _] at this
    linarith
  have hD : |D| ≤ |S - T| + ((4 * c * M + 2 * g * M ^ 2) * X ^ 2 + 2 * η) := by
    have := abs_sub_abs_le_abs_sub D (S - T)
    rw [abs_sub_comm D _] at this
    linarith
  have hST : 15 / 16 * |S - T| ≤ (1 - F.u) * |S - T| := mul_le_mul_of_nonneg_right (by linarith) (abs_nonneg _)
  have h1 : 0 ≤ eps3.num * (M ^ 2 * X ^ 2) := by positivity
  have h2 : 0 ≤ eps3.num * eps.num := by linarith
  have h4 : 0 ≤ (4 * c * M + 2 * g * M ^ 2) * X ^ 2 := by
    have := hop.c_nonneg
    have := hop.N_nonneg
    have : 0 ≤ M := by show 0 ≤ N + c; linarith
    positivity
  linarith

/-- the dot product of the definiteness check -/
theorem definite_close (hn : (1 + F.u) ^ (n + 2) ≤ 3 / 2) {op : FV F n → FV F n} {A : EuclideanSpace ℝ (Fin n) →ₗ[ℝ] EuclideanSpace ℝ (Fin n)}
    {N c : ℝ} {v : FV F n} (hop : (F.rounding n hn).Computes op A N c [v]) (hf : (dot v (op v)).Finite) :
    |(dot v (op v)).num - ⟪v.vec, A v.vec⟫| ≤ (c + dotErr F n * (N + c)) * ‖v.vec‖ ^ 2 + dotTiny F n := by
  obtain ⟨hv, hw, h1⟩ := dot_spec _ _ hf
  set w := (op v).vec
  set y := v.vec
  have h3 : ‖w - A y‖ ≤ c * ‖y‖ := hop.err v (by simp) hv hw
  have hb : ∀ v, ‖A v‖ ≤ N * ‖v‖ := hop.bound
  have hg := dotErr_nonneg F n
  have hw' : ‖w‖ ≤ (N + c) * ‖y‖ := by
    have e : w = A y + (w - A y) := by abel
    rw [e]
    refine (norm_add_le _ _).trans ?_
    linarith [hb y]
  have k1 : |⟪y, w - A y⟫| ≤ ‖y‖ * (c * ‖y‖) := (abs_real_inner_le_norm _ _).trans (mul_le_mul_of_nonneg_left h3 (norm_nonneg _))
  have k2 : dotErr F n * (‖y‖ * ‖w‖) ≤ dotErr F n * (‖y‖ * ((N + c) * ‖y‖)) := by gcongr
  rw [inner_sub_right] at k1
  have := abs_sub_le (dot v (op v)).num ⟪y, w⟫ ⟪y, A y⟫
  nlinarith

/-- **C92, positive definite operators are accepted.**  `check_positive_definite` returns True if `⟨v, A v⟩` exceeds the rounding errors for
every vector `v` that is drawn. -/
theorem C92_definite (hn : (1 + F.u) ^ (n + 2) ≤ 3 / 2) (op : FV F n → FV F n) (A : EuclideanSpace ℝ (Fin n) →ₗ[ℝ] EuclideanSpace ℝ (Fin n))
    (N c : ℝ) (semi : Bool) (draw : ℕ → FV F n) (repeats : ℕ) (hop : ∀ i < repeats, (F.rounding n hn).Computes op A N c [draw i])
    (_hfin : ∀ i < repeats, (dot (draw i) (op (draw i))).Finite)
    (hA : ∀ i < repeats, (c + dotErr F n * (N + c)) * ‖(draw i).vec‖ ^ 2 + dotTiny F n < ⟪(draw i).vec, A (draw i).vec⟫) :
    checkDefiniteF op semi draw repeats = true := by
  rw [checkDefiniteF_iff]
  intro i hi
  have hc := (abs_le.1 (definite_close hn (hop i hi) (_hfin i hi))).1
  have hpos : 0 < (dot (draw i) (op (draw i))).num := by linarith [hA i hi]
  by_contra hfound
  rw [Bool.not_eq_false] at hfound
  have h0 : (⟨some 0⟩ : FP F).num = 0 := rfl
  unfold negativeFoundF at hfound
  cases semi
  · have := (le_spec hfound).2.2
    rw [h0] at this
    linarith
  · have := (lt_spec hfound).2.2
    rw [h0] at this
    linarith

/-- **C92, indefinite operators are rejected.**  `check_positive_definite` returns False if `⟨v, A v⟩` is negative by more than the rounding
errors for one of the vectors that are drawn. -/
theorem C92_indefinite (hn : (1 + F.u) ^ (n + 2) ≤ 3 / 2) (op : FV F n → FV F n) (A : EuclideanSpace ℝ (Fin n) →ₗ[ℝ] EuclideanSpace ℝ (Fin n))
    (N c : ℝ) (semi : Bool) (draw : ℕ → FV F n) (repeats i : ℕ) (hi : i < repeats) (hop : (F.rounding n hn).Computes op A N c [draw i])
    (hfin : (dot (draw i) (op (draw i))).Finite)
    (hA : ⟪(draw i).vec, A (draw i).vec⟫ < -((c + dotErr F n * (N + c)) * ‖(draw i).vec‖ ^ 2 + dotTiny F n)) :
    checkDefiniteF op semi draw repeats = false := by
  rw [← Bool.not_eq_true, checkDefiniteF_iff]
  intro hall
  have hfound := hall i hi
  have hc := (abs_le.1 (definite_close hn hop hfin)).2
  have hneg : (dot (draw i) (op (draw i))).num < 0 := by linarith
  have hz : (⟨some 0⟩ : FP F).Finite := rfl
  unfold negativeFoundF at hfound
  cases semi
  · rw [if_neg (by simp), le_of hfin hz hneg.le] at hfound
    cases hfound
  · rw [if_pos rfl, lt_of hfin hz hneg] at hfound
    cases hfound

/-- **C92 for the operators of the package (partial).**  A compound operator whose matrix is symmetric is not rejected, under the conditions of
`C92_symmetric_partial`, where the error of the products is bounded by C91. -/
theorem C92_operators_partial (hn : (1 + F.u) ^ (n + 2) ≤ 3 / 2) (hu : F.u ≤ 1 / 16) (e : Linop.FExpr F n n)
    (hA : e.matrix.IsSymm) (eps eps3 : FP F) (h3 : 0 < eps3.num) (h31 : eps3.num ≤ 1) (he3 : 16 * dotErr F n ≤ eps3.num)
    (htiny : 8 * (dotTiny F n + F.tiny) ≤ eps3.num * eps.num) (draw : ℕ → FV F n) (repeats : ℕ) {del : ℝ} (hdel : 0 ≤ del)
    (hL : ∀ i < repeats, ∀ v ∈ [draw i, e.mulVec (draw i)], ‖(WithLp.toLp 2 e.under : EuclideanSpace ℝ (Fin n))‖ ≤ del * ‖v.vec‖)
    (hw : ∀ i < repeats,
      let N := frobenius e.size
      let c := ((1 + F.u) ^ e.roundings - 1) * N + del
      4 * (2 * c + dotErr F n * (N + c)) * (‖(draw i).vec‖ * ‖(e.mulVec (draw i)).vec‖) ≤ eps3.num * (‖(e.mulVec (draw i)).vec‖ ^ 2 + eps.num))
    (hfin : ∀ i < repeats, (dot (e.mulVec (draw i)) (e.mulVec (draw i)) - dot (draw i) (e.mulVec (e.mulVec (draw i)))).Finite) :
    checkSymmetricF e.mulVec eps eps3 draw repeats = true := by
  refine C92_symmetric_partial hn hu e.mulVec (denseLin e.matrix) _ _ (fun u v => ?_) eps eps3 h3 h31 he3 htiny draw repeats
    (fun i hi => Linop.C91_solvers hn e _ hdel (hL i hi)) hw hfin
  have e1 : ∀ (w : EuclideanSpace ℝ (Fin n)) i, denseLin e.matrix w i = ∑ j, e.matrix i j * w j := fun _ _ => rfl
  rw [PiLp.inner_apply, PiLp.inner_apply]
  calc ∑ i, ⟪denseLin e.matrix u i, v i⟫ = ∑ i, ∑ j, e.matrix i j * u j * v i := by
        refine Finset.sum_congr rfl fun i _ => ?_
        rw [real_inner_eq, e1, Finset.sum_mul]
    _ = ∑ j, ∑ i, e.matrix i j * u j * v i := Finset.sum_comm
    _ = ∑ j, ⟪u j, denseLin e.matrix v j⟫ := by
        refine Finset.sum_congr rfl fun j _ => ?_
        rw [real_inner_eq, e1, Finset.mul_sum]
        refine Finset.sum_congr rfl fun i _ => ?_
        rw [hA.apply j i]
        ring

namespace Float64Example
open Verif.Solver.Float64Example

/-- an array with two entries -/
noncomputable def K (a b : ℤ) : FV float64 2 := ⟨![I a, I b]⟩

theorem K_dot (a b c d : ℤ) (h1 : |a * c| < 2 ^ 53) (h2 : |b * d| < 2 ^ 53) (h3 : |a * c + b * d| < 2 ^ 53) :
    dot (K a b) (K c d) = I (a * c + b * d) := by
  have h0 : (⟨some 0⟩ : FP float64) = I 0 := by simp [I]
  show FV.sum (K a b) (K c d) (List.finRange 2) ⟨some 0⟩ = _
  rw [h0, show List.finRange 2 = [0, 1] from rfl]
  simp only [FV.sum, List.foldl_cons, List.foldl_nil, K, Matrix.cons_val_zero, Matrix.cons_val_one, I_mul a c h1, I_mul b d h2]
  rw [I_add 0 (a * c) (by simpa using h1), zero_add, I_add _ _ h3]

theorem K_norm (a b : ℤ) : ‖(K a b).vec‖ ^ 2 = (a:ℝ) ^ 2 + (b:ℝ) ^ 2 := by
  rw [EuclideanSpace.norm_sq_eq, Fin.sum_univ_two]
  simp [K, I, FP.num]

theorem K_dense (a b c d x y : ℤ) (h1 : |a * x| < 2 ^ 53) (h2 : |b * y| < 2 ^ 53) (h3 : |a * x + b * y| < 2 ^ 53)
    (h4 : |c * x| < 2 ^ 53) (h5 : |d * y| < 2 ^ 53) (h6 : |c * x + d * y| < 2 ^ 53) :
    FV.dense ![K a b, K c d] (K x y) = K (a * x + b * y) (c * x + d * y) := by
  simp only [FV.dense, K]
  congr 1
  funext i
  fin_cases i
  · exact K_dot a b x y h1 h2 h3
  · exact K_dot c d x y h4 h5 h6

theorem hn : (1 + float64.u) ^ (2 + 2) ≤ 3 / 2 := by
  rw [show float64.u = 2⁻¹ ^ 53 from rfl]; norm_num

theorem dotErr_le : dotErr float64 2 ≤ 2⁻¹ ^ 50 := by
  rw [dotErr, show float64.u = 2⁻¹ ^ 53 from rfl]; norm_num

theorem tiny_le : 8 * (dotTiny float64 2 + float64.tiny) ≤ 2⁻¹ ^ 80 := by
  have : (2:ℝ) ^ (-1075 : ℤ) ≤ 2 ^ (-100 : ℤ) := zpow_le_zpow_right₀ (by norm_num) (by norm_num)
  rw [dotTiny, show float64.u = 2⁻¹ ^ 53 from rfl, show float64.tiny = 2 ^ (-1075 : ℤ) from rfl]
  norm_num at this ⊢
  linarith

/-- products of integer arrays are exact -/
theorem computes (rows : Fin 2 → FV float64 2) (a b c d : ℤ) (hr : rows = ![K a b, K c d]) (L : List (FV float64 2))
    (hL : ∀ v ∈ L, ∃ x y : ℤ, v = K x y ∧ FV.dense rows v = K (a * x + b * y) (c * x + d * y)) :
    (float64.rounding 2 hn).Computes (FV.dense rows) (denseLin (FV.entries rows)) (frobenius (FV.entries rows)) 0 L := by
  refine ⟨Real.sqrt_nonneg _, le_rfl, denseLin_bound _, fun v hv _ _ => ?_⟩
  obtain ⟨x, y, rfl, h⟩ := hL v hv
  rw [h, zero_mul]
  refine le_of_eq (norm_eq_zero.2 (sub_eq_zero.2 ?_))
  ext i
  show ((K (a * x + b * y) (c * x + d * y)).data i).num = ∑ j, (FV.entries rows) i j * ((K x y).data j).num
  rw [Fin.sum_univ_two, hr]
  fin_cases i <;> simp [K, I, FP.num, FV.entries]

/-- the machine epsilon of `float64` -/
noncomputable def eps : FP float64 := ⟨some (2⁻¹ ^ 52)⟩
/-- a number near its cube root -/
noncomputable def eps3 : FP float64 := ⟨some (2⁻¹ ^ 17)⟩

/-- The hypotheses of `C92_symmetric_partial` for the array `[[0, 1], [1, 0]]` and the vector `(1, 2)`. -/
example :
    let op := FV.dense ![K 0 1, K 1 0]
    let N := frobenius (FV.entries ![K 0 1, K 1 0])
    (float64.rounding 2 hn).Computes op (denseLin (FV.entries ![K 0 1, K 1 0])) N 0 [K 1 2, op (K 1 2)] ∧
    float64.u ≤ 1 / 16 ∧ 0 < eps3.num ∧ eps3.num ≤ 1 ∧ 16 * dotErr float64 2 ≤ eps3.num ∧
    8 * (dotTiny float64 2 + float64.tiny) ≤ eps3.num * eps.num ∧
    4 * (2 * 0 + dotErr float64 2 * (N + 0)) * (‖(K 1 2).vec‖ * ‖(op (K 1 2)).vec‖) ≤ eps3.num * (‖(op (K 1 2)).vec‖ ^ 2 + eps.num) ∧
    (dot (op (K 1 2)) (op (K 1 2)) - dot (K 1 2) (op (op (K 1 2)))).Finite ∧
    (∀ u v, ⟪denseLin (FV.entries ![K 0 1, K 1 0]) u, v⟫ = ⟪u, denseLin (FV.entries ![K 0 1, K 1 0]) v⟫) := by
  intro op N
  have e1 : op (K 1 2) = K 2 1 := K_dense 0 1 1 0 1 2 (by norm_num) (by norm_num) (by norm_num) (by norm_num) (by norm_num) (by norm_num)
  have e2 : op (K 2 1) = K 1 2 := K_dense 0 1 1 0 2 1 (by norm_num) (by norm_num) (by norm_num) (by norm_num) (by norm_num) (by norm_num)
  have h3 : eps3.num = 2⁻¹ ^ 17 := rfl
  have he : eps.num = 2⁻¹ ^ 52 := rfl
  have hN : N ≤ 2 := by
    refine Real.sqrt_le_iff.2 ⟨by norm_num, ?_⟩
    simp [FV.entries, K, I, FP.num, Fin.sum_univ_two]
    norm_num
  have hN0 : 0 ≤ N := Real.sqrt_nonneg _
  have n12 : ‖(K 1 2).vec‖ ^ 2 = 5 := by rw [K_norm]; norm_num
  have n21 : ‖(K 2 1).vec‖ ^ 2 = 5 := by rw [K_norm]; norm_num
  refine ⟨?_, by rw [show float64.u = 2⁻¹ ^ 53 from rfl]; norm_num, by rw [h3]; norm_num, by rw [h3]; norm_num, ?_, ?_, ?_, ?_, ?_⟩
  · refine computes _ 0 1 1 0 rfl _ fun v hv => ?_
    rw [e1] at hv
    simp only [List.mem_cons, List.not_mem_nil, or_false] at hv
    rcases hv with rfl | rfl
    · exact ⟨1, 2, rfl, e1⟩
    · exact ⟨2, 1, rfl, e2⟩
  · have := dotErr_le
    rw [h3]
    norm_num at this ⊢
    linarith
  · have := tiny_le
    rw [h3, he]
    norm_num at this ⊢
    linarith
  · rw [e1, n21, h3, he]
    have hp : ‖(K 1 2).vec‖ * ‖(K 2 1).vec‖ ≤ 5 := by nlinarith [sq_nonneg (‖(K 1 2).vec‖ - ‖(K 2 1).vec‖)]
    have hp0 : 0 ≤ ‖(K 1 2).vec‖ * ‖(K 2 1).vec‖ := by positivity
    have hg := dotErr_le
    have hg0 := dotErr_nonneg float64 2
    calc 4 * (2 * 0 + dotErr float64 2 * (N + 0)) * (‖(K 1 2).vec‖ * ‖(K 2 1).vec‖)
        ≤ 4 * (2 * 0 + 2⁻¹ ^ 50 * (2 + 0)) * 5 := by gcongr
      _ ≤ _ := by norm_num
  · rw [e1, e2, K_dot _ _ _ _ (by norm_num) (by norm_num) (by norm_num), K_dot _ _ _ _ (by norm_num) (by norm_num) (by norm_num),
      I_sub _ _ (by norm_num)]
    rfl
  · intro u v
    have e3 : ∀ (w : EuclideanSpace ℝ (Fin 2)) i, denseLin (FV.entries ![K 0 1, K 1 0]) w i =
      ∑ j, (FV.entries ![K 0 1, K 1 0]) i j * w j := fun _ _ => rfl
    rw [PiLp.inner_apply, PiLp.inner_apply]
    simp only [Fin.sum_univ_two, real_inner_eq, e3]
    simp [FV.entries, K, I, FP.num]
    ring

/-- The hypotheses of `C92_exposed` for the array `[[0, 1], [0, 0]]` and the vector `(1, 1)`. -/
example :
    let op := FV.dense ![K 0 1, K 0 0]
    let A := denseLin (FV.entries ![K 0 1, K 0 0])
    let N := frobenius (FV.entries ![K 0 1, K 0 0])
    let x := K 1 1
    (float64.rounding 2 hn).Computes op A N 0 [x, op x] ∧
    (dot (op x) (op x) - dot x (op (op x))).Finite ∧ dot (op x) (op x) = I 1 ∧
    2 * eps3.num * ((N + 0) ^ 2 * ‖x.vec‖ ^ 2 + eps.num) + 2 * ((4 * 0 * (N + 0) + 2 * dotErr float64 2 * (N + 0) ^ 2) * ‖x.vec‖ ^ 2) +
        8 * (dotTiny float64 2 + float64.tiny) < |⟪A x.vec, A x.vec⟫ - ⟪x.vec, A (A x.vec)⟫| := by
  intro op A N x
  have e1 : op (K 1 1) = K 1 0 := K_dense 0 1 0 0 1 1 (by norm_num) (by norm_num) (by norm_num) (by norm_num) (by norm_num) (by norm_num)
  have e2 : op (K 1 0) = K 0 0 := K_dense 0 1 0 0 1 0 (by norm_num) (by norm_num) (by norm_num) (by norm_num) (by norm_num) (by norm_num)
  have d1 : dot (op x) (op x) = I 1 := by
    show dot (op (K 1 1)) (op (K 1 1)) = _
    rw [e1, K_dot _ _ _ _ (by norm_num) (by norm_num) (by norm_num)]
    norm_num
  have h3 : eps3.num = 2⁻¹ ^ 17 := rfl
  have he : eps.num = 2⁻¹ ^ 52 := rfl
  have hN : N = 1 := by simp [N, Solver.frobenius, FV.entries, K, I, FP.num, Fin.sum_univ_two]
  have nx : ‖x.vec‖ ^ 2 = 2 := by
    show ‖(K 1 1).vec‖ ^ 2 = 2
    rw [K_norm]; norm_num
  refine ⟨?_, ?_, d1, ?_⟩
  · refine computes _ 0 1 0 0 rfl _ fun v hv => ?_
    rw [show op x = K 1 0 from e1] at hv
    simp only [List.mem_cons, List.not_mem_nil, or_false] at hv
    rcases hv with rfl | rfl
    · exact ⟨1, 1, rfl, e1⟩
    · exact ⟨1, 0, rfl, e2⟩
  · rw [d1, show op x = K 1 0 from e1, e2, show x = K 1 1 from rfl, K_dot _ _ _ _ (by norm_num) (by norm_num) (by norm_num),
      I_sub _ _ (by norm_num)]
    rfl
  · have e3 : ∀ (w : EuclideanSpace ℝ (Fin 2)) i, A w i = ∑ j, (FV.entries ![K 0 1, K 0 0]) i j * w j := fun _ _ => rfl
    have e4 : |⟪A x.vec, A x.vec⟫ - ⟪x.vec, A (A x.vec)⟫| = 1 := by
      rw [PiLp.inner_apply, PiLp.inner_apply]
      simp only [Fin.sum_univ_two, real_inner_eq, e3]
      simp [FV.entries, K, I, FP.num, x]
    rw [e4, hN, nx, h3, he]
    have := tiny_le
    have := dotErr_le
    norm_num at *
    linarith

/-- The hypotheses of `C92_definite` and `C92_indefinite`: `[[0, 1], [1, 0]]` with the vectors `(1, 2)` and `(1, -2)`. -/
example :
    let op := FV.dense ![K 0 1, K 1 0]
    let A := denseLin (FV.entries ![K 0 1, K 1 0])
    let N := frobenius (FV.entries ![K 0 1, K 1 0])
    (∀ v ∈ [K 1 2, K 1 (-2)], (float64.rounding 2 hn).Computes op A N 0 [v] ∧ (dot v (op v)).Finite) ∧
    (0 + dotErr float64 2 * (N + 0)) * ‖(K 1 2).vec‖ ^ 2 + dotTiny float64 2 < ⟪(K 1 2).vec, A (K 1 2).vec⟫ ∧
    ⟪(K 1 (-2)).vec, A (K 1 (-2)).vec⟫ < -((0 + dotErr float64 2 * (N + 0)) * ‖(K 1 (-2)).vec‖ ^ 2 + dotTiny float64 2) := by
  intro op A N
  have e1 : op (K 1 2) = K 2 1 := K_dense 0 1 1 0 1 2 (by norm_num) (by norm_num) (by norm_num) (by norm_num) (by norm_num) (by norm_num)
  have e2 : op (K 1 (-2)) = K (-2) 1 := K_dense 0 1 1 0 1 (-2) (by norm_num) (by norm_num) (by norm_num) (by norm_num) (by norm_num) (by norm_num)
  have hN : N ≤ 2 := by
    refine Real.sqrt_le_iff.2 ⟨by norm_num, ?_⟩
    simp [FV.entries, K, I, FP.num, Fin.sum_univ_two]
    norm_num
  have hN0 : 0 ≤ N := Real.sqrt_nonneg _
  have hb : (0 + dotErr float64 2 * (N + 0)) * 5 + dotTiny float64 2 < 1 := by
    have hg := dotErr_le
    have hg0 := dotErr_nonneg float64 2
    have ht := tiny_le
    have ht0 := float64.tiny_nonneg
    have : dotErr float64 2 * N ≤ 2⁻¹ ^ 50 * 2 := mul_le_mul hg hN hN0 (by positivity)
    norm_num at *
    linarith
  have e3 : ∀ (w : EuclideanSpace ℝ (Fin 2)) i, A w i = ∑ j, (FV.entries ![K 0 1, K 1 0]) i j * w j := fun _ _ => rfl
  refine ⟨fun v hv => ?_, ?_, ?_⟩
  · simp only [List.mem_cons, List.not_mem_nil, or_false] at hv
    rcases hv with rfl | rfl
    · refine ⟨computes _ 0 1 1 0 rfl _ fun v hv => ⟨1, 2, List.mem_singleton.1 hv, by rw [List.mem_singleton.1 hv]; exact e1⟩, ?_⟩
      rw [e1, K_dot _ _ _ _ (by norm_num) (by norm_num) (by norm_num)]
      rfl
    · refine ⟨computes _ 0 1 1 0 rfl _ fun v hv => ⟨1, -2, List.mem_singleton.1 hv, by rw [List.mem_singleton.1 hv]; exact e2⟩, ?_⟩
      rw [e2, K_dot _ _ _ _ (by norm_num) (by norm_num) (by norm_num)]
      rfl
  · have h : ⟪(K 1 2).vec, A (K 1 2).vec⟫ = 4 := by
      rw [PiLp.inner_apply]
      simp only [Fin.sum_univ_two, real_inner_eq, e3]
      simp [FV.entries, K, I, FP.num]
      norm_num
    rw [h, K_norm]
    norm_num at hb ⊢
    linarith
  · have h : ⟪(K 1 (-2)).vec, A (K 1 (-2)).vec⟫ = -4 := by
      rw [PiLp.inner_apply]
      simp only [Fin.sum_univ_two, real_inner_eq, e3]
      simp [FV.entries, K, I, FP.num]
      norm_num
    rw [h, K_norm]
    norm_num at hb ⊢
    linarith

end Float64Example

end Verif.Tools
