import Verif.Tools.Checks
import Mathlib.Data.Complex.BigOperators
import Mathlib.LinearAlgebra.Matrix.Notation
import Mathlib.Tactic.NormNum
import Mathlib.Tactic.Linarith
import Mathlib.Tactic.Positivity

/-!
# C44, C45: the random checks
-/

namespace Verif.Tools
open Matrix

theorem symmetricLoop_iff {n : Nat} (A : Matrix (Fin n) (Fin n) ℂ) (eps eps3 : ℝ) (draw : Nat → Fin n → ℝ) (k i : Nat) :
    symmetricLoop A eps eps3 draw k i = true ↔ ∀ j, i ≤ j → j < i + k → ¬ asymmetryFound A eps eps3 (draw j) := by
  induction k generalizing i with
  | zero => simp only [symmetricLoop, true_iff]; intro j h1 h2; omega
  | succ k ih =>
    unfold symmetricLoop
    split
    · rename_i h
      simp only [Bool.false_eq_true, false_iff, not_forall]
      exact ⟨i, le_refl _, by omega, not_not.2 h⟩
    · rename_i h
      rw [ih]
      constructor
      · intro hh j h1 h2
        rcases Nat.eq_or_lt_of_le h1 with rfl | h3
        · exact h
        · exact hh j h3 (by omega)
      · intro hh j h1 h2; exact hh j (by omega) (by omega)

theorem definiteLoop_iff {n : Nat} (A : Matrix (Fin n) (Fin n) ℂ) (e : ℝ) (semi : Bool) (draw : Nat → Fin n → ℝ)
    (k i : Nat) :
    definiteLoop A e semi draw k i = true ↔ ∀ j, i ≤ j → j < i + k → ¬ negativeFound A e semi (draw j) := by
  induction k generalizing i with
  | zero => simp only [definiteLoop, true_iff]; intro j h1 h2; omega
  | succ k ih =>
    unfold definiteLoop
    split
    · rename_i h
      simp only [Bool.false_eq_true, false_iff, not_forall]
      exact ⟨i, le_refl _, by omega, not_not.2 h⟩
    · rename_i h
      rw [ih]
      constructor
      · intro hh j h1 h2
        rcases Nat.eq_or_lt_of_le h1 with rfl | h3
        · exact h
        · exact hh j h3 (by omega)
      · intro hh j h1 h2; exact hh j (by omega) (by omega)

theorem checkSymmetric_square {n : Nat} (A : Matrix (Fin n) (Fin n) ℂ) (repeats : Nat) (eps eps3 : ℝ)
    (draw : Nat → Fin n → ℝ) : checkSymmetric A repeats eps eps3 draw = symmetricLoop A eps eps3 draw repeats 0 := by
  unfold checkSymmetric; rw [dif_pos rfl]; rfl

theorem checkPositiveDefinite_square {n : Nat} (A : Matrix (Fin n) (Fin n) ℂ) (repeats : Nat) (semi : Bool) (e : ℝ)
    (draw : Nat → Fin n → ℝ) :
    checkPositiveDefinite A repeats semi e draw = definiteLoop A e semi draw repeats 0 := by
  unfold checkPositiveDefinite; rw [dif_pos rfl]; rfl

/-- the complex matrix of a real operator -/
def ofReal {m n : Nat} (B : Matrix (Fin m) (Fin n) ℝ) : Matrix (Fin m) (Fin n) ℂ := B.map (fun a => (a : ℂ))

theorem ofReal_mulVec {m n : Nat} (B : Matrix (Fin m) (Fin n) ℝ) (x : Fin n → ℝ) : ofReal B *ᵥ cvec x = cvec (B *ᵥ x) := by
  funext i; simp [mulVec, dotProduct, ofReal, cvec]
theorem cvec_dot {n : Nat} (x y : Fin n → ℝ) : cvec x ⬝ᵥ cvec y = ((x ⬝ᵥ y : ℝ) : ℂ) := by
  simp [dotProduct, cvec]

/-- **C44 (partial).** In exact arithmetic, for every operator, every random stream, every number of repetitions:
`check_symmetric` returns False for every non-square operator, and True for every *real* symmetric operator (equivalently:
a False answer on a real square operator proves that it is not symmetric).  Missing, because the code violates it
(`C44_complex_symmetric_rejected`): the same for complex symmetric operators. -/
theorem C44_check_symmetric_partial (repeats : Nat) (eps eps3 : ℝ) (he : 0 ≤ eps) (he3 : 0 ≤ eps3) :
    (∀ m n (A : Matrix (Fin m) (Fin n) ℂ) draw, m ≠ n → checkSymmetric A repeats eps eps3 draw = false) ∧
    (∀ n (B : Matrix (Fin n) (Fin n) ℝ) draw, Bᵀ = B → checkSymmetric (ofReal B) repeats eps eps3 draw = true) ∧
    (∀ n (B : Matrix (Fin n) (Fin n) ℝ) draw, checkSymmetric (ofReal B) repeats eps eps3 draw = false → Bᵀ ≠ B) := by
  have h2 : ∀ n (B : Matrix (Fin n) (Fin n) ℝ) draw, Bᵀ = B → checkSymmetric (ofReal B) repeats eps eps3 draw = true := by
    intro n B draw hB
    rw [checkSymmetric_square, symmetricLoop_iff]
    intro j _ _
    unfold asymmetryFound
    simp only
    rw [ofReal_mulVec, ofReal_mulVec, cvec_dot, cvec_dot]
    have e : draw j ⬝ᵥ (B *ᵥ (B *ᵥ draw j)) = (B *ᵥ draw j) ⬝ᵥ (B *ᵥ draw j) := by
      rw [dotProduct_mulVec, ← mulVec_transpose, hB]
    rw [e, sub_self, norm_zero]
    have hs : 0 ≤ (B *ᵥ draw j) ⬝ᵥ (B *ᵥ draw j) := by
      unfold dotProduct; exact Finset.sum_nonneg fun i _ => mul_self_nonneg _
    generalize (B *ᵥ draw j) ⬝ᵥ (B *ᵥ draw j) = s at *
    rw [← Complex.ofReal_add, ← Complex.ofReal_mul]
    unfold clt
    simp only [Complex.ofReal_re, Complex.ofReal_im, lt_irrefl, and_false, or_false, not_lt]
    positivity
  refine ⟨fun m n A draw h => by unfold checkSymmetric; rw [dif_neg h], h2, fun n B draw h hB => ?_⟩
  rw [h2 n B draw hB] at h; cases h

/-- **C44 is violated** for complex operators: the symmetric operator `i * identity` of order 1 is rejected (the bound
`epsa` is negative, so that the test `z > epsa` holds although `z = 0`). -/
theorem C44_complex_symmetric_rejected (repeats : Nat) (hr : 1 ≤ repeats) (eps eps3 : ℝ) (he1 : eps < 1) (he3 : 0 < eps3) :
    ∃ (A : Matrix (Fin 1) (Fin 1) ℂ) (draw : Nat → Fin 1 → ℝ), Aᵀ = A ∧
      checkSymmetric A repeats eps eps3 draw = false := by
  refine ⟨Matrix.diagonal (fun _ => Complex.I), fun _ _ => 1, by simp, ?_⟩
  rw [checkSymmetric_square, ← Bool.not_eq_true, symmetricLoop_iff]
  intro h
  refine h 0 (le_refl _) (by omega) ?_
  unfold asymmetryFound
  simp only
  have e1 : (Matrix.diagonal (fun _ => Complex.I) : Matrix (Fin 1) (Fin 1) ℂ) *ᵥ cvec (fun _ => 1) = fun _ => Complex.I := by
    funext i; simp [mulVec_diagonal, cvec]
  rw [e1]
  have e2 : (Matrix.diagonal (fun _ => Complex.I) : Matrix (Fin 1) (Fin 1) ℂ) *ᵥ (fun _ => Complex.I) = fun _ => -1 := by
    funext i; simp [mulVec_diagonal]
  rw [e2]
  left
  simp [dotProduct, cvec]
  nlinarith

/-- a real symmetric operator of order 2: the hypotheses of C44 are met -/
example : (!![(2:ℝ), 1; 1, 3])ᵀ = !![2, 1; 1, 3] := by ext i j; fin_cases i <;> fin_cases j <;> rfl

/-- **C45.** In exact arithmetic, for every random stream and every number of repetitions: `check_positive_definite`
returns False for non-square operators; True for every real operator `B` with `v'Bv > 0` for all `v ≠ 0`, if the vectors
drawn are nonzero; with `semi=True`, True for every real operator with `v'Bv ≥ 0` for all `v`; and a False answer on a real
square operator exhibits a vector of the stream with `v'Bv ≤ 0` (`< 0` with `semi=True`). -/
theorem C45_check_positive_definite (repeats : Nat) (sqrteps : ℝ) (he : 0 ≤ sqrteps) :
    (∀ m n (A : Matrix (Fin m) (Fin n) ℂ) semi draw, m ≠ n → checkPositiveDefinite A repeats semi sqrteps draw = false) ∧
    (∀ n (B : Matrix (Fin n) (Fin n) ℝ) (draw : Nat → Fin n → ℝ), (∀ v, v ≠ 0 → 0 < v ⬝ᵥ (B *ᵥ v)) → (∀ i, draw i ≠ 0) →
      checkPositiveDefinite (ofReal B) repeats false sqrteps draw = true) ∧
    (∀ n (B : Matrix (Fin n) (Fin n) ℝ) (draw : Nat → Fin n → ℝ), (∀ v, 0 ≤ v ⬝ᵥ (B *ᵥ v)) →
      checkPositiveDefinite (ofReal B) repeats true sqrteps draw = true) ∧
    (∀ n (B : Matrix (Fin n) (Fin n) ℝ) (draw : Nat → Fin n → ℝ) (semi : Bool),
      checkPositiveDefinite (ofReal B) repeats semi sqrteps draw = false →
        ∃ i < repeats, if semi then draw i ⬝ᵥ (B *ᵥ draw i) < 0 else draw i ⬝ᵥ (B *ᵥ draw i) ≤ 0) := by
  have key : ∀ n (B : Matrix (Fin n) (Fin n) ℝ) (semi : Bool) (v : Fin n → ℝ), negativeFound (ofReal B) sqrteps semi v ↔
      if semi then v ⬝ᵥ (B *ᵥ v) < 0 else v ⬝ᵥ (B *ᵥ v) ≤ 0 := by
    intro n B semi v
    unfold negativeFound
    simp only
    rw [ofReal_mulVec, cvec_dot]
    simp only [Complex.ofReal_re, Complex.ofReal_im, gt_iff_lt]
    have : ¬ sqrteps * ‖((v ⬝ᵥ (B *ᵥ v) : ℝ) : ℂ)‖ < 0 := not_lt.2 (by positivity)
    simp only [this, false_or]
  refine ⟨fun m n A semi draw h => by unfold checkPositiveDefinite; rw [dif_neg h], ?_, ?_, ?_⟩
  · intro n B draw hB hd
    rw [checkPositiveDefinite_square, definiteLoop_iff]
    intro j _ _
    rw [key]
    simpa using hB _ (hd j)
  · intro n B draw hB
    rw [checkPositiveDefinite_square, definiteLoop_iff]
    intro j _ _
    rw [key]
    simpa using hB _
  · intro n B draw semi h
    rw [checkPositiveDefinite_square, ← Bool.not_eq_true, definiteLoop_iff] at h
    push Not at h
    obtain ⟨j, _, hj, hf⟩ := h
    exact ⟨j, by omega, (key n B semi _).1 hf⟩

/-- a positive definite operator and a stream of nonzero vectors: the hypotheses of C45 are met -/
example : (∀ v : Fin 1 → ℝ, v ≠ 0 → 0 < v ⬝ᵥ ((!![(2:ℝ)]) *ᵥ v)) ∧ (∀ _ : Nat, (fun _ : Fin 1 => (1:ℝ)) ≠ 0) := by
  refine ⟨fun v hv => ?_, fun _ h => one_ne_zero (congrFun h 0)⟩
  have : v 0 ≠ 0 := fun h => hv (by funext i; fin_cases i; exact h)
  simp [mulVec, dotProduct]
  have := mul_self_pos.2 this
  nlinarith

end Verif.Tools
