import Verif.Tools.RandomProps
import Mathlib.MeasureTheory.Measure.Lebesgue.Basic
import Mathlib.LinearAlgebra.Matrix.Trace
import Mathlib.LinearAlgebra.FiniteDimensional.Lemmas
import Mathlib.Topology.Instances.Matrix

/-!
# C83: what the checks can find

`C44` and `C45` are about operators that pass; here, operators that should not.
-/

namespace Verif.Tools
open Matrix MeasureTheory

/-- **Specification.** A vector that `np.random.random(n)` can return. -/
def Drawable {n : Nat} (x : Fin n → ℝ) : Prop := ∀ i, 0 ≤ x i ∧ x i < 1

/-- **Specification.** The sum of the squares of the entries. -/
def frob2 {n : Nat} (B : Matrix (Fin n) (Fin n) ℝ) : ℝ := ∑ i, ∑ j, B i j ^ 2

/-- one repetition for a real operator -/
theorem asymmetryFound_real {n : Nat} (B : Matrix (Fin n) (Fin n) ℝ) (eps eps3 : ℝ) (x : Fin n → ℝ) :
    asymmetryFound (ofReal B) eps eps3 x ↔
      ((B *ᵥ x) ⬝ᵥ (B *ᵥ x) + eps) * eps3 < |(B *ᵥ x) ⬝ᵥ (B *ᵥ x) - x ⬝ᵥ (B *ᵥ (B *ᵥ x))| := by
  unfold asymmetryFound
  simp only
  rw [ofReal_mulVec, ofReal_mulVec, cvec_dot, cvec_dot]
  rw [← Complex.ofReal_add, ← Complex.ofReal_mul, ← Complex.ofReal_sub, Complex.norm_real, Real.norm_eq_abs]
  unfold clt
  simp

theorem negativeFound_real {n : Nat} (B : Matrix (Fin n) (Fin n) ℝ) (e : ℝ) (he : 0 ≤ e) (semi : Bool) (v : Fin n → ℝ) :
    negativeFound (ofReal B) e semi v ↔ if semi then v ⬝ᵥ (B *ᵥ v) < 0 else v ⬝ᵥ (B *ᵥ v) ≤ 0 := by
  unfold negativeFound
  simp only
  rw [ofReal_mulVec, cvec_dot]
  simp only [Complex.ofReal_re, Complex.ofReal_im, gt_iff_lt]
  have : ¬ e * ‖((v ⬝ᵥ (B *ᵥ v) : ℝ) : ℂ)‖ < 0 := not_lt.2 (by positivity)
  simp only [this, false_or]

/-- half a unit vector -/
noncomputable def halfUnit {n : Nat} (i : Fin n) : Fin n → ℝ := Pi.single i (1 / 2)

theorem halfUnit_drawable {n : Nat} (i : Fin n) : Drawable (halfUnit i) := by
  intro j
  unfold halfUnit
  by_cases h : j = i
  · subst h; rw [Pi.single_eq_same]; norm_num
  · rw [Pi.single_eq_of_ne h]; norm_num

theorem halfUnit_values {n : Nat} (B : Matrix (Fin n) (Fin n) ℝ) (i : Fin n) :
    (B *ᵥ halfUnit i) ⬝ᵥ (B *ᵥ halfUnit i) = (∑ k, B k i ^ 2) / 4 ∧
    halfUnit i ⬝ᵥ (B *ᵥ (B *ᵥ halfUnit i)) = (∑ k, B i k * B k i) / 4 := by
  have h1 : B *ᵥ halfUnit i = fun k => B k i / 2 := by
    funext k
    simp [halfUnit, mulVec, dotProduct, Pi.single_apply, div_eq_mul_inv]
  rw [h1]
  constructor
  · simp only [dotProduct, Finset.sum_div]
    exact Finset.sum_congr rfl fun k _ => by ring
  · rw [halfUnit, single_dotProduct]
    simp only [mulVec, dotProduct, Finset.sum_div, Finset.mul_sum]
    exact Finset.sum_congr rfl fun k _ => by ring

theorem asymmetry_sum {n : Nat} (B : Matrix (Fin n) (Fin n) ℝ) :
    frob2 (B - Bᵀ) = 2 * ∑ i, ((∑ k, B k i ^ 2) - ∑ k, B i k * B k i) := by
  unfold frob2
  have h1 : ∑ i, ∑ j, (B - Bᵀ) i j ^ 2 = ∑ i, ∑ j, (B i j ^ 2 + B j i ^ 2 - 2 * (B i j * B j i)) := by
    refine Finset.sum_congr rfl fun i _ => Finset.sum_congr rfl fun j _ => ?_
    simp only [Matrix.sub_apply, transpose_apply]; ring
  have h2 : ∑ i, ∑ j, B i j ^ 2 = ∑ i, ∑ j, B j i ^ 2 := Finset.sum_comm
  rw [h1]
  simp only [Finset.sum_sub_distrib, Finset.sum_add_distrib, ← Finset.mul_sum]
  rw [h2]; ring

/-- **C83, symmetry.** If a real operator is further from symmetric than the tolerance of the check, then a vector that can be drawn
exposes it: one on which the check fails, however many repetitions.  (The hypothesis bounds the square of the Frobenius norm of `B - B'`,
relative to that of `B`.) -/
theorem C83_symmetric_exposed {n : Nat} (B : Matrix (Fin n) (Fin n) ℝ) (eps eps3 : ℝ)
    (h : 2 * eps3 * (frob2 B + 4 * n * eps) < frob2 (B - Bᵀ)) :
    ∃ x, Drawable x ∧ asymmetryFound (ofReal B) eps eps3 x ∧
      ∀ (draw : Nat → Fin n → ℝ) (repeats : Nat), (∃ i < repeats, draw i = x) →
        checkSymmetric (ofReal B) repeats eps eps3 draw = false := by
  obtain ⟨i, hi⟩ : ∃ i, asymmetryFound (ofReal B) eps eps3 (halfUnit i) := by
    by_contra hn
    push Not at hn
    refine absurd h (not_lt.2 ?_)
    rw [asymmetry_sum]
    have h1 : ∀ i, ((∑ k, B k i ^ 2) - ∑ k, B i k * B k i) ≤ ((∑ k, B k i ^ 2) + 4 * eps) * eps3 := by
      intro i
      have := hn i
      rw [asymmetryFound_real, not_lt, (halfUnit_values B i).1, (halfUnit_values B i).2] at this
      have h2 := (le_abs_self _).trans this
      linarith
    have h2 := Finset.sum_le_sum fun i (_ : i ∈ Finset.univ) => h1 i
    have h3 : ∑ i, ((∑ k, B k i ^ 2) + 4 * eps) * eps3 = eps3 * (frob2 B + 4 * n * eps) := by
      rw [← Finset.sum_mul, Finset.sum_add_distrib]
      have : ∑ i, ∑ k, B k i ^ 2 = frob2 B := Finset.sum_comm
      rw [this]
      simp only [Finset.sum_const, Finset.card_univ, Fintype.card_fin, nsmul_eq_mul]
      ring
    rw [h3] at h2
    linarith
  refine ⟨halfUnit i, halfUnit_drawable i, hi, fun draw repeats hd => ?_⟩
  obtain ⟨j, hj, e⟩ := hd
  rw [checkSymmetric_square, ← Bool.not_eq_true, symmetricLoop_iff]
  intro hh
  exact hh j (Nat.zero_le _) (by omega) (e ▸ hi)

/-- **C83, symmetry, exact tolerance.** With tolerance zero, the operators that pass for all vectors are the symmetric ones. -/
theorem C83_symmetric_exact {n : Nat} (B : Matrix (Fin n) (Fin n) ℝ) (repeats : Nat) (hr : 1 ≤ repeats) (eps : ℝ) (he : 0 ≤ eps) :
    (∀ draw : Nat → Fin n → ℝ, (∀ i, Drawable (draw i)) → checkSymmetric (ofReal B) repeats eps 0 draw = true) ↔ Bᵀ = B := by
  constructor
  · intro h
    by_contra hB
    have hpos : 0 < frob2 (B - Bᵀ) := by
      obtain ⟨i, j, hij⟩ : ∃ i j, B i j ≠ B j i := by
        by_contra hn
        push Not at hn
        exact hB (by ext i j; exact hn j i)
      have h1 : 0 < (B - Bᵀ) i j ^ 2 := by
        have : (B - Bᵀ) i j ≠ 0 := by simp only [Matrix.sub_apply, transpose_apply]; exact sub_ne_zero.2 hij
        positivity
      unfold frob2
      refine lt_of_lt_of_le h1 ((Finset.single_le_sum (f := fun j => (B - Bᵀ) i j ^ 2) (fun _ _ => sq_nonneg _) (Finset.mem_univ j)).trans ?_)
      exact Finset.single_le_sum (f := fun i => ∑ j, (B - Bᵀ) i j ^ 2) (fun _ _ => Finset.sum_nonneg fun _ _ => sq_nonneg _)
        (Finset.mem_univ i)
    obtain ⟨x, hx, -, hf⟩ := C83_symmetric_exposed B eps 0 (by simpa using hpos)
    have := h (fun _ => x) fun _ => hx
    rw [hf _ _ ⟨0, by omega, rfl⟩] at this
    cases this
  · intro hB draw _
    exact (C44_check_symmetric_partial repeats eps 0 he le_rfl).2.1 n B draw hB

/-- **C83, symmetry, probability.** Under the same hypothesis the vectors of the open unit cube that expose the operator have positive volume:
a random vector finds the asymmetry with positive probability. -/
theorem C83_symmetric_likely {n : Nat} (B : Matrix (Fin n) (Fin n) ℝ) (eps eps3 : ℝ)
    (h : 2 * eps3 * (frob2 B + 4 * n * eps) < frob2 (B - Bᵀ)) :
    0 < volume {x : Fin n → ℝ | (∀ i, 0 < x i ∧ x i < 1) ∧ asymmetryFound (ofReal B) eps eps3 x} := by
  obtain ⟨p, hp, hf, -⟩ := C83_symmetric_exposed B eps eps3 h
  have cB : Continuous fun x : Fin n → ℝ => B *ᵥ x := continuous_const.matrix_mulVec continuous_id
  have hU : IsOpen {x : Fin n → ℝ | asymmetryFound (ofReal B) eps eps3 x} := by
    simp only [asymmetryFound_real]
    refine isOpen_lt (((cB.dotProduct cB).add continuous_const).mul continuous_const) (continuous_abs.comp ?_)
    exact (cB.dotProduct cB).sub (continuous_id.dotProduct (cB.comp cB))
  have hC : IsOpen {x : Fin n → ℝ | ∀ i, 0 < x i ∧ x i < 1} := by
    simp only [Set.setOf_forall]
    exact isOpen_iInter_of_finite fun i => (isOpen_lt continuous_const (continuous_apply i)).inter (isOpen_lt (continuous_apply i) continuous_const)
  refine (hC.inter hU).measure_pos _ ?_
  -- the segment from `p` towards the centre of the cube
  have path : Continuous fun t : ℝ => fun i => (1 - t) * p i + t * (1 / 2) :=
    continuous_pi fun i => by fun_prop
  have h0 : (fun i => (1 - (0 : ℝ)) * p i + 0 * (1 / 2)) ∈ {x : Fin n → ℝ | asymmetryFound (ofReal B) eps eps3 x} := by
    have : (fun i => (1 - (0 : ℝ)) * p i + 0 * (1 / 2)) = p := by funext i; ring
    rw [this]; exact hf
  have hev := (path.tendsto 0).eventually (hU.mem_nhds h0)
  obtain ⟨d, hd, hball⟩ := Metric.eventually_nhds_iff.1 hev
  obtain ⟨t, t0, t1, td⟩ : ∃ t : ℝ, 0 < t ∧ t < 1 ∧ t < d := ⟨min d 1 / 2, by positivity, by
    have := min_le_right d 1; linarith, by have := min_le_left d 1; linarith⟩
  refine ⟨fun i => (1 - t) * p i + t * (1 / 2), fun i => ?_, hball (by rw [Real.dist_eq, sub_zero, abs_of_pos t0]; exact td)⟩
  obtain ⟨a, b⟩ := hp i
  constructor <;> nlinarith

/-- **C83, symmetry, is violated by the fixed seed.** `check_symmetric` draws the same vectors in every call (C82), so it can be blind: for
every generator, order `n`, number of repetitions less than `n` (the default is 10), and every bound, there is a real operator of order `n` which is further
from symmetric than the bound, relative to its own size, but which passes in every state of the generator. -/
theorem C83_symmetric_blind (G : Generator) (n repeats : Nat) (hn : repeats < n) (h2 : 2 ≤ n) (eps eps3 : ℝ) (he : 0 ≤ eps) (he3 : 0 ≤ eps3) :
    ∃ B : Matrix (Fin n) (Fin n) ℝ, frob2 B ≤ frob2 (B - Bᵀ) ∧ 0 < frob2 B ∧
      ∀ s : G.State, (checkSymmetricRun G (ofReal B) repeats eps eps3 s).1 = true := by
  have dim : ∀ m (L : (Fin n → ℝ) →ₗ[ℝ] (Fin m → ℝ)), m < n → ∃ z, z ≠ 0 ∧ L z = 0 := by
    intro m L hm
    have := LinearMap.ker_ne_bot_of_finrank_lt (f := L) (by simpa using hm)
    obtain ⟨z, hz, h0⟩ := Submodule.exists_mem_ne_zero_of_ne_bot this
    exact ⟨z, h0, hz⟩
  obtain ⟨z, z0, hz⟩ := dim repeats (Matrix.mulVecLin fun j : Fin repeats => G.vector n (G.seed 1) j) hn
  obtain ⟨u, u0, hu⟩ := dim 1 (Matrix.mulVecLin fun _ : Fin 1 => z) (by omega)
  have hu : ∑ i, z i * u i = 0 := congrFun hu 0
  have hz : ∀ j < repeats, G.vector n (G.seed 1) j ⬝ᵥ z = 0 := fun j hj => congrFun hz ⟨j, hj⟩
  have pos : ∀ w : Fin n → ℝ, w ≠ 0 → 0 < ∑ i, w i ^ 2 := by
    intro w hw
    obtain ⟨i, hi⟩ := Function.ne_iff.1 hw
    have hi' : 0 < w i ^ 2 := by have : w i ≠ 0 := hi; positivity
    exact lt_of_lt_of_le hi' (Finset.single_le_sum (f := fun i => w i ^ 2) (fun _ _ => sq_nonneg _) (Finset.mem_univ i))
  have f1 : frob2 (Matrix.of fun i j => u i * z j) = (∑ i, u i ^ 2) * ∑ i, z i ^ 2 := by
    unfold frob2
    rw [Finset.sum_mul_sum]
    exact Finset.sum_congr rfl fun i _ => Finset.sum_congr rfl fun j _ => by simp only [Matrix.of_apply]; ring
  have p1 := pos u u0
  have p2 := pos z z0
  refine ⟨Matrix.of fun i j => u i * z j, ?_, by rw [f1]; positivity, fun s => ?_⟩
  · rw [asymmetry_sum]
    have e1 : ∑ i, ((∑ k, (Matrix.of fun i j => u i * z j) k i ^ 2) - ∑ k, (Matrix.of fun i j => u i * z j) i k * (Matrix.of fun i j => u i * z j) k i) =
        (∑ i, u i ^ 2) * ∑ i, z i ^ 2 := by
      rw [Finset.sum_sub_distrib]
      have a1 : ∑ i, ∑ k, (Matrix.of fun i j => u i * z j) k i ^ 2 = (∑ i, u i ^ 2) * ∑ i, z i ^ 2 := by rw [← f1]; exact Finset.sum_comm
      have a2 : ∑ i, ∑ k, (Matrix.of fun i j => u i * z j) i k * (Matrix.of fun i j => u i * z j) k i = (∑ i, z i * u i) * ∑ k, z k * u k := by
        rw [Finset.sum_mul_sum]
        exact Finset.sum_congr rfl fun i _ => Finset.sum_congr rfl fun j _ => by simp only [Matrix.of_apply]; ring
      rw [a1, a2, hu]; ring
    rw [e1, f1]
    have : 0 < (∑ i, u i ^ 2) * ∑ i, z i ^ 2 := by positivity
    linarith
  · obtain ⟨j, -, e, -⟩ := C82_symmetric G (ofReal (Matrix.of fun i j => u i * z j)) repeats eps eps3 s
    rw [e, checkSymmetric_square, symmetricLoop_iff]
    intro k _ hk
    have h0 : (Matrix.of fun i j => u i * z j) *ᵥ G.vector n (G.seed 1) k = 0 := by
      funext i
      have := hz k (by omega)
      rw [dotProduct] at this
      simp only [mulVec, dotProduct, Matrix.of_apply, Pi.zero_apply]
      rw [← mul_zero (u i), ← this, Finset.mul_sum]
      exact Finset.sum_congr rfl fun j _ => by ring
    rw [asymmetryFound_real, h0]
    simp only [mulVec_zero, dotProduct_zero, sub_zero, abs_zero, not_lt]
    positivity

/-- **Specification.** Copositive: nonnegative on nonnegative vectors; strictly if positive except at zero. -/
def Copositive {n : Nat} (B : Matrix (Fin n) (Fin n) ℝ) : Prop := ∀ v : Fin n → ℝ, (∀ i, 0 ≤ v i) → 0 ≤ v ⬝ᵥ (B *ᵥ v)
def StrictlyCopositive {n : Nat} (B : Matrix (Fin n) (Fin n) ℝ) : Prop :=
  ∀ v : Fin n → ℝ, (∀ i, 0 ≤ v i) → v ≠ 0 → 0 < v ⬝ᵥ (B *ᵥ v)

/-- scaling a nonnegative vector into the cube -/
theorem scaled {n : Nat} (v : Fin n → ℝ) (hv : ∀ i, 0 ≤ v i) (h0 : v ≠ 0) (B : Matrix (Fin n) (Fin n) ℝ) :
    ∃ c : ℝ, 0 < c ∧ Drawable (c • v) ∧ c • v ≠ 0 ∧ (c • v) ⬝ᵥ (B *ᵥ (c • v)) = c ^ 2 * (v ⬝ᵥ (B *ᵥ v)) := by
  have hs : 0 ≤ ∑ i, v i := Finset.sum_nonneg fun i _ => hv i
  have hc : 0 < 1 / (1 + ∑ i, v i) := by positivity
  refine ⟨1 / (1 + ∑ i, v i), hc, fun i => ?_, smul_ne_zero hc.ne' h0, ?_⟩
  · have h1 : v i ≤ ∑ i, v i := Finset.single_le_sum (f := v) (fun i _ => hv i) (Finset.mem_univ i)
    simp only [Pi.smul_apply, smul_eq_mul]
    refine ⟨mul_nonneg hc.le (hv i), ?_⟩
    rw [one_div, inv_mul_lt_iff₀ (by positivity)]
    linarith
  · rw [mulVec_smul, smul_dotProduct, dotProduct_smul, smul_eq_mul, smul_eq_mul]; ring

/-- **C83, definiteness.** Which real operators pass `check_positive_definite`, whatever (nonzero) vectors are drawn, and however often: not
the positive definite ones, but the strictly copositive ones, because `np.random.random` draws nonnegative numbers. -/
theorem C83_definite_exact {n : Nat} (B : Matrix (Fin n) (Fin n) ℝ) (repeats : Nat) (hr : 1 ≤ repeats) (e : ℝ) (he : 0 ≤ e) :
    ((∀ draw : Nat → Fin n → ℝ, (∀ i, Drawable (draw i) ∧ draw i ≠ 0) → checkPositiveDefinite (ofReal B) repeats false e draw = true) ↔
      StrictlyCopositive B) ∧
    ((∀ draw : Nat → Fin n → ℝ, (∀ i, Drawable (draw i)) → checkPositiveDefinite (ofReal B) repeats true e draw = true) ↔ Copositive B) := by
  refine ⟨⟨fun h v hv h0 => ?_, fun h draw hd => ?_⟩, fun h v hv => ?_, fun h draw hd => ?_⟩
  · obtain ⟨c, c0, h1, h2, h3⟩ := scaled v hv h0 B
    have := h (fun _ => c • v) fun _ => ⟨h1, h2⟩
    rw [checkPositiveDefinite_square, definiteLoop_iff] at this
    have := this 0 le_rfl (by omega)
    rw [negativeFound_real _ _ he, h3] at this
    simp only [Bool.false_eq_true, if_false, not_le] at this
    exact pos_of_mul_pos_right this (by positivity)
  · rw [checkPositiveDefinite_square, definiteLoop_iff]
    intro j _ _
    rw [negativeFound_real _ _ he]
    simpa using h _ (fun i => ((hd j).1 i).1) (hd j).2
  · by_cases h0 : v = 0
    · simp [h0]
    · obtain ⟨c, c0, h1, h2, h3⟩ := scaled v hv h0 B
      have := h (fun _ => c • v) fun _ => h1
      rw [checkPositiveDefinite_square, definiteLoop_iff] at this
      have := this 0 le_rfl (by omega)
      rw [negativeFound_real _ _ he, h3] at this
      simp only [if_true, not_lt] at this
      exact nonneg_of_mul_nonneg_right this (by positivity)
  · rw [checkPositiveDefinite_square, definiteLoop_iff]
    intro j _ _
    rw [negativeFound_real _ _ he]
    simpa using h _ (fun i => (hd j i).1)

/-- **C83, definiteness, is violated.** Every operator with positive entries passes, for every stream of nonzero vectors that can be drawn and
every number of repetitions; among them are operators of every order from 2 on with a negative eigenvalue. -/
theorem C83_definite_violated :
    (∀ (n : Nat) (B : Matrix (Fin n) (Fin n) ℝ), (∀ i j, 0 < B i j) → ∀ (repeats : Nat) (semi : Bool) (e : ℝ), 0 ≤ e →
      ∀ draw : Nat → Fin n → ℝ, (∀ i, Drawable (draw i) ∧ draw i ≠ 0) → checkPositiveDefinite (ofReal B) repeats semi e draw = true) ∧
    ∀ n : Nat, 2 ≤ n → ∃ B : Matrix (Fin n) (Fin n) ℝ, Bᵀ = B ∧ (∀ i j, 0 < B i j) ∧ ∃ v, v ≠ 0 ∧ B *ᵥ v = -v := by
  constructor
  · intro n B hB repeats semi e he draw hd
    rw [checkPositiveDefinite_square, definiteLoop_iff]
    intro j _ _
    rw [negativeFound_real _ _ he]
    obtain ⟨hx, h0⟩ := hd j
    obtain ⟨i, hi⟩ := Function.ne_iff.1 h0
    have hi : 0 < draw j i := lt_of_le_of_ne (hx i).1 (Ne.symm hi)
    have hpos : 0 < draw j ⬝ᵥ (B *ᵥ draw j) := by
      have nn : ∀ a, 0 ≤ (B *ᵥ draw j) a := fun a => by
        rw [mulVec, dotProduct]; exact Finset.sum_nonneg fun b _ => mul_nonneg (hB a b).le (hx b).1
      have h1 : 0 < (B *ᵥ draw j) i := lt_of_lt_of_le (mul_pos (hB i i) hi)
        (Finset.single_le_sum (f := fun b => B i b * draw j b) (fun b _ => mul_nonneg (hB i b).le (hx b).1) (Finset.mem_univ i))
      exact lt_of_lt_of_le (mul_pos hi h1)
        (Finset.single_le_sum (f := fun a => draw j a * (B *ᵥ draw j) a) (fun a _ => mul_nonneg (hx a).1 (nn a)) (Finset.mem_univ i))
    cases semi
    · simpa using hpos
    · simpa using hpos.le
  · intro n hn
    refine ⟨Matrix.of fun i j => if i = j then 1 else 2, ?_, fun i j => ?_, Pi.single ⟨0, by omega⟩ 1 - Pi.single ⟨1, by omega⟩ 1, ?_, ?_⟩
    · ext i j; simp [eq_comm]
    · simp only [Matrix.of_apply]; split <;> norm_num
    · intro h
      have := congrFun h ⟨0, by omega⟩
      simp at this
    · rw [mulVec_sub]
      funext i
      simp only [Pi.sub_apply, Pi.neg_apply, mulVec_single_one, Matrix.col_apply, Matrix.of_apply, Pi.single_apply]
      by_cases h0 : i = ⟨0, by omega⟩
      · subst h0; norm_num
      · by_cases h1 : i = ⟨1, by omega⟩
        · subst h1; norm_num
        · simp [h0, h1]

/-- an operator that meets the hypothesis of `C83_symmetric_exposed`, with the tolerance of double precision -/
example : 2 * (1 / 100000) * (frob2 !![(0 : ℝ), 1; 0, 0] + 4 * 2 * (1 / 2 ^ 52)) < frob2 (!![(0 : ℝ), 1; 0, 0] - (!![(0 : ℝ), 1; 0, 0])ᵀ) := by
  simp [frob2, Fin.sum_univ_two]
  norm_num

/-- an operator that meets the hypothesis of `C83_definite_violated` -/
example : ∀ i j, (0 : ℝ) < (!![1, 2; 2, 1] : Matrix (Fin 2) (Fin 2) ℝ) i j := by intro i j; fin_cases i <;> fin_cases j <;> simp

end Verif.Tools
