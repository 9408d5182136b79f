import Verif.Solver.Confined
import Mathlib.Algebra.Polynomial.AlgebraMap
import Mathlib.Algebra.Polynomial.Degree.Operations
import Mathlib.Algebra.Polynomial.Degree.Lemmas
import Mathlib.Analysis.InnerProductSpace.Basic
import Mathlib.LinearAlgebra.Dimension.Constructions
import Mathlib.LinearAlgebra.FiniteDimensional.Lemmas
import Mathlib.Tactic.LinearCombination
import Mathlib.Tactic.FieldSimp

/-!
# Formal orthogonal polynomials

Mathematics behind CGS, Bi-CGSTAB and TFQMR: polynomials in a linear map `B` applied to a vector `c`, and the bilinear
form `(f, g) ↦ ⟪c, f(B) g(B) c⟫`.  No code is modelled here.
-/

namespace Verif.Solver
open Polynomial
open scoped RealInnerProductSpace

variable {E : Type} [NormedAddCommGroup E] [InnerProductSpace ℝ E]

/-- `f(B) c` -/
noncomputable def polyAt (B : E →ₗ[ℝ] E) (c : E) (f : ℝ[X]) : E := aeval (R := ℝ) (A := Module.End ℝ E) B f c

/-- `⟪c, f(B) c⟫` -/
noncomputable def moment (B : E →ₗ[ℝ] E) (c : E) (f : ℝ[X]) : ℝ := ⟪c, polyAt B c f⟫

section
variable (B : E →ₗ[ℝ] E) (c : E)

theorem polyAt_add (f g : ℝ[X]) : polyAt B c (f + g) = polyAt B c f + polyAt B c g := by simp [polyAt]
theorem polyAt_sub (f g : ℝ[X]) : polyAt B c (f - g) = polyAt B c f - polyAt B c g := by simp [polyAt]
theorem polyAt_C_mul (a : ℝ) (f : ℝ[X]) : polyAt B c (C a * f) = a • polyAt B c f := by
  rw [← Polynomial.smul_eq_C_mul]; simp [polyAt]
theorem polyAt_X_mul (f : ℝ[X]) : polyAt B c (X * f) = B (polyAt B c f) := by simp [polyAt]
theorem polyAt_one : polyAt B c 1 = c := by simp [polyAt]
theorem polyAt_zero : polyAt B c 0 = 0 := by simp [polyAt]
theorem polyAt_mul (f g : ℝ[X]) : polyAt B c (f * g) = aeval (R := ℝ) (A := Module.End ℝ E) B f (polyAt B c g) := by
  simp [polyAt]

theorem moment_add (f g : ℝ[X]) : moment B c (f + g) = moment B c f + moment B c g := by
  simp [moment, polyAt_add, inner_add_right]
theorem moment_sub (f g : ℝ[X]) : moment B c (f - g) = moment B c f - moment B c g := by
  simp [moment, polyAt_sub, inner_sub_right]
theorem moment_C_mul (a : ℝ) (f : ℝ[X]) : moment B c (C a * f) = a * moment B c f := by
  simp [moment, polyAt_C_mul, inner_smul_right]

variable {B c}
theorem moment_of_polyAt_zero {f : ℝ[X]} (h : polyAt B c f = 0) (g : ℝ[X]) : moment B c (g * f) = 0 := by
  rw [moment, polyAt_mul, h, map_zero, inner_zero_right]

end

/-- `f` is orthogonal to all polynomials of degree less than `j` -/
def Orth (B : E →ₗ[ℝ] E) (c : E) (j : ℕ) (f : ℝ[X]) : Prop := ∀ g : ℝ[X], g.degree < j → moment B c (g * f) = 0

variable {B : E →ₗ[ℝ] E} {c : E}

theorem orth_zero (f : ℝ[X]) : Orth B c 0 f := by
  intro g hg
  have : g = 0 := by
    rw [← degree_eq_bot]
    exact Nat.WithBot.lt_zero_iff.1 hg
  rw [this, zero_mul, moment, polyAt_zero, inner_zero_right]

theorem Orth.mono {j k : ℕ} {f : ℝ[X]} (h : Orth B c j f) (hk : k ≤ j) : Orth B c k f :=
  fun g hg => h g (lt_of_lt_of_le hg (by exact_mod_cast hk))

theorem Orth.sub {j : ℕ} {f g : ℝ[X]} (hf : Orth B c j f) (hg : Orth B c j g) : Orth B c j (f - g) := by
  intro h hh; rw [mul_sub, moment_sub, hf h hh, hg h hh, sub_zero]
theorem Orth.add {j : ℕ} {f g : ℝ[X]} (hf : Orth B c j f) (hg : Orth B c j g) : Orth B c j (f + g) := by
  intro h hh; rw [mul_add, moment_add, hf h hh, hg h hh, add_zero]
theorem Orth.C_mul {j : ℕ} {f : ℝ[X]} (hf : Orth B c j f) (a : ℝ) : Orth B c j (C a * f) := by
  intro h hh
  rw [show h * (C a * f) = C a * (h * f) by ring, moment_C_mul, hf h hh, mul_zero]

/-- multiplication by `X` moves to the other side -/
theorem Orth.X_mul {j : ℕ} {f : ℝ[X]} (hf : Orth B c (j + 1) f) : Orth B c j (X * f) := by
  intro g hg
  rw [show g * (X * f) = (X * g) * f by ring]
  apply hf
  rcases eq_or_ne g 0 with rfl | hne
  · rw [mul_zero, degree_zero]; exact WithBot.bot_lt_coe _
  · rw [degree_mul, degree_X, degree_eq_natDegree hne] at *
    have : g.natDegree < j := by exact_mod_cast hg
    rw [show (1 : WithBot ℕ) + (g.natDegree : WithBot ℕ) = ((1 + g.natDegree : ℕ) : WithBot ℕ) by push_cast; rfl]
    exact_mod_cast (by omega : 1 + g.natDegree < j + 1)

/-- a polynomial of degree at most `j` is a multiple of one of degree `j`, up to lower terms -/
theorem exists_lower {j : ℕ} {χ g : ℝ[X]} (hχ : χ.degree = j) (hg : g.degree < (j + 1 : ℕ)) :
    (g - C (g.coeff j / χ.coeff j) * χ).degree < j := by
  have hl : χ.coeff j ≠ 0 := by
    have h := natDegree_eq_of_degree_eq_some hχ
    have : χ ≠ 0 := by rintro rfl; simp at hχ
    rw [← h]; simpa using this
  rw [degree_lt_iff_coeff_zero]
  intro m hm
  rw [coeff_sub, coeff_C_mul]
  rcases eq_or_lt_of_le hm with rfl | hm
  · field_simp; simp
  · rw [(degree_lt_iff_coeff_zero g (j + 1)).1 hg m hm, coeff_eq_zero_of_degree_lt (p := χ) (n := m) (by rw [hχ]; exact_mod_cast hm)]
    simp

/-- orthogonality to one polynomial of degree exactly `j` more -/
theorem Orth.extend {j : ℕ} {f χ : ℝ[X]} (hf : Orth B c j f) (hχ : χ.degree = j) (h : moment B c (χ * f) = 0) :
    Orth B c (j + 1) f := by
  intro g hg
  have h1 := hf _ (exists_lower hχ hg)
  rw [sub_mul, moment_sub, mul_assoc, moment_C_mul, h, mul_zero, sub_zero] at h1
  exact h1

/-- the polynomials of the first `j` steps, with test polynomials that make the triangle of moments regular -/
def Hist (B : E →ₗ[ℝ] E) (c : E) (j : ℕ) : Prop :=
  ∃ W T : ℕ → ℝ[X], ∀ i < j, (W i).degree < (i + 1 : ℕ) ∧ (T i).degree < (i + 1 : ℕ) ∧ Orth B c i (W i) ∧
    moment B c (T i * W i) ≠ 0

theorem hist_zero : Hist B c 0 := ⟨fun _ => 0, fun _ => 0, fun _ h => absurd h (Nat.not_lt_zero _)⟩

theorem Hist.snoc {j : ℕ} (h : Hist B c j) {w t : ℝ[X]} (hw : w.degree < (j + 1 : ℕ)) (ht : t.degree < (j + 1 : ℕ))
    (ho : Orth B c j w) (hm : moment B c (t * w) ≠ 0) : Hist B c (j + 1) := by
  obtain ⟨W, T, h⟩ := h
  refine ⟨Function.update W j w, Function.update T j t, fun i hi => ?_⟩
  rcases Nat.lt_succ_iff_lt_or_eq.1 hi with hi | rfl
  · simpa [Function.update_of_ne hi.ne] using h i hi
  · simpa using ⟨hw, ht, ho, hm⟩

/-- the vectors of the first `j` steps and one more vector, orthogonal to all test polynomials, are independent -/
theorem hist_independent {j : ℕ} {W T : ℕ → ℝ[X]} {φ : ℝ[X]}
    (h : ∀ i < j, (W i).degree < (i + 1 : ℕ) ∧ (T i).degree < (i + 1 : ℕ) ∧ Orth B c i (W i) ∧
      moment B c (T i * W i) ≠ 0) (hφ : Orth B c j φ) (hne : polyAt B c φ ≠ 0) :
    LinearIndependent ℝ (fun i : Fin (j + 1) => polyAt B c (if (i : ℕ) < j then W i else φ)) := by
  rw [Fintype.linearIndependent_iff]
  intro a ha
  -- all coefficients before `i` vanish
  have key : ∀ k ≤ j, ∀ i : Fin (j + 1), (i : ℕ) < k → a i = 0 := by
    intro k
    induction k with
    | zero => intro _ i hi; omega
    | succ k ih =>
      intro hk i hi
      rcases Nat.lt_succ_iff_lt_or_eq.1 hi with hi | hi
      · exact ih (by omega) i hi
      · have h0 : moment B c (T k * ∑ i : Fin (j + 1), C (a i) * (if (i : ℕ) < j then W i else φ)) = 0 := by
          apply moment_of_polyAt_zero
          rw [← ha]
          simp only [polyAt, map_sum, LinearMap.sum_apply]
          refine Finset.sum_congr rfl fun i _ => ?_
          exact polyAt_C_mul B c (a i) _
        rw [Finset.mul_sum] at h0
        have h1 : moment B c (∑ i : Fin (j + 1), T k * (C (a i) * (if (i : ℕ) < j then W i else φ))) =
            ∑ i : Fin (j + 1), a i * moment B c (T k * (if (i : ℕ) < j then W i else φ)) := by
          simp only [moment, polyAt, map_sum, LinearMap.sum_apply, inner_sum]
          refine Finset.sum_congr rfl fun i _ => ?_
          have := moment_C_mul B c (a i) (T k * (if (i : ℕ) < j then W i else φ))
          rw [show C (a i) * (T k * (if (i : ℕ) < j then W i else φ)) =
            T k * (C (a i) * (if (i : ℕ) < j then W i else φ)) by ring] at this
          exact this
        rw [h1, Finset.sum_eq_single i] at h0
        · rw [if_pos (by omega), hi] at h0
          exact (mul_eq_zero.1 h0).resolve_right (h k (by omega)).2.2.2
        · intro l _ hl
          rcases lt_or_gt_of_ne (fun e => hl (Fin.ext e) : (l : ℕ) ≠ i) with hlt | hgt
          · rw [ih (by omega) l (by omega), zero_mul]
          · by_cases hlj : (l : ℕ) < j
            · rw [if_pos hlj, (h l hlj).2.2.1 (T k) (lt_of_lt_of_le (h k (by omega)).2.1 (by exact_mod_cast (by omega))),
                mul_zero]
            · rw [if_neg hlj, hφ (T k) (lt_of_lt_of_le (h k (by omega)).2.1 (by exact_mod_cast (by omega))), mul_zero]
        · intro hh; exact absurd (Finset.mem_univ _) hh
  intro i
  by_cases hi : (i : ℕ) < j
  · exact key j le_rfl i hi
  · have hij : i = Fin.last j := Fin.ext (by simp; omega)
    rw [Fin.sum_univ_castSucc] at ha
    have h2 : ∑ i : Fin j, a i.castSucc • polyAt B c (if ((i.castSucc : Fin (j + 1)) : ℕ) < j then W i.castSucc else φ) = 0 :=
      Finset.sum_eq_zero fun i _ => by rw [key j le_rfl i.castSucc i.2, zero_smul]
    rw [h2, zero_add] at ha
    simp only [Fin.val_last, lt_irrefl, if_false] at ha
    rw [hij]
    exact (smul_eq_zero.1 ha).resolve_right hne

/-- polynomials in `B` keep the vectors of an invariant subspace inside -/
theorem aeval_mem {W : Submodule ℝ E} (hW : ∀ w ∈ W, B w ∈ W) (f : ℝ[X]) {w : E} (hw : w ∈ W) :
    aeval (R := ℝ) (A := Module.End ℝ E) B f w ∈ W := by
  induction f using Polynomial.induction_on' with
  | add f g hf hg => rw [map_add]; exact W.add_mem hf hg
  | monomial n a =>
    have : ∀ n, (B ^ n : Module.End ℝ E) w ∈ W := by
      intro n
      induction n with
      | zero => simpa using hw
      | succ n ih => rw [pow_succ']; exact hW _ ih
    rw [aeval_monomial]
    simpa using W.smul_mem a (this n)

/-- after as many steps as the dimension the vector vanishes -/
theorem Hist.full [FiniteDimensional ℝ E] {n : ℕ} (h : Hist B c n) (hn : Confined B c n) {φ : ℝ[X]}
    (hφ : Orth B c n φ) : polyAt B c φ = 0 := by
  obtain ⟨W, T, h⟩ := h
  obtain ⟨V, hV, hc, hB⟩ := hn
  by_contra hne
  have := card_le_of_mem hV (hist_independent h hφ hne) (fun i => aeval_mem hB _ hc)
  omega

/-- one step earlier: a vanishing moment makes all moments vanish -/
theorem Hist.last [FiniteDimensional ℝ E] {j : ℕ} (h : Hist B c j) (hn : Confined B c (j + 1)) {φ : ℝ[X]}
    (hd : φ.degree < (j + 1 : ℕ)) (hφ : Orth B c (j + 1) φ) (g : ℝ[X]) : moment B c (g * φ) = 0 := by
  by_cases hne : polyAt B c φ = 0
  · exact moment_of_polyAt_zero hne g
  obtain ⟨W, T, h⟩ := h
  obtain ⟨V, hV, hc, hB⟩ := hn
  have hi := hist_independent h (hφ.mono (Nat.le_succ j)) hne
  have hle : Submodule.span ℝ (Set.range fun i : Fin (j + 1) => polyAt B c (if (i : ℕ) < j then W i else φ)) ≤ V := by
    rw [Submodule.span_le]
    rintro _ ⟨i, rfl⟩
    exact aeval_mem hB _ hc
  have hspan := Submodule.eq_of_le_of_finrank_le hle (by
    rw [finrank_span_eq_card hi, Fintype.card_fin]; exact hV)
  -- the functional `v ↦ ⟪c, φ(B) v⟫` is zero on the basis
  have hz : ∀ v ∈ V, ⟪c, aeval (R := ℝ) (A := Module.End ℝ E) B φ v⟫ = 0 := by
    intro v hv
    rw [← hspan] at hv
    induction hv using Submodule.span_induction with
    | mem x hx =>
      obtain ⟨i, rfl⟩ := hx
      simp only
      rw [← polyAt_mul, mul_comm]
      by_cases hij : (i : ℕ) < j
      · rw [if_pos hij]
        exact hφ _ (lt_of_lt_of_le (h i hij).1 (by exact_mod_cast (by omega)))
      · rw [if_neg hij]
        exact hφ _ hd
    | zero => rw [map_zero, inner_zero_right]
    | add x y _ _ hx hy => rw [map_add, inner_add_right, hx, hy, add_zero]
    | smul a x _ hx => rw [map_smul, inner_smul_right, hx, mul_zero]
  rw [mul_comm, moment, polyAt_mul]
  exact hz _ (aeval_mem hB _ hc)

/-! ## One step -/

theorem degree_X_mul_lt {j : ℕ} {f : ℝ[X]} (h : f.degree < j) : (X * f).degree < ((j + 1 : ℕ) : WithBot ℕ) := by
  rw [degree_lt_iff_coeff_zero] at h ⊢
  intro m hm
  obtain ⟨m, rfl⟩ : ∃ k, m = k + 1 := ⟨m - 1, by omega⟩
  rw [coeff_X_mul]
  exact h m (by omega)

theorem degree_sub_lt' {j : ℕ} {f g : ℝ[X]} (hf : f.degree < j) (hg : g.degree < j) : (f - g).degree < j := by
  rw [degree_lt_iff_coeff_zero] at hf hg ⊢
  intro m hm
  rw [coeff_sub, hf m hm, hg m hm, sub_zero]

theorem degree_add_lt' {j : ℕ} {f g : ℝ[X]} (hf : f.degree < j) (hg : g.degree < j) : (f + g).degree < j := by
  rw [degree_lt_iff_coeff_zero] at hf hg ⊢
  intro m hm
  rw [coeff_add, hf m hm, hg m hm, add_zero]

theorem degree_C_mul_lt {j : ℕ} {f : ℝ[X]} (hf : f.degree < j) (a : ℝ) : (C a * f).degree < j := by
  rw [degree_lt_iff_coeff_zero] at hf ⊢
  intro m hm
  rw [coeff_C_mul, hf m hm, mul_zero]

theorem degree_lt_succ {j : ℕ} {f : ℝ[X]} (hf : f.degree < j) : f.degree < (j + 1 : ℕ) :=
  lt_trans hf (by exact_mod_cast Nat.lt_succ_self j)

/-- a polynomial of degree at most `j + 1` with a leading coefficient -/
theorem degree_eq_of_coeff {j : ℕ} {f : ℝ[X]} (h : f.degree < (j + 1 : ℕ)) (hc : f.coeff j ≠ 0) : f.degree = j := by
  refine le_antisymm ?_ (le_degree_of_ne_zero hc)
  rw [degree_le_iff_coeff_zero]
  intro m hm
  exact (degree_lt_iff_coeff_zero f (j + 1)).1 h m (by exact_mod_cast hm)

theorem coeff_ne_zero_of_degree_eq {j : ℕ} {f : ℝ[X]} (h : f.degree = j) : f.coeff j ≠ 0 := by
  have h1 := natDegree_eq_of_degree_eq_some h
  have : f ≠ 0 := by rintro rfl; simp at h
  rw [← h1]; simpa using this

/-- the next residual polynomial -/
theorem Orth.next {j : ℕ} {φ ψ χ : ℝ[X]} (hφ : Orth B c j φ) (hψ : Orth B c j (X * ψ)) (hχ : χ.degree = j) {α : ℝ}
    (hα : α * moment B c (χ * (X * ψ)) = moment B c (χ * φ)) : Orth B c (j + 1) (φ - C α * (X * ψ)) := by
  refine (hφ.sub (hψ.C_mul α)).extend hχ ?_
  rw [mul_sub, moment_sub, show χ * (C α * (X * ψ)) = C α * (χ * (X * ψ)) by ring, moment_C_mul, hα, sub_self]

/-- the next direction polynomial -/
theorem Orth.next_dir {j : ℕ} {φ' ψ χ : ℝ[X]} (hφ : Orth B c (j + 1) φ') (hψ : Orth B c j (X * ψ)) (hχ : χ.degree = j)
    {β : ℝ} (hβ : moment B c (χ * (X * φ')) + β * moment B c (χ * (X * ψ)) = 0) :
    Orth B c (j + 1) (X * (φ' + C β * ψ)) := by
  have e : X * (φ' + C β * ψ) = X * φ' + C β * (X * ψ) := by ring
  rw [e]
  refine (hφ.X_mul.add (hψ.C_mul β)).extend hχ ?_
  rw [mul_add, moment_add, show χ * (C β * (X * ψ)) = C β * (χ * (X * ψ)) by ring, moment_C_mul, hβ]

/-- residual and direction polynomials of CGS after `j` steps -/
structure CgsPoly (B : E →ₗ[ℝ] E) (c : E) (j : ℕ) (φ ψ : ℝ[X]) : Prop where
  deg : φ.degree = j
  low : (ψ - φ).degree < j
  orth : Orth B c j φ
  dir : Orth B c j (X * ψ)

theorem cgsPoly_zero : CgsPoly B c 0 1 1 := ⟨by simp, by simp, orth_zero _, orth_zero _⟩

namespace CgsPoly
variable {j : ℕ} {φ ψ : ℝ[X]}

theorem degLt (h : CgsPoly B c j φ ψ) : φ.degree < (j + 1 : ℕ) := by
  rw [h.deg]; exact_mod_cast Nat.lt_succ_self j

theorem dirDeg (h : CgsPoly B c j φ ψ) : ψ.degree < (j + 1 : ℕ) := by
  have := degree_add_lt' (degree_lt_succ h.low) h.degLt
  rwa [sub_add_cancel] at this

theorem sigma (h : CgsPoly B c j φ ψ) : moment B c (ψ * (X * ψ)) = moment B c (φ * (X * ψ)) := by
  have := h.dir _ h.low
  rw [sub_mul, moment_sub] at this
  linarith

theorem rho (h : CgsPoly B c j φ ψ) : moment B c (ψ * φ) = moment B c (φ * φ) := by
  have := h.orth _ h.low
  rw [sub_mul, moment_sub] at this
  linarith

theorem orthNext (h : CgsPoly B c j φ ψ) {α : ℝ} (hα : α * moment B c (ψ * (X * ψ)) = moment B c (φ * φ)) :
    Orth B c (j + 1) (φ - C α * (X * ψ)) :=
  h.orth.next h.dir h.deg (by rw [← h.sigma, hα])

theorem next (h : CgsPoly B c j φ ψ) {α β : ℝ} (hρ : moment B c (φ * φ) ≠ 0)
    (hα : α * moment B c (ψ * (X * ψ)) = moment B c (φ * φ))
    (hβ : β * moment B c (φ * φ) = moment B c ((φ - C α * (X * ψ)) * (φ - C α * (X * ψ)))) :
    CgsPoly B c (j + 1) (φ - C α * (X * ψ)) (φ - C α * (X * ψ) + C β * ψ) := by
  have ho := h.orthNext hα
  have hα0 : α ≠ 0 := by rintro rfl; rw [zero_mul] at hα; exact hρ hα.symm
  have hψc : ψ.coeff j ≠ 0 := by
    have := (degree_lt_iff_coeff_zero _ _).1 h.low j le_rfl
    rw [coeff_sub, sub_eq_zero] at this
    rw [this]; exact coeff_ne_zero_of_degree_eq h.deg
  refine ⟨?_, ?_, ho, ?_⟩
  · refine degree_eq_of_coeff (degree_sub_lt' (degree_lt_succ h.degLt) (degree_C_mul_lt (degree_X_mul_lt h.dirDeg) α)) ?_
    rw [coeff_sub, coeff_C_mul, coeff_X_mul, (degree_lt_iff_coeff_zero _ _).1 h.degLt (j + 1) le_rfl, zero_sub]
    exact neg_ne_zero.2 (mul_ne_zero hα0 hψc)
  · rw [add_sub_cancel_left]; exact degree_C_mul_lt h.dirDeg β
  · refine ho.next_dir h.dir h.deg ?_
    generalize hφ' : φ - C α * (X * ψ) = φ' at *
    have e1 : moment B c (φ * (X * φ')) = moment B c (ψ * (X * φ')) := by
      have := ho.X_mul _ h.low
      rw [sub_mul, moment_sub] at this
      linarith
    have e2 : α * moment B c (ψ * (X * φ')) = - moment B c (φ' * φ') := by
      rw [← moment_C_mul, show C α * (ψ * (X * φ')) = φ * φ' - φ' * φ' by rw [← hφ']; ring, moment_sub,
        ho φ h.degLt, zero_sub]
    rw [e1, ← h.sigma]
    have e3 : α * (moment B c (ψ * (X * φ')) + β * moment B c (ψ * (X * ψ))) = 0 := by
      rw [mul_add, e2, show α * (β * moment B c (ψ * (X * ψ))) = β * (α * moment B c (ψ * (X * ψ))) by ring, hα, hβ]
      ring
    exact (mul_eq_zero.1 e3).resolve_left hα0

theorem hist (h : CgsPoly B c j φ ψ) (hh : Hist B c j) (hρ : moment B c (φ * φ) ≠ 0) : Hist B c (j + 1) :=
  hh.snoc h.degLt h.degLt h.orth hρ

/-- In the last step a zero of the numerator is a zero of the denominator. -/
theorem lastStep [FiniteDimensional ℝ E] (h : CgsPoly B c j φ ψ) (hh : Hist B c j)
    (hn : Confined B c (j + 1)) (hρ : moment B c (φ * φ) = 0) : moment B c (ψ * (X * ψ)) = 0 := by
  have ho : Orth B c (j + 1) φ := h.orth.extend h.deg hρ
  rw [h.sigma, mul_comm φ]
  exact hh.last hn h.degLt ho _

end CgsPoly

/-- residual, direction and smoothing polynomials of Bi-CGSTAB after `j` steps -/
structure BiPoly (B : E →ₗ[ℝ] E) (c : E) (j : ℕ) (φ ψ χ : ℝ[X]) : Prop extends CgsPoly B c j φ ψ where
  testDeg : χ.degree = j

theorem biPoly_zero : BiPoly B c 0 1 1 1 := ⟨cgsPoly_zero, by simp⟩

namespace BiPoly
variable {j : ℕ} {φ ψ χ : ℝ[X]}

theorem testLt (h : BiPoly B c j φ ψ χ) : χ.degree < (j + 1 : ℕ) := by
  rw [h.testDeg]; exact_mod_cast Nat.lt_succ_self j

/-- the test polynomial is a multiple of the residual polynomial, up to lower terms -/
theorem test_moment (h : BiPoly B c j φ ψ χ) : ∃ a : ℝ, a ≠ 0 ∧ ∀ f, Orth B c j f → moment B c (χ * f) = a * moment B c (φ * f) := by
  refine ⟨χ.coeff j / φ.coeff j,
    div_ne_zero (coeff_ne_zero_of_degree_eq h.testDeg) (coeff_ne_zero_of_degree_eq h.deg), fun f hf => ?_⟩
  have := hf _ (exists_lower h.deg h.testLt)
  rw [sub_mul, moment_sub, mul_assoc, moment_C_mul] at this
  linarith

theorem orthNext' (h : BiPoly B c j φ ψ χ) {α : ℝ} (hα : α * moment B c (χ * (X * ψ)) = moment B c (χ * φ)) :
    Orth B c (j + 1) (φ - C α * (X * ψ)) := h.orth.next h.dir h.testDeg hα

theorem next' (h : BiPoly B c j φ ψ χ) {α β ω : ℝ} (hω : ω ≠ 0) (hρ : moment B c (χ * φ) ≠ 0)
    (hα : α * moment B c (χ * (X * ψ)) = moment B c (χ * φ))
    (hβ : β * ω * moment B c (χ * (X * ψ)) = moment B c ((χ - C ω * (X * χ)) * (φ - C α * (X * ψ)))) :
    BiPoly B c (j + 1) (φ - C α * (X * ψ)) (φ - C α * (X * ψ) + C β * ψ) (χ - C ω * (X * χ)) := by
  have ho := h.orthNext' hα
  have hα0 : α ≠ 0 := by rintro rfl; rw [zero_mul] at hα; exact hρ hα.symm
  have hψc : ψ.coeff j ≠ 0 := by
    have := (degree_lt_iff_coeff_zero _ _).1 h.low j le_rfl
    rw [coeff_sub, sub_eq_zero] at this
    rw [this]; exact coeff_ne_zero_of_degree_eq h.deg
  refine ⟨⟨?_, ?_, ho, ?_⟩, ?_⟩
  · refine degree_eq_of_coeff (degree_sub_lt' (degree_lt_succ h.degLt) (degree_C_mul_lt (degree_X_mul_lt h.dirDeg) α)) ?_
    rw [coeff_sub, coeff_C_mul, coeff_X_mul, (degree_lt_iff_coeff_zero _ _).1 h.degLt (j + 1) le_rfl, zero_sub]
    exact neg_ne_zero.2 (mul_ne_zero hα0 hψc)
  · rw [add_sub_cancel_left]; exact degree_C_mul_lt h.dirDeg β
  · refine ho.next_dir h.dir h.testDeg ?_
    generalize φ - C α * (X * ψ) = φ' at *
    rw [sub_mul, moment_sub, ho χ h.testLt, show C ω * (X * χ) * φ' = C ω * (χ * (X * φ')) by ring, moment_C_mul,
      zero_sub] at hβ
    have : ω * (moment B c (χ * (X * φ')) + β * moment B c (χ * (X * ψ))) = 0 := by linear_combination hβ
    exact (mul_eq_zero.1 this).resolve_left hω
  · refine degree_eq_of_coeff (degree_sub_lt' (degree_lt_succ h.testLt)
      (degree_C_mul_lt (degree_X_mul_lt h.testLt) ω)) ?_
    rw [coeff_sub, coeff_C_mul, coeff_X_mul, (degree_lt_iff_coeff_zero _ _).1 h.testLt (j + 1) le_rfl, zero_sub]
    exact neg_ne_zero.2 (mul_ne_zero hω (coeff_ne_zero_of_degree_eq h.testDeg))

theorem hist' (h : BiPoly B c j φ ψ χ) (hh : Hist B c j) (hρ : moment B c (χ * φ) ≠ 0) : Hist B c (j + 1) :=
  hh.snoc h.degLt h.testLt h.orth hρ

/-- In the last step a zero of the numerator is a zero of the denominator. -/
theorem lastStep' [FiniteDimensional ℝ E] (h : BiPoly B c j φ ψ χ) (hh : Hist B c j)
    (hn : Confined B c (j + 1)) (hρ : moment B c (χ * φ) = 0) : moment B c (χ * (X * ψ)) = 0 := by
  obtain ⟨a, ha, hm⟩ := h.test_moment
  rw [hm _ h.orth] at hρ
  rw [hm _ h.dir, ← h.sigma, h.toCgsPoly.lastStep hh hn ((mul_eq_zero.1 hρ).resolve_left ha), mul_zero]

end BiPoly

/-! ## Symmetric positive definite maps -/

theorem aeval_symm (hs : ∀ u v : E, ⟪B u, v⟫ = ⟪u, B v⟫) (f : ℝ[X]) (u v : E) :
    ⟪aeval (R := ℝ) (A := Module.End ℝ E) B f u, v⟫ = ⟪u, aeval (R := ℝ) (A := Module.End ℝ E) B f v⟫ := by
  induction f using Polynomial.induction_on' generalizing u v with
  | add p q hp hq => simp only [map_add, LinearMap.add_apply, inner_add_left, inner_add_right, hp, hq]
  | monomial n a =>
    have key : ∀ (m : ℕ) (u v : E), ⟪((B : Module.End ℝ E) ^ m) u, v⟫ = ⟪u, ((B : Module.End ℝ E) ^ m) v⟫ := by
      intro m
      induction m with
      | zero => intro u v; rfl
      | succ m ih =>
        intro u v
        rw [pow_succ, Module.End.mul_apply, ih, hs, ← Module.End.mul_apply, ← pow_succ', pow_succ]
    simp only [aeval_monomial, Module.End.mul_apply, Module.algebraMap_end_apply, inner_smul_left, inner_smul_right, key]
    rfl

theorem moment_mul_symm (hs : ∀ u v : E, ⟪B u, v⟫ = ⟪u, B v⟫) (f g : ℝ[X]) :
    moment B c (f * g) = ⟪polyAt B c f, polyAt B c g⟫ := by
  rw [moment, polyAt_mul, ← aeval_symm hs]; rfl

/-- positive definite: no breakdown of CGS before the residual vanishes -/
theorem CgsPoly.posdef {j : ℕ} {φ ψ : ℝ[X]} (h : CgsPoly B c j φ ψ) (hs : ∀ u v : E, ⟪B u, v⟫ = ⟪u, B v⟫)
    (hp : ∀ u : E, u ≠ 0 → 0 < ⟪u, B u⟫) (hne : polyAt B c φ ≠ 0) :
    moment B c (φ * φ) ≠ 0 ∧ moment B c (ψ * (X * ψ)) ≠ 0 := by
  have h1 : moment B c (φ * φ) ≠ 0 := by
    rw [moment_mul_symm hs]; exact inner_self_ne_zero.2 hne
  refine ⟨h1, ?_⟩
  have h2 : polyAt B c ψ ≠ 0 := by
    intro h0
    rw [← h.rho, mul_comm] at h1
    exact h1 (moment_of_polyAt_zero h0 _)
  rw [moment_mul_symm hs, polyAt_X_mul]
  exact (hp _ h2).ne'

/-- positive definite: no breakdown of Bi-CGSTAB before the residual vanishes -/
theorem BiPoly.posdef' {j : ℕ} {φ ψ χ : ℝ[X]} (h : BiPoly B c j φ ψ χ) (hs : ∀ u v : E, ⟪B u, v⟫ = ⟪u, B v⟫)
    (hp : ∀ u : E, u ≠ 0 → 0 < ⟪u, B u⟫) (hne : polyAt B c φ ≠ 0) :
    moment B c (χ * φ) ≠ 0 ∧ moment B c (χ * (X * ψ)) ≠ 0 := by
  obtain ⟨a, ha, hm⟩ := h.test_moment
  obtain ⟨h1, h2⟩ := h.toCgsPoly.posdef hs hp hne
  rw [hm _ h.orth, hm _ h.dir, ← h.sigma]
  exact ⟨mul_ne_zero ha h1, mul_ne_zero ha h2⟩

end Verif.Solver
