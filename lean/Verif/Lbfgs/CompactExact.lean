import Verif.Lbfgs.Exact
import Mathlib.Algebra.BigOperators.Intervals
import Mathlib.Algebra.BigOperators.Pi
import Mathlib.LinearAlgebra.Matrix.ToLin
import Mathlib.LinearAlgebra.FiniteDimensional.Basic

/-!
# The compact product in exact arithmetic
-/

namespace Verif.Lbfgs
open Verif.Solver Scalar Vect
open scoped RealInnerProductSpace
open Verif.Solver.CGMath (SPD)

variable {E : Type} [NormedAddCommGroup E] [InnerProductSpace ℝ E]

/-- a real matrix of order `n` is nonsingular -/
def Nonsing (n : Nat) (M : Nat → Nat → ℝ) : Prop :=
  ∀ x : Nat → ℝ, (∀ i < n, ∑ j ∈ Finset.range n, M i j * x j = 0) → ∀ j < n, x j = 0

/-- **Specification** of `np.linalg.solve` in exact arithmetic: for a nonsingular matrix it returns a solution. -/
def SolveSpec (solve : LinSolve Fl) : Prop :=
  ∀ (n : Nat) (M : Nat → Nat → ℝ) (a : Nat → ℝ), Nonsing n M →
    ∃ (x : Nat → Fl) (b : Nat → ℝ), solve n (fun i j => Fl.fin (M i j)) (fun i => Fl.fin (a i)) = some x ∧
      (∀ i < n, x i = Fl.fin (b i)) ∧ ∀ i < n, ∑ j ∈ Finset.range n, M i j * b j = a i

open Classical in
/-- a solver meeting the specification -/
noncomputable def exactSolve : LinSolve Fl := fun n M a =>
  if h : ∃ b : Nat → ℝ, ∃ (Mr : Nat → Nat → ℝ) (ar : Nat → ℝ), M = (fun i j => Fl.fin (Mr i j)) ∧ a = (fun i => Fl.fin (ar i)) ∧
      ∀ i < n, ∑ j ∈ Finset.range n, Mr i j * b j = ar i
  then some fun i => Fl.fin (h.choose i) else none

theorem nonsing_solvable {n : Nat} {M : Nat → Nat → ℝ} (h : Nonsing n M) (a : Nat → ℝ) :
    ∃ b : Nat → ℝ, ∀ i < n, ∑ j ∈ Finset.range n, M i j * b j = a i := by
  let A : Matrix (Fin n) (Fin n) ℝ := fun i j => M i j
  have ext : ∀ (x : Fin n → ℝ) (i : Fin n), ∑ j ∈ Finset.range n, M i j * (if hj : j < n then x ⟨j, hj⟩ else 0) = A.mulVec x i := by
    intro x i
    rw [Finset.sum_range]
    simp [A, Matrix.mulVec, dotProduct]
  have inj : Function.Injective (Matrix.toLin' A) := by
    rw [← LinearMap.ker_eq_bot, LinearMap.ker_eq_bot']
    intro x hx
    funext j
    have := h (fun j => if hj : j < n then x ⟨j, hj⟩ else 0) (fun i hi => by
      rw [ext x ⟨i, hi⟩, ← Matrix.toLin'_apply, hx]; rfl) j j.2
    simpa using this
  obtain ⟨x, hx⟩ := LinearMap.injective_iff_surjective.1 inj (fun i => a i)
  refine ⟨fun j => if hj : j < n then x ⟨j, hj⟩ else 0, fun i hi => ?_⟩
  rw [ext x ⟨i, hi⟩, ← Matrix.toLin'_apply, hx]

theorem exactSolve_spec : SolveSpec exactSolve := by
  intro n M a hM
  have h : ∃ b : Nat → ℝ, ∃ (Mr : Nat → Nat → ℝ) (ar : Nat → ℝ), (fun i j => Fl.fin (M i j)) = (fun i j => Fl.fin (Mr i j)) ∧
      (fun i => Fl.fin (a i)) = (fun i => Fl.fin (ar i)) ∧ ∀ i < n, ∑ j ∈ Finset.range n, Mr i j * b j = ar i := by
    obtain ⟨b, hb⟩ := nonsing_solvable hM a
    exact ⟨b, M, a, rfl, rfl, hb⟩
  refine ⟨fun i => Fl.fin (h.choose i), h.choose, dif_pos h, fun _ _ => rfl, ?_⟩
  obtain ⟨Mr, ar, e1, e2, e3⟩ := h.choose_spec
  have e1' : M = Mr := by funext i j; exact Fl.fin.inj (congrFun (congrFun e1 i) j)
  have e2' : a = ar := by funext i; exact Fl.fin.inj (congrFun e2 i)
  intro i hi
  rw [congrFun e2' i, ← e3 i hi]
  exact Finset.sum_congr rfl fun j _ => by rw [congrFun (congrFun e1' i) j]

/-! ### the small system -/

/-- `s`-vector number `i`, oldest first -/
def sr (P : List (E × E)) (i : Nat) : E := (P.reverse.getD i (0, 0)).1
/-- `y`-vector number `i`, oldest first -/
def yr (P : List (E × E)) (i : Nat) : E := (P.reverse.getD i (0, 0)).2

theorem getD_fin (P : List (E × E)) (i : Nat) :
    ((P.map finTriple).reverse.getD i (zeros, zeros, lit 0)) = finTriple (P.reverse.getD i (0, 0)) := by
  rw [← List.map_reverse]
  by_cases hi : i < P.reverse.length
  · rw [List.getD_eq_getElem _ _ (by simpa using hi), List.getD_eq_getElem _ _ hi, List.getElem_map]
  · rw [List.getD_eq_default _ _ (by simpa using hi), List.getD_eq_default _ _ (by simpa using hi)]
    simp [finTriple]

theorem sAt_fin (P : List (E × E)) (i : Nat) : sAt (P.map finTriple).reverse i = Vec.fin (sr P i) := by
  unfold sAt; rw [getD_fin]; rfl
theorem yAt_fin (P : List (E × E)) (i : Nat) : yAt (P.map finTriple).reverse i = Vec.fin (yr P i) := by
  unfold yAt; rw [getD_fin]; rfl
theorem tAt_fin (P : List (E × E)) (i : Nat) : tAt (P.map finTriple).reverse i = Fl.fin ⟪yr P i, sr P i⟫ := by
  unfold tAt; rw [getD_fin]; rfl

/-- the small matrix, over the reals -/
noncomputable def mR (P : List (E × E)) (γ : ℝ) (i j : Nat) : ℝ :=
  let m := P.length
  if i < m then
    if j < m then ⟪sr P i, sr P j⟫ / γ
    else if j < 2 * m then (if j - m < i then ⟪sr P i, yr P (j - m)⟫ else 0)
    else 0
  else if i < 2 * m then
    if j < m then (if i - m < j then ⟪sr P j, yr P (i - m)⟫ else 0)
    else if j = i then -⟪yr P (i - m), sr P (i - m)⟫ else 0
  else 0

/-- the right-hand side, over the reals -/
noncomputable def aR (P : List (E × E)) (r q : E) (i : Nat) : ℝ :=
  if i < P.length then ⟪r, sr P i⟫ else if i < 2 * P.length then ⟪q, yr P (i - P.length)⟫ else 0

theorem cMat_fin (P : List (E × E)) {γ : ℝ} (hγ : γ ≠ 0) :
    cMat (P.map finTriple).reverse (Fl.fin γ) = fun i j => Fl.fin (mR P γ i j) := by
  funext i j
  unfold cMat mR cX cZ
  simp only [List.length_reverse, List.length_map, sAt_fin, yAt_fin, tAt_fin, Vec.fin_dot, Fl.fin_div _ hγ, Fl.lit_eq, Fl.fin_neg,
    Rat.cast_zero]
  split_ifs <;> first | rfl | (rw [real_inner_comm])

theorem cRhs_fin (P : List (E × E)) (r q : E) :
    cRhs (P.map finTriple).reverse (Vec.fin r) (Vec.fin q) = fun i => Fl.fin (aR P r q i) := by
  funext i
  unfold cRhs aR
  simp only [List.length_reverse, List.length_map, sAt_fin, yAt_fin, Vec.fin_dot, Fl.lit_eq, Rat.cast_zero]
  split_ifs <;> rfl

open Finset in
theorem row_top (P : List (E × E)) (γ : ℝ) (b : Nat → ℝ) {i : Nat} (hi : i < P.length) :
    ∑ j ∈ range (2 * P.length), mR P γ i j * b j =
      ⟪sr P i, γ⁻¹ • ∑ k ∈ range P.length, b k • sr P k⟫ + ⟪sr P i, ∑ l ∈ range i, b (P.length + l) • yr P l⟫ := by
  rw [two_mul, sum_range_add]
  congr 1
  · rw [real_inner_smul_right, inner_sum, mul_sum]
    refine sum_congr rfl fun k hk => ?_
    rw [mem_range] at hk
    unfold mR
    simp only [hi, hk, if_true, real_inner_smul_right]
    ring
  · rw [inner_sum]
    have hsub : range i ⊆ range P.length := range_subset_range.2 hi.le
    rw [← sum_subset hsub]
    · refine sum_congr rfl fun l hl => ?_
      rw [mem_range] at hl
      unfold mR
      simp only [hi, if_true, real_inner_smul_right]
      rw [if_neg (by omega), if_pos (by omega), if_pos (by omega), Nat.add_sub_cancel_left]
      ring
    · intro l hl hn
      rw [mem_range] at hl hn
      unfold mR
      simp only [hi, if_true]
      rw [if_neg (by omega), if_pos (by omega), if_neg (by omega), zero_mul]

open Finset in
theorem row_bot (P : List (E × E)) (γ : ℝ) (b : Nat → ℝ) {l : Nat} (hl : l < P.length) :
    ∑ j ∈ range (2 * P.length), mR P γ (P.length + l) j * b j =
      ⟪yr P l, ∑ k ∈ (range P.length).filter (l < ·), b k • sr P k⟫ - ⟪yr P l, sr P l⟫ * b (P.length + l) := by
  rw [two_mul, sum_range_add, sub_eq_add_neg]
  congr 1
  · rw [inner_sum, sum_filter]
    refine sum_congr rfl fun k hk => ?_
    rw [mem_range] at hk
    unfold mR
    simp only [hk, if_true]
    rw [if_neg (by omega), if_pos (by omega), Nat.add_sub_cancel_left]
    split_ifs
    · rw [real_inner_smul_right, real_inner_comm]; ring
    · rw [zero_mul]
  · rw [sum_eq_single l]
    · unfold mR
      simp only
      rw [if_neg (by omega), if_pos (by omega), if_neg (by omega), if_pos trivial, Nat.add_sub_cancel_left]
      ring
    · intro k hk hne
      unfold mR
      simp only
      rw [if_neg (by omega), if_pos (by omega), if_neg (by omega), if_neg (by omega), zero_mul]
    · intro h; exact absurd (mem_range.2 hl) h

/-- BFGS matrices of the `j` oldest pairs -/
noncomputable def bAt (P : List (E × E)) (γ : ℝ) (j : Nat) : E →ₗ[ℝ] E := fwdMat γ (P.drop (P.length - j))

theorem bAt_succ (P : List (E × E)) (γ : ℝ) {j : Nat} (hj : j < P.length) :
    bAt P γ (j + 1) = bfgs (bAt P γ j) (sr P j) (yr P j) := by
  unfold bAt
  have h1 : P.length - (j + 1) < P.length := by omega
  have h2 : P.length - (j + 1) + 1 = P.length - j := by omega
  rw [List.drop_eq_getElem_cons h1, h2]
  have : P.reverse.getD j (0, 0) = P[P.length - (j + 1)] := by
    rw [List.getD_eq_getElem _ _ (by simpa using hj), List.getElem_reverse]
    congr 1; omega
  unfold sr yr
  rw [this]; rfl

theorem curv_at {P : List (E × E)} (h : Curv P) {j : Nat} (hj : j < P.length) : 0 < ⟪yr P j, sr P j⟫ := by
  have : P.reverse.getD j (0, 0) = P[P.length - (j + 1)]'(by omega) := by
    rw [List.getD_eq_getElem _ _ (by simpa using hj), List.getElem_reverse]
    congr 1; omega
  unfold sr yr
  rw [this]
  exact h _ (List.getElem_mem _)

theorem bAt_spd {P : List (E × E)} (h : Curv P) {γ : ℝ} (hγ : 0 < γ) (j : Nat) : SPD (bAt P γ j) :=
  fwdMat_spd hγ fun p hp => h p (List.mem_of_mem_drop hp)

open Finset in
theorem small_nonsing {P : List (E × E)} (h : Curv P) {γ : ℝ} (hγ : 0 < γ) : Nonsing (2 * P.length) (mR P γ) := by
  intro x hx
  have key := compact_nonsingular P.length (sr P) (yr P) (bAt P γ) γ (by simp [bAt, fwdMat])
    (fun j hj => bAt_succ P γ hj) (fun j _ => bAt_spd h hγ j) (fun j hj => curv_at h hj) x (fun l => x (P.length + l))
    (fun i hi => by
      have := hx i (by omega)
      rw [row_top P γ x hi] at this
      rw [zero_sub, smul_neg, inner_sub_right, inner_neg_right]
      linarith)
    (fun l hl => by
      have := hx (P.length + l) (by omega)
      rw [row_bot P γ x hl] at this
      rw [zero_sub, inner_neg_right]
      linarith)
  intro j hj
  by_cases hjm : j < P.length
  · exact (key j hjm).1
  · have := (key (j - P.length) (by omega)).2
    have e : P.length + (j - P.length) = j := by omega
    rwa [e] at this

theorem cOut_fin (P : List (E × E)) {γ : ℝ} (hγ : γ ≠ 0) (x : Nat → Fl) (b : Nat → ℝ) (hx : ∀ i < 2 * P.length, x i = Fl.fin (b i)) (r : E) :
    cOut (P.map finTriple).reverse (Fl.fin γ) x (Vec.fin r) =
      Vec.fin (r - γ⁻¹ • ∑ k ∈ Finset.range P.length, b k • sr P k - ∑ k ∈ Finset.range P.length, b (P.length + k) • yr P k) := by
  unfold cOut
  simp only [List.length_reverse, List.length_map, sAt_fin, yAt_fin]
  have key : ∀ j, j ≤ P.length → (List.range j).foldl (fun r i => (r - smul (x i / Fl.fin γ) (Vec.fin (sr P i))) -
      smul (x (i + P.length)) (Vec.fin (yr P i))) (Vec.fin r) =
      Vec.fin (r - γ⁻¹ • ∑ k ∈ Finset.range j, b k • sr P k - ∑ k ∈ Finset.range j, b (P.length + k) • yr P k) := by
    intro j
    induction j with
    | zero => intro _; simp
    | succ j ih =>
      intro hj
      rw [List.range_succ, List.foldl_append, ih (by omega)]
      simp only [List.foldl_cons, List.foldl_nil]
      rw [hx j (by omega), hx (j + P.length) (by omega), Fl.fin_div _ hγ]
      simp only [Vec.fin_smul, Vec.fin_sub]
      rw [Finset.sum_range_succ, Finset.sum_range_succ, Nat.add_comm j P.length, smul_add, smul_smul, div_eq_inv_mul]
      congr 1
      abel
  exact key _ le_rfl

theorem newGamma_fin {p : E × E} (h : 0 < ⟪p.2, p.1⟫) :
    newGamma (finTriple p) = Fl.fin (⟪p.2, p.1⟫ / ⟪p.2, p.2⟫) ∧ ⟪p.2, p.2⟫ ≠ 0 := by
  have hy : ⟪p.2, p.2⟫ ≠ 0 := by
    intro h0; rw [inner_self_eq_zero.1 h0, inner_zero_left] at h; exact lt_irrefl _ h
  exact ⟨by simp only [newGamma, finTriple, Vec.fin_dot, Fl.fin_div _ hy], hy⟩

/-- The compact product is the BFGS matrix. -/
theorem compact_exact {solve : LinSolve Fl} (hs : SolveSpec solve) (scaling : Bool) {P : List (E × E)} (h : Curv P) (v : E) :
    compactList solve scaling (P.map finTriple) (Vec.fin v) = some (Vec.fin (fwdMat (scaleFactor scaling P) P v)) := by
  set γ := scaleFactor scaling P with hγdef
  have hγ : 0 < γ := scaleFactor_pos scaling h
  cases P with
  | nil => simp [compactList, scaleBy, fwdMat, hγdef, scaleFactor]
  | cons p P =>
    have hc := h p List.mem_cons_self
    obtain ⟨g1, g2⟩ := newGamma_fin hc
    have hgam : (if scaling then gammaOf (lit 1) ((p :: P).map finTriple) else lit 1) = Fl.fin γ := by
      cases scaling with
      | false => simp [hγdef, scaleFactor]
      | true => simp only [if_true, List.map_cons, gammaOf, g1, hγdef, scaleFactor]
    have hr : scaleBy scaling (fun g q => vdiv q g) ((p :: P).map finTriple) (Vec.fin v) = Vec.fin (γ⁻¹ • v) := by
      cases scaling with
      | false => simp [scaleBy, hγdef, scaleFactor]
      | true =>
        have hγ' : ⟪p.2, p.1⟫ / ⟪p.2, p.2⟫ ≠ 0 := by
          have : γ = ⟪p.2, p.1⟫ / ⟪p.2, p.2⟫ := by rw [hγdef]; simp [scaleFactor]
          rw [← this]; exact hγ.ne'
        simp only [List.map_cons, scaleBy, if_true, g1, Vec.fin_vdiv _ hγ', hγdef, scaleFactor]
    set Q := p :: P with hQ
    obtain ⟨x, b, s1, s2, s3⟩ := hs (2 * Q.length) (mR Q γ) (aR Q (γ⁻¹ • v) v) (small_nonsing h hγ)
    have hmain : compactList solve scaling (Q.map finTriple) (Vec.fin v) =
        (solve (2 * (Q.map finTriple).length) (cMat (Q.map finTriple).reverse (Fl.fin γ))
          (cRhs (Q.map finTriple).reverse (Vec.fin (γ⁻¹ • v)) (Vec.fin v))).map fun b =>
            cOut (Q.map finTriple).reverse (Fl.fin γ) b (Vec.fin (γ⁻¹ • v)) := by
      rw [← hgam, ← hr]; rfl
    rw [hmain, cMat_fin Q hγ.ne', cRhs_fin, List.length_map, s1, Option.map_some, cOut_fin Q hγ.ne' x b s2]
    congr 2
    have top : ∀ i < Q.length, ⟪sr Q i, γ⁻¹ • (v - ∑ k ∈ Finset.range Q.length, b k • sr Q k) -
        ∑ l ∈ Finset.range i, b (Q.length + l) • yr Q l⟫ = 0 := by
      intro i hi
      have e := s3 i (by omega)
      rw [row_top Q γ b hi] at e
      unfold aR at e
      rw [if_pos hi, real_inner_comm (sr Q i) (γ⁻¹ • v)] at e
      rw [smul_sub, inner_sub_right, inner_sub_right]
      linarith
    have bot : ∀ l < Q.length, ⟪yr Q l, v - ∑ k ∈ (Finset.range Q.length).filter (l < ·), b k • sr Q k⟫ =
        -(⟪yr Q l, sr Q l⟫ * b (Q.length + l)) := by
      intro l hl
      have e := s3 (Q.length + l) (by omega)
      rw [row_bot Q γ b hl] at e
      unfold aR at e
      rw [if_neg (by omega), if_pos (by omega), Nat.add_sub_cancel_left, real_inner_comm (yr Q l) v] at e
      rw [inner_sub_right]
      linarith
    have := compact_steps Q.length (sr Q) (yr Q) (bAt Q γ) γ (by simp [bAt, fwdMat])
      (fun j hj => bAt_succ Q γ hj) (fun j _ => bAt_spd h hγ j) (fun j hj => curv_at h hj) v b (fun l => b (Q.length + l))
      top bot Q.length le_rfl
    have hemp : (Finset.range Q.length).filter (Q.length ≤ ·) = ∅ := by ext k; simp
    rw [hemp, Finset.sum_empty, sub_zero] at this
    have hbm : bAt Q γ Q.length = fwdMat γ Q := by unfold bAt; simp
    rw [hbm] at this
    rw [← this, smul_sub]

end Verif.Lbfgs
