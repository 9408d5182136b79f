import Verif.Solver.CGExact

/-!
# C81, lemmas: the conjugate gradient recurrences while the curvature is positive

As in `CGMath`, but the operator is only assumed symmetric; the curvature is positive along the directions of the steps taken.
-/

namespace Verif.Solver.CGMath
open scoped RealInnerProductSpace

variable {E : Type} [NormedAddCommGroup E] [InnerProductSpace ℝ E] {A : E →ₗ[ℝ] E} {s0 : It E}

theorem orth_curv (hA : ∀ u v, ⟪A u, v⟫ = ⟪u, A v⟫) (hp0 : s0.p = -s0.r) : ∀ k, (∀ j < k, rs A s0 j ≠ 0) →
    (∀ j < k, 0 < ⟪ps A s0 j, A (ps A s0 j)⟫) → Orth A s0 k
  | 0, _, _ => by
    refine ⟨by intro i j h1 h2; omega, by intro i j h1 h2; omega, by intro i h; omega, ?_⟩
    simp [rs, ps, seq, hp0]
  | k + 1, hne, hcv => by
    have ih := orth_curv hA hp0 k (fun j hj => hne j (by omega)) (fun j hj => hcv j (by omega))
    have hrk : rs A s0 k ≠ 0 := hne k (by omega)
    have hrr : ⟪rs A s0 k, rs A s0 k⟫ ≠ 0 := by simpa using hrk
    have hpAp : ⟪ps A s0 k, A (ps A s0 k)⟫ ≠ 0 := (hcv k (by omega)).ne'
    have hal : al A s0 k ≠ 0 := div_ne_zero hrr hpAp
    -- new residual is orthogonal to the old directions
    have pr : ∀ i, i < k + 1 → ⟪ps A s0 i, rs A s0 (k+1)⟫ = 0 := by
      intro i hi
      rw [rs_succ, inner_add_right, inner_smul_right]
      rcases Nat.lt_or_ge i k with h | h
      · rw [ih.pr i h, ← hA, real_inner_comm, ih.pp i k h le_rfl]; ring
      · obtain rfl : i = k := by omega
        rw [ih.prr, al]; field_simp; ring
    -- ... and to the old residuals
    have rr : ∀ i, i < k + 1 → ⟪rs A s0 i, rs A s0 (k+1)⟫ = 0 := by
      intro i hi
      obtain ⟨c, hc0, hc⟩ := rs_eq (A := A) hp0 i
      rw [hc, inner_sub_left, inner_smul_left, pr i hi]
      cases i with
      | zero => simp [hc0 rfl]
      | succ i => rw [show i + 1 - 1 = i by omega, pr i (by omega)]; simp
    have prr : ⟪ps A s0 (k+1), rs A s0 (k+1)⟫ = -⟪rs A s0 (k+1), rs A s0 (k+1)⟫ := by
      rw [ps_succ, inner_sub_left, inner_smul_left, pr k (by omega)]; simp
    -- new direction is conjugate to the old ones
    have hAp : ∀ i, i < k + 1 → A (ps A s0 i) = (al A s0 i)⁻¹ • (rs A s0 (i+1) - rs A s0 i) := by
      intro i hi
      have h1 : ⟪rs A s0 i, rs A s0 i⟫ ≠ 0 := by simpa using hne i hi
      have h2 : al A s0 i ≠ 0 := by
        exact div_ne_zero h1 (hcv i hi).ne'
      rw [rs_succ, add_sub_cancel_left, smul_smul, inv_mul_cancel₀ h2, one_smul]
    have pp : ∀ i, i < k + 1 → ⟪ps A s0 (k+1), A (ps A s0 i)⟫ = 0 := by
      intro i hi
      rw [ps_succ, inner_sub_left, inner_smul_left]
      rcases Nat.lt_or_ge i k with h | h
      · rw [ih.pp i k h le_rfl, hAp i hi, inner_smul_right, inner_sub_right, real_inner_comm,
          rr (i+1) (by omega), real_inner_comm, rr i (by omega)]
        simp
      · obtain rfl : i = k := by omega
        have h1 : ⟪rs A s0 (i+1), A (ps A s0 i)⟫ =
            (al A s0 i)⁻¹ * ⟪rs A s0 (i+1), rs A s0 (i+1)⟫ := by
          rw [hAp i hi, inner_smul_right, inner_sub_right, real_inner_comm (rs A s0 i), rr i (by omega)]; simp
        rw [h1, be, al]
        simp only [conj_trivial]
        field_simp
        ring
    refine ⟨?_, ?_, pr, prr⟩
    · intro i j hij hj
      rcases Nat.lt_or_ge j (k+1) with h | h
      · exact ih.rr i j hij (by omega)
      · obtain rfl : j = k + 1 := by omega
        exact rr i hij
    · intro i j hij hj
      rcases Nat.lt_or_ge j (k+1) with h | h
      · exact ih.pp i j hij (by omega)
      · obtain rfl : j = k + 1 := by omega
        exact pp i hij


/-- at most as many residuals are not zero as the dimension -/
theorem terminates_curv [FiniteDimensional ℝ E] (hA : ∀ u v, ⟪A u, v⟫ = ⟪u, A v⟫) (hp0 : s0.p = -s0.r) (k : ℕ)
    (hne : ∀ j ≤ k, rs A s0 j ≠ 0) (hcv : ∀ j < k, 0 < ⟪ps A s0 j, A (ps A s0 j)⟫) : k + 1 ≤ Module.finrank ℝ E := by
  have o := orth_curv hA hp0 k (fun j hj => hne j hj.le) hcv
  let v : Fin (k + 1) → E := fun i => rs A s0 i
  have hli : LinearIndependent ℝ v := by
    apply linearIndependent_of_ne_zero_of_inner_eq_zero (𝕜 := ℝ)
    · intro i; exact hne i (by omega)
    · intro i j hij
      rcases lt_or_gt_of_ne (fun h => hij (Fin.ext h)) with h | h
      · exact o.rr i j h (by omega)
      · rw [real_inner_comm]; exact o.rr j i h (by omega)
  simpa using hli.fintype_card_le_finrank

/-- the sum of the steps is orthogonal to what is orthogonal to the directions -/
theorem steps_orth {v : E} : ∀ k, (∀ j < k, ⟪ps A s0 j, v⟫ = 0) → ⟪xs A s0 k - s0.x, v⟫ = 0
  | 0, _ => by simp [xs, seq]
  | k + 1, h => by
    have e : xs A s0 (k+1) - s0.x = (xs A s0 k - s0.x) + al A s0 k • ps A s0 k := by rw [xs_succ]; abel
    rw [e, inner_add_left, inner_smul_left, steps_orth k (fun j hj => h j (by omega)), h k (by omega)]
    simp

/-- the iterates move away from the start -/
theorem away (hA : ∀ u v, ⟪A u, v⟫ = ⟪u, A v⟫) (hp0 : s0.p = -s0.r) : ∀ k, (∀ j < k, rs A s0 j ≠ 0) →
    (∀ j < k, 0 < ⟪ps A s0 j, A (ps A s0 j)⟫) → 0 ≤ ⟪xs A s0 k - s0.x, ps A s0 k⟫
  | 0, _, _ => by simp [xs, seq]
  | k + 1, hne, hcv => by
    have ih := away hA hp0 k (fun j hj => hne j (by omega)) (fun j hj => hcv j (by omega))
    have o := orth_curv hA hp0 (k + 1) hne hcv
    have e : xs A s0 (k+1) - s0.x = (xs A s0 k - s0.x) + al A s0 k • ps A s0 k := by rw [xs_succ]; abel
    have h1 := steps_orth (A := A) (s0 := s0) (v := rs A s0 (k+1)) (k+1) (fun j hj => o.pr j hj)
    have hal : 0 ≤ al A s0 k := div_nonneg real_inner_self_nonneg (hcv k (by omega)).le
    have hbe : 0 ≤ be A s0 k := div_nonneg real_inner_self_nonneg real_inner_self_nonneg
    rw [ps_succ, inner_sub_right, h1, inner_smul_right, e, inner_add_left, inner_smul_left]
    have := mul_nonneg hal (real_inner_self_nonneg (x := ps A s0 k))
    simp only [conj_trivial, sub_zero]
    exact mul_nonneg hbe (by linarith)

theorem away_lt (hA : ∀ u v, ⟪A u, v⟫ = ⟪u, A v⟫) (hp0 : s0.p = -s0.r) (k : ℕ) (hne : ∀ j ≤ k, rs A s0 j ≠ 0)
    (hcv : ∀ j ≤ k, 0 < ⟪ps A s0 j, A (ps A s0 j)⟫) : ‖xs A s0 k - s0.x‖ < ‖xs A s0 (k+1) - s0.x‖ := by
  have h := away hA hp0 k (fun j hj => hne j hj.le) (fun j hj => hcv j hj.le)
  have e : xs A s0 (k+1) - s0.x = (xs A s0 k - s0.x) + al A s0 k • ps A s0 k := by rw [xs_succ]; abel
  have hal : 0 < al A s0 k := div_pos (real_inner_self_pos.2 (hne k le_rfl)) (hcv k le_rfl)
  have hp : ps A s0 k ≠ 0 := by
    intro h0
    have := hcv k le_rfl
    rw [h0, inner_zero_left] at this
    exact lt_irrefl _ this
  have hpp := real_inner_self_pos.2 hp
  refine lt_of_pow_lt_pow_left₀ 2 (norm_nonneg _) ?_
  rw [e, ← real_inner_self_eq_norm_sq, ← real_inner_self_eq_norm_sq, inner_add_left, inner_add_right, inner_add_right, inner_smul_left,
    inner_smul_right, inner_smul_left, inner_smul_right, real_inner_comm (xs A s0 k - s0.x) (ps A s0 k)]
  simp only [conj_trivial]
  have := mul_nonneg hal.le h
  have := mul_pos hal (mul_pos hal hpp)
  linarith

/-- the quadratic objective decreases -/
theorem objective_lt (hA : ∀ u v, ⟪A u, v⟫ = ⟪u, A v⟫) (hp0 : s0.p = -s0.r) (b : E) (h0 : s0.r = A s0.x - b) (k : ℕ)
    (hne : ∀ j ≤ k, rs A s0 j ≠ 0) (hcv : ∀ j ≤ k, 0 < ⟪ps A s0 j, A (ps A s0 j)⟫) :
    1 / 2 * ⟪xs A s0 (k+1), A (xs A s0 (k+1))⟫ - ⟪b, xs A s0 (k+1)⟫ < 1 / 2 * ⟪xs A s0 k, A (xs A s0 k)⟫ - ⟪b, xs A s0 k⟫ := by
  have hprr := (orth_curv hA hp0 k (fun j hj => hne j hj.le) (fun j hj => hcv j hj.le)).prr
  have hr : rs A s0 k = A (xs A s0 k) - b := resid A s0 b h0 k
  have hpos := hcv k le_rfl
  have hrr := real_inner_self_pos.2 (hne k le_rfl)
  have h1 : ⟪ps A s0 k, A (xs A s0 k)⟫ - ⟪b, ps A s0 k⟫ = -⟪rs A s0 k, rs A s0 k⟫ := by
    rw [← hprr, real_inner_comm (ps A s0 k) b, ← inner_sub_right, ← hr]
  have h2 : ⟪xs A s0 k, A (ps A s0 k)⟫ = ⟪ps A s0 k, A (xs A s0 k)⟫ := by rw [← hA, real_inner_comm]
  have h3 : al A s0 k * ⟪ps A s0 k, A (ps A s0 k)⟫ = ⟪rs A s0 k, rs A s0 k⟫ := div_mul_cancel₀ _ hpos.ne'
  have hal : 0 < al A s0 k := div_pos hrr hpos
  rw [xs_succ, map_add, map_smul, inner_add_left, inner_add_right, inner_add_right, inner_add_right, inner_smul_left, inner_smul_left,
    inner_smul_right, inner_smul_right, inner_smul_right, h2]
  simp only [conj_trivial]
  have h4 := mul_pos hal hrr
  have h5 : al A s0 k * (al A s0 k * ⟪ps A s0 k, A (ps A s0 k)⟫) = al A s0 k * ⟪rs A s0 k, rs A s0 k⟫ := by rw [h3]
  have h6 : al A s0 k * (⟪ps A s0 k, A (xs A s0 k)⟫ - ⟪b, ps A s0 k⟫) = -(al A s0 k * ⟪rs A s0 k, rs A s0 k⟫) := by rw [h1]; ring
  linarith

end Verif.Solver.CGMath
