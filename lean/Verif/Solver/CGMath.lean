import Verif.Solver.Confined
import Mathlib.Analysis.InnerProductSpace.Basic
import Mathlib.LinearAlgebra.Dimension.Finite
import Mathlib.LinearAlgebra.FiniteDimensional.Basic
import Mathlib.Analysis.InnerProductSpace.Orthonormal
import Mathlib.Tactic.Linarith
import Mathlib.Tactic.FieldSimp

/-!
# Helper: the conjugate gradient recurrences over the reals
-/

namespace Verif.Solver.CGMath
open scoped RealInnerProductSpace

variable {E : Type} [NormedAddCommGroup E] [InnerProductSpace ℝ E]

structure It (E : Type) where
  x : E
  r : E
  p : E

noncomputable def step (A : E →ₗ[ℝ] E) (s : It E) : It E :=
  let α := ⟪s.r, s.r⟫ / ⟪s.p, A s.p⟫
  let r := s.r + α • A s.p
  ⟨s.x + α • s.p, r, (⟪r, r⟫ / ⟪s.r, s.r⟫) • s.p - r⟩

noncomputable def seq (A : E →ₗ[ℝ] E) (s0 : It E) : ℕ → It E
  | 0 => s0
  | k + 1 => step A (seq A s0 k)

variable (A : E →ₗ[ℝ] E) (s0 : It E)

noncomputable abbrev xs (k : ℕ) : E := (seq A s0 k).x
noncomputable abbrev rs (k : ℕ) : E := (seq A s0 k).r
noncomputable abbrev ps (k : ℕ) : E := (seq A s0 k).p
noncomputable def al (k : ℕ) : ℝ := ⟪rs A s0 k, rs A s0 k⟫ / ⟪ps A s0 k, A (ps A s0 k)⟫
noncomputable def be (k : ℕ) : ℝ := ⟪rs A s0 (k+1), rs A s0 (k+1)⟫ / ⟪rs A s0 k, rs A s0 k⟫

theorem xs_succ (k : ℕ) : xs A s0 (k+1) = xs A s0 k + al A s0 k • ps A s0 k := rfl
theorem rs_succ (k : ℕ) : rs A s0 (k+1) = rs A s0 k + al A s0 k • A (ps A s0 k) := rfl
theorem ps_succ (k : ℕ) : ps A s0 (k+1) = be A s0 k • ps A s0 k - rs A s0 (k+1) := rfl

/-- the residual recurrence computes `A x - b` -/
theorem resid (b : E) (h : s0.r = A s0.x - b) : ∀ k, rs A s0 k = A (xs A s0 k) - b
  | 0 => h
  | k + 1 => by
    rw [rs_succ, xs_succ, resid b h k, map_add, map_smul]; abel

/-- symmetric positive definite -/
structure SPD (A : E →ₗ[ℝ] E) : Prop where
  symm : ∀ u v, ⟪A u, v⟫ = ⟪u, A v⟫
  pos : ∀ u, u ≠ 0 → 0 < ⟪u, A u⟫

/-- the orthogonality relations up to step `k` -/
structure Orth (k : ℕ) : Prop where
  rr : ∀ i j, i < j → j ≤ k → ⟪rs A s0 i, rs A s0 j⟫ = 0
  pp : ∀ i j, i < j → j ≤ k → ⟪ps A s0 j, A (ps A s0 i)⟫ = 0
  pr : ∀ i, i < k → ⟪ps A s0 i, rs A s0 k⟫ = 0
  prr : ⟪ps A s0 k, rs A s0 k⟫ = -⟪rs A s0 k, rs A s0 k⟫

variable {A s0}

theorem rs_eq (hp0 : s0.p = -s0.r) (i : ℕ) :
    ∃ c : ℝ, (i = 0 → c = 0) ∧ rs A s0 i = c • ps A s0 (i - 1) - ps A s0 i := by
  cases i with
  | zero => exact ⟨0, fun _ => rfl, by simp [rs, ps, seq, hp0]⟩
  | succ i => exact ⟨be A s0 i, by simp, by rw [ps_succ]; simp⟩

theorem orth (hA : SPD A) (hp0 : s0.p = -s0.r) : ∀ k, (∀ j < k, rs A s0 j ≠ 0) → Orth A s0 k
  | 0, _ => by
    refine ⟨by intro i j h1 h2; omega, by intro i j h1 h2; omega, by intro i h; omega, ?_⟩
    simp [rs, ps, seq, hp0]
  | k + 1, hne => by
    have ih := orth hA hp0 k (fun j hj => hne j (by omega))
    have hrk : rs A s0 k ≠ 0 := hne k (by omega)
    have hrr : ⟪rs A s0 k, rs A s0 k⟫ ≠ 0 := by simpa using hrk
    have hpk : ps A s0 k ≠ 0 := by
      intro h
      have := ih.prr
      rw [h, inner_zero_left] at this
      exact hrr (by linarith)
    have hpAp : ⟪ps A s0 k, A (ps A s0 k)⟫ ≠ 0 := (hA.pos _ hpk).ne'
    have hal : al A s0 k ≠ 0 := div_ne_zero hrr hpAp
    -- new residual is orthogonal to the old directions
    have pr : ∀ i, i < k + 1 → ⟪ps A s0 i, rs A s0 (k+1)⟫ = 0 := by
      intro i hi
      rw [rs_succ, inner_add_right, inner_smul_right]
      rcases Nat.lt_or_ge i k with h | h
      · rw [ih.pr i h, ← hA.symm, real_inner_comm, ih.pp i k h le_rfl]; ring
      · obtain rfl : i = k := by omega
        rw [ih.prr, al]; field_simp; ring
    -- ... and to the old residuals
    have rr : ∀ i, i < k + 1 → ⟪rs A s0 i, rs A s0 (k+1)⟫ = 0 := by
      intro i hi
      obtain ⟨c, hc0, hc⟩ := rs_eq (A := A) hp0 i
      rw [hc, inner_sub_left, inner_smul_left, pr i hi]
      cases i with
      | zero => simp [hc0 rfl]
      | succ i => rw [show i + 1 - 1 = i by omega, pr i (by omega)]; simp
    have prr : ⟪ps A s0 (k+1), rs A s0 (k+1)⟫ = -⟪rs A s0 (k+1), rs A s0 (k+1)⟫ := by
      rw [ps_succ, inner_sub_left, inner_smul_left, pr k (by omega)]; simp
    -- new direction is conjugate to the old ones
    have hAp : ∀ i, i < k + 1 → A (ps A s0 i) = (al A s0 i)⁻¹ • (rs A s0 (i+1) - rs A s0 i) := by
      intro i hi
      have h1 : ⟪rs A s0 i, rs A s0 i⟫ ≠ 0 := by simpa using hne i hi
      have h2 : al A s0 i ≠ 0 := by
        rcases Nat.lt_or_ge i k with h | h
        · have oi := orth hA hp0 i (fun j hj => hne j (by omega))
          refine div_ne_zero h1 (hA.pos _ ?_).ne'
          intro h
          have := oi.prr
          rw [h, inner_zero_left] at this
          exact h1 (by linarith)
        · obtain rfl : i = k := by omega
          exact hal
      rw [rs_succ, add_sub_cancel_left, smul_smul, inv_mul_cancel₀ h2, one_smul]
    have pp : ∀ i, i < k + 1 → ⟪ps A s0 (k+1), A (ps A s0 i)⟫ = 0 := by
      intro i hi
      rw [ps_succ, inner_sub_left, inner_smul_left]
      rcases Nat.lt_or_ge i k with h | h
      · rw [ih.pp i k h le_rfl, hAp i hi, inner_smul_right, inner_sub_right, real_inner_comm,
          rr (i+1) (by omega), real_inner_comm, rr i (by omega)]
        simp
      · obtain rfl : i = k := by omega
        have h1 : ⟪rs A s0 (i+1), A (ps A s0 i)⟫ =
            (al A s0 i)⁻¹ * ⟪rs A s0 (i+1), rs A s0 (i+1)⟫ := by
          rw [hAp i hi, inner_smul_right, inner_sub_right, real_inner_comm (rs A s0 i), rr i (by omega)]; simp
        rw [h1, be, al]
        simp only [conj_trivial]
        field_simp
        ring
    refine ⟨?_, ?_, pr, prr⟩
    · intro i j hij hj
      rcases Nat.lt_or_ge j (k+1) with h | h
      · exact ih.rr i j hij (by omega)
      · obtain rfl : j = k + 1 := by omega
        exact rr i hij
    · intro i j hij hj
      rcases Nat.lt_or_ge j (k+1) with h | h
      · exact ih.pp i j hij (by omega)
      · obtain rfl : j = k + 1 := by omega
        exact pp i hij

/-- as long as the residual is not zero, the curvature along the search direction is positive -/
theorem curv_pos (hA : SPD A) (hp0 : s0.p = -s0.r) (k : ℕ) (hne : ∀ j < k, rs A s0 j ≠ 0) (hk : rs A s0 k ≠ 0) :
    0 < ⟪ps A s0 k, A (ps A s0 k)⟫ := by
  refine hA.pos _ ?_
  intro h
  have := (orth hA hp0 k hne).prr
  rw [h, inner_zero_left] at this
  exact hk (by simpa using this)

/-- residuals and directions stay in an invariant subspace -/
theorem mem_invariant {W : Submodule ℝ E} (hW : ∀ w ∈ W, A w ∈ W) (hp0 : s0.p = -s0.r) (h0 : s0.r ∈ W) :
    ∀ k, rs A s0 k ∈ W ∧ ps A s0 k ∈ W
  | 0 => ⟨h0, by change s0.p ∈ W; rw [hp0]; exact W.neg_mem h0⟩
  | k + 1 => by
    obtain ⟨h1, h2⟩ := mem_invariant hW hp0 h0 k
    have h3 : rs A s0 (k+1) ∈ W := by rw [rs_succ]; exact W.add_mem h1 (W.smul_mem _ (hW _ h2))
    exact ⟨h3, by rw [ps_succ]; exact W.sub_mem (W.smul_mem _ h2) h3⟩

/-- finite termination: if the first residual is confined to `d` dimensions, at most `d` residuals are not zero -/
theorem terminates [FiniteDimensional ℝ E] (hA : SPD A) (hp0 : s0.p = -s0.r) {d : ℕ} (hd : Confined A s0.r d) (k : ℕ)
    (hne : ∀ j < k, rs A s0 j ≠ 0) : k ≤ d := by
  have o := orth hA hp0 k hne
  let v : Fin k → E := fun i => rs A s0 i
  have hli : LinearIndependent ℝ v := by
    apply linearIndependent_of_ne_zero_of_inner_eq_zero (𝕜 := ℝ)
    · intro i; exact hne i i.2
    · intro i j hij
      rcases lt_or_gt_of_ne (fun h => hij (Fin.ext h)) with h | h
      · exact o.rr i j h j.2.le
      · rw [real_inner_comm]; exact o.rr j i h i.2.le
  obtain ⟨W, hW, hr, hinv⟩ := hd
  exact card_le_of_mem hW hli (fun i => (mem_invariant hinv hp0 hr i).1)

/-- the energy norm of the error decreases -/
theorem energy (hA : SPD A) (hp0 : s0.p = -s0.r) (b xstar : E) (h0 : s0.r = A s0.x - b) (hx : A xstar = b) (k : ℕ)
    (hne : ∀ j < k, rs A s0 j ≠ 0) (hk : rs A s0 k ≠ 0) :
    ⟪xs A s0 (k+1) - xstar, A (xs A s0 (k+1) - xstar)⟫ < ⟪xs A s0 k - xstar, A (xs A s0 k - xstar)⟫ := by
  have hpos := curv_pos hA hp0 k hne hk
  have hrr : 0 < ⟪rs A s0 k, rs A s0 k⟫ := by
    rw [real_inner_self_eq_norm_sq]; have := norm_pos_iff.2 hk; positivity
  have he : A (xs A s0 k - xstar) = rs A s0 k := by rw [map_sub, hx, resid A s0 b h0]
  have hprr := (orth hA hp0 k hne).prr
  have hx1 : xs A s0 (k+1) - xstar = (xs A s0 k - xstar) + al A s0 k • ps A s0 k := by rw [xs_succ]; abel
  rw [hx1, map_add, map_smul, he, inner_add_left, inner_add_right, inner_add_right, inner_smul_left, inner_smul_right,
    inner_smul_left, inner_smul_right, ← hA.symm, he, hprr, real_inner_comm (ps A s0 k) (rs A s0 k), hprr]
  simp only [conj_trivial, al]
  have : 0 < ⟪rs A s0 k, rs A s0 k⟫ * ⟪rs A s0 k, rs A s0 k⟫ / ⟪ps A s0 k, A (ps A s0 k)⟫ := by positivity
  have e : ⟪rs A s0 k, rs A s0 k⟫ / ⟪ps A s0 k, A (ps A s0 k)⟫ * -⟪rs A s0 k, rs A s0 k⟫ +
      (⟪rs A s0 k, rs A s0 k⟫ / ⟪ps A s0 k, A (ps A s0 k)⟫ * -⟪rs A s0 k, rs A s0 k⟫ +
      ⟪rs A s0 k, rs A s0 k⟫ / ⟪ps A s0 k, A (ps A s0 k)⟫ *
        (⟪rs A s0 k, rs A s0 k⟫ / ⟪ps A s0 k, A (ps A s0 k)⟫ * ⟪ps A s0 k, A (ps A s0 k)⟫)) =
      -(⟪rs A s0 k, rs A s0 k⟫ * ⟪rs A s0 k, rs A s0 k⟫ / ⟪ps A s0 k, A (ps A s0 k)⟫) := by
    field_simp; ring
  linarith

end Verif.Solver.CGMath
