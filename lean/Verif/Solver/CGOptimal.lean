import Verif.Solver.CGExact
import Verif.Solver.RateMath

/-!
# The iterates of CG are optimal in the energy norm

Helper for C72: no code is modelled here.
-/

namespace Verif.Solver.CGMath
open scoped RealInnerProductSpace
open Verif.Solver.MinresMath (krylov)

variable {E : Type} [NormedAddCommGroup E] [InnerProductSpace ℝ E] {A : E →ₗ[ℝ] E} {s0 : It E}

variable (A s0) in
/-- the span of the first `k` residuals -/
def resSpan (k : ℕ) : Submodule ℝ E := Submodule.span ℝ {v | ∃ j < k, v = rs A s0 j}

theorem resSpan_mono {k l : ℕ} (h : k ≤ l) : resSpan A s0 k ≤ resSpan A s0 l :=
  Submodule.span_mono fun _ ⟨j, hj, e⟩ => ⟨j, hj.trans_le h, e⟩

theorem rs_mem (k : ℕ) : rs A s0 k ∈ resSpan A s0 (k+1) := Submodule.subset_span ⟨k, by omega, rfl⟩

theorem ps_mem (hp0 : s0.p = -s0.r) : ∀ k, ps A s0 k ∈ resSpan A s0 (k+1)
  | 0 => by
    change s0.p ∈ _
    rw [hp0]
    exact Submodule.neg_mem _ (rs_mem (A := A) (s0 := s0) 0)
  | k + 1 => by
    rw [ps_succ]
    exact Submodule.sub_mem _ (Submodule.smul_mem _ _ (resSpan_mono (by omega) (ps_mem hp0 k))) (rs_mem _)

theorem xs_mem (hp0 : s0.p = -s0.r) : ∀ k, xs A s0 k - s0.x ∈ resSpan A s0 k
  | 0 => by
    have : xs A s0 0 - s0.x = 0 := sub_self _
    rw [this]; exact Submodule.zero_mem _
  | k + 1 => by
    rw [xs_succ, add_sub_right_comm]
    exact Submodule.add_mem _ (resSpan_mono (by omega) (xs_mem hp0 k)) (Submodule.smul_mem _ _ (ps_mem hp0 k))

theorem A_ps_mem (hA : SPD A) (hp0 : s0.p = -s0.r) (k : ℕ) (hne : ∀ j ≤ k, rs A s0 j ≠ 0) :
    A (ps A s0 k) ∈ resSpan A s0 (k+2) := by
  have hrr : ⟪rs A s0 k, rs A s0 k⟫ ≠ 0 := by simpa using hne k le_rfl
  have hal : al A s0 k ≠ 0 := div_ne_zero hrr (curv_pos hA hp0 k (fun j hj => hne j hj.le) (hne k le_rfl)).ne'
  have h1 : A (ps A s0 k) = (al A s0 k)⁻¹ • (rs A s0 (k+1) - rs A s0 k) := by
    rw [rs_succ, add_sub_cancel_left, smul_smul, inv_mul_cancel₀ hal, one_smul]
  rw [h1]
  exact Submodule.smul_mem _ _ (Submodule.sub_mem _ (rs_mem _) (resSpan_mono (by omega) (rs_mem k)))

theorem A_resSpan (hA : SPD A) (hp0 : s0.p = -s0.r) (k : ℕ) (hne : ∀ j < k, rs A s0 j ≠ 0) {z : E}
    (hz : z ∈ resSpan A s0 k) : A z ∈ resSpan A s0 (k+1) := by
  have : resSpan A s0 k ≤ (resSpan A s0 (k+1)).comap A := by
    refine Submodule.span_le.2 ?_
    rintro _ ⟨j, hj, rfl⟩
    change A (rs A s0 j) ∈ resSpan A s0 (k+1)
    obtain ⟨c, hc0, hc⟩ := rs_eq (A := A) hp0 j
    rw [hc, map_sub, map_smul]
    refine Submodule.sub_mem _ (Submodule.smul_mem _ _ ?_)
      (resSpan_mono (by omega) (A_ps_mem hA hp0 j fun i hi => hne i (by omega)))
    exact resSpan_mono (by omega) (A_ps_mem hA hp0 (j-1) fun i hi => hne i (by omega))
  exact this hz

theorem krylov_le_resSpan (hA : SPD A) (hp0 : s0.p = -s0.r) (k : ℕ) (hne : ∀ j < k, rs A s0 j ≠ 0) :
    krylov A s0.r k ≤ resSpan A s0 k := by
  have h : ∀ j, j < k → (A ^ j) s0.r ∈ resSpan A s0 (j+1) := by
    intro j
    induction j with
    | zero => intro _; exact rs_mem (A := A) (s0 := s0) 0
    | succ j ih =>
      intro hj
      rw [pow_succ', Module.End.mul_apply]
      exact A_resSpan hA hp0 (j+1) (fun i hi => hne i (by omega)) (ih (by omega))
  refine Submodule.span_le.2 ?_
  rintro _ ⟨j, hj, rfl⟩
  exact resSpan_mono (by omega) (h j hj)

theorem resSpan_le_krylov (hp0 : s0.p = -s0.r) : ∀ k, resSpan A s0 k ≤ krylov A s0.r k := by
  have h : ∀ k, rs A s0 k ∈ krylov A s0.r (k+1) ∧ ps A s0 k ∈ krylov A s0.r (k+1) := by
    intro k
    induction k with
    | zero =>
      have h1 : s0.r ∈ krylov A s0.r 1 := Submodule.subset_span ⟨0, by omega, rfl⟩
      exact ⟨h1, by change s0.p ∈ _; rw [hp0]; exact Submodule.neg_mem _ h1⟩
    | succ k ih =>
      have h3 : rs A s0 (k+1) ∈ krylov A s0.r (k+1+1) := by
        rw [rs_succ]
        exact Submodule.add_mem _ (MinresMath.krylov_mono A _ (by omega) ih.1)
          (Submodule.smul_mem _ _ (MinresMath.krylov_map A _ _ ih.2))
      refine ⟨h3, ?_⟩
      rw [ps_succ]
      exact Submodule.sub_mem _ (Submodule.smul_mem _ _ (MinresMath.krylov_mono A _ (by omega) ih.2)) h3
  intro k
  refine Submodule.span_le.2 ?_
  rintro _ ⟨j, hj, rfl⟩
  exact MinresMath.krylov_mono A _ (by omega) (h j).1

/-- the iterate is the best point, in the energy norm, of the start point plus the Krylov space -/
theorem optimal (hA : SPD A) (hp0 : s0.p = -s0.r) (b xstar : E) (h0 : s0.r = A s0.x - b) (hx : A xstar = b) (k : ℕ)
    (hne : ∀ j < k, rs A s0 j ≠ 0) {w : E} (hw : w - s0.x ∈ krylov A s0.r k) :
    ⟪xs A s0 k - xstar, A (xs A s0 k - xstar)⟫ ≤ ⟪w - xstar, A (w - xstar)⟫ := by
  have o := orth hA hp0 k hne
  have hd : w - xs A s0 k ∈ resSpan A s0 k := by
    have := Submodule.sub_mem _ (krylov_le_resSpan hA hp0 k hne hw) (xs_mem (A := A) hp0 k)
    rwa [sub_sub_sub_cancel_right] at this
  have hperp : ∀ z ∈ resSpan A s0 k, ⟪z, rs A s0 k⟫ = 0 := by
    intro z hz
    have : resSpan A s0 k ≤ (Submodule.span ℝ {rs A s0 k})ᗮ := by
      refine Submodule.span_le.2 ?_
      rintro _ ⟨j, hj, rfl⟩
      rw [SetLike.mem_coe, Submodule.mem_orthogonal_singleton_iff_inner_right, real_inner_comm]
      exact o.rr j k hj le_rfl
    have h1 := this hz
    rwa [Submodule.mem_orthogonal_singleton_iff_inner_right, real_inner_comm] at h1
  have he : A (xs A s0 k - xstar) = rs A s0 k := by rw [map_sub, hx, resid A s0 b h0]
  have hsplit : w - xstar = (xs A s0 k - xstar) + (w - xs A s0 k) := by abel
  have hnn : 0 ≤ ⟪w - xs A s0 k, A (w - xs A s0 k)⟫ := by
    by_cases h : w - xs A s0 k = 0
    · rw [h, inner_zero_left]
    · exact (hA.pos _ h).le
  have h1 : ⟪w - xs A s0 k, rs A s0 k⟫ = 0 := hperp _ hd
  rw [hsplit, map_add, inner_add_left, inner_add_right, inner_add_right, ← hA.symm (xs A s0 k - xstar) (w - xs A s0 k), he, h1,
    real_inner_comm (w - xs A s0 k) (rs A s0 k), h1]
  linarith

end Verif.Solver.CGMath
