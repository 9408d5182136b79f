import Verif.Solver.CGOptimal
import Verif.Solver.Warp

/-!
# C87, lemmas: the minimizers over Krylov spaces approach the solution

The directions of the conjugate gradient method make acute angles with each other, in the inner product of the space and in the one
given by the inverse of the operator.  So each step brings the iterate nearer to the solution and takes it farther from the start.
The minimizers of the energy norm are the iterates of this method, the minimizers of the residual norm are its iterates in the inner
product given by the operator (`Warp`).
-/

namespace Verif.Solver.CGMath
open scoped RealInnerProductSpace
open MinresMath (krylov krylov_mono)

variable {E : Type} [NormedAddCommGroup E] [InnerProductSpace ℝ E] {A : E →ₗ[ℝ] E} {s0 : It E}

theorem acute_add (hA : SPD A) (hp0 : s0.p = -s0.r) (i : ℕ) : ∀ n, (∀ j < i + n, rs A s0 j ≠ 0) →
    0 ≤ ⟪ps A s0 i, ps A s0 (i + n)⟫
  | 0, _ => real_inner_self_nonneg
  | n + 1, hne => by
    have ih := acute_add hA hp0 i n (fun j hj => hne j (by omega))
    have o := orth hA hp0 (i + n + 1) (fun j hj => hne j (by omega))
    rw [← Nat.add_assoc, ps_succ, inner_sub_right, inner_smul_right, o.pr i (by omega), sub_zero]
    exact mul_nonneg (div_nonneg real_inner_self_nonneg real_inner_self_nonneg) ih

theorem acute (hA : SPD A) (hp0 : s0.p = -s0.r) {d : ℕ} (hne : ∀ j < d, rs A s0 j ≠ 0) {i j : ℕ} (hi : i < d) (hj : j < d) :
    0 ≤ ⟪ps A s0 i, ps A s0 j⟫ := by
  rcases Nat.le_total i j with h | h
  · obtain ⟨n, rfl⟩ := Nat.exists_eq_add_of_le h
    exact acute_add hA hp0 i n fun l hl => hne l (by omega)
  · obtain ⟨n, rfl⟩ := Nat.exists_eq_add_of_le h
    rw [real_inner_comm]
    exact acute_add hA hp0 j n fun l hl => hne l (by omega)

theorem al_pos (hA : SPD A) (hp0 : s0.p = -s0.r) {d : ℕ} (hne : ∀ j < d, rs A s0 j ≠ 0) {k : ℕ} (hk : k < d) : 0 < al A s0 k :=
  div_pos (real_inner_self_pos.2 (hne k hk)) (curv_pos hA hp0 k (fun j hj => hne j (by omega)) (hne k hk))

/-- the same in the inner product given by the inverse of the operator -/
theorem acute_inverse (hA : SPD A) (hp0 : s0.p = -s0.r) {d : ℕ} (hne : ∀ j < d, rs A s0 j ≠ 0) (hd : rs A s0 d = 0)
    (Ψ : E →ₗ[ℝ] E →ₗ[ℝ] ℝ) (hΨ : ∀ u v, Ψ u (A v) = ⟪u, v⟫) {i j : ℕ} (hi : i < d) (hj : j < d) :
    0 ≤ Ψ (ps A s0 i) (ps A s0 j) := by
  have h1 : ∀ n ≤ d, Ψ (ps A s0 i) (rs A s0 (d - n)) ≤ 0 := by
    intro n
    induction n with
    | zero => intro _; rw [Nat.sub_zero, hd, map_zero]
    | succ n ih =>
      intro hn
      have e : d - n = (d - (n + 1)) + 1 := by omega
      have h := ih (by omega)
      rw [e, rs_succ, map_add, map_smul, hΨ, smul_eq_mul] at h
      have := mul_nonneg (al_pos hA hp0 hne (show d - (n + 1) < d by omega)).le
        (acute hA hp0 hne hi (show d - (n + 1) < d by omega))
      linarith
  have h2 : ∀ l ≤ d, Ψ (ps A s0 i) (rs A s0 l) ≤ 0 := by
    intro l hl
    have := h1 (d - l) (by omega)
    rwa [show d - (d - l) = l by omega] at this
  clear h1
  induction j with
  | zero =>
    have := h2 0 (by omega)
    have e : ps A s0 0 = -rs A s0 0 := hp0
    rw [e, map_neg]; linarith
  | succ j ih =>
    have h3 := h2 (j + 1) hj.le
    have hbe : 0 ≤ be A s0 j := div_nonneg real_inner_self_nonneg real_inner_self_nonneg
    have := mul_nonneg hbe (ih (by omega))
    rw [ps_succ, map_sub, map_smul, smul_eq_mul]
    linarith

section form
variable (hA : SPD A) (hp0 : s0.p = -s0.r) {d : ℕ} (hne : ∀ j < d, rs A s0 j ≠ 0) (Ψ : E →ₗ[ℝ] E →ₗ[ℝ] ℝ)
  (hΨ : ∀ i < d, ∀ j < d, 0 ≤ Ψ (ps A s0 i) (ps A s0 j))
include hA hp0 hne hΨ

theorem behind {i : ℕ} (hi : i < d) : ∀ k ≤ d, 0 ≤ Ψ (xs A s0 k - s0.x) (ps A s0 i)
  | 0, _ => by simp [xs, seq]
  | k + 1, hk => by
    have ih := behind hi k (by omega)
    have := mul_nonneg (al_pos hA hp0 hne (show k < d by omega)).le (hΨ k (by omega) i hi)
    rw [xs_succ, add_sub_right_comm, map_add, map_smul, LinearMap.add_apply, LinearMap.smul_apply, smul_eq_mul]
    linarith

theorem ahead {i : ℕ} (hi : i < d) {k : ℕ} (hk : k ≤ d) : 0 ≤ Ψ (xs A s0 d - xs A s0 k) (ps A s0 i) := by
  obtain ⟨n, rfl⟩ := Nat.exists_eq_add_of_le hk
  have : ∀ m ≤ n, 0 ≤ Ψ (xs A s0 (k + m) - xs A s0 k) (ps A s0 i) := by
    intro m
    induction m with
    | zero => intro _; simp
    | succ m ih =>
      intro hm
      have h := ih (by omega)
      have := mul_nonneg (al_pos hA hp0 hne (show k + m < k + n by omega)).le (hΨ (k + m) (by omega) i hi)
      rw [← Nat.add_assoc, xs_succ, add_sub_right_comm, map_add, map_smul, LinearMap.add_apply, LinearMap.smul_apply, smul_eq_mul]
      linarith
  exact this n le_rfl

end form

/-- some residual is zero -/
theorem exists_zero [FiniteDimensional ℝ E] (hA : SPD A) (hp0 : s0.p = -s0.r) : ∃ d, rs A s0 d = 0 ∧ ∀ j < d, rs A s0 j ≠ 0 := by
  classical
  have hex : ∃ d, rs A s0 d = 0 := by
    by_contra h
    push Not at h
    have hl : LinearIndependent ℝ (fun i : Fin (Module.finrank ℝ E + 1) => rs A s0 i) := by
      apply linearIndependent_of_ne_zero_of_inner_eq_zero (𝕜 := ℝ)
      · intro i; exact h i
      · intro i j hij
        rcases lt_or_gt_of_ne (fun h => hij (Fin.ext h)) with hl | hl
        · exact (orth hA hp0 j (fun l _ => h l)).rr i j hl le_rfl
        · rw [real_inner_comm]; exact (orth hA hp0 i (fun l _ => h l)).rr j i hl le_rfl
    have := hl.fintype_card_le_finrank
    rw [Fintype.card_fin] at this
    omega
  exact ⟨Nat.find hex, Nat.find_spec hex, fun j hj => Nat.find_min hex hj⟩

theorem SPD.inj (hA : SPD A) {u v : E} (h : A u = A v) : u = v := by
  by_contra hne
  have := hA.pos (u - v) (sub_ne_zero.2 hne)
  rw [map_sub, h, sub_self, inner_zero_right] at this
  exact lt_irrefl _ this

theorem SPD.nonneg (hA : SPD A) (u : E) : 0 ≤ ⟪u, A u⟫ := by
  by_cases h : u = 0
  · rw [h, inner_zero_left]
  · exact (hA.pos u h).le

/-- the minimizer of the energy norm over a subspace is unique -/
theorem minimizer_unique (hA : SPD A) {K : Submodule ℝ E} {s y y' : E} (hy : y ∈ K) (hy' : y' ∈ K)
    (h : ∀ z ∈ K, ⟪y - s, A (y - s)⟫ ≤ ⟪z - s, A (z - s)⟫) (h' : ⟪y' - s, A (y' - s)⟫ ≤ ⟪y - s, A (y - s)⟫) : y' = y := by
  by_contra hne
  have hm := h ((1 / 2 : ℝ) • (y + y')) (K.smul_mem _ (K.add_mem hy hy'))
  have hp := hA.pos (y' - y) (sub_ne_zero.2 hne)
  have e : ((1 / 2 : ℝ) • (y + y')) - s = (1 / 2 : ℝ) • ((y - s) + (y' - s)) := by
    have : s = (1 / 2 : ℝ) • (s + s) := by rw [← two_smul ℝ s, smul_smul]; norm_num
    conv_lhs => rw [this]
    rw [← smul_sub]; congr 1; abel
  have e' : y' - y = (y' - s) - (y - s) := by abel
  rw [e] at hm
  rw [e'] at hp
  have hs := hA.symm (y - s) (y' - s)
  rw [real_inner_comm] at hs
  simp only [map_smul, map_add, map_sub, inner_add_left, inner_add_right, inner_sub_left, inner_sub_right, inner_smul_left,
    inner_smul_right, conj_trivial] at *
  linarith

/-- Consecutive minimizers of the energy norm over Krylov spaces. -/
theorem minimal_step [FiniteDimensional ℝ E] (hA : SPD A) {g sol : E} (hx : A sol = g) {k : ℕ} {y y' : E} (hy : y ∈ krylov A g k)
    (hmin : ∀ z ∈ krylov A g k, ⟪y - sol, A (y - sol)⟫ ≤ ⟪z - sol, A (z - sol)⟫) (hy' : y' ∈ krylov A g (k+1))
    (hmin' : ∀ z ∈ krylov A g (k+1), ⟪y' - sol, A (y' - sol)⟫ ≤ ⟪z - sol, A (z - sol)⟫) :
    (y = sol ∧ y' = sol) ∨ ∃ (a : ℝ) (p : E), 0 < a ∧ p ≠ 0 ∧ y' = y + a • p ∧
      ∀ Ψ : E →ₗ[ℝ] E →ₗ[ℝ] ℝ, ((∀ u v, Ψ u v = ⟪u, v⟫) ∨ ∀ u v, Ψ u (A v) = ⟪u, v⟫) → 0 ≤ Ψ y p ∧ 0 ≤ Ψ (sol - y') p := by
  let s0 : It E := ⟨0, -g, g⟩
  have hp0 : s0.p = -s0.r := (neg_neg g).symm
  have h0 : s0.r = A s0.x - g := by simp [s0]
  have hK : ∀ k, krylov A s0.r k = krylov A g k := by
    intro k
    have hle : ∀ c : E, krylov A (-c) k ≤ krylov A c k := by
      intro c
      refine Submodule.span_le.2 ?_
      rintro _ ⟨j, hj, rfl⟩
      rw [map_neg]
      exact Submodule.neg_mem _ (Submodule.subset_span ⟨j, hj, rfl⟩)
    refine le_antisymm (hle g) ?_
    have := hle (-g)
    rwa [neg_neg] at this
  obtain ⟨d, hd, hne⟩ := exists_zero hA hp0
  have hfin : xs A s0 d = sol := by
    have := resid A s0 g h0 d
    rw [hd] at this
    exact hA.inj (by rw [hx]; exact (sub_eq_zero.1 this.symm))
  have hmem : ∀ k, xs A s0 k ∈ krylov A g k := by
    intro k
    have := resSpan_le_krylov (A := A) hp0 k (xs_mem (A := A) hp0 k)
    rw [hK] at this
    simpa [s0] using this
  have hopt : ∀ k ≤ d, ∀ z ∈ krylov A g k, ⟪xs A s0 k - sol, A (xs A s0 k - sol)⟫ ≤ ⟪z - sol, A (z - sol)⟫ := by
    intro k hk z hz
    refine optimal hA hp0 g sol h0 hx k (fun j hj => hne j (by omega)) ?_
    rw [hK]; simpa [s0] using hz
  -- the minimizer over the space `k` is the iterate `k`, or the solution
  have key : ∀ k y, y ∈ krylov A g k → (∀ z ∈ krylov A g k, ⟪y - sol, A (y - sol)⟫ ≤ ⟪z - sol, A (z - sol)⟫) →
      (d ≤ k → y = sol) ∧ (k ≤ d → y = xs A s0 k) := by
    intro k y hy hmin
    refine ⟨fun h => ?_, fun h => ?_⟩
    · have hs : sol ∈ krylov A g k := by rw [← hfin]; exact krylov_mono A g h (hmem d)
      refine (minimizer_unique hA hy hs hmin ?_).symm
      rw [sub_self, inner_zero_left]; exact hA.nonneg _
    · exact (minimizer_unique hA hy (hmem k) hmin (hopt k h y hy)).symm
  obtain ⟨k1, k2⟩ := key k y hy hmin
  obtain ⟨k1', k2'⟩ := key (k+1) y' hy' hmin'
  rcases Nat.lt_or_ge k d with h | h
  · refine Or.inr ⟨al A s0 k, ps A s0 k, al_pos hA hp0 hne h, ?_, ?_, ?_⟩
    · intro hp
      have := curv_pos hA hp0 k (fun j hj => hne j (by omega)) (hne k h)
      rw [hp, inner_zero_left] at this
      exact lt_irrefl _ this
    · rw [k2' h, k2 h.le, xs_succ]
    · intro Ψ hΨ
      have hac : ∀ i < d, ∀ j < d, 0 ≤ Ψ (ps A s0 i) (ps A s0 j) := by
        intro i hi j hj
        rcases hΨ with h | h
        · rw [h]; exact acute hA hp0 hne hi hj
        · exact acute_inverse hA hp0 hne hd Ψ h hi hj
      rw [k2' h, k2 h.le, ← hfin]
      have hb := behind hA hp0 hne Ψ hac h k h.le
      exact ⟨by simpa [s0] using hb, ahead hA hp0 hne Ψ hac h h⟩
  · exact Or.inl ⟨k1 h, k1' (by omega)⟩

/-- nearer to the solution and farther from the start, and a smaller value of `f`, or both the solution -/
theorem norms_of_step {sol y y' p : E} {a : ℝ} (ha : 0 < a) (hp : p ≠ 0) (hy : y' = y + a • p) (h1 : 0 ≤ ⟪y, p⟫)
    (h2 : 0 ≤ ⟪sol - y', p⟫) : ‖y' - sol‖ < ‖y - sol‖ ∧ ‖y‖ < ‖y'‖ := by
  have hpp : 0 < a ^ 2 * ‖p‖ ^ 2 := by have := norm_pos_iff.2 hp; positivity
  have e1 : ‖y'‖ ^ 2 = ‖y‖ ^ 2 + 2 * (a * ⟪y, p⟫) + a ^ 2 * ‖p‖ ^ 2 := by
    rw [hy, norm_add_sq_real, real_inner_smul_right, norm_smul, mul_pow, Real.norm_eq_abs, sq_abs]
  have e2 : ‖y - sol‖ ^ 2 = ‖y' - sol‖ ^ 2 + 2 * (a * ⟪sol - y', p⟫) + a ^ 2 * ‖p‖ ^ 2 := by
    rw [norm_sub_rev y sol, norm_sub_rev y' sol, show sol - y = (sol - y') + a • p by rw [hy]; abel, norm_add_sq_real,
      real_inner_smul_right, norm_smul, mul_pow, Real.norm_eq_abs, sq_abs]
  have := mul_nonneg ha.le h1
  have := mul_nonneg ha.le h2
  exact ⟨lt_of_pow_lt_pow_left₀ 2 (norm_nonneg _) (by linarith), lt_of_pow_lt_pow_left₀ 2 (norm_nonneg _) (by linarith)⟩

/-- consecutive minimizers of the energy norm -/
theorem closer_energy [FiniteDimensional ℝ E] (hA : SPD A) {g sol : E} (hx : A sol = g) {k : ℕ} {y y' : E} (hy : y ∈ krylov A g k)
    (hmin : ∀ z ∈ krylov A g k, ⟪y - sol, A (y - sol)⟫ ≤ ⟪z - sol, A (z - sol)⟫) (hy' : y' ∈ krylov A g (k+1))
    (hmin' : ∀ z ∈ krylov A g (k+1), ⟪y' - sol, A (y' - sol)⟫ ≤ ⟪z - sol, A (z - sol)⟫) :
    (y = sol ∧ y' = sol) ∨
      (‖y' - sol‖ < ‖y - sol‖ ∧ ‖y‖ < ‖y'‖ ∧ ⟪y' - sol, A (y' - sol)⟫ < ⟪y - sol, A (y - sol)⟫) := by
  rcases minimal_step hA hx hy hmin hy' hmin' with h | ⟨a, p, ha, hp, e, h⟩
  · exact Or.inl h
  · obtain ⟨h1, h2⟩ := h (innerₗ E) (Or.inl fun _ _ => rfl)
    obtain ⟨n1, n2⟩ := norms_of_step ha hp e h1 h2
    refine Or.inr ⟨n1, n2, lt_of_not_ge fun hle => ?_⟩
    have hm := krylov_mono A g (Nat.le_succ k) hy
    have := minimizer_unique hA hy' hm hmin' hle
    rw [this] at n2
    exact lt_irrefl _ n2

/-- consecutive minimizers of the residual norm -/
theorem closer_residual [FiniteDimensional ℝ E] (hA : SPD A) {g sol : E} (hx : A sol = g) {k : ℕ} {y y' : E} (hy : y ∈ krylov A g k)
    (hmin : ∀ z ∈ krylov A g k, ‖g - A y‖ ≤ ‖g - A z‖) (hy' : y' ∈ krylov A g (k+1))
    (hmin' : ∀ z ∈ krylov A g (k+1), ‖g - A y'‖ ≤ ‖g - A z‖) :
    (y = sol ∧ y' = sol) ∨
      (‖y' - sol‖ < ‖y - sol‖ ∧ ‖y‖ < ‖y'‖ ∧ ⟪y' - sol, A (y' - sol)⟫ < ⟪y - sol, A (y - sol)⟫ ∧ ‖g - A y'‖ < ‖g - A y‖) := by
  have hS : Spd A := ⟨hA.symm, hA.pos⟩
  let e := Warp.mk A hS
  let A' : Warp A hS →ₗ[ℝ] Warp A hS := e.toLinearMap ∘ₗ A ∘ₗ e.symm.toLinearMap
  have hA'e : ∀ u, A' (e u) = e (A u) := fun _ => rfl
  have : FiniteDimensional ℝ (Warp A hS) := LinearEquiv.finiteDimensional e
  have hA' : SPD A' := by
    refine ⟨fun u v => ?_, fun u hu => ?_⟩
    · exact hA.symm _ _
    · have h0 : e.symm u ≠ 0 := (LinearEquiv.map_ne_zero_iff _).2 hu
      have h1 : A (e.symm u) ≠ 0 := fun h => h0 (hA.inj (by rw [h, map_zero]))
      have h2 : (⟪u, A' u⟫ : ℝ) = ⟪e.symm u, A (A (e.symm u))⟫ := rfl
      rw [h2, ← hA.symm]
      exact real_inner_self_pos.2 h1
  have hen : ∀ z, (⟪e z - e sol, A' (e z - e sol)⟫ : ℝ) = ‖g - A z‖ ^ 2 := by
    intro z
    have h2 : (⟪e z - e sol, A' (e z - e sol)⟫ : ℝ) = ⟪z - sol, A (A (z - sol))⟫ := rfl
    rw [h2, ← hA.symm, map_sub, hx, real_inner_self_eq_norm_sq, norm_sub_rev]
  have hpow : ∀ (j : ℕ) (u : E), (A' ^ j) (e u) = e ((A ^ j) u) := by
    intro j
    induction j with
    | zero => intro u; rfl
    | succ j ih => intro u; rw [pow_succ, pow_succ, Module.End.mul_apply, Module.End.mul_apply, hA'e, ih]
  have hK : ∀ k z, z ∈ krylov A g k → e z ∈ krylov A' (e g) k := by
    intro k z hz
    have : krylov A g k ≤ (krylov A' (e g) k).comap e.toLinearMap := by
      refine Submodule.span_le.2 ?_
      rintro _ ⟨j, hj, rfl⟩
      exact Submodule.subset_span ⟨j, hj, (hpow j g).symm⟩
    exact this hz
  have hK' : ∀ k z, z ∈ krylov A' (e g) k → ∃ u ∈ krylov A g k, e u = z := by
    intro k z hz
    have : krylov A' (e g) k ≤ (krylov A g k).map e.toLinearMap := by
      refine Submodule.span_le.2 ?_
      rintro _ ⟨j, hj, rfl⟩
      exact ⟨_, Submodule.subset_span ⟨j, hj, rfl⟩, (hpow j g).symm⟩
    exact this hz
  have hM : ∀ k y, (∀ z ∈ krylov A g k, ‖g - A y‖ ≤ ‖g - A z‖) →
      ∀ z ∈ krylov A' (e g) k, (⟪e y - e sol, A' (e y - e sol)⟫ : ℝ) ≤ ⟪z - e sol, A' (z - e sol)⟫ := by
    intro k y h z hz
    obtain ⟨u, hu, rfl⟩ := hK' k z hz
    rw [hen, hen]
    exact pow_le_pow_left₀ (norm_nonneg _) (h u hu) 2
  have hx' : A' (e sol) = e g := by rw [hA'e, hx]
  have hm := hM k y hmin
  have hm' := hM (k+1) y' hmin'
  have hn : ∀ u v : E, ‖e u - e v‖ = Real.sqrt ⟪u - v, A (u - v)⟫ := fun u v => by rw [← map_sub]; exact Warp.norm_mk _
  rcases closer_energy hA' hx' (hK k y hy) hm (hK (k+1) y' hy') hm' with ⟨h1, h2⟩ | ⟨h1, -, h3⟩
  · exact Or.inl ⟨e.injective h1, e.injective h2⟩
  rw [hn, hn] at h1
  rw [hen, hen] at h3
  rcases minimal_step hA' hx' (hK k y hy) hm (hK (k+1) y' hy') hm' with ⟨h4, h5⟩ | ⟨a, p, ha, hp, ep, h⟩
  · exact Or.inl ⟨e.injective h4, e.injective h5⟩
  · let Ψ : Warp A hS →ₗ[ℝ] Warp A hS →ₗ[ℝ] ℝ := (innerₗ E).compl₁₂ e.symm.toLinearMap e.symm.toLinearMap
    have hΨ : ∀ u v, Ψ u v = ⟪e.symm u, e.symm v⟫ := fun _ _ => rfl
    obtain ⟨g1, g2⟩ := h Ψ (Or.inr fun u v => by
      rw [hΨ]; rfl)
    rw [hΨ] at g1 g2
    rw [map_sub] at g2
    simp only [LinearEquiv.symm_apply_apply] at g1 g2
    have ep' : y' = y + a • e.symm p := by
      apply e.injective
      rw [ep, map_add, map_smul, LinearEquiv.apply_symm_apply]
    obtain ⟨n1, n2⟩ := norms_of_step ha ((LinearEquiv.map_ne_zero_iff _).2 hp) ep' g1 g2
    exact Or.inr ⟨n1, n2, (Real.sqrt_lt_sqrt_iff (hA.nonneg _)).1 h1, lt_of_pow_lt_pow_left₀ 2 (norm_nonneg _) h3⟩

/-! ### In an invariant subspace -/

section subspace
variable {G : E →ₗ[ℝ] E} {W : Submodule ℝ E} (hW : ∀ w ∈ W, G w ∈ W) {g : E} (hg : g ∈ W)
include hW hg

theorem krylov_restrict (k : ℕ) : krylov G g k = (krylov (G.restrict hW) ⟨g, hg⟩ k).map W.subtype := by
  have hpow : ∀ (j : ℕ) (w : W), ((((G.restrict hW) ^ j) w : W) : E) = (G ^ j) (w : E) := by
    intro j
    induction j with
    | zero => intro w; rfl
    | succ j ih => intro w; rw [pow_succ, pow_succ]; exact ih _
  apply le_antisymm
  · refine Submodule.span_le.2 ?_
    rintro _ ⟨j, hj, rfl⟩
    exact ⟨_, Submodule.subset_span ⟨j, hj, rfl⟩, hpow j ⟨g, hg⟩⟩
  · rw [Submodule.map_le_iff_le_comap]
    refine Submodule.span_le.2 ?_
    rintro _ ⟨j, hj, rfl⟩
    exact Submodule.subset_span ⟨j, hj, hpow j ⟨g, hg⟩⟩

variable [FiniteDimensional ℝ E] (hs : ∀ u v, ⟪G u, v⟫ = ⟪u, G v⟫) (hp : ∀ z ∈ W, z ≠ 0 → 0 < ⟪z, G z⟫) {sol : E} (hsol : sol ∈ W)
  (hx : G sol = g) {k : ℕ} {y y' : E} (hy : y ∈ krylov G g k) (hy' : y' ∈ krylov G g (k+1))
include hs hp hsol hx hy hy'

theorem closer_energy_in (hmin : ∀ z ∈ krylov G g k, ⟪y - sol, G (y - sol)⟫ ≤ ⟪z - sol, G (z - sol)⟫)
    (hmin' : ∀ z ∈ krylov G g (k+1), ⟪y' - sol, G (y' - sol)⟫ ≤ ⟪z - sol, G (z - sol)⟫) :
    (y = sol ∧ y' = sol) ∨
      (‖y' - sol‖ < ‖y - sol‖ ∧ ‖y‖ < ‖y'‖ ∧ ⟪y' - sol, G (y' - sol)⟫ < ⟪y - sol, G (y - sol)⟫) := by
  rw [krylov_restrict hW hg] at hy hy' hmin hmin'
  obtain ⟨u, hu, rfl⟩ := hy
  obtain ⟨u', hu', rfl⟩ := hy'
  have hA : SPD (G.restrict hW) := ⟨fun u v => hs u v, fun u hu => hp u u.2 fun h => hu (Subtype.ext h)⟩
  rcases closer_energy hA (g := ⟨g, hg⟩) (sol := ⟨sol, hsol⟩) (Subtype.ext hx) hu (fun z hz => hmin _ ⟨z, hz, rfl⟩) hu'
    (fun z hz => hmin' _ ⟨z, hz, rfl⟩) with ⟨h1, h2⟩ | h
  · exact Or.inl ⟨congrArg Subtype.val h1, congrArg Subtype.val h2⟩
  · exact Or.inr h

theorem closer_residual_in (hmin : ∀ z ∈ krylov G g k, ‖g - G y‖ ≤ ‖g - G z‖)
    (hmin' : ∀ z ∈ krylov G g (k+1), ‖g - G y'‖ ≤ ‖g - G z‖) :
    (y = sol ∧ y' = sol) ∨
      (‖y' - sol‖ < ‖y - sol‖ ∧ ‖y‖ < ‖y'‖ ∧ ⟪y' - sol, G (y' - sol)⟫ < ⟪y - sol, G (y - sol)⟫ ∧ ‖g - G y'‖ < ‖g - G y‖) := by
  rw [krylov_restrict hW hg] at hy hy' hmin hmin'
  obtain ⟨u, hu, rfl⟩ := hy
  obtain ⟨u', hu', rfl⟩ := hy'
  have hA : SPD (G.restrict hW) := ⟨fun u v => hs u v, fun u hu => hp u u.2 fun h => hu (Subtype.ext h)⟩
  rcases closer_residual hA (g := ⟨g, hg⟩) (sol := ⟨sol, hsol⟩) (Subtype.ext hx) hu (fun z hz => hmin _ ⟨z, hz, rfl⟩) hu'
    (fun z hz => hmin' _ ⟨z, hz, rfl⟩) with ⟨h1, h2⟩ | h
  · exact Or.inl ⟨congrArg Subtype.val h1, congrArg Subtype.val h2⟩
  · exact Or.inr h

end subspace

end Verif.Solver.CGMath
