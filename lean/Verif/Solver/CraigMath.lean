import Verif.Solver.BidiagMath

/-!
# Helper: the generalized CRAIG and CRAIG-MR recurrences over the reals

Both methods work on `(A A' + I) r = b`.
-/

namespace Verif.Solver.CraigMath
open scoped RealInnerProductSpace
open MinresMath (krylov krylov_mono krylov_map)
open Bidiag

variable {E F : Type} [NormedAddCommGroup E] [InnerProductSpace ℝ E] [NormedAddCommGroup F] [InnerProductSpace ℝ F]

/-- The variables shared by the two methods after `k` iterations: `u`, `v`, `α` of the bidiagonalization, the rotation `c`, `s`,
the pivot `ah` and the direction `d`. -/
structure CR (A : E →ₗ[ℝ] F) (B : F →ₗ[ℝ] E) (b : F) (k : ℕ) (u : F) (v : E) (α : ℝ) (Us Us' : Submodule ℝ F)
    (c s ah : ℝ) (d : F) : Prop where
  uu : ⟪u, u⟫ = 1
  uU : u ∈ Us
  uorth : ∀ z ∈ Us', ⟪z, u⟫ = 0
  qorth : ∀ z ∈ Us, ⟪z, A v - α • u⟫ = 0
  KUs' : ∀ z ∈ Us', z + A (B z) ∈ Us
  le : Us' ≤ Us
  kry' : Us' = krylov (A ∘ₗ B) b k
  kry : Us = krylov (A ∘ₗ B) b (k+1)
  bU : b ∈ Us
  Usd : Us = Us' ⊔ Submodule.span ℝ {d}
  ahpos : 0 < ah
  cah : c * ah = α
  cs : c * c + s * s = 1
  Kd : d + A (B d) = ah • u + c • (A v - α • u)
  αv : α = 0 → v = 0
  gk : α ≠ 0 → ∃ Vs Vs', GK A B b k u v α Us Us' Vs Vs' ∧ ∀ z ∈ Vs, ∃ y ∈ Us, B y = z

variable {A : E →ₗ[ℝ] F} {B : F →ₗ[ℝ] E} {b : F} {k : ℕ} {u : F} {v : E} {α : ℝ} {Us Us' : Submodule ℝ F} {c s ah : ℝ} {d : F}

theorem CR.dU (h : CR A B b k u v α Us Us' c s ah d) : d ∈ Us := by
  rw [h.Usd]; exact Submodule.mem_sup_right (Submodule.mem_span_singleton_self _)

theorem span_scaled {S : Submodule ℝ F} {u d y : F} {t : ℝ} (ht : t ≠ 0) (hy : y ∈ S) (h : t • d = u - y) :
    S ⊔ Submodule.span ℝ {u} = S ⊔ Submodule.span ℝ {d} := by
  have hd : d = t⁻¹ • (u - y) := by rw [← h, smul_smul, inv_mul_cancel₀ ht, one_smul]
  have hu : u = t • d + y := by rw [h]; abel
  apply le_antisymm
  · refine sup_le le_sup_left ?_
    rw [Submodule.span_singleton_le_iff_mem, hu]
    exact Submodule.add_mem _ (Submodule.mem_sup_right (Submodule.smul_mem _ _ (Submodule.mem_span_singleton_self _)))
      (Submodule.mem_sup_left hy)
  · refine sup_le le_sup_left ?_
    rw [Submodule.span_singleton_le_iff_mem, hd]
    exact Submodule.smul_mem _ _ (Submodule.sub_mem _ (Submodule.mem_sup_right (Submodule.mem_span_singleton_self _))
      (Submodule.mem_sup_left hy))

/-- one iteration whose next left vector is not zero -/
theorem CR.next (h : CR A B b k u v α Us Us' c s ah d) (hAB : ∀ x y, ⟪A x, y⟫ = ⟪x, B y⟫) {β α' : ℝ} {u' : F} {v' : E}
    (hβ : 0 < β) (hu : β • u' = A v - α • u) (hu1 : ⟪u', u'⟫ = 1) (hv : α' • v' = B u' - β • v) (hα : 0 ≤ α')
    (hv1 : α' ≠ 0 → ⟪v', v'⟫ = 1) (hv0 : α' = 0 → v' = 0) {δ ah' c' s' : ℝ} (hδ : 0 < δ) (hδ2 : δ * δ = s * β * (s * β) + 1)
    (hah : 0 < ah') (hah2 : ah' * ah' = α' * α' + δ * δ) (hc : c' = α' / ah') (hs : s' = δ / ah') {d' : F}
    (hd : d' = ah'⁻¹ • (u' - (c * β) • d)) :
    CR A B b (k+1) u' v' α' (Us ⊔ Submodule.span ℝ {u'}) Us c' s' ah' d' ∧ (∀ z ∈ Us, ⟪z, u'⟫ = 0) := by
  have hα0 : α ≠ 0 := by
    intro h0
    have h1 := h.αv h0
    rw [h0, h1, map_zero, zero_smul, sub_zero] at hu
    have : u' = 0 := (smul_eq_zero.1 hu).resolve_left hβ.ne'
    rw [this, inner_zero_left] at hu1
    norm_num at hu1
  obtain ⟨Vs, Vs', g, hVs⟩ := h.gk hα0
  have hu' : u' = β⁻¹ • (A v - α • u) := by rw [← hu, smul_smul, inv_mul_cancel₀ hβ.ne', one_smul]
  have huo : ∀ z ∈ Us, ⟪z, u'⟫ = 0 := by
    intro z hz
    rw [hu', inner_smul_right, h.qorth z hz, mul_zero]
  have hKU : ∀ z ∈ Us, A (B z) ∈ Us ⊔ Submodule.span ℝ {u'} := fun z hz => g.AVs hu _ (g.BUs z hz)
  have hu'k : u' ∈ krylov (A ∘ₗ B) b (k+1+1) := by
    rw [hu']
    refine Submodule.smul_mem _ _ (Submodule.sub_mem _ ?_ (Submodule.smul_mem _ _ ?_))
    · obtain ⟨y, hy, hyv⟩ := hVs v g.vVs
      rw [← hyv]
      exact krylov_map (A ∘ₗ B) b (k+1) (h.kry ▸ hy)
    · exact krylov_mono _ _ (by omega) (h.kry ▸ h.uU)
  have hkry : Us ⊔ Submodule.span ℝ {u'} = krylov (A ∘ₗ B) b (k+1+1) := by
    apply le_antisymm
    · refine sup_le (h.kry ▸ krylov_mono _ _ (by omega)) ?_
      rw [Submodule.span_singleton_le_iff_mem]
      exact hu'k
    · refine Submodule.span_le.2 ?_
      rintro z ⟨j, hj, rfl⟩
      rcases Nat.eq_zero_or_pos j with h0 | h0
      · subst h0
        exact Submodule.mem_sup_left h.bU
      · obtain ⟨i, rfl⟩ : ∃ i, j = i + 1 := ⟨j - 1, by omega⟩
        rw [pow_succ']
        refine hKU _ ?_
        rw [h.kry]
        exact Submodule.subset_span ⟨i, by omega, rfl⟩
  have hahd : ah' • d' = u' - (c * β) • d := by rw [hd, smul_smul, mul_inv_cancel₀ hah.ne', one_smul]
  refine ⟨{ uu := hu1, uU := Submodule.mem_sup_right (Submodule.mem_span_singleton_self _), uorth := huo, qorth := ?_,
            KUs' := fun z hz => Submodule.add_mem _ (Submodule.mem_sup_left hz) (hKU z hz), le := le_sup_left,
            kry' := h.kry, kry := hkry, bU := Submodule.mem_sup_left h.bU,
            Usd := span_scaled hah.ne' (Submodule.smul_mem _ _ h.dU) hahd, ahpos := hah,
            cah := by rw [hc]; field_simp, cs := ?_, Kd := ?_, αv := hv0, gk := ?_ }, huo⟩
  · intro z hz
    by_cases h0 : α' = 0
    · rw [hv0 h0, h0]; simp
    · exact (g.step hAB hu hβ.ne' hu1 hv (lt_of_le_of_ne hα (Ne.symm h0)) (hv1 h0)).q_orth hAB z hz
  · rw [hc, hs]
    field_simp
    linear_combination -hah2
  · have hBu : B u' = α' • v' + β • v := by rw [hv]; abel
    have hAv : A v = β • u' + α • u := by rw [hu]; abel
    have hKd := h.Kd
    rw [← hu] at hKd
    have hK : u' + A (B u') - (c * β) • (d + A (B d)) = (ah' * ah') • u' + α' • (A v' - α' • u') := by
      rw [hKd, hBu, map_add, map_smul, map_smul, hAv]
      have h1 : c * β * ah = β * α := by rw [← h.cah]; ring
      have h2 : ah' * ah' = α' * α' + 1 + β * β - c * β * (c * β) := by
        rw [hah2, hδ2]
        linear_combination β * β * h.cs
      rw [h2]
      have : (c * β) • ah • u = (β * α) • u := by rw [smul_smul, h1]
      rw [smul_add (c * β) (ah • u), this]
      module
    have hL : d' + A (B d') = ah'⁻¹ • (u' + A (B u') - (c * β) • (d + A (B d))) := by
      rw [hd]
      simp only [map_smul, map_sub, smul_sub, smul_add]
      abel
    rw [hL, hK, smul_add, smul_smul, smul_smul, hc]
    congr 2
    · field_simp
    · rw [div_eq_inv_mul]
  · intro h0
    have g' := g.step hAB hu hβ.ne' hu1 hv (lt_of_le_of_ne hα (Ne.symm h0)) (hv1 h0)
    refine ⟨_, _, g', ?_⟩
    intro z hz
    obtain ⟨y, hy, t, rfl⟩ := mem_sup_span hz
    obtain ⟨y', hy', rfl⟩ := hVs y hy
    obtain ⟨y'', hy'', hyv⟩ := hVs v g.vVs
    have hv'' : v' = α'⁻¹ • (B u' - β • v) := by rw [← hv, smul_smul, inv_mul_cancel₀ h0, one_smul]
    refine ⟨y' + t • α'⁻¹ • (u' - β • y''), ?_, ?_⟩
    · refine Submodule.add_mem _ (Submodule.mem_sup_left hy') (Submodule.smul_mem _ _ (Submodule.smul_mem _ _ (Submodule.sub_mem _ ?_ ?_)))
      · exact Submodule.mem_sup_right (Submodule.mem_span_singleton_self _)
      · exact Submodule.mem_sup_left (Submodule.smul_mem _ _ hy'')
    · rw [hv'']
      simp only [map_add, map_smul, map_sub, hyv]

/-- the variables before the first iteration -/
theorem CR.init (hAB : ∀ x y, ⟪A x, y⟫ = ⟪x, B y⟫) {β α : ℝ} {u : F} {v : E} (hβ : 0 < β) (hu : β • u = b) (hu1 : ⟪u, u⟫ = 1)
    (hv : α • v = B u) (hα : 0 ≤ α) (hv1 : α ≠ 0 → ⟪v, v⟫ = 1) (hv0 : α = 0 → v = 0) {ah c s : ℝ} (hah : 0 < ah)
    (hah2 : ah * ah = α * α + 1) (hc : c = α / ah) (hs : s = 1 / ah) :
    CR A B b 0 u v α (⊥ ⊔ Submodule.span ℝ {u}) ⊥ c s ah (ah⁻¹ • u) := by
  have hub : u = β⁻¹ • b := by rw [← hu, smul_smul, inv_mul_cancel₀ hβ.ne', one_smul]
  have hg : α ≠ 0 → GK A B b 0 u v α (⊥ ⊔ Submodule.span ℝ {u}) ⊥ (⊥ ⊔ Submodule.span ℝ {v}) ⊥ := fun h0 =>
    GK.init A B hu hu1 hv (lt_of_le_of_ne hα (Ne.symm h0)) (hv1 h0) hβ.ne'
  refine
    { uu := hu1, uU := Submodule.mem_sup_right (Submodule.mem_span_singleton_self _)
      uorth := fun z hz => by rw [(Submodule.mem_bot ℝ).1 hz, inner_zero_left], qorth := ?_
      KUs' := fun z hz => by rw [(Submodule.mem_bot ℝ).1 hz]; simp
      le := bot_le, kry' := ?_, kry := ?_, bU := ?_, Usd := ?_, ahpos := hah, cah := by rw [hc]; field_simp, cs := ?_, Kd := ?_,
      αv := hv0, gk := fun h0 => ⟨_, _, hg h0, ?_⟩ }
  · intro z hz
    by_cases h0 : α = 0
    · rw [hv0 h0, h0]; simp
    · exact (hg h0).q_orth hAB z hz
  · symm
    unfold krylov
    rw [Submodule.span_eq_bot]
    rintro z ⟨j, hj, -⟩
    omega
  · apply le_antisymm
    · refine sup_le bot_le ?_
      rw [Submodule.span_singleton_le_iff_mem, hub]
      exact Submodule.smul_mem _ _ (Submodule.subset_span ⟨0, by omega, by simp⟩)
    · refine Submodule.span_le.2 ?_
      rintro z ⟨j, hj, rfl⟩
      obtain rfl : j = 0 := by omega
      rw [pow_zero]
      change b ∈ _
      rw [← hu]
      exact Submodule.mem_sup_right (Submodule.smul_mem _ _ (Submodule.mem_span_singleton_self _))
  · rw [← hu]
    exact Submodule.mem_sup_right (Submodule.smul_mem _ _ (Submodule.mem_span_singleton_self _))
  · refine span_scaled (y := 0) hah.ne' (Submodule.zero_mem _) ?_
    rw [smul_smul, mul_inv_cancel₀ hah.ne', one_smul, sub_zero]
  · rw [hc, hs]
    field_simp
    linear_combination -hah2
  · rw [map_smul, map_smul, ← hv, map_smul, ← smul_add]
    have : u + α • A v = (ah * ah) • u + α • (A v - α • u) := by
      rw [hah2]; module
    rw [this, smul_add, smul_smul, smul_smul, hc]
    congr 2
    · field_simp
    · rw [div_eq_inv_mul]
  · intro z hz
    obtain ⟨y, hy, t, rfl⟩ := mem_sup_span hz
    rw [(Submodule.mem_bot ℝ).1 hy]
    refine ⟨(t * α⁻¹) • u, Submodule.mem_sup_right (Submodule.smul_mem _ _ (Submodule.mem_span_singleton_self _)), ?_⟩
    rw [map_smul, ← hv, smul_smul, mul_assoc, inv_mul_cancel₀ h0, mul_one, zero_add]

/-! ### CRAIG -/

/-- `r` solves `(A A' + I) r = b` in the sense of Galerkin on the space: the error is minimal in the energy norm. -/
theorem galerkin (hAB : ∀ x y, ⟪A x, y⟫ = ⟪x, B y⟫) {S : Submodule ℝ F} {r : F} (hr : r ∈ S)
    (ho : ∀ z ∈ S, ⟪z, b - (r + A (B r))⟫ = 0) (y z : F) (hy : y ∈ S) (hz : A (B z) + z = b) :
    ‖B (r - z)‖ ^ 2 + ‖r - z‖ ^ 2 ≤ ‖B (y - z)‖ ^ 2 + ‖y - z‖ ^ 2 := by
  have h1 := ho (y - r) (Submodule.sub_mem _ hy hr)
  have e1 : b - (r + A (B r)) = (z - r) + A (B (z - r)) := by
    rw [← hz, map_sub, map_sub]; abel
  rw [e1, inner_add_right, ← real_inner_comm (y - r) (A (B (z - r))), hAB] at h1
  have e2 : y - z = (y - r) - (z - r) := by abel
  have e3 : r - z = -(z - r) := by abel
  have h2 : ⟪B (y - r), B (z - r)⟫ = ⟪B (z - r), B (y - r)⟫ := real_inner_comm _ _
  rw [e2, e3]
  generalize y - r = a at *
  generalize z - r = a' at *
  rw [map_neg, norm_neg, norm_neg, map_sub, @norm_sub_sq_real, @norm_sub_sq_real]
  nlinarith [sq_nonneg ‖B a‖, sq_nonneg ‖a‖]

/-- The CRAIG variables: the dual iterate `r`, the primal iterate `x`, and `τ`, `w`, `wbar`. -/
structure CraigVars (A : E →ₗ[ℝ] F) (B : F →ₗ[ℝ] E) (b u : F) (v : E) (α : ℝ) (Us : Submodule ℝ F) (c s : ℝ) (d : F)
    (r : F) (x w wbar : E) (τ n : ℝ) : Prop where
  rU : r ∈ Us
  res : b - (r + A (B r)) = -(τ * c) • (A v - α • u)
  db : ⟪d, b⟫ = τ
  rb : ⟪r, b⟫ = n
  hx : x = B r
  hw : w = B d
  hwbar : s • wbar = v - c • w

theorem CraigVars.orth (h : CR A B b k u v α Us Us' c s ah d) {r : F} {x w wbar : E} {τ n : ℝ}
    (hc : CraigVars A B b u v α Us c s d r x w wbar τ n) : ∀ z ∈ Us, ⟪z, b - (r + A (B r))⟫ = 0 := by
  intro z hz
  rw [hc.res, inner_smul_right, h.qorth z hz, mul_zero]

theorem CraigVars.next (h : CR A B b k u v α Us Us' c s ah d) {r : F} {x w wbar : E} {τ n : ℝ}
    (hc : CraigVars A B b u v α Us c s d r x w wbar τ n) {β α' δ ah' c' s' : ℝ} {u' : F} {v' : E} {d' : F}
    (hu : β • u' = A v - α • u) (huo : ∀ z ∈ Us, ⟪z, u'⟫ = 0) (hv : α' • v' = B u' - β • v)
    (hδ : 0 < δ) (hah : 0 < ah') (hc' : c' = α' / ah') (hs' : s' = δ / ah') (hcs : c' * c' + s' * s' = 1)
    (hd : d' = ah'⁻¹ • (u' - (c * β) • d)) (hKd : d' + A (B d') = ah' • u' + c' • (A v' - α' • u')) :
    CraigVars A B b u' v' α' (Us ⊔ Submodule.span ℝ {u'}) c' s' d' (r + (-(c * β) * τ / ah') • d')
      (x + (-(c * β) * τ / ah') • (c' • v' + s' • (s * β / δ) • wbar)) (c' • v' + s' • (s * β / δ) • wbar)
      (-c' • (s * β / δ) • wbar + s' • v') (-(c * β) * τ / ah') (n + (-(c * β) * τ / ah') * (-(c * β) * τ / ah')) := by
  have hsw : s' • (s * β / δ) • wbar = (β / ah') • (v - c • w) := by
    rw [← hc.hwbar, smul_smul, smul_smul, hs']
    congr 1
    field_simp
  have hw : c' • v' + s' • (s * β / δ) • wbar = B d' := by
    have hBu : B u' = α' • v' + β • v := by rw [hv]; abel
    rw [hsw, hd, map_smul, map_sub, hBu, map_smul, ← hc.hw, hc', div_eq_inv_mul, div_eq_inv_mul]
    module
  have hdb : ⟪d', b⟫ = -(c * β) * τ / ah' := by
    rw [hd, inner_smul_left, inner_sub_left, inner_smul_left, hc.db, real_inner_comm, huo b h.bU]
    simp only [conj_trivial]
    field_simp
    ring
  have hd'U : d' ∈ Us ⊔ Submodule.span ℝ {u'} := by
    rw [hd]
    exact Submodule.smul_mem _ _ (Submodule.sub_mem _ (Submodule.mem_sup_right (Submodule.mem_span_singleton_self _))
      (Submodule.mem_sup_left (Submodule.smul_mem _ _ h.dU)))
  refine ⟨Submodule.add_mem _ (Submodule.mem_sup_left hc.rU) (Submodule.smul_mem _ _ hd'U), ?_, hdb, ?_, ?_, hw, ?_⟩
  · have e1 : b - (r + (-(c * β) * τ / ah') • d' + A (B (r + (-(c * β) * τ / ah') • d'))) =
        (b - (r + A (B r))) - (-(c * β) * τ / ah') • (d' + A (B d')) := by
      simp only [map_add, map_smul, smul_add]; abel
    rw [e1, hc.res, hKd, ← hu]
    have e2 : (-(c * β) * τ / ah') * ah' = -(τ * c) * β := by field_simp
    rw [smul_add, smul_smul, smul_smul, smul_smul, e2]
    module
  · rw [inner_add_left, inner_smul_left, hc.rb, hdb]
    simp
  · rw [hw, map_add, map_smul, hc.hx]
  · have : (1 - c' * c') • v' = (s' * s') • v' := by rw [show 1 - c' * c' = s' * s' by linarith]
    have e : v' - c' • (c' • v' + s' • (s * β / δ) • wbar) = (1 - c' * c') • v' - (c' * s') • (s * β / δ) • wbar := by module
    rw [e, this]
    module

theorem CraigVars.init {β α : ℝ} {u : F} {v : E} (hβ : 0 < β) (hu : β • u = b) (hu1 : ⟪u, u⟫ = 1)
    (hv : α • v = B u) {ah c s : ℝ} (hah : 0 < ah) (hah2 : ah * ah = α * α + 1) (hc : c = α / ah) (hs : s = 1 / ah) :
    CraigVars A B b u v α (⊥ ⊔ Submodule.span ℝ {u}) c s (ah⁻¹ • u) ((β / ah) • ah⁻¹ • u) ((s * β) • c • v) (c • v) (s • v)
      (β / ah) (β / ah * (β / ah)) := by
  have hcs : c * c + s * s = 1 := by rw [hc, hs]; field_simp; linear_combination -hah2
  have hw : c • v = B (ah⁻¹ • u) := by rw [map_smul, ← hv, smul_smul, hc, div_eq_inv_mul]
  have hsb : s * β = β / ah := by rw [hs]; field_simp
  refine ⟨?_, ?_, ?_, ?_, ?_, hw, ?_⟩
  · exact Submodule.smul_mem _ _ (Submodule.smul_mem _ _ (Submodule.mem_sup_right (Submodule.mem_span_singleton_self _)))
  · rw [map_smul, map_smul, ← hw, map_smul, ← hu, hc]
    have e : β • u = (β / ah * ah⁻¹ * (α * α + 1)) • u := by
      rw [← hah2]; congr 1; field_simp
    rw [e]
    simp only [smul_sub, smul_smul, div_eq_mul_inv]
    module
  · rw [inner_smul_left, ← hu, inner_smul_right, hu1]
    simp only [conj_trivial]
    field_simp
  · rw [inner_smul_left, inner_smul_left, ← hu, inner_smul_right, hu1]
    simp only [conj_trivial]
    field_simp
  · rw [map_smul, ← hw, hsb]
  · rw [smul_smul, smul_smul, show s * s = 1 - c * c by linarith]
    module

/-! ### CRAIG-MR -/

/-- The CRAIG-MR variables: the iterate `x`, `dbar`, `θ`, the pivot `at_`, `ζ` and the direction `p` of the residual;
`nx` is the accumulated squared norm. -/
structure CraigmrVars (A : E →ₗ[ℝ] F) (B : F →ₗ[ℝ] E) (b u : F) (v : E) (α : ℝ) (Us Us' : Submodule ℝ F) (c : ℝ) (d : F)
    (x dbar p : F) (θ at_ ζ nx : ℝ) : Prop where
  at0 : at_ ≠ 0
  xU : x ∈ Us'
  dbU : dbar ∈ Us'
  pU : p ∈ Us
  pp : ⟪p, p⟫ = 1
  porth : ∀ z ∈ Us', ⟪p, z + A (B z)⟫ = 0
  res : b - (x + A (B x)) = ζ • p
  dir : d + A (B d) - θ • (dbar + A (B dbar)) = at_ • p + c • (A v - α • u)
  nx : nx + ζ * ζ = ‖b‖ ^ 2

theorem CraigmrVars.minimal {x dbar p : F} {θ at_ ζ nx : ℝ} (hc : CraigmrVars A B b u v α Us Us' c d x dbar p θ at_ ζ nx)
    (y : F) (hy : y ∈ Us') : ‖b - (x + A (B x))‖ ≤ ‖b - (y + A (B y))‖ := by
  have h1 := hc.porth (x - y) (Submodule.sub_mem _ hc.xU hy)
  have e : b - (y + A (B y)) = ζ • p + ((x - y) + A (B (x - y))) := by
    rw [← hc.res, map_sub, map_sub]; abel
  have h2 : ‖b - (y + A (B y))‖ ^ 2 = ‖ζ • p‖ ^ 2 + ‖(x - y) + A (B (x - y))‖ ^ 2 := by
    rw [e, @norm_add_sq_real, inner_smul_left, h1]; simp
  rw [hc.res]
  refine le_of_sq_le_sq ?_ (norm_nonneg _)
  rw [h2]
  nlinarith [sq_nonneg ‖(x - y) + A (B (x - y))‖]

theorem CraigmrVars.nx_eq (hAB : ∀ x y, ⟪A x, y⟫ = ⟪x, B y⟫) {x dbar p : F} {θ at_ ζ nx : ℝ}
    (hc : CraigmrVars A B b u v α Us Us' c d x dbar p θ at_ ζ nx) : nx = ‖x + A (B x)‖ ^ 2 ∧ ‖b - (x + A (B x))‖ = |ζ| := by
  have hp : ‖p‖ = 1 := by
    have := hc.pp
    rw [real_inner_self_eq_norm_sq] at this
    exact (pow_eq_one_iff_of_nonneg (norm_nonneg p) two_ne_zero).1 this
  have h1 := hc.porth x hc.xU
  have e : b = ζ • p + (x + A (B x)) := by rw [← hc.res]; abel
  have h2 : ‖b‖ ^ 2 = ‖ζ • p‖ ^ 2 + ‖x + A (B x)‖ ^ 2 := by
    conv_lhs => rw [e]
    rw [@norm_add_sq_real, inner_smul_left, h1]; simp
  rw [norm_smul, hp, mul_one, Real.norm_eq_abs, sq_abs] at h2
  refine ⟨?_, by rw [hc.res, norm_smul, hp, mul_one, Real.norm_eq_abs]⟩
  have := hc.nx
  linarith [sq ζ]

theorem CraigmrVars.next (h : CR A B b k u v α Us Us' c s ah d) {x dbar p : F} {θ at_ ζ nx : ℝ}
    (hc : CraigmrVars A B b u v α Us Us' c d x dbar p θ at_ ζ nx) {β α' ah' c' ρ ch sh : ℝ} {u' : F} {v' : E} {d' : F}
    (hu : β • u' = A v - α • u) (hu1 : ⟪u', u'⟫ = 1) (huo : ∀ z ∈ Us, ⟪z, u'⟫ = 0) (hah : 0 < ah')
    (hKd : d' + A (B d') = ah' • u' + c' • (A v' - α' • u'))
    (hρ : 0 < ρ) (hρ2 : ρ * ρ = at_ * at_ + c * β * (c * β)) (hch : ch = at_ / ρ) (hsh : sh = c * β / ρ) :
    CraigmrVars A B b u' v' α' (Us ⊔ Submodule.span ℝ {u'}) Us c' d' (x + (ch * ζ) • ρ⁻¹ • (d - θ • dbar))
      (ρ⁻¹ • (d - θ • dbar)) (sh • p - ch • u') (sh * ah') (-ch * ah') (sh * ζ) (nx + ch * ζ * (ch * ζ)) := by
  have hcs : ch * ch + sh * sh = 1 := by rw [hch, hsh]; field_simp; linear_combination -hρ2
  have hpu : ⟪p, u'⟫ = 0 := huo p hc.pU
  have hg : ρ⁻¹ • (d - θ • dbar) + A (B (ρ⁻¹ • (d - θ • dbar))) = ch • p + sh • u' := by
    have e : ρ⁻¹ • (d - θ • dbar) + A (B (ρ⁻¹ • (d - θ • dbar))) =
        ρ⁻¹ • (d + A (B d) - θ • (dbar + A (B dbar))) := by
      simp only [map_smul, map_sub, smul_sub, smul_add]; abel
    rw [e, hc.dir, ← hu, smul_add, smul_smul, smul_smul, smul_smul, hch, hsh, div_eq_inv_mul, div_eq_inv_mul, mul_assoc]
  set g := ρ⁻¹ • (d - θ • dbar) with hgd
  have hgU : g ∈ Us := Submodule.smul_mem _ _ (Submodule.sub_mem _ h.dU (Submodule.smul_mem _ _ (h.le hc.dbU)))
  refine
    { at0 := ?_, xU := Submodule.add_mem _ (h.le hc.xU) (Submodule.smul_mem _ _ hgU), dbU := hgU, pU := ?_, pp := ?_, porth := ?_,
      res := ?_, dir := ?_, nx := ?_ }
  · have : ch ≠ 0 := by rw [hch]; exact div_ne_zero hc.at0 hρ.ne'
    exact mul_ne_zero (neg_ne_zero.2 this) hah.ne'
  · exact Submodule.sub_mem _ (Submodule.mem_sup_left (Submodule.smul_mem _ _ hc.pU))
      (Submodule.mem_sup_right (Submodule.smul_mem _ _ (Submodule.mem_span_singleton_self _)))
  · have hpu' : ⟪u', p⟫ = 0 := by rw [real_inner_comm]; exact hpu
    simp only [inner_sub_left, inner_sub_right, inner_smul_left, inner_smul_right, hpu, hpu', hc.pp, hu1, conj_trivial]
    linarith
  · have hpg : ⟪sh • p - ch • u', g + A (B g)⟫ = 0 := by
      have hpu' : ⟪u', p⟫ = 0 := by rw [real_inner_comm]; exact hpu
      rw [hg]
      simp only [inner_sub_left, inner_add_right, inner_smul_left, inner_smul_right, hpu, hpu', hc.pp, hu1, conj_trivial]
      ring
    have hpy : ∀ y ∈ Us', ⟪sh • p - ch • u', y + A (B y)⟫ = 0 := by
      intro y hy
      rw [inner_sub_left, inner_smul_left, inner_smul_left, hc.porth y hy, real_inner_comm, huo _ (h.KUs' y hy)]
      simp
    intro z hz
    rw [h.Usd] at hz
    obtain ⟨y, hy, t, rfl⟩ := mem_sup_span hz
    have hd : d = ρ • g + θ • dbar := by
      rw [hgd, smul_smul, mul_inv_cancel₀ hρ.ne', one_smul]; abel
    have e : y + t • d + A (B (y + t • d)) = (y + A (B y)) + t • (ρ • (g + A (B g)) + θ • (dbar + A (B dbar))) := by
      rw [hd]
      simp only [map_add, map_smul, smul_add]
      abel
    have h1 := hpy y hy
    have h2 := hpy dbar hc.dbU
    generalize y + A (B y) = y1 at *
    generalize g + A (B g) = y2 at *
    generalize dbar + A (B dbar) = y3 at *
    rw [e, inner_add_right, inner_smul_right, inner_add_right, inner_smul_right, inner_smul_right, h1, hpg, h2]
    ring
  · have e : b - (x + (ch * ζ) • g + A (B (x + (ch * ζ) • g))) = (b - (x + A (B x))) - (ch * ζ) • (g + A (B g)) := by
      simp only [map_add, map_smul, smul_add]; abel
    rw [e, hc.res, hg]
    have : ζ • p = (ζ * (ch * ch + sh * sh)) • p := by rw [hcs, mul_one]
    rw [this]
    module
  · rw [hKd, hg]
    have : ah' • u' = (ah' * (ch * ch + sh * sh)) • u' := by rw [hcs, mul_one]
    rw [this]
    module
  · have := hc.nx
    linear_combination this + ζ * ζ * hcs

/-- the step after the last left vector: the residual becomes zero -/
theorem CraigmrVars.last {x dbar p : F} {θ at_ ζ nx : ℝ} (hc : CraigmrVars A B b u v α Us Us' c d x dbar p θ at_ ζ nx)
    (hq : A v - α • u = 0) {ρ ch : ℝ} (hρ : 0 < ρ) (hρ2 : ρ * ρ = at_ * at_) (hch : ch = at_ / ρ) :
    (x + (ch * ζ) • ρ⁻¹ • (d - θ • dbar)) + A (B (x + (ch * ζ) • ρ⁻¹ • (d - θ • dbar))) = b ∧
      nx + ch * ζ * (ch * ζ) = ‖b‖ ^ 2 := by
  have hcc : ch * ch = 1 := by rw [hch]; field_simp; linear_combination -hρ2
  have hg : ρ⁻¹ • (d - θ • dbar) + A (B (ρ⁻¹ • (d - θ • dbar))) = ch • p := by
    have e : ρ⁻¹ • (d - θ • dbar) + A (B (ρ⁻¹ • (d - θ • dbar))) =
        ρ⁻¹ • (d + A (B d) - θ • (dbar + A (B dbar))) := by
      simp only [map_smul, map_sub, smul_sub, smul_add]; abel
    rw [e, hc.dir, hq, smul_zero, add_zero, smul_smul, hch, div_eq_inv_mul]
  set g := ρ⁻¹ • (d - θ • dbar)
  constructor
  · have e : (x + (ch * ζ) • g) + A (B (x + (ch * ζ) • g)) = (x + A (B x)) + (ch * ζ) • (g + A (B g)) := by
      simp only [map_add, map_smul, smul_add]; abel
    have hb : b = (x + A (B x)) + ζ • p := by rw [← hc.res]; abel
    rw [e, hg, smul_smul]
    conv_rhs => rw [hb]
    congr 2
    linear_combination ζ * hcc
  · have := hc.nx
    linear_combination this + ζ * ζ * hcc

theorem CraigmrVars.init {β α : ℝ} {u : F} {v : E} (hu : β • u = b) (hu1 : ⟪u, u⟫ = 1) {ah c s : ℝ}
    (h : CR A B b 0 u v α (⊥ ⊔ Submodule.span ℝ {u}) ⊥ c s ah (ah⁻¹ • u)) :
    CraigmrVars A B b u v α (⊥ ⊔ Submodule.span ℝ {u}) ⊥ c (ah⁻¹ • u) 0 0 u 0 ah β 0 := by
  refine ⟨h.ahpos.ne', Submodule.zero_mem _, Submodule.zero_mem _, h.uU, hu1, ?_, ?_, ?_, ?_⟩
  · intro z hz
    rw [(Submodule.mem_bot ℝ).1 hz]; simp
  · simp [hu]
  · rw [zero_smul, sub_zero, h.Kd]
  · rw [← hu, norm_smul, mul_pow, Real.norm_eq_abs, sq_abs, ← real_inner_self_eq_norm_sq, hu1]; ring

end Verif.Solver.CraigMath
