import Verif.Solver.MinresMath

/-!
# Helper: the Golub-Kahan bidiagonalization over the reals
-/

namespace Verif.Solver.Bidiag
open scoped RealInnerProductSpace
open MinresMath (krylov krylov_mono krylov_map)

variable {E F : Type} [NormedAddCommGroup E] [InnerProductSpace ℝ E] [NormedAddCommGroup F] [InnerProductSpace ℝ F]

/-- State of the process: `u`, `v` are the current vectors and `α` the current coefficient; `Us`, `Vs` are the spans of all
vectors `u`, `v` so far, `Us'`, `Vs'` those of the previous ones. -/
structure GK (A : E →ₗ[ℝ] F) (B : F →ₗ[ℝ] E) (b : F) (k : ℕ) (u : F) (v : E) (α : ℝ) (Us Us' : Submodule ℝ F)
    (Vs Vs' : Submodule ℝ E) : Prop where
  αpos : 0 < α
  uu : ⟪u, u⟫ = 1
  vv : ⟪v, v⟫ = 1
  uorth : ∀ z ∈ Us', ⟪z, u⟫ = 0
  vorth : ∀ z ∈ Vs', ⟪z, v⟫ = 0
  Useq : Us = Us' ⊔ Submodule.span ℝ {u}
  Vseq : Vs = Vs' ⊔ Submodule.span ℝ {v}
  BUs' : ∀ z ∈ Us', B z ∈ Vs'
  AVs' : ∀ z ∈ Vs', A z ∈ Us
  Bu : B u - α • v ∈ Vs'
  kry : Vs' = krylov (B ∘ₗ A) (B b) k
  vkry : v ∈ krylov (B ∘ₗ A) (B b) (k+1)
  kry1 : k = 0 → B b ∈ Submodule.span ℝ {v}
  bU : b ∈ Us
  dim : FiniteDimensional ℝ E → Module.finrank ℝ Vs' = k

variable {A : E →ₗ[ℝ] F} {B : F →ₗ[ℝ] E} {b : F} {k : ℕ} {u : F} {v : E} {α : ℝ} {Us Us' : Submodule ℝ F}
  {Vs Vs' : Submodule ℝ E}

theorem mem_sup_span {G : Type} [NormedAddCommGroup G] [InnerProductSpace ℝ G] {S : Submodule ℝ G} {u z : G}
    (h : z ∈ S ⊔ Submodule.span ℝ {u}) : ∃ y ∈ S, ∃ t : ℝ, z = y + t • u := by
  obtain ⟨y, hy, c, hc, rfl⟩ := Submodule.mem_sup.1 h
  obtain ⟨t, rfl⟩ := Submodule.mem_span_singleton.1 hc
  exact ⟨y, hy, t, rfl⟩

namespace GK

theorem uUs (h : GK A B b k u v α Us Us' Vs Vs') : u ∈ Us := by
  rw [h.Useq]; exact Submodule.mem_sup_right (Submodule.mem_span_singleton_self _)
theorem vVs (h : GK A B b k u v α Us Us' Vs Vs') : v ∈ Vs := by
  rw [h.Vseq]; exact Submodule.mem_sup_right (Submodule.mem_span_singleton_self _)
theorem leU (h : GK A B b k u v α Us Us' Vs Vs') : Us' ≤ Us := by rw [h.Useq]; exact le_sup_left
theorem leV (h : GK A B b k u v α Us Us' Vs Vs') : Vs' ≤ Vs := by rw [h.Vseq]; exact le_sup_left

theorem vBu (h : GK A B b k u v α Us Us' Vs Vs') : ⟪v, B u⟫ = α := by
  have := h.vorth _ h.Bu
  rw [inner_sub_left, inner_smul_left, h.vv, real_inner_comm] at this
  simp at this; linarith

/-- the next left vector is orthogonal to all previous ones -/
theorem q_orth (h : GK A B b k u v α Us Us' Vs Vs') (hAB : ∀ x y, ⟪A x, y⟫ = ⟪x, B y⟫) :
    ∀ z ∈ Us, ⟪z, A v - α • u⟫ = 0 := by
  intro z hz
  rw [h.Useq] at hz
  obtain ⟨y, hy, t, rfl⟩ := mem_sup_span hz
  have h1 : ⟪y, A v - α • u⟫ = 0 := by
    rw [inner_sub_right, inner_smul_right, h.uorth y hy, real_inner_comm, hAB, real_inner_comm, h.vorth _ (h.BUs' y hy)]
    ring
  have h2 : ⟪u, A v - α • u⟫ = 0 := by
    rw [inner_sub_right, inner_smul_right, h.uu, real_inner_comm, hAB, h.vBu]; ring
  rw [inner_add_left, inner_smul_left, h1, h2]; simp

/-- the next right vector is orthogonal to all previous ones -/
theorem p_orth (h : GK A B b k u v α Us Us' Vs Vs') (hAB : ∀ x y, ⟪A x, y⟫ = ⟪x, B y⟫) {β : ℝ} {u' : F}
    (hu : β • u' = A v - α • u) (hu1 : ⟪u', u'⟫ = 1) (horth : ∀ z ∈ Us, ⟪z, u'⟫ = 0) : ∀ z ∈ Vs, ⟪z, B u' - β • v⟫ = 0 := by
  intro z hz
  rw [h.Vseq] at hz
  obtain ⟨y, hy, t, rfl⟩ := mem_sup_span hz
  have h1 : ⟪y, B u' - β • v⟫ = 0 := by
    rw [inner_sub_right, inner_smul_right, h.vorth y hy, ← hAB, horth _ (h.AVs' y hy)]
    ring
  have h2 : ⟪v, B u' - β • v⟫ = 0 := by
    have e : A v = β • u' + α • u := by rw [hu]; abel
    rw [inner_sub_right, inner_smul_right, h.vv, ← hAB, e, inner_add_left, inner_smul_left, inner_smul_left, hu1,
      horth _ h.uUs]
    simp
  rw [inner_add_left, inner_smul_left, h1, h2]; simp

theorem BUs (h : GK A B b k u v α Us Us' Vs Vs') : ∀ z ∈ Us, B z ∈ Vs := by
  intro z hz
  rw [h.Useq] at hz
  obtain ⟨y, hy, t, rfl⟩ := mem_sup_span hz
  rw [map_add, map_smul]
  refine Submodule.add_mem _ (h.leV (h.BUs' y hy)) (Submodule.smul_mem _ _ ?_)
  have : B u = (B u - α • v) + α • v := by abel
  rw [this]
  exact Submodule.add_mem _ (h.leV h.Bu) (Submodule.smul_mem _ _ h.vVs)

theorem AVs (h : GK A B b k u v α Us Us' Vs Vs') {β : ℝ} {u' : F} (hu : β • u' = A v - α • u) :
    ∀ z ∈ Vs, A z ∈ Us ⊔ Submodule.span ℝ {u'} := by
  intro z hz
  rw [h.Vseq] at hz
  obtain ⟨y, hy, t, rfl⟩ := mem_sup_span hz
  rw [map_add, map_smul]
  refine Submodule.add_mem _ (Submodule.mem_sup_left (h.AVs' y hy)) (Submodule.smul_mem _ _ ?_)
  have e : A v = β • u' + α • u := by rw [hu]; abel
  rw [e]
  exact Submodule.add_mem _ (Submodule.mem_sup_right (Submodule.smul_mem _ _ (Submodule.mem_span_singleton_self _)))
    (Submodule.mem_sup_left (Submodule.smul_mem _ _ h.uUs))

theorem finrank_Vs [FiniteDimensional ℝ E] (h : GK A B b k u v α Us Us' Vs Vs') : Module.finrank ℝ Vs = k + 1 := by
  have hv0 : v ≠ 0 := by
    intro h0
    have := h.vv
    rw [h0, inner_zero_left] at this
    norm_num at this
  have hinf : Vs' ⊓ Submodule.span ℝ {v} = ⊥ := by
    rw [Submodule.eq_bot_iff]
    rintro z ⟨hz1, hz2⟩
    obtain ⟨t, rfl⟩ := Submodule.mem_span_singleton.1 hz2
    have := h.vorth _ hz1
    rw [inner_smul_left, h.vv] at this
    have ht : t = 0 := by simpa using this
    rw [ht, zero_smul]
  have h1 := Submodule.finrank_sup_add_finrank_inf_eq Vs' (Submodule.span ℝ {v})
  rw [hinf, finrank_bot, finrank_span_singleton hv0, h.dim inferInstance, ← h.Vseq] at h1
  simpa using h1

/-- the process ends after at most as many steps as there are columns -/
theorem lt_finrank [FiniteDimensional ℝ E] (h : GK A B b k u v α Us Us' Vs Vs') : k < Module.finrank ℝ E := by
  have := h.finrank_Vs
  have := Submodule.finrank_le Vs
  omega

theorem kryVs (h : GK A B b k u v α Us Us' Vs Vs') : Vs = krylov (B ∘ₗ A) (B b) (k+1) := by
  apply le_antisymm
  · rw [h.Vseq]
    refine sup_le (h.kry ▸ krylov_mono _ _ (by omega)) ?_
    rw [Submodule.span_singleton_le_iff_mem]
    exact h.vkry
  · refine Submodule.span_le.2 ?_
    rintro z ⟨j, hj, rfl⟩
    by_cases hjk : j < k
    · refine h.leV ?_
      rw [h.kry]; exact Submodule.subset_span ⟨j, hjk, rfl⟩
    · obtain rfl : j = k := by omega
      rcases Nat.eq_zero_or_pos j with h0 | h0
      · subst h0
        simp only [pow_zero]
        change B b ∈ _
        rw [h.Vseq]
        exact Submodule.mem_sup_right (h.kry1 rfl)
      · obtain ⟨i, rfl⟩ : ∃ i, j = i + 1 := ⟨j - 1, by omega⟩
        rw [pow_succ']
        refine h.BUs _ (h.AVs' _ ?_)
        rw [h.kry]
        exact Submodule.subset_span ⟨i, by omega, rfl⟩

/-- the process ends after at most `d` steps if `B b` is confined to `d` dimensions -/
theorem lt_confined [FiniteDimensional ℝ E] (h : GK A B b k u v α Us Us' Vs Vs') {d : ℕ} (hd : Confined (B ∘ₗ A) (B b) d) :
    k < d := by
  have h1 := h.finrank_Vs
  have h2 := MinresMath.finrank_krylov_le hd (k+1)
  rw [← h.kryVs] at h2
  omega

/-- one step of the process -/
theorem step (h : GK A B b k u v α Us Us' Vs Vs') (hAB : ∀ x y, ⟪A x, y⟫ = ⟪x, B y⟫) {β α' : ℝ} {u' : F} {v' : E}
    (hu : β • u' = A v - α • u) (hβ : β ≠ 0) (hu1 : ⟪u', u'⟫ = 1) (hv : α' • v' = B u' - β • v) (hα : 0 < α')
    (hv1 : ⟪v', v'⟫ = 1) :
    GK A B b (k+1) u' v' α' (Us ⊔ Submodule.span ℝ {u'}) Us (Vs ⊔ Submodule.span ℝ {v'}) Vs := by
  have hu' : u' = β⁻¹ • (A v - α • u) := by rw [← hu, smul_smul, inv_mul_cancel₀ hβ, one_smul]
  have hv' : v' = α'⁻¹ • (B u' - β • v) := by rw [← hv, smul_smul, inv_mul_cancel₀ hα.ne', one_smul]
  have huo : ∀ z ∈ Us, ⟪z, u'⟫ = 0 := by
    intro z hz
    rw [hu', inner_smul_right, h.q_orth hAB z hz, mul_zero]
  exact
    { αpos := hα
      uu := hu1
      vv := hv1
      uorth := huo
      vorth := by
        intro z hz
        rw [hv', inner_smul_right, h.p_orth hAB hu hu1 huo z hz, mul_zero]
      Useq := rfl
      Vseq := rfl
      BUs' := h.BUs
      AVs' := h.AVs hu
      Bu := by rw [hv]; simpa using Submodule.smul_mem _ _ h.vVs
      kry := h.kryVs
      vkry := by
        rw [hv']
        refine Submodule.smul_mem _ _ (Submodule.sub_mem _ ?_ (Submodule.smul_mem _ _ ?_))
        · rw [hu', map_smul, map_sub, map_smul]
          refine Submodule.smul_mem _ _ (Submodule.sub_mem _ ?_ (Submodule.smul_mem _ _ ?_))
          · exact krylov_map (B ∘ₗ A) (B b) (k+1) h.vkry
          · refine krylov_mono _ _ (show k + 1 ≤ k + 1 + 1 by omega) ?_
            rw [← h.kryVs]
            exact h.BUs _ h.uUs
        · exact krylov_mono _ _ (by omega) h.vkry
      kry1 := by omega
      bU := Submodule.mem_sup_left h.bU
      dim := fun _ => h.finrank_Vs }

/-- the start of the process -/
theorem init (A : E →ₗ[ℝ] F) (B : F →ₗ[ℝ] E) {b u : F} {v : E} {α β : ℝ} (hu : β • u = b) (hu1 : ⟪u, u⟫ = 1)
    (hv : α • v = B u) (hα : 0 < α) (hv1 : ⟪v, v⟫ = 1) (hβ : β ≠ 0) :
    GK A B b 0 u v α (⊥ ⊔ Submodule.span ℝ {u}) ⊥ (⊥ ⊔ Submodule.span ℝ {v}) ⊥ where
  αpos := hα
  uu := hu1
  vv := hv1
  uorth z hz := by rw [(Submodule.mem_bot ℝ).1 hz, inner_zero_left]
  vorth z hz := by rw [(Submodule.mem_bot ℝ).1 hz, inner_zero_left]
  Useq := rfl
  Vseq := rfl
  BUs' z hz := by rw [(Submodule.mem_bot ℝ).1 hz, map_zero]; exact Submodule.zero_mem _
  AVs' z hz := by rw [(Submodule.mem_bot ℝ).1 hz, map_zero]; exact Submodule.zero_mem _
  Bu := by rw [hv, sub_self]; exact Submodule.zero_mem _
  kry := by
    symm
    unfold krylov
    rw [Submodule.span_eq_bot]
    rintro z ⟨j, hj, -⟩
    omega
  vkry := by
    have e : v = (α⁻¹ * β⁻¹) • B b := by
      rw [← hu, map_smul, ← hv, smul_smul, smul_smul]
      have : α⁻¹ * β⁻¹ * (β * α) = 1 := by field_simp
      rw [show α⁻¹ * β⁻¹ * β * α = 1 by linarith [this], one_smul]
    rw [e]
    exact Submodule.smul_mem _ _ (Submodule.subset_span ⟨0, by omega, rfl⟩)
  kry1 _ := by
    rw [← hu, map_smul, ← hv, smul_smul]
    exact Submodule.smul_mem _ _ (Submodule.mem_span_singleton_self _)
  bU := by
    rw [← hu]
    exact Submodule.mem_sup_right (Submodule.smul_mem _ _ (Submodule.mem_span_singleton_self _))
  dim _ := finrank_bot ℝ E

end GK

end Verif.Solver.Bidiag
