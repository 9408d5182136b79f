import Verif.Solver.MinresMath

/-!
# The recurrences of SYMMLQ, over the reals

The mathematics behind the exactness theorems about `Symmlq.solve`; the program is related to it in `SymmlqExact.lean`.
`MinresMath.krylov B b k` is the span of `b, B b, ..., B^(k-1) b`.
-/

namespace Verif.Solver.SymmlqMath
open scoped RealInnerProductSpace
open MinresMath (krylov krylov_mono krylov_map)

variable {E : Type} [NormedAddCommGroup E] [InnerProductSpace ℝ E]

/-- The state of the recurrences: the LQ point `xL`, the direction `wb` to the CG point, the current Lanczos vector `v`, the
next one `r2` before normalization, and the scalars; `rc` and `dc` are `rhs2 / beta` and `dbar / beta`. -/
structure St (E : Type) where
  xL : E
  wb : E
  v : E
  r2 : E
  beta : ℝ
  rhs1 : ℝ
  rc : ℝ
  gbar : ℝ
  dc : ℝ
  snprod : ℝ
  ynorm2 : ℝ
  tnorm : ℝ

/-- invariant after `k` products; `S` and `Sp` are the spans of all, and of all but the last, Lanczos vectors -/
structure Inv (B : E →ₗ[ℝ] E) (b : E) (k : ℕ) (s : St E) (S Sp : Submodule ℝ E) : Prop where
  kpos : 0 < k
  bpos : 0 ≤ s.beta
  bsq : s.beta * s.beta = ⟪s.r2, s.r2⟫
  vv : ⟪s.v, s.v⟫ = 1
  kry : S = krylov B b k
  kryp : Sp = krylov B b (k-1)
  Seq : S = Sp ⊔ Submodule.span ℝ {s.v}
  orthp : ∀ z ∈ Sp, ⟪z, s.v⟫ = 0
  orth : ∀ z ∈ S, ⟪z, s.r2⟫ = 0
  Bv : B s.v - s.r2 ∈ S
  dim : FiniteDimensional ℝ E → Module.finrank ℝ S = k
  wS : s.wb ∈ S
  ww : ⟪s.wb, s.wb⟫ = 1
  Bw : B s.wb = s.gbar • s.v + s.dc • s.r2
  xW : s.xL ∈ Sp.map B
  Sw : S = Sp.map B ⊔ Submodule.span ℝ {s.wb}
  res : b - B s.xL = s.rhs1 • s.v + s.rc • s.r2
  det : s.rc * s.gbar - s.rhs1 * s.dc = -(s.snprod * ‖b‖)
  xx : s.ynorm2 = ⟪s.xL, s.xL⟫
  sn0 : 0 ≤ s.snprod
  tpos : s.beta ^ 2 ≤ s.tnorm
  tone : k = 1 → s.tnorm = s.gbar ^ 2 + s.beta ^ 2
  tlt : k ≠ 1 → 0 < s.tnorm
  tle : ∀ C, (∀ z, ‖B z‖ ≤ C * ‖z‖) → s.tnorm ≤ k * C ^ 2

variable {B : E →ₗ[ℝ] E} {b : E} {k : ℕ} {s : St E} {S Sp : Submodule ℝ E}

/-- the normalized next Lanczos vector -/
noncomputable def St.vn (s : St E) : E := (1 / s.beta) • s.r2

theorem Inv.SpS (h : Inv B b k s S Sp) : Sp ≤ S := by rw [h.Seq]; exact le_sup_left
theorem Inv.vS (h : Inv B b k s S Sp) : s.v ∈ S := by
  rw [h.Seq]; exact Submodule.mem_sup_right (Submodule.mem_span_singleton_self _)

theorem Inv.r2_eq (_h : Inv B b k s S Sp) (hb : s.beta ≠ 0) : s.r2 = s.beta • s.vn := by
  rw [St.vn, smul_smul]; field_simp; simp
theorem Inv.vnvn (h : Inv B b k s S Sp) (hb : s.beta ≠ 0) : ⟪s.vn, s.vn⟫ = 1 := by
  rw [St.vn, inner_smul_left, inner_smul_right, ← h.bsq]; simp; field_simp
theorem Inv.orthn (h : Inv B b k s S Sp) : ∀ z ∈ S, ⟪z, s.vn⟫ = 0 := by
  intro z hz; rw [St.vn, inner_smul_right, h.orth z hz, mul_zero]

theorem Inv.w_orth (h : Inv B b k s S Sp) (hB : ∀ u v, ⟪B u, v⟫ = ⟪u, B v⟫) : ∀ z ∈ Sp, ⟪B z, s.wb⟫ = 0 := by
  intro z hz
  rw [hB, h.Bw, inner_add_right, inner_smul_right, inner_smul_right, h.orthp z hz, h.orth z (h.SpS hz)]; ring

theorem Inv.xw (h : Inv B b k s S Sp) (hB : ∀ u v, ⟪B u, v⟫ = ⟪u, B v⟫) : ⟪s.xL, s.wb⟫ = 0 := by
  obtain ⟨z, hz, hx⟩ := h.xW
  rw [← hx]; exact h.w_orth hB z hz

theorem Inv.MapS (h : Inv B b k s S Sp) : Sp.map B ≤ S := by rw [h.Sw]; exact le_sup_left
theorem Inv.xS (h : Inv B b k s S Sp) : s.xL ∈ S := h.MapS h.xW

/-- the Krylov space is confined -/
theorem Inv.le_confined [FiniteDimensional ℝ E] (h : Inv B b k s S Sp) {d : ℕ} (hd : Confined B b d) : k ≤ d := by
  rw [← h.dim inferInstance, h.kry]; exact MinresMath.finrank_krylov_le hd k

/-! ### The points -/

/-- the LQ point: the residual norm -/
theorem Inv.lq_resid (h : Inv B b k s S Sp) : ‖b - B s.xL‖ = Real.sqrt (s.rhs1 * s.rhs1 + s.rc * s.beta * (s.rc * s.beta)) := by
  have h1 : ⟪s.v, s.r2⟫ = 0 := h.orth _ h.vS
  have h2 : ⟪s.r2, s.v⟫ = 0 := by rw [real_inner_comm]; exact h1
  rw [h.res, eq_comm, Real.sqrt_eq_iff_mul_self_eq (by nlinarith [mul_self_nonneg s.rhs1, mul_self_nonneg (s.rc * s.beta)])
    (norm_nonneg _), ← real_inner_self_eq_norm_mul_norm]
  simp only [inner_add_left, inner_add_right, inner_smul_left, inner_smul_right, h1, h2, h.vv, ← h.bsq, conj_trivial]
  ring

/-- the CG point: the residual -/
theorem Inv.cg_resid (h : Inv B b k s S Sp) (hg : s.gbar ≠ 0) :
    b - B (s.xL + (s.rhs1 / s.gbar) • s.wb) = (-(s.snprod * ‖b‖) / s.gbar) • s.r2 := by
  have : b - B (s.xL + (s.rhs1 / s.gbar) • s.wb) = (b - B s.xL) - (s.rhs1 / s.gbar) • B s.wb := by
    rw [map_add, map_smul]; abel
  rw [this, h.res, h.Bw, ← h.det]
  have e : (s.rc * s.gbar - s.rhs1 * s.dc) / s.gbar = s.rc - s.rhs1 / s.gbar * s.dc := by field_simp
  rw [e, smul_add, smul_smul, smul_smul]
  have e2 : s.rhs1 / s.gbar * s.gbar = s.rhs1 := by field_simp
  rw [e2]; module

theorem Inv.cg_norm (h : Inv B b k s S Sp) (hg : s.gbar ≠ 0) :
    ‖b - B (s.xL + (s.rhs1 / s.gbar) • s.wb)‖ = s.snprod * ‖b‖ * s.beta / |s.gbar| := by
  have hr : ‖s.r2‖ = s.beta := by
    have := h.bsq
    rw [real_inner_self_eq_norm_mul_norm] at this
    nlinarith [norm_nonneg s.r2, h.bpos, (mul_self_eq_mul_self_iff.1 this)]
  rw [h.cg_resid hg, norm_smul, hr, Real.norm_eq_abs, abs_div, abs_neg, abs_of_nonneg (mul_nonneg h.sn0 (norm_nonneg b))]
  ring

/-- the CG point: Galerkin condition -/
theorem Inv.cg_galerkin (h : Inv B b k s S Sp) (hg : s.gbar ≠ 0) :
    s.xL + (s.rhs1 / s.gbar) • s.wb ∈ krylov B b k ∧
    ∀ z ∈ krylov B b k, ⟪b - B (s.xL + (s.rhs1 / s.gbar) • s.wb), z⟫ = 0 := by
  rw [← h.kry]
  refine ⟨Submodule.add_mem _ h.xS (Submodule.smul_mem _ _ h.wS), fun z hz => ?_⟩
  rw [h.cg_resid hg, inner_smul_left, real_inner_comm, h.orth z hz, mul_zero]

/-- the LQ point: least error -/
theorem Inv.lq_error (h : Inv B b k s S Sp) (hB : ∀ u v, ⟪B u, v⟫ = ⟪u, B v⟫) :
    s.xL ∈ (krylov B b (k-1)).map B ∧ ∀ xs, B xs = b → ∀ z ∈ (krylov B b (k-1)).map B, ‖xs - s.xL‖ ≤ ‖xs - z‖ := by
  rw [← h.kryp]
  refine ⟨h.xW, fun xs hxs z hz => ?_⟩
  have h0 : ⟪xs - s.xL, s.xL - z⟫ = 0 := by
    obtain ⟨y, hy, hyz⟩ : s.xL - z ∈ Sp.map B := Submodule.sub_mem _ h.xW hz
    rw [← hyz, ← hB, map_sub, hxs, h.res, real_inner_comm, inner_add_right, inner_smul_right, inner_smul_right,
      h.orthp y hy, h.orth y (h.SpS hy)]; ring
  have h1 : xs - z = (xs - s.xL) + (s.xL - z) := by abel
  have h2 : ‖xs - z‖ * ‖xs - z‖ = ‖xs - s.xL‖ * ‖xs - s.xL‖ + ‖s.xL - z‖ * ‖s.xL - z‖ := by
    rw [h1, norm_add_sq_eq_norm_sq_add_norm_sq_real h0]
  nlinarith [norm_nonneg (xs - z), norm_nonneg (xs - s.xL), mul_self_nonneg ‖s.xL - z‖]

/-- the norm of the CG point is at least that of the LQ point -/
theorem Inv.cg_ge (h : Inv B b k s S Sp) (hB : ∀ u v, ⟪B u, v⟫ = ⟪u, B v⟫) (c : ℝ) : ‖s.xL‖ ≤ ‖s.xL + c • s.wb‖ := by
  have h0 : ⟪s.xL, c • s.wb⟫ = 0 := by rw [inner_smul_right, h.xw hB, mul_zero]
  have := norm_add_sq_eq_norm_sq_add_norm_sq_real h0
  nlinarith [norm_nonneg s.xL, norm_nonneg (s.xL + c • s.wb), mul_self_nonneg ‖c • s.wb‖]

theorem Inv.ynorm (h : Inv B b k s S Sp) : Real.sqrt s.ynorm2 = ‖s.xL‖ := by
  rw [h.xx, real_inner_self_eq_norm_mul_norm, Real.sqrt_mul_self (norm_nonneg _)]

/-- `gbar` vanishes only if the compression of `B` to the Krylov space is singular -/
theorem Inv.singular (h : Inv B b k s S Sp) (hg : s.gbar = 0) :
    s.wb ∈ krylov B b k ∧ s.wb ≠ 0 ∧ ∀ z ∈ krylov B b k, ⟪B s.wb, z⟫ = 0 := by
  rw [← h.kry]
  refine ⟨h.wS, ?_, fun z hz => ?_⟩
  · intro h0
    have := h.ww
    rw [h0, inner_zero_left] at this
    norm_num at this
  · rw [h.Bw, hg, zero_smul, zero_add, inner_smul_left, real_inner_comm, h.orth z hz, mul_zero]

/-! ### The step -/

noncomputable def alfa (B : E →ₗ[ℝ] E) (s : St E) : ℝ := ⟪s.vn, B s.vn - s.beta • s.v⟫
noncomputable def q (B : E →ₗ[ℝ] E) (s : St E) : E := B s.vn - s.beta • s.v - (alfa B s / s.beta) • s.r2
noncomputable def beta' (B : E →ₗ[ℝ] E) (s : St E) : ℝ := Real.sqrt ⟪q B s, q B s⟫
noncomputable def gam (s : St E) : ℝ := Real.sqrt (s.gbar * s.gbar + s.beta * s.beta)

noncomputable def step (B : E →ₗ[ℝ] E) (s : St E) : St E :=
  let γ := gam s
  let cs := s.gbar / γ
  let sn := s.beta / γ
  let z := s.rhs1 / γ
  { xL := s.xL + ((z * cs) • s.wb + (z * sn) • s.vn)
    wb := sn • s.wb - cs • s.vn
    v := s.vn
    r2 := q B s
    beta := beta' B s
    rhs1 := s.rc * s.beta - (cs * (s.dc * s.beta) + sn * alfa B s) * z
    rc := -sn * z
    gbar := sn * (s.dc * s.beta) - cs * alfa B s
    dc := -cs
    snprod := s.snprod * sn
    ynorm2 := z * z + s.ynorm2
    tnorm := s.tnorm + alfa B s * alfa B s + s.beta * s.beta + beta' B s * beta' B s }

theorem beta'_sq : beta' B s * beta' B s = ⟪q B s, q B s⟫ := Real.mul_self_sqrt real_inner_self_nonneg

theorem Inv.q_eq (_h : Inv B b k s S Sp) (_hb : s.beta ≠ 0) : q B s = B s.vn - s.beta • s.v - alfa B s • s.vn := by
  unfold q St.vn; rw [smul_smul]; ring_nf

theorem Inv.alfa_eq (h : Inv B b k s S Sp) : alfa B s = ⟪s.vn, B s.vn⟫ := by
  unfold alfa
  have : ⟪s.vn, s.v⟫ = 0 := by rw [real_inner_comm]; exact h.orthn _ h.vS
  rw [inner_sub_right, inner_smul_right, this]; ring

/-- the new Lanczos vector is orthogonal to all previous ones -/
theorem Inv.orth' (h : Inv B b k s S Sp) (hB : ∀ u v, ⟪B u, v⟫ = ⟪u, B v⟫) (hb : s.beta ≠ 0) :
    ∀ z ∈ S ⊔ Submodule.span ℝ {s.vn}, ⟪z, q B s⟫ = 0 := by
  have hq := h.q_eq hb
  have h1 : ⟪s.vn, q B s⟫ = 0 := by
    have : ⟪s.vn, s.v⟫ = 0 := by rw [real_inner_comm]; exact h.orthn _ h.vS
    rw [hq, inner_sub_right, inner_sub_right, inner_smul_right, inner_smul_right, this, h.vnvn hb, h.alfa_eq]; ring
  have h2 : ∀ z ∈ S, ⟪z, q B s⟫ = 0 := by
    intro z hz
    have e : ⟪z, q B s⟫ = ⟪B z, s.vn⟫ - s.beta * ⟪z, s.v⟫ := by
      rw [hq, inner_sub_right, inner_sub_right, inner_smul_right, inner_smul_right, h.orthn z hz, hB]; ring
    rw [e]
    rw [h.Seq] at hz
    obtain ⟨y, hy, w, hw, rfl⟩ := Submodule.mem_sup.1 hz
    obtain ⟨c, rfl⟩ := Submodule.mem_span_singleton.1 hw
    have e1 : ⟪B y, s.vn⟫ = 0 := h.orthn _ (h.MapS (Submodule.mem_map_of_mem hy))
    have e2 : ⟪B s.v, s.vn⟫ = s.beta := by
      have : B s.v = (B s.v - s.r2) + s.r2 := by abel
      rw [this, inner_add_left, h.orthn _ h.Bv, h.r2_eq hb, inner_smul_left, h.vnvn hb]; simp
    rw [map_add, map_smul, inner_add_left, inner_smul_left, inner_add_left, inner_smul_left, e1, e2, h.orthp y hy, h.vv]
    simp; ring
  intro z hz
  obtain ⟨y, hy, w, hw, rfl⟩ := Submodule.mem_sup.1 hz
  obtain ⟨c, rfl⟩ := Submodule.mem_span_singleton.1 hw
  rw [inner_add_left, inner_smul_left, h1, h2 y hy]; simp

theorem Inv.finrank' [FiniteDimensional ℝ E] (h : Inv B b k s S Sp) (hb : s.beta ≠ 0) :
    Module.finrank ℝ (S ⊔ Submodule.span ℝ {s.vn} : Submodule ℝ E) = k + 1 := by
  have hv0 : s.vn ≠ 0 := by
    intro h0
    have := h.vnvn hb
    rw [h0, inner_zero_left] at this
    norm_num at this
  have hinf : S ⊓ Submodule.span ℝ {s.vn} = ⊥ := by
    rw [Submodule.eq_bot_iff]
    rintro z ⟨hz1, hz2⟩
    obtain ⟨t, rfl⟩ := Submodule.mem_span_singleton.1 hz2
    have := h.orthn _ hz1
    rw [inner_smul_left, h.vnvn hb] at this
    have ht : t = 0 := by simpa using this
    rw [ht, zero_smul]
  have h1 := Submodule.finrank_sup_add_finrank_inf_eq S (Submodule.span ℝ {s.vn})
  rw [hinf, finrank_bot, finrank_span_singleton hv0, h.dim inferInstance] at h1
  simpa using h1

theorem Inv.kry' (h : Inv B b k s S Sp) (hb : s.beta ≠ 0) : S ⊔ Submodule.span ℝ {s.vn} = krylov B b (k+1) := by
  have hle : S ≤ krylov B b (k+1) := by rw [h.kry]; exact krylov_mono B b (by omega)
  have hr : s.r2 ∈ krylov B b (k+1) := by
    have : s.r2 = B s.v - (B s.v - s.r2) := by abel
    rw [this]
    exact Submodule.sub_mem _ (krylov_map B b k (h.kry ▸ h.vS)) (hle h.Bv)
  refine le_antisymm (sup_le hle ?_) (Submodule.span_le.2 ?_)
  · rw [Submodule.span_singleton_le_iff_mem]
    exact Submodule.smul_mem _ _ hr
  · rintro v ⟨j, hj, rfl⟩
    by_cases hjk : j < k
    · exact Submodule.mem_sup_left (h.kry ▸ Submodule.subset_span ⟨j, hjk, rfl⟩)
    · have hj : j = (k - 1) + 1 := by have := h.kpos; omega
      have hz : (B ^ (k-1)) b ∈ S := h.kry ▸ Submodule.subset_span ⟨k-1, by have := h.kpos; omega, rfl⟩
      rw [hj, pow_succ']
      change B ((B ^ (k-1)) b) ∈ _
      rw [h.Seq] at hz
      obtain ⟨y, hy, w, hw, hyw⟩ := Submodule.mem_sup.1 hz
      obtain ⟨c, rfl⟩ := Submodule.mem_span_singleton.1 hw
      rw [← hyw, map_add, map_smul]
      refine Submodule.add_mem _ (Submodule.mem_sup_left (h.MapS (Submodule.mem_map_of_mem hy))) (Submodule.smul_mem _ _ ?_)
      have : B s.v = (B s.v - s.r2) + s.r2 := by abel
      rw [this, h.r2_eq hb, ← h.r2_eq hb]
      refine Submodule.add_mem _ (Submodule.mem_sup_left h.Bv) (Submodule.mem_sup_right ?_)
      rw [h.r2_eq hb]
      exact Submodule.smul_mem _ _ (Submodule.mem_span_singleton_self _)

omit [NormedAddCommGroup E] [InnerProductSpace ℝ E] in
theorem gam_sq (s : St E) : gam s * gam s = s.gbar * s.gbar + s.beta * s.beta :=
  Real.mul_self_sqrt (add_nonneg (mul_self_nonneg _) (mul_self_nonneg _))

omit [NormedAddCommGroup E] [InnerProductSpace ℝ E] in
theorem gam_pos (s : St E) (hb : s.beta ≠ 0) : 0 < gam s := by
  refine Real.sqrt_pos.2 ?_
  have := mul_self_pos.2 hb
  nlinarith [mul_self_nonneg s.gbar]

set_option maxHeartbeats 800000 in
-- the invariant has many components
theorem Inv.step (h : Inv B b k s S Sp) (hB : ∀ u v, ⟪B u, v⟫ = ⟪u, B v⟫) (hb : s.beta ≠ 0) :
    Inv B b (k+1) (step B s) (S ⊔ Submodule.span ℝ {s.vn}) S := by
  have hγ := gam_pos s hb
  have hγ2 := gam_sq s
  have hq := h.q_eq hb
  have hvn := h.vnvn hb
  have hwvn : ⟪s.wb, s.vn⟫ = 0 := h.orthn _ h.wS
  have hvnw : ⟪s.vn, s.wb⟫ = 0 := by rw [real_inner_comm]; exact hwvn
  have hvvn : ⟪s.v, s.vn⟫ = 0 := h.orthn _ h.vS
  have hr2 := h.r2_eq hb
  have horth := h.orth' hB hb
  have hle : S ≤ S ⊔ Submodule.span ℝ {s.vn} := le_sup_left
  have hvmem : s.vn ∈ S ⊔ Submodule.span ℝ {s.vn} := Submodule.mem_sup_right (Submodule.mem_span_singleton_self _)
  have hBvn : B s.vn = s.beta • s.v + alfa B s • s.vn + q B s := by rw [hq]; abel
  have hBw : B s.wb = s.gbar • s.v + (s.dc * s.beta) • s.vn := by
    rw [h.Bw]
    nth_rw 1 [hr2]
    rw [smul_smul]
  have hres : b - B s.xL = s.rhs1 • s.v + (s.rc * s.beta) • s.vn := by
    rw [h.res]
    nth_rw 1 [hr2]
    rw [smul_smul]
  obtain ⟨γ, hγd⟩ : ∃ γ, γ = gam s := ⟨_, rfl⟩
  obtain ⟨cs, hcs⟩ : ∃ c, c = s.gbar / γ := ⟨_, rfl⟩
  obtain ⟨sn, hsn⟩ : ∃ c, c = s.beta / γ := ⟨_, rfl⟩
  rw [← hγd] at hγ hγ2
  have hγ0 := hγ.ne'
  have e1 : cs * γ = s.gbar := by rw [hcs]; field_simp
  have e2 : sn * γ = s.beta := by rw [hsn]; field_simp
  have e3 : cs * cs + sn * sn = 1 := by
    have : (cs * cs + sn * sn) * (γ * γ) = 1 * (γ * γ) := by
      linear_combination (cs * γ + s.gbar) * e1 + (sn * γ + s.beta) * e2 - hγ2
    exact mul_right_cancel₀ (mul_ne_zero hγ0 hγ0) this
  have e4 : cs * s.gbar + sn * s.beta = γ := by rw [← e1, ← e2]; linear_combination γ * e3
  have e5 : sn * s.gbar - cs * s.beta = 0 := by rw [← e1, ← e2]; ring
  -- the new column of the orthogonal factor
  obtain ⟨wk, hwk⟩ : ∃ w, w = cs • s.wb + sn • s.vn := ⟨_, rfl⟩
  obtain ⟨wn, hwn⟩ : ∃ w, w = sn • s.wb - cs • s.vn := ⟨_, rfl⟩
  obtain ⟨z, hz⟩ : ∃ z, z = s.rhs1 / γ := ⟨_, rfl⟩
  have hBwk : B wk = γ • s.v + (cs * (s.dc * s.beta) + sn * alfa B s) • s.vn + sn • q B s := by
    rw [hwk, map_add, map_smul, map_smul, hBw, hBvn, ← e4]; module
  have hBwn : B wn = (sn * (s.dc * s.beta) - cs * alfa B s) • s.vn + (-cs) • q B s := by
    rw [hwn, map_sub, map_smul, map_smul, hBw, hBvn]
    have : sn • (s.gbar • s.v + (s.dc * s.beta) • s.vn) - cs • (s.beta • s.v + alfa B s • s.vn + q B s) =
      (sn * s.gbar - cs * s.beta) • s.v + ((sn * (s.dc * s.beta) - cs * alfa B s) • s.vn + (-cs) • q B s) := by module
    rw [this, e5, zero_smul, zero_add]
  have hxw := h.xw hB
  have hxvn : ⟪s.xL, s.vn⟫ = 0 := h.orthn _ h.xS
  have hwkS : wk ∈ S ⊔ Submodule.span ℝ {s.vn} := by
    rw [hwk]; exact Submodule.add_mem _ (Submodule.smul_mem _ _ (hle h.wS)) (Submodule.smul_mem _ _ hvmem)
  have hwnS : wn ∈ S ⊔ Submodule.span ℝ {s.vn} := by
    rw [hwn]; exact Submodule.sub_mem _ (Submodule.smul_mem _ _ (hle h.wS)) (Submodule.smul_mem _ _ hvmem)
  have hwkwk : ⟪wk, wk⟫ = 1 := by
    rw [hwk]
    simp only [inner_add_left, inner_add_right, inner_smul_left, inner_smul_right, h.ww, hwvn, hvnw, hvn, conj_trivial]
    linear_combination e3
  have hwnwn : ⟪wn, wn⟫ = 1 := by
    rw [hwn]
    simp only [inner_sub_left, inner_sub_right, inner_smul_left, inner_smul_right, h.ww, hwvn, hvnw, hvn, conj_trivial]
    linear_combination e3
  have hwkwn : ⟪wk, wn⟫ = 0 := by
    rw [hwk, hwn]
    simp only [inner_add_left, inner_sub_right, inner_smul_left, inner_smul_right, h.ww, hwvn, hvnw, hvn, conj_trivial]
    ring
  have hxwk : ⟪s.xL, wk⟫ = 0 := by
    rw [hwk, inner_add_right, inner_smul_right, inner_smul_right, hxw, hxvn]; ring
  have hswb : s.wb = cs • wk + sn • wn := by
    rw [hwk, hwn]
    have : cs • (cs • s.wb + sn • s.vn) + sn • (sn • s.wb - cs • s.vn) = (cs * cs + sn * sn) • s.wb := by module
    rw [this, e3, one_smul]
  have hsvn : s.vn = sn • wk - cs • wn := by
    rw [hwk, hwn]
    have : sn • (cs • s.wb + sn • s.vn) - cs • (sn • s.wb - cs • s.vn) = (cs * cs + sn * sn) • s.vn := by module
    rw [this, e3, one_smul]
  -- `S' = B Sp + span {wk} + span {wn}`
  have hdec : ∀ u ∈ S ⊔ Submodule.span ℝ {s.vn}, ∃ y ∈ Sp, ∃ c d : ℝ, u = B y + c • wk + d • wn := by
    intro u hu
    obtain ⟨y1, hy1, y2, hy2, rfl⟩ := Submodule.mem_sup.1 hu
    obtain ⟨c, rfl⟩ := Submodule.mem_span_singleton.1 hy2
    rw [h.Sw] at hy1
    obtain ⟨y3, ⟨y, hy, hyy⟩, y4, hy4, rfl⟩ := Submodule.mem_sup.1 hy1
    obtain ⟨d, rfl⟩ := Submodule.mem_span_singleton.1 hy4
    refine ⟨y, hy, d * cs + c * sn, d * sn - c * cs, ?_⟩
    rw [← hyy, hswb, hsvn]; module
  have hwk0 : ∀ y ∈ Sp, ⟪B y, wk⟫ = 0 := by
    intro y hy
    rw [hB, hBwk]
    simp only [inner_add_right, inner_smul_right, h.orthp y hy, h.orthn y (h.SpS hy), horth y (hle (h.SpS hy))]
    ring
  have hwn0 : ∀ y ∈ S, ⟪B y, wn⟫ = 0 := by
    intro y hy
    rw [hB, hBwn]
    simp only [inner_add_right, inner_smul_right, h.orthn y hy, horth y (hle hy)]
    ring
  have hBvS : B s.v ∈ S ⊔ Submodule.span ℝ {s.vn} := by
    have : B s.v = (B s.v - s.r2) + s.beta • s.vn := by rw [← hr2]; abel
    rw [this]
    exact Submodule.add_mem _ (hle h.Bv) (Submodule.smul_mem _ _ hvmem)
  have hwkW : wk ∈ S.map B := by
    obtain ⟨y, hy, c, d, hu⟩ := hdec _ hBvS
    have hwnwk : ⟪wn, wk⟫ = 0 := by rw [real_inner_comm]; exact hwkwn
    have hd : d = 0 := by
      have := hwn0 _ h.vS
      rw [hu, inner_add_left, inner_add_left, hwn0 y (h.SpS hy), inner_smul_left, inner_smul_left, hwkwn, hwnwn] at this
      simpa using this
    have hc : c = γ := by
      have e : ⟪B s.v, wk⟫ = γ := by
        rw [hB, hBwk]
        simp only [inner_add_right, inner_smul_right, h.vv, hvvn, horth _ (hle h.vS)]
        ring
      rw [hu, inner_add_left, inner_add_left, hwk0 y hy, inner_smul_left, inner_smul_left, hwkwk, hwnwk] at e
      simpa using e
    rw [hd, hc, zero_smul, add_zero] at hu
    have : wk = B ((1/γ) • (s.v - y)) := by
      rw [map_smul, map_sub, hu, add_sub_cancel_left, smul_smul]; field_simp; simp
    rw [this]
    exact Submodule.mem_map_of_mem (Submodule.smul_mem _ _ (Submodule.sub_mem _ h.vS (h.SpS hy)))
  have hSpW : Sp.map B ≤ S.map B := Submodule.map_mono h.SpS
  have hx' : s.xL + ((z * cs) • s.wb + (z * sn) • s.vn) = s.xL + z • wk := by rw [hwk]; module
  have hk := h.kpos
  have halfq : ‖B s.vn‖ ^ 2 = s.beta * s.beta + alfa B s * alfa B s + beta' B s * beta' B s := by
    have hvnv : ⟪s.vn, s.v⟫ = 0 := by rw [real_inner_comm]; exact hvvn
    have h1 : ⟪s.v, q B s⟫ = 0 := horth _ (hle h.vS)
    have h2 : ⟪s.vn, q B s⟫ = 0 := horth _ hvmem
    have h3 : ⟪q B s, s.v⟫ = 0 := by rw [real_inner_comm]; exact h1
    have h4 : ⟪q B s, s.vn⟫ = 0 := by rw [real_inner_comm]; exact h2
    rw [pow_two, ← real_inner_self_eq_norm_mul_norm, hBvn, beta'_sq]
    simp only [inner_add_left, inner_add_right, inner_smul_left, inner_smul_right, h.vv, hvn, hvvn, hvnv, h1, h2, h3, h4,
      conj_trivial]
    ring
  have hst : SymmlqMath.step B s =
      { xL := s.xL + z • wk, wb := wn, v := s.vn, r2 := q B s, beta := beta' B s,
        rhs1 := s.rc * s.beta - (cs * (s.dc * s.beta) + sn * alfa B s) * z, rc := -sn * z,
        gbar := sn * (s.dc * s.beta) - cs * alfa B s, dc := -cs, snprod := s.snprod * sn, ynorm2 := z * z + s.ynorm2,
        tnorm := s.tnorm + alfa B s * alfa B s + s.beta * s.beta + beta' B s * beta' B s } := by
    rw [← hx', hwn, hz, hcs, hsn, hγd]; rfl
  rw [hst]
  have hsn0 : 0 ≤ sn := by rw [hsn]; exact div_nonneg h.bpos hγ.le
  refine
    { kpos := by omega, bpos := Real.sqrt_nonneg _, bsq := beta'_sq, vv := hvn, kry := h.kry' hb,
      kryp := by rw [h.kry, Nat.add_sub_cancel], Seq := rfl, orthp := h.orthn, orth := horth, Bv := ?_,
      dim := fun _ => h.finrank' hb, wS := hwnS, ww := hwnwn, Bw := hBwn, xW := ?_, Sw := ?_, res := ?_, det := ?_, xx := ?_,
      sn0 := mul_nonneg h.sn0 hsn0, tpos := ?_, tone := fun h => by omega, tlt := fun _ => ?_, tle := ?_ }
  · change B s.vn - q B s ∈ _
    rw [hBvn, add_sub_cancel_right]
    exact Submodule.add_mem _ (Submodule.smul_mem _ _ (hle h.vS)) (Submodule.smul_mem _ _ hvmem)
  · exact Submodule.add_mem _ (hSpW h.xW) (Submodule.smul_mem _ _ hwkW)
  · refine le_antisymm ?_ (sup_le ?_ ?_)
    · intro u hu
      obtain ⟨y, hy, c, d, rfl⟩ := hdec u hu
      refine Submodule.add_mem _ (Submodule.mem_sup_left (Submodule.add_mem _ (hSpW (Submodule.mem_map_of_mem hy))
        (Submodule.smul_mem _ _ hwkW))) (Submodule.mem_sup_right (Submodule.smul_mem _ _ (Submodule.mem_span_singleton_self _)))
    · rintro _ ⟨y, hy, rfl⟩
      rw [h.Seq] at hy
      obtain ⟨y1, hy1, y2, hy2, rfl⟩ := Submodule.mem_sup.1 hy
      obtain ⟨c, rfl⟩ := Submodule.mem_span_singleton.1 hy2
      rw [map_add, map_smul]
      exact Submodule.add_mem _ (hle (h.MapS (Submodule.mem_map_of_mem hy1))) (Submodule.smul_mem _ _ hBvS)
    · rw [Submodule.span_singleton_le_iff_mem]; exact hwnS
  · change b - B (s.xL + z • wk) = _
    have : b - B (s.xL + z • wk) = (b - B s.xL) - z • B wk := by rw [map_add, map_smul]; abel
    have ez : z * γ = s.rhs1 := by rw [hz]; field_simp
    rw [this, hres, hBwk, ← ez]; module
  · have ez : z * γ = s.rhs1 := by rw [hz]; field_simp
    have hd := h.det
    change -sn * z * (sn * (s.dc * s.beta) - cs * alfa B s) -
      (s.rc * s.beta - (cs * (s.dc * s.beta) + sn * alfa B s) * z) * -cs = -(s.snprod * sn * ‖b‖)
    have : -sn * z * (sn * (s.dc * s.beta) - cs * alfa B s) -
      (s.rc * s.beta - (cs * (s.dc * s.beta) + sn * alfa B s) * z) * -cs =
      sn * (s.rc * (cs * γ) - z * γ * s.dc) := by
      have : sn * γ = s.beta := e2
      rw [← this]; linear_combination (-(z * s.dc * sn * γ)) * e3
    rw [this, e1, ez, hd]; ring
  · change z * z + s.ynorm2 = ⟪s.xL + z • wk, s.xL + z • wk⟫
    have hwkx : ⟪wk, s.xL⟫ = 0 := by rw [real_inner_comm]; exact hxwk
    simp only [inner_add_left, inner_add_right, inner_smul_left, inner_smul_right, hxwk, hwkx, hwkwk, h.xx, conj_trivial]
    ring
  · change beta' B s ^ 2 ≤ s.tnorm + alfa B s * alfa B s + s.beta * s.beta + beta' B s * beta' B s
    nlinarith [h.tpos, mul_self_nonneg (alfa B s), mul_self_nonneg s.beta]
  · change 0 < s.tnorm + alfa B s * alfa B s + s.beta * s.beta + beta' B s * beta' B s
    have := mul_self_pos.2 hb
    nlinarith [h.tpos, mul_self_nonneg (alfa B s), mul_self_nonneg (beta' B s)]
  · intro C hC
    have h1 := h.tle C hC
    have h2 : ‖B s.vn‖ ^ 2 ≤ C ^ 2 := by
      have h3 := hC s.vn
      have h4 : ‖s.vn‖ = 1 := by
        rw [real_inner_self_eq_norm_mul_norm] at hvn
        nlinarith [norm_nonneg s.vn]
      rw [h4, mul_one] at h3
      exact pow_le_pow_left₀ (norm_nonneg _) h3 2
    rw [halfq] at h2
    push_cast
    change s.tnorm + alfa B s * alfa B s + s.beta * s.beta + beta' B s * beta' B s ≤ _
    linarith

/-! ### The start -/

/-- the Lanczos vector `r2` before normalization, after the first product -/
noncomputable def q0 (B : E →ₗ[ℝ] E) (b : E) : E :=
  B ((1 / ‖b‖) • b) - (⟪(1 / ‖b‖) • b, B ((1 / ‖b‖) • b)⟫ : ℝ) • ((1 / ‖b‖) • b)

/-- the state after the first product -/
noncomputable def init (B : E →ₗ[ℝ] E) (b : E) : St E :=
  { xL := 0, wb := (1 / ‖b‖) • b, v := (1 / ‖b‖) • b, r2 := q0 B b, beta := Real.sqrt ⟪q0 B b, q0 B b⟫, rhs1 := ‖b‖, rc := 0,
    gbar := ⟪(1 / ‖b‖) • b, B ((1 / ‖b‖) • b)⟫, dc := 1, snprod := 1, ynorm2 := 0,
    tnorm := ⟪(1 / ‖b‖) • b, B ((1 / ‖b‖) • b)⟫ * ⟪(1 / ‖b‖) • b, B ((1 / ‖b‖) • b)⟫ +
      Real.sqrt ⟪q0 B b, q0 B b⟫ * Real.sqrt ⟪q0 B b, q0 B b⟫ }

theorem inv_init (B : E →ₗ[ℝ] E) (b : E) (hb : b ≠ 0) : Inv B b 1 (init B b) (Submodule.span ℝ {(1 / ‖b‖) • b}) ⊥ := by
  have hn : ‖b‖ ≠ 0 := norm_ne_zero_iff.2 hb
  obtain ⟨v, hv⟩ : ∃ v, v = (1 / ‖b‖) • b := ⟨_, rfl⟩
  have hbv : b = ‖b‖ • v := by rw [hv, smul_smul]; field_simp; simp
  have hvv : ⟪v, v⟫ = 1 := by
    rw [hv, inner_smul_left, inner_smul_right, real_inner_self_eq_norm_mul_norm]; simp; field_simp
  have hq : q0 B b = B v - (⟪v, B v⟫ : ℝ) • v := by rw [q0, ← hv]
  have hvq : ⟪v, q0 B b⟫ = 0 := by rw [hq, inner_sub_right, inner_smul_right, hvv]; ring
  have hqv : ⟪q0 B b, v⟫ = 0 := by rw [real_inner_comm]; exact hvq
  have hk0 : krylov B b 0 = ⊥ := by
    rw [eq_bot_iff]; exact Submodule.span_le.2 (by rintro v ⟨j, hj, -⟩; omega)
  have hvm := Submodule.mem_span_singleton_self (R := ℝ) v
  have hqq : Real.sqrt ⟪q0 B b, q0 B b⟫ * Real.sqrt ⟪q0 B b, q0 B b⟫ = ⟪q0 B b, q0 B b⟫ :=
    Real.mul_self_sqrt real_inner_self_nonneg
  have hBv : B v = q0 B b + (⟪v, B v⟫ : ℝ) • v := by rw [hq]; abel
  unfold init
  rw [← hv]
  refine
    { kpos := by omega, bpos := Real.sqrt_nonneg _, bsq := hqq, vv := hvv, kry := ?_,
      kryp := hk0.symm, Seq := by simp, orthp := ?_, orth := ?_, Bv := ?_,
      dim := fun _ => finrank_span_singleton (fun h0 => by rw [h0] at hvv; simp at hvv), wS := hvm, ww := hvv, Bw := ?_,
      xW := by simp, Sw := by simp, res := ?_, det := by simp, xx := by simp,
      sn0 := zero_le_one, tpos := ?_, tone := fun h => by simp only; ring, tlt := fun h => absurd rfl h, tle := ?_ }
  · refine le_antisymm ?_ (Submodule.span_le.2 ?_)
    · rw [Submodule.span_singleton_le_iff_mem, hv]
      exact Submodule.smul_mem _ _ (Submodule.subset_span ⟨0, by omega, by simp⟩)
    · rintro u ⟨j, hj, rfl⟩
      have : j = 0 := by omega
      rw [this, pow_zero]
      change b ∈ _
      rw [hbv]; exact Submodule.smul_mem _ _ hvm
  · intro z hz
    rw [Submodule.mem_bot] at hz
    rw [hz, inner_zero_left]
  · intro z hz
    obtain ⟨c, rfl⟩ := Submodule.mem_span_singleton.1 hz
    rw [inner_smul_left, hvq, mul_zero]
  · change B v - q0 B b ∈ _
    rw [hBv, add_sub_cancel_left]
    exact Submodule.smul_mem _ _ hvm
  · change B v = (⟪v, B v⟫ : ℝ) • v + (1 : ℝ) • q0 B b
    rw [one_smul, hq]; abel
  · change b - B 0 = ‖b‖ • v + (0 : ℝ) • q0 B b
    rw [map_zero, sub_zero, zero_smul, add_zero]; exact hbv
  · change Real.sqrt ⟪q0 B b, q0 B b⟫ ^ 2 ≤ _
    simp only
    nlinarith [mul_self_nonneg (⟪v, B v⟫ : ℝ)]
  · intro C hC
    change (⟪v, B v⟫ : ℝ) * ⟪v, B v⟫ + Real.sqrt ⟪q0 B b, q0 B b⟫ * Real.sqrt ⟪q0 B b, q0 B b⟫ ≤ _
    rw [hqq]
    have h3 := hC v
    have h4 : ‖v‖ = 1 := by
      rw [real_inner_self_eq_norm_mul_norm] at hvv
      nlinarith [norm_nonneg v]
    rw [h4, mul_one] at h3
    have h5 : ‖B v‖ ^ 2 = (⟪v, B v⟫ : ℝ) * ⟪v, B v⟫ + ⟪q0 B b, q0 B b⟫ := by
      rw [pow_two, ← real_inner_self_eq_norm_mul_norm]
      have h6 : ⟪q0 B b, B v⟫ = ⟪q0 B b, q0 B b⟫ := by
        rw [hBv, inner_add_right, inner_smul_right, hqv]; ring
      nth_rw 1 [hBv]
      rw [inner_add_left, inner_smul_left, h6, conj_trivial]; ring
    rw [← h5]
    have := pow_le_pow_left₀ (norm_nonneg _) h3 2
    simpa using this

end Verif.Solver.SymmlqMath
