import Verif.Solver.Confined
import Mathlib.Analysis.InnerProductSpace.Basic
import Mathlib.LinearAlgebra.Span.Basic
import Mathlib.LinearAlgebra.FiniteDimensional.Basic
import Mathlib.LinearAlgebra.FiniteDimensional.Lemmas
import Mathlib.Tactic.Linarith
import Mathlib.Tactic.FieldSimp
import Mathlib.Tactic.LinearCombination
import Mathlib.Tactic.Module

/-!
# Helper: the MINRES recurrences over the reals
-/

namespace Verif.Solver.MinresMath
open scoped RealInnerProductSpace

variable {E : Type} [NormedAddCommGroup E] [InnerProductSpace ℝ E]

/-- `span {b, Bb, ..., B^(k-1) b}` -/
def krylov (B : E →ₗ[ℝ] E) (b : E) (k : ℕ) : Submodule ℝ E := Submodule.span ℝ {v | ∃ j < k, v = (B ^ j) b}

theorem krylov_mono (B : E →ₗ[ℝ] E) (b : E) {k l : ℕ} (h : k ≤ l) : krylov B b k ≤ krylov B b l :=
  Submodule.span_mono (by rintro v ⟨j, hj, rfl⟩; exact ⟨j, by omega, rfl⟩)

theorem krylov_map (B : E →ₗ[ℝ] E) (b : E) (k : ℕ) {z : E} (hz : z ∈ krylov B b k) : B z ∈ krylov B b (k+1) := by
  have : krylov B b k ≤ (krylov B b (k+1)).comap B := by
    refine Submodule.span_le.2 ?_
    rintro v ⟨j, hj, rfl⟩
    refine Submodule.subset_span ⟨j+1, by omega, ?_⟩
    rw [pow_succ']; rfl
  exact this hz

/-- Krylov spaces lie in every invariant subspace that contains the first vector -/
theorem krylov_le {B : E →ₗ[ℝ] E} {b : E} {W : Submodule ℝ E} (hb : b ∈ W) (hW : ∀ w ∈ W, B w ∈ W) (k : ℕ) :
    krylov B b k ≤ W := by
  unfold krylov
  rw [Submodule.span_le]
  rintro v ⟨j, -, rfl⟩
  induction j with
  | zero => simpa using hb
  | succ j ih => rw [pow_succ']; exact hW _ ih

theorem finrank_krylov_le [FiniteDimensional ℝ E] {B : E →ₗ[ℝ] E} {b : E} {d : ℕ} (h : Confined B b d) (k : ℕ) :
    Module.finrank ℝ (krylov B b k) ≤ d := by
  obtain ⟨W, hW, hb, hB⟩ := h
  exact (Submodule.finrank_mono (krylov_le hb hB k)).trans hW

theorem krylov_full [FiniteDimensional ℝ E] {B : E →ₗ[ℝ] E} {b : E} {d k : ℕ} (h : Confined B b d)
    (hk : d ≤ Module.finrank ℝ (krylov B b k)) (j : ℕ) : krylov B b j ≤ krylov B b k := by
  obtain ⟨W, hW, hb, hB⟩ := h
  rw [Submodule.eq_of_le_of_finrank_le (krylov_le hb hB k) (hW.trans hk)]
  exact krylov_le hb hB j

theorem inner_comb (a c d e : ℝ) {x y : E} (hxy : ⟪x, y⟫ = 0) :
    ⟪a • x - c • y, d • x + e • y⟫ = a * d * ⟪x, x⟫ - c * e * ⟪y, y⟫ := by
  have hyx : ⟪y, x⟫ = 0 := by rw [real_inner_comm, hxy]
  rw [inner_sub_left, inner_add_right, inner_add_right]
  simp only [inner_smul_left, inner_smul_right, hxy, hyx, conj_trivial]
  ring

/-- real variables of the iteration -/
structure St (E : Type) where
  x : E
  w : E
  w2 : E
  r1 : E
  r2 : E
  oldb : ℝ
  beta : ℝ
  dbar : ℝ
  epsln : ℝ
  phibar : ℝ
  cs : ℝ
  sn : ℝ

noncomputable def St.v (s : St E) : E := (1 / s.beta) • s.r2

/-- invariant after `k` iterations, with ghost variables: the previous Lanczos vector `vp`, the previous rotated vector `up`,
the spans `S`, `Sp` of all, and of all but the last, previous Lanczos vectors -/
structure Inv (B : E →ₗ[ℝ] E) (b : E) (k : ℕ) (s : St E) (vp up : E) (S Sp : Submodule ℝ E) : Prop where
  bpos : 0 ≤ s.beta
  bsq : s.beta * s.beta = ⟪s.r2, s.r2⟫
  zero : k = 0 → vp = 0 ∧ s.r2 = b
  pos : k ≠ 0 → s.oldb ≠ 0 ∧ s.r1 = s.oldb • vp
  I1 : s.beta • vp = s.epsln • B s.w2 + s.dbar • up
  I2 : B s.w = s.cs • up + s.sn • s.v
  I3 : b - B s.x = s.phibar • (s.sn • up - s.cs • s.v)
  rot : s.cs * s.cs + s.sn * s.sn = 1
  snb : s.beta = 0 → s.sn = 0 ∧ s.phibar = 0
  sn1 : 0 ≤ s.sn
  ph : 0 ≤ s.phibar
  unit : s.beta ≠ 0 → ⟪s.sn • up - s.cs • s.v, s.sn • up - s.cs • s.v⟫ = 1
  orth : ∀ z ∈ S, ⟪z, s.r2⟫ = 0
  orthp : ∀ z ∈ Sp, ⟪z, vp⟫ = 0
  Seq : S = Sp ⊔ Submodule.span ℝ {vp}
  BSp : ∀ z ∈ Sp, B z ∈ S
  Bvp : B vp ∈ S ⊔ Submodule.span ℝ {s.r2}
  Bvr : ⟪B vp, s.r2⟫ = s.beta * s.beta * ⟪vp, vp⟫
  wS : s.w ∈ S
  w2S : s.w2 ∈ S
  xS : s.x ∈ S
  upS : up ∈ S
  minim : ∀ z ∈ S, ⟪s.sn • up - s.cs • s.v, B z⟫ = 0
  dim : FiniteDimensional ℝ E → Module.finrank ℝ S = k
  kry : S = krylov B b k
  kry2 : s.r2 ∈ krylov B b (k+1)

/-- the Lanczos part of a step -/
noncomputable def p (B : E →ₗ[ℝ] E) (k : ℕ) (s : St E) : E :=
  if k + 1 ≥ 2 then B s.v - (s.beta / s.oldb) • s.r1 else B s.v
noncomputable def alfa (B : E →ₗ[ℝ] E) (k : ℕ) (s : St E) : ℝ := ⟪s.v, p B k s⟫
noncomputable def q (B : E →ₗ[ℝ] E) (k : ℕ) (s : St E) : E := (-alfa B k s / s.beta) • s.r2 + p B k s
noncomputable def beta' (B : E →ₗ[ℝ] E) (k : ℕ) (s : St E) : ℝ := Real.sqrt ⟪q B k s, q B k s⟫
noncomputable def delta (B : E →ₗ[ℝ] E) (k : ℕ) (s : St E) : ℝ := s.cs * s.dbar + s.sn * alfa B k s
noncomputable def gbar (B : E →ₗ[ℝ] E) (k : ℕ) (s : St E) : ℝ := s.sn * s.dbar - s.cs * alfa B k s
noncomputable def gam0 (B : E →ₗ[ℝ] E) (k : ℕ) (s : St E) : ℝ :=
  Real.sqrt (gbar B k s * gbar B k s + beta' B k s * beta' B k s)

noncomputable def step (B : E →ₗ[ℝ] E) (k : ℕ) (γ : ℝ) (s : St E) : St E :=
  let w := (1 / γ) • (s.v - s.epsln • s.w2 - delta B k s • s.w)
  { x := s.x + (gbar B k s / γ * s.phibar) • w
    w := w
    w2 := s.w
    r1 := s.r2
    r2 := q B k s
    oldb := s.beta
    beta := beta' B k s
    dbar := -s.cs * beta' B k s
    epsln := s.sn * beta' B k s
    phibar := beta' B k s / γ * s.phibar
    cs := gbar B k s / γ
    sn := beta' B k s / γ }

variable {B : E →ₗ[ℝ] E} {b : E} {k : ℕ} {s : St E} {vp up : E} {S Sp : Submodule ℝ E}

theorem Inv.p_eq (h : Inv B b k s vp up S Sp) : p B k s = B s.v - s.beta • vp := by
  unfold p
  by_cases hk : k = 0
  · obtain ⟨h1, -⟩ := h.zero hk
    rw [if_neg (by omega), h1]; simp
  · obtain ⟨h1, h2⟩ := h.pos hk
    rw [if_pos (by omega), h2, smul_smul]
    congr 2
    field_simp

theorem Inv.r2_eq (_h : Inv B b k s vp up S Sp) (hb : s.beta ≠ 0) : s.r2 = s.beta • s.v := by
  rw [St.v, smul_smul]; field_simp; simp

theorem Inv.vv (h : Inv B b k s vp up S Sp) (hb : s.beta ≠ 0) : ⟪s.v, s.v⟫ = 1 := by
  rw [St.v, inner_smul_left, inner_smul_right, ← h.bsq]; simp; field_simp

theorem Inv.q_eq (h : Inv B b k s vp up S Sp) (hb : s.beta ≠ 0) :
    q B k s = B s.v - alfa B k s • s.v - s.beta • vp := by
  unfold q
  rw [h.p_eq, h.r2_eq hb, smul_smul]
  have : -alfa B k s / s.beta * s.beta = -alfa B k s := by field_simp
  rw [this]; module

theorem Inv.vS (h : Inv B b k s vp up S Sp) : ∀ z ∈ S, ⟪z, s.v⟫ = 0 := by
  intro z hz; rw [St.v, inner_smul_right, h.orth z hz, mul_zero]

theorem Inv.vpS (h : Inv B b k s vp up S Sp) : vp ∈ S := by
  rw [h.Seq]; exact Submodule.mem_sup_right (Submodule.mem_span_singleton_self _)

theorem Inv.SpS (h : Inv B b k s vp up S Sp) : Sp ≤ S := by rw [h.Seq]; exact le_sup_left

/-- the new Lanczos vector is orthogonal to all previous ones -/
theorem Inv.orth' (h : Inv B b k s vp up S Sp) (hB : ∀ u v, ⟪B u, v⟫ = ⟪u, B v⟫) (hb : s.beta ≠ 0) :
    ∀ z ∈ S ⊔ Submodule.span ℝ {s.v}, ⟪z, q B k s⟫ = 0 := by
  have hv := h.vv hb
  have hvp0 : ⟪s.v, vp⟫ = 0 := by rw [real_inner_comm]; exact h.vS _ h.vpS
  have h1 : ⟪s.v, q B k s⟫ = 0 := by
    have e : alfa B k s = ⟪s.v, B s.v⟫ := by
      unfold alfa; rw [h.p_eq, inner_sub_right, inner_smul_right, hvp0]; ring
    rw [h.q_eq hb, inner_sub_right, inner_sub_right, inner_smul_right, inner_smul_right, hv, hvp0, e]; ring
  have h2 : ⟪vp, q B k s⟫ = 0 := by
    have e : ⟪vp, B s.v⟫ = s.beta * ⟪vp, vp⟫ := by
      rw [← hB, St.v, inner_smul_right, h.Bvr]; field_simp
    rw [h.q_eq hb, inner_sub_right, inner_sub_right, inner_smul_right, inner_smul_right, e, h.vS _ h.vpS]; ring
  have h3 : ∀ z ∈ Sp, ⟪z, q B k s⟫ = 0 := by
    intro z hz
    rw [h.q_eq hb, inner_sub_right, inner_sub_right, inner_smul_right, inner_smul_right, ← hB, h.vS _ (h.BSp z hz),
      h.vS _ (h.SpS hz), h.orthp z hz]; ring
  intro z hz
  obtain ⟨y, hy, c, hc, rfl⟩ := Submodule.mem_sup.1 hz
  obtain ⟨t, rfl⟩ := Submodule.mem_span_singleton.1 hc
  rw [h.Seq] at hy
  obtain ⟨y1, hy1, c1, hc1, rfl⟩ := Submodule.mem_sup.1 hy
  obtain ⟨t1, rfl⟩ := Submodule.mem_span_singleton.1 hc1
  rw [inner_add_left, inner_add_left, inner_smul_left, inner_smul_left, h1, h2, h3 y1 hy1]; simp

theorem finrank_sup_span [FiniteDimensional ℝ E] (h : Inv B b k s vp up S Sp) (hb : s.beta ≠ 0) :
    Module.finrank ℝ (S ⊔ Submodule.span ℝ {s.v} : Submodule ℝ E) = k + 1 := by
  have hv0 : s.v ≠ 0 := by
    intro h0
    have := h.vv hb
    rw [h0, inner_zero_left] at this
    norm_num at this
  have hinf : S ⊓ Submodule.span ℝ {s.v} = ⊥ := by
    rw [Submodule.eq_bot_iff]
    rintro z ⟨hz1, hz2⟩
    obtain ⟨t, rfl⟩ := Submodule.mem_span_singleton.1 hz2
    have := h.vS _ hz1
    rw [inner_smul_left, h.vv hb] at this
    have ht : t = 0 := by simpa using this
    rw [ht, zero_smul]
  have h1 := Submodule.finrank_sup_add_finrank_inf_eq S (Submodule.span ℝ {s.v})
  rw [hinf, finrank_bot, finrank_span_singleton hv0, h.dim inferInstance] at h1
  simpa using h1

/-- the Krylov space is confined -/
theorem Inv.le_confined [FiniteDimensional ℝ E] (h : Inv B b k s vp up S Sp) {d : ℕ} (hd : Confined B b d) : k ≤ d := by
  rw [← h.dim inferInstance, h.kry]; exact finrank_krylov_le hd k

/-- the Lanczos process ends when the Krylov space cannot grow -/
theorem Inv.beta_zero [FiniteDimensional ℝ E] (h : Inv B b k s vp up S Sp) {d : ℕ} (hd : Confined B b d) (hk : d ≤ k) :
    s.beta = 0 := by
  have := h.orth s.r2 (by
    rw [h.kry]
    exact krylov_full hd (by rw [← h.kry, h.dim inferInstance]; exact hk) (k+1) h.kry2)
  rw [← h.bsq] at this
  exact mul_self_eq_zero.1 this

theorem beta'_sq : beta' B k s * beta' B k s = ⟪q B k s, q B k s⟫ :=
  Real.mul_self_sqrt real_inner_self_nonneg

/-- `B` maps the old space into the new one -/
theorem Inv.BS (h : Inv B b k s vp up S Sp) (hb : s.beta ≠ 0) : ∀ z ∈ S, B z ∈ S ⊔ Submodule.span ℝ {s.v} := by
  have hspan : Submodule.span ℝ {s.r2} ≤ Submodule.span ℝ {s.v} := by
    rw [Submodule.span_singleton_le_iff_mem, h.r2_eq hb]
    exact Submodule.smul_mem _ _ (Submodule.mem_span_singleton_self _)
  intro z hz
  rw [h.Seq] at hz
  obtain ⟨y1, hy1, c1, hc1, rfl⟩ := Submodule.mem_sup.1 hz
  obtain ⟨t1, rfl⟩ := Submodule.mem_span_singleton.1 hc1
  rw [map_add, map_smul]
  exact Submodule.add_mem _ (Submodule.mem_sup_left (h.BSp y1 hy1))
    (Submodule.smul_mem _ _ (sup_le_sup_left hspan S h.Bvp))

/-- the rotated vector -/
noncomputable def ub (s : St E) (up : E) : E := s.sn • up - s.cs • s.v

/-- the tridiagonal relation in rotated form -/
theorem Inv.Bd (h : Inv B b k s vp up S Sp) (hb : s.beta ≠ 0) :
    B (s.v - s.epsln • s.w2 - delta B k s • s.w) = gbar B k s • ub s up + q B k s := by
  have e1 := h.q_eq hb
  have e2 : B s.v = q B k s + alfa B k s • s.v + s.beta • vp := by rw [e1]; abel
  rw [map_sub, map_sub, map_smul, map_smul, e2, h.I1, h.I2]
  unfold delta gbar ub
  have r := h.rot
  have e3 : s.dbar • up = (s.dbar * (s.cs * s.cs + s.sn * s.sn)) • up := by rw [r, mul_one]
  have e4 : alfa B k s • s.v = (alfa B k s * (s.cs * s.cs + s.sn * s.sn)) • s.v := by rw [r, mul_one]
  rw [e3, e4]
  module

theorem Inv.upS' (h : Inv B b k s vp up S Sp) : ub s up ∈ S ⊔ Submodule.span ℝ {s.v} := by
  unfold ub
  exact Submodule.sub_mem _ (Submodule.mem_sup_left (Submodule.smul_mem _ _ h.upS))
    (Submodule.mem_sup_right (Submodule.smul_mem _ _ (Submodule.mem_span_singleton_self _)))

/-- an operator bounded below by `ε` never produces a pivot below `ε` -/
theorem Inv.gam_ge (h : Inv B b k s vp up S Sp) (hB : ∀ u v, ⟪B u, v⟫ = ⟪u, B v⟫) (hb : s.beta ≠ 0) {ε : ℝ} (hε : 0 ≤ ε)
    (hlow : ∀ z, ε * ‖z‖ ≤ ‖B z‖) : ε ≤ gam0 B k s := by
  have hq : ⟪ub s up, q B k s⟫ = 0 := h.orth' hB hb _ h.upS'
  have e1 : ‖B (s.v - s.epsln • s.w2 - delta B k s • s.w)‖ * ‖B (s.v - s.epsln • s.w2 - delta B k s • s.w)‖
      = gbar B k s * gbar B k s + beta' B k s * beta' B k s := by
    rw [← real_inner_self_eq_norm_mul_norm, h.Bd hb, inner_add_left, inner_add_right, inner_add_right, inner_smul_left,
      inner_smul_left, inner_smul_right, inner_smul_right, hq, real_inner_comm (ub s up) (q B k s), hq, beta'_sq]
    have : ⟪ub s up, ub s up⟫ = 1 := h.unit hb
    rw [this]; simp
  have e2 : 1 ≤ ‖s.v - s.epsln • s.w2 - delta B k s • s.w‖ := by
    have hz : s.epsln • s.w2 + delta B k s • s.w ∈ S :=
      Submodule.add_mem _ (Submodule.smul_mem _ _ h.w2S) (Submodule.smul_mem _ _ h.wS)
    have hz' := h.vS _ hz
    generalize hd : s.epsln • s.w2 + delta B k s • s.w = d at hz'
    have : s.v - s.epsln • s.w2 - delta B k s • s.w = s.v - d := by rw [← hd]; abel
    rw [this]
    have h3 : ‖s.v - d‖ * ‖s.v - d‖ = 1 + ‖d‖ * ‖d‖ := by
      rw [← real_inner_self_eq_norm_mul_norm, inner_sub_left, inner_sub_right, inner_sub_right, h.vv hb, hz',
        real_inner_comm, hz', real_inner_self_eq_norm_mul_norm]; ring
    nlinarith [norm_nonneg (s.v - d), norm_nonneg d, mul_self_nonneg ‖d‖]
  have e3 := hlow (s.v - s.epsln • s.w2 - delta B k s • s.w)
  have e4 : ε ≤ ‖B (s.v - s.epsln • s.w2 - delta B k s • s.w)‖ := by nlinarith
  unfold gam0
  rw [← e1]
  exact Real.le_sqrt_of_sq_le (by nlinarith)

/-- the old space and the Lanczos vector span the next Krylov space -/
theorem Inv.kry_succ (h : Inv B b k s vp up S Sp) (hb : s.beta ≠ 0) : S ⊔ Submodule.span ℝ {s.v} = krylov B b (k+1) := by
  have hvmem : s.v ∈ S ⊔ Submodule.span ℝ {s.v} := Submodule.mem_sup_right (Submodule.mem_span_singleton_self _)
  have hle : S ≤ S ⊔ Submodule.span ℝ {s.v} := le_sup_left
  apply le_antisymm
  · refine sup_le (h.kry ▸ krylov_mono B b (by omega)) ?_
    rw [Submodule.span_singleton_le_iff_mem]
    exact Submodule.smul_mem _ _ h.kry2
  · refine Submodule.span_le.2 ?_
    rintro z ⟨j, hj, rfl⟩
    by_cases hjk : j < k
    · refine hle ?_
      rw [h.kry]; exact Submodule.subset_span ⟨j, hjk, rfl⟩
    · obtain rfl : j = k := by omega
      rcases Nat.eq_zero_or_pos j with h0 | h0
      · subst h0
        obtain ⟨-, h2⟩ := h.zero rfl
        simp only [pow_zero]
        change b ∈ _
        rw [← h2, h.r2_eq hb]
        exact Submodule.smul_mem _ _ hvmem
      · obtain ⟨i, rfl⟩ : ∃ i, j = i + 1 := ⟨j - 1, by omega⟩
        rw [pow_succ']
        refine h.BS hb _ ?_
        rw [h.kry]
        exact Submodule.subset_span ⟨i, by omega, rfl⟩

theorem Inv.step (h : Inv B b k s vp up S Sp) (hB : ∀ u v, ⟪B u, v⟫ = ⟪u, B v⟫) (hb : s.beta ≠ 0) {γ : ℝ}
    (hγ : γ = gam0 B k s) (hpos : 0 < γ) :
    Inv B b (k+1) (step B k γ s) s.v (ub s up) (S ⊔ Submodule.span ℝ {s.v}) S := by
  have hγ0 : γ ≠ 0 := hpos.ne'
  have hγ2 : γ * γ = gbar B k s * gbar B k s + beta' B k s * beta' B k s := by
    rw [hγ, gam0, Real.mul_self_sqrt (add_nonneg (mul_self_nonneg _) (mul_self_nonneg _))]
  have hb' : 0 ≤ beta' B k s := Real.sqrt_nonneg _
  have horth := h.orth' hB hb
  have hvmem : s.v ∈ S ⊔ Submodule.span ℝ {s.v} := Submodule.mem_sup_right (Submodule.mem_span_singleton_self _)
  have hle : S ≤ S ⊔ Submodule.span ℝ {s.v} := le_sup_left
  have hrot : gbar B k s / γ * (gbar B k s / γ) + beta' B k s / γ * (beta' B k s / γ) = 1 := by
    field_simp; linarith
  -- the new Lanczos vector
  set v' : E := (1 / beta' B k s) • q B k s with hv'
  have hq' : q B k s = beta' B k s • v' := by
    by_cases h0 : beta' B k s = 0
    · have : ⟪q B k s, q B k s⟫ = 0 := by rw [← beta'_sq, h0, mul_zero]
      rw [inner_self_eq_zero.1 this, h0, zero_smul]
    · rw [hv', smul_smul]; field_simp; simp
  have hv'S : ∀ z ∈ S ⊔ Submodule.span ℝ {s.v}, ⟪z, v'⟫ = 0 := by
    intro z hz; rw [hv', inner_smul_right, horth z hz, mul_zero]
  have hv'v' : beta' B k s ≠ 0 → ⟪v', v'⟫ = 1 := by
    intro h0
    rw [hv', inner_smul_left, inner_smul_right, ← beta'_sq]; simp; field_simp
  have huv : ⟪ub s up, v'⟫ = 0 := hv'S _ h.upS'
  have huu : ⟪ub s up, ub s up⟫ = 1 := h.unit hb
  have hBw : B ((1 / γ) • (s.v - s.epsln • s.w2 - delta B k s • s.w)) =
      (gbar B k s / γ) • ub s up + (beta' B k s / γ) • v' := by
    rw [map_smul, h.Bd hb, smul_add, smul_smul, hq', smul_smul]
    congr 2 <;> field_simp
  have hvS' : (1 / γ) • (s.v - s.epsln • s.w2 - delta B k s • s.w) ∈ S ⊔ Submodule.span ℝ {s.v} :=
    Submodule.smul_mem _ _ (Submodule.sub_mem _ (Submodule.sub_mem _ hvmem (Submodule.smul_mem _ _ (hle h.w2S)))
      (Submodule.smul_mem _ _ (hle h.wS)))
  have hBv : B s.v = q B k s + alfa B k s • s.v + s.beta • vp := by rw [h.q_eq hb]; abel
  have hkry := h.kry_succ hb
  refine
    { bpos := hb'
      bsq := beta'_sq
      zero := by omega
      pos := fun _ => ⟨hb, h.r2_eq hb⟩
      I1 := ?_
      I2 := hBw
      I3 := ?_
      rot := hrot
      snb := ?_
      sn1 := div_nonneg hb' hpos.le
      ph := mul_nonneg (div_nonneg hb' hpos.le) h.ph
      unit := ?_
      orth := horth
      orthp := h.vS
      Seq := rfl
      BSp := h.BS hb
      Bvp := ?_
      Bvr := ?_
      wS := hvS'
      w2S := hle h.wS
      xS := Submodule.add_mem _ (hle h.xS) (Submodule.smul_mem _ _ hvS')
      upS := h.upS'
      minim := ?_
      dim := fun _ => finrank_sup_span h hb
      kry := hkry
      kry2 := ?_ }
  · -- I1
    change beta' B k s • s.v = (s.sn * beta' B k s) • B s.w + (-s.cs * beta' B k s) • ub s up
    rw [h.I2, ub]
    have e4 : beta' B k s • s.v = (beta' B k s * (s.cs * s.cs + s.sn * s.sn)) • s.v := by rw [h.rot, mul_one]
    rw [e4]; module
  · -- I3
    change b - B (s.x + (gbar B k s / γ * s.phibar) • _) = (beta' B k s / γ * s.phibar) •
      ((beta' B k s / γ) • ub s up - (gbar B k s / γ) • v')
    rw [map_add, map_smul, hBw, ← sub_sub, h.I3]
    change s.phibar • ub s up - _ = _
    have e4 : s.phibar • ub s up = (s.phibar * (gbar B k s / γ * (gbar B k s / γ) + beta' B k s / γ * (beta' B k s / γ))) •
      ub s up := by rw [hrot, mul_one]
    rw [e4]; module
  · -- snb
    intro h0
    have h0 : beta' B k s = 0 := h0
    change beta' B k s / γ = 0 ∧ beta' B k s / γ * s.phibar = 0
    rw [h0]; simp
  · -- unit
    intro h0
    change ⟪(beta' B k s / γ) • ub s up - (gbar B k s / γ) • v', (beta' B k s / γ) • ub s up - (gbar B k s / γ) • v'⟫ = 1
    have e := inner_comb (beta' B k s / γ) (gbar B k s / γ) (beta' B k s / γ) (-(gbar B k s / γ)) huv
    rw [neg_smul, ← sub_eq_add_neg] at e
    rw [e, huu, hv'v' h0]
    linarith
  · -- Bvp
    change B s.v ∈ _ ⊔ Submodule.span ℝ {q B k s}
    rw [hBv]
    refine Submodule.add_mem _ (Submodule.add_mem _ ?_ ?_) ?_
    · exact Submodule.mem_sup_right (Submodule.mem_span_singleton_self _)
    · exact Submodule.mem_sup_left (Submodule.smul_mem _ _ hvmem)
    · exact Submodule.mem_sup_left (Submodule.smul_mem _ _ (hle h.vpS))
  · -- Bvr
    change ⟪B s.v, q B k s⟫ = beta' B k s * beta' B k s * ⟪s.v, s.v⟫
    rw [hBv, inner_add_left, inner_add_left, inner_smul_left, inner_smul_left, horth _ hvmem, horth _ (hle h.vpS),
      beta'_sq, h.vv hb]
    ring
  · -- minim
    change ∀ z ∈ _, ⟪(beta' B k s / γ) • ub s up - (gbar B k s / γ) • v', B z⟫ = 0
    have hz1 : ∀ z ∈ S, ⟪(beta' B k s / γ) • ub s up - (gbar B k s / γ) • v', B z⟫ = 0 := by
      intro z hz
      have e1 : ⟪ub s up, B z⟫ = 0 := h.minim z hz
      rw [inner_sub_left, inner_smul_left, inner_smul_left, e1, real_inner_comm, hv'S _ (h.BS hb z hz)]; ring
    have hz2 : ⟪(beta' B k s / γ) • ub s up - (gbar B k s / γ) • v', B s.v⟫ = 0 := by
      have e1 := h.Bd hb
      rw [map_sub, map_sub, map_smul, map_smul] at e1
      have e2 : B s.v = (gbar B k s • ub s up + beta' B k s • v') + s.epsln • B s.w2 + delta B k s • B s.w := by
        rw [← hq', ← e1]; abel
      rw [e2, inner_add_right, inner_add_right, inner_smul_right, inner_smul_right, hz1 _ h.wS, hz1 _ h.w2S]
      rw [inner_comb _ _ _ _ huv, huu]
      by_cases h0 : beta' B k s = 0
      · rw [h0]; simp
      · rw [hv'v' h0]; ring
    intro z hz
    obtain ⟨y, hy, c, hc, rfl⟩ := Submodule.mem_sup.1 hz
    obtain ⟨t, rfl⟩ := Submodule.mem_span_singleton.1 hc
    rw [map_add, map_smul, inner_add_right, inner_smul_right, hz1 y hy, hz2]; ring
  · -- kry2
    change q B k s ∈ _
    rw [h.q_eq hb]
    have hv1 : s.v ∈ krylov B b (k+1) := hkry ▸ hvmem
    refine Submodule.sub_mem _ (Submodule.sub_mem _ (krylov_map B b _ hv1) ?_) ?_
    · exact Submodule.smul_mem _ _ (krylov_mono B b (by omega) hv1)
    · refine Submodule.smul_mem _ _ (krylov_mono B b (k := k) (by omega) ?_)
      rw [← h.kry]; exact h.vpS

/-- the reported residual norm is the true one -/
theorem Inv.resid (h : Inv B b k s vp up S Sp) : ‖b - B s.x‖ = s.phibar := by
  rw [h.I3, norm_smul, Real.norm_eq_abs, abs_of_nonneg h.ph]
  by_cases h0 : s.beta = 0
  · rw [(h.snb h0).2]; simp
  · have := h.unit h0
    rw [real_inner_self_eq_norm_mul_norm] at this
    have h1 : ‖s.sn • up - s.cs • s.v‖ = 1 := by nlinarith [norm_nonneg (s.sn • up - s.cs • s.v)]
    rw [h1, mul_one]

/-- and it is the smallest over the Krylov space -/
theorem Inv.minimal (h : Inv B b k s vp up S Sp) : s.x ∈ krylov B b k ∧ ∀ z ∈ krylov B b k, ‖b - B s.x‖ ≤ ‖b - B z‖ := by
  rw [← h.kry]
  refine ⟨h.xS, fun z hz => ?_⟩
  have hd : s.x - z ∈ S := Submodule.sub_mem _ h.xS hz
  have h0 : ⟪b - B s.x, B (s.x - z)⟫ = 0 := by rw [h.I3, inner_smul_left, h.minim _ hd, mul_zero]
  have h1 : b - B z = (b - B s.x) + B (s.x - z) := by rw [map_sub]; abel
  have h2 : ‖b - B z‖ * ‖b - B z‖ = ‖b - B s.x‖ * ‖b - B s.x‖ + ‖B (s.x - z)‖ * ‖B (s.x - z)‖ := by
    rw [h1, ← real_inner_self_eq_norm_mul_norm, inner_add_left, inner_add_right, inner_add_right, h0,
      real_inner_comm (b - B s.x) (B (s.x - z)), h0, real_inner_self_eq_norm_mul_norm, real_inner_self_eq_norm_mul_norm]; ring
  by_contra hlt
  nlinarith [norm_nonneg (b - B z), norm_nonneg (b - B s.x), mul_self_nonneg ‖B (s.x - z)‖]

/-- the start -/
theorem inv_init (B : E →ₗ[ℝ] E) (b : E) (hb : b ≠ 0) :
    Inv B b 0 { x := 0, w := 0, w2 := 0, r1 := b, r2 := b, oldb := 0, beta := ‖b‖, dbar := 0, epsln := 0, phibar := ‖b‖,
                cs := -1, sn := 0 } 0 0 ⊥ ⊥ := by
  have hn : ‖b‖ ≠ 0 := norm_ne_zero_iff.2 hb
  refine
    { bpos := norm_nonneg _
      bsq := (real_inner_self_eq_norm_mul_norm _).symm
      zero := fun _ => ⟨rfl, rfl⟩
      pos := fun h => absurd rfl h
      I1 := by simp
      I2 := by simp
      I3 := ?_
      rot := by norm_num
      snb := fun h => absurd h hn
      sn1 := le_refl _
      ph := norm_nonneg _
      unit := ?_
      orth := by simp
      orthp := by simp
      Seq := by simp
      BSp := by simp
      Bvp := by simp
      Bvr := by simp
      wS := by simp
      w2S := by simp
      xS := by simp
      upS := by simp
      minim := by simp
      dim := by simp
      kry := by simp [krylov]
      kry2 := Submodule.subset_span ⟨0, by omega, by simp⟩ }
  · simp only [St.v, map_zero, sub_zero]
    rw [zero_smul, neg_smul, one_smul, zero_sub, neg_neg, smul_smul]
    field_simp; simp
  · intro _
    simp only [St.v]
    rw [zero_smul, neg_smul, one_smul, zero_sub, neg_neg, inner_smul_left, inner_smul_right,
      real_inner_self_eq_norm_mul_norm]
    simp; field_simp

end Verif.Solver.MinresMath
