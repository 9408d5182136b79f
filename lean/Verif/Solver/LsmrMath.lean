import Mathlib.Analysis.InnerProductSpace.Basic
import Mathlib.Tactic.Module
import Mathlib.Tactic.FieldSimp
import Mathlib.Tactic.LinearCombination

/-!
# Helper: the recurrences of LSMR over the reals

`Ab` is the operator and `bb` the right-hand side (in the application, the operator and right-hand side extended by the damping
rows).  The vectors `w` with `Ab h = ρ w` are those of the first orthogonal transformation; `P`, `q` belong to the second one and
`m` to the third one.
-/

namespace Verif.Solver.LsmrMath
open scoped RealInnerProductSpace

variable {E H : Type} [NormedAddCommGroup E] [InnerProductSpace ℝ E] [NormedAddCommGroup H] [InnerProductSpace ℝ H]

/-- State after an iteration. -/
structure MR (Ab : E →ₗ[ℝ] H) (bb : H) (Vs Vs' : Submodule ℝ E) (y hb P q h v : E) (m W G : H)
    (cb sb ζb rd δ ρl ρbl : ℝ) : Prop where
  c0 : 0 < cb
  rd0 : 0 < rd
  ρl0 : 0 < ρl
  ρbl0 : 0 < ρbl
  hv : v = sb • q + cb • P
  PP : ⟪P, P⟫ = 1
  Pq : ⟪P, q⟫ = 0
  PV : P ∈ Vs
  qV : q ∈ Vs
  yV : y ∈ Vs'
  hbV : hb ∈ Vs'
  nres : ∀ z, ⟪bb - Ab y, Ab z⟫ = ζb * ⟪P, z⟫
  AP : Ab P = cb • Ab h
  Aq : Ab q = ρbl • W + sb • Ab h
  Ahb : Ab hb = (ρl * ρbl / rd) • m
  Thb : ∀ z, ⟪Ab hb, Ab z⟫ = ρl * ρbl * ⟪q, z⟫
  resid : bb - Ab y = δ • m + G
  mG : ⟪m, G⟫ = 0
  mm : sb ≠ 0 → ⟪m, m⟫ = 1
  rW : ρbl * ⟪bb - Ab y, W⟫ = rd * δ
  minP : ∀ z ∈ Vs', ⟪Ab P, Ab z⟫ = 0

variable {Ab : E →ₗ[ℝ] H} {bb : H} {Vs Vs' : Submodule ℝ E} {y hb P q h v : E} {m W G : H} {cb sb ζb rd δ ρl ρbl : ℝ}

/-- Data of an iteration. -/
structure Inp (Ab : E →ₗ[ℝ] H) (h v : E) (m G : H) (w G' : H) (v' : E) (ρ θ βh : ℝ) : Prop where
  ρ0 : 0 < ρ
  Ah : Ab h = ρ • w
  Tw : ∀ z, ⟪w, Ab z⟫ = ρ * ⟪v, z⟫ + θ * ⟪v', z⟫
  ww : ⟪w, w⟫ = 1
  G : G = βh • w + G'
  wG : ⟪w, G'⟫ = 0
  mw : ⟪m, w⟫ = 0
  mG' : ⟪m, G'⟫ = 0

/-- `sqrt(a^2 + b^2)` -/
noncomputable def hyp (a b : ℝ) : ℝ := Real.sqrt (a * a + b * b)

theorem hyp_sq (a b : ℝ) : hyp a b * hyp a b = a * a + b * b :=
  Real.mul_self_sqrt (add_nonneg (mul_self_nonneg _) (mul_self_nonneg _))
theorem hyp_pos {a : ℝ} (b : ℝ) (h : a ≠ 0) : 0 < hyp a b :=
  Real.sqrt_pos.2 (add_pos_of_pos_of_nonneg (mul_self_pos.2 h) (mul_self_nonneg _))
theorem hyp_zero {a : ℝ} (h : 0 ≤ a) : hyp a 0 = a := by
  unfold hyp; rw [mul_zero, add_zero, Real.sqrt_mul_self h]

namespace MR
variable {w G' : H} {v' : E} {ρ θ βh : ℝ}

/-- the new vectors -/
noncomputable def hbn (ρl ρbl sb ρ : ℝ) (h hb : E) : E := h - (sb * ρ * ρ / (ρl * ρbl)) • hb
noncomputable def yn (cb ζb ρ θ : ℝ) (y hbn : E) : E := y + (cb * ρ / hyp (cb * ρ) θ * ζb / (ρ * hyp (cb * ρ) θ)) • hbn
noncomputable def Pn (cb ρ θ : ℝ) (P v' : E) : E := -(θ / hyp (cb * ρ) θ) • P + (cb * ρ / hyp (cb * ρ) θ) • v'
noncomputable def qn (cb ρ θ : ℝ) (P v' : E) : E := (cb * ρ / hyp (cb * ρ) θ) • P + (θ / hyp (cb * ρ) θ) • v'
noncomputable def mn (rd sb ρ : ℝ) (m w : H) : H := -(sb * ρ / hyp rd (sb * ρ)) • m + (rd / hyp rd (sb * ρ)) • w
/-- the new coefficients -/
noncomputable def rdn (cb sb rd ρ θ : ℝ) : ℝ := rd / hyp rd (sb * ρ) * hyp (cb * ρ) θ
noncomputable def δn (cb sb ζb rd δ ρ θ βh : ℝ) : ℝ :=
  -(sb * ρ / hyp rd (sb * ρ)) * δ + rd / hyp rd (sb * ρ) * βh - cb * ρ / hyp (cb * ρ) θ * ζb / rdn cb sb rd ρ θ

section
variable (s : MR Ab bb Vs Vs' y hb P q h v m W G cb sb ζb rd δ ρl ρbl) (i : Inp Ab h v m G w G' v' ρ θ βh)
include s i

theorem rt0 : 0 < cb * ρ := mul_pos s.c0 i.ρ0
theorem rb0 : 0 < hyp (cb * ρ) θ := hyp_pos _ (s.rt0 i).ne'
theorem rh0 : 0 < hyp rd (sb * ρ) := hyp_pos _ s.rd0.ne'
theorem rdn0 : 0 < rdn cb sb rd ρ θ := mul_pos (div_pos s.rd0 (s.rh0 i)) (s.rb0 i)

theorem rot1 : cb * ρ / hyp (cb * ρ) θ * (cb * ρ / hyp (cb * ρ) θ) + θ / hyp (cb * ρ) θ * (θ / hyp (cb * ρ) θ) = 1 := by
  have := (s.rb0 i).ne'
  have h2 := hyp_sq (cb * ρ) θ
  field_simp
  linarith

theorem rot2 : rd / hyp rd (sb * ρ) * (rd / hyp rd (sb * ρ)) + sb * ρ / hyp rd (sb * ρ) * (sb * ρ / hyp rd (sb * ρ)) = 1 := by
  have := (s.rh0 i).ne'
  have h2 := hyp_sq rd (sb * ρ)
  field_simp
  linarith

theorem qn_eq (z : E) : hyp (cb * ρ) θ * ⟪qn cb ρ θ P v', z⟫ = cb * ρ * ⟪P, z⟫ + θ * ⟪v', z⟫ := by
  have := (s.rb0 i).ne'
  unfold qn
  rw [inner_add_left, inner_smul_left, inner_smul_left]
  simp only [conj_trivial]
  field_simp

/-- the image of the new direction in the second basis -/
theorem Thbn (z : E) : ⟪Ab (hbn ρl ρbl sb ρ h hb), Ab z⟫ = ρ * hyp (cb * ρ) θ * ⟪qn cb ρ θ P v', z⟫ := by
  have h1 := s.ρl0.ne'
  have h2 := s.ρbl0.ne'
  unfold hbn
  rw [map_sub, map_smul, inner_sub_left, inner_smul_left, s.Thb, i.Ah, inner_smul_left, i.Tw, mul_assoc ρ, s.qn_eq i]
  nth_rw 1 [s.hv]
  rw [inner_add_left, inner_smul_left, inner_smul_left]
  simp only [conj_trivial]
  field_simp
  ring

/-- the image of the new direction in the third basis -/
theorem Ahbn : Ab (hbn ρl ρbl sb ρ h hb) = (ρ * hyp (cb * ρ) θ / rdn cb sb rd ρ θ) • mn rd sb ρ m w := by
  have h1 := s.ρl0.ne'
  have h2 := s.ρbl0.ne'
  have h3 := s.rd0.ne'
  have h4 := (s.rb0 i).ne'
  have h5 := (s.rh0 i).ne'
  unfold hbn
  rw [map_sub, map_smul, s.Ahb, i.Ah, smul_smul]
  have e1 : sb * ρ * ρ / (ρl * ρbl) * (ρl * ρbl / rd) = sb * ρ * ρ / rd := by field_simp
  have e2 : ρ * hyp (cb * ρ) θ / rdn cb sb rd ρ θ = ρ * hyp rd (sb * ρ) / rd := by
    unfold rdn
    generalize hyp (cb * ρ) θ = r1 at *
    generalize hyp rd (sb * ρ) = r2 at *
    field_simp
  rw [e1, e2]
  unfold mn
  rw [smul_add, smul_smul, smul_smul]
  have e3 : ρ * hyp rd (sb * ρ) / rd * -(sb * ρ / hyp rd (sb * ρ)) = -(sb * ρ * ρ / rd) := by
    generalize hyp rd (sb * ρ) = r2 at *
    field_simp
  have e4 : ρ * hyp rd (sb * ρ) / rd * (rd / hyp rd (sb * ρ)) = ρ := by
    generalize hyp rd (sb * ρ) = r2 at *
    field_simp
  rw [e3, e4, neg_smul]
  abel

/-- the residual of the normal equations -/
theorem nresn (z : E) : ⟪bb - Ab (yn cb ζb ρ θ y (hbn ρl ρbl sb ρ h hb)), Ab z⟫ =
    -(θ / hyp (cb * ρ) θ) * ζb * ⟪Pn cb ρ θ P v', z⟫ := by
  have h1 := i.ρ0.ne'
  have h4 := (s.rb0 i).ne'
  have e1 : bb - Ab (yn cb ζb ρ θ y (hbn ρl ρbl sb ρ h hb)) = (bb - Ab y) -
      (cb * ρ / hyp (cb * ρ) θ * ζb / (ρ * hyp (cb * ρ) θ)) • Ab (hbn ρl ρbl sb ρ h hb) := by
    unfold yn
    rw [map_add, map_smul]; abel
  rw [e1, inner_sub_left, inner_smul_left, s.nres, s.Thbn i]
  unfold qn Pn
  rw [inner_add_left, inner_add_left, inner_smul_left, inner_smul_left, inner_smul_left, inner_smul_left]
  simp only [conj_trivial]
  have h2 := hyp_sq (cb * ρ) θ
  field_simp
  linear_combination ζb * ⟪P, z⟫ * h2

/-- the part of the residual in the image of the search space vanishes but for one component -/
theorem key : rd * δ + sb * ρ * βh = 0 := by
  have h1 : ⟪bb - Ab y, Ab q⟫ = 0 := by rw [s.nres, s.Pq, mul_zero]
  have h2 : ⟪bb - Ab y, w⟫ = βh := by
    rw [s.resid, i.G, inner_add_left, inner_smul_left, i.mw, inner_add_left, inner_smul_left, i.ww, real_inner_comm w G', i.wG]
    simp
  rw [s.Aq, inner_add_right, inner_smul_right, inner_smul_right, s.rW, i.Ah, inner_smul_right, h2] at h1
  linarith

theorem mnmn : ⟪mn rd sb ρ m w, mn rd sb ρ m w⟫ = 1 := by
  have h1 := s.rot2 i
  unfold mn
  simp only [inner_add_left, inner_add_right, inner_smul_left, inner_smul_right, i.mw, real_inner_comm m w, i.ww, conj_trivial]
  by_cases h0 : sb = 0
  · rw [h0] at h1 ⊢
    simp only [zero_mul, zero_div, mul_zero, neg_zero, add_zero, zero_add] at h1 ⊢
    linarith
  · rw [s.mm h0]
    linarith

theorem mnG : ⟪mn rd sb ρ m w, G'⟫ = 0 := by
  unfold mn
  rw [inner_add_left, inner_smul_left, inner_smul_left, i.mG', i.wG]; simp

/-- the new residual -/
theorem residn : bb - Ab (yn cb ζb ρ θ y (hbn ρl ρbl sb ρ h hb)) = δn cb sb ζb rd δ ρ θ βh • mn rd sb ρ m w + G' := by
  have h1 := i.ρ0.ne'
  have h4 := (s.rb0 i).ne'
  have h5 := (s.rh0 i).ne'
  have h6 := (s.rdn0 i (θ := θ)).ne'
  have e1 : bb - Ab (yn cb ζb ρ θ y (hbn ρl ρbl sb ρ h hb)) = (bb - Ab y) -
      (cb * ρ / hyp (cb * ρ) θ * ζb / (ρ * hyp (cb * ρ) θ)) • Ab (hbn ρl ρbl sb ρ h hb) := by
    unfold yn
    rw [map_add, map_smul]; abel
  have e2 : cb * ρ / hyp (cb * ρ) θ * ζb / (ρ * hyp (cb * ρ) θ) * (ρ * hyp (cb * ρ) θ / rdn cb sb rd ρ θ) =
      cb * ρ / hyp (cb * ρ) θ * ζb / rdn cb sb rd ρ θ := by field_simp
  rw [e1, s.resid, i.G, s.Ahbn i, smul_smul, e2]
  unfold δn
  rw [sub_smul]
  have hk := s.key i
  have hr := s.rot2 i
  set c := rd / hyp rd (sb * ρ)
  set t := sb * ρ / hyp rd (sb * ρ)
  have hct : c * δ + t * βh = 0 := by
    have : c * δ + t * βh = (rd * δ + sb * ρ * βh) / hyp rd (sb * ρ) := by simp only [c, t]; ring
    rw [this, hk, zero_div]
  have e3 : δ • m + βh • w = (-t * δ + c * βh) • mn rd sb ρ m w := by
    unfold mn
    change δ • m + βh • w = (-t * δ + c * βh) • (-t • m + c • w)
    have a1 : (-t * δ + c * βh) * -t = δ := by linear_combination δ * hr - c * hct
    have a2 : (-t * δ + c * βh) * c = βh := by linear_combination βh * hr - t * hct
    rw [smul_add, smul_smul, smul_smul, a1, a2]
  have e4 : δ • m + (βh • w + G') = (δ • m + βh • w) + G' := by abel
  rw [e4, e3]
  abel

/-- the squared norm of the new residual -/
theorem rr : ⟪bb - Ab (yn cb ζb ρ θ y (hbn ρl ρbl sb ρ h hb)), bb - Ab (yn cb ζb ρ θ y (hbn ρl ρbl sb ρ h hb))⟫ =
    δn cb sb ζb rd δ ρ θ βh * δn cb sb ζb rd δ ρ θ βh + ⟪G', G'⟫ := by
  rw [s.residn i, inner_add_left, inner_add_right, inner_add_right]
  simp only [inner_smul_left, inner_smul_right, s.mnmn i, s.mnG i, real_inner_comm (mn rd sb ρ m w) G', conj_trivial]
  ring

theorem hbnV (hl : Vs' ≤ Vs) (hh : h ∈ Vs) : hbn ρl ρbl sb ρ h hb ∈ Vs :=
  Submodule.sub_mem _ hh (Submodule.smul_mem _ _ (hl s.hbV))

theorem ynV (hl : Vs' ≤ Vs) (hh : h ∈ Vs) : yn cb ζb ρ θ y (hbn ρl ρbl sb ρ h hb) ∈ Vs :=
  Submodule.add_mem _ (hl s.yV) (Submodule.smul_mem _ _ (s.hbnV i hl hh))

/-- the new residual of the normal equations is orthogonal to the image of the search space -/
theorem minn (hVs : Vs = Vs' ⊔ Submodule.span ℝ {v}) (hv' : ∀ z ∈ Vs, ⟪v', z⟫ = 0) (hv1 : ⟪v', v'⟫ = 1)
    (hTV : ∀ z ∈ Vs', ∀ x, (∀ y ∈ Vs, ⟪x, y⟫ = 0) → ⟪Ab x, Ab z⟫ = 0) (hh : h ∈ Vs) (hhv : h - v ∈ Vs') :
    ∀ z ∈ Vs, ⟪Ab (Pn cb ρ θ P v'), Ab z⟫ = 0 := by
  have h4 := (s.rb0 i).ne'
  -- in the old search space
  have h1 : ∀ z ∈ Vs', ⟪Ab (Pn cb ρ θ P v'), Ab z⟫ = 0 := by
    intro z hz
    unfold Pn
    rw [map_add, map_smul, map_smul, inner_add_left, inner_smul_left, inner_smul_left, s.minP z hz, hTV z hz v' hv']
    simp
  -- in the new direction
  have h2 : ⟪Ab (Pn cb ρ θ P v'), Ab (hbn ρl ρbl sb ρ h hb)⟫ = 0 := by
    rw [real_inner_comm, s.Thbn i]
    have hPv : ⟪P, v'⟫ = 0 := by rw [real_inner_comm]; exact hv' P s.PV
    unfold Pn qn
    simp only [inner_add_left, inner_add_right, inner_smul_left, inner_smul_right, hPv, hv' P s.PV, s.PP, hv1, conj_trivial]
    ring
  -- together
  intro z hz
  rw [hVs] at hz
  obtain ⟨z', hz', c, hc, rfl⟩ := Submodule.mem_sup.1 hz
  obtain ⟨t, rfl⟩ := Submodule.mem_span_singleton.1 hc
  have e1 : v = hbn ρl ρbl sb ρ h hb + ((sb * ρ * ρ / (ρl * ρbl)) • hb - (h - v)) := by unfold hbn; abel
  have h3 : ⟪Ab (Pn cb ρ θ P v'), Ab v⟫ = 0 := by
    rw [e1, map_add, inner_add_right, h2, h1 _ (Submodule.sub_mem _ (Submodule.smul_mem _ _ s.hbV) hhv), add_zero]
  rw [map_add, map_smul, inner_add_right, inner_smul_right, h1 z' hz', h3, mul_zero, add_zero]

/-- the state after an iteration that does not end the process -/
theorem step (hVs : Vs = Vs' ⊔ Submodule.span ℝ {v}) (hv' : ∀ z ∈ Vs, ⟪v', z⟫ = 0) (hv1 : ⟪v', v'⟫ = 1)
    (hTV : ∀ z ∈ Vs', ∀ x, (∀ y ∈ Vs, ⟪x, y⟫ = 0) → ⟪Ab x, Ab z⟫ = 0) (hh : h ∈ Vs) (hhv : h - v ∈ Vs') :
    MR Ab bb (Vs ⊔ Submodule.span ℝ {v'}) Vs (yn cb ζb ρ θ y (hbn ρl ρbl sb ρ h hb)) (hbn ρl ρbl sb ρ h hb) (Pn cb ρ θ P v')
      (qn cb ρ θ P v') ((-θ / ρ) • h + v') v' (mn rd sb ρ m w) w G' (cb * ρ / hyp (cb * ρ) θ) (θ / hyp (cb * ρ) θ)
      (-(θ / hyp (cb * ρ) θ) * ζb) (rdn cb sb rd ρ θ) (δn cb sb ζb rd δ ρ θ βh) ρ (hyp (cb * ρ) θ) := by
  have hl : Vs' ≤ Vs := by rw [hVs]; exact le_sup_left
  have h0 := i.ρ0.ne'
  have h4 := (s.rb0 i).ne'
  have h5 := (s.rh0 i).ne'
  have h6 := (s.rdn0 i (θ := θ)).ne'
  have hr := s.rot1 i (θ := θ)
  have hPv : ⟪P, v'⟫ = 0 := by rw [real_inner_comm]; exact hv' P s.PV
  have hvP := hv' P s.PV
  have mv : v' ∈ Vs ⊔ Submodule.span ℝ {v'} := Submodule.mem_sup_right (Submodule.mem_span_singleton_self _)
  have mP : P ∈ Vs ⊔ Submodule.span ℝ {v'} := Submodule.mem_sup_left s.PV
  have hAh' : Ab ((-θ / ρ) • h + v') = Ab v' - θ • w := by
    rw [map_add, map_smul, i.Ah, smul_smul]
    have : -θ / ρ * ρ = -θ := by field_simp
    rw [this, neg_smul]; abel
  have hAP : Ab P = (cb * ρ) • w := by rw [s.AP, i.Ah, smul_smul]
  refine
    { c0 := div_pos (s.rt0 i) (s.rb0 i)
      rd0 := s.rdn0 i
      ρl0 := i.ρ0
      ρbl0 := s.rb0 i
      hv := ?_
      PP := ?_
      Pq := ?_
      PV := Submodule.add_mem _ (Submodule.smul_mem _ _ mP) (Submodule.smul_mem _ _ mv)
      qV := Submodule.add_mem _ (Submodule.smul_mem _ _ mP) (Submodule.smul_mem _ _ mv)
      yV := s.ynV i hl hh
      hbV := s.hbnV i hl hh
      nres := s.nresn i
      AP := ?_
      Aq := ?_
      Ahb := s.Ahbn i
      Thb := s.Thbn i
      resid := s.residn i
      mG := s.mnG i
      mm := fun _ => s.mnmn i
      rW := ?_
      minP := s.minn i hVs hv' hv1 hTV hh hhv }
  · unfold qn Pn
    set c := cb * ρ / hyp (cb * ρ) θ
    set t := θ / hyp (cb * ρ) θ
    have : t • (c • P + t • v') + c • (-t • P + c • v') = (c * c + t * t) • v' := by module
    rw [this, hr, one_smul]
  · unfold Pn
    simp only [inner_add_left, inner_add_right, inner_smul_left, inner_smul_right, hPv, hvP, s.PP, hv1, conj_trivial]
    linear_combination hr
  · unfold Pn qn
    simp only [inner_add_left, inner_add_right, inner_smul_left, inner_smul_right, hPv, hvP, s.PP, hv1, conj_trivial]
    ring
  · rw [hAh']
    unfold Pn
    rw [map_add, map_smul, map_smul, hAP, smul_smul, smul_sub, smul_smul]
    have : -(θ / hyp (cb * ρ) θ) * (cb * ρ) = -(cb * ρ / hyp (cb * ρ) θ * θ) := by ring
    rw [this, neg_smul]; abel
  · rw [hAh']
    unfold qn
    rw [map_add, map_smul, map_smul, hAP, smul_smul, smul_sub, smul_smul]
    have : cb * ρ / hyp (cb * ρ) θ * (cb * ρ) = hyp (cb * ρ) θ - θ / hyp (cb * ρ) θ * θ := by
      have h2 := hyp_sq (cb * ρ) θ
      field_simp; linarith
    rw [this, sub_smul]; abel
  · have h7 : ⟪mn rd sb ρ m w, w⟫ = rd / hyp rd (sb * ρ) := by
      unfold mn
      rw [inner_add_left, inner_smul_left, inner_smul_left, i.mw, i.ww]; simp
    rw [s.residn i, inner_add_left, inner_smul_left, h7, real_inner_comm w G', i.wG]
    unfold rdn
    simp only [conj_trivial]
    ring

/-- the norm of the residual of the normal equations, if the process does not end -/
theorem PnPn (hPv : ⟪P, v'⟫ = 0) (hv1 : ⟪v', v'⟫ = 1) : ⟪Pn cb ρ θ P v', Pn cb ρ θ P v'⟫ = 1 := by
  have hr := s.rot1 i (θ := θ)
  unfold Pn
  simp only [inner_add_left, inner_add_right, inner_smul_left, inner_smul_right, hPv, real_inner_comm P v', s.PP, hv1, conj_trivial]
  linear_combination hr

end

/-- the state before the first iteration -/
theorem start {v : E} {ζ : ℝ} (hvv : ⟪v, v⟫ = 1) (hb : ∀ z, ⟪bb, Ab z⟫ = ζ * ⟪v, z⟫) :
    MR Ab bb (⊥ ⊔ Submodule.span ℝ {v}) ⊥ 0 0 v 0 v v 0 0 bb 1 0 ζ 1 0 1 1 := by
  have mv : v ∈ ⊥ ⊔ Submodule.span ℝ {v} := Submodule.mem_sup_right (Submodule.mem_span_singleton_self _)
  refine ⟨one_pos, one_pos, one_pos, one_pos, by simp, hvv, by simp, mv, Submodule.zero_mem _, Submodule.zero_mem _,
    Submodule.zero_mem _, fun z => by simpa using hb z, by simp, by simp, by simp, by simp, by simp, by simp, fun h => absurd rfl h,
    by simp, fun z hz => ?_⟩
  rw [Submodule.mem_bot] at hz
  simp [hz]

end MR

end Verif.Solver.LsmrMath
