import Verif.Solver.CGMath
import Mathlib.Tactic.Module

/-!
# Specification: the BFGS updates (Nocedal & Wright, *Numerical Optimization*, (6.17) and (6.19)), and their properties
-/

namespace Verif.Lbfgs
open scoped RealInnerProductSpace
open Verif.Solver.CGMath (SPD)

variable {E : Type} [NormedAddCommGroup E] [InnerProductSpace ℝ E]

/-- **Specification**: the inverse BFGS update `(I - ρ s y') H (I - ρ y s') + ρ s s'` with `ρ = 1 / y's`. -/
noncomputable def bfgsInv (H : E →ₗ[ℝ] E) (s y : E) : E →ₗ[ℝ] E :=
  let ρ := 1 / ⟪y, s⟫
  let left : E →ₗ[ℝ] E := LinearMap.id - ρ • (innerₛₗ ℝ y).smulRight s
  let right : E →ₗ[ℝ] E := LinearMap.id - ρ • (innerₛₗ ℝ s).smulRight y
  left ∘ₗ H ∘ₗ right + ρ • (innerₛₗ ℝ s).smulRight s

/-- **Specification**: the BFGS update `B - B s s' B / s'Bs + y y' / y's`. -/
noncomputable def bfgs (B : E →ₗ[ℝ] E) (s y : E) : E →ₗ[ℝ] E :=
  B - (1 / ⟪s, B s⟫) • ((innerₛₗ ℝ s) ∘ₗ B).smulRight (B s) + (1 / ⟪y, s⟫) • (innerₛₗ ℝ y).smulRight y

/-- **Specification**: the inverse BFGS matrix for a list of pairs, most recent first, from `γ I`. -/
noncomputable def invMat (γ : ℝ) : List (E × E) → (E →ₗ[ℝ] E)
  | [] => γ • LinearMap.id
  | p :: P => bfgsInv (invMat γ P) p.1 p.2

/-- **Specification**: the BFGS matrix for a list of pairs, most recent first, from `(1/γ) I`. -/
noncomputable def fwdMat (γ : ℝ) : List (E × E) → (E →ₗ[ℝ] E)
  | [] => γ⁻¹ • LinearMap.id
  | p :: P => bfgs (fwdMat γ P) p.1 p.2

/-- **Specification**: the scaling factor `y's / y'y` of the most recent pair (1 without scaling or without pairs) -/
noncomputable def scaleFactor (scaling : Bool) : List (E × E) → ℝ
  | [] => 1
  | p :: _ => if scaling then ⟪p.2, p.1⟫ / ⟪p.2, p.2⟫ else 1

/-- all pairs have positive curvature -/
def Curv (P : List (E × E)) : Prop := ∀ p ∈ P, 0 < ⟪p.2, p.1⟫

theorem bfgsInv_apply (H : E →ₗ[ℝ] E) (s y x : E) : bfgsInv H s y x =
    H (x - (⟪s, x⟫ / ⟪y, s⟫) • y) + (⟪s, x⟫ / ⟪y, s⟫ - ⟪y, H (x - (⟪s, x⟫ / ⟪y, s⟫) • y)⟫ / ⟪y, s⟫) • s := by
  have e : x - (1 / ⟪y, s⟫) • ⟪s, x⟫ • y = x - (⟪s, x⟫ / ⟪y, s⟫) • y := by
    rw [smul_smul]; congr 2; ring
  simp only [bfgsInv, LinearMap.add_apply, LinearMap.comp_apply, LinearMap.sub_apply, LinearMap.id_apply,
    LinearMap.smul_apply, LinearMap.smulRight_apply, innerₛₗ_apply_apply, e]
  set w := H (x - (⟪s, x⟫ / ⟪y, s⟫) • y)
  rw [smul_smul, smul_smul, sub_smul, div_eq_inv_mul ⟪s, x⟫, div_eq_inv_mul ⟪y, w⟫, one_div]
  abel

theorem bfgs_apply (B : E →ₗ[ℝ] E) (s y x : E) : bfgs B s y x =
    B x - (⟪s, B x⟫ / ⟪s, B s⟫) • B s + (⟪y, x⟫ / ⟪y, s⟫) • y := by
  simp only [bfgs, LinearMap.add_apply, LinearMap.sub_apply, LinearMap.comp_apply,
    LinearMap.smul_apply, LinearMap.smulRight_apply, innerₛₗ_apply_apply, smul_smul]
  rw [div_eq_inv_mul ⟪s, B x⟫, div_eq_inv_mul ⟪y, x⟫, one_div, one_div]

theorem bfgsInv_spd {H : E →ₗ[ℝ] E} (hH : SPD H) {s y : E} (hc : 0 < ⟪y, s⟫) : SPD (bfgsInv H s y) := by
  have key : ∀ x z, ⟪bfgsInv H s y x, z⟫ =
      ⟪H (x - (⟪s, x⟫ / ⟪y, s⟫) • y), z - (⟪s, z⟫ / ⟪y, s⟫) • y⟫ + ⟪s, x⟫ * ⟪s, z⟫ / ⟪y, s⟫ := by
    intro x z
    rw [bfgsInv_apply]
    set w := H (x - (⟪s, x⟫ / ⟪y, s⟫) • y)
    simp only [inner_add_left, inner_sub_right, real_inner_smul_left, real_inner_smul_right]
    rw [real_inner_comm y w]
    ring
  constructor
  · intro u v
    rw [key, real_inner_comm (bfgsInv H s y v) u, key, hH.symm, real_inner_comm]
    ring
  · intro u hu
    rw [real_inner_comm, key, real_inner_comm]
    by_cases h0 : u - (⟪s, u⟫ / ⟪y, s⟫) • y = 0
    · rw [h0, inner_zero_left, zero_add]
      have hs : ⟪s, u⟫ ≠ 0 := by
        intro hs
        rw [hs, zero_div, zero_smul, sub_zero] at h0
        exact hu h0
      have := mul_self_pos.2 hs
      positivity
    · have h1 := hH.pos _ h0
      have h2 : 0 ≤ ⟪s, u⟫ * ⟪s, u⟫ / ⟪y, s⟫ := div_nonneg (mul_self_nonneg _) hc.le
      linarith

theorem bfgsInv_secant (H : E →ₗ[ℝ] E) {s y : E} (hc : 0 < ⟪y, s⟫) : bfgsInv H s y y = s := by
  rw [bfgsInv_apply, real_inner_comm y s, div_self hc.ne']
  simp

theorem bfgs_secant (B : E →ₗ[ℝ] E) {s y : E} (hB : ⟪s, B s⟫ ≠ 0) (hc : 0 < ⟪y, s⟫) : bfgs B s y s = y := by
  rw [bfgs_apply, div_self hc.ne', div_self hB]
  simp

theorem pos_ne_zero {s y : E} (hc : 0 < ⟪y, s⟫) : s ≠ 0 := by
  rintro rfl; simp at hc

theorem bfgs_spd {B : E →ₗ[ℝ] E} (hB : SPD B) {s y : E} (hc : 0 < ⟪y, s⟫) : SPD (bfgs B s y) := by
  have hsb : 0 < ⟪s, B s⟫ := hB.pos s (pos_ne_zero hc)
  constructor
  · intro u v
    rw [bfgs_apply, bfgs_apply]
    simp only [inner_add_left, inner_add_right, inner_sub_left, inner_sub_right, real_inner_smul_left, real_inner_smul_right]
    rw [hB.symm u v, hB.symm s v, real_inner_comm y u]
    have : ⟪u, B s⟫ = ⟪s, B u⟫ := by rw [← hB.symm, real_inner_comm]
    rw [this]
    ring
  · intro u hu
    set c := ⟪s, B u⟫ / ⟪s, B s⟫ with hcdef
    have hus : ⟪u, B s⟫ = ⟪s, B u⟫ := by rw [← hB.symm, real_inner_comm]
    have e : ⟪u, bfgs B s y u⟫ = ⟪u - c • s, B (u - c • s)⟫ + ⟪y, u⟫ * ⟪y, u⟫ / ⟪y, s⟫ := by
      rw [bfgs_apply]
      simp only [map_sub, map_smul, inner_add_right, inner_sub_left, inner_sub_right, real_inner_smul_left, real_inner_smul_right]
      rw [real_inner_comm y u, hus, ← hcdef]
      have hc2 : ⟪s, B u⟫ = c * ⟪s, B s⟫ := by rw [hcdef, div_mul_cancel₀ _ hsb.ne']
      rw [hc2]; ring
    rw [e]
    by_cases h0 : u - c • s = 0
    · rw [h0, inner_zero_left, zero_add]
      have hu' : u = c • s := sub_eq_zero.1 h0
      have hc0 : c ≠ 0 := by rintro h; rw [h, zero_smul] at hu'; exact hu hu'
      have : ⟪y, u⟫ ≠ 0 := by rw [hu', real_inner_smul_right]; exact mul_ne_zero hc0 hc.ne'
      have := mul_self_pos.2 this
      positivity
    · have h1 := hB.pos _ h0
      have h2 : 0 ≤ ⟪y, u⟫ * ⟪y, u⟫ / ⟪y, s⟫ := div_nonneg (mul_self_nonneg _) hc.le
      linarith

theorem bfgs_bfgsInv {B H : E →ₗ[ℝ] E} (hB : SPD B) (hBH : ∀ x, B (H x) = x) {s y : E} (hc : 0 < ⟪y, s⟫) (x : E) :
    bfgs B s y (bfgsInv H s y x) = x := by
  have hsb : 0 < ⟪s, B s⟫ := hB.pos s (pos_ne_zero hc)
  rw [bfgs_apply, bfgsInv_apply]
  set u := x - (⟪s, x⟫ / ⟪y, s⟫) • y with hu
  set c := ⟪s, x⟫ / ⟪y, s⟫ - ⟪y, H u⟫ / ⟪y, s⟫ with hcd
  have h1 : B (H u + c • s) = u + c • B s := by rw [map_add, map_smul, hBH]
  have h2 : ⟪s, u⟫ = 0 := by
    rw [hu, inner_sub_right, real_inner_smul_right, real_inner_comm y s, div_mul_cancel₀ _ hc.ne', sub_self]
  have h3 : ⟪y, H u + c • s⟫ = ⟪s, x⟫ := by
    rw [inner_add_right, real_inner_smul_right, hcd]; field_simp; ring
  rw [h1, inner_add_right, h2, real_inner_smul_right, zero_add, mul_div_cancel_right₀ _ hsb.ne', h3, hu]
  abel

theorem smul_id_spd {γ : ℝ} (hγ : 0 < γ) : SPD (γ • LinearMap.id : E →ₗ[ℝ] E) := by
  constructor
  · intro u v; simp only [LinearMap.smul_apply, LinearMap.id_apply, real_inner_smul_left, real_inner_smul_right]
  · intro u hu
    simp only [LinearMap.smul_apply, LinearMap.id_apply, real_inner_smul_right]
    exact mul_pos hγ (real_inner_self_pos.2 hu)

theorem invMat_spd {γ : ℝ} (hγ : 0 < γ) : ∀ {P : List (E × E)}, Curv P → SPD (invMat γ P)
  | [], _ => smul_id_spd hγ
  | _ :: _, h => bfgsInv_spd (invMat_spd hγ fun q hq => h q (List.mem_cons_of_mem _ hq)) (h _ List.mem_cons_self)

theorem fwdMat_spd {γ : ℝ} (hγ : 0 < γ) : ∀ {P : List (E × E)}, Curv P → SPD (fwdMat γ P)
  | [], _ => smul_id_spd (inv_pos.2 hγ)
  | _ :: _, h => bfgs_spd (fwdMat_spd hγ fun q hq => h q (List.mem_cons_of_mem _ hq)) (h _ List.mem_cons_self)

theorem fwd_inv {γ : ℝ} (hγ : 0 < γ) : ∀ {P : List (E × E)}, Curv P → ∀ x, fwdMat γ P (invMat γ P x) = x
  | [], _, x => by simp [fwdMat, invMat, smul_smul, mul_inv_cancel₀ hγ.ne']
  | _ :: _, h, x =>
    have h' := fun q hq => h q (List.mem_cons_of_mem _ hq)
    bfgs_bfgsInv (fwdMat_spd hγ h') (fwd_inv hγ h') (h _ List.mem_cons_self) x

theorem SPD.inj {B : E →ₗ[ℝ] E} (hB : SPD B) {x : E} (h : B x = 0) : x = 0 := by
  by_contra h0
  have := hB.pos x h0
  rw [h, inner_zero_right] at this
  exact lt_irrefl _ this

theorem inv_fwd {γ : ℝ} (hγ : 0 < γ) {P : List (E × E)} (h : Curv P) (x : E) : invMat γ P (fwdMat γ P x) = x := by
  have := SPD.inj (fwdMat_spd hγ h) (x := invMat γ P (fwdMat γ P x) - x) (by rw [map_sub, fwd_inv hγ h, sub_self])
  exact sub_eq_zero.1 this

theorem scaleFactor_pos (scaling : Bool) {P : List (E × E)} (h : Curv P) : 0 < scaleFactor scaling P := by
  cases P with
  | nil => exact one_pos
  | cons p P =>
    simp only [scaleFactor]
    split
    · have hc := h p List.mem_cons_self
      have : p.2 ≠ 0 := by intro h0; rw [h0, inner_zero_left] at hc; exact lt_irrefl _ hc
      exact div_pos hc (real_inner_self_pos.2 this)
    · exact one_pos

/-! ### the compact representation -/

open Finset in
/-- If `(p, z)` solves the small system then the compact product is the BFGS product. -/
theorem compact_steps (m : ℕ) (s y : ℕ → E) (B : ℕ → E →ₗ[ℝ] E) (γ : ℝ) (hB0 : B 0 = γ⁻¹ • LinearMap.id)
    (hBs : ∀ j < m, B (j + 1) = bfgs (B j) (s j) (y j)) (hSPD : ∀ j ≤ m, SPD (B j)) (hc : ∀ j < m, 0 < ⟪y j, s j⟫)
    (v : E) (p z : ℕ → ℝ)
    (top : ∀ i < m, ⟪s i, γ⁻¹ • (v - ∑ k ∈ range m, p k • s k) - ∑ l ∈ range i, z l • y l⟫ = 0)
    (bot : ∀ l < m, ⟪y l, v - ∑ k ∈ (range m).filter (l < ·), p k • s k⟫ = -(⟪y l, s l⟫ * z l)) :
    ∀ j ≤ m, γ⁻¹ • (v - ∑ k ∈ range m, p k • s k) - ∑ l ∈ range j, z l • y l =
      B j (v - ∑ k ∈ (range m).filter (j ≤ ·), p k • s k) := by
  intro j
  induction j with
  | zero =>
    intro _
    have : (range m).filter (0 ≤ ·) = range m := by simp
    rw [this, hB0]
    simp
  | succ j ih =>
    intro hj
    have hjm : j < m := hj
    have hw := ih hjm.le
    have hfil : (range m).filter (j ≤ ·) = insert j ((range m).filter (j + 1 ≤ ·)) := by
      ext k; simp only [mem_filter, mem_range, mem_insert]; omega
    have hsplit : v - ∑ k ∈ (range m).filter (j + 1 ≤ ·), p k • s k =
        (v - ∑ k ∈ (range m).filter (j ≤ ·), p k • s k) + p j • s j := by
      rw [hfil, sum_insert (by simp)]; abel
    have hsb : 0 < ⟪s j, B j (s j)⟫ := (hSPD j hjm.le).pos _ (pos_ne_zero (hc j hjm))
    have hb := bot j hjm
    have hlt : (range m).filter (j < ·) = (range m).filter (j + 1 ≤ ·) := rfl
    rw [hlt] at hb
    rw [hBs j hjm, bfgs_apply, hb, hsplit, map_add, map_smul, ← hw, inner_add_right, top j hjm, real_inner_smul_right,
      zero_add, mul_div_cancel_right₀ _ hsb.ne', sum_range_succ, neg_div, mul_comm, mul_div_cancel_right₀ _ (hc j hjm).ne']
    rw [neg_smul]
    abel

open Finset in
/-- The small system is nonsingular. -/
theorem compact_nonsingular (m : ℕ) (s y : ℕ → E) (B : ℕ → E →ₗ[ℝ] E) (γ : ℝ) (hB0 : B 0 = γ⁻¹ • LinearMap.id)
    (hBs : ∀ j < m, B (j + 1) = bfgs (B j) (s j) (y j)) (hSPD : ∀ j ≤ m, SPD (B j)) (hc : ∀ j < m, 0 < ⟪y j, s j⟫)
    (p z : ℕ → ℝ)
    (top : ∀ i < m, ⟪s i, γ⁻¹ • ((0 : E) - ∑ k ∈ range m, p k • s k) - ∑ l ∈ range i, z l • y l⟫ = 0)
    (bot : ∀ l < m, ⟪y l, (0 : E) - ∑ k ∈ (range m).filter (l < ·), p k • s k⟫ = -(⟪y l, s l⟫ * z l)) :
    ∀ j < m, p j = 0 ∧ z j = 0 := by
  have steps := compact_steps m s y B γ hB0 hBs hSPD hc 0 p z top bot
  have key : ∀ d j, j + d = m → (∑ k ∈ (range m).filter (j ≤ ·), p k • s k) = 0 ∧ ∀ i, j ≤ i → i < m → p i = 0 ∧ z i = 0 := by
    intro d
    induction d with
    | zero =>
      intro j hj
      have : (range m).filter (j ≤ ·) = ∅ := by ext k; simp; omega
      rw [this, sum_empty]
      exact ⟨rfl, fun i h1 h2 => by omega⟩
    | succ d ih =>
      intro j hj
      have hjm : j < m := by omega
      obtain ⟨i1, i2⟩ := ih (j + 1) (by omega)
      have hz : z j = 0 := by
        have hb := bot j hjm
        have hlt : (range m).filter (j < ·) = (range m).filter (j + 1 ≤ ·) := rfl
        rw [hlt, i1, sub_zero, inner_zero_right] at hb
        have : ⟪y j, s j⟫ * z j = 0 := by linarith
        exact (mul_eq_zero.1 this).resolve_left (hc j hjm).ne'
      have hw := steps (j + 1) hjm
      rw [i1, sub_zero, map_zero, sum_range_succ, hz, zero_smul, add_zero, steps j hjm.le] at hw
      have hv := SPD.inj (hSPD j hjm.le) hw
      have hfil : (range m).filter (j ≤ ·) = insert j ((range m).filter (j + 1 ≤ ·)) := by
        ext k; simp only [mem_filter, mem_range, mem_insert]; omega
      have hsum : (∑ k ∈ (range m).filter (j ≤ ·), p k • s k) = 0 := by simpa using hv
      have hp : p j = 0 := by
        rw [hfil, sum_insert (by simp), i1, add_zero] at hsum
        exact (smul_eq_zero.1 hsum).resolve_right (pos_ne_zero (hc j hjm))
      refine ⟨hsum, fun i h1 h2 => ?_⟩
      rcases Nat.eq_or_lt_of_le h1 with e | e
      · subst e; exact ⟨hp, hz⟩
      · exact i2 i e h2
  intro j hj
  exact (key m 0 (by omega)).2 j (Nat.zero_le _) hj

end Verif.Lbfgs
