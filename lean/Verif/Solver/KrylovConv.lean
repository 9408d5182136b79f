import Verif.Solver.FopMath
import Verif.Solver.KrylovProps
import Verif.Solver.TFQMRProps

/-!
# Finite termination of CGS, Bi-CGSTAB and TFQMR in exact arithmetic: lemmas for C55
-/

namespace Verif.Solver
open Scalar Vect Polynomial
open scoped RealInnerProductSpace

variable {E : Type} [NormedAddCommGroup E] [InnerProductSpace ℝ E]

theorem Fl.fin_div_zero (a : ℝ) : Fl.fin a / Fl.fin 0 = Fl.nan := by change Fl.div _ _ = _; simp [Fl.div]

/-- the operator with a linear preconditioner on the right -/
def rightPrecon (A : E →ₗ[ℝ] E) : Option (E →ₗ[ℝ] E) → E →ₗ[ℝ] E
  | none => A
  | some k => A ∘ₗ k

/-- a linear preconditioner as an operator on exact vectors -/
def linPrecon (K : Option (E →ₗ[ℝ] E)) : Option (Vec E → Vec E) := K.map fun k => Vec.op k

theorem op_precon_fin (A : E →ₗ[ℝ] E) (K : Option (E →ₗ[ℝ] E)) (v : E) :
    Vec.op A (applyPrecon (linPrecon K) (.fin v)) = .fin (rightPrecon A K v) := by cases K <;> rfl

theorem op_precon_nan (A : E →ₗ[ℝ] E) (K : Option (E →ₗ[ℝ] E)) :
    Vec.op A (applyPrecon (linPrecon K) .nan) = .nan := by cases K <;> rfl

section CGS
variable {A : E →ₗ[ℝ] E} {K : Option (E →ₗ[ℝ] E)} {c : E} {t : ℝ} {mm n : ℕ}

/-- a running CGS iteration without breakdown -/
def CgsGood (B : E →ₗ[ℝ] E) (c : E) (j : ℕ) (s : CGSLoop Fl (Vec E)) : Prop :=
  ∃ φ ψ, CgsPoly B c j φ ψ ∧ Hist B c j ∧ s.r = .fin (polyAt B c (φ * φ)) ∧ s.u = .fin (polyAt B c (φ * ψ)) ∧
    s.p = .fin (polyAt B c (ψ * ψ)) ∧ s.rho = .fin (moment B c (φ * φ)) ∧ s.nMatvec = 2 * j ∧ polyAt B c φ ≠ 0

/-- a zero denominator occurs although the residual has not vanished -/
def CgsBreakdown (B : E →ₗ[ℝ] E) (c : E) : Prop :=
  ∃ j φ ψ, CgsPoly B c j φ ψ ∧ polyAt B c φ ≠ 0 ∧ (moment B c (φ * φ) = 0 ∨ moment B c (ψ * (X * ψ)) = 0)

/-- invariant of the loop: running, broken down, or finished -/
def CgsInv (B : E →ₗ[ℝ] E) (c : E) (t : ℝ) (n : ℕ) (s : CGSLoop Fl (Vec E)) : Prop :=
  (s.finished = false ∧ ∃ j < n, CgsGood B c j s) ∨
  (CgsBreakdown B c ∧ s.finished = false ∧ s.p = .nan) ∨
  (s.finished = true ∧ ((le s.residNorm (.fin t) = true ∧ s.nMatvec ≤ 2 * n) ∨ (CgsBreakdown B c ∧ s.residNorm = .nan)))

theorem cgsStep_broken (s : CGSLoop Fl (Vec E)) (T : Fl)
    (h : s.rho / dot (.fin c) (Vec.op A (applyPrecon (linPrecon K) s.p)) = .nan) :
    let s' := cgsStep (Vec.op A) (linPrecon K) T mm (.fin c) s
    (s'.finished = false ∧ s'.p = .nan) ∨ (s'.finished = true ∧ s'.residNorm = .nan) := by
  unfold cgsStep
  simp only [h, Vec.nan_smul, Vec.sub_nan, Vec.norm_nan, Fl.nan_le, Bool.false_or]
  split
  · exact Or.inr ⟨rfl, rfl⟩
  · refine Or.inl ⟨rfl, ?_⟩
    simp

theorem cgsStep_good [FiniteDimensional ℝ E] (hn : Confined (rightPrecon A K) c n) (ht : 0 ≤ t) (hm : 2 * n ≤ mm)
    (s : CGSLoop Fl (Vec E)) {j : ℕ} (hj : j < n) (hg : CgsGood (rightPrecon A K) c j s) :
    CgsInv (rightPrecon A K) c t n (cgsStep (Vec.op A) (linPrecon K) (.fin t) mm (.fin c) s) := by
  obtain ⟨φ, ψ, hP, hH, hr, hu, hp, hρ, hk, hne⟩ := hg
  obtain ⟨B, hB⟩ : ∃ B, B = rightPrecon A K := ⟨_, rfl⟩
  rw [← hB] at hn hP hH hr hu hp hρ hne ⊢
  have hσ : dot (.fin c) (Vec.op A (applyPrecon (linPrecon K) s.p)) = Fl.fin (moment B c (ψ * (X * ψ))) := by
    rw [hp, op_precon_fin, ← hB, ← polyAt_X_mul, Vec.fin_dot, show X * (ψ * ψ) = ψ * (X * ψ) by ring]; rfl
  by_cases h0 : moment B c (ψ * (X * ψ)) = 0
  · have := cgsStep_broken (A := A) (K := K) (c := c) (mm := mm) s (.fin t) (by rw [hσ, h0, hρ, Fl.fin_div_zero])
    have hb : CgsBreakdown B c := ⟨j, φ, ψ, hP, hne, Or.inr h0⟩
    rcases this with h | h
    · exact Or.inr (Or.inl ⟨hb, h⟩)
    · exact Or.inr (Or.inr ⟨h.1, Or.inr ⟨hb, h.2⟩⟩)
  obtain ⟨α, hα⟩ : ∃ α, α = moment B c (φ * φ) / moment B c (ψ * (X * ψ)) := ⟨_, rfl⟩
  have hα' : α * moment B c (ψ * (X * ψ)) = moment B c (φ * φ) := by rw [hα]; field_simp
  obtain ⟨φ', hφ'⟩ : ∃ φ', φ' = φ - C α * (X * ψ) := ⟨_, rfl⟩
  have hq : s.u - smul (Fl.fin α) (Vec.op A (applyPrecon (linPrecon K) s.p)) = .fin (polyAt B c (φ' * ψ)) := by
    rw [hp, hu, op_precon_fin, ← hB, ← polyAt_X_mul, Vec.fin_smul, Vec.fin_sub, ← polyAt_C_mul, ← polyAt_sub, hφ']
    congr 2; ring
  have hr' : s.r - smul (Fl.fin α) (Vec.op A (applyPrecon (linPrecon K) (s.u + .fin (polyAt B c (φ' * ψ))))) =
      .fin (polyAt B c (φ' * φ')) := by
    rw [hu, hr, Vec.fin_add, op_precon_fin, ← hB, ← polyAt_add, ← polyAt_X_mul, Vec.fin_smul, Vec.fin_sub, ← polyAt_C_mul,
      ← polyAt_sub, hφ']
    congr 2; ring
  unfold cgsStep
  simp only [hσ, hρ, Fl.fin_div _ h0, ← hα, hq, hr', Vec.fin_norm, Vec.fin_dot]
  by_cases hle : ‖polyAt B c (φ' * φ')‖ ≤ t
  · rw [if_pos (by simp [hle])]
    refine Or.inr (Or.inr ⟨rfl, Or.inl ⟨?_, ?_⟩⟩)
    · simpa using hle
    · change s.nMatvec + 2 ≤ 2 * n
      omega
  have hne' : polyAt B c φ' ≠ 0 := by
    intro h
    apply hle
    rw [polyAt_mul, h, map_zero, norm_zero]; exact ht
  by_cases hρ0 : moment B c (φ * φ) = 0
  · -- the numerator vanishes: the next direction is undefined
    have hjn : ¬ n ≤ j + 1 := fun h => h0 (hP.lastStep hH (hn.mono h) hρ0)
    rw [if_neg (by simp [hle]; omega)]
    refine Or.inr (Or.inl ⟨⟨j, φ, ψ, hP, hne, Or.inl hρ0⟩, rfl, ?_⟩)
    simp [hρ0, Fl.fin_div_zero]
  have hH' := hP.hist hH hρ0
  have hjn : j + 1 < n := by
    by_contra hge
    refine hne' (hH'.full (hn.mono (by omega)) ?_)
    rw [hφ']; exact hP.orthNext hα'
  rw [if_neg (by simp [hle]; omega)]
  obtain ⟨β, hβ⟩ : ∃ β, β = moment B c (φ' * φ') / moment B c (φ * φ) := ⟨_, rfl⟩
  have hβ' : β * moment B c (φ * φ) = moment B c (φ' * φ') := by rw [hβ]; field_simp
  have hβ2 : Fl.fin ⟪c, polyAt B c (φ' * φ')⟫ / Fl.fin (moment B c (φ * φ)) = .fin β := by
    rw [Fl.fin_div _ hρ0, hβ]; rfl
  refine Or.inl ⟨rfl, j + 1, hjn, φ', φ' + C β * ψ, ?_, hH', rfl, ?_, ?_, rfl, ?_, hne'⟩
  · rw [hφ'] at hβ' ⊢
    exact hP.next hρ0 hα' hβ'
  · simp only [hβ2, Vec.fin_smul, Vec.fin_add, ← polyAt_C_mul, ← polyAt_add]
    congr 2; ring
  · simp only [hβ2, hp, Vec.fin_smul, Vec.fin_add, ← polyAt_C_mul, ← polyAt_add]
    congr 2; ring
  · simp only [hk]; ring

theorem cgsStep_inv [FiniteDimensional ℝ E] (hn : Confined (rightPrecon A K) c n) (ht : 0 ≤ t) (hm : 2 * n ≤ mm)
    (s : CGSLoop Fl (Vec E)) (hs : CgsInv (rightPrecon A K) c t n s) (hf : s.finished = false) :
    CgsInv (rightPrecon A K) c t n (cgsStep (Vec.op A) (linPrecon K) (.fin t) mm (.fin c) s) := by
  rcases hs with ⟨-, j, hj, hg⟩ | ⟨hb, -, hp⟩ | ⟨h, -⟩
  · exact cgsStep_good hn ht hm s hj hg
  · have := cgsStep_broken (A := A) (K := K) (c := c) (mm := mm) s (.fin t) (by
      rw [hp, op_precon_nan, Vec.dot_nan, Fl.div_nan])
    rcases this with h | h
    · exact Or.inr (Or.inl ⟨hb, h⟩)
    · exact Or.inr (Or.inr ⟨h.1, Or.inr ⟨hb, h.2⟩⟩)
  · rw [hf] at h; cases h

/-- the loop of CGS, started with the residual `c` -/
theorem cgsLoop_end [FiniteDimensional ℝ E] (hn : Confined (rightPrecon A K) c n) (ht : 0 ≤ t) (hm : 2 * n ≤ mm)
    (x : Vec E) (calls : List (Vec E)) :
    let s := cgsLoop (Vec.op A) (linPrecon K) (.fin t) mm (.fin c)
      { x := x, r := .fin c, u := .fin c, p := .fin c, rho := .fin ⟪c, c⟫, residNorm := .fin ‖c‖, nMatvec := 0,
        finished := le (Fl.fin ‖c‖) (Fl.fin t) || decide (0 ≥ mm), calls := calls }
    (le s.residNorm (.fin t) = true ∧ s.nMatvec ≤ 2 * n) ∨ (CgsBreakdown (rightPrecon A K) c ∧ s.residNorm = .nan) := by
  have := whileLoop_inv (cont := fun s : CGSLoop Fl (Vec E) => !s.finished)
    (step := cgsStep (Vec.op A) (linPrecon K) (.fin t) mm (.fin c)) (μ := fun s => mm - s.nMatvec) (h := by
        intro s _ h
        have h1 := cgsStep_nMatvec (Vec.op A) (linPrecon K) (.fin t) mm (.fin c) s
        have h2 := h1.2 (by simpa using h)
        omega)
    (CgsInv (rightPrecon A K) c t n) (fun s hs hc => cgsStep_inv hn ht hm s hs (by simpa using hc))
    { x := x, r := .fin c, u := .fin c, p := .fin c, rho := .fin ⟪c, c⟫, residNorm := .fin ‖c‖, nMatvec := 0,
      finished := le (Fl.fin ‖c‖) (Fl.fin t) || decide (0 ≥ mm), calls := calls } ?_
  · obtain ⟨h1, h2⟩ := this
    simp only [Bool.not_eq_false'] at h2
    rcases h1 with ⟨h, -⟩ | ⟨-, h, -⟩ | ⟨-, h⟩
    · rw [h] at h2; cases h2
    · rw [h] at h2; cases h2
    · exact h
  · by_cases hle : ‖c‖ ≤ t
    · exact Or.inr (Or.inr ⟨by simp [hle], Or.inl ⟨by simpa using hle, Nat.zero_le _⟩⟩)
    · have hc : c ≠ 0 := by
        rintro rfl
        exact hle (by rw [norm_zero]; exact ht)
      have hpos : 0 < n := hn.pos hc
      have hlf : le (Fl.fin ‖c‖) (Fl.fin t) = false := by
        rw [← Bool.not_eq_true, Fl.fin_le]; exact hle
      refine Or.inl ⟨by simp only [hlf, Bool.false_or, decide_eq_false_iff_not]; omega, 0, by omega, 1, 1, cgsPoly_zero, hist_zero, ?_, ?_, ?_, ?_, rfl, ?_⟩
      · simp [polyAt_one]
      · simp [polyAt_one]
      · simp [polyAt_one]
      · simp [moment, polyAt_one]
      · rwa [polyAt_one]

theorem cgs_no_breakdown {B : E →ₗ[ℝ] E} {c : E} (hs : ∀ u v : E, ⟪B u, v⟫ = ⟪u, B v⟫)
    (hp : ∀ u : E, u ≠ 0 → 0 < ⟪u, B u⟫) : ¬ CgsBreakdown B c := by
  rintro ⟨j, φ, ψ, hP, hne, h⟩
  obtain ⟨h1, h2⟩ := hP.posdef hs hp hne
  exact h.elim h1 h2

end CGS

section Bi
variable {A : E →ₗ[ℝ] E} {K : Option (E →ₗ[ℝ] E)} {c : E} {t : ℝ} {mm n : ℕ}

/-- the new direction, `bicgstab.py:86-92` -/
noncomputable def biDir (s : BiLoop Fl (Vec E)) : Vec E :=
  smul (s.rhoNext / s.rho * s.alpha / s.omega) s.p - smul (s.rhoNext / s.rho * s.alpha / s.omega * s.omega) s.v + s.r

/-- a running Bi-CGSTAB iteration without breakdown -/
def BiGood (B : E →ₗ[ℝ] E) (c : E) (j : ℕ) (s : BiLoop Fl (Vec E)) : Prop :=
  ∃ φ ψ χ, BiPoly B c j φ ψ χ ∧ Hist B c j ∧ s.r = .fin (polyAt B c (χ * φ)) ∧
    biDir s = .fin (polyAt B c (χ * ψ)) ∧ s.rhoNext = .fin (moment B c (χ * φ)) ∧ s.nMatvec ≤ 2 * j + 1 ∧
    polyAt B c φ ≠ 0

/-- a zero denominator occurs although the residual has not vanished -/
def BiBreakdown (B : E →ₗ[ℝ] E) (c : E) : Prop :=
  (∃ j φ ψ χ, BiPoly B c j φ ψ χ ∧ polyAt B c φ ≠ 0 ∧ (moment B c (χ * φ) = 0 ∨ moment B c (χ * (X * ψ)) = 0)) ∨
  (∃ u : E, u ≠ 0 ∧ ⟪B u, u⟫ = 0)

/-- invariant of the loop: running, broken down, or finished -/
def BiInv (B : E →ₗ[ℝ] E) (c : E) (t : ℝ) (n : ℕ) (s : BiLoop Fl (Vec E)) : Prop :=
  (s.finished = false ∧ ∃ j < n, BiGood B c j s) ∨ (BiBreakdown B c ∧ s.finished = false ∧ biDir s = .nan) ∨
  (s.finished = true ∧ ((le s.residNorm (.fin t) = true ∧ s.nMatvec ≤ 2 * n) ∨ (BiBreakdown B c ∧ s.residNorm = .nan)))

theorem biDir_nan {s : BiLoop Fl (Vec E)} (h : s.rhoNext / s.rho * s.alpha / s.omega = .nan) : biDir s = .nan := by
  simp [biDir, h]

theorem biStep_broken (s : BiLoop Fl (Vec E)) (T : Fl)
    (h : s.rhoNext / dot (.fin c) (Vec.op A (applyPrecon (linPrecon K) (biDir s))) = .nan) :
    let s' := biStep (Vec.op A) (linPrecon K) T mm (.fin c) s
    (s'.finished = false ∧ biDir s' = .nan) ∨ (s'.finished = true ∧ s'.residNorm = .nan) := by
  unfold biStep
  simp only [show smul (s.rhoNext / s.rho * s.alpha / s.omega) s.p -
    smul (s.rhoNext / s.rho * s.alpha / s.omega * s.omega) s.v + s.r = biDir s from rfl,
    h, Vec.nan_smul, Vec.sub_nan, Vec.norm_nan, Fl.nan_le]
  rw [if_neg (by simp)]
  split
  · exact Or.inr ⟨rfl, rfl⟩
  · simp only [op_precon_nan, Vec.dot_nan, Fl.div_nan, Vec.nan_smul, Vec.sub_nan, Vec.norm_nan, Fl.nan_le, Bool.false_or]
    by_cases hb : mm ≤ s.nMatvec + 2
    · exact Or.inr ⟨by simpa using hb, trivial⟩
    · exact Or.inl ⟨by simpa using hb, biDir_nan (by simp)⟩

theorem biStep_good [FiniteDimensional ℝ E] (hn : Confined (rightPrecon A K) c n) (ht : 0 ≤ t) (hm : 2 * n ≤ mm)
    (s : BiLoop Fl (Vec E)) {j : ℕ} (hj : j < n) (hg : BiGood (rightPrecon A K) c j s) :
    BiInv (rightPrecon A K) c t n (biStep (Vec.op A) (linPrecon K) (.fin t) mm (.fin c) s) := by
  obtain ⟨φ, ψ, χ, hP, hH, hr, hp, hρ, hk, hne⟩ := hg
  obtain ⟨B, hB⟩ : ∃ B, B = rightPrecon A K := ⟨_, rfl⟩
  rw [← hB] at hn hP hH hr hp hρ hne ⊢
  have hv : Vec.op A (applyPrecon (linPrecon K) (biDir s)) = .fin (polyAt B c (χ * (X * ψ))) := by
    rw [hp, op_precon_fin, ← hB, ← polyAt_X_mul]
    congr 2; ring
  have hσ : dot (.fin c) (Vec.op A (applyPrecon (linPrecon K) (biDir s))) = Fl.fin (moment B c (χ * (X * ψ))) := by
    rw [hv]; rfl
  by_cases h0 : moment B c (χ * (X * ψ)) = 0
  · have := biStep_broken (A := A) (K := K) (c := c) (mm := mm) s (.fin t) (by rw [hσ, h0, hρ, Fl.fin_div_zero])
    have hb : BiBreakdown B c := Or.inl ⟨j, φ, ψ, χ, hP, hne, Or.inr h0⟩
    rcases this with h | h
    · exact Or.inr (Or.inl ⟨hb, h⟩)
    · exact Or.inr (Or.inr ⟨h.1, Or.inr ⟨hb, h.2⟩⟩)
  obtain ⟨α, hα⟩ : ∃ α, α = moment B c (χ * φ) / moment B c (χ * (X * ψ)) := ⟨_, rfl⟩
  have hα' : α * moment B c (χ * (X * ψ)) = moment B c (χ * φ) := by rw [hα]; field_simp
  obtain ⟨φ', hφ'⟩ : ∃ φ', φ' = φ - C α * (X * ψ) := ⟨_, rfl⟩
  have ho : Orth B c (j + 1) φ' := by rw [hφ']; exact hP.orthNext' hα'
  have hss : s.r - smul (Fl.fin α) (.fin (polyAt B c (χ * (X * ψ)))) = .fin (polyAt B c (χ * φ')) := by
    rw [hr, Vec.fin_smul, Vec.fin_sub, ← polyAt_C_mul, ← polyAt_sub, hφ']
    congr 2; ring
  unfold biStep
  simp only [show smul (s.rhoNext / s.rho * s.alpha / s.omega) s.p -
    smul (s.rhoNext / s.rho * s.alpha / s.omega * s.omega) s.v + s.r = biDir s from rfl,
    hσ]
  simp only [hv, hρ, Fl.fin_div _ h0, ← hα, hss, Vec.fin_norm]
  by_cases hle : ‖polyAt B c (χ * φ')‖ ≤ t
  · rw [if_pos (by simp [hle])]
    refine Or.inr (Or.inr ⟨rfl, Or.inl ⟨?_, ?_⟩⟩)
    · simpa using hle
    · change s.nMatvec + 1 ≤ 2 * n
      omega
  have hne1 : polyAt B c (χ * φ') ≠ 0 := by
    intro h; apply hle; rw [h, norm_zero]; exact ht
  have hne' : polyAt B c φ' ≠ 0 := by
    intro h; apply hne1; rw [polyAt_mul, h, map_zero]
  have hjn : j + 1 < n := by
    by_contra hge
    by_cases hρ0 : moment B c (χ * φ) = 0
    · exact h0 (hP.lastStep' hH (hn.mono (by omega)) hρ0)
    · exact hne' ((hP.hist' hH hρ0).full (hn.mono (by omega)) ho)
  rw [if_neg (by simp [hle]), if_neg (by omega)]
  have hT : Vec.op A (applyPrecon (linPrecon K) (.fin (polyAt B c (χ * φ')))) = .fin (polyAt B c (X * (χ * φ'))) := by
    rw [op_precon_fin, ← hB, polyAt_X_mul]
  simp only [hT, Vec.fin_dot]
  by_cases ht0 : polyAt B c (X * (χ * φ')) = 0
  · -- the operator maps the intermediate residual to zero
    have hb : BiBreakdown B c := Or.inr ⟨_, hne1, by rw [← polyAt_X_mul, ht0, inner_zero_left]⟩
    simp only [ht0, inner_zero_left, inner_zero_right, Fl.fin_div_zero, Vec.nan_smul, Vec.sub_nan, Vec.norm_nan, Fl.nan_le,
      Bool.false_or]
    by_cases hb' : mm ≤ s.nMatvec + 2
    · exact Or.inr (Or.inr ⟨by simpa using hb', Or.inr ⟨hb, rfl⟩⟩)
    · exact Or.inr (Or.inl ⟨hb, by simpa using hb', biDir_nan (by simp)⟩)
  have htt : ⟪polyAt B c (X * (χ * φ')), polyAt B c (X * (χ * φ'))⟫ ≠ 0 := inner_self_ne_zero.2 ht0
  obtain ⟨ω, hω⟩ : ∃ ω, ω = ⟪polyAt B c (X * (χ * φ')), polyAt B c (χ * φ')⟫ /
    ⟪polyAt B c (X * (χ * φ')), polyAt B c (X * (χ * φ'))⟫ := ⟨_, rfl⟩
  obtain ⟨χ', hχ'⟩ : ∃ χ', χ' = χ - C ω * (X * χ) := ⟨_, rfl⟩
  have hρ' : -Fl.fin ω * Fl.fin ⟪c, polyAt B c (X * (χ * φ'))⟫ = .fin (moment B c (χ' * φ')) := by
    rw [Fl.fin_neg, Fl.fin_mul, hχ', show (χ - C ω * (X * χ)) * φ' = χ * φ' - C ω * (X * (χ * φ')) by ring, moment_sub,
      moment_C_mul, ho χ hP.testLt, zero_sub, neg_mul]
    rfl
  have hr' : Vec.fin (polyAt B c (χ * φ')) - smul (Fl.fin ω) (.fin (polyAt B c (X * (χ * φ')))) =
      .fin (polyAt B c (χ' * φ')) := by
    rw [Vec.fin_smul, Vec.fin_sub, ← polyAt_C_mul, ← polyAt_sub, hχ']
    congr 2; ring
  simp only [Fl.fin_div _ htt, ← hω, hρ', hr', Vec.fin_norm]
  by_cases hle2 : ‖polyAt B c (χ' * φ')‖ ≤ t
  · refine Or.inr (Or.inr ⟨by simp [hle2], Or.inl ⟨by simpa using hle2, ?_⟩⟩)
    change s.nMatvec + 2 ≤ 2 * n
    omega
  have hfin : (le (Fl.fin ‖polyAt B c (χ' * φ')‖) (.fin t) || decide (s.nMatvec + 2 ≥ mm)) = false := by
    have : le (Fl.fin ‖polyAt B c (χ' * φ')‖) (Fl.fin t) = false := by
      rw [← Bool.not_eq_true, Fl.fin_le]; exact hle2
    simp only [this, Bool.false_or, decide_eq_false_iff_not]; omega
  by_cases hω0 : ω = 0
  · refine Or.inr (Or.inl ⟨Or.inr ⟨_, hne1, ?_⟩, hfin, biDir_nan ?_⟩)
    · rw [hω] at hω0
      rw [← polyAt_X_mul]
      exact (div_eq_zero_iff.1 hω0).resolve_right htt
    · simp only [hω0]
      generalize Fl.fin _ / _ * _ = a
      cases a
      · exact Fl.fin_div_zero _
      · exact Fl.nan_div _
  by_cases hρ0 : moment B c (χ * φ) = 0
  · refine Or.inr (Or.inl ⟨Or.inl ⟨j, φ, ψ, χ, hP, hne, Or.inl hρ0⟩, hfin, biDir_nan ?_⟩)
    simp only [hρ0, Fl.fin_div_zero, Fl.nan_mul, Fl.nan_div]
  have hH' := hP.hist' hH hρ0
  obtain ⟨β, hβ⟩ : ∃ β, β = moment B c (χ' * φ') / moment B c (χ * φ) * α / ω := ⟨_, rfl⟩
  have hβ' : β * ω * moment B c (χ * (X * ψ)) = moment B c (χ' * φ') := by
    rw [hβ, show moment B c (χ' * φ') / moment B c (χ * φ) * α / ω * ω * moment B c (χ * (X * ψ)) =
      moment B c (χ' * φ') / moment B c (χ * φ) * (α * moment B c (χ * (X * ψ))) by field_simp, hα']
    field_simp
  refine Or.inl ⟨hfin, j + 1, hjn, φ', φ' + C β * ψ, χ', ?_, hH', rfl, ?_, rfl, ?_, hne'⟩
  · rw [hφ', hχ'] at *
    exact hP.next' hω0 hρ0 hα' hβ'
  · have hβ2 : Fl.fin (moment B c (χ' * φ')) / Fl.fin (moment B c (χ * φ)) * Fl.fin α / Fl.fin ω = .fin β := by
      rw [Fl.fin_div _ hρ0, Fl.fin_mul, Fl.fin_div _ hω0, hβ]
    rw [hp]
    simp only [biDir, hβ2, Fl.fin_mul, Vec.fin_smul, Vec.fin_add, Vec.fin_sub, ← polyAt_C_mul, ← polyAt_add, ← polyAt_sub]
    rw [hχ']
    congr 2
    rw [C_mul]; ring
  · change s.nMatvec + 2 ≤ _
    omega

theorem biStep_inv [FiniteDimensional ℝ E] (hn : Confined (rightPrecon A K) c n) (ht : 0 ≤ t) (hm : 2 * n ≤ mm)
    (s : BiLoop Fl (Vec E)) (hs : BiInv (rightPrecon A K) c t n s) (hf : s.finished = false) :
    BiInv (rightPrecon A K) c t n (biStep (Vec.op A) (linPrecon K) (.fin t) mm (.fin c) s) := by
  rcases hs with ⟨-, j, hj, hg⟩ | ⟨hb, -, hp⟩ | ⟨h, -⟩
  · exact biStep_good hn ht hm s hj hg
  · have := biStep_broken (A := A) (K := K) (c := c) (mm := mm) s (.fin t) (by
      rw [hp, op_precon_nan, Vec.dot_nan, Fl.div_nan])
    rcases this with h | h
    · exact Or.inr (Or.inl ⟨hb, h⟩)
    · exact Or.inr (Or.inr ⟨h.1, Or.inr ⟨hb, h.2⟩⟩)
  · rw [hf] at h; cases h

/-- the loop of Bi-CGSTAB, started with the residual `c` -/
theorem biLoop_end [FiniteDimensional ℝ E] (hn : Confined (rightPrecon A K) c n) (ht : 0 ≤ t) (hm : 2 * n ≤ mm)
    (x : Vec E) (calls : List (Vec E)) (k : ℕ) (hk : k ≤ 1) (hk2 : n = 0 → k = 0) :
    let s := biLoop (Vec.op A) (linPrecon K) (.fin t) mm (.fin c)
      { x := x, r := .fin c, p := .fin 0, v := .fin 0, rho := .fin 1, rhoNext := .fin ⟪c, c⟫, alpha := .fin 1,
        omega := .fin 1, residNorm := .fin ‖c‖, nMatvec := k,
        finished := le (Fl.fin ‖c‖) (Fl.fin t) || decide (k ≥ mm), calls := calls }
    (le s.residNorm (.fin t) = true ∧ s.nMatvec ≤ 2 * n) ∨ (BiBreakdown (rightPrecon A K) c ∧ s.residNorm = .nan) := by
  have := whileLoop_inv (cont := fun s : BiLoop Fl (Vec E) => !s.finished)
    (step := biStep (Vec.op A) (linPrecon K) (.fin t) mm (.fin c)) (μ := fun s => mm - s.nMatvec) (h := by
        intro s _ h
        have h1 := biStep_nMatvec (Vec.op A) (linPrecon K) (.fin t) mm (.fin c) s
        have h2 := h1.2 (by simpa using h)
        omega)
    (BiInv (rightPrecon A K) c t n) (fun s hs hc => biStep_inv hn ht hm s hs (by simpa using hc))
    { x := x, r := .fin c, p := .fin 0, v := .fin 0, rho := .fin 1, rhoNext := .fin ⟪c, c⟫, alpha := .fin 1,
      omega := .fin 1, residNorm := .fin ‖c‖, nMatvec := k,
      finished := le (Fl.fin ‖c‖) (Fl.fin t) || decide (k ≥ mm), calls := calls } ?_
  · obtain ⟨h1, h2⟩ := this
    simp only [Bool.not_eq_false'] at h2
    rcases h1 with ⟨h, -⟩ | ⟨-, h, -⟩ | ⟨-, h⟩
    · rw [h] at h2; cases h2
    · rw [h] at h2; cases h2
    · exact h
  · by_cases hle : ‖c‖ ≤ t
    · refine Or.inr (Or.inr ⟨by simp [hle], Or.inl ⟨by simpa using hle, ?_⟩⟩)
      simp only
      omega
    · have hc : c ≠ 0 := by
        rintro rfl
        exact hle (by rw [norm_zero]; exact ht)
      have hpos : 0 < n := hn.pos hc
      have hlf : le (Fl.fin ‖c‖) (Fl.fin t) = false := by
        rw [← Bool.not_eq_true, Fl.fin_le]; exact hle
      refine Or.inl ⟨by simp only [hlf, Bool.false_or, decide_eq_false_iff_not]; omega, 0, by omega, 1, 1, 1, biPoly_zero, hist_zero, ?_, ?_, ?_, by simpa using hk, ?_⟩
      · simp [polyAt_one]
      · simp [biDir, polyAt_one, Fl.fin_div]
      · simp [moment, polyAt_one]
      · rwa [polyAt_one]

theorem bi_no_breakdown {B : E →ₗ[ℝ] E} {c : E} (hs : ∀ u v : E, ⟪B u, v⟫ = ⟪u, B v⟫)
    (hp : ∀ u : E, u ≠ 0 → 0 < ⟪u, B u⟫) : ¬ BiBreakdown B c := by
  rintro (⟨j, φ, ψ, χ, hP, hne, h⟩ | ⟨u, hu, h⟩)
  · obtain ⟨h1, h2⟩ := hP.posdef' hs hp hne
    exact h.elim h1 h2
  · rw [hs] at h
    exact (hp u hu).ne' h

end Bi

section TF
variable {A : E →ₗ[ℝ] E} {K : Option (E →ₗ[ℝ] E)} {c : E} {t : ℝ} {mm n : ℕ}

/-- the iterate and what its update depends on are finite -/
def TfFin (s : TFLoop Fl (Vec E)) : Prop :=
  (∃ x, s.x = .fin x) ∧ (∃ d, s.d = .fin d) ∧ (∃ z, s.z = .fin z) ∧ (∃ a, s.theta = .fin a) ∧ ∃ a, s.eta = .fin a

theorem tfPass_fin (s : TFLoop Fl (Vec E)) {a τ : ℝ} {w u : E} (hw : s.w = .fin w) (hu : s.u = .fin u)
    (hτ : s.residNorm = .fin τ) (hτ0 : τ ≠ 0) :
    (tfPass (.fin a) s).w = .fin (w - a • u) ∧
    (∃ τ', (tfPass (.fin a) s).residNorm = .fin τ' ∧ (w - a • u = 0 → τ' = 0)) ∧
    (a ≠ 0 → TfFin s → TfFin (tfPass (.fin a) s)) := by
  obtain ⟨θ, hθ⟩ : ∃ θ, θ = ‖w - a • u‖ / τ := ⟨_, rfl⟩
  have hpos : 0 < 1 + θ * θ := by nlinarith [mul_self_nonneg θ]
  have hsq : Real.sqrt (1 + θ * θ) ≠ 0 := (Real.sqrt_pos.2 hpos).ne'
  refine ⟨?_, ⟨τ * (θ * (1 / Real.sqrt (1 + θ * θ))), ?_, fun h => ?_⟩, fun ha hf => ?_⟩
  · simp [tfPass, hw, hu]
  · simp only [tfPass, hw, hu, hτ, Vec.fin_smul, Vec.fin_sub, Vec.fin_norm, Fl.fin_div _ hτ0, ← hθ, Fl.lit_eq, Fl.fin_mul,
      Fl.fin_add, Rat.cast_one, Fl.fin_sqrt hpos.le, Fl.fin_div _ hsq]
  · rw [hθ, h]; simp
  · obtain ⟨⟨x, hx⟩, ⟨d, hd⟩, ⟨z, hz⟩, ⟨θ', hθ'⟩, η', hη'⟩ := hf
    have e1 : (tfPass (.fin a) s).d = .fin ((θ' * θ' * η' / a) • d + z) := by
      simp only [tfPass, hd, hz, hθ', hη', Fl.fin_mul, Fl.fin_div _ ha, Vec.fin_smul, Vec.fin_add]
    have e2 : (tfPass (.fin a) s).theta = .fin θ := by
      simp only [tfPass, hw, hu, hτ, Vec.fin_smul, Vec.fin_sub, Vec.fin_norm, Fl.fin_div _ hτ0, ← hθ]
    have e3 : (tfPass (.fin a) s).eta = .fin (1 / Real.sqrt (1 + θ * θ) * (1 / Real.sqrt (1 + θ * θ)) * a) := by
      have : (tfPass (.fin a) s).eta = lit 1 / sqrt (lit 1 + (tfPass (.fin a) s).theta * (tfPass (.fin a) s).theta) *
        (lit 1 / sqrt (lit 1 + (tfPass (.fin a) s).theta * (tfPass (.fin a) s).theta)) * .fin a := rfl
      rw [this, e2]
      simp only [Fl.lit_eq, Fl.fin_mul, Fl.fin_add, Rat.cast_one, Fl.fin_sqrt hpos.le, Fl.fin_div _ hsq]
    have e4 : (tfPass (.fin a) s).x = s.x + smul (tfPass (.fin a) s).eta (tfPass (.fin a) s).d := rfl
    rw [e1, e3, hx, Vec.fin_smul, Vec.fin_add] at e4
    exact ⟨⟨_, e4⟩, ⟨_, e1⟩, ⟨z, hz⟩, ⟨_, e2⟩, ⟨_, e3⟩⟩

theorem tfPass_nan (s : TFLoop Fl (Vec E)) : (tfPass .nan s).w = .nan ∧ (tfPass .nan s).residNorm = .nan := by
  simp [tfPass]

/-- a running TFQMR iteration without breakdown -/
def TfGood (B : E →ₗ[ℝ] E) (c : E) (j : ℕ) (s : TFLoop Fl (Vec E)) : Prop :=
  ∃ φ ψ τ, CgsPoly B c j φ ψ ∧ Hist B c j ∧ s.w = .fin (polyAt B c (φ * φ)) ∧ s.y = .fin (polyAt B c (φ * ψ)) ∧
    s.u = .fin (polyAt B c (X * (φ * ψ))) ∧ s.v = .fin (polyAt B c (X * (ψ * ψ))) ∧ s.rho = .fin (moment B c (φ * φ)) ∧
    s.nMatvec = 2 * j + 1 ∧ polyAt B c φ ≠ 0 ∧ s.residNorm = .fin τ ∧ τ ≠ 0 ∧ TfFin s

/-- the stopping test of a finished iteration -/
def TfConv (t : ℝ) (s : TFLoop Fl (Vec E)) : Prop :=
  ∃ m, s.m = some m ∧ lt (s.residNorm * sqrt (m + lit 1)) (.fin t) = true

/-- invariant of the loop: running, broken down, or finished -/
def TfInv (B : E →ₗ[ℝ] E) (c : E) (t : ℝ) (n : ℕ) (s : TFLoop Fl (Vec E)) : Prop :=
  (s.finished = false ∧ ∃ j < n, TfGood B c j s) ∨ (CgsBreakdown B c ∧ s.finished = false ∧ s.v = .nan) ∨
  (s.finished = true ∧ ((TfConv t s ∧ s.nMatvec ≤ 2 * n ∧ ((∃ x, s.x = .fin x) ∨ CgsBreakdown B c)) ∨
    (CgsBreakdown B c ∧ s.residNorm = .nan)))

omit [NormedAddCommGroup E] [InnerProductSpace ℝ E] in
theorem tfTest_nan {T : Fl} {m : Fl} {s : TFLoop Fl (Vec E)} (h : s.residNorm = .nan) :
    tfTest T mm m s = decide (s.nMatvec ≥ mm) := by simp [tfTest, h]

theorem tfStep_broken (s : TFLoop Fl (Vec E)) (T : Fl) (hf : s.finished = false)
    (h : s.rho / dot (.fin c) s.v = .nan) :
    let s' := tfStep (Vec.op A) (linPrecon K) T mm (.fin c) s
    (s'.finished = false ∧ s'.v = .nan) ∨ (s'.finished = true ∧ s'.residNorm = .nan) := by
  unfold tfStep
  simp only [h]
  have h1 := (tfPass_nan s).2
  split
  · exact Or.inr ⟨rfl, h1⟩
  · split
    · exact Or.inr ⟨rfl, (tfPass_nan _).2⟩
    · refine Or.inl ⟨hf, ?_⟩
      simp only [tfFinal]
      rw [(tfPass_nan _).1]
      simp

omit [NormedAddCommGroup E] [InnerProductSpace ℝ E] in
theorem tfTest_fin {m : ℕ} {τ : ℝ} {s : TFLoop Fl (Vec E)} (hτ : s.residNorm = .fin τ) (ht : 0 < t)
    (h : ¬ tfTest (.fin t) mm (Fl.fin m) s = true) : τ ≠ 0 := by
  rintro rfl
  apply h
  have : (0 : ℝ) ≤ (m : ℝ) + 1 := by positivity
  simp [tfTest, hτ, Fl.fin_sqrt this, ht]

omit [NormedAddCommGroup E] [InnerProductSpace ℝ E] in
theorem tfTest_conv {m : Fl} {s : TFLoop Fl (Vec E)} (hm : s.nMatvec < mm) (h : tfTest (.fin t) mm m s = true) :
    lt (s.residNorm * sqrt (m + lit 1)) (.fin t) = true := by
  rw [tfTest, Bool.or_eq_true] at h
  rcases h with h | h
  · exact h
  · rw [decide_eq_true_iff] at h; omega

/-- the part of `tfStep` after the first pass -/
noncomputable def tfRest (op : Vec E → Vec E) (precon : Option (Vec E → Vec E)) (T : Fl) (mm : ℕ) (r0 : Vec E) (alpha m : Fl)
    (s1 : TFLoop Fl (Vec E)) : TFLoop Fl (Vec E) :=
  if tfTest T mm m s1 then { s1 with finished := true }
  else
    if tfTest T mm (m + lit 1) (tfPass alpha (tfMid op precon alpha (m + lit 1) s1)) then
      { tfPass alpha (tfMid op precon alpha (m + lit 1) s1) with finished := true }
    else tfFinal op precon r0 (tfPass alpha (tfMid op precon alpha (m + lit 1) s1))

theorem tfStep_eq_rest (op : Vec E → Vec E) (precon : Option (Vec E → Vec E)) (T : Fl) (mm : ℕ) (r0 : Vec E)
    (s : TFLoop Fl (Vec E)) : tfStep op precon T mm r0 s =
    tfRest op precon T mm r0 (s.rho / dot r0 s.v) (lit 2 * lit ((s.k + 1 : ℕ) : ℚ) - lit 1)
      { tfPass (s.rho / dot r0 s.v) s with k := s.k + 1, m := some (lit 2 * lit ((s.k + 1 : ℕ) : ℚ) - lit 1) } := rfl

theorem tfStep_good [FiniteDimensional ℝ E] (hn : Confined (rightPrecon A K) c n) (ht : 0 < t) (hm : 2 * n ≤ mm)
    (s : TFLoop Fl (Vec E)) {j : ℕ} (hj : j < n) (hf : s.finished = false) (hg : TfGood (rightPrecon A K) c j s) :
    TfInv (rightPrecon A K) c t n (tfStep (Vec.op A) (linPrecon K) (.fin t) mm (.fin c) s) := by
  obtain ⟨φ, ψ, τ, hP, hH, hw, hy, hu, hv, hρ, hk, hne, hτ, hτ0, hfin⟩ := hg
  obtain ⟨B, hB⟩ : ∃ B, B = rightPrecon A K := ⟨_, rfl⟩
  rw [← hB] at hn hP hH hw hy hu hv hρ hne ⊢
  have hσ : dot (.fin c) s.v = Fl.fin (moment B c (ψ * (X * ψ))) := by
    rw [hv, Vec.fin_dot, show X * (ψ * ψ) = ψ * (X * ψ) by ring]; rfl
  by_cases h0 : moment B c (ψ * (X * ψ)) = 0
  · have := tfStep_broken (A := A) (K := K) (c := c) (mm := mm) s (.fin t) hf (by rw [hσ, h0, hρ, Fl.fin_div_zero])
    have hb : CgsBreakdown B c := ⟨j, φ, ψ, hP, hne, Or.inr h0⟩
    rcases this with h | h
    · exact Or.inr (Or.inl ⟨hb, h⟩)
    · exact Or.inr (Or.inr ⟨h.1, Or.inr ⟨hb, h.2⟩⟩)
  obtain ⟨α, hα⟩ : ∃ α, α = moment B c (φ * φ) / moment B c (ψ * (X * ψ)) := ⟨_, rfl⟩
  have hα' : α * moment B c (ψ * (X * ψ)) = moment B c (φ * φ) := by rw [hα]; field_simp
  have hα0 : α ≠ 0 ∨ CgsBreakdown B c := by
    by_cases h : moment B c (φ * φ) = 0
    · exact Or.inr ⟨j, φ, ψ, hP, hne, Or.inl h⟩
    · refine Or.inl ?_
      rw [hα]; exact div_ne_zero h h0
  obtain ⟨φ', hφ'⟩ : ∃ φ', φ' = φ - C α * (X * ψ) := ⟨_, rfl⟩
  have hm1 : (lit 2 * lit ((s.k + 1 : ℕ) : ℚ) - lit 1 : Fl) = Fl.fin ((2 * s.k + 1 : ℕ) : ℝ) := by
    simp only [Fl.lit_eq, Fl.fin_mul, Fl.fin_sub]
    congr 1; push_cast; ring
  have hm2 : (Fl.fin ((2 * s.k + 1 : ℕ) : ℝ) + lit 1 : Fl) = Fl.fin ((2 * s.k + 2 : ℕ) : ℝ) := by
    simp only [Fl.lit_eq, Fl.fin_add]
    congr 1; push_cast; ring
  -- first pass
  obtain ⟨w1, ⟨τ1, t1, z1⟩, f1⟩ := tfPass_fin (a := α) s hw hu hτ hτ0
  have w1 : (tfPass (.fin α) s).w = .fin (polyAt B c (φ * φ')) := by
    rw [w1, ← polyAt_C_mul, ← polyAt_sub, hφ']; congr 2; ring
  have z1 : polyAt B c (φ * φ') = 0 → τ1 = 0 := by
    intro h
    apply z1
    rw [← polyAt_C_mul, ← polyAt_sub, ← h, hφ']; congr 1; ring
  rw [tfStep_eq_rest, hσ, hρ, Fl.fin_div _ h0, ← hα, hm1]
  obtain ⟨s1, hs1⟩ : ∃ s1, s1 = { tfPass (Fl.fin α) s with k := s.k + 1, m := some (Fl.fin ((2 * s.k + 1 : ℕ) : ℝ)) } :=
    ⟨_, rfl⟩
  rw [← hs1]
  have s1w : s1.w = .fin (polyAt B c (φ * φ')) := by rw [hs1]; exact w1
  have s1t : s1.residNorm = .fin τ1 := by rw [hs1]; exact t1
  have s1n : s1.nMatvec = 2 * j + 1 := by rw [hs1]; exact hk
  have s1f : α ≠ 0 → TfFin s1 := fun h => by rw [hs1]; exact f1 h hfin
  have s1m : s1.m = some (Fl.fin ((2 * s.k + 1 : ℕ) : ℝ)) := by rw [hs1]
  have s1y : s1.y = s.y := by rw [hs1]; rfl
  have s1v : s1.v = s.v := by rw [hs1]; rfl
  have s1rho : s1.rho = s.rho := by rw [hs1]; rfl
  have s1fin : s1.finished = false := by rw [hs1]; exact hf
  clear hs1
  rw [tfRest, hm2]
  by_cases hT1 : tfTest (.fin t) mm (Fl.fin ((2 * s.k + 1 : ℕ) : ℝ)) s1 = true
  · rw [if_pos hT1]
    refine Or.inr (Or.inr ⟨rfl, Or.inl ⟨⟨_, s1m, tfTest_conv (s := s1) (by omega) hT1⟩, ?_, ?_⟩⟩)
    · change s1.nMatvec ≤ _; omega
    · exact hα0.imp (fun h => (s1f h).1) id
  rw [if_neg hT1]
  have hτ1 : τ1 ≠ 0 := tfTest_fin s1t ht hT1
  have hne' : polyAt B c φ' ≠ 0 := by
    intro h; apply hτ1; apply z1; rw [polyAt_mul, h, map_zero]
  have ho : Orth B c (j + 1) φ' := by rw [hφ']; exact hP.orthNext hα'
  have hjn : j + 1 < n := by
    by_contra hge
    by_cases hρ0 : moment B c (φ * φ) = 0
    · exact h0 (hP.lastStep hH (hn.mono (by omega)) hρ0)
    · exact hne' ((hP.hist hH hρ0).full (hn.mono (by omega)) ho)
  -- second pass
  obtain ⟨s2, hs2⟩ : ∃ s2, s2 = tfMid (Vec.op A) (linPrecon K) (Fl.fin α) (Fl.fin ((2 * s.k + 2 : ℕ) : ℝ)) s1 := ⟨_, rfl⟩
  rw [← hs2]
  have s2y : s2.y = .fin (polyAt B c (φ' * ψ)) := by
    rw [hs2]
    simp only [tfMid, s1y, s1v, hy, hv, Vec.fin_smul, Vec.fin_sub, ← polyAt_C_mul, ← polyAt_sub]
    rw [hφ']; congr 2; ring
  have s2u : s2.u = .fin (polyAt B c (X * (φ' * ψ))) := by
    have : s2.u = Vec.op A (applyPrecon (linPrecon K) s2.y) := by rw [hs2]; rfl
    rw [this, s2y, op_precon_fin, ← hB, polyAt_X_mul]
  have s2w : s2.w = .fin (polyAt B c (φ * φ')) := by rw [hs2]; exact s1w
  have s2t : s2.residNorm = .fin τ1 := by rw [hs2]; exact s1t
  have s2n : s2.nMatvec = 2 * j + 2 := by rw [hs2]; simp [tfMid, s1n]
  have s2m : s2.m = some (Fl.fin ((2 * s.k + 2 : ℕ) : ℝ)) := by rw [hs2]; rfl
  have s2v : s2.v = .fin (polyAt B c (X * (ψ * ψ))) := by rw [hs2, ← hv, ← s1v]; rfl
  have s2rho : s2.rho = .fin (moment B c (φ * φ)) := by rw [hs2, ← hρ, ← s1rho]; rfl
  have s2fin : s2.finished = false := by rw [hs2]; exact s1fin
  have hz : ∀ y : E, ∃ z, applyPrecon (linPrecon K) (Vec.fin y) = .fin z := by
    intro y; cases K <;> exact ⟨_, rfl⟩
  have s2f : α ≠ 0 → TfFin s2 := fun h => by
    have := s1f h
    refine ⟨by rw [hs2]; exact this.1, by rw [hs2]; exact this.2.1, ?_, by rw [hs2]; exact this.2.2.2.1,
      by rw [hs2]; exact this.2.2.2.2⟩
    have e : s2.z = applyPrecon (linPrecon K) s2.y := by rw [hs2]; rfl
    rw [e, s2y]; exact hz _
  clear hs2
  obtain ⟨w2, ⟨τ2, t2, -⟩, f2⟩ := tfPass_fin (a := α) s2 s2w s2u s2t hτ1
  have w2 : (tfPass (.fin α) s2).w = .fin (polyAt B c (φ' * φ')) := by
    rw [w2, ← polyAt_C_mul, ← polyAt_sub, hφ']; congr 2; ring
  obtain ⟨s3, hs3⟩ : ∃ s3, s3 = tfPass (Fl.fin α) s2 := ⟨_, rfl⟩
  rw [← hs3] at w2 t2 f2 ⊢
  have s3n : s3.nMatvec = 2 * j + 2 := by rw [hs3]; exact s2n
  have s3m : s3.m = some (Fl.fin ((2 * s.k + 2 : ℕ) : ℝ)) := by rw [hs3]; exact s2m
  have s3v : s3.v = .fin (polyAt B c (X * (ψ * ψ))) := by rw [hs3]; exact s2v
  have s3u : s3.u = .fin (polyAt B c (X * (φ' * ψ))) := by rw [hs3]; exact s2u
  have s3y : s3.y = .fin (polyAt B c (φ' * ψ)) := by rw [hs3]; exact s2y
  have s3rho : s3.rho = .fin (moment B c (φ * φ)) := by rw [hs3]; exact s2rho
  have s3fin : s3.finished = false := by rw [hs3]; exact s2fin
  clear hs3
  by_cases hT2 : tfTest (.fin t) mm (Fl.fin ((2 * s.k + 2 : ℕ) : ℝ)) s3 = true
  · rw [if_pos hT2]
    refine Or.inr (Or.inr ⟨rfl, Or.inl ⟨⟨_, s3m, tfTest_conv (s := s3) (by omega) hT2⟩, ?_, ?_⟩⟩)
    · change s3.nMatvec ≤ _; omega
    · exact hα0.imp (fun h => (f2 h (s2f h)).1) id
  rw [if_neg hT2]
  have hτ2 : τ2 ≠ 0 := tfTest_fin t2 ht hT2
  by_cases hρ0 : moment B c (φ * φ) = 0
  · refine Or.inr (Or.inl ⟨⟨j, φ, ψ, hP, hne, Or.inl hρ0⟩, s3fin, ?_⟩)
    simp [tfFinal, w2, s3rho, hρ0, Fl.fin_div_zero]
  have hα1 : α ≠ 0 := by rw [hα]; exact div_ne_zero hρ0 h0
  have f3 := f2 hα1 (s2f hα1)
  have hH' := hP.hist hH hρ0
  obtain ⟨β, hβ⟩ : ∃ β, β = moment B c (φ' * φ') / moment B c (φ * φ) := ⟨_, rfl⟩
  have hβ' : β * moment B c (φ * φ) = moment B c (φ' * φ') := by rw [hβ]; field_simp
  have hβ2 : dot (.fin c) s3.w / s3.rho = .fin β := by
    rw [w2, s3rho, Vec.fin_dot, Fl.fin_div _ hρ0, hβ]; rfl
  have fy : smul (dot (.fin c) s3.w / s3.rho) s3.y + s3.w = .fin (polyAt B c (φ' * (φ' + C β * ψ))) := by
    rw [hβ2, s3y, w2, Vec.fin_smul, Vec.fin_add, ← polyAt_C_mul, ← polyAt_add]; congr 2; ring
  have fu : Vec.op A (applyPrecon (linPrecon K) (smul (dot (.fin c) s3.w / s3.rho) s3.y + s3.w)) =
      .fin (polyAt B c (X * (φ' * (φ' + C β * ψ)))) := by
    rw [fy, op_precon_fin, ← hB, polyAt_X_mul]
  refine Or.inl ⟨s3fin, j + 1, hjn, φ', φ' + C β * ψ, τ2, ?_, hH', w2, fy, fu, ?_, ?_, ?_, hne', t2, hτ2, ?_⟩
  · rw [hφ'] at hβ' ⊢
    exact hP.next hρ0 hα' hβ'
  · simp only [tfFinal]
    rw [fu, hβ2, s3v, s3u]
    simp only [Vec.fin_smul, Vec.fin_add, ← polyAt_C_mul, ← polyAt_add]
    congr 2; ring
  · simp only [tfFinal]; rw [w2]; rfl
  · simp only [tfFinal, s3n]; ring
  · refine ⟨f3.1, f3.2.1, ?_, f3.2.2.2.1, f3.2.2.2.2⟩
    simp only [tfFinal]
    rw [fy]; exact hz _

theorem tfStep_inv [FiniteDimensional ℝ E] (hn : Confined (rightPrecon A K) c n) (ht : 0 < t) (hm : 2 * n ≤ mm)
    (s : TFLoop Fl (Vec E)) (hs : TfInv (rightPrecon A K) c t n s) (hf : s.finished = false) :
    TfInv (rightPrecon A K) c t n (tfStep (Vec.op A) (linPrecon K) (.fin t) mm (.fin c) s) := by
  rcases hs with ⟨-, j, hj, hg⟩ | ⟨hb, -, hp⟩ | ⟨h, -⟩
  · exact tfStep_good hn ht hm s hj hf hg
  · have := tfStep_broken (A := A) (K := K) (c := c) (mm := mm) s (.fin t) hf (by
      rw [hp, Vec.dot_nan, Fl.div_nan])
    rcases this with h | h
    · exact Or.inr (Or.inl ⟨hb, h⟩)
    · exact Or.inr (Or.inr ⟨h.1, Or.inr ⟨hb, h.2⟩⟩)
  · rw [hf] at h; cases h

/-- the loop of TFQMR, started with the residual `c` -/
theorem tfLoop_end [FiniteDimensional ℝ E] (hn : Confined (rightPrecon A K) c n) (ht : 0 < t) (hm : 2 * n ≤ mm)
    (hc : c ≠ 0) (x : E) (calls : List (Vec E)) (z u v : Vec E) (hz : z = applyPrecon (linPrecon K) (.fin c))
    (hu : u = Vec.op A z) (hv : v = u) :
    let s := tfLoop (Vec.op A) (linPrecon K) (.fin t) mm (.fin c)
      { x := .fin x, y := .fin c, w := .fin c, d := .fin 0, z := z, u := u, v := v, rho := .fin ⟪c, c⟫, theta := .fin 0,
        eta := .fin 0, residNorm := .fin ‖c‖, k := 0, m := none, nMatvec := 1, finished := false, calls := calls }
    (TfConv t s ∧ s.nMatvec ≤ 2 * n ∧ ((∃ x, s.x = .fin x) ∨ CgsBreakdown (rightPrecon A K) c)) ∨
      (CgsBreakdown (rightPrecon A K) c ∧ s.residNorm = .nan) := by
  have := whileLoop_inv (cont := fun s : TFLoop Fl (Vec E) => !s.finished)
    (step := tfStep (Vec.op A) (linPrecon K) (.fin t) mm (.fin c)) (μ := fun s => mm - s.nMatvec) (h := by
        intro s _ h
        have h1 := (tfStep_nMatvec (Vec.op A) (linPrecon K) (Fl.fin t) mm (.fin c) s).1 (by simpa using h)
        omega)
    (TfInv (rightPrecon A K) c t n) (fun s hs hc => tfStep_inv hn ht hm s hs (by simpa using hc))
    { x := .fin x, y := .fin c, w := .fin c, d := .fin 0, z := z, u := u, v := v, rho := .fin ⟪c, c⟫, theta := .fin 0,
      eta := .fin 0, residNorm := .fin ‖c‖, k := 0, m := none, nMatvec := 1, finished := false, calls := calls } ?_
  · obtain ⟨h1, h2⟩ := this
    simp only [Bool.not_eq_false'] at h2
    rcases h1 with ⟨h, -⟩ | ⟨-, h, -⟩ | ⟨-, h⟩
    · rw [h] at h2; cases h2
    · rw [h] at h2; cases h2
    · exact h
  · have hpos : 0 < n := hn.pos hc
    have hB : u = .fin (polyAt (rightPrecon A K) c (X * (1 * 1))) := by
      rw [hu, hz, op_precon_fin, mul_one, polyAt_X_mul, polyAt_one]
    refine Or.inl ⟨rfl, 0, by omega, 1, 1, ‖c‖, cgsPoly_zero, hist_zero, ?_, ?_, hB, hv.trans hB, ?_, rfl, ?_, rfl, ?_, ?_⟩
    · simp [polyAt_one]
    · simp [polyAt_one]
    · simp [moment, polyAt_one]
    · rwa [polyAt_one]
    · simpa using hc
    · refine ⟨⟨_, rfl⟩, ⟨_, rfl⟩, ?_, ⟨_, rfl⟩, ⟨_, rfl⟩⟩
      rw [hz]; cases K <;> exact ⟨_, rfl⟩

end TF
end Verif.Solver
