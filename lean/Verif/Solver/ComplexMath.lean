import Verif.Solver.Complex
import Verif.Solver.CGLemmas
import Mathlib.LinearAlgebra.SesquilinearForm.Basic
import Mathlib.LinearAlgebra.Dimension.Finite
import Mathlib.Tactic.Module

/-!
# Helper: the solvers in complex arithmetic
-/

namespace Verif.Solver
open Scalar Vect

variable {ι : Type} [Fintype ι]

/-- `np.dot(u, v)` for complex vectors -/
def cdot (u v : EuclideanSpace ℂ ι) : ℂ := ∑ i, u i * v i

/-- `np.abs(np.sqrt(np.dot(v, v)))`, what the solvers take for the norm of the first residual -/
noncomputable def pseudo (v : EuclideanSpace ℂ ι) : ℝ := Real.sqrt ‖cdot v v‖

theorem abs_sqrt_dot (v : EuclideanSpace ℂ ι) : Scalar.abs (Scalar.sqrt (Vect.dot (CVec.fin v) (CVec.fin v))) = Cx.fin (pseudo v : ℂ) := by
  rw [CVec.fin_dot, Cx.abs_sqrt]; rfl

theorem pseudo_nonneg (v : EuclideanSpace ℂ ι) : 0 ≤ pseudo v := Real.sqrt_nonneg _

/-- it is at most the norm -/
theorem pseudo_le_norm (v : EuclideanSpace ℂ ι) : pseudo v ≤ ‖v‖ := by
  rw [pseudo, EuclideanSpace.norm_eq]
  apply Real.sqrt_le_sqrt
  refine (norm_sum_le _ _).trans (le_of_eq ?_)
  refine Finset.sum_congr rfl fun i _ => ?_
  rw [norm_mul, sq]

/-! ### The residual recurrence -/

/-- `r`, if finite, is the residual of `x`, which is finite too -/
def CTrue (A : EuclideanSpace ℂ ι →ₗ[ℂ] EuclideanSpace ℂ ι) (b : EuclideanSpace ℂ ι) (x r : CVec ι) : Prop :=
  ∀ a, r = .fin a → ∃ v, x = .fin v ∧ a = b - A v

/-- `ρ`, if finite, is the norm of the residual of `x`, which is finite too -/
def CResid (A : EuclideanSpace ℂ ι →ₗ[ℂ] EuclideanSpace ℂ ι) (b : EuclideanSpace ℂ ι) (x : CVec ι) (ρ : Cx) : Prop :=
  ∀ a, ρ = .fin a → ∃ v, x = .fin v ∧ a = (‖b - A v‖ : ℂ)

variable {A : EuclideanSpace ℂ ι →ₗ[ℂ] EuclideanSpace ℂ ι} {b : EuclideanSpace ℂ ι}

theorem CTrue.norm {x r : CVec ι} (h : CTrue A b x r) : CResid A b x (Vect.norm r) := by
  intro a ha
  obtain ⟨v, rfl, rfl⟩ := CVec.norm_fin ha
  obtain ⟨x, hx, rfl⟩ := h v rfl
  exact ⟨x, hx, rfl⟩

theorem CTrue.step {x r : CVec ι} (h : CTrue A b x r) (α : Cx) (z : CVec ι) :
    CTrue A b (x + smul α z) (r - smul α (CVec.op A z)) := by
  intro a ha
  obtain ⟨r', d, h1, h2, rfl⟩ := CVec.sub_fin ha
  obtain ⟨α', az, rfl, h4, rfl⟩ := CVec.smul_fin h2
  obtain ⟨z', rfl, rfl⟩ := CVec.op_eq_fin h4
  obtain ⟨v, rfl, rfl⟩ := h r' h1
  exact ⟨v + α' • z', rfl, by rw [map_add, map_smul]; abel⟩

/-- CGS: the residual is that of `x`, and `residNorm` is its norm except before the first iteration -/
structure CgsC (A : EuclideanSpace ℂ ι →ₗ[ℂ] EuclideanSpace ℂ ι) (b x0 : EuclideanSpace ℂ ι) (s : CGSLoop Cx (CVec ι)) : Prop where
  vec : CTrue A b s.x s.r
  res : CResid A b s.x s.residNorm ∨ s.x = .fin x0 ∧ s.residNorm = .fin (pseudo (b - A x0) : ℂ) ∧ s.nMatvec = 0

theorem cgsStep_C {x0 : EuclideanSpace ℂ ι} (precon : Option (CVec ι → CVec ι)) (t : Cx) (mm : Nat) (r0 : CVec ι)
    (s : CGSLoop Cx (CVec ι)) (hs : CgsC A b x0 s) : CgsC A b x0 (cgsStep (CVec.op A) precon t mm r0 s) := by
  unfold cgsStep
  simp only
  have := hs.vec.step (s.rho / dot r0 (CVec.op A (applyPrecon precon s.p)))
    (applyPrecon precon (s.u + (s.u - smul (s.rho / dot r0 (CVec.op A (applyPrecon precon s.p)))
      (CVec.op A (applyPrecon precon s.p)))))
  split <;> exact ⟨this, .inl this.norm⟩

/-- Bi-CGSTAB -/
structure BiC (A : EuclideanSpace ℂ ι →ₗ[ℂ] EuclideanSpace ℂ ι) (b x0 : EuclideanSpace ℂ ι) (t : Cx) (s : BiLoop Cx (CVec ι)) : Prop where
  vec : s.finished = false → CTrue A b s.x s.r
  res : CResid A b s.x s.residNorm ∨ le s.residNorm t = false ∨
    s.x = .fin x0 ∧ s.residNorm = .fin (pseudo (b - A x0) : ℂ)

theorem biStep_C {x0 : EuclideanSpace ℂ ι} (precon : Option (CVec ι → CVec ι)) (t : Cx) (mm : Nat) (r0 : CVec ι)
    (s : BiLoop Cx (CVec ι)) (hs : BiC A b x0 t s) (hf : s.finished = false) :
    BiC A b x0 t (biStep (CVec.op A) precon t mm r0 s) := by
  have hv := hs.vec hf
  unfold biStep
  simp only
  generalize applyPrecon precon (smul _ s.p - smul _ s.v + s.r) = q
  generalize (s.rhoNext / dot r0 (CVec.op A q)) = α
  have h1 := hv.step α q
  split
  · exact ⟨fun h => (by cases h), .inl h1.norm⟩
  · rename_i hle
    split
    · exact ⟨fun h => (by cases h), .inr (.inl (by simpa using hle))⟩
    · generalize applyPrecon precon (s.r - smul α (CVec.op A q)) = z
      generalize dot (CVec.op A z) _ / dot (CVec.op A z) _ = ω
      have h2 := h1.step ω z
      have e : s.x + smul ω z + smul α q = s.x + smul α q + smul ω z := by
        cases s.x <;> cases smul ω z <;> cases smul α q <;> simp
        abel
      rw [e]
      exact ⟨fun _ => h2, .inl h2.norm⟩

/-! ### TFQMR: the quasi-residual bound -/

/-- The quasi-residual invariant after `m` half-steps, when the first residual has norm `N` and was taken to have norm `P`. -/
def CQuasi (A : EuclideanSpace ℂ ι →ₗ[ℂ] EuclideanSpace ℂ ι) (b : EuclideanSpace ℂ ι) (P N : ℝ) (m : ℕ) (s : TFLoop Cx (CVec ι)) : Prop :=
  ∀ x, s.x = .fin x → ∃ (w d : EuclideanSpace ℂ ι) (θ τ : ℝ) (η : ℂ), s.w = .fin w ∧ s.d = .fin d ∧ s.theta = .fin (θ : ℂ) ∧
    s.eta = .fin η ∧ s.residNorm = .fin (τ : ℂ) ∧
    0 ≤ τ ∧ w = (b - A x) - ((θ * θ : ℝ) * η : ℂ) • A d ∧ P * ‖b - A x‖ ≤ Real.sqrt (m * P ^ 2 + N ^ 2) * τ

theorem tfPass_C {P N : ℝ} (hP : 0 ≤ P) (m : ℕ) (α : Cx) (s : TFLoop Cx (CVec ι)) (hs : CQuasi A b P N m s)
    (hu : s.u = CVec.op A s.z) : CQuasi A b P N (m+1) (tfPass α s) := by
  intro x' hx'
  simp only [tfPass] at hx' ⊢
  obtain ⟨x, ηd, hx, h1, rfl⟩ := CVec.add_fin hx'
  obtain ⟨η', d', hη, hd, rfl⟩ := CVec.smul_fin h1
  obtain ⟨w, d, θ, τ, η, hw, hdd, hθ, hηη, hτ, hτ0, hwr, hb⟩ := hs x hx
  obtain ⟨d1, z, h2, hz, rfl⟩ := CVec.add_fin hd
  obtain ⟨c1, d0, h3, h4, rfl⟩ := CVec.smul_fin h2
  rw [hdd] at h4
  cases h4
  obtain ⟨n1, a, h5, rfl, ha, rfl⟩ := Cx.div_fin h3
  rw [hθ, hηη, Cx.fin_mul, Cx.fin_mul] at h5
  cases h5
  -- the new w
  have hw' : s.w - smul (Cx.fin a) s.u = .fin (w - a • A z) := by
    rw [hw, hu, hz, CVec.op_fin, CVec.fin_smul, CVec.fin_sub]
  rw [hw', CVec.fin_norm, hτ] at hη ⊢
  set w' := w - a • A z with hw''
  by_cases hτ1 : τ = 0
  · exfalso
    subst hτ1
    rw [show (Cx.fin (‖w'‖ : ℂ) / Cx.fin ((0 : ℝ) : ℂ)) = Cx.nan from by rw [Complex.ofReal_zero, Cx.div_zero]] at hη
    simp at hη
  have hτpos : 0 < τ := lt_of_le_of_ne hτ0 (Ne.symm hτ1)
  set θ' : ℝ := ‖w'‖ / τ with hθdef
  have eθ : Cx.fin (‖w'‖ : ℂ) / Cx.fin (τ : ℂ) = Cx.fin (θ' : ℂ) := by
    rw [Cx.fin_div _ (by exact_mod_cast hτ1), hθdef, Complex.ofReal_div]
  rw [eθ] at hη ⊢
  have hθ0 : 0 ≤ θ' := by positivity
  set sq : ℝ := Real.sqrt (1 + θ' * θ') with hsq
  have hsq2 : sq * sq = 1 + θ' * θ' := Real.mul_self_sqrt (by positivity)
  have hsqpos : 0 < sq := Real.sqrt_pos.2 (by positivity)
  have esq : Scalar.sqrt (lit 1 + Cx.fin (θ' : ℂ) * Cx.fin (θ' : ℂ)) = Cx.fin (sq : ℂ) := by
    rw [Cx.lit_eq, Cx.fin_mul, Cx.fin_add, ← Cx.sqrt_real (by positivity)]
    congr 2; push_cast; ring
  set c : ℝ := 1 / sq with hcdef
  have ec : (lit 1 : Cx) / Cx.fin (sq : ℂ) = Cx.fin (c : ℂ) := by
    rw [Cx.lit_eq, Cx.fin_div _ (by exact_mod_cast hsqpos.ne'), hcdef]; push_cast; rfl
  rw [esq, ec] at hη ⊢
  rw [Cx.fin_mul, Cx.fin_mul] at hη ⊢
  cases hη
  have hc : c * sq = 1 := by rw [hcdef]; field_simp
  have hcpos : 0 < c := by rw [hcdef]; positivity
  have hc2 : c * c * (1 + θ' * θ') = 1 := by rw [← hsq2]; linear_combination (c * sq + 1) * hc
  have hAd : A (((θ * θ * η : ℂ) / a) • d + z) = (1 / a) • ((b - A x) - w') := by
    rw [map_add, map_smul, hw'', hwr]
    have e : (1 / a) • (b - A x - (b - A x - ((θ * θ : ℝ) * η : ℂ) • A d - a • A z)) =
        ((θ * θ : ℝ) * η / a : ℂ) • A d + ((1 / a) * a) • A z := by module
    rw [e, one_div_mul_cancel ha, one_smul]; push_cast; rfl
  have hr' : b - A (x + ((c : ℂ) * c * a) • (((θ * θ * η : ℂ) / a) • d + z)) =
      (b - A x) - ((c * c : ℝ) : ℂ) • ((b - A x) - w') := by
    rw [map_add, map_smul, hAd, smul_smul, show (c : ℂ) * c * a * (1 / a) = ((c * c : ℝ) : ℂ) by push_cast; field_simp]
    abel
  refine ⟨w', _, θ', τ * (θ' * c), _, rfl, hd, rfl, rfl, ?_, by positivity, ?_, ?_⟩
  · rw [Cx.fin_mul, Cx.fin_mul]; push_cast; rfl
  · rw [hr', hAd, smul_smul]
    have e : (((θ' * θ' : ℝ) : ℂ) * ((c : ℂ) * c * a)) * (1 / a) = ((1 - c * c : ℝ) : ℂ) := by
      have : θ' * θ' * (c * c) = 1 - c * c := by linear_combination hc2
      rw [← this]; push_cast; field_simp
    rw [e]
    push_cast
    module
  · rw [hr']
    have e1 : (b - A x) - ((c * c : ℝ) : ℂ) • ((b - A x) - w') =
        (((θ' * c) * (θ' * c) : ℝ) : ℂ) • (b - A x) + ((c * c : ℝ) : ℂ) • w' := by
      have e : (θ' * c) * (θ' * c) = 1 - c * c := by linear_combination hc2
      rw [e]; push_cast; module
    have hnw : ‖w'‖ = θ' * τ := by rw [hθdef]; field_simp
    have hS0 : (0:ℝ) ≤ m * P ^ 2 + N ^ 2 := by positivity
    have hn : ‖(b - A x) - ((c * c : ℝ) : ℂ) • ((b - A x) - w')‖ ≤ ((θ' * c) * (θ' * c)) * ‖b - A x‖ + (c * c) * (θ' * τ) := by
      rw [e1, ← hnw]
      refine (norm_add_le _ _).trans ?_
      rw [norm_smul, norm_smul, Complex.norm_of_nonneg (by positivity), Complex.norm_of_nonneg (by positivity)]
    calc P * ‖(b - A x) - ((c * c : ℝ) : ℂ) • ((b - A x) - w')‖
        ≤ P * (((θ' * c) * (θ' * c)) * ‖b - A x‖ + (c * c) * (θ' * τ)) := by gcongr
      _ = ((θ' * c) * (θ' * c)) * (P * ‖b - A x‖) + P * ((c * c) * (θ' * τ)) := by ring
      _ ≤ ((θ' * c) * (θ' * c)) * (Real.sqrt (m * P ^ 2 + N ^ 2) * τ) + P * ((c * c) * (θ' * τ)) := by gcongr
      _ = (Real.sqrt (m * P ^ 2 + N ^ 2) * (θ' * c) + P * c) * (τ * (θ' * c)) := by ring
      _ ≤ Real.sqrt ((m + 1 : ℕ) * P ^ 2 + N ^ 2) * (τ * (θ' * c)) := by
          gcongr
          apply Real.le_sqrt_of_sq_le
          push_cast
          have h1 : Real.sqrt (m * P ^ 2 + N ^ 2) * Real.sqrt (m * P ^ 2 + N ^ 2) = m * P ^ 2 + N ^ 2 := Real.mul_self_sqrt hS0
          have hsc : (θ' * c) * (θ' * c) + c * c = 1 := by linear_combination hc2
          nlinarith [sq_nonneg (Real.sqrt (m * P ^ 2 + N ^ 2) * c - P * (θ' * c))]

/-- loop invariant -/
structure TfC (A : EuclideanSpace ℂ ι →ₗ[ℂ] EuclideanSpace ℂ ι) (b : EuclideanSpace ℂ ι) (P N : ℝ) (s : TFLoop Cx (CVec ι)) : Prop where
  top : s.finished = false → CQuasi A b P N (2 * s.k) s ∧ s.u = CVec.op A s.z
  fin : s.finished = true → s.m ≠ none → ∃ m : ℕ, s.m = some (.fin (m : ℂ)) ∧ CQuasi A b P N m s

theorem tfStep_C {P N : ℝ} (hP : 0 ≤ P) (precon : Option (CVec ι → CVec ι)) (t : Cx) (mm : Nat) (r0 : CVec ι)
    (s : TFLoop Cx (CVec ι)) (hs : TfC A b P N s) (hf : s.finished = false) :
    TfC A b P N (tfStep (CVec.op A) precon t mm r0 s) := by
  obtain ⟨h1, hu⟩ := hs.top hf
  have hm : (lit 2 * lit ((s.k + 1 : Nat) : ℚ) - lit 1 : Cx) = .fin ((2 * s.k + 1 : ℕ) : ℂ) := by
    simp only [Cx.lit_eq, Cx.fin_mul, Cx.fin_sub]; congr 1; push_cast; ring
  have hm2 : (Cx.fin ((2 * s.k + 1 : ℕ) : ℂ) + lit 1 : Cx) = .fin ((2 * s.k + 2 : ℕ) : ℂ) := by
    simp only [Cx.lit_eq, Cx.fin_add]; congr 1; push_cast; ring
  unfold tfStep
  simp only [hm, hm2]
  have p1 := tfPass_C hP (2 * s.k) (s.rho / dot r0 s.v) s h1 hu
  split
  · exact ⟨fun h => (by cases h), fun _ _ => ⟨2 * s.k + 1, rfl, p1⟩⟩
  · have p2 := tfPass_C hP (2 * s.k + 1) (s.rho / dot r0 s.v)
      (tfMid (CVec.op A) precon (s.rho / dot r0 s.v) (.fin ((2 * s.k + 2 : ℕ) : ℂ))
        { tfPass (s.rho / dot r0 s.v) s with k := s.k + 1, m := some (.fin ((2 * s.k + 1 : ℕ) : ℂ)) }) p1 rfl
    split
    · exact ⟨fun h => (by cases h), fun _ _ => ⟨2 * s.k + 2, rfl, p2⟩⟩
    · refine ⟨fun _ => ⟨?_, rfl⟩, fun h => ?_⟩
      · exact p2
      · change s.finished = true at h
        rw [hf] at h; cases h

/-! ### CG -/

/-- the residual of CG is `A x - b` -/
def CgTrue (A : EuclideanSpace ℂ ι →ₗ[ℂ] EuclideanSpace ℂ ι) (b : EuclideanSpace ℂ ι) (s : CGLoop Cx (CVec ι)) : Prop :=
  s.residNorm = Scalar.abs (Scalar.sqrt s.ry) ∧ s.ry = dot s.r s.r ∧ ∀ r, s.r = .fin r → ∃ x, s.x = .fin x ∧ r = A x - b

theorem cgStep_C (kw : CGKw (CVec ι)) (s : CGLoop Cx (CVec ι)) (hs : CgTrue A b s) : CgTrue A b (cgStep (CVec.op A) none kw s) := by
  obtain ⟨h1, h2, h3⟩ := hs
  cases h : (kw.checkCurvature && notPositive (dot s.p (CVec.op A s.p)))
  · rw [cgStep_def h]
    refine ⟨rfl, rfl, fun r hr => ?_⟩
    simp only at hr ⊢
    obtain ⟨r', d, e1, e2, rfl⟩ := CVec.add_fin hr
    obtain ⟨α', ap, e3, e4, rfl⟩ := CVec.smul_fin e2
    obtain ⟨p', e5, rfl⟩ := CVec.op_eq_fin e4
    obtain ⟨v, e6, rfl⟩ := h3 r' e1
    rw [e3, e5, e6]
    exact ⟨v + α' • p', rfl, by rw [map_add, map_smul]; abel⟩
  · rw [cgStep_indef h]; exact ⟨h1, h2, h3⟩

/-! ### The recurrences of CG with a symmetric bilinear form (COCG) -/

section cocg
variable {E : Type} [AddCommGroup E] [Module ℂ E] (B : E →ₗ[ℂ] E →ₗ[ℂ] ℂ) (A : E →ₗ[ℂ] E) (r0 : E) (x0 : E)

structure CIt (E : Type) where
  x : E
  r : E
  p : E

noncomputable def cstep (s : CIt E) : CIt E :=
  let α := B s.r s.r / B s.p (A s.p)
  let r := s.r + α • A s.p
  ⟨s.x + α • s.p, r, (B r r / B s.r s.r) • s.p - r⟩

noncomputable def cseq : ℕ → CIt E
  | 0 => ⟨x0, r0, -r0⟩
  | k + 1 => cstep B A (cseq k)

noncomputable abbrev crs (k : ℕ) : E := (cseq B A r0 x0 k).r
noncomputable abbrev cps (k : ℕ) : E := (cseq B A r0 x0 k).p
noncomputable def cal (k : ℕ) : ℂ := B (crs B A r0 x0 k) (crs B A r0 x0 k) / B (cps B A r0 x0 k) (A (cps B A r0 x0 k))
noncomputable def cbe (k : ℕ) : ℂ := B (crs B A r0 x0 (k+1)) (crs B A r0 x0 (k+1)) / B (crs B A r0 x0 k) (crs B A r0 x0 k)

theorem crs_succ (k : ℕ) : crs B A r0 x0 (k+1) = crs B A r0 x0 k + cal B A r0 x0 k • A (cps B A r0 x0 k) := rfl
theorem cps_succ (k : ℕ) : cps B A r0 x0 (k+1) = cbe B A r0 x0 k • cps B A r0 x0 k - crs B A r0 x0 (k+1) := rfl

structure COrth (k : ℕ) : Prop where
  rr : ∀ i j, i < j → j ≤ k → B (crs B A r0 x0 i) (crs B A r0 x0 j) = 0
  pp : ∀ i j, i < j → j ≤ k → B (cps B A r0 x0 j) (A (cps B A r0 x0 i)) = 0
  pr : ∀ i, i < k → B (cps B A r0 x0 i) (crs B A r0 x0 k) = 0
  prr : B (cps B A r0 x0 k) (crs B A r0 x0 k) = -B (crs B A r0 x0 k) (crs B A r0 x0 k)

variable {B A r0 x0}

theorem crs_eq (i : ℕ) : ∃ c : ℂ, (i = 0 → c = 0) ∧ crs B A r0 x0 i = c • cps B A r0 x0 (i - 1) - cps B A r0 x0 i := by
  cases i with
  | zero => exact ⟨0, fun _ => rfl, by simp [crs, cps, cseq]⟩
  | succ i => exact ⟨cbe B A r0 x0 i, by simp, by rw [cps_succ]; simp⟩

theorem corth (hB : ∀ u v, B u v = B v u) (hA : ∀ u v, B (A u) v = B u (A v)) : ∀ k,
    (∀ j < k, B (crs B A r0 x0 j) (crs B A r0 x0 j) ≠ 0) → (∀ j < k, B (cps B A r0 x0 j) (A (cps B A r0 x0 j)) ≠ 0) →
    COrth B A r0 x0 k
  | 0, _, _ => by
    refine ⟨by intro i j h1 h2; omega, by intro i j h1 h2; omega, by intro i h; omega, ?_⟩
    simp [crs, cps, cseq]
  | k + 1, hne, hpe => by
    have ih := corth hB hA k (fun j hj => hne j (by omega)) (fun j hj => hpe j (by omega))
    have hrr := hne k (by omega)
    have hpAp := hpe k (by omega)
    have pr : ∀ i, i < k + 1 → B (cps B A r0 x0 i) (crs B A r0 x0 (k+1)) = 0 := by
      intro i hi
      rw [crs_succ, map_add, map_smul, smul_eq_mul]
      rcases Nat.lt_or_ge i k with h | h
      · rw [ih.pr i h, ← hA, hB, ih.pp i k h le_rfl]; ring
      · obtain rfl : i = k := by omega
        rw [ih.prr, cal]; field_simp; ring
    have rr : ∀ i, i < k + 1 → B (crs B A r0 x0 i) (crs B A r0 x0 (k+1)) = 0 := by
      intro i hi
      obtain ⟨c, hc0, hc⟩ := crs_eq (B := B) (A := A) (r0 := r0) (x0 := x0) i
      rw [hc, map_sub, map_smul, LinearMap.sub_apply, LinearMap.smul_apply, pr i hi]
      cases i with
      | zero => simp [hc0 rfl]
      | succ i => rw [show i + 1 - 1 = i by omega, pr i (by omega)]; simp
    have prr : B (cps B A r0 x0 (k+1)) (crs B A r0 x0 (k+1)) = -B (crs B A r0 x0 (k+1)) (crs B A r0 x0 (k+1)) := by
      conv_lhs => rw [cps_succ, map_sub, map_smul, LinearMap.sub_apply, LinearMap.smul_apply, pr k (by omega)]
      simp
    have hAp : ∀ i, i < k + 1 → A (cps B A r0 x0 i) = (cal B A r0 x0 i)⁻¹ • (crs B A r0 x0 (i+1) - crs B A r0 x0 i) := by
      intro i hi
      have h2 : cal B A r0 x0 i ≠ 0 := div_ne_zero (hne i hi) (hpe i hi)
      rw [crs_succ, add_sub_cancel_left, smul_smul, inv_mul_cancel₀ h2, one_smul]
    have pp : ∀ i, i < k + 1 → B (cps B A r0 x0 (k+1)) (A (cps B A r0 x0 i)) = 0 := by
      intro i hi
      rw [cps_succ, map_sub, map_smul, LinearMap.sub_apply, LinearMap.smul_apply, smul_eq_mul]
      rcases Nat.lt_or_ge i k with h | h
      · rw [ih.pp i k h le_rfl, hAp i hi, map_smul, map_sub, hB, rr (i+1) (by omega), hB, rr i (by omega)]
        simp
      · obtain rfl : i = k := by omega
        have h1 : B (crs B A r0 x0 (i+1)) (A (cps B A r0 x0 i)) =
            (cal B A r0 x0 i)⁻¹ * B (crs B A r0 x0 (i+1)) (crs B A r0 x0 (i+1)) := by
          rw [hAp i hi, map_smul, map_sub, hB _ (crs B A r0 x0 i), rr i (by omega)]; simp
        rw [h1, cbe, cal]
        field_simp
        ring
    refine ⟨?_, ?_, pr, prr⟩
    · intro i j hij hj
      rcases Nat.lt_or_ge j (k+1) with h | h
      · exact ih.rr i j hij (by omega)
      · obtain rfl : j = k + 1 := by omega
        exact rr i hij
    · intro i j hij hj
      rcases Nat.lt_or_ge j (k+1) with h | h
      · exact ih.pp i j hij (by omega)
      · obtain rfl : j = k + 1 := by omega
        exact pp i hij

/-- at most as many residuals with nonzero square as dimensions -/
theorem cterminates [FiniteDimensional ℂ E] (hB : ∀ u v, B u v = B v u) (hA : ∀ u v, B (A u) v = B u (A v)) (k : ℕ)
    (hne : ∀ j ≤ k, B (crs B A r0 x0 j) (crs B A r0 x0 j) ≠ 0) (hpe : ∀ j < k, B (cps B A r0 x0 j) (A (cps B A r0 x0 j)) ≠ 0) :
    k + 1 ≤ Module.finrank ℂ E := by
  have o := corth hB hA k (fun j hj => hne j hj.le) hpe
  let v : Fin (k + 1) → E := fun i => crs B A r0 x0 i
  have hli : LinearIndependent ℂ v := by
    apply LinearMap.linearIndependent_of_isOrthoᵢ (B := B)
    · intro i j hij
      change B (v i) (v j) = 0
      rcases lt_or_gt_of_ne (fun h => hij (Fin.ext h)) with h | h
      · exact o.rr i j h (by omega)
      · rw [hB]; exact o.rr j i h (by omega)
    · intro i; exact hne i (by omega)
  have := hli.fintype_card_le_finrank
  simpa using this

end cocg
end Verif.Solver
