import Verif.Solver.LSQRProps
import Verif.Solver.LsqrMath
import Verif.Solver.MinresExact

/-!
# Properties of LSQR in exact arithmetic: C38 and convergence
-/

namespace Verif.Solver
open Scalar Vect
open scoped RealInnerProductSpace
open MinresMath (krylov)
open LsqrMath

variable {E F : Type} [NormedAddCommGroup E] [InnerProductSpace ℝ E] [NormedAddCommGroup F] [InnerProductSpace ℝ F]

/-- An LSQR problem without preconditioners and with finite data: the operator, its transpose and the right-hand side, and the
keywords. -/
structure LsqrProblem (E F : Type) [NormedAddCommGroup E] [InnerProductSpace ℝ E] [NormedAddCommGroup F]
    [InnerProductSpace ℝ F] where
  A : E →ₗ[ℝ] F
  B : F →ₗ[ℝ] E
  b : F
  /-- number of columns -/
  n : ℕ
  damp : ℝ
  itnlim : ℤ
  atol : ℝ
  btol : ℝ
  etol : ℝ
  conlim : ℝ
  storeResids : Bool
  storeIterates : Bool
  window : ℕ

/-- the keywords of a problem -/
noncomputable def LsqrProblem.kw (q : LsqrProblem E F) : LsqrKw Fl (Vec F) (Vec E) :=
  { itnlim := q.itnlim, damp := .fin q.damp, atol := .fin q.atol, btol := .fin q.btol, conlim := .fin q.conlim,
    etol := .fin q.etol, inf := .nan, storeResids := q.storeResids, storeIterates := q.storeIterates, window := q.window }

/-- what is required of the data: `B` is the transpose of `A`, the tolerances are not negative, the window is not empty -/
structure LsqrProblem.Valid (q : LsqrProblem E F) : Prop where
  adj : ∀ x y, ⟪q.A x, y⟫ = ⟪x, q.B y⟫
  atol : 0 ≤ q.atol
  btol : 0 ≤ q.btol
  window : q.window ≠ 0

/-- `sqrt(|b - Ax|^2 + damp^2 |x|^2)` -/
noncomputable def LsqrProblem.resid (q : LsqrProblem E F) (x : E) : ℝ :=
  Real.sqrt (‖q.b - q.A x‖ ^ 2 + q.damp ^ 2 * ‖x‖ ^ 2)

/-- `|A'(b - Ax) - damp^2 x|` -/
noncomputable def LsqrProblem.normal (q : LsqrProblem E F) (x : E) : ℝ := ‖q.B (q.b - q.A x) - (q.damp * q.damp) • x‖

/-! ### One iteration -/

/-- the loop variables carry finite values -/
structure LRel (s : LsqrLoop Fl (Vec F) (Vec E)) (x w v : E) (u : F) (α ρ φ res2 xx z c2 s2 an dd : ℝ) : Prop where
  an0 : 0 ≤ an
  dd0 : 0 ≤ dd
  xx0 : 0 ≤ xx
  res20 : 0 ≤ res2
  x : s.x = .fin x
  Mu : s.Mu = .fin u
  Nv : s.Nv = .fin v
  v : s.v = some (.fin v)
  w : s.w = some (.fin w)
  alpha : s.alpha = .fin α
  rhobar : s.rhobar = .fin ρ
  phibar : s.phibar = .fin φ
  res2 : s.res2 = .fin res2
  xxnorm : s.xxnorm = .fin xx
  z : s.z = .fin z
  cs2 : s.cs2 = .fin c2
  sn2 : s.sn2 = .fin s2
  Anorm : s.Anorm = .fin an
  ddnorm : s.ddnorm = .fin dd

theorem ok_bind {ε α β : Type} (a : α) (f : α → Except ε β) : (Except.ok a >>= f) = f a := rfl

theorem pydiv_fin (a : ℝ) {b : ℝ} (hb : b ≠ 0) : pydiv (Fl.fin a) (Fl.fin b) = .ok (.fin (a / b)) := by
  unfold pydiv
  have : feq (Fl.fin b) (lit 0) = false := by
    unfold feq
    rcases lt_or_gt_of_ne hb with h | h
    · rw [Bool.and_eq_false_iff]; right
      rw [← Bool.not_eq_true, Fl.lit_eq, Fl.fin_le, not_le]; simpa using h
    · rw [Bool.and_eq_false_iff]; left
      rw [← Bool.not_eq_true, Fl.lit_eq, Fl.fin_le, not_le]; simpa using h
  rw [this, Fl.fin_div _ hb]; rfl

theorem feq_fin_zero (a : ℝ) : feq (Fl.fin a) (lit 0) = true ↔ a = 0 := by
  unfold feq
  rw [Bool.and_eq_true, Fl.lit_eq, Fl.fin_le, Fl.fin_le]
  simp only [Rat.cast_zero]
  exact ⟨fun h => le_antisymm h.1 h.2, fun h => ⟨h.le, h.ge⟩⟩

theorem pysqrt_fin {a : ℝ} (h : 0 ≤ a) : pysqrt (Fl.fin a) = .ok (.fin (Real.sqrt a)) := by
  unfold pysqrt
  have : lt (Fl.fin a) (lit 0) = false := by
    rw [← Bool.not_eq_true, Fl.lit_eq, Fl.fin_lt, not_lt]; simpa using h
  rw [this, Fl.fin_sqrt h]; rfl

theorem gt_fin_zero (a : ℝ) : gt (Fl.fin a) (lit 0) = true ↔ 0 < a := by
  unfold Scalar.gt
  rw [Fl.lit_eq, Fl.fin_lt, Rat.cast_zero]

theorem normof4_fin (a b c d : ℝ) :
    normof4 (Fl.fin a) (.fin b) (.fin c) (.fin d) = .fin (Real.sqrt (a * a + b * b + c * c + d * d)) := by
  unfold normof4
  simp only [Fl.fin_mul, Fl.fin_add]
  rw [Fl.fin_sqrt (by nlinarith [mul_self_nonneg a, mul_self_nonneg b, mul_self_nonneg c, mul_self_nonneg d])]

/-- the bidiagonalization step if the next left vector is zero -/
theorem lsqrBidiag_zero (q : LsqrProblem E F) {s : LsqrLoop Fl (Vec F) (Vec E)} {v : E} {u : F} {α an : ℝ}
    (hMu : s.Mu = .fin u) (hNv : s.Nv = .fin v) (hα : s.alpha = .fin α) (han : s.Anorm = .fin an) (h0 : q.A v - α • u = 0) :
    lsqrBidiag (Vec.op q.A) (Vec.op q.B) q.kw s (.fin v) =
      .ok (.fin 0, .fin v, .fin v, .fin α, .fin 0, .fin an, s.products + 1) := by
  unfold lsqrBidiag
  have hM : ∀ z : Vec F, applyPrecon q.kw.M z = z := fun _ => rfl
  simp only [hMu, hα, Vec.op_fin, Vec.fin_smul, Vec.fin_sub, h0, hM, Vec.fin_dot, inner_zero_left, pysqrt_fin le_rfl,
    Real.sqrt_zero]
  change (if gt (Fl.fin 0) (lit 0) = true then _ else _) = _
  rw [if_neg (by rw [gt_fin_zero]; exact lt_irrefl _), hNv, han]
  rfl

/-- the bidiagonalization step if the next left vector is not zero -/
theorem lsqrBidiag_ne (q : LsqrProblem E F) {s : LsqrLoop Fl (Vec F) (Vec E)} {v : E} {u : F} {α an : ℝ}
    (hMu : s.Mu = .fin u) (hNv : s.Nv = .fin v) (hα : s.alpha = .fin α) (han : s.Anorm = .fin an) (h0 : q.A v - α • u ≠ 0) :
    ∃ (β α' : ℝ) (u' : F) (v' : E), 0 < β ∧ β • u' = q.A v - α • u ∧ ⟪u', u'⟫ = 1 ∧ α' • v' = q.B u' - β • v ∧ 0 ≤ α' ∧
      (α' ≠ 0 → ⟪v', v'⟫ = 1) ∧ (α' = 0 → v' = 0) ∧
      lsqrBidiag (Vec.op q.A) (Vec.op q.B) q.kw s (.fin v) =
        .ok (.fin u', .fin v', .fin v', .fin α', .fin β,
          .fin (Real.sqrt (an * an + α * α + β * β + q.damp * q.damp)), s.products + 2) := by
  have hβ : 0 < ‖q.A v - α • u‖ := norm_pos_iff.2 h0
  set p := q.A v - α • u with hp
  set β := ‖p‖ with hβd
  set r := q.B (β⁻¹ • p) - β • v with hr
  refine ⟨β, ‖r‖, β⁻¹ • p, ‖r‖⁻¹ • r, hβ, by rw [smul_smul, mul_inv_cancel₀ hβ.ne', one_smul], ?_, ?_, norm_nonneg _, ?_, ?_, ?_⟩
  · rw [inner_smul_left, inner_smul_right, real_inner_self_eq_norm_mul_norm, ← hβd]
    simp only [conj_trivial]; field_simp
  · by_cases h : r = 0
    · rw [← hr, h]; simp
    · rw [smul_smul, mul_inv_cancel₀ (norm_ne_zero_iff.2 h), one_smul]
  · intro h
    rw [inner_smul_left, inner_smul_right, real_inner_self_eq_norm_mul_norm]
    simp only [conj_trivial]; field_simp
  · intro h
    rw [norm_eq_zero] at h
    rw [h, smul_zero]
  · have hM : ∀ z : Vec F, applyPrecon q.kw.M z = z := fun _ => rfl
    have hN : ∀ z : Vec E, applyPrecon q.kw.N z = z := fun _ => rfl
    have hsq : Real.sqrt ⟪p, p⟫ = β := by
      rw [real_inner_self_eq_norm_sq, Real.sqrt_sq (norm_nonneg _)]
    have hsq' : Real.sqrt ⟪r, r⟫ = ‖r‖ := by
      rw [real_inner_self_eq_norm_sq, Real.sqrt_sq (norm_nonneg _)]
    have e1 : Vec.op q.A (Vec.fin v) - smul s.alpha s.Mu = .fin p := by rw [hMu, hα]; rfl
    have e2 : pysqrt (dot (Vec.fin p) (Vec.fin p)) = .ok (.fin β) := by
      rw [Vec.fin_dot, pysqrt_fin real_inner_self_nonneg, hsq]
    have e3 : Vec.op q.B (Vec.fin (β⁻¹ • p)) - smul (Fl.fin β) s.Nv = .fin r := by rw [hNv]; rfl
    have e4 : pysqrt (dot (Vec.fin r) (Vec.fin r)) = .ok (.fin ‖r‖) := by
      rw [Vec.fin_dot, pysqrt_fin real_inner_self_nonneg, hsq']
    have e5 : normof4 s.Anorm s.alpha (Fl.fin β) q.kw.damp = .fin (Real.sqrt (an * an + α * α + β * β + q.damp * q.damp)) := by
      rw [han, hα]; exact normof4_fin _ _ _ _
    unfold lsqrBidiag
    simp only [hM, hN, e1, e2]
    change (if gt (Fl.fin β) (lit 0) = true then _ else _) = _
    rw [if_pos ((gt_fin_zero _).2 hβ)]
    simp only [Vec.fin_vdiv _ hβ.ne', e3, e4, e5]
    change (if gt (Fl.fin ‖r‖) (lit 0) = true then _ else _) = _
    by_cases h : r = 0
    · rw [if_neg (by rw [gt_fin_zero, h, norm_zero]; exact lt_irrefl _), h, smul_zero]; rfl
    · rw [if_pos ((gt_fin_zero _).2 (norm_pos_iff.2 h)), Vec.fin_vdiv _ (norm_ne_zero_iff.2 h)]; rfl

theorem lsqrRot1_fin {d ρ : ℝ} (φ : ℝ) (hρ : ρ ≠ 0) : lsqrRot1 (Fl.fin d) (.fin ρ) (.fin φ) =
    .ok (.fin (rho1 d ρ), .fin (d / rho1 d ρ * φ), .fin (ρ / rho1 d ρ * φ)) := by
  have h := (rho1_pos (d := d) hρ).ne'
  unfold lsqrRot1
  have e : normof2 (Fl.fin ρ) (.fin d) = .fin (rho1 d ρ) := normof2_fin ρ d
  simp only [e, pydiv_fin _ h]
  rfl

theorem lsqrRot2_fin {d ρ : ℝ} (β α φ : ℝ) (hρ : ρ ≠ 0) : lsqrRot2 (Fl.fin (rho1 d ρ)) (.fin β) (.fin α) (.fin φ) =
    .ok (.fin (rho d ρ β), .fin (β / rho d ρ β * α), .fin (-(rho1 d ρ / rho d ρ β) * α), .fin (rho1 d ρ / rho d ρ β * φ),
      .fin (β / rho d ρ β * φ), .fin (β / rho d ρ β * (rho1 d ρ / rho d ρ β * φ)),
      .fin (rho1 d ρ / rho d ρ β * φ / rho d ρ β), .fin (-(β / rho d ρ β * α) / rho d ρ β)) := by
  have h := (rho_pos (d := d) β hρ).ne'
  unfold lsqrRot2
  have e : normof2 (Fl.fin (rho1 d ρ)) (.fin β) = .fin (rho d ρ β) := normof2_fin _ _
  simp only [e, pydiv_fin _ h, ok_bind, Fl.fin_mul, Fl.fin_neg]
  rfl

omit [NormedAddCommGroup E] [InnerProductSpace ℝ E] [NormedAddCommGroup F] [InnerProductSpace ℝ F] in
theorem lsqrXnorm_fin {s : LsqrLoop Fl (Vec F) (Vec E)} {xx z c2 s2 : ℝ} (h1 : s.xxnorm = .fin xx) (h2 : s.z = .fin z)
    (h3 : s.cs2 = .fin c2) (h4 : s.sn2 = .fin s2) (hxx : 0 ≤ xx) (hc : c2 ≠ 0) {r : ℝ} (hr : r ≠ 0) (θ φ : ℝ) :
    lsqrXnorm s (.fin r) (.fin θ) (.fin φ) =
      .ok (.fin (Real.sqrt (xx + (φ - s2 * r * z) / (-c2 * r) * ((φ - s2 * r * z) / (-c2 * r)))),
        .fin (-c2 * r / Real.sqrt (-c2 * r * (-c2 * r) + θ * θ)), .fin (θ / Real.sqrt (-c2 * r * (-c2 * r) + θ * θ)),
        .fin ((φ - s2 * r * z) / Real.sqrt (-c2 * r * (-c2 * r) + θ * θ))) := by
  have hg : -c2 * r ≠ 0 := mul_ne_zero (neg_ne_zero.2 hc) hr
  have hγ : Real.sqrt (-c2 * r * (-c2 * r) + θ * θ) ≠ 0 :=
    (Real.sqrt_pos.2 (add_pos_of_pos_of_nonneg (mul_self_pos.2 hg) (mul_self_nonneg _))).ne'
  unfold lsqrXnorm
  simp only [h1, h2, h3, h4, Fl.fin_mul, Fl.fin_neg, Fl.fin_sub, pydiv_fin _ hg, normof2_fin, pydiv_fin _ hγ]
  change Except.ok (sqrt (Fl.fin xx + Fl.fin _ * Fl.fin _), _, _, _) = _
  rw [Fl.fin_mul, Fl.fin_add, Fl.fin_sqrt (add_nonneg hxx (mul_self_nonneg _))]

/-- the quantities of the stopping tests do not raise, and codes 3 and 6 are not used -/
theorem lsqrQuantities_fin (q : LsqrProblem E F) (hq : q.Valid) (direct : Bool) {bn an ac rn ar xn : ℝ} (hbn : 0 < bn)
    (han : 0 ≤ an) (hac : 0 ≤ ac) (hxn : 0 ≤ xn) (hrn0 : 0 ≤ rn) (har0 : 0 ≤ ar) :
    ∃ t, lsqrQuantities q.kw direct (.fin bn) (.fin an) (.fin ac) (.fin rn) (.fin ar) (.fin xn) = .ok t ∧
      (∀ lim itn, lsqrStop q.kw lim itn t ≠ 3 ∧ lsqrStop q.kw lim itn t ≠ 6) ∧
      (ar = 0 → (an ≠ 0 ∨ rn = 0) → ∀ lim itn, lsqrStop q.kw lim itn t = 1 ∨ lsqrStop q.kw lim itn t = 2) ∧
      (q.atol = 0 → q.btol = 0 → direct = false → ∀ lim itn,
        lsqrStop q.kw lim itn t = 0 ∨ lsqrStop q.kw lim itn t = 7 ∨ ar = 0 ∨ rn = 0) := by
  have hq1 : 0 ≤ an * xn / bn := by positivity
  have hne : 1 + an * xn / bn ≠ 0 := by linarith
  obtain ⟨test2, h2, h2'⟩ : ∃ test2, lsqrTest2 q.kw.inf (Fl.fin an) (.fin rn) (.fin ar) = .ok test2 ∧
      (ar = 0 → an ≠ 0 → rn ≠ 0 → test2 = .fin 0) ∧
      ((le test2 (Fl.fin 0) = true ∨ le (lit 1 + test2) (lit 1) = true) → ar = 0) := by
    unfold lsqrTest2
    by_cases h : an = 0 ∨ rn = 0
    · refine ⟨q.kw.inf, ?_, fun _ h1 h2 => absurd h (not_or.2 ⟨h1, h2⟩), fun h1 => by
        have : q.kw.inf = Fl.nan := rfl
        rw [this] at h1; simp at h1⟩
      rw [if_pos]
      rw [Bool.or_eq_true, feq_fin_zero, feq_fin_zero]; exact h
    · refine ⟨.fin (ar / (an * rn)), ?_, fun h1 _ _ => by rw [h1, zero_div], fun h1 => ?_⟩
      rotate_left
      · obtain ⟨h3, h4⟩ := not_or.1 h
        have hpos : 0 < an * rn := mul_pos (lt_of_le_of_ne han (Ne.symm h3)) (lt_of_le_of_ne hrn0 (Ne.symm h4))
        have h5 : ar / (an * rn) ≤ 0 := by
          rcases h1 with h1 | h1
          · rwa [Fl.fin_le] at h1
          · rw [Fl.lit_eq, Fl.fin_add, Fl.fin_le, Rat.cast_one] at h1; linarith
        have h6 : 0 ≤ ar / (an * rn) := by positivity
        have h7 : ar / (an * rn) = 0 := le_antisymm h5 h6
        rcases div_eq_zero_iff.1 h7 with h8 | h8
        · exact h8
        · exact absurd h8 hpos.ne'
      rw [if_neg (by rw [Bool.or_eq_true, feq_fin_zero, feq_fin_zero]; exact h), Fl.fin_mul]
      obtain ⟨h3, h4⟩ := not_or.1 h
      exact pydiv_fin _ (mul_ne_zero h3 h4)
  obtain ⟨test3, h3, h3'⟩ : ∃ test3, lsqrTest3 q.kw.inf (Fl.fin ac) = .ok test3 ∧
      (le test3 (lit 0) = false ∧ le (lit 1 + test3) (lit 1) = false) := by
    unfold lsqrTest3
    by_cases h : ac = 0
    · refine ⟨.nan, ?_, ?_, ?_⟩
      · rw [if_pos ((feq_fin_zero _).2 h)]; rfl
      · simp
      · simp
    · have hpos : 0 < 1 / ac := by positivity
      refine ⟨.fin (1 / ac), ?_, ?_, ?_⟩
      · rw [if_neg (by rw [feq_fin_zero]; exact h), Fl.lit_eq, Rat.cast_one]
        exact pydiv_fin _ h
      · rw [← Bool.not_eq_true, Fl.lit_eq, Fl.fin_le, not_le, Rat.cast_zero]; exact hpos
      · rw [← Bool.not_eq_true, Fl.lit_eq, Fl.fin_add, Fl.fin_le, not_le, Rat.cast_one]; linarith
  have e4 : pydiv (Fl.fin rn) (Fl.fin bn) = .ok (.fin (rn / bn)) := pydiv_fin _ hbn.ne'
  have e5 : pydiv (Fl.fin an * Fl.fin xn) (Fl.fin bn) = .ok (.fin (an * xn / bn)) := pydiv_fin _ hbn.ne'
  have e6 : pydiv (Fl.fin (rn / bn)) (lit 1 + Fl.fin (an * xn / bn)) = .ok (.fin (rn / bn / (1 + an * xn / bn))) := by
    rw [Fl.lit_eq, Fl.fin_add, Rat.cast_one]; exact pydiv_fin _ hne
  have e7 : pydiv (q.kw.atol * Fl.fin an * Fl.fin xn) (Fl.fin bn) = .ok (.fin (q.atol * an * xn / bn)) :=
    pydiv_fin _ hbn.ne'
  refine ⟨{ test1 := .fin (rn / bn), test2 := test2, test3 := test3, t1 := .fin (rn / bn / (1 + an * xn / bn)),
            rtol := q.kw.btol + .fin (q.atol * an * xn / bn), direct := direct }, ?_, ?_, ?_, ?_⟩
  · unfold lsqrQuantities
    simp only [e4, h2, h3, e5, ok_bind, e6, e7]
    rfl
  · intro lim itn
    rw [lsqrStop_eq]
    simp only [h3'.1, h3'.2, Bool.false_eq_true, if_false]
    constructor <;> split_ifs <;> omega
  · intro har hd lim itn
    rw [lsqrStop_eq]
    by_cases hrn : rn = 0
    · left
      have : le (Fl.fin (rn / bn)) (q.kw.btol + Fl.fin (q.atol * an * xn / bn)) = true := by
        change le (Fl.fin (rn / bn)) (Fl.fin (q.btol + q.atol * an * xn / bn)) = true
        rw [Fl.fin_le, hrn, zero_div]
        have := hq.atol
        have := hq.btol
        positivity
      simp only [this, if_true]
    · have han' : an ≠ 0 := hd.resolve_right hrn
      have : le test2 q.kw.atol = true := by
        rw [h2'.1 har han' hrn]
        change le (Fl.fin 0) (Fl.fin q.atol) = true
        rw [Fl.fin_le]; exact hq.atol
      simp only [this, if_true]
      split_ifs <;> simp
  · intro ha hb hd lim itn
    have hk1 : q.kw.atol = Fl.fin 0 := by rw [← ha]; rfl
    have hk2 : q.kw.btol = Fl.fin 0 := by rw [← hb]; rfl
    have hz : 0 ≤ rn / bn := by positivity
    have key : rn / bn = 0 → rn = 0 := fun h => (div_eq_zero_iff.1 h).resolve_right hbn.ne'
    rw [lsqrStop_eq]
    simp only [h3'.1, h3'.2, hd, Bool.false_eq_true, if_false, hk1, hk2, ha]
    split_ifs with c1 c2 c3 c4 c5
    · right; right; right
      rw [Fl.fin_add, Fl.fin_le] at c1
      simp only [zero_mul, zero_div, add_zero] at c1
      exact key (le_antisymm c1 hz)
    · right; right; left; exact h2'.2 (Or.inl c2)
    · right; right; right
      rw [Fl.lit_eq, Fl.fin_add, Fl.fin_le, Rat.cast_one] at c3
      have h5 : rn / bn / (1 + an * xn / bn) ≤ 0 := by linarith
      have h6 : 0 < 1 + an * xn / bn := by linarith
      rw [div_le_iff₀ h6, zero_mul] at h5
      exact key (le_antisymm h5 hz)
    · right; right; left; exact h2'.2 (Or.inr c4)
    · right; left; rfl
    · left; rfl

/-- a norm is not less than a nonpositive number -/
theorem normList_lt_false (l : List Fl) {e : ℝ} (he : e ≤ 0) (n : Fl) : lt (normList l) (Fl.fin e * sqrt n) = false := by
  rw [← Bool.not_eq_true]
  intro h
  obtain ⟨a, c, h1, h2, h3⟩ := Fl.lt_iff.1 h
  obtain ⟨a', -, -, rfl⟩ := Fl.sqrt_fin h1
  obtain ⟨e', m, h4, h5, rfl⟩ := Fl.mul_fin h2
  obtain ⟨m', -, -, rfl⟩ := Fl.sqrt_fin h5
  cases h4
  have := Real.sqrt_nonneg a'
  have := mul_nonpos_of_nonpos_of_nonneg he (Real.sqrt_nonneg m')
  linarith

/-- one iteration computes the recurrences -/
theorem lsqrStep_exact (q : LsqrProblem E F) (hq : q.Valid) (lim : ℤ) {bn : ℝ} (hbn : 0 < bn)
    {s : LsqrLoop Fl (Vec F) (Vec E)} {x w v : E} {u : F} {α ρ φ res2 xx z c2 s2 an dd : ℝ}
    (hr : LRel s x w v u α ρ φ res2 xx z c2 s2 an dd) (hρ : ρ ≠ 0) (hc : c2 ≠ 0) {u' : F} {v' : E} {α' β an' : ℝ} {p' : ℕ}
    (hbi : lsqrBidiag (Vec.op q.A) (Vec.op q.B) q.kw s (.fin v) =
      .ok (.fin u', .fin v', .fin v', .fin α', .fin β, .fin an', p')) (han : 0 ≤ an') (hα' : 0 ≤ α') :
    ∃ t θ γ rhs dd', θ = β / rho q.damp ρ β * α' ∧
      γ = Real.sqrt (-c2 * rho q.damp ρ β * (-c2 * rho q.damp ρ β) + θ * θ) ∧
      rhs = rho1 q.damp ρ / rho q.damp ρ β * (ρ / rho1 q.damp ρ * φ) - s2 * rho q.damp ρ β * z ∧
      lsqrStep (Vec.op q.A) (Vec.op q.B) q.kw lim (.fin bn) s = .ok t ∧
      LRel t (xnew q.damp ρ β φ x w) ((-θ / rho q.damp ρ β) • w + v') v' u' α' (-(rho1 q.damp ρ / rho q.damp ρ β) * α')
        (β / rho q.damp ρ β * (ρ / rho1 q.damp ρ * φ))
        (res2 + q.damp / rho1 q.damp ρ * φ * (q.damp / rho1 q.damp ρ * φ)) (xx + rhs / γ * (rhs / γ)) (rhs / γ)
        (-c2 * rho q.damp ρ β / γ) (θ / γ) an' dd' ∧
      t.xnorm = .fin (Real.sqrt (xx + rhs / (-c2 * rho q.damp ρ β) * (rhs / (-c2 * rho q.damp ρ β)))) ∧
      t.r2norm = .fin (Real.sqrt (β / rho q.damp ρ β * (ρ / rho1 q.damp ρ * φ) * (β / rho q.damp ρ β * (ρ / rho1 q.damp ρ * φ)) +
        (res2 + q.damp / rho1 q.damp ρ * φ * (q.damp / rho1 q.damp ρ * φ)))) ∧
      t.Arnorm = .fin (α' * |β / rho q.damp ρ β * (rho1 q.damp ρ / rho q.damp ρ β * (ρ / rho1 q.damp ρ * φ))|) ∧
      t.r1norm = (if lt (t.r2norm * t.r2norm - q.kw.damp * q.kw.damp * t.xxnorm) (lit 0) then
        -(sqrt (Scalar.abs (t.r2norm * t.r2norm - q.kw.damp * q.kw.damp * t.xxnorm)))
        else sqrt (Scalar.abs (t.r2norm * t.r2norm - q.kw.damp * q.kw.damp * t.xxnorm))) ∧
      t.products = p' ∧
      t.istop ≠ 3 ∧ t.istop ≠ 6 ∧
      (α' * |β / rho q.damp ρ β * (rho1 q.damp ρ / rho q.damp ρ β * (ρ / rho1 q.damp ρ * φ))| = 0 →
        (an' ≠ 0 ∨ β / rho q.damp ρ β * (ρ / rho1 q.damp ρ * φ) * (β / rho q.damp ρ β * (ρ / rho1 q.damp ρ * φ)) +
        (res2 + q.damp / rho1 q.damp ρ * φ * (q.damp / rho1 q.damp ρ * φ)) = 0) → t.istop = 1 ∨ t.istop = 2) ∧
      (q.atol = 0 → q.btol = 0 → q.etol ≤ 0 → t.istop = 0 ∨ t.istop = 7 ∨
        α' * |β / rho q.damp ρ β * (rho1 q.damp ρ / rho q.damp ρ β * (ρ / rho1 q.damp ρ * φ))| = 0 ∨
        Real.sqrt (β / rho q.damp ρ β * (ρ / rho1 q.damp ρ * φ) * (β / rho q.damp ρ β * (ρ / rho1 q.damp ρ * φ)) +
        (res2 + q.damp / rho1 q.damp ρ * φ * (q.damp / rho1 q.damp ρ * φ))) = 0) := by
  have h0' := rho_pos (d := q.damp) β hρ
  set r := rho q.damp ρ β with hrd
  set r1 := rho1 q.damp ρ with hr1
  have hv : bound "v" s.v = .ok (.fin v) := by rw [hr.v]; rfl
  have hw : bound "w" s.w = .ok (.fin w) := by rw [hr.w]; rfl
  have e1 : lsqrRot1 q.kw.damp s.rhobar s.phibar = .ok (.fin r1, .fin (q.damp / r1 * φ), .fin (ρ / r1 * φ)) := by
    rw [hr.rhobar, hr.phibar]; exact lsqrRot1_fin φ hρ
  have e2 := lsqrRot2_fin (d := q.damp) β α' (ρ / r1 * φ) hρ
  rw [← hrd, ← hr1] at e2
  have e3 : pydiv (lit 1) (Fl.fin r) = .ok (.fin (1 / r)) := by
    rw [Fl.lit_eq, Rat.cast_one]; exact pydiv_fin _ h0'.ne'
  have e4 : pymod (s.itn + 1) q.kw.window = .ok ((s.itn + 1) % q.kw.window) := if_neg hq.window
  have e5 := lsqrXnorm_fin hr.xxnorm hr.z hr.cs2 hr.sn2 hr.xx0 hc h0'.ne' (β / r * α') (r1 / r * (ρ / r1 * φ))
  have hdd : s.ddnorm + norm (smul (Fl.fin (1 / r)) (Vec.fin w)) * norm (smul (Fl.fin (1 / r)) (Vec.fin w)) =
      .fin (dd + ‖(1 / r) • w‖ * ‖(1 / r) • w‖) := by rw [hr.ddnorm]; rfl
  have hdd0 : 0 ≤ dd + ‖(1 / r) • w‖ * ‖(1 / r) • w‖ := add_nonneg hr.dd0 (mul_self_nonneg _)
  have hac : Fl.fin an' * sqrt (s.ddnorm + norm (smul (Fl.fin (1 / r)) (Vec.fin w)) * norm (smul (Fl.fin (1 / r)) (Vec.fin w))) =
      .fin (an' * Real.sqrt (dd + ‖(1 / r) • w‖ * ‖(1 / r) • w‖)) := by rw [hdd, Fl.fin_sqrt hdd0, Fl.fin_mul]
  have hrn0 : 0 ≤ β / r * (ρ / r1 * φ) * (β / r * (ρ / r1 * φ)) + (res2 + q.damp / r1 * φ * (q.damp / r1 * φ)) :=
    add_nonneg (mul_self_nonneg _) (add_nonneg hr.res20 (mul_self_nonneg _))
  have hrn : sqrt (Fl.fin (β / r * (ρ / r1 * φ)) * Fl.fin (β / r * (ρ / r1 * φ)) +
        (s.res2 + Fl.fin (q.damp / r1 * φ) * Fl.fin (q.damp / r1 * φ))) =
      .fin (Real.sqrt (β / r * (ρ / r1 * φ) * (β / r * (ρ / r1 * φ)) + (res2 + q.damp / r1 * φ * (q.damp / r1 * φ)))) := by
    rw [hr.res2]; simp only [Fl.fin_mul, Fl.fin_add]; rw [Fl.fin_sqrt hrn0]
  obtain ⟨tests, ht, ht1, ht2, ht3⟩ := lsqrQuantities_fin q hq
    (decide (s.itn + 1 > q.kw.window) && lt (normList (s.dErr.set ((s.itn + 1) % q.kw.window) (Fl.fin (r1 / r * (ρ / r1 * φ)))))
      (q.kw.etol * sqrt (s.xNrgNorm2 + Fl.fin (r1 / r * (ρ / r1 * φ)) * Fl.fin (r1 / r * (ρ / r1 * φ)))))
    (bn := bn) (an := an') (ac := an' * Real.sqrt (dd + ‖(1 / r) • w‖ * ‖(1 / r) • w‖))
    (rn := Real.sqrt (β / r * (ρ / r1 * φ) * (β / r * (ρ / r1 * φ)) + (res2 + q.damp / r1 * φ * (q.damp / r1 * φ))))
    (ar := α' * |β / r * (r1 / r * (ρ / r1 * φ))|)
    (xn := Real.sqrt (xx + (r1 / r * (ρ / r1 * φ) - s2 * r * z) / (-c2 * r) * ((r1 / r * (ρ / r1 * φ) - s2 * r * z) / (-c2 * r))))
    hbn han (mul_nonneg han (Real.sqrt_nonneg _)) (Real.sqrt_nonneg _) (Real.sqrt_nonneg _) (mul_nonneg hα' (abs_nonneg _))
  have har : Fl.fin α' * Scalar.abs (Fl.fin (β / r * (r1 / r * (ρ / r1 * φ)))) =
      .fin (α' * |β / r * (r1 / r * (ρ / r1 * φ))|) := rfl
  rw [← hac, ← hrn, ← har] at ht
  unfold lsqrStep
  simp only [hv, hw, hbi, e1, e4, hr.x, ok_bind, e2, e3, e5, ht]
  refine ⟨_, _, _, _, dd + ‖(1 / r) • w‖ * ‖(1 / r) • w‖, rfl, rfl, rfl, rfl,
    ⟨han, hdd0, ?_, ?_, rfl, rfl, rfl, rfl, rfl, rfl, rfl, rfl, ?_, ?_, rfl, rfl, rfl, rfl, hdd⟩, rfl, hrn, rfl, rfl, rfl,
    (ht1 _ _).1, (ht1 _ _).2, fun h1 h2 => ht2 h1 ?_ lim (s.itn + 1),
    fun h1 h2 h3 => ht3 h1 h2 ?_ lim (s.itn + 1)⟩
  · exact add_nonneg hr.xx0 (mul_self_nonneg _)
  · exact add_nonneg hr.res20 (mul_self_nonneg _)
  · rw [hr.res2]; rfl
  · rw [hr.xxnorm]; rfl
  · exact h2.imp id fun h => by rw [h, Real.sqrt_zero]
  · rw [Bool.and_eq_false_iff]; right
    exact normList_lt_false _ h3 _

end Verif.Solver
