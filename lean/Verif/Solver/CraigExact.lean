import Verif.Solver.CraigProps
import Verif.Solver.CraigMath
import Verif.Solver.LSQRExact

/-!
# Properties of CRAIG in exact arithmetic: C41 and C52
-/

namespace Verif.Solver
open Scalar Vect
open scoped RealInnerProductSpace
open MinresMath (krylov krylov_mono)
open CraigMath

variable {E F : Type} [NormedAddCommGroup E] [InnerProductSpace ℝ E] [NormedAddCommGroup F] [InnerProductSpace ℝ F]

/-- A CRAIG problem without preconditioners and with finite data: the operator, its transpose and the right-hand side, and the
keywords. -/
structure CraigProblem (E F : Type) [NormedAddCommGroup E] [InnerProductSpace ℝ E] [NormedAddCommGroup F]
    [InnerProductSpace ℝ F] where
  A : E →ₗ[ℝ] F
  B : F →ₗ[ℝ] E
  b : F
  /-- number of columns -/
  n : ℕ
  damp : ℝ
  itnlim : ℤ
  atol : ℝ
  btol : ℝ
  etol : ℝ
  conlim : ℝ
  storeResids : Bool
  storeIterates : Bool
  window : ℕ

/-- the keywords of a problem -/
noncomputable def CraigProblem.kw (q : CraigProblem E F) : CraigKw Fl (Vec F) (Vec E) :=
  { itnlim := q.itnlim, damp := .fin q.damp, atol := .fin q.atol, btol := .fin q.btol, conlim := .fin q.conlim,
    etol := .fin q.etol, storeResids := q.storeResids, storeIterates := q.storeIterates, window := q.window }

/-- the iteration limit: `itnlim`, or `3n` if that is 0 -/
def CraigProblem.limit (q : CraigProblem E F) : ℤ := if q.itnlim = 0 then 3 * q.n else q.itnlim

/-- what is required of the data: `B` is the transpose of `A` and the window is not empty -/
structure CraigProblem.Valid (q : CraigProblem E F) : Prop where
  adj : ∀ x y, ⟪q.A x, y⟫ = ⟪x, q.B y⟫
  window : q.window ≠ 0

/-- `r` is the best approximation of the solution of `(AA' + I) z = b`, in the norm `sqrt(|z|^2 + |A'z|^2)`, in the span of
`b, (AA')b, ..., (AA')^(k-1) b` -/
def CraigProblem.Best (q : CraigProblem E F) (k : ℕ) (r : F) : Prop :=
  r ∈ krylov (q.A ∘ₗ q.B) q.b k ∧ ∀ y ∈ krylov (q.A ∘ₗ q.B) q.b k, ∀ z, q.A (q.B z) + z = q.b →
    ‖q.B (r - z)‖ ^ 2 + ‖r - z‖ ^ 2 ≤ ‖q.B (y - z)‖ ^ 2 + ‖y - z‖ ^ 2

/-- the squared norm `|r|^2 + |A'r|^2` -/
noncomputable def CraigProblem.nrg (q : CraigProblem E F) (r : F) : ℝ := ‖r‖ ^ 2 + ‖q.B r‖ ^ 2

/-! ### One iteration -/

/-- the next vectors of the bidiagonalization -/
theorem bidiag_next (B : F →ₗ[ℝ] E) (v : E) {p : F} (h0 : p ≠ 0) :
    ⟪‖p‖⁻¹ • p, ‖p‖⁻¹ • p⟫ = 1 ∧ ‖p‖ • ‖p‖⁻¹ • p = p ∧
    ‖B (‖p‖⁻¹ • p) - ‖p‖ • v‖ • ‖B (‖p‖⁻¹ • p) - ‖p‖ • v‖⁻¹ • (B (‖p‖⁻¹ • p) - ‖p‖ • v) = B (‖p‖⁻¹ • p) - ‖p‖ • v ∧
    (‖B (‖p‖⁻¹ • p) - ‖p‖ • v‖ ≠ 0 → ⟪‖B (‖p‖⁻¹ • p) - ‖p‖ • v‖⁻¹ • (B (‖p‖⁻¹ • p) - ‖p‖ • v),
      ‖B (‖p‖⁻¹ • p) - ‖p‖ • v‖⁻¹ • (B (‖p‖⁻¹ • p) - ‖p‖ • v)⟫ = 1) ∧
    (‖B (‖p‖⁻¹ • p) - ‖p‖ • v‖ = 0 → ‖B (‖p‖⁻¹ • p) - ‖p‖ • v‖⁻¹ • (B (‖p‖⁻¹ • p) - ‖p‖ • v) = 0) := by
  have hβ : ‖p‖ ≠ 0 := norm_ne_zero_iff.2 h0
  generalize hr : B (‖p‖⁻¹ • p) - ‖p‖ • v = r
  refine ⟨?_, by rw [smul_smul, mul_inv_cancel₀ hβ, one_smul], ?_, ?_, ?_⟩
  · rw [inner_smul_left, inner_smul_right, real_inner_self_eq_norm_mul_norm]
    simp only [conj_trivial]; field_simp
  · by_cases h : r = 0
    · rw [h]; simp
    · rw [smul_smul, mul_inv_cancel₀ (norm_ne_zero_iff.2 h), one_smul]
  · intro h
    rw [inner_smul_left, inner_smul_right, real_inner_self_eq_norm_mul_norm]
    simp only [conj_trivial]; field_simp
  · intro h
    rw [norm_eq_zero] at h
    rw [h, smul_zero]

theorem pysqrt_dot {G : Type} [NormedAddCommGroup G] [InnerProductSpace ℝ G] (r : G) :
    pysqrt (dot (Vec.fin r) (Vec.fin r)) = .ok (.fin ‖r‖) := by
  rw [Vec.fin_dot, pysqrt_fin real_inner_self_nonneg, real_inner_self_eq_norm_sq, Real.sqrt_sq (norm_nonneg _)]

/-- the bidiagonalization step if the next left vector is zero -/
theorem craigBidiag_zero (q : CraigProblem E F) {s : CraigLoop Fl (Vec F) (Vec E)} {v : E} {u : F} {α : ℝ}
    (hMu : s.Mu = .fin u) (hNv : s.Nv = .fin v) (hv : s.v = .fin v) (hα : s.alpha = .fin α) (h0 : q.A v - α • u = 0) :
    craigBidiag (Vec.op q.A) (Vec.op q.B) q.kw s = .ok (.fin 0, .fin 0, .fin v, .fin v, .fin α, .fin 0, s.products + 1) := by
  unfold craigBidiag
  have hM : ∀ z : Vec F, applyPrecon q.kw.M z = z := fun _ => rfl
  simp only [hMu, hα, hv, hNv, Vec.op_fin, Vec.fin_smul, Vec.fin_sub, h0, hM, pysqrt_dot, norm_zero, ok_bind]
  rw [if_neg (by rw [gt_fin_zero]; exact lt_irrefl _)]
  rfl

/-- the bidiagonalization step if the next left vector is not zero -/
theorem craigBidiag_ne (q : CraigProblem E F) {s : CraigLoop Fl (Vec F) (Vec E)} {v : E} {u : F} {α : ℝ}
    (hMu : s.Mu = .fin u) (hNv : s.Nv = .fin v) (hv : s.v = .fin v) (hα : s.alpha = .fin α) (h0 : q.A v - α • u ≠ 0) :
    ∃ (β α' : ℝ) (u' : F) (v' : E), 0 < β ∧ β • u' = q.A v - α • u ∧ ⟪u', u'⟫ = 1 ∧ α' • v' = q.B u' - β • v ∧ 0 ≤ α' ∧
      (α' ≠ 0 → ⟪v', v'⟫ = 1) ∧ (α' = 0 → v' = 0) ∧
      craigBidiag (Vec.op q.A) (Vec.op q.B) q.kw s =
        .ok (.fin u', .fin u', .fin v', .fin v', .fin α', .fin β, s.products + 2) := by
  obtain ⟨k1, k2, k3, k4, k5⟩ := bidiag_next q.B v h0
  have hβ : 0 < ‖q.A v - α • u‖ := norm_pos_iff.2 h0
  refine ⟨_, _, _, _, hβ, k2, k1, k3, norm_nonneg _, k4, k5, ?_⟩
  have hM : ∀ z : Vec F, applyPrecon q.kw.M z = z := fun _ => rfl
  have hN : ∀ z : Vec E, applyPrecon q.kw.N z = z := fun _ => rfl
  unfold craigBidiag
  simp only [hM, hN, hMu, hα, hv, hNv, Vec.op_fin, Vec.fin_smul, Vec.fin_sub, pysqrt_dot, ok_bind]
  rw [if_pos ((gt_fin_zero _).2 hβ)]
  simp only [Vec.fin_vdiv _ hβ.ne', Vec.op_fin, Vec.fin_smul, Vec.fin_sub, pysqrt_dot, ok_bind]
  generalize q.B (‖q.A v - α • u‖⁻¹ • (q.A v - α • u)) - ‖q.A v - α • u‖ • v = r
  by_cases h : r = 0
  · rw [if_neg (by rw [gt_fin_zero, h, norm_zero]; exact lt_irrefl _), h, smul_zero]; rfl
  · rw [if_pos ((gt_fin_zero _).2 (norm_pos_iff.2 h)), Vec.fin_vdiv _ (norm_ne_zero_iff.2 h)]; rfl

/-- the rotations -/
theorem craigRot_fin (c s α β : ℝ) : ∃ δ ah : ℝ, 0 < δ ∧ δ * δ = s * β * (s * β) + 1 ∧ 0 < ah ∧ ah * ah = α * α + δ * δ ∧
    craigRot (Fl.fin c) (.fin s) (.fin α) (.fin β) = .ok (.fin (c * β), .fin ah, .fin (s * β / δ), .fin (α / ah), .fin (δ / ah)) := by
  have h1 : 0 < s * β * (s * β) + 1 * 1 := by nlinarith [mul_self_nonneg (s * β)]
  have hδ := Real.sqrt_pos.2 h1
  have hδ2 := Real.mul_self_sqrt h1.le
  set δ := Real.sqrt (s * β * (s * β) + 1 * 1)
  have h2 : 0 < α * α + δ * δ := by nlinarith [mul_self_nonneg α, mul_pos hδ hδ]
  have hah := Real.sqrt_pos.2 h2
  have hah2 := Real.mul_self_sqrt h2.le
  set ah := Real.sqrt (α * α + δ * δ)
  refine ⟨δ, ah, hδ, by rw [hδ2]; ring, hah, hah2, ?_⟩
  unfold craigRot
  have e1 : normof2 (Fl.fin s * Fl.fin β) (lit 1) = .fin δ := by
    rw [Fl.fin_mul, Fl.lit_eq, normof2_fin, Rat.cast_one]
  have e2 : normof2 (Fl.fin α) (Fl.fin δ) = .fin ah := normof2_fin _ _
  simp only [e1, e2]
  simp only [Fl.fin_mul, Fl.lit_eq, pydiv_fin _ hδ.ne', pydiv_fin _ hah.ne', ok_bind]
  rfl

/-- the loop variables carry finite values -/
structure CrRel (s : CraigLoop Fl (Vec F) (Vec E)) (x : E) (r u : F) (v : E) (α c sn : ℝ) (d : F) (τ : ℝ) (wbar : E) (n m : ℝ) :
    Prop where
  n0 : 0 ≤ n
  m0 : 0 ≤ m
  x : s.x = .fin x
  r : s.r = .fin r
  Mu : s.Mu = .fin u
  Nv : s.Nv = .fin v
  v : s.v = .fin v
  alpha : s.alpha = .fin α
  c : s.c = .fin c
  hs : s.s = .fin sn
  d : s.d = .fin d
  tau : s.tau = .fin τ
  zeta : s.zeta = .fin τ
  wbar : s.wbar = .fin wbar
  rnorm : s.rnorm = .fin n
  rNrg : s.rNrgNorm2 = .fin m
  xNrg : s.xNrgNorm2 = .fin m

/-- the effect of an iteration on finite values -/
theorem craigStep_fin {q : CraigProblem E F} (hq : q.Valid) (lim : ℤ) {bn : ℝ} (hbn : 0 < bn)
    {s : CraigLoop Fl (Vec F) (Vec E)} {x : E} {r u : F} {v : E} {α c sn : ℝ} {d : F} {τ : ℝ} {wbar : E} {n m : ℝ}
    (h : CrRel s x r u v α c sn d τ wbar n m) {u' : F} {v' : E} {α' β : ℝ} {p : ℕ}
    (hb : craigBidiag (Vec.op q.A) (Vec.op q.B) q.kw s = .ok (.fin u', .fin u', .fin v', .fin v', .fin α', .fin β, p)) :
    ∃ δ ah : ℝ, 0 < δ ∧ δ * δ = sn * β * (sn * β) + 1 ∧ 0 < ah ∧ ah * ah = α' * α' + δ * δ ∧ ∀ τ', τ' = -(c * β) * τ / ah →
    ∃ t, craigStep (Vec.op q.A) (Vec.op q.B) q.kw lim (.fin bn) s = .ok t ∧
      CrRel t (x + τ' • ((α' / ah) • v' + (δ / ah) • (sn * β / δ) • wbar)) (r + τ' • ah⁻¹ • (u' - (c * β) • d)) u' v' α' (α' / ah)
        (δ / ah) (ah⁻¹ • (u' - (c * β) • d)) τ' (-(α' / ah) • (sn * β / δ) • wbar + (δ / ah) • v') (n + τ' * τ') (m + τ' * τ') ∧
      t.norms = (if q.storeResids then s.norms ++ [.fin (m + τ' * τ')] else s.norms) ∧
      ∃ direct, t.istop = craigStop q.kw lim (s.itn + 1) direct (.fin (Real.sqrt (n + τ' * τ') / bn)) ∧
        (direct = true → 0 < q.etol ∧ 0 < m + τ' * τ') := by
  obtain ⟨δ, ah, h1, h2, h3, h4, hrot⟩ := craigRot_fin c sn α' β
  refine ⟨δ, ah, h1, h2, h3, h4, fun τ' hτ => ?_⟩
  have hn' : 0 ≤ n + τ' * τ' := add_nonneg h.n0 (mul_self_nonneg _)
  have hm' : 0 ≤ m + τ' * τ' := add_nonneg h.m0 (mul_self_nonneg _)
  have hw : pymod (s.itn + 1) q.kw.window = .ok ((s.itn + 1) % q.window) := if_neg hq.window
  have e1 : pydiv (-Fl.fin (c * β) * .fin τ) (.fin ah) = .ok (.fin τ') := by
    rw [Fl.fin_neg, Fl.fin_mul, pydiv_fin _ h3.ne', hτ]
  have e2 : sqrt (Fl.fin n + .fin τ' * .fin τ') = .fin (Real.sqrt (n + τ' * τ')) := by
    rw [Fl.fin_mul, Fl.fin_add, Fl.fin_sqrt hn']
  unfold craigStep
  simp only [hb, ok_bind, h.c, h.hs, hrot, h.tau, h.zeta, e1, hw, h.rnorm, e2, pydiv_fin _ hbn.ne']
  refine ⟨_, rfl, ⟨hn', hm', ?_, ?_, rfl, rfl, rfl, rfl, rfl, rfl, ?_, rfl, rfl, ?_, ?_, ?_, ?_⟩, ?_, _, rfl, ?_⟩
  · simp only [h.x, h.wbar, Vec.fin_smul, Vec.fin_add]
  · simp only [h.r, h.d, Vec.fin_smul, Vec.fin_sub, Vec.fin_vdiv _ h3.ne', Vec.fin_add]
  · simp only [h.d, Vec.fin_smul, Vec.fin_sub, Vec.fin_vdiv _ h3.ne']
  · simp only [h.wbar, Fl.fin_neg, Vec.fin_smul, Vec.fin_add]
  · simp only [Fl.fin_mul, Fl.fin_add]
  · simp only [h.rNrg, Fl.fin_mul, Fl.fin_add]
  · simp only [h.xNrg, Fl.fin_mul, Fl.fin_add]
  · simp only [h.xNrg, Fl.fin_mul, Fl.fin_add]; rfl
  · intro hd
    rw [Bool.and_eq_true] at hd
    by_cases hc : q.etol ≤ 0
    · have := normList_lt_false (s.dErr.set ((s.itn + 1) % q.window) (.fin τ')) hc (s.rNrgNorm2 + .fin τ' * .fin τ')
      rw [show q.kw.etol = Fl.fin q.etol from rfl, this] at hd
      simp at hd
    · refine ⟨lt_of_not_ge hc, lt_of_le_of_ne hm' ?_⟩
      intro h0
      have e3 : q.kw.etol * sqrt (s.rNrgNorm2 + .fin τ' * .fin τ') = Fl.fin 0 * sqrt (.fin 0) := by
        rw [h.rNrg, Fl.fin_mul, Fl.fin_add, ← h0, Fl.fin_sqrt le_rfl, Real.sqrt_zero, show q.kw.etol = Fl.fin q.etol from rfl,
          Fl.fin_mul, Fl.fin_mul, mul_zero, mul_zero]
      rw [e3, normList_lt_false _ le_rfl] at hd
      simp at hd

/-! ### The invariant -/

/-- what the stored values mean, for the dual iterates `rs` -/
structure CrHist (q : CraigProblem E F) (s : CraigLoop Fl (Vec F) (Vec E)) (rs : List F) : Prop where
  itn : rs.length = s.itn + 1
  r : s.r = .fin (rs.getLastD 0)
  x : s.x = .fin (q.B (rs.getLastD 0))
  iteratesD : s.iteratesD = if q.storeIterates then rs.map Vec.fin else []
  iteratesP : s.iteratesP = if q.storeIterates then rs.map (fun r => Vec.fin (q.B r)) else []
  resids : s.resids = if q.storeResids then rs.map (fun r => Fl.fin (q.nrg r)) else []
  norms : s.norms = if q.storeResids then rs.map (fun r => Fl.fin (q.nrg r - q.nrg (rs.headD 0))) else []
  rnorm : s.rnorm = .fin (q.nrg (rs.getLastD 0))
  best : ∀ i (h : i < rs.length), q.Best (i+1) rs[i]
  stop0 : s.istop = 0 → 0 < s.itn → q.btol < Real.sqrt (q.nrg (rs.getLastD 0)) / ‖q.b‖
  stop1 : s.istop = 1 → s.itn = 1 ∧ Real.sqrt (q.nrg (rs.getLastD 0)) / ‖q.b‖ ≤ q.btol
  stop8 : s.istop = 8 → 0 < q.etol ∧ q.nrg (rs.headD 0) < q.nrg (rs.getLastD 0)
  stop4 : s.istop ≠ 4

/-- the process has not ended after `k` iterations -/
def CrGood (q : CraigProblem E F) (s : CraigLoop Fl (Vec F) (Vec E)) (k : ℕ) (r : F) (n m : ℝ) : Prop :=
  ∃ x u v α c sn d τ wbar, CrRel s x r u v α c sn d τ wbar n m ∧
  ∃ Us Us' ah w, CR q.A q.B q.b k u v α Us Us' c sn ah d ∧ CraigVars q.A q.B q.b u v α Us c sn d r x w wbar τ n

/-- the process has ended: `r` is the solution -/
def CrDone (q : CraigProblem E F) (s : CraigLoop Fl (Vec F) (Vec E)) (r : F) (n m : ℝ) : Prop :=
  ∃ x u v α c sn d wbar, CrRel s x r u v α c sn d 0 wbar n m ∧ r + q.A (q.B r) = q.b ∧ x = q.B r ∧ ⟪r, q.b⟫ = n

/-- the loop invariant -/
def CrInv (q : CraigProblem E F) (s : CraigLoop Fl (Vec F) (Vec E)) : Prop :=
  ∃ rs, CrHist q s rs ∧ ∃ n m, n = q.nrg (rs.getLastD 0) ∧ m = n - q.nrg (rs.headD 0) ∧ 0 < n ∧
    (CrGood q s s.itn (rs.getLastD 0) n m ∨ CrDone q s (rs.getLastD 0) n m)

theorem CraigProblem.nrg_eq {q : CraigProblem E F} (hq : q.Valid) {r : F} (h : ⟪r, q.b - (r + q.A (q.B r))⟫ = 0) :
    ⟪r, q.b⟫ = q.nrg r := by
  unfold CraigProblem.nrg
  rw [inner_sub_right, inner_add_right, ← real_inner_comm r (q.A (q.B r)), hq.adj, real_inner_self_eq_norm_sq,
    real_inner_self_eq_norm_sq] at h
  linarith

theorem CraigProblem.best_of_solution {q : CraigProblem E F} (hq : q.Valid) {r : F} {k : ℕ}
    (hr : r ∈ krylov (q.A ∘ₗ q.B) q.b k) (h : r + q.A (q.B r) = q.b) : q.Best k r := by
  refine ⟨hr, fun y hy z hz => galerkin (b := q.b) hq.adj (S := ⊤) Submodule.mem_top ?_ y z Submodule.mem_top hz⟩
  intro z _
  rw [h, sub_self, inner_zero_right]

omit [InnerProductSpace ℝ F] in
theorem headD_append (rs : List F) (h : rs ≠ []) (r : F) : (rs ++ [r]).headD 0 = rs.headD 0 := by
  cases rs with
  | nil => exact absurd rfl h
  | cons a l => rfl

/-- adding an iterate to the history -/
theorem CrHist.step {q : CraigProblem E F} {s t : CraigLoop Fl (Vec F) (Vec E)} {rs : List F} {lim : ℤ} (hh : CrHist q s rs)
    (he : CraigStepEff q.kw lim (.fin ‖q.b‖) s t) {r : F} (hr : t.r = .fin r) (hx : t.x = .fin (q.B r)) {n m : ℝ}
    (h1 : t.rnorm = .fin n) (hn : n = q.nrg r) (hm : m = n - q.nrg (rs.headD 0))
    (h2 : t.norms = if q.storeResids then s.norms ++ [.fin m] else s.norms)
    (hb : q.Best (rs.length + 1) r) (hpos : 0 < n) (hbn : 0 < ‖q.b‖) (hmono : q.nrg (rs.getLastD 0) ≤ n) (hc : s.istop = 0)
    (hst : ∃ direct, t.istop = craigStop q.kw lim (s.itn + 1) direct (.fin (Real.sqrt n / ‖q.b‖)) ∧
      (direct = true → 0 < q.etol ∧ 0 < m)) :
    CrHist q t (rs ++ [r]) := by
  have hl : (rs ++ [r]).getLastD 0 = r := List.getLastD_concat ..
  have hne : rs ≠ [] := by intro h; have := hh.itn; rw [h] at this; simp at this
  have hd : (rs ++ [r]).headD 0 = rs.headD 0 := headD_append rs hne r
  have k1 : q.kw.storeIterates = q.storeIterates := rfl
  have k2 : q.kw.storeResids = q.storeResids := rfl
  obtain ⟨direct, hstop, hdir⟩ := hst
  have hq4 : ¬ (le (lit 1 + Fl.fin (Real.sqrt n / ‖q.b‖)) (lit 1) = true) := by
    simp only [Fl.lit_eq, Fl.fin_add, Fl.fin_le, not_le, Rat.cast_one]
    have : 0 < Real.sqrt n / ‖q.b‖ := div_pos (Real.sqrt_pos.2 hpos) hbn
    linarith
  rw [craigStop_eq, if_neg hq4] at hstop
  have hbt : q.kw.btol = .fin q.btol := rfl
  rw [hbt] at hstop
  simp only [Fl.fin_le] at hstop
  refine ⟨?_, ?_, ?_, ?_, ?_, ?_, ?_, ?_, ?_, ?_, ?_, ?_, ?_⟩
  · rw [he.itn, List.length_append, hh.itn]; rfl
  · rw [hl, hr]
  · rw [hl, hx]
  · rw [he.iteratesD, hh.iteratesD, k1]
    split <;> simp [hr]
  · rw [he.iteratesP, hh.iteratesP, k1]
    split <;> simp [hx]
  · rw [he.resids, hh.resids, k2]
    split <;> simp [h1, hn]
  · rw [h2, hh.norms, hd]
    split <;> simp [hm, hn]
  · rw [hl, h1, hn]
  · intro i hi
    rcases Nat.lt_or_ge i rs.length with h | h
    · rw [List.getElem_append_left h]; exact hh.best i h
    · have hi' : i = rs.length := by simp at hi; omega
      subst hi'
      simpa using hb
  · intro h0 _
    rw [hl, ← hn]
    rw [h0] at hstop
    by_contra hcon
    rw [if_pos (not_lt.1 hcon)] at hstop
    omega
  · intro h0
    rw [h0] at hstop
    rw [hl, ← hn, he.itn]
    by_cases hle : Real.sqrt n / ‖q.b‖ ≤ q.btol
    · refine ⟨?_, hle⟩
      by_contra hcon
      have h3 := hh.stop0 hc (by omega)
      have h4 : Real.sqrt (q.nrg (rs.getLastD 0)) / ‖q.b‖ ≤ Real.sqrt n / ‖q.b‖ :=
        div_le_div_of_nonneg_right (Real.sqrt_le_sqrt hmono) hbn.le
      linarith
    · rw [if_neg hle] at hstop
      split_ifs at hstop <;> omega
  · intro h0
    rw [h0] at hstop
    rw [hl, hd, ← hn]
    have hdt : direct = true := by
      by_contra hcon
      rw [if_neg hcon] at hstop
      split_ifs at hstop <;> omega
    exact ⟨(hdir hdt).1, by linarith [(hdir hdt).2]⟩
  · rw [hstop]
    split_ifs <;> omega

/-- an iteration from a state in which the process has not ended -/
theorem CrGood.next {q : CraigProblem E F} (hq : q.Valid) (lim : ℤ) (hbn : 0 < ‖q.b‖)
    {s : CraigLoop Fl (Vec F) (Vec E)} {rs : List F} (hh : CrHist q s rs) {n m : ℝ} (hn : n = q.nrg (rs.getLastD 0))
    (hm : m = n - q.nrg (rs.headD 0)) (hpos : 0 < n) (hg : CrGood q s s.itn (rs.getLastD 0) n m) (hc : s.istop = 0) :
    ∃ t, craigStep (Vec.op q.A) (Vec.op q.B) q.kw lim (.fin ‖q.b‖) s = .ok t ∧ CrInv q t := by
  obtain ⟨x, u, v, α, c, sn, d, τ, wbar, hr, Us, Us', ah0, w, hcr, hcv⟩ := hg
  have hne : rs ≠ [] := by intro h; have := hh.itn; rw [h] at this; simp at this
  set r := rs.getLastD 0 with hrd
  by_cases h0 : q.A v - α • u = 0
  · have hsol : r + q.A (q.B r) = q.b := by
      have := hcv.res
      rw [h0, smul_zero] at this
      exact (sub_eq_zero.1 this).symm
    obtain ⟨δ, ah, -, -, -, -, ht⟩ := craigStep_fin hq lim hbn hr (craigBidiag_zero q hr.Mu hr.Nv hr.v hr.alpha h0)
    obtain ⟨t, ht, hrel, hnorms, hst⟩ := ht 0 (by ring)
    have he := craigStep_eff ht
    rw [zero_smul, zero_smul, add_zero, add_zero, mul_zero (0 : ℝ), add_zero, add_zero] at hrel
    rw [mul_zero, add_zero] at hnorms
    rw [mul_zero, add_zero, add_zero] at hst
    have hbest : q.Best (rs.length + 1) r := by
      refine q.best_of_solution hq ?_ hsol
      rw [hh.itn]
      exact krylov_mono _ _ (by omega) (hcr.kry ▸ hcv.rU)
    refine ⟨t, ht, rs ++ [r], hh.step he hrel.r (by rw [hrel.x, hcv.hx]) hrel.rnorm hn hm hnorms hbest hpos hbn hn.ge hc hst,
      n, m, ?_, ?_, hpos, Or.inr ?_⟩
    · rw [List.getLastD_concat]; exact hn
    · rw [headD_append rs hne]; exact hm
    · rw [List.getLastD_concat]
      exact ⟨_, _, _, _, _, _, _, _, hrel, hsol, hcv.hx, hcv.rb⟩
  · obtain ⟨β, α', u', v', hβ, hu, hu1, hv, hα', hv1, hv0, hbi⟩ := craigBidiag_ne q hr.Mu hr.Nv hr.v hr.alpha h0
    obtain ⟨δ, ah, hδ, hδ2, hah, hah2, ht⟩ := craigStep_fin hq lim hbn hr hbi
    obtain ⟨τ', hτ'⟩ : ∃ τ', τ' = -(c * β) * τ / ah := ⟨_, rfl⟩
    obtain ⟨t, ht, hrel, hnorms, hst⟩ := ht τ' hτ'
    have he := craigStep_eff ht
    obtain ⟨hcr', huo⟩ := hcr.next hq.adj hβ hu hu1 hv hα' hv1 hv0 hδ hδ2 hah hah2 rfl rfl rfl
    have hcv' := hcv.next hcr hu huo hv hδ hah rfl rfl hcr'.cs rfl hcr'.Kd
    rw [← hτ'] at hcv'
    have horth := hcv'.orth hcr'
    have hn' := (CraigProblem.nrg_eq hq (horth _ hcv'.rU)).symm.trans hcv'.rb
    have hbest : q.Best (rs.length + 1) (r + τ' • ah⁻¹ • (u' - (c * β) • d)) := by
      refine ⟨?_, fun y hy z hz => galerkin hq.adj hcv'.rU horth y z ?_ hz⟩
      · rw [hh.itn, ← hcr'.kry]; exact hcv'.rU
      · rw [hh.itn, ← hcr'.kry] at hy; exact hy
    have hpos' : 0 < n + τ' * τ' := add_pos_of_pos_of_nonneg hpos (mul_self_nonneg _)
    refine ⟨t, ht, rs ++ [r + τ' • ah⁻¹ • (u' - (c * β) • d)],
      hh.step he hrel.r (by rw [hrel.x, hcv'.hx]) hrel.rnorm hn'.symm (by rw [hm]; ring) hnorms hbest hpos' hbn
        (by rw [← hn]; nlinarith [mul_self_nonneg τ']) hc hst,
      n + τ' * τ', m + τ' * τ', ?_, ?_, hpos', Or.inl ?_⟩
    · rw [List.getLastD_concat]; exact hn'.symm
    · rw [headD_append rs hne, hm]; ring
    · rw [List.getLastD_concat, he.itn]
      exact ⟨_, _, _, _, _, _, _, _, _, hrel, _, _, _, _, hcr', hcv'⟩

/-- an iteration after the end of the process -/
theorem CrDone.next {q : CraigProblem E F} (hq : q.Valid) (lim : ℤ) (hbn : 0 < ‖q.b‖)
    {s : CraigLoop Fl (Vec F) (Vec E)} {rs : List F} (hh : CrHist q s rs) {n m : ℝ} (hn : n = q.nrg (rs.getLastD 0))
    (hm : m = n - q.nrg (rs.headD 0)) (hpos : 0 < n) (hg : CrDone q s (rs.getLastD 0) n m) (hc : s.istop = 0) :
    ∃ t, craigStep (Vec.op q.A) (Vec.op q.B) q.kw lim (.fin ‖q.b‖) s = .ok t ∧ CrInv q t := by
  obtain ⟨x, u, v, α, c, sn, d, wbar, hr, hsol, hx, hrb⟩ := hg
  have hne : rs ≠ [] := by intro h; have := hh.itn; rw [h] at this; simp at this
  have hmem : rs.getLastD 0 ∈ krylov (q.A ∘ₗ q.B) q.b (rs.length + 1) := by
    have h1 : 0 < rs.length := List.length_pos_iff.2 hne
    have h2 := (hh.best (rs.length - 1) (by omega)).1
    have h3 : rs[rs.length - 1]'(by omega) = rs.getLastD 0 := by
      rw [← List.getLast_eq_getElem hne, List.getLastD_eq_getLast?, List.getLast?_eq_some_getLast hne]; rfl
    rw [h3] at h2
    exact krylov_mono _ _ (by omega) h2
  set r := rs.getLastD 0 with hrd
  obtain ⟨β, α', u', v', p, hbi⟩ : ∃ (β α' : ℝ) (u' : F) (v' : E) (p : ℕ), craigBidiag (Vec.op q.A) (Vec.op q.B) q.kw s =
      .ok (.fin u', .fin u', .fin v', .fin v', .fin α', .fin β, p) := by
    by_cases h0 : q.A v - α • u = 0
    · exact ⟨_, _, _, _, _, craigBidiag_zero q hr.Mu hr.Nv hr.v hr.alpha h0⟩
    · obtain ⟨β, α', u', v', -, -, -, -, -, -, -, hbi⟩ := craigBidiag_ne q hr.Mu hr.Nv hr.v hr.alpha h0
      exact ⟨_, _, _, _, _, hbi⟩
  obtain ⟨δ, ah, -, -, -, -, ht⟩ := craigStep_fin hq lim hbn hr hbi
  obtain ⟨t, ht, hrel, hnorms, hst⟩ := ht 0 (by ring)
  have he := craigStep_eff ht
  rw [zero_smul, zero_smul, add_zero, add_zero, mul_zero (0 : ℝ), add_zero, add_zero] at hrel
  rw [mul_zero, add_zero] at hnorms
  rw [mul_zero, add_zero, add_zero] at hst
  refine ⟨t, ht, rs ++ [r], hh.step he hrel.r (by rw [hrel.x, hx]) hrel.rnorm hn hm hnorms (q.best_of_solution hq hmem hsol) hpos hbn
    hn.ge hc hst, n, m, ?_, ?_, hpos, Or.inr ?_⟩
  · rw [List.getLastD_concat]; exact hn
  · rw [headD_append rs hne]; exact hm
  · rw [List.getLastD_concat]
    exact ⟨_, _, _, _, _, _, _, _, hrel, hsol, hx, hrb⟩

/-- the variables before the loop -/
theorem craigInit_exact {q : CraigProblem E F} (hq : q.Valid) (hb : q.b ≠ 0) :
    ∃ Mu u beta vs alpha p s, craigVectors (Vec.op q.B) q.kw (.fin q.b) = .ok (Mu, u, beta, vs, alpha, p) ∧
      craigStart q.kw Mu u beta vs alpha p = .ok s ∧ s.beta = .fin ‖q.b‖ ∧ s.itn = 0 ∧ s.istop = 0 ∧ CrInv q s := by
  have hM : ∀ z : Vec F, applyPrecon q.kw.M z = z := fun _ => rfl
  have hN : ∀ z : Vec E, applyPrecon q.kw.N z = z := fun _ => rfl
  have hβ : 0 < ‖q.b‖ := norm_pos_iff.2 hb
  obtain ⟨k1, k2, k3, k4, k5⟩ := bidiag_next q.B 0 hb
  simp only [smul_zero, sub_zero] at k3 k4 k5
  set u := ‖q.b‖⁻¹ • q.b with hu
  set α := ‖q.B u‖ with hα
  set v := α⁻¹ • q.B u with hv
  have hvec : craigVectors (Vec.op q.B) q.kw (.fin q.b) =
      .ok (.fin u, .fin u, .fin ‖q.b‖, some (.fin v, .fin v), .fin α, 1) := by
    unfold craigVectors
    simp only [hM, hN, pysqrt_dot, ok_bind]
    rw [if_pos ((gt_fin_zero _).2 hβ)]
    simp only [Vec.fin_vdiv _ hβ.ne', Vec.op_fin, pysqrt_dot, ok_bind]
    by_cases h : q.B u = 0
    · rw [if_neg (by rw [gt_fin_zero, h, norm_zero]; exact lt_irrefl _), hv, h, smul_zero]
      rw [hα, h]; rfl
    · rw [if_pos ((gt_fin_zero _).2 (norm_pos_iff.2 h)), Vec.fin_vdiv _ (norm_ne_zero_iff.2 h)]; rfl
  have hp : 0 < α * α + 1 * 1 := by nlinarith [mul_self_nonneg α]
  have hah := Real.sqrt_pos.2 hp
  have hah2 := Real.mul_self_sqrt hp.le
  have e1 : normof2 (Fl.fin α) (lit 1) = .fin (Real.sqrt (α * α + 1 * 1)) := by rw [Fl.lit_eq, normof2_fin, Rat.cast_one]
  set ah := Real.sqrt (α * α + 1 * 1)
  rw [mul_one] at hah2
  have hcr := CR.init (A := q.A) (b := q.b) hq.adj hβ k2 k1 k3 (norm_nonneg _) k4 k5 hah hah2 rfl rfl
  have hcv := CraigVars.init (A := q.A) (b := q.b) hβ k2 k1 k3 hah hah2 rfl rfl
  have horth := hcv.orth hcr
  have hsb : 1 / ah * ‖q.b‖ = ‖q.b‖ / ah := by ring
  rw [hsb] at hcv
  have hn := (CraigProblem.nrg_eq hq (horth _ hcv.rU)).symm.trans hcv.rb
  have hpos : 0 < ‖q.b‖ / ah * (‖q.b‖ / ah) := mul_pos (div_pos hβ hah) (div_pos hβ hah)
  refine ⟨.fin u, .fin u, .fin ‖q.b‖, some (.fin v, .fin v), .fin α, 1, ?_⟩
  unfold craigStart
  simp only [e1]
  simp only [Fl.lit_eq, Rat.cast_one, pydiv_fin _ hah.ne', ok_bind, bound, Vec.fin_vdiv _ hah.ne', Vec.fin_smul, Fl.fin_mul, hsb]
  refine ⟨_, hvec, rfl, rfl, rfl, rfl, [(‖q.b‖ / ah) • ah⁻¹ • u], ?_, _, 0, hn.symm, ?_, hpos, Or.inl ?_⟩
  · have k1 : q.kw.storeIterates = q.storeIterates := rfl
    have k2 : q.kw.storeResids = q.storeResids := rfl
    refine ⟨rfl, rfl, ?_, ?_, ?_, ?_, ?_, ?_, ?_, fun _ h => absurd h (lt_irrefl 0), ?_, ?_, ?_⟩
    · simp only [List.getLastD_cons, List.getLastD_nil]; rw [← hcv.hx]
    · rw [k1]; rfl
    · rw [k1]; simp only [List.map_cons, List.map_nil]; rw [← hcv.hx]
    · rw [k2]; simp only [List.map_cons, List.map_nil, hn]
    · rw [k2]; simp
    · simp only [List.getLastD_cons, List.getLastD_nil, hn]
    · intro i hi
      have : i = 0 := by simpa using hi
      subst this
      refine ⟨?_, fun y hy z hz => galerkin hq.adj hcv.rU horth y z ?_ hz⟩
      · rw [← hcr.kry]; exact hcv.rU
      · rw [← hcr.kry] at hy; exact hy
    · intro h; cases h
    · intro h; cases h
    · intro h; cases h
  · simp [hn]
  · refine ⟨_, _, _, _, _, _, _, _, _, ⟨hpos.le, le_rfl, rfl, rfl, rfl, rfl, rfl, rfl, rfl, rfl, rfl, rfl, rfl, rfl, rfl, ?_, ?_⟩,
      _, _, _, _, hcr, hcv⟩
    · simp
    · simp

/-- what is known when `solve` ends -/
theorem craigSolve_exact {q : CraigProblem E F} (hq : q.Valid) (hb : q.b ≠ 0) (hl : 1 ≤ q.limit) :
    ∃ res s, craigSolve (Vec.op q.A) (Vec.op q.B) q.n (.fin q.b) q.kw = .ok (res, s) ∧ CrInv q s := by
  obtain ⟨Mu, u, beta, vs, alpha, p, s0, h1, h2, hbeta, hitn, hist, hinv⟩ := craigInit_exact hq hb
  have hlim : craigLimit q.n q.kw.itnlim = q.limit := rfl
  have hbn : 0 < ‖q.b‖ := norm_pos_iff.2 hb
  obtain ⟨t, ht, hi, hc⟩ := exceptLoop_total (cont := craigCont q.limit)
    (step := craigStep (Vec.op q.A) (Vec.op q.B) q.kw q.limit s0.beta)
    (μ := fun s => (q.limit - s.itn).toNat)
    (h := fun s t h ht h' => by
      have := craigStep_itn ht
      simp only [craigCont, Bool.and_eq_true, decide_eq_true_eq] at h h'
      omega)
    (CrInv q)
    (fun s hs hc => by
      simp only [craigCont, Bool.and_eq_true, decide_eq_true_eq] at hc
      obtain ⟨rs, hh, n, m, hn, hm, hpos, hg | hg⟩ := hs
      · rw [hbeta]; exact CrGood.next hq _ hbn hh hn hm hpos hg hc.1
      · rw [hbeta]; exact CrDone.next hq _ hbn hh hn hm hpos hg hc.1) s0 hinv
  have hne : feq s0.beta (lit 0) = false := by
    rw [hbeta, ← Bool.not_eq_true, feq_fin_zero]; exact hbn.ne'
  have hmain : craigMain (Vec.op q.A) (Vec.op q.B) q.kw q.limit s0 = .ok t := by
    unfold craigMain
    rw [hne]
    exact ht
  have hA : ∃ a, t.Arnorm = some a := by
    have hcont : craigCont q.limit s0 = true := by
      simp only [craigCont, hitn, hist, decide_true, Bool.true_and, decide_eq_true_eq]
      omega
    obtain ⟨-, -, -, hA0⟩ := craigStart_inv (lim := q.limit) (craigVectors_ok h1).2.1 h2
    have hi := exceptLoop_inv (cont := craigCont q.limit) (fun s => CraigInv q.kw q.limit s0 s)
      (fun s t hs hc ht => craigStep_inv s t hs hc ht) _
      (craigStart_inv (lim := q.limit) (craigVectors_ok h1).2.1 h2).1 t ht
    rcases hi.1.stop with ⟨h0, h0'⟩ | ⟨-, h, -⟩
    · have := hi.1.zero h0
      rw [this, hcont] at hc
      cases hc
    · exact Option.ne_none_iff_exists'.1 h
  obtain ⟨a, ha⟩ := hA
  unfold craigSolve
  rw [hlim]
  have hv : lsqrVar q.kw.wantvar = .ok () := rfl
  simp only [hv, h1, h2, hmain, ok_bind, craigResult, ha, bound]
  exact ⟨_, t, rfl, hi⟩

end Verif.Solver
