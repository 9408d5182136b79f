import Verif.Solver.LSMRNorm
import Verif.Solver.LSQRConv
import Verif.Solver.LsmrMath

/-!
# LSMR in exact arithmetic: one iteration
-/

namespace Verif.Solver
open Scalar Vect
open scoped RealInnerProductSpace
open MinresMath (krylov krylov_mono)
open LsqrMath LsmrMath

variable {E F H : Type} [NormedAddCommGroup E] [InnerProductSpace ℝ E] [NormedAddCommGroup F] [InnerProductSpace ℝ F]
  [NormedAddCommGroup H] [InnerProductSpace ℝ H]

/-- An LSMR problem without preconditioners and with finite data: the operator, its transpose and the right-hand side, and the
keywords. -/
structure LsmrProblem (E F : Type) [NormedAddCommGroup E] [InnerProductSpace ℝ E] [NormedAddCommGroup F]
    [InnerProductSpace ℝ F] where
  A : E →ₗ[ℝ] F
  B : F →ₗ[ℝ] E
  b : F
  /-- numbers of rows and columns -/
  m : ℕ
  n : ℕ
  damp : ℝ
  itnlim : Option ℤ
  atol : ℝ
  btol : ℝ
  etol : ℝ
  conlim : ℝ
  storeResids : Bool
  storeIterates : Bool
  window : ℕ

/-- the keywords of a problem -/
noncomputable def LsmrProblem.kw (q : LsmrProblem E F) : LsmrKw Fl (Vec F) (Vec E) :=
  { itnlim := q.itnlim, damp := .fin q.damp, atol := .fin q.atol, btol := .fin q.btol, conlim := .fin q.conlim,
    etol := .fin q.etol, storeResids := q.storeResids, storeIterates := q.storeIterates, window := q.window }

/-- what is required of the data: `B` is the transpose of `A`, `atol` is not negative, the window is not empty -/
structure LsmrProblem.Valid (q : LsmrProblem E F) : Prop where
  adj : ∀ x y, ⟪q.A x, y⟫ = ⟪x, q.B y⟫
  atol : 0 ≤ q.atol
  window : q.window ≠ 0

/-- `sqrt(|b - Ax|^2 + damp^2 |x|^2)` -/
noncomputable def LsmrProblem.resid (q : LsmrProblem E F) (x : E) : ℝ :=
  Real.sqrt (‖q.b - q.A x‖ ^ 2 + q.damp ^ 2 * ‖x‖ ^ 2)

/-- `|A'(b - Ax) - damp^2 x|` -/
noncomputable def LsmrProblem.normal (q : LsmrProblem E F) (x : E) : ℝ := ‖q.B (q.b - q.A x) - (q.damp * q.damp) • x‖

/-! ### The parts of an iteration -/

theorem symOrtho_pos {a b : ℝ} (h : 0 < hyp a b) :
    symOrtho (Fl.fin a) (Fl.fin b) = .ok (.fin (a / hyp a b), .fin (b / hyp a b), .fin (hyp a b)) := by
  obtain ⟨c, s, r, hs, h1, h2, h3, h4⟩ := symOrtho_fin a b
  have hr : r = hyp a b := h4
  rw [hs, hr]
  rw [hr] at h2
  have hc : c = a / hyp a b := by
    rw [eq_div_iff h.ne', ← h2]; linear_combination a * h1 - s * h3
  have hs' : s = b / hyp a b := by
    rw [eq_div_iff h.ne', ← h2]; linear_combination b * h1 + c * h3
  rw [← hc, ← hs']

theorem fin_pymin' (a b : ℝ) : Scalar.pymin (Fl.fin a) (Fl.fin b) = Fl.fin (min a b) := by
  unfold Scalar.pymin
  by_cases h : b < a
  · rw [if_pos (by rw [Fl.fin_lt]; exact h), min_eq_right h.le]
  · rw [if_neg (by rw [Fl.fin_lt]; exact h), min_eq_left (not_lt.1 h)]

/-- the bidiagonalization step if the next left vector is zero -/
theorem lsmrBidiag_zero (q : LsmrProblem E F) {s : LsmrLoop Fl (Vec F) (Vec E)} {v : E} {u : F} {α : ℝ}
    (hMu : s.Mu = .fin u) (hNv : s.Nv = some (.fin v)) (hv : s.v = .fin v) (hα : s.alpha = .fin α) (h0 : q.A v - α • u = 0) :
    lsmrBidiag (Vec.op q.A) (Vec.op q.B) q.kw s =
      .ok (.fin 0, some (.fin v), .fin v, .fin α, .fin 0, s.products + 1) := by
  unfold lsmrBidiag
  have hM : ∀ z : Vec F, applyPrecon q.kw.M z = z := fun _ => rfl
  simp only [hMu, hv, hα, Vec.op_fin, Vec.fin_smul, Vec.fin_sub, h0, hM, Vec.fin_dot, inner_zero_left, pysqrt_fin le_rfl,
    Real.sqrt_zero]
  change (if gt (Fl.fin 0) (lit 0) = true then _ else _) = _
  rw [if_neg (by rw [gt_fin_zero]; exact lt_irrefl _), hNv]
  rfl

/-- the bidiagonalization step if the next left vector is not zero -/
theorem lsmrBidiag_ne (q : LsmrProblem E F) {s : LsmrLoop Fl (Vec F) (Vec E)} {v : E} {u : F} {α : ℝ}
    (hMu : s.Mu = .fin u) (hNv : s.Nv = some (.fin v)) (hv : s.v = .fin v) (hα : s.alpha = .fin α) (h0 : q.A v - α • u ≠ 0) :
    ∃ (β α' : ℝ) (u' : F) (v' : E), 0 < β ∧ β • u' = q.A v - α • u ∧ ⟪u', u'⟫ = 1 ∧ α' • v' = q.B u' - β • v ∧ 0 ≤ α' ∧
      (α' ≠ 0 → ⟪v', v'⟫ = 1) ∧ (α' = 0 → v' = 0) ∧
      lsmrBidiag (Vec.op q.A) (Vec.op q.B) q.kw s =
        .ok (.fin u', some (.fin v'), .fin v', .fin α', .fin β, s.products + 2) := by
  have hβ : 0 < ‖q.A v - α • u‖ := norm_pos_iff.2 h0
  set p := q.A v - α • u with hp
  set β := ‖p‖ with hβd
  set r := q.B (β⁻¹ • p) - β • v with hr
  refine ⟨β, ‖r‖, β⁻¹ • p, ‖r‖⁻¹ • r, hβ, by rw [smul_smul, mul_inv_cancel₀ hβ.ne', one_smul], ?_, ?_, norm_nonneg _, ?_, ?_, ?_⟩
  · rw [inner_smul_left, inner_smul_right, real_inner_self_eq_norm_mul_norm, ← hβd]
    simp only [conj_trivial]; field_simp
  · by_cases h : r = 0
    · rw [← hr, h]; simp
    · rw [smul_smul, mul_inv_cancel₀ (norm_ne_zero_iff.2 h), one_smul]
  · intro h
    rw [inner_smul_left, inner_smul_right, real_inner_self_eq_norm_mul_norm]
    simp only [conj_trivial]; field_simp
  · intro h
    rw [norm_eq_zero] at h
    rw [h, smul_zero]
  · have hM : ∀ z : Vec F, applyPrecon q.kw.M z = z := fun _ => rfl
    have hN : ∀ z : Vec E, applyPrecon q.kw.N z = z := fun _ => rfl
    have hsq : Real.sqrt ⟪p, p⟫ = β := by
      rw [real_inner_self_eq_norm_sq, Real.sqrt_sq (norm_nonneg _)]
    have hsq' : Real.sqrt ⟪r, r⟫ = ‖r‖ := by
      rw [real_inner_self_eq_norm_sq, Real.sqrt_sq (norm_nonneg _)]
    have e1 : Vec.op q.A s.v - smul s.alpha s.Mu = .fin p := by rw [hMu, hα, hv]; rfl
    have e2 : pysqrt (dot (Vec.fin p) (Vec.fin p)) = .ok (.fin β) := by
      rw [Vec.fin_dot, pysqrt_fin real_inner_self_nonneg, hsq]
    have e3 : Vec.op q.B (Vec.fin (β⁻¹ • p)) - smul (Fl.fin β) (Vec.fin v) = .fin r := rfl
    have e4 : pysqrt (dot (Vec.fin r) (Vec.fin r)) = .ok (.fin ‖r‖) := by
      rw [Vec.fin_dot, pysqrt_fin real_inner_self_nonneg, hsq']
    have e5 : bound "Nv" s.Nv = .ok (Vec.fin v) := by rw [hNv]; rfl
    unfold lsmrBidiag
    simp only [hM, hN, e1, e2, ok_bind]
    rw [if_pos ((gt_fin_zero _).2 hβ)]
    simp only [Vec.fin_vdiv _ hβ.ne', e5, ok_bind, e3, e4]
    by_cases h : r = 0
    · rw [if_neg (by rw [gt_fin_zero, h, norm_zero]; exact lt_irrefl _), h, smul_zero]; rfl
    · rw [if_pos ((gt_fin_zero _).2 (norm_pos_iff.2 h)), Vec.fin_vdiv _ (norm_ne_zero_iff.2 h)]; rfl

/-- the test quantities: raise if the norm of the residual is zero -/
theorem lsmrQuantities_zero (q : LsmrProblem E F) (direct : Bool) {bn : ℝ} (an ac ar xn : ℝ) (hbn : 0 < bn) :
    lsmrQuantities q.kw direct (.fin bn) (.fin an) (.fin ac) (.fin 0) (.fin ar) (.fin xn) = .error .zeroDivision := by
  have e4 : pydiv (Fl.fin 0) (Fl.fin bn) = .ok (.fin (0 / bn)) := pydiv_fin _ hbn.ne'
  have e5 : pydiv (Fl.fin ar) (Fl.fin an * Fl.fin 0) = .error .zeroDivision := by
    unfold pydiv
    rw [Fl.fin_mul, mul_zero, (feq_fin_zero 0).2 rfl]
    rfl
  unfold lsmrQuantities
  simp only [e4, ok_bind, e5]
  rfl

/-- the test quantities -/
theorem lsmrQuantities_fin (q : LsmrProblem E F) (hq : q.Valid) (direct : Bool) {bn an ac rn ar xn : ℝ} (hbn : 0 < bn)
    (han : 0 < an) (hac : 0 < ac) (hxn : 0 ≤ xn) (hrn : 0 < rn) (har : 0 ≤ ar) :
    ∃ t, lsmrQuantities q.kw direct (.fin bn) (.fin an) (.fin ac) (.fin rn) (.fin ar) (.fin xn) = .ok t ∧
      (ar = 0 → ∀ lim itn, lsmrStop q.kw lim itn t = 1 ∨ lsmrStop q.kw lim itn t = 2) ∧
      (q.atol = 0 → q.btol = 0 → q.conlim ≤ 0 → direct = false → ∀ lim itn,
        lsmrStop q.kw lim itn t = 0 ∨ lsmrStop q.kw lim itn t = 7 ∨ ar = 0) := by
  have hd : 0 < an * rn := mul_pos han hrn
  have hq1 : 0 ≤ an * xn / bn := by positivity
  have hne : 1 + an * xn / bn ≠ 0 := by linarith
  have e1 : pydiv (Fl.fin rn) (Fl.fin bn) = .ok (.fin (rn / bn)) := pydiv_fin _ hbn.ne'
  have e2 : pydiv (Fl.fin ar) (Fl.fin an * Fl.fin rn) = .ok (.fin (ar / (an * rn))) := pydiv_fin _ hd.ne'
  have e3 : pydiv (lit 1) (Fl.fin ac) = .ok (.fin (1 / ac)) := by
    rw [Fl.lit_eq, Rat.cast_one]; exact pydiv_fin _ hac.ne'
  have e4 : Fl.fin (rn / bn) / (lit 1 + Fl.fin an * Fl.fin xn / Fl.fin bn) = .fin (rn / bn / (1 + an * xn / bn)) := by
    rw [Fl.fin_mul, Fl.fin_div _ hbn.ne', Fl.lit_eq, Fl.fin_add, Rat.cast_one, Fl.fin_div _ hne]
  have e5 : q.kw.btol + q.kw.atol * Fl.fin an * Fl.fin xn / Fl.fin bn = .fin (q.btol + q.atol * an * xn / bn) := by
    change Fl.fin q.btol + Fl.fin q.atol * Fl.fin an * Fl.fin xn / Fl.fin bn = _
    rw [Fl.fin_mul, Fl.fin_mul, Fl.fin_div _ hbn.ne', Fl.fin_add]
  refine ⟨{ test1 := .fin (rn / bn), test2 := .fin (ar / (an * rn)), test3 := .fin (1 / ac), t1 := .fin (rn / bn / (1 + an * xn / bn)),
            rtol := .fin (q.btol + q.atol * an * xn / bn), direct := direct }, ?_, ?_, ?_⟩
  · unfold lsmrQuantities
    simp only [e1, e2, e3, ok_bind, e4, e5]
    rfl
  · intro h lim itn
    rw [lsmrStop_eq]
    have : le (Fl.fin (ar / (an * rn))) q.kw.atol = true := by
      change le (Fl.fin (ar / (an * rn))) (Fl.fin q.atol) = true
      rw [Fl.fin_le, h, zero_div]; exact hq.atol
    simp only [this, if_true]
    split_ifs <;> simp
  · intro ha hb hc hdir lim itn
    have p1 : 0 < rn / bn := by positivity
    have p2 : 0 ≤ ar / (an * rn) := by positivity
    have p3 : 0 < 1 / ac := by positivity
    have p4 : 0 < rn / bn / (1 + an * xn / bn) := by
      have : 0 < 1 + an * xn / bn := by linarith
      positivity
    have hct : lsmrCtol q.kw.conlim = (Fl.fin 0) := by
      unfold lsmrCtol
      rw [if_neg]
      · simp
      · change ¬ gt (Fl.fin q.conlim) (lit 0) = true
        rw [gt_fin_zero, not_lt]; exact hc
    have hat : q.kw.atol = Fl.fin 0 := by rw [← ha]; rfl
    by_cases har0 : ar = 0
    · exact Or.inr (Or.inr har0)
    · have p2' : 0 < ar / (an * rn) := div_pos (lt_of_le_of_ne har (Ne.symm har0)) hd
      rw [lsmrStop_eq]
      simp only [hct, hat, hb, ha, hdir, Fl.lit_eq, Fl.fin_add, Fl.fin_le, Rat.cast_one, zero_mul, zero_div, add_zero]
      rw [if_neg (not_le.2 p1), if_neg (not_le.2 p2'), if_neg (not_le.2 p3), if_neg (by linarith), if_neg (by linarith),
        if_neg (by linarith)]
      split_ifs <;> simp_all

/-! ### One iteration -/

/-- the loop variables carry finite values -/
structure LmRel (s : LsmrLoop Fl (Vec F) (Vec E)) (x h hb v : E) (u : F) (α σ ρ φ res2 cb sb ζb rd δ ρl ρbl a2 mx mi : ℝ) : Prop where
  σσ : σ * σ = 1
  res20 : 0 ≤ res2
  a20 : 0 < a2
  mx0 : 0 ≤ mx
  mi0 : 0 < mi
  x : s.x = .fin x
  Mu : s.Mu = .fin u
  Nv : s.Nv = some (.fin v)
  v : s.v = .fin v
  h : s.h = .fin h
  hbar : s.hbar = .fin hb
  alpha : s.alpha = .fin α
  alphabar : s.alphabar = .fin (σ * ρ)
  betadd : s.betadd = .fin (σ * φ)
  rho : s.rho = .fin ρl
  rhobar : s.rhobar = .fin ρbl
  cbar : s.cbar = .fin cb
  sbar : s.sbar = .fin sb
  zetabar : s.zetabar = .fin ζb
  d : s.d = .fin res2
  rhodold : s.rhodold = .fin rd
  δ : ∃ ζ θt τ βd, s.zeta = .fin ζ ∧ s.thetatilde = .fin θt ∧ s.tautildeold = .fin τ ∧ s.betad = .fin βd ∧ βd - (ζ - θt * τ) / rd = δ
  normA2 : s.normA2 = .fin a2
  maxrbar : s.maxrbar = .fin mx
  minrbar : s.minrbar = .fin mi

/-- the rotations -/
theorem lsmrRot_fin {s : LsmrLoop Fl (Vec F) (Vec E)} {x h hb v : E} {u : F} {α σ ρ φ res2 cb sb ζb rd δ ρl ρbl a2 mx mi : ℝ}
    (r : LmRel s x h hb v u α σ ρ φ res2 cb sb ζb rd δ ρl ρbl a2 mx mi) (hρ : ρ ≠ 0) (hc : 0 < cb) (d α' β : ℝ) :
    lsmrRot (Fl.fin d) (.fin α') (.fin β) s = .ok
      { chat := .fin (σ * ρ / rho1 d ρ), shat := .fin (d / rho1 d ρ), c := .fin (rho1 d ρ / rho d ρ β), s := .fin (β / rho d ρ β),
        rho := .fin (rho d ρ β), thetanew := .fin (β / rho d ρ β * α'), alphabar := .fin (rho1 d ρ / rho d ρ β * α'),
        thetabar := .fin (sb * rho d ρ β), rhotemp := .fin (cb * rho d ρ β),
        cbar := .fin (cb * rho d ρ β / hyp (cb * rho d ρ β) (β / rho d ρ β * α')),
        sbar := .fin (β / rho d ρ β * α' / hyp (cb * rho d ρ β) (β / rho d ρ β * α')),
        rhobar := .fin (hyp (cb * rho d ρ β) (β / rho d ρ β * α')),
        zeta := .fin (cb * rho d ρ β / hyp (cb * rho d ρ β) (β / rho d ρ β * α') * ζb),
        zetabar := .fin (-(β / rho d ρ β * α' / hyp (cb * rho d ρ β) (β / rho d ρ β * α')) * ζb) } := by
  have h1 := rho1_pos (d := d) hρ
  have h2 := rho_pos (d := d) β hρ
  have e0 : hyp (σ * ρ) d = rho1 d ρ := by
    unfold hyp rho1
    congr 2
    linear_combination (ρ * ρ) * r.σσ
  have e1 : symOrtho s.alphabar (Fl.fin d) = .ok (.fin (σ * ρ / rho1 d ρ), .fin (d / rho1 d ρ), .fin (rho1 d ρ)) := by
    rw [r.alphabar, symOrtho_pos (by rw [e0]; exact h1), e0]
  have e2 : symOrtho (Fl.fin (rho1 d ρ)) (Fl.fin β) = .ok (.fin (rho1 d ρ / rho d ρ β), .fin (β / rho d ρ β), .fin (rho d ρ β)) :=
    symOrtho_pos (a := rho1 d ρ) (b := β) h2
  have h3 : 0 < hyp (cb * rho d ρ β) (β / rho d ρ β * α') := hyp_pos _ (mul_pos hc h2).ne'
  have e3 := symOrtho_pos h3
  unfold lsmrRot
  simp only [e1, ok_bind, e2, r.cbar, r.sbar, r.zetabar, Fl.fin_mul, e3, Fl.fin_neg]
  rfl

/-- one iteration computes the recurrences -/
theorem lsmrStepN_exact (q : LsmrProblem E F) (hq : q.Valid) {nrm : Vec E → Fl} {ν : E → ℝ} (hν : NormOf nrm ν) (lim : ℤ) {bn : ℝ} (hbn : 0 < bn)
    {s : LsmrLoop Fl (Vec F) (Vec E)} {x h hb v : E} {u : F} {α σ ρ φ res2 cb sb ζb rd δ ρl ρbl a2 mx mi : ℝ}
    (r : LmRel s x h hb v u α σ ρ φ res2 cb sb ζb rd δ ρl ρbl a2 mx mi) (hρ : ρ ≠ 0) (hc : 0 < cb) (hrd : 0 < rd) (hρl : 0 < ρl)
    (hρbl : 0 < ρbl) {u' : F} {v' : E} {α' β : ℝ} {p' : ℕ}
    (hbi : lsmrBidiag (Vec.op q.A) (Vec.op q.B) q.kw s = .ok (.fin u', some (.fin v'), .fin v', .fin α', .fin β, p'))
    {rr θ βh δ' R ar : ℝ} {hb' x' : E} (hrr : rr = rho q.damp ρ β) (hθ : θ = β / rr * α')
    (hβh : βh = rho1 q.damp ρ / rr * (ρ / rho1 q.damp ρ * φ)) (hhb' : hb' = MR.hbn ρl ρbl sb rr h hb)
    (hx' : x' = MR.yn cb ζb rr θ x hb') (hδ' : δ' = MR.δn cb sb ζb rd δ rr θ βh)
    (hR : R = res2 + q.damp / rho1 q.damp ρ * φ * (q.damp / rho1 q.damp ρ * φ) + δ' * δ' +
      β / rr * (ρ / rho1 q.damp ρ * φ) * (β / rr * (ρ / rho1 q.damp ρ * φ)))
    (har : ar = |-(θ / hyp (cb * rr) θ) * ζb|) :
    (R = 0 → lsmrStepN nrm (Vec.op q.A) (Vec.op q.B) q.kw lim (.fin bn) s = .error .zeroDivision) ∧
    (R ≠ 0 → ∃ t a2' mx' mi', lsmrStepN nrm (Vec.op q.A) (Vec.op q.B) q.kw lim (.fin bn) s = .ok t ∧
      LmRel t x' ((-θ / rr) • h + v') hb' v' u' α' (-1) (-(rho1 q.damp ρ / rr) * α')
        (β / rr * (ρ / rho1 q.damp ρ * φ)) (res2 + q.damp / rho1 q.damp ρ * φ * (q.damp / rho1 q.damp ρ * φ))
        (cb * rr / hyp (cb * rr) θ) (θ / hyp (cb * rr) θ) (-(θ / hyp (cb * rr) θ) * ζb) (MR.rdn cb sb rd rr θ) δ' rr
        (hyp (cb * rr) θ) a2' mx' mi' ∧
      t.normr = .fin (Real.sqrt R) ∧ t.normar = .fin ar ∧ t.normx = .fin (ν x') ∧
      (ar = 0 → t.istop = 1 ∨ t.istop = 2) ∧
      (q.atol = 0 → q.btol = 0 → q.etol ≤ 0 → q.conlim ≤ 0 → t.istop = 0 ∨ t.istop = 7 ∨ ar = 0)) := by
  have h1 := rho1_pos (d := q.damp) hρ
  have h2 := rho_pos (d := q.damp) β hρ
  have hrot := lsmrRot_fin r hρ hc q.damp α' β
  rw [← hrr, ← hθ] at hrot
  rw [← hrr] at h2
  have h3 : 0 < hyp (cb * rr) θ := hyp_pos _ (mul_pos hc h2).ne'
  have h4 : 0 < hyp rd (sb * rr) := hyp_pos _ hrd.ne'
  have h5 : 0 < rd / hyp rd (sb * rr) * hyp (cb * rr) θ := mul_pos (div_pos hrd h4) h3
  have hkd : q.kw.damp = Fl.fin q.damp := rfl
  obtain ⟨rot, hrot, f1, f2, f3, f4, f5, f6, f7, f8, f9, f10, f11, f12, f13, f14⟩ : ∃ rot : LsmrRot Fl,
      lsmrRot (Fl.fin q.damp) (.fin α') (.fin β) s = .ok rot ∧
      rot.chat = .fin (σ * ρ / rho1 q.damp ρ) ∧ rot.shat = .fin (q.damp / rho1 q.damp ρ) ∧ rot.c = .fin (rho1 q.damp ρ / rr) ∧
      rot.s = .fin (β / rr) ∧ rot.rho = .fin rr ∧ rot.thetanew = .fin θ ∧ rot.alphabar = .fin (rho1 q.damp ρ / rr * α') ∧
      rot.thetabar = .fin (sb * rr) ∧ rot.rhotemp = .fin (cb * rr) ∧ rot.cbar = .fin (cb * rr / hyp (cb * rr) θ) ∧
      rot.sbar = .fin (θ / hyp (cb * rr) θ) ∧ rot.rhobar = .fin (hyp (cb * rr) θ) ∧
      rot.zeta = .fin (cb * rr / hyp (cb * rr) θ * ζb) ∧ rot.zetabar = .fin (-(θ / hyp (cb * rr) θ) * ζb) :=
    ⟨_, hrot, rfl, rfl, rfl, rfl, rfl, rfl, rfl, rfl, rfl, rfl, rfl, rfl, rfl, rfl⟩
  -- the vectors
  have hvec : lsmrVectors rot s (Vec.fin v') = .ok (.fin hb', .fin x', .fin ((-θ / rr) • h + v')) := by
    have e1 : pydiv (rot.thetabar * rot.rho) (s.rho * s.rhobar) = .ok (.fin (sb * rr * rr / (ρl * ρbl))) := by
      rw [r.rho, r.rhobar, f8, f5]; exact pydiv_fin _ (mul_pos hρl hρbl).ne'
    have e2 : pydiv rot.zeta (rot.rho * rot.rhobar) = .ok (.fin (cb * rr / hyp (cb * rr) θ * ζb / (rr * hyp (cb * rr) θ))) := by
      rw [f13, f5, f12]; exact pydiv_fin _ (mul_pos h2 h3).ne'
    have e3 : pydiv rot.thetanew rot.rho = .ok (.fin (θ / rr)) := by rw [f6, f5]; exact pydiv_fin _ h2.ne'
    unfold lsmrVectors
    simp only [e1, e2, e3, ok_bind, r.h, r.hbar, r.x, Vec.fin_smul, Vec.fin_sub, Vec.fin_add]
    have : v' - (θ / rr) • h = (-θ / rr) • h + v' := by rw [neg_div, neg_smul]; abel
    rw [this, hx', hhb']
    rfl
  -- the residual norm
  obtain ⟨ζ, θt, τ, βd, hζ, hθt, hτ, hβd, hδ⟩ := r.δ
  have hRnn : 0 ≤ R := by
    rw [hR]
    nlinarith [r.res20, mul_self_nonneg (q.damp / rho1 q.damp ρ * φ), mul_self_nonneg δ',
      mul_self_nonneg (β / rr * (ρ / rho1 q.damp ρ * φ))]
  set cc := rd / hyp rd (sb * rr) with hcc
  set ss := sb * rr / hyp rd (sb * rr) with hss
  have hac : σ * ρ / rho1 q.damp ρ * (σ * φ) = ρ / rho1 q.damp ρ * φ := by
    have := r.σσ
    field_simp
    linear_combination φ * this
  have hres : lsmrResid rot s = .ok (.fin (-1 * (β / rr * (ρ / rho1 q.damp ρ * φ))), .fin (ss * hyp (cb * rr) θ),
      .fin (MR.rdn cb sb rd rr θ), .fin (-ss * βd + cc * βh), .fin ((ζ - θt * τ) / hyp rd (sb * rr)),
      .fin (res2 + q.damp / rho1 q.damp ρ * φ * (q.damp / rho1 q.damp ρ * φ)), .fin (Real.sqrt R)) := by
    have e1 : symOrtho s.rhodold rot.thetabar = .ok (.fin cc, .fin ss, .fin (hyp rd (sb * rr))) := by
      rw [r.rhodold, f8]; exact symOrtho_pos h4
    have e2 : pydiv (s.zeta - s.thetatilde * s.tautildeold) (Fl.fin (hyp rd (sb * rr))) =
        .ok (.fin ((ζ - θt * τ) / hyp rd (sb * rr))) := by
      rw [hζ, hθt, hτ]; exact pydiv_fin _ h4.ne'
    have e3 : pydiv (rot.zeta - Fl.fin ss * rot.rhobar * Fl.fin ((ζ - θt * τ) / hyp rd (sb * rr))) (Fl.fin cc * rot.rhobar) =
        .ok (.fin ((cb * rr / hyp (cb * rr) θ * ζb - ss * hyp (cb * rr) θ * ((ζ - θt * τ) / hyp rd (sb * rr))) /
          (cc * hyp (cb * rr) θ))) := by
      rw [f13, f12]; exact pydiv_fin _ h5.ne'
    have e4 : rot.chat * s.betadd = Fl.fin (ρ / rho1 q.damp ρ * φ) := by
      rw [r.betadd, f1]
      change Fl.fin (σ * ρ / rho1 q.damp ρ * (σ * φ)) = _
      rw [hac]
    have e5 : -rot.shat * s.betadd = Fl.fin (-(q.damp / rho1 q.damp ρ) * (σ * φ)) := by rw [r.betadd, f2]; rfl
    have e6 : rot.c * Fl.fin (ρ / rho1 q.damp ρ * φ) = Fl.fin βh := by rw [hβh, f3]; rfl
    have e7 : -rot.s * Fl.fin (ρ / rho1 q.damp ρ * φ) = Fl.fin (-1 * (β / rr * (ρ / rho1 q.damp ρ * φ))) := by
      rw [f4]
      change Fl.fin (-(β / rr) * (ρ / rho1 q.damp ρ * φ)) = _
      congr 1; ring
    have e8 : s.d + Fl.fin (-(q.damp / rho1 q.damp ρ) * (σ * φ)) * Fl.fin (-(q.damp / rho1 q.damp ρ) * (σ * φ)) =
        .fin (res2 + q.damp / rho1 q.damp ρ * φ * (q.damp / rho1 q.damp ρ * φ)) := by
      rw [r.d]
      change Fl.fin (res2 + -(q.damp / rho1 q.damp ρ) * (σ * φ) * (-(q.damp / rho1 q.damp ρ) * (σ * φ))) = _
      congr 1
      linear_combination (q.damp / rho1 q.damp ρ * φ * (q.damp / rho1 q.damp ρ * φ)) * r.σσ
    have e9 : -Fl.fin ss * s.betad + Fl.fin cc * Fl.fin βh = .fin (-ss * βd + cc * βh) := by rw [hβd]; rfl
    have e10 : -ss * βd + cc * βh - (cb * rr / hyp (cb * rr) θ * ζb - ss * hyp (cb * rr) θ * ((ζ - θt * τ) / hyp rd (sb * rr))) /
          (cc * hyp (cb * rr) θ) = δ' := by
      rw [hδ']
      unfold MR.δn MR.rdn
      rw [← hδ, ← hcc, ← hss]
      have : ss * hyp (cb * rr) θ * ((ζ - θt * τ) / hyp rd (sb * rr)) / (cc * hyp (cb * rr) θ) = ss * ((ζ - θt * τ) / rd) := by
        rw [hcc]
        generalize hyp (cb * rr) θ = r1 at *
        generalize hyp rd (sb * rr) = r2 at *
        field_simp
      rw [sub_div, this]
      ring
    unfold lsmrResid
    simp only [e1, e2, e3, e4, e5, e6, e7, e8, e9, ok_bind]
    simp only [f12, Fl.fin_sub, Fl.fin_mul, e10, Fl.fin_add]
    have e11 : res2 + q.damp / rho1 q.damp ρ * φ * (q.damp / rho1 q.damp ρ * φ) + δ' * δ' +
        -1 * (β / rr * (ρ / rho1 q.damp ρ * φ)) * (-1 * (β / rr * (ρ / rho1 q.damp ρ * φ))) = R := by rw [hR]; ring
    rw [e11, Fl.fin_sqrt hRnn]
    rfl
  -- the other norms
  have ha2 : 0 < a2 + β * β := add_pos_of_pos_of_nonneg r.a20 (mul_self_nonneg _)
  have hnA : sqrt (s.normA2 + Fl.fin β * Fl.fin β) = .fin (Real.sqrt (a2 + β * β)) := by
    rw [r.normA2, Fl.fin_mul, Fl.fin_add, Fl.fin_sqrt ha2.le]
  have hmx : pymax s.maxrbar s.rhobar = .fin (max mx ρbl) := by rw [r.maxrbar, r.rhobar, Fl.fin_pymax]
  obtain ⟨mi', hmi, hmi0⟩ : ∃ mi', (if s.itn + 1 > 1 then pymin s.minrbar s.rhobar else s.minrbar) = Fl.fin mi' ∧ 0 < mi' := by
    rw [r.minrbar, r.rhobar, fin_pymin']
    split
    · exact ⟨_, rfl, lt_min r.mi0 hρbl⟩
    · exact ⟨_, rfl, r.mi0⟩
  have hrt : 0 < cb * rr := mul_pos hc h2
  have hcA : pydiv (pymax (Fl.fin (max mx ρbl)) rot.rhotemp) (pymin (Fl.fin mi') rot.rhotemp) =
      .ok (.fin (max (max mx ρbl) (cb * rr) / min mi' (cb * rr))) := by
    rw [f9, Fl.fin_pymax, fin_pymin']
    exact pydiv_fin _ (lt_min hmi0 hrt).ne'
  have hcA0 : 0 < max (max mx ρbl) (cb * rr) / min mi' (cb * rr) := div_pos (lt_max_of_lt_right hrt) (lt_min hmi0 hrt)
  have hmod : pymod (s.itn + 1) q.kw.window = .ok ((s.itn + 1) % q.kw.window) := if_neg hq.window
  have har' : Scalar.abs rot.zetabar = .fin ar := by rw [har, f14]; rfl
  have hnx : nrm (Vec.fin x') = Fl.fin (ν x') := hν.fin x'
  rw [← hkd] at hrot
  constructor
  · intro hR0
    rw [hR0, Real.sqrt_zero] at hres
    unfold lsmrStepN
    simp only [hbi, hrot, hvec, hmod, hres, ok_bind, hnA, hmx, hmi, hcA, har', hnx, lsmrQuantities_zero q _ _ _ _ _ hbn]
    rfl
  · intro hR0
    have hRp : 0 < Real.sqrt R := Real.sqrt_pos.2 (lt_of_le_of_ne hRnn (Ne.symm hR0))
    have har0 : 0 ≤ ar := by rw [har]; exact abs_nonneg _
    obtain ⟨tests, ht, ht1, ht2⟩ := lsmrQuantities_fin q hq
      (decide (s.itn + 1 > q.kw.window) && lt (normList (s.dErr.set ((s.itn + 1) % q.kw.window) rot.zeta))
        (q.kw.etol * sqrt (s.xNrgNorm2 + rot.zeta * rot.zeta))) hbn (Real.sqrt_pos.2 ha2) hcA0 (hν.nonneg x') hRp har0
    have hstep : ∃ t, lsmrStepN nrm (Vec.op q.A) (Vec.op q.B) q.kw lim (.fin bn) s = .ok t ∧
        t.x = .fin x' ∧ t.Mu = .fin u' ∧ t.Nv = some (.fin v') ∧ t.v = .fin v' ∧ t.h = .fin ((-θ / rr) • h + v') ∧ t.hbar = .fin hb' ∧
        t.alpha = .fin α' ∧ t.alphabar = .fin (rho1 q.damp ρ / rr * α') ∧ t.betadd = .fin (-1 * (β / rr * (ρ / rho1 q.damp ρ * φ))) ∧
        t.rho = .fin rr ∧ t.rhobar = .fin (hyp (cb * rr) θ) ∧ t.cbar = .fin (cb * rr / hyp (cb * rr) θ) ∧ t.sbar = .fin (θ / hyp (cb * rr) θ) ∧ t.zetabar = .fin (-(θ / hyp (cb * rr) θ) * ζb) ∧
        t.d = .fin (res2 + q.damp / rho1 q.damp ρ * φ * (q.damp / rho1 q.damp ρ * φ)) ∧ t.rhodold = .fin (MR.rdn cb sb rd rr θ) ∧
        t.zeta = .fin (cb * rr / hyp (cb * rr) θ * ζb) ∧ t.thetatilde = .fin (ss * hyp (cb * rr) θ) ∧ t.tautildeold = .fin ((ζ - θt * τ) / hyp rd (sb * rr)) ∧
        t.betad = .fin (-ss * βd + cc * βh) ∧ t.normA2 = s.normA2 + Fl.fin β * Fl.fin β + Fl.fin α' * Fl.fin α' ∧
        t.maxrbar = .fin (max mx ρbl) ∧ t.minrbar = .fin mi' ∧ t.normr = .fin (Real.sqrt R) ∧ t.normar = .fin ar ∧
        t.normx = .fin (ν x') ∧ t.istop = lsmrStop q.kw lim (s.itn + 1) tests := by
      unfold lsmrStepN
      simp only [hbi, hrot, hvec, hmod, hres, ok_bind, hnA, hmx, hmi, hcA, har', hnx, ht]
      exact ⟨_, rfl, rfl, rfl, rfl, rfl, rfl, rfl, rfl, f7, rfl, f5, f12, f10, f11, f14, rfl, rfl, f13, rfl, rfl, rfl, rfl, rfl, rfl,
        rfl, rfl, rfl, rfl⟩
    obtain ⟨t, hst, k1, k2, k3, k4, k5, k6, k7, k8, k9, k10, k11, k12, k13, k14, k15, k16, k17, k18, k19, k20, k21, k22, k23, k24, k25,
      k26, k27⟩ := hstep
    refine ⟨t, a2 + β * β + α' * α', max mx ρbl, mi', hst,
      ⟨by norm_num, ?_, ?_, le_max_of_le_left r.mx0, hmi0, k1, k2, k3, k4, k5, k6, k7, ?_, k9, k10, k11, k12, k13, k14, k15, k16,
       ⟨_, _, _, _, k17, k18, k19, k20, ?_⟩, ?_, k22, k23⟩, k24, k25, k26, fun h => ?_, fun ha hb hc hd => ?_⟩
    · exact add_nonneg r.res20 (mul_self_nonneg _)
    · exact add_pos_of_pos_of_nonneg ha2 (mul_self_nonneg _)
    · rw [k8]
      change Fl.fin (rho1 q.damp ρ / rr * α') = _
      congr 1; ring
    · rw [hδ']
      unfold MR.δn MR.rdn
      rw [← hδ, ← hcc, ← hss]
      have : ss * hyp (cb * rr) θ * ((ζ - θt * τ) / hyp rd (sb * rr)) / (cc * hyp (cb * rr) θ) = ss * ((ζ - θt * τ) / rd) := by
        rw [hcc]
        generalize hyp (cb * rr) θ = r1 at *
        generalize hyp rd (sb * rr) = r2 at *
        field_simp
      rw [sub_div, this]
      ring
    · rw [k21, r.normA2]; rfl
    · rw [k27]; exact ht1 h _ _
    · rw [k27]
      refine ht2 ha hb hd ?_ _ _
      rw [Bool.and_eq_false_iff]; right
      exact normList_lt_false _ hc _

end Verif.Solver
