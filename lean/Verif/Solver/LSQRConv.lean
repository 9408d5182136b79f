import Verif.Solver.LSQRExact
import Mathlib.Analysis.InnerProductSpace.PiL2

/-!
# Properties of LSQR in exact arithmetic: C38 and convergence
-/

namespace Verif.Solver
open Scalar Vect
open scoped RealInnerProductSpace
open MinresMath (krylov krylov_mono)
open LsqrMath

variable {E F H : Type} [NormedAddCommGroup E] [InnerProductSpace ℝ E] [NormedAddCommGroup F] [InnerProductSpace ℝ F]
  [NormedAddCommGroup H] [InnerProductSpace ℝ H]

/-- `x` is the best element of the `i`-th Krylov space of `A'A` and `A'b` -/
def LsqrProblem.Best (q : LsqrProblem E F) (i : ℕ) (x : E) : Prop :=
  x ∈ krylov (q.B ∘ₗ q.A) (q.B q.b) i ∧ ∀ y ∈ krylov (q.B ∘ₗ q.A) (q.B q.b) i, q.resid x ≤ q.resid y

/-! ### Loop invariant -/

/-- the attributes and lists describe the iterates `xs` -/
structure LHist (q : LsqrProblem E F) (s : LsqrLoop Fl (Vec F) (Vec E)) (xs : List E) : Prop where
  itn : s.itn = xs.length
  x : s.x = .fin (xs.getLastD 0)
  iterates : s.iterates = if q.storeIterates then (0 :: xs).map Vec.fin else []
  resids : s.resids = if q.storeResids then (0 :: xs).map (fun x => Fl.fin (q.resid x)) else []
  normalEqns : s.normalEqns = if q.storeResids then (0 :: xs).map (fun x => Fl.fin (q.normal x)) else []
  r2norm : s.r2norm = .fin (q.resid (xs.getLastD 0))
  Arnorm : s.Arnorm = .fin (q.normal (xs.getLastD 0))
  xnorm : s.xnorm = .fin ‖xs.getLastD 0‖
  best : ∀ i (h : i < xs.length), q.Best (i+1) xs[i]
  code : s.istop ≠ 3 ∧ s.istop ≠ 6
  done : q.atol = 0 → q.btol = 0 → q.etol ≤ 0 → s.istop = 0 ∨ s.istop = 7 ∨ q.normal (xs.getLastD 0) = 0
  r1norm : ∃ r, s.r1norm = .fin r ∧ ‖q.b - q.A (xs.getLastD 0)‖ ≤ r ∧ (q.damp = 0 → r = ‖q.b - q.A (xs.getLastD 0)‖) ∧
    (xs.length = 1 → q.damp ≠ 0 → q.normal (xs.getLastD 0) ≠ 0 → ‖q.b - q.A (xs.getLastD 0)‖ < r)

/-- the process has not ended after `k` iterations -/
def LGood (q : LsqrProblem E F) (i1 : F →ₗ[ℝ] H) (i2 : E →ₗ[ℝ] H) (s : LsqrLoop Fl (Vec F) (Vec E)) (k : ℕ) : Prop :=
  ∃ x w v u α ρ φ res2 xx z c2 s2 an dd Us Us' Vs Vs' p g X, LRel s x w v u α ρ φ res2 xx z c2 s2 an dd ∧
    Run q.A q.B i1 i2 q.damp q.b k x w v u α ρ φ res2 xx z c2 s2 Us Us' Vs Vs' p g X ∧ (an = 0 → k = 0)

/-- the process ended in the first iteration, with a solution, but the stopping tests have not noticed -/
def LSpecial (q : LsqrProblem E F) (s : LsqrLoop Fl (Vec F) (Vec E)) (xs : List E) : Prop :=
  xs.length = 1 ∧ ∃ x w v u α ρ res2 xx z c2 dd, LRel s x w v 0 α ρ 0 res2 xx z c2 0 0 dd ∧ xs.getLastD 0 = x ∧ ρ ≠ 0 ∧ c2 ≠ 0 ∧
    q.A v = α • u ∧ q.B u = α • v ∧ ⟪u, u⟫ = 1 ∧ 0 < α ∧ Real.sqrt xx = ‖x‖ ∧ Real.sqrt res2 = q.resid x ∧ q.normal x = 0

theorem LsqrProblem.best_of (q : LsqrProblem E F) (hq : q.Valid) {i1 : F →ₗ[ℝ] H} {i2 : E →ₗ[ℝ] H} (e : Emb i1 i2) {i : ℕ} {x : E}
    (hx : x ∈ krylov (q.B ∘ₗ q.A) (q.B q.b) i)
    (h : ∀ y ∈ krylov (q.B ∘ₗ q.A) (q.B q.b) i, ⟪Run.nres q.A q.B q.damp q.b x, y⟫ = 0) : q.Best i x := by
  refine ⟨hx, fun y hy => ?_⟩
  unfold LsqrProblem.resid
  rw [← Run.inner_resid (A := q.A) (b := q.b) (d := q.damp) e, ← Run.inner_resid (A := q.A) (b := q.b) (d := q.damp) e]
  refine Real.sqrt_le_sqrt (Run.minimal (fun y hy => ?_) hx y hy)
  rw [← Run.inner_nres e hq.adj]
  exact h y hy

theorem LsqrProblem.normal_eq (q : LsqrProblem E F) (x : E) : q.normal x = ‖Run.nres q.A q.B q.damp q.b x‖ := rfl

theorem LsqrProblem.normal_of_resid (q : LsqrProblem E F) {x : E} (h : q.resid x = 0) : q.normal x = 0 := by
  unfold LsqrProblem.resid at h
  rw [Real.sqrt_eq_zero (by positivity)] at h
  have h1 : ‖q.b - q.A x‖ ^ 2 = 0 := by nlinarith [sq_nonneg (‖q.b - q.A x‖), sq_nonneg (q.damp * ‖x‖)]
  have h2 : q.damp ^ 2 * ‖x‖ ^ 2 = 0 := by nlinarith
  have h3 : q.b - q.A x = 0 := by simpa using h1
  have h4 : (q.damp * q.damp) • x = 0 := by
    rcases mul_eq_zero.1 h2 with h | h
    · have : q.damp = 0 := by simpa using h
      rw [this]; simp
    · have : x = 0 := by simpa using h
      rw [this]; simp
  unfold LsqrProblem.normal
  rw [h3, h4]; simp

/-- the history grows by the new iterate -/
theorem LHist.step {q : LsqrProblem E F} {s t : LsqrLoop Fl (Vec F) (Vec E)} {xs : List E} {lim : ℤ} {bn : Fl} (hh : LHist q s xs)
    (he : LsqrStepEff q.kw lim bn s t) {x : E} (hx : t.x = .fin x) (h1 : t.r2norm = .fin (q.resid x))
    (h2 : t.Arnorm = .fin (q.normal x)) (h3 : t.xnorm = .fin ‖x‖) (hb : q.Best (xs.length + 1) x)
    (hc : t.istop ≠ 3 ∧ t.istop ≠ 6) (hd : q.atol = 0 → q.btol = 0 → q.etol ≤ 0 → t.istop = 0 ∨ t.istop = 7 ∨ q.normal x = 0)
    (hr : t.r1norm = (if lt (t.r2norm * t.r2norm - q.kw.damp * q.kw.damp * t.xxnorm) (lit 0) then
        -(sqrt (Scalar.abs (t.r2norm * t.r2norm - q.kw.damp * q.kw.damp * t.xxnorm)))
        else sqrt (Scalar.abs (t.r2norm * t.r2norm - q.kw.damp * q.kw.damp * t.xxnorm))))
    {xx : ℝ} (hxx : t.xxnorm = .fin xx) (hle : xx ≤ ‖x‖ ^ 2) (hlt : xs = [] → q.normal x ≠ 0 → xx < ‖x‖ ^ 2) :
    LHist q t (xs ++ [x]) := by
  have hl : (xs ++ [x]).getLastD 0 = x := List.getLastD_concat ..
  refine ⟨?_, ?_, ?_, ?_, ?_, ?_, ?_, ?_, ?_, hc, ?_, ?_⟩
  · rw [he.itn, hh.itn]; simp
  · rw [hl, hx]
  · rw [he.iterates, hh.iterates]
    have : q.kw.storeIterates = q.storeIterates := rfl
    rw [this]
    split <;> simp [hx]
  · rw [he.resids, hh.resids]
    have : q.kw.storeResids = q.storeResids := rfl
    rw [this]
    split <;> simp [h1]
  · rw [he.normalEqns, hh.normalEqns]
    have : q.kw.storeResids = q.storeResids := rfl
    rw [this]
    split <;> simp [h2]
  · rw [hl, h1]
  · rw [hl, h2]
  · rw [hl, h3]
  · intro i hi
    rcases Nat.lt_or_ge i xs.length with h | h
    · rw [List.getElem_append_left h]; exact hh.best i h
    · have hi' : i = xs.length := by simp at hi; omega
      subst hi'
      simpa using hb
  · rw [hl]; exact hd
  · have hk : q.kw.damp = Fl.fin q.damp := rfl
    have hsq : q.resid x * q.resid x = ‖q.b - q.A x‖ ^ 2 + q.damp ^ 2 * ‖x‖ ^ 2 := by
      unfold LsqrProblem.resid
      exact Real.mul_self_sqrt (by positivity)
    have hd2 : 0 ≤ q.damp * q.damp := mul_self_nonneg _
    have hge : ‖q.b - q.A x‖ ^ 2 ≤ q.resid x * q.resid x - q.damp * q.damp * xx := by
      rw [hsq]; nlinarith [mul_le_mul_of_nonneg_left hle hd2]
    have hnn : 0 ≤ q.resid x * q.resid x - q.damp * q.damp * xx := le_trans (by positivity) hge
    rw [hl]
    refine ⟨Real.sqrt (q.resid x * q.resid x - q.damp * q.damp * xx), ?_, Real.le_sqrt_of_sq_le hge, fun h => ?_, fun h1 h2 h3 => ?_⟩
    · have hnl : ¬ (lt (Fl.fin (q.resid x) * Fl.fin (q.resid x) - Fl.fin q.damp * Fl.fin q.damp * Fl.fin xx) (lit 0) = true) := by
        simp only [Fl.fin_mul, Fl.fin_sub]
        rw [Fl.lit_eq, Fl.fin_lt, not_lt, Rat.cast_zero]; exact hnn
      rw [hr, h1, hxx, hk, if_neg hnl]
      simp only [Fl.fin_mul, Fl.fin_sub, Fl.fin_abs]
      rw [Fl.fin_sqrt (abs_nonneg _), abs_of_nonneg hnn]
    · rw [hsq, h]
      simp
    · refine Real.lt_sqrt_of_sq_lt ?_
      have := hlt (by simpa using h1) h3
      have h4 : 0 < q.damp * q.damp := mul_self_pos.2 h2
      rw [hsq]; nlinarith [mul_lt_mul_of_pos_left this h4]

/-- the loop invariant -/
def LInv (q : LsqrProblem E F) (i1 : F →ₗ[ℝ] H) (i2 : E →ₗ[ℝ] H) (s : LsqrLoop Fl (Vec F) (Vec E)) : Prop :=
  ∃ xs, LHist q s xs ∧ (LGood q i1 i2 s xs.length ∨ LSpecial q s xs ∨ s.istop = 1 ∨ s.istop = 2)

theorem krylov_zero (T : E →ₗ[ℝ] E) (c : E) : krylov T c 0 = ⊥ := by
  unfold krylov
  rw [Submodule.span_eq_bot]
  rintro z ⟨j, hj, -⟩
  omega

/-- a step from a state in which the process has not ended -/
theorem LGood.next {q : LsqrProblem E F} (hq : q.Valid) {i1 : F →ₗ[ℝ] H} {i2 : E →ₗ[ℝ] H} (e : Emb i1 i2) (lim : ℤ) {bn : ℝ}
    (hbn : 0 < bn) {s : LsqrLoop Fl (Vec F) (Vec E)} {xs : List E} (hh : LHist q s xs) (hg : LGood q i1 i2 s xs.length) :
    ∃ t, lsqrStep (Vec.op q.A) (Vec.op q.B) q.kw lim (.fin bn) s = .ok t ∧ LInv q i1 i2 t := by
  obtain ⟨x, w, v, u, α, ρ, φ, res2, xx, z, c2, s2, an, dd, Us, Us', Vs, Vs', p, g, X, hr, hrun, han⟩ := hg
  have hx0 := rho1_pos (d := q.damp) hrun.ρ0
  have hkV : krylov (q.B ∘ₗ q.A) (q.B q.b) (xs.length + 1) = Vs := hrun.gk.kryVs.symm
  -- the recurrence for the norm of `x` is a lower bound
  have hxle : ∀ β {θ γ rhs : ℝ}, γ = Real.sqrt (-c2 * rho q.damp ρ β * (-c2 * rho q.damp ρ β) + θ * θ) →
      rhs = rho1 q.damp ρ / rho q.damp ρ β * (ρ / rho1 q.damp ρ * φ) - s2 * rho q.damp ρ β * z →
      xx + rhs / γ * (rhs / γ) ≤ ‖xnew q.damp ρ β φ x w‖ ^ 2 := by
    intro β θ γ rhs hγ hrhs
    have hxx := hrun.xnorm β
    rw [← hrhs, real_inner_self_eq_norm_sq] at hxx
    rw [hxx]
    have hg0 := mul_self_pos.2 (mul_ne_zero (neg_ne_zero.2 hrun.c20) (rho_pos (d := q.damp) β hrun.ρ0).ne')
    have hγ2 : γ * γ = -c2 * rho q.damp ρ β * (-c2 * rho q.damp ρ β) + θ * θ := by
      rw [hγ, Real.mul_self_sqrt (add_nonneg (mul_self_nonneg _) (mul_self_nonneg _))]
    rw [div_mul_div_comm, div_mul_div_comm, hγ2]
    have := div_le_div_of_nonneg_left (mul_self_nonneg rhs) hg0
      (by linarith [mul_self_nonneg θ] : _ ≤ -c2 * rho q.damp ρ β * (-c2 * rho q.damp ρ β) + θ * θ)
    linarith
  by_cases h0 : q.A v - α • u = 0
  · -- the next left vector is zero
    have hr0 := rho_pos (d := q.damp) 0 hrun.ρ0
    obtain ⟨t, θ, γ, rhs, dd', hθ, hγ, hrhs, hst, hrel, hxn, hrn, har, hr1, -, hc3, hc6, hc12, hdn⟩ :=
      lsqrStep_exact q hq lim hbn hr hrun.ρ0 hrun.c20 (lsqrBidiag_zero q hr.Mu hr.Nv hr.alpha hr.Anorm h0) hr.an0 hrun.gk.αpos.le
    have hres := hrun.rnorm_last e h0
    have hnr := hrun.nres_last e hq.adj h0
    have hn0 : q.normal (xnew q.damp ρ 0 φ x w) = 0 := by rw [q.normal_eq, hnr, norm_zero]
    have hz : (0 : ℝ) / rho q.damp ρ 0 * (ρ / rho1 q.damp ρ * φ) = 0 := by rw [zero_div, zero_mul]
    have hz' : (0 : ℝ) / rho q.damp ρ 0 * (rho1 q.damp ρ / rho q.damp ρ 0 * (ρ / rho1 q.damp ρ * φ)) = 0 := by
      rw [zero_div, zero_mul]
    rw [hz] at hrn hrel hc12 hdn
    rw [hz'] at har hc12 hdn
    simp only [mul_zero, zero_add, abs_zero] at hrn har hc12 hdn
    have hrn' : t.r2norm = .fin (q.resid (xnew q.damp ρ 0 φ x w)) := by
      rw [hrn, ← hres]; rfl
    have har' : t.Arnorm = .fin (q.normal (xnew q.damp ρ 0 φ x w)) := by rw [har, hn0]
    have hxx := hrun.xnorm 0
    rw [← hrhs] at hxx
    have hxn' : t.xnorm = .fin ‖xnew q.damp ρ 0 φ x w‖ := by
      rw [hxn, ← hxx, real_inner_self_eq_norm_sq, Real.sqrt_sq (norm_nonneg _)]
    have hbest : q.Best (xs.length + 1) (xnew q.damp ρ 0 φ x w) := by
      refine q.best_of hq e (by rw [hkV]; exact hrun.xnew_mem 0) fun y _ => ?_
      rw [hnr, inner_zero_left]
    refine ⟨t, hst, xs ++ [xnew q.damp ρ 0 φ x w], hh.step (lsqrStep_eff hst) hrel.x hrn' har' hxn' hbest ⟨hc3, hc6⟩
      (fun _ _ _ => Or.inr (Or.inr hn0)) hr1 hrel.xxnorm (hxle 0 hγ hrhs) (fun _ h => absurd hn0 h), ?_⟩
    by_cases hs : an ≠ 0 ∨ res2 + q.damp / rho1 q.damp ρ * φ * (q.damp / rho1 q.damp ρ * φ) = 0
    · exact Or.inr (Or.inr (hc12 trivial hs))
    · obtain ⟨hs1, hs2⟩ := not_or.1 hs
      have hs1 : an = 0 := not_not.1 hs1
      have hk := han hs1
      have hθ0 : θ = 0 := by rw [hθ, zero_div, zero_mul]
      subst hs1
      rw [hθ0] at hrel hγ
      simp only [zero_div] at hrel
      have hg0 : -c2 * rho q.damp ρ 0 ≠ 0 := mul_ne_zero (neg_ne_zero.2 hrun.c20) hr0.ne'
      have hγ0 : γ ≠ 0 := by
        rw [hγ]
        exact (Real.sqrt_pos.2 (add_pos_of_pos_of_nonneg (mul_self_pos.2 hg0) (mul_self_nonneg _))).ne'
      have hγ2 : γ * γ = -c2 * rho q.damp ρ 0 * (-c2 * rho q.damp ρ 0) := by
        rw [hγ, Real.mul_self_sqrt (add_nonneg (mul_self_nonneg _) (mul_self_nonneg _))]; ring
      refine Or.inr (Or.inl ⟨by simp [hk], _, _, v, u, α, _, _, _, _, _, dd', hrel, List.getLastD_concat .., ?_, ?_, ?_, ?_,
        hrun.gk.uu, hrun.gk.αpos, ?_, ?_, hn0⟩)
      · exact mul_ne_zero (neg_ne_zero.2 (div_ne_zero hx0.ne' hr0.ne')) hrun.gk.αpos.ne'
      · exact div_ne_zero hg0 hγ0
      · exact sub_eq_zero.1 h0
      · have := hrun.gk.Bu
        rw [hrun.gk.kry, hk, krylov_zero, Submodule.mem_bot] at this
        exact sub_eq_zero.1 this
      · rw [show rhs / γ * (rhs / γ) = rhs / (-c2 * rho q.damp ρ 0) * (rhs / (-c2 * rho q.damp ρ 0)) by
          rw [div_mul_div_comm, div_mul_div_comm, hγ2], ← hxx, real_inner_self_eq_norm_sq, Real.sqrt_sq (norm_nonneg _)]
      · rw [← hres]; rfl
  · -- the next left vector is not zero
    obtain ⟨β, α', u', v', hβ, hu, hu1, hv, hα', hv1, hv0, hbi⟩ := lsqrBidiag_ne q hr.Mu hr.Nv hr.alpha hr.Anorm h0
    have hr0 := rho_pos (d := q.damp) β hrun.ρ0
    have huo : ∀ z ∈ Us, ⟪z, u'⟫ = 0 := by
      intro z hz
      have h1 := hrun.gk.q_orth hq.adj z hz
      rw [← hu, inner_smul_right] at h1
      exact (mul_eq_zero.1 h1).resolve_left hβ.ne'
    have han' : 0 < Real.sqrt (an * an + α * α + β * β + q.damp * q.damp) := by
      refine Real.sqrt_pos.2 ?_
      have := mul_self_pos.2 hβ.ne'
      nlinarith [mul_self_nonneg an, mul_self_nonneg α, mul_self_nonneg q.damp]
    obtain ⟨t, θ, γ, rhs, dd', hθ, hγ, hrhs, hst, hrel, hxn, hrn, har, hr1, -, hc3, hc6, hc12, hdn⟩ :=
      lsqrStep_exact q hq lim hbn hr hrun.ρ0 hrun.c20 hbi han'.le hα'
    have hres := hrun.rnorm_step e hu hu1 huo
    have hnr := hrun.nres_step e hq.adj hu hv
    have hvo : ∀ y ∈ Vs, ⟪α' • v', y⟫ = 0 := by
      intro y hy
      have := hrun.gk.p_orth hq.adj hu hu1 huo y hy
      rw [← hv] at this
      rw [real_inner_comm, this]
    have hnorm : q.normal (xnew q.damp ρ β φ x w) =
        α' * |β / rho q.damp ρ β * (rho1 q.damp ρ / rho q.damp ρ β * (ρ / rho1 q.damp ρ * φ))| := by
      rw [q.normal_eq, hnr]
      by_cases hα0 : α' = 0
      · rw [hα0]; simp
      · rw [norm_smul, norm_eq_sqrt_real_inner v', hv1 hα0, Real.sqrt_one, mul_one, Real.norm_eq_abs, abs_mul, abs_mul, abs_neg,
          abs_of_nonneg hα', ← abs_mul]
        rw [mul_comm]
        congr 2
        ring
    have hrn' : t.r2norm = .fin (q.resid (xnew q.damp ρ β φ x w)) := by rw [hrn, ← hres]; rfl
    have har' : t.Arnorm = .fin (q.normal (xnew q.damp ρ β φ x w)) := by rw [har, hnorm]
    have hxx := hrun.xnorm β
    rw [← hrhs] at hxx
    have hxn' : t.xnorm = .fin ‖xnew q.damp ρ β φ x w‖ := by
      rw [hxn, ← hxx, real_inner_self_eq_norm_sq, Real.sqrt_sq (norm_nonneg _)]
    have hbest : q.Best (xs.length + 1) (xnew q.damp ρ β φ x w) := by
      refine q.best_of hq e (by rw [hkV]; exact hrun.xnew_mem β) fun y hy => ?_
      rw [hkV] at hy
      rw [hnr, ← smul_smul, inner_smul_left, hvo y hy, mul_zero]
    refine ⟨t, hst, xs ++ [xnew q.damp ρ β φ x w], hh.step (lsqrStep_eff hst) hrel.x hrn' har' hxn' hbest ⟨hc3, hc6⟩ ?_ hr1
      hrel.xxnorm (hxle β hγ hrhs) (fun h1 h2 => ?_), ?_⟩
    · intro h1 h2 h3
      rcases hdn h1 h2 h3 with h | h | h | h
      · exact Or.inl h
      · exact Or.inr (Or.inl h)
      · exact Or.inr (Or.inr (hnorm.trans h))
      · refine Or.inr (Or.inr (q.normal_of_resid ?_))
        rw [← hres] at h; exact h
    · -- the first iteration
      have hx0' : x = 0 := by
        have := hrun.xV
        rw [hrun.gk.kry, h1, List.length_nil, krylov_zero, Submodule.mem_bot] at this
        exact this
      have hsz : s2 * z = 0 := by
        have hX : X = (s2 * z) • w := by
          have := hrun.xX
          rw [hx0'] at this
          exact (sub_eq_zero.1 this.symm)
        have hw0 : ⟪w, w⟫ ≠ 0 := by
          intro h
          have := hrun.ww
          rw [h] at this; norm_num at this
        have := hrun.wX
        rw [hX, inner_smul_right] at this
        exact (mul_eq_zero.1 this).resolve_right hw0
      have hrhs' : rhs = rho1 q.damp ρ / rho q.damp ρ β * (ρ / rho1 q.damp ρ * φ) := by
        rw [hrhs]; linear_combination -rho q.damp ρ β * hsz
      rw [hnorm, ← hrhs'] at h2
      have hα1 : α' ≠ 0 := fun h => h2 (by rw [h, zero_mul])
      have hrhs0 : rhs ≠ 0 := fun h => h2 (by rw [h, mul_zero, abs_zero, mul_zero])
      have hθ0 : 0 < θ * θ := by
        rw [hθ]; exact mul_self_pos.2 (mul_ne_zero (div_ne_zero hβ.ne' hr0.ne') hα1)
      rw [real_inner_self_eq_norm_sq] at hxx
      rw [hxx]
      have hg0 := mul_self_pos.2 (mul_ne_zero (neg_ne_zero.2 hrun.c20) hr0.ne')
      have hγ2 : γ * γ = -c2 * rho q.damp ρ β * (-c2 * rho q.damp ρ β) + θ * θ := by
        rw [hγ, Real.mul_self_sqrt (add_nonneg (mul_self_nonneg _) (mul_self_nonneg _))]
      rw [div_mul_div_comm, div_mul_div_comm, hγ2]
      have := div_lt_div_of_pos_left (mul_self_pos.2 hrhs0) hg0
        (by linarith : _ < -c2 * rho q.damp ρ β * (-c2 * rho q.damp ρ β) + θ * θ)
      linarith
    · by_cases hα0 : α' = 0
      · refine Or.inr (Or.inr (hc12 ?_ (Or.inl han'.ne')))
        rw [hα0, zero_mul]
      · refine Or.inl ?_
        have hα1 : 0 < α' := lt_of_le_of_ne hα' (Ne.symm hα0)
        have hlen : (xs ++ [xnew q.damp ρ β φ x w]).length = xs.length + 1 := by simp
        rw [hlen]
        exact ⟨_, _, _, _, _, _, _, _, _, _, _, _, _, _, _, _, _, _, _, _, _, hrel,
          hrun.step e hq.adj hu hβ.ne' hu1 hv hα1 (hv1 hα0) hθ hγ hrhs, fun h => absurd h han'.ne'⟩

/-- the step from the special state ends the loop -/
theorem LSpecial.next {q : LsqrProblem E F} (hq : q.Valid) {i1 : F →ₗ[ℝ] H} {i2 : E →ₗ[ℝ] H} (e : Emb i1 i2) (lim : ℤ) {bn : ℝ}
    (hbn : 0 < bn) {s : LsqrLoop Fl (Vec F) (Vec E)} {xs : List E} (hh : LHist q s xs) (hg : LSpecial q s xs) :
    ∃ t, lsqrStep (Vec.op q.A) (Vec.op q.B) q.kw lim (.fin bn) s = .ok t ∧ LInv q i1 i2 t := by
  obtain ⟨hlen, x, w, v, u, α, ρ, res2, xx, z, c2, dd, hr, hlast, hρ, hc, hAv, hBu, huu, hα, hsx, hsr, hn0⟩ := hg
  have hu0 : u ≠ 0 := by intro h; rw [h, inner_zero_left] at huu; norm_num at huu
  have h0 : q.A v - α • (0 : F) ≠ 0 := by
    rw [smul_zero, sub_zero, hAv]; exact smul_ne_zero hα.ne' hu0
  obtain ⟨β, α', u', v', hβ, hu, hu1, hv, hα', hv1, hv0, hbi⟩ := lsqrBidiag_ne q hr.Mu hr.Nv hr.alpha hr.Anorm h0
  rw [smul_zero, sub_zero, hAv] at hu
  have hβα : β = α := by
    have h1 : ⟪β • u', β • u'⟫ = ⟪α • u, α • u⟫ := by rw [hu]
    simp only [inner_smul_left, inner_smul_right, hu1, huu, conj_trivial, mul_one] at h1
    nlinarith
  have huu' : u' = u := by
    rw [hβα] at hu
    exact smul_right_injective _ hα.ne' hu
  have hα0 : α' = 0 := by
    by_contra h
    rw [huu', hBu, hβα, sub_self] at hv
    have h2 := hv1 h
    rw [(smul_eq_zero.1 hv).resolve_left h, inner_zero_left] at h2
    norm_num at h2
  have han' : 0 < Real.sqrt (0 * 0 + α * α + β * β + q.damp * q.damp) := by
    refine Real.sqrt_pos.2 ?_
    have := mul_self_pos.2 hβ.ne'
    nlinarith [mul_self_nonneg α, mul_self_nonneg q.damp]
  obtain ⟨t, θ, γ, rhs, dd', hθ, hγ, hrhs, hst, hrel, hxn, hrn, har, hr1, -, hc3, hc6, hc12, hdn⟩ :=
    lsqrStep_exact q hq lim hbn hr hρ hc hbi han'.le hα'
  have hxnew : xnew q.damp ρ β 0 x w = x := by unfold xnew; simp
  have hrhs0 : rhs = 0 := by rw [hrhs]; simp
  rw [hxnew] at hrel
  rw [hrhs0] at hxn
  simp only [hα0, mul_zero, zero_mul, add_zero, zero_add, zero_div] at hrn har hxn hc12 hdn
  have hrn' : t.r2norm = .fin (q.resid x) := by rw [hrn, hsr]
  have har' : t.Arnorm = .fin (q.normal x) := by rw [har, hn0]
  have hxn' : t.xnorm = .fin ‖x‖ := by rw [hxn, hsx]
  have hxs : xs = [x] := by
    match xs, hlen, hlast with
    | [y], _, h => simp at h; rw [h]
  have hbest : q.Best (xs.length + 1) x := by
    refine q.best_of hq e ?_ fun y _ => ?_
    · have := (hh.best 0 (by omega)).1
      rw [hlen]
      simp only [hxs] at this
      exact krylov_mono _ _ (by omega) this
    · rw [q.normal_eq, norm_eq_zero] at hn0
      rw [hn0, inner_zero_left]
  refine ⟨t, hst, xs ++ [x], hh.step (lsqrStep_eff hst) hrel.x hrn' har' hxn' hbest ⟨hc3, hc6⟩
    (fun _ _ _ => Or.inr (Or.inr hn0)) hr1 hrel.xxnorm (by
      rw [hrhs0]
      have : Real.sqrt xx * Real.sqrt xx = xx := Real.mul_self_sqrt hr.xx0
      rw [hsx] at this
      simp only [zero_div, mul_zero, add_zero]
      exact le_of_eq (by rw [← this]; ring)) (fun _ h => absurd hn0 h), Or.inr (Or.inr (hc12 trivial (Or.inl ?_)))⟩
  simpa using han'.ne'

theorem LInv.next {q : LsqrProblem E F} (hq : q.Valid) {i1 : F →ₗ[ℝ] H} {i2 : E →ₗ[ℝ] H} (e : Emb i1 i2) (lim : ℤ) {bn : ℝ}
    (hbn : 0 < bn) (s : LsqrLoop Fl (Vec F) (Vec E)) (h : LInv q i1 i2 s) (hc : lsqrCont lim s = true) :
    ∃ t, lsqrStep (Vec.op q.A) (Vec.op q.B) q.kw lim (.fin bn) s = .ok t ∧ LInv q i1 i2 t := by
  obtain ⟨xs, hh, hg | hg | hg⟩ := h
  · exact hg.next hq e lim hbn hh
  · exact hg.next hq e lim hbn hh
  · simp only [lsqrCont, Bool.and_eq_true, decide_eq_true_eq] at hc
    omega

/-- the variables before the loop -/
theorem lsqrInit_exact {q : LsqrProblem E F} (hq : q.Valid) {i1 : F →ₗ[ℝ] H} {i2 : E →ₗ[ℝ] H} (e : Emb i1 i2) :
    ∃ s, lsqrInit (Vec.op q.B) q.kw (.fin q.b) = .ok s ∧ LHist q s [] ∧ s.beta = .fin ‖q.b‖ ∧
      (q.B q.b = 0 → lsqrXZero s = true) ∧
      (q.B q.b ≠ 0 → lsqrXZero s = false ∧ 0 < ‖q.b‖ ∧ LInv q i1 i2 s) := by
  have hM : ∀ z : Vec F, applyPrecon q.kw.M z = z := fun _ => rfl
  have hN : ∀ z : Vec E, applyPrecon q.kw.N z = z := fun _ => rfl
  have e1 : pysqrt (dot (Vec.fin q.b) (Vec.fin q.b)) = .ok (.fin ‖q.b‖) := by
    rw [Vec.fin_dot, pysqrt_fin real_inner_self_nonneg, real_inner_self_eq_norm_sq, Real.sqrt_sq (norm_nonneg _)]
  have hres : q.resid 0 = ‖q.b‖ := by unfold LsqrProblem.resid; simp
  have hnor : q.normal 0 = ‖q.B q.b‖ := by unfold LsqrProblem.normal; simp
  have hhist : ∀ (Mu : Vec F) (Nv : Vec E) (v w : Option (Vec E)) (α : ℝ) (p : ℕ), α * ‖q.b‖ = ‖q.B q.b‖ →
      LHist q (lsqrStart q.kw (.fin ‖q.b‖) Mu Nv v w (.fin α) p) [] := by
    intro Mu Nv v w α p hα
    have hk1 : q.kw.storeIterates = q.storeIterates := rfl
    have hk2 : q.kw.storeResids = q.storeResids := rfl
    refine ⟨rfl, rfl, ?_, ?_, ?_, ?_, ?_, ?_, by simp, by simp [lsqrStart], fun _ _ _ => Or.inl rfl, ?_⟩
    · simp [lsqrStart, hk1]
    · simp [lsqrStart, hk2, hres]
    · simp [lsqrStart, hk2, hnor, hα]
    · simp [lsqrStart, hres]
    · simp [lsqrStart, hnor, hα]
    · simp [lsqrStart]
    · exact ⟨‖q.b‖, by simp [lsqrStart], by simp, by simp, by simp⟩
  unfold lsqrInit
  simp only [hM, hN, e1, ok_bind]
  by_cases hb : q.b = 0
  · rw [if_neg (by rw [gt_fin_zero, hb, norm_zero]; exact lt_irrefl _)]
    refine ⟨_, rfl, ?_, rfl, fun _ => ?_, fun h => absurd (by rw [hb, map_zero]) h⟩
    · have h0 : (lit 0 : Fl) = .fin 0 := by simp
      have hbb : (0 : ℝ) * ‖q.b‖ = ‖q.B q.b‖ := by rw [hb]; simp
      rw [h0]
      exact hhist _ _ _ _ _ _ hbb
    · simp only [lsqrXZero, lsqrStart, Fl.lit_eq, Rat.cast_zero, Fl.fin_mul, zero_mul]
      have := (feq_fin_zero 0).2 rfl
      simpa using this
  · have hβ : 0 < ‖q.b‖ := norm_pos_iff.2 hb
    rw [if_pos ((gt_fin_zero _).2 hβ)]
    simp only [Vec.fin_vdiv _ hβ.ne', Vec.op_fin]
    set u := ‖q.b‖⁻¹ • q.b with hu
    have e2 : pysqrt (dot (Vec.fin (q.B u)) (Vec.fin (q.B u))) = .ok (.fin ‖q.B u‖) := by
      rw [Vec.fin_dot, pysqrt_fin real_inner_self_nonneg, real_inner_self_eq_norm_sq, Real.sqrt_sq (norm_nonneg _)]
    have hBu : q.B u = ‖q.b‖⁻¹ • q.B q.b := by rw [hu, map_smul]
    have hαβ : ‖q.B u‖ * ‖q.b‖ = ‖q.B q.b‖ := by
      rw [hBu, norm_smul, norm_inv, norm_norm]; field_simp
    simp only [e2, ok_bind]
    by_cases hB : q.B q.b = 0
    · have hBu0 : q.B u = 0 := by rw [hBu, hB, smul_zero]
      rw [if_neg (by rw [gt_fin_zero, hBu0, norm_zero]; exact lt_irrefl _)]
      refine ⟨_, rfl, hhist _ _ _ _ _ _ hαβ, rfl, fun _ => ?_, fun h => absurd hB h⟩
      simp only [lsqrXZero, lsqrStart, Fl.fin_mul, hαβ, hB, norm_zero]
      exact (feq_fin_zero 0).2 rfl
    · have hBu0 : q.B u ≠ 0 := by rw [hBu]; exact smul_ne_zero (inv_ne_zero hβ.ne') hB
      have hα : 0 < ‖q.B u‖ := norm_pos_iff.2 hBu0
      rw [if_pos ((gt_fin_zero _).2 hα)]
      simp only [Vec.fin_vdiv _ hα.ne']
      have hH := hhist (Vec.fin u) (Vec.fin (‖q.B u‖⁻¹ • q.B u)) (some (Vec.fin (‖q.B u‖⁻¹ • q.B u)))
        (some (Vec.fin (‖q.B u‖⁻¹ • q.B u))) ‖q.B u‖ 1 hαβ
      refine ⟨_, rfl, hH, rfl, fun h => absurd h hB, fun _ => ⟨?_, hβ, [], hH, Or.inl ?_⟩⟩
      · rw [← Bool.not_eq_true]
        change ¬ (feq (Fl.fin ‖q.B u‖ * Fl.fin ‖q.b‖) (lit 0) = true)
        rw [Fl.fin_mul, feq_fin_zero]
        exact mul_ne_zero hα.ne' hβ.ne'
      · have hrun := Run.start (A := q.A) (B := q.B) (d := q.damp) (b := q.b) (u := u) (v := ‖q.B u‖⁻¹ • q.B u) (α := ‖q.B u‖) e hq.adj
          (β := ‖q.b‖) (by rw [hu, smul_smul, mul_inv_cancel₀ hβ.ne', one_smul])
          (by rw [hu, inner_smul_left, inner_smul_right, real_inner_self_eq_norm_mul_norm]; simp only [conj_trivial]; field_simp)
          (by rw [smul_smul, mul_inv_cancel₀ hα.ne', one_smul]) hα
          (by rw [inner_smul_left, inner_smul_right, real_inner_self_eq_norm_mul_norm]; simp only [conj_trivial]; field_simp)
          hβ.ne'
        refine ⟨_, _, _, _, _, _, _, _, _, _, _, _, 0, 0, _, _, _, _, _, _, _,
          ⟨le_rfl, le_rfl, le_rfl, le_rfl, rfl, rfl, rfl, rfl, rfl, rfl, rfl, rfl, ?_, ?_, ?_, ?_, ?_, ?_, ?_⟩, hrun, fun _ => rfl⟩ <;>
        · simp [lsqrStart]

/-- what is known when `solve` returns -/
theorem lsqrSolve_exact {q : LsqrProblem E F} (hq : q.Valid) {i1 : F →ₗ[ℝ] H} {i2 : E →ₗ[ℝ] H} (e : Emb i1 i2) :
    ∃ s xs, lsqrSolve (Vec.op q.A) (Vec.op q.B) q.n (.fin q.b) q.kw = .ok (lsqrResult q.kw s, s) ∧ LHist q s xs ∧
      (q.B q.b = 0 → xs = []) ∧
      (q.B q.b ≠ 0 → lsqrCont (lsqrLimit q.n q.itnlim) s = false ∧
        (LGood q i1 i2 s xs.length ∨ LSpecial q s xs ∨ s.istop = 1 ∨ s.istop = 2)) ∧
      (FiniteDimensional ℝ E → ∀ d, Confined (q.B ∘ₗ q.A) (q.B q.b) d → xs.length ≤ max d 2) := by
  obtain ⟨s0, h0, hh, hbeta, hs⟩ := lsqrInit_exact hq e
  have hsol : lsqrSolve (Vec.op q.A) (Vec.op q.B) q.n (.fin q.b) q.kw =
      (lsqrMain (Vec.op q.A) (Vec.op q.B) q.kw (lsqrLimit q.n q.itnlim) s0 >>= fun s => .ok (lsqrResult q.kw s, s)) := by
    unfold lsqrSolve
    have hv : lsqrVar q.kw.wantvar = .ok () := rfl
    simp only [hv, h0, ok_bind]
    rfl
  rw [hsol]
  unfold lsqrMain
  by_cases hB : q.B q.b = 0
  · rw [hs.1 hB]
    exact ⟨s0, [], rfl, hh, fun _ => rfl, fun h => absurd hB h, fun _ _ _ => Nat.zero_le _⟩
  · obtain ⟨hz, hb, hi⟩ := hs.2 hB
    obtain ⟨t, ht, ⟨⟨xs, hx1, hx2⟩, hd⟩, hc⟩ := exceptLoop_total (cont := lsqrCont (lsqrLimit q.n q.itnlim))
      (step := lsqrStep (Vec.op q.A) (Vec.op q.B) q.kw (lsqrLimit q.n q.itnlim) s0.beta)
      (μ := fun s => (lsqrLimit q.n q.itnlim - s.itn).toNat)
      (h := fun s t h ht h' => by
        have := lsqrStep_itn ht
        simp only [lsqrCont, Bool.and_eq_true, decide_eq_true_eq] at h h'
        omega)
      (fun s => LInv q i1 i2 s ∧
        (FiniteDimensional ℝ E → ∀ d, Confined (q.B ∘ₗ q.A) (q.B q.b) d → s.itn ≤ max d 2))
      (fun s hs hc => by
        obtain ⟨t, ht, hi⟩ := LInv.next hq e (lsqrLimit q.n q.itnlim) hb s hs.1 hc
        refine ⟨t, by rw [hbeta]; exact ht, hi, fun _ d hd => ?_⟩
        have h0 : s.istop = 0 := by
          simp only [lsqrCont, Bool.and_eq_true, decide_eq_true_eq] at hc; omega
        rw [lsqrStep_itn ht]
        obtain ⟨⟨xs, hx1, hg | hg | hg⟩, -⟩ := hs
        · obtain ⟨_, _, _, _, _, _, _, _, _, _, _, _, _, _, _, _, _, _, _, _, _, -, hrun, -⟩ := hg
          have := hrun.gk.lt_confined hd
          rw [hx1.itn]; omega
        · rw [hx1.itn, hg.1]; omega
        · omega) s0 ⟨hi, fun _ _ _ => by rw [hh.itn]; exact Nat.zero_le _⟩
    refine ⟨t, xs, ?_, hx1, fun h => absurd h hB, fun _ => ⟨hc, hx2⟩, fun hf d h => by rw [← hx1.itn]; exact hd hf d h⟩
    rw [hz]
    change lsqrLoop (Vec.op q.A) (Vec.op q.B) q.kw (lsqrLimit q.n q.itnlim) s0.beta s0 >>= _ = _
    have : lsqrLoop (Vec.op q.A) (Vec.op q.B) q.kw (lsqrLimit q.n q.itnlim) s0.beta s0 = .ok t := ht
    rw [this]; rfl

/-! ### The properties -/

/-- **C38.** In exact arithmetic, for every operator `A` with transpose `B` between inner product spaces, right-hand side,
damping, nonnegative tolerances, iteration limit and nonempty window, without preconditioners: `solve` returns, and there is a
list of iterates, starting with 0 and ending with the returned `x`, such that (with the options that store them) `iterates` is
that list, `resids` are the values `sqrt(|b - Ax|^2 + damp^2 |x|^2)` and `normal_eqns_resids` the values
`|A'(b - Ax) - damp^2 x|` at these iterates; `r2norm`, `Arnorm`, `xnorm` are the values at the returned `x`, and
`r1norm` is at least `|b - Ax|`, and equal to it if `damp = 0` (`C50_r1norm_wrong`); and the `i`-th iterate minimizes `|b - Ax|^2 + damp^2 |x|^2` over the span of
`A'b, (A'A)A'b, ..., (A'A)^(i-1)A'b`. -/
theorem C38_true_norms (q : LsqrProblem E F) (hq : q.Valid) :
    ∃ res s, ∃ xs : List E, lsqrSolve (Vec.op q.A) (Vec.op q.B) q.n (.fin q.b) q.kw = .ok (res, s) ∧
      res.itn = xs.length ∧ res.x = .fin ((0 :: xs).getLast (by simp)) ∧
      (q.storeIterates = true → res.iterates = (0 :: xs).map Vec.fin) ∧
      (q.storeResids = true →
        res.resids = (0 :: xs).map (fun x => Fl.fin (Real.sqrt (‖q.b - q.A x‖ ^ 2 + q.damp ^ 2 * ‖x‖ ^ 2))) ∧
        res.normalEqns = (0 :: xs).map (fun x => Fl.fin ‖q.B (q.b - q.A x) - (q.damp * q.damp) • x‖)) ∧
      (∀ x, res.x = .fin x →
        res.r2norm = .fin (Real.sqrt (‖q.b - q.A x‖ ^ 2 + q.damp ^ 2 * ‖x‖ ^ 2)) ∧
        res.Arnorm = .fin ‖q.B (q.b - q.A x) - (q.damp * q.damp) • x‖ ∧ res.xnorm = .fin ‖x‖ ∧
        ∃ r1, res.r1norm = .fin r1 ∧ ‖q.b - q.A x‖ ≤ r1 ∧ (q.damp = 0 → r1 = ‖q.b - q.A x‖)) ∧
      ∀ i (h : i < xs.length), xs[i] ∈ krylov (q.B ∘ₗ q.A) (q.B q.b) (i+1) ∧
        ∀ y ∈ krylov (q.B ∘ₗ q.A) (q.B q.b) (i+1),
          ‖q.b - q.A xs[i]‖ ^ 2 + q.damp ^ 2 * ‖xs[i]‖ ^ 2 ≤ ‖q.b - q.A y‖ ^ 2 + q.damp ^ 2 * ‖y‖ ^ 2 := by
  obtain ⟨i1, i2, e⟩ := emb_exists E F
  obtain ⟨s, xs, hs, hh, -, -⟩ := lsqrSolve_exact hq e
  have hl : (0 :: xs).getLast (by simp) = xs.getLastD 0 := by
    cases xs with
    | nil => rfl
    | cons a l => rw [List.getLast_cons (by simp), List.getLastD_cons, List.getLast_eq_getLastD]
  refine ⟨_, s, xs, hs, hh.itn, hh.x.trans (by rw [hl]), fun h => ?_, fun h => ⟨?_, ?_⟩, fun x hx => ?_, fun i h => ⟨(hh.best i h).1,
    fun y hy => ?_⟩⟩
  · exact hh.iterates.trans (if_pos h)
  · exact hh.resids.trans (if_pos h)
  · exact hh.normalEqns.trans (if_pos h)
  · have : x = xs.getLastD 0 := by
      have h1 : s.x = .fin x := hx
      rw [hh.x] at h1
      cases h1; rfl
    rw [this]
    exact ⟨hh.r2norm, hh.Arnorm, hh.xnorm, hh.r1norm.imp fun r h => ⟨h.1, h.2.1, h.2.2.1⟩⟩
  · have h1 := (hh.best i h).2 y hy
    unfold LsqrProblem.resid at h1
    exact (Real.sqrt_le_sqrt_iff (by positivity)).1 h1

/-- **C50** (partial: the full claim has `r1norm = |b - Ax|` for all `damp`; `C50_r1norm_wrong`). In exact arithmetic the returned
`x` minimizes `|b - Ax|^2 + damp^2 |x|^2` over the span of `A'b, (A'A)A'b, ...` (as many vectors as iterations), `xnorm` is its
norm, and `r1norm` is at least `|b - Ax|`, with equality for `damp = 0`. -/
theorem C50_minimal_partial (q : LsqrProblem E F) (hq : q.Valid) :
    ∃ res s x r1, lsqrSolve (Vec.op q.A) (Vec.op q.B) q.n (.fin q.b) q.kw = .ok (res, s) ∧ res.x = .fin x ∧
      x ∈ krylov (q.B ∘ₗ q.A) (q.B q.b) res.itn ∧
      (∀ y ∈ krylov (q.B ∘ₗ q.A) (q.B q.b) res.itn,
        ‖q.b - q.A x‖ ^ 2 + q.damp ^ 2 * ‖x‖ ^ 2 ≤ ‖q.b - q.A y‖ ^ 2 + q.damp ^ 2 * ‖y‖ ^ 2) ∧
      res.xnorm = .fin ‖x‖ ∧ res.r1norm = .fin r1 ∧ ‖q.b - q.A x‖ ≤ r1 ∧ (q.damp = 0 → r1 = ‖q.b - q.A x‖) := by
  obtain ⟨res, s, xs, hs, hi, hx, -, -, hn, hb⟩ := C38_true_norms q hq
  obtain ⟨-, -, hxn, r1, h1, h2, h3⟩ := hn _ hx
  refine ⟨res, s, _, r1, hs, hx, ?_, ?_, hxn, h1, h2, h3⟩
  · rw [hi]
    rcases List.eq_nil_or_concat xs with rfl | ⟨ys, y, rfl⟩
    · exact Submodule.zero_mem _
    · have := (hb ys.length (by simp)).1
      simpa using this
  · rw [hi]
    rcases List.eq_nil_or_concat xs with rfl | ⟨ys, y, rfl⟩
    · intro y hy
      rw [List.length_nil, krylov_zero, Submodule.mem_bot] at hy
      simp [hy]
    · have := (hb ys.length (by simp)).2
      simpa using this

/-- C37 and C71: `A'b` is confined to `d` dimensions under `A'A` -/
theorem lsqr_confined [FiniteDimensional ℝ E] (q : LsqrProblem E F) (hq : q.Valid) (hb : q.B q.b ≠ 0)
    {d : ℕ} (hd : Confined (q.B ∘ₗ q.A) (q.B q.b) d)
    (hl : (d : ℤ) ≤ if q.itnlim = 0 then 3 * (q.n : ℤ) else q.itnlim)
    (h2 : 2 ≤ if q.itnlim = 0 then 3 * (q.n : ℤ) else q.itnlim) :
    ∃ res s, lsqrSolve (Vec.op q.A) (Vec.op q.B) q.n (.fin q.b) q.kw = .ok (res, s) ∧ res.optimal = true ∧ res.itn ≤ max d 2 ∧
      (q.atol = 0 → q.btol = 0 → q.etol ≤ 0 → ∃ x, res.x = .fin x ∧ q.B (q.b - q.A x) - (q.damp * q.damp) • x = 0) := by
  obtain ⟨i1, i2, e⟩ := emb_exists E F
  obtain ⟨s, xs, hs, hh, -, hcase, hitn⟩ := lsqrSolve_exact hq e
  obtain ⟨hc, hcase⟩ := hcase hb
  have hst := C37_status_partial _ _ _ _ _ _ _ hs
  have hopt := hst.2.2.2.2.2.2.1
  have h8 := hst.2.1
  have h7 := hst.2.2.2.2.2.1
  have hlim : lsqrLimit q.n q.itnlim = if q.itnlim = 0 then 3 * (q.n : ℤ) else q.itnlim := rfl
  have hne : s.istop ≠ 0 ∧ s.istop ≠ 7 := by
    have key : (s.itn : ℤ) < lsqrLimit q.n q.itnlim → s.istop ≠ 0 ∧ s.istop ≠ 7 := by
      intro h
      constructor
      · intro h0
        simp [lsqrCont, h0] at hc
        omega
      · intro h0
        have : (s.itn : ℤ) = lsqrLimit q.n q.itnlim := h7 h0
        omega
    rcases hcase with hg | hg | hg
    · obtain ⟨_, _, _, _, _, _, _, _, _, _, _, _, _, _, _, _, _, _, _, _, _, -, hrun, -⟩ := hg
      have := hrun.gk.lt_confined hd
      refine key ?_
      rw [hh.itn, hlim]
      omega
    · refine key ?_
      rw [hh.itn, hg.1, hlim]
      omega
    · omega
  refine ⟨_, s, hs, ?_, hh.itn.trans_le (hitn inferInstance d hd), ?_⟩
  · rw [hopt]
    have h3 := hh.code
    change s.istop ≤ 8 at h8
    change s.istop = 1 ∨ s.istop = 2 ∨ s.istop = 4 ∨ s.istop = 5 ∨ s.istop = 8
    omega
  · intro ha hb' he
    refine ⟨_, hh.x, ?_⟩
    rcases hh.done ha hb' he with h | h | h
    · exact absurd h hne.1
    · exact absurd h hne.2
    · exact norm_eq_zero.1 h

/-- **C37, convergence.** In exact arithmetic, for every operator on a space of dimension at most the iteration limit, which
is at least 2 (the default limit `3n` is), a right-hand side with `A'b ≠ 0`, and nonnegative tolerances, `solve` reports
success: `optimal` is `True`. -/
theorem C37_converges [FiniteDimensional ℝ E] (q : LsqrProblem E F) (hq : q.Valid) (hb : q.B q.b ≠ 0)
    (hl : (Module.finrank ℝ E : ℤ) ≤ if q.itnlim = 0 then 3 * (q.n : ℤ) else q.itnlim)
    (h2 : 2 ≤ if q.itnlim = 0 then 3 * (q.n : ℤ) else q.itnlim) :
    ∃ res s, lsqrSolve (Vec.op q.A) (Vec.op q.B) q.n (.fin q.b) q.kw = .ok (res, s) ∧ res.optimal = true ∧
      (q.atol = 0 → q.btol = 0 → q.etol ≤ 0 → ∃ x, res.x = .fin x ∧ q.B (q.b - q.A x) - (q.damp * q.damp) • x = 0) := by
  obtain ⟨res, s, h1, h3, -, h4⟩ := lsqr_confined q hq hb (confined_of_finrank le_rfl) hl h2
  exact ⟨res, s, h1, h3, h4⟩

/-- **C50, defect.** For `damp ≠ 0` the attribute `r1norm` is not `|b - Ax|`: whenever `(A'A)A'b` is not a multiple of `A'b`, after
one iteration it is strictly larger. (The code computes it from the running estimate `xxnorm` of `|x|^2`, which lags behind.) -/
theorem C50_r1norm_wrong (q : LsqrProblem E F) (hq : q.Valid) (hl : q.itnlim = 1) (hd : q.damp ≠ 0)
    (hb : ∀ c : ℝ, q.B (q.A (q.B q.b)) ≠ c • q.B q.b) :
    ∃ res s x r1, lsqrSolve (Vec.op q.A) (Vec.op q.B) q.n (.fin q.b) q.kw = .ok (res, s) ∧ res.itn = 1 ∧ res.x = .fin x ∧
      res.r1norm = .fin r1 ∧ ‖q.b - q.A x‖ < r1 := by
  obtain ⟨i1, i2, e⟩ := emb_exists E F
  obtain ⟨s, xs, hs, hh, -, hcase, -⟩ := lsqrSolve_exact hq e
  have hb0 : q.B q.b ≠ 0 := fun h => hb 0 (by rw [h]; simp)
  have hc := (hcase hb0).1
  have hlim : lsqrLimit q.n q.itnlim = 1 := by rw [hl]; rfl
  have hst := C37_status_partial _ _ _ _ _ _ _ hs
  have hitn : s.itn = 1 := by
    have h1 : (s.itn : ℤ) ≤ max 0 (lsqrLimit q.n q.itnlim) := hst.1
    rw [hlim] at h1
    by_contra h
    have h0 : s.itn = 0 := by omega
    have h3 : s.istop = 0 := hst.2.2.1.2 h0
    rw [hlim] at hc
    simp [lsqrCont, h0, h3] at hc
  obtain ⟨r, hr1, -, -, hr2⟩ := hh.r1norm
  have hlen : xs.length = 1 := by rw [← hh.itn, hitn]
  refine ⟨_, s, _, r, hs, hitn, hh.x, hr1, hr2 hlen hd ?_⟩
  have hlast : xs.getLastD 0 = xs[0] := by
    match xs, hlen with
    | [y], _ => rfl
  have hmem := (hh.best 0 (by omega)).1
  rw [← hlast] at hmem
  set x := xs.getLastD 0
  have hx : ∃ c : ℝ, c • q.B q.b = x := by
    have h1 : krylov (q.B ∘ₗ q.A) (q.B q.b) (0+1) = Submodule.span ℝ {q.B q.b} := by
      unfold krylov
      congr 1
      ext z
      constructor
      · rintro ⟨j, hj, rfl⟩
        have : j = 0 := by omega
        subst this; simp
      · intro h
        rw [Set.mem_singleton_iff] at h
        subst h
        exact ⟨0, by omega, by simp⟩
    rw [h1, Submodule.mem_span_singleton] at hmem
    exact hmem
  obtain ⟨c, hx⟩ := hx
  rw [q.normal_eq, norm_ne_zero_iff]
  unfold Run.nres
  intro h
  rw [← hx] at h
  simp only [map_sub, map_smul] at h
  by_cases hc0 : c = 0
  · rw [hc0] at h
    simp at h
    exact hb0 h
  · refine hb ((1 - q.damp * q.damp * c) / c) ?_
    have h1 : c • q.B (q.A (q.B q.b)) = (1 - q.damp * q.damp * c) • q.B q.b := by
      rw [sub_smul, one_smul, mul_smul]
      rw [sub_sub, sub_eq_zero] at h
      rw [eq_sub_iff_add_eq]
      exact h.symm
    rw [div_eq_inv_mul, mul_smul, ← h1, smul_smul, inv_mul_cancel₀ hc0, one_smul]

/-- **C37, defect.** `nMatvec` is not the number of products: for a nonzero right-hand side with `A'b = 0`, `solve` multiplies once by
`A'` and reports `nMatvec = 0` (and `optimal = False`, although `x = 0` is the solution). -/
theorem C37_nMatvec_undercounts (q : LsqrProblem E F) (hb : q.b ≠ 0) (hB : q.B q.b = 0) :
    ∃ res s, lsqrSolve (Vec.op q.A) (Vec.op q.B) q.n (.fin q.b) q.kw = .ok (res, s) ∧ res.nMatvec = 0 ∧ s.products = 1 ∧
      res.x = .fin 0 ∧ res.optimal = false := by
  have hM : ∀ z : Vec F, applyPrecon q.kw.M z = z := fun _ => rfl
  have hN : ∀ z : Vec E, applyPrecon q.kw.N z = z := fun _ => rfl
  have e1 : pysqrt (dot (Vec.fin q.b) (Vec.fin q.b)) = .ok (.fin ‖q.b‖) := by
    rw [Vec.fin_dot, pysqrt_fin real_inner_self_nonneg, real_inner_self_eq_norm_sq, Real.sqrt_sq (norm_nonneg _)]
  have hβ : 0 < ‖q.b‖ := norm_pos_iff.2 hb
  have hBu : q.B (‖q.b‖⁻¹ • q.b) = 0 := by rw [map_smul, hB, smul_zero]
  have e2 : pysqrt (dot (Vec.fin (0 : E)) (Vec.fin (0 : E))) = .ok (.fin 0) := by
    rw [Vec.fin_dot, pysqrt_fin real_inner_self_nonneg]; simp
  have h0 : ∃ s0, lsqrInit (Vec.op q.B) q.kw (.fin q.b) = .ok s0 ∧ s0.itn = 0 ∧ s0.istop = 0 ∧ s0.products = 1 ∧ s0.x = .fin 0 ∧
      lsqrXZero s0 = true := by
    unfold lsqrInit
    simp only [hM, hN, e1, ok_bind]
    rw [if_pos ((gt_fin_zero _).2 hβ)]
    simp only [Vec.fin_vdiv _ hβ.ne', Vec.op_fin, hBu, e2, ok_bind]
    rw [if_neg (by rw [gt_fin_zero]; exact lt_irrefl _)]
    refine ⟨_, rfl, rfl, rfl, rfl, rfl, ?_⟩
    simp only [lsqrXZero, lsqrStart, Fl.fin_mul, zero_mul]
    exact (feq_fin_zero 0).2 rfl
  obtain ⟨s0, h0, hi, hs, hp, hx, hz⟩ := h0
  refine ⟨lsqrResult q.kw s0, s0, ?_, ?_, hp, hx, ?_⟩
  · unfold lsqrSolve
    have hv : lsqrVar q.kw.wantvar = .ok () := rfl
    simp only [hv, h0, ok_bind, lsqrMain, hz]
    rfl
  · change 2 * s0.itn = 0
    rw [hi]
  · simp [lsqrResult, hs]

/-! ### The hypotheses are met -/

/-- a 2-by-2 problem: `A = diag(1, 2)`, `b = (1, 1)`, `damp = 1`, one iteration -/
noncomputable def lsqrDemo (damp : ℝ) (itnlim : ℤ) : LsqrProblem (EuclideanSpace ℝ (Fin 2)) (EuclideanSpace ℝ (Fin 2)) :=
  { A := Matrix.toEuclideanLin !![1, 0; 0, 2], B := Matrix.toEuclideanLin !![1, 0; 0, 2], b := !₂[1, 1], n := 2, damp := damp,
    itnlim := itnlim, atol := 0, btol := 0, etol := 0, conlim := 1, storeResids := true, storeIterates := true, window := 5 }

theorem lsqrDemo_valid (damp : ℝ) (itnlim : ℤ) : (lsqrDemo damp itnlim).Valid := by
  refine ⟨fun x y => ?_, le_rfl, le_rfl, by simp [lsqrDemo]⟩
  simp only [lsqrDemo, PiLp.inner_apply, Fin.sum_univ_two, Matrix.toLpLin_apply, Matrix.mulVec, dotProduct]
  simp
  ring

example : (lsqrDemo 1 1).Valid ∧ (lsqrDemo 1 1).damp ≠ 0 ∧
    ∀ c : ℝ, (lsqrDemo 1 1).B ((lsqrDemo 1 1).A ((lsqrDemo 1 1).B (lsqrDemo 1 1).b)) ≠ c • (lsqrDemo 1 1).B (lsqrDemo 1 1).b := by
  refine ⟨lsqrDemo_valid _ _, by simp [lsqrDemo], fun c h => ?_⟩
  have h0 := congrArg (fun x => x 0) h
  have h1 := congrArg (fun x => x 1) h
  simp [lsqrDemo, Matrix.mulVec, dotProduct, Fin.sum_univ_two] at h0 h1
  rw [← h0] at h1; norm_num at h1

example : ∃ res s, lsqrSolve (Vec.op (lsqrDemo 3 0).A) (Vec.op (lsqrDemo 3 0).B) 2 (.fin (lsqrDemo 3 0).b) (lsqrDemo 3 0).kw = .ok (res, s) ∧
    res.optimal = true := by
  obtain ⟨res, s, h, ho, -⟩ := C37_converges (lsqrDemo 3 0) (lsqrDemo_valid _ _)
    (by
      intro h
      have h0 := congrArg (fun x => x 0) h
      simp [lsqrDemo, Matrix.mulVec, dotProduct, Fin.sum_univ_two] at h0)
    (by simp [lsqrDemo]) (by simp [lsqrDemo])
  exact ⟨res, s, h, ho⟩

/-- the zero operator meets the hypotheses of `C37_nMatvec_undercounts` -/
example : ∃ q : LsqrProblem ℝ ℝ, q.Valid ∧ q.b ≠ 0 ∧ q.B q.b = 0 :=
  ⟨{ A := 0, B := 0, b := 1, n := 1, damp := 0, itnlim := 0, atol := 0, btol := 0, etol := 0, conlim := 1, storeResids := true,
     storeIterates := true, window := 5 }, ⟨by simp, le_rfl, le_rfl, by simp⟩, one_ne_zero, rfl⟩

end Verif.Solver
