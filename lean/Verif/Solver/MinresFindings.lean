import Verif.Solver.MinresExact
import Mathlib.Analysis.InnerProductSpace.PiL2
import Mathlib.LinearAlgebra.Matrix.ToLin

/-!
# What MINRES violates, and examples for C34 and C35
-/

namespace Verif.Solver
open Scalar Vect
open scoped RealInnerProductSpace
open MinresMath (krylov St)

variable {E : Type} [NormedAddCommGroup E] [InnerProductSpace ℝ E]

/-- the recurrence variables before the first iteration -/
noncomputable def stInit (b : E) : St E :=
  { x := 0, w := 0, w2 := 0, r1 := b, r2 := b, oldb := 0, beta := ‖b‖, dbar := 0, epsln := 0, phibar := ‖b‖, cs := -1,
    sn := 0 }

theorem minresInit_rel (q : MinresProblem E) (old : MinresObj Fl (Vec E)) (hb : q.b ≠ 0) :
    MRel q 0 (minresInit q.kw old (.fin q.b)) (stInit q.b) ∧ (minresInit q.kw old (.fin q.b)).istop = 0 := by
  obtain ⟨h1, h2⟩ := minresStart_exact q hb
  have hn : ‖q.b‖ ≠ 0 := norm_ne_zero_iff.2 hb
  unfold minresInit
  simp only [h1, h2]
  refine ⟨?_, trivial⟩
  exact
      { itn := rfl, x := rfl, y := rfl, r1 := rfl, r2 := rfl, w := rfl, w2 := rfl, oldb := by simp [stInit], beta := rfl,
        dbar := by simp [stInit], epsln := by simp [stInit], phibar := rfl, cs := by simp [stInit], sn := by simp [stInit],
        tn := ⟨0, le_refl _, by simp⟩,
        yn := ⟨0, le_refl _, by simp, by simp⟩, rh1 := ⟨_, fun _ => hn, rfl⟩, rh2 := ⟨0, by simp⟩ }

/-- first Lanczos step when `b` is an eigenvector -/
theorem minresLanczos_eigen (q : MinresProblem E) (old : MinresObj Fl (Vec E)) (hb : q.b ≠ 0) (l : ℝ)
    (hl : q.A q.b - q.shift • q.b = l • q.b) :
    minresLanczos (Vec.op q.A) q.kw 1 (minresInit q.kw old (.fin q.b)) =
      (.fin ((1 / ‖q.b‖) • q.b), .fin l, .fin 0, .fin 0, .fin 0) := by
  have hn : ‖q.b‖ ≠ 0 := norm_ne_zero_iff.2 hb
  have hB : q.B q.b = l • q.b := by simpa [MinresProblem.B] using hl
  have hL := minresLanczos_exact q (minresInit_rel q old hb).1 hn (fun h => absurd rfl h)
  have hv : (stInit q.b).v = (1 / ‖q.b‖) • q.b := rfl
  have hp : MinresMath.p q.B 0 (stInit q.b) = l • (1 / ‖q.b‖) • q.b := by
    unfold MinresMath.p
    rw [if_neg (by omega), hv, map_smul, hB, smul_comm]
  have ha : MinresMath.alfa q.B 0 (stInit q.b) = l := by
    unfold MinresMath.alfa
    rw [hp, hv, inner_smul_right, inner_smul_left, inner_smul_right, real_inner_self_eq_norm_mul_norm]
    simp; field_simp
  have hq : MinresMath.q q.B 0 (stInit q.b) = 0 := by
    unfold MinresMath.q
    rw [ha, hp]
    change (-l / ‖q.b‖) • q.b + _ = 0
    rw [smul_smul, ← add_smul]
    have : -l / ‖q.b‖ + l * (1 / ‖q.b‖) = 0 := by field_simp; ring
    rw [this, zero_smul]
  rw [hL, hq, ha, hv, inner_zero_left]

/-- a first iteration that finds `beta2 = 0` -/
theorem minresStep_eigen (op : Vec E → Vec E) (kw : MinresKw Fl (Vec E)) (hw : kw.window ≠ 0) (ε : ℝ) (hε : 0 ≤ ε) (lim : ℕ)
    (β : ℝ) (hn : β ≠ 0) (s0 : MinresLoop Fl (Vec E)) (hi0 : s0.itn = 0) (hst0 : s0.istop = 0) {v : Vec E} {l : Fl}
    (hL : minresLanczos op kw 1 s0 = (v, l, .fin 0, .fin 0, .fin 0)) :
    (minresStep op (.fin ε) kw lim (.fin β) s0).istop = -1 ∧
    (minresStep op (.fin ε) kw lim (.fin β) s0).beta = .fin 0 ∧
    (minresStep op (.fin ε) kw lim (.fin β) s0).broke = false := by
  have hz : sqrt (Fl.fin 0) = Fl.fin 0 := by rw [Fl.fin_sqrt (le_refl _), Real.sqrt_zero]
  have hlt : lt (Fl.fin 0) (lit 0 : Fl) = false := by
    rw [← Bool.not_eq_true, Fl.lit_eq, Fl.fin_lt]; simp
  have hbe : ∀ a c, minresDirErr kw.etol a c kw.window 1 (minresBeta2 (Fl.fin ε) (Fl.fin β) (Fl.fin 0) 1 0) = -1 := by
    intro a c
    have hle : le (Fl.fin 0 / Fl.fin β) (lit 10 * Fl.fin ε) = true := by
      rw [Fl.fin_div _ hn, Fl.lit_eq, Fl.fin_mul, Fl.fin_le, zero_div]
      have : ((10 : ℚ) : ℝ) = 10 := by norm_num
      rw [this]; positivity
    have hwin : ¬ (1 > kw.window ∧ lt a (kw.etol * c) = true) := by
      rintro ⟨h, -⟩
      exact hw (by omega)
    rw [minresDirErr, minresBeta2, if_neg hwin, if_pos ⟨rfl, hle⟩]
  have ht' : ∀ (a b c : Fl) d (e f g h : Fl), minresTests a b c lim d e f g h (-1) = -1 := by
    intros; simp [minresTests]
  unfold minresStep
  simp only [hi0, Nat.zero_add, hL, hlt, Bool.false_eq_true, if_false, hz, hst0, hbe, ht', true_and]
  simp

/-- **C34, negative.** In exact arithmetic, for every problem whose right-hand side is an eigenvector of `A - shift I` (for
instance every `A = c I`), which one iteration solves exactly: if at least two iterations are allowed (the default is
`5n`), MINRES does not stop with the solution but runs to the limit dividing by zero, and returns an undefined `x`, not
converged, with `istop = -1`. -/
theorem C34_beta2_nan (q : MinresProblem E) (hb : q.b ≠ 0) (l : ℝ) (hl : q.A q.b - q.shift • q.b = l • q.b)
    (hw : q.window ≠ 0) (ε : ℝ) (hε : 0 ≤ ε) (n : ℕ) (hlim : 2 ≤ q.itnlim.getD (5 * n)) (self : MinresObj Fl (Vec E)) :
    ∃ res products, minresSolve (Vec.op q.A) (.fin ε) n self (.fin q.b) q.kw = .ok (res, products) ∧
      res.x = .nan ∧ res.istop = -1 ∧ res.converged = false ∧ products.length = q.itnlim.getD (5 * n) := by
  obtain ⟨h1, h2⟩ := minresStart_exact q hb
  have hn : ‖q.b‖ ≠ 0 := norm_ne_zero_iff.2 hb
  unfold minresSolve
  have hw' : ∀ P : Prop, ¬ (q.kw.window = 0 ∧ P) := fun P h => hw h.1
  simp only [h2, Bool.false_eq_true, if_false, hw']
  refine ⟨_, _, rfl, ?_⟩
  change 2 ≤ q.kw.itnlim.getD (5 * n) at hlim
  change _ ∧ _ ∧ _ ∧ _ = q.kw.itnlim.getD (5 * n)
  generalize q.kw.itnlim.getD (5 * n) = lim at hlim ⊢
  have hinv0 : MinresInv q.kw lim self (minresInit q.kw self (.fin q.b)) := minresInit_inv _ _ _ _ (by rw [h2])
  have hL := minresLanczos_eigen q self hb l hl
  -- the first iteration
  obtain ⟨s0, hs0⟩ : ∃ s0, s0 = minresInit q.kw self (Vec.fin q.b) := ⟨_, rfl⟩
  have hi0 : s0.itn = 0 := by rw [hs0]; rfl
  have hb0 : s0.broke = false := by rw [hs0]; rfl
  have hst0 : s0.istop = 0 := by rw [hs0]; exact (minresInit_rel q self hb).2
  rw [← hs0] at hL
  have hs1 := minresStep_eigen (Vec.op q.A) q.kw hw ε hε lim ‖q.b‖ hn s0 hi0 hst0 hL
  rw [← hs0] at hinv0
  rw [h1, ← hs0]
  have hc0 : minresCont lim s0 = true := by simp [minresCont, hb0, hi0]; omega
  have hitn1 := minresStep_itn (Vec.op q.A) (.fin ε) q.kw lim (.fin ‖q.b‖) s0
  generalize hs1d : minresStep (Vec.op q.A) (.fin ε) q.kw lim (.fin ‖q.b‖) s0 = s1 at hs1 hitn1
  have hc1 : minresCont lim s1 = true := by simp [minresCont, hs1.2.2, hitn1, hi0]; omega
  have hbad := minresStep_nan q.A ε q.kw rfl lim (.fin ‖q.b‖) s1 (by
    have : (lit 1 / s1.beta : Fl) = .nan := by
      rw [hs1.2.1]; change Fl.div _ _ = _; simp [Fl.div]
    rw [this, Vec.nan_smul]) hs1.1 (by omega)
  have hloop : minresLoop (Vec.op q.A) (.fin ε) q.kw lim (.fin ‖q.b‖) s0 =
      minresLoop (Vec.op q.A) (.fin ε) q.kw lim (.fin ‖q.b‖) (minresStep (Vec.op q.A) (.fin ε) q.kw lim (.fin ‖q.b‖) s1) := by
    unfold minresLoop
    rw [whileLoop_of_cont hc0, hs1d, whileLoop_of_cont hc1]
  rw [hloop]
  have hinv1 : MinresInv q.kw lim self s1 := hs1d ▸ minresStep_inv _ _ _ _ _ _ _ hinv0 hc0
  have hinv2 := minresStep_inv (Vec.op q.A) (.fin ε) _ _ _ (.fin ‖q.b‖) _ hinv1 hc1
  obtain ⟨⟨hfin, hv⟩, hc⟩ := minresLoop_inv (Vec.op q.A) (.fin ε) q.kw lim (.fin ‖q.b‖) (fun s => MBad s ∧ MinresInv q.kw lim self s)
    (fun s hs hc => ⟨minresStep_nan q.A ε q.kw rfl lim _ s (by rw [hs.1.y, Vec.smul_nan]) hs.1.istop hs.1.itn,
      minresStep_inv _ _ _ _ _ _ s hs.2 hc⟩) _ ⟨hbad, hinv2⟩
  generalize minresLoop (Vec.op q.A) _ _ _ _ _ = s at hfin hv hc ⊢
  refine ⟨hfin.x, hfin.istop, ?_, ?_⟩
  · simp only [minresResult, hfin.istop]
    decide
  · have hbr : s.broke = false := by
      rw [← Bool.not_eq_true, hv.broke, hfin.istop]; omega
    simp only [minresCont, hbr, Bool.not_false, Bool.true_and, decide_eq_false_iff_not] at hc
    rw [hv.calls]
    have := hv.le
    omega

/-- **C35, negative.** In exact arithmetic, for `A = (ε/2) I`, where `ε > 0` is the machine precision, and every `b ≠ 0`:
one MINRES iteration reports the residual norm 0, while the true residual norm of its `x` is three quarters of `‖b‖`. -/
theorem C35_clipped (b : E) (hb : b ≠ 0) (ε : ℝ) (hε : 0 < ε) (n : ℕ) (self : MinresObj Fl (Vec E)) :
    let A : E →ₗ[ℝ] E := (ε / 2) • LinearMap.id
    let q : MinresProblem E :=
      { A := A, b := b, shift := 0, check := true, itnlim := some 1, rtol := 1, etol := 1, storeIterates := false, window := 5 }
    ∃ res products x, minresSolve (Vec.op A) (.fin ε) n self (.fin b) q.kw = .ok (res, products) ∧
      res.x = .fin x ∧ res.rnorm = .fin 0 ∧ ‖b - A x‖ = 3 / 4 * ‖b‖ := by
  intro A q
  have hn : ‖b‖ ≠ 0 := norm_ne_zero_iff.2 hb
  obtain ⟨h1, h2⟩ := minresStart_exact q hb
  have hl : q.A q.b - q.shift • q.b = (ε / 2) • q.b := by
    change (ε / 2) • b - (0 : ℝ) • b = (ε / 2) • b
    rw [zero_smul, sub_zero]
  have hL := minresLanczos_eigen q self hb (ε / 2) hl
  have hr := (minresInit_rel q self hb).1
  have hi0 : (minresInit q.kw self (Vec.fin q.b)).itn = 0 := rfl
  have hb0 : (minresInit q.kw self (Vec.fin q.b)).broke = false := rfl
  have hlim : q.kw.itnlim.getD (5 * n) = 1 := rfl
  have hz : sqrt (Fl.fin 0) = Fl.fin 0 := by rw [Fl.fin_sqrt (le_refl _), Real.sqrt_zero]
  have hlt : lt (Fl.fin 0) (lit 0 : Fl) = false := by
    rw [← Bool.not_eq_true, Fl.lit_eq, Fl.fin_lt]; simp
  have hc0 : minresCont 1 (minresInit q.kw self (Vec.fin q.b)) = true := by simp [minresCont, hb0, hi0]
  have hc1 : minresCont 1 (minresStep (Vec.op q.A) (.fin ε) q.kw 1 (.fin ‖q.b‖) (minresInit q.kw self (Vec.fin q.b))) = false := by
    simp [minresCont, minresStep_itn, hi0]
  have hloop : minresLoop (Vec.op q.A) (.fin ε) q.kw 1 (.fin ‖q.b‖) (minresInit q.kw self (Vec.fin q.b)) =
      minresStep (Vec.op q.A) (.fin ε) q.kw 1 (.fin ‖q.b‖) (minresInit q.kw self (Vec.fin q.b)) := by
    unfold minresLoop
    rw [whileLoop_of_cont hc0, whileLoop_of_not hc1]
  have hga : pymax (normof2 (Fl.fin (ε / 2)) (Fl.fin 0)) (Fl.fin ε) = .fin ε := by
    rw [normof2_fin, Fl.fin_pymax]
    have : Real.sqrt (ε / 2 * (ε / 2) + 0 * 0) = ε / 2 := by
      rw [mul_zero, add_zero, Real.sqrt_mul_self (by linarith)]
    rw [this, max_eq_right (by linarith)]
  have hstep : (minresStep (Vec.op q.A) (.fin ε) q.kw 1 (.fin ‖q.b‖) (minresInit q.kw self (Vec.fin q.b))).x =
        .fin ((1 / (2 * ε)) • b) ∧
      (minresStep (Vec.op q.A) (.fin ε) q.kw 1 (.fin ‖q.b‖) (minresInit q.kw self (Vec.fin q.b))).rnorm = .fin 0 := by
    have hgb : (minresInit q.kw self (Vec.fin q.b)).sn * (minresInit q.kw self (Vec.fin q.b)).dbar -
        (minresInit q.kw self (Vec.fin q.b)).cs * Fl.fin (ε / 2) = .fin (ε / 2) := by
      rw [hr.sn, hr.dbar, hr.cs]
      simp [stInit]
    have hde : (minresInit q.kw self (Vec.fin q.b)).cs * (minresInit q.kw self (Vec.fin q.b)).dbar +
        (minresInit q.kw self (Vec.fin q.b)).sn * Fl.fin (ε / 2) = .fin 0 := by
      rw [hr.sn, hr.dbar, hr.cs]
      simp [stInit]
    unfold minresStep
    simp only [hi0, Nat.zero_add, hL, hlt, Bool.false_eq_true, if_false, hz, hgb, hde, hga, Fl.fin_div _ hε.ne']
    rw [hr.x, hr.phibar, hr.epsln, hr.w, hr.w2, Fl.lit_eq]
    simp only [stInit, Fl.fin_mul, Fl.fin_div _ hε.ne', Vec.fin_smul, Vec.fin_sub, Vec.fin_add, Vec.fin.injEq, Fl.fin.injEq]
    refine ⟨?_, by simp⟩
    simp only [smul_zero, sub_zero, zero_add, smul_smul]
    congr 1
    change ε / 2 / ε * ‖b‖ * (((1 : ℚ) : ℝ) / ε * (1 / ‖b‖)) = 1 / (2 * ε)
    push_cast
    field_simp
  refine ⟨minresResult (.fin ‖q.b‖) (minresStep (Vec.op q.A) (.fin ε) q.kw 1 (.fin ‖q.b‖) (minresInit q.kw self (Vec.fin q.b))),
    (minresStep (Vec.op q.A) (.fin ε) q.kw 1 (.fin ‖q.b‖) (minresInit q.kw self (Vec.fin q.b))).calls,
    (1 / (2 * ε)) • b, ?_, hstep.1, hstep.2, ?_⟩
  rotate_left 1
  · change ‖b - (ε / 2) • (1 / (2 * ε)) • b‖ = _
    have : b - (ε / 2) • (1 / (2 * ε)) • b = (3 / 4 : ℝ) • b := by
      rw [smul_smul]
      have : ε / 2 * (1 / (2 * ε)) = 1 / 4 := by field_simp; norm_num
      rw [this]; module
    rw [this, norm_smul]; norm_num
  · change minresSolve (Vec.op q.A) (.fin ε) n self (.fin q.b) q.kw = _
    unfold minresSolve
    have hw' : ∀ P : Prop, ¬ (q.kw.window = 0 ∧ P) := fun P h => absurd h.1 (by change ¬ (5 = 0); omega)
    change (if (minresEntry q.kw (Vec.fin q.b)).2 = true then _ else if q.kw.window = 0 ∧ _ then _ else _) = _
    rw [if_neg (by rw [h2]; simp), if_neg (hw' _)]
    simp only [hlim, h1]
    rw [hloop]

/-- a later iteration does not set the code `-1` -/
theorem minresStep_ne (op : Vec E → Vec E) (eps : Fl) (kw : MinresKw Fl (Vec E)) (lim : ℕ) (β : Fl) (s : MinresLoop Fl (Vec E))
    (hs : s.istop ≠ -1) (h1 : s.itn + 1 = 1 → le (sqrt (minresLanczos op kw 1 s).2.2.2.2 / β) (lit 10 * eps) = false) :
    (minresStep op eps kw lim β s).istop ≠ -1 := by
  cases h : lt (minresBB op kw s) (lit 0)
  · unfold minresStep
    simp only [minresBB] at h
    simp only [h, Bool.false_eq_true, if_false]
    have hi : minresBeta2 eps β (sqrt (minresLanczos op kw (s.itn + 1) s).2.2.2.2) (s.itn + 1) s.istop ≠ -1 := by
      rw [minresBeta2, if_neg]
      · exact hs
      · rintro ⟨h, h'⟩
        have := h1 h
        rw [h] at h'
        rw [this] at h'
        exact absurd h' (by simp)
    generalize minresBeta2 (S := Fl) _ _ _ _ s.istop = i1 at hi
    generalize hi2 : minresDirErr (S := Fl) _ _ _ _ _ i1 = i2
    have hi2' : i2 ≠ -1 := by
      rw [← hi2, minresDirErr]; split
      · simp
      · exact hi
    generalize hi3 : minresTests (S := Fl) _ _ _ _ _ _ _ _ _ i2 = i3
    have hr : i3 = i2 ∨ i2 = 0 ∧ i3 ∈ ([1, 2, 3, 4, 6] : List Int) := hi3 ▸ minresTests_range ..
    simp only [List.mem_cons, List.not_mem_nil, or_false] at hr ⊢
    omega
  · rw [minresStep_break h]; simp

/-- **C34.** In exact arithmetic without preconditioner the status `-1` only happens when the right-hand side is, to within
ten times the machine precision `ε`, an eigenvector of `A - shift I`. -/
theorem C34_beta2_eigenvector (q : MinresProblem E) (hw : q.window ≠ 0) (ε : ℝ) (n : ℕ) (self : MinresObj Fl (Vec E))
    (res : MinresRes Fl (Vec E)) (products : List (Vec E))
    (h : minresSolve (Vec.op q.A) (.fin ε) n self (.fin q.b) q.kw = .ok (res, products)) (hi : res.istop = -1) :
    ∃ l : ℝ, ‖(q.A q.b - q.shift • q.b) - l • q.b‖ ≤ 10 * ε * (‖q.b‖ * ‖q.b‖) := by
  by_cases hb : q.b = 0
  · exact ⟨0, by simp [hb]⟩
  have hn : ‖q.b‖ ≠ 0 := norm_ne_zero_iff.2 hb
  obtain ⟨h1, h2⟩ := minresStart_exact q hb
  by_contra hcon
  push Not at hcon
  unfold minresSolve at h
  have hw' : ∀ P : Prop, ¬ (q.kw.window = 0 ∧ P) := fun P h => hw h.1
  simp only [h2, Bool.false_eq_true, if_false, hw', Except.ok.injEq, Prod.mk.injEq] at h
  generalize q.kw.itnlim.getD (5 * n) = lim at h
  have hL := minresLanczos_exact q (minresInit_rel q self hb).1 hn (fun h => absurd rfl h)
  have hne : ∀ k : ℕ, le (sqrt (minresLanczos (Vec.op q.A) q.kw (0 + 1) (minresInit q.kw self (.fin q.b))).2.2.2.2 /
      (minresStart q.kw (.fin q.b)).2) (lit 10 * Fl.fin ε) = false := by
    intro _
    rw [hL, h1, Fl.fin_sqrt real_inner_self_nonneg, Fl.fin_div _ hn, Fl.lit_eq, Fl.fin_mul, ← Bool.not_eq_true, Fl.fin_le,
      not_le, ← norm_eq_sqrt_real_inner]
    have hp : MinresMath.p q.B 0 (stInit q.b) = (1 / ‖q.b‖) • q.B q.b := by
      unfold MinresMath.p
      rw [if_neg (by omega)]
      change q.B ((1 / ‖q.b‖) • q.b) = _
      rw [map_smul]
    obtain ⟨l, hl⟩ : ∃ l, l = MinresMath.alfa q.B 0 (stInit q.b) := ⟨_, rfl⟩
    have hq : MinresMath.q q.B 0 (stInit q.b) = (1 / ‖q.b‖) • (q.B q.b - l • q.b) := by
      unfold MinresMath.q
      rw [← hl, hp]
      change (-l / ‖q.b‖) • q.b + _ = _
      rw [smul_sub, smul_smul]
      have : -l / ‖q.b‖ = -(1 / ‖q.b‖ * l) := by ring
      rw [this, neg_smul]; abel
    rw [hq, norm_smul, norm_div, norm_one, norm_norm]
    have h3 := hcon l
    have hB : q.A q.b - q.shift • q.b = q.B q.b := by simp [MinresProblem.B]
    rw [hB] at h3
    have hp : 0 < ‖q.b‖ := norm_pos_iff.2 hb
    push_cast
    rw [lt_div_iff₀ hp, one_div, ← div_eq_inv_mul, lt_div_iff₀ hp]
    linarith
  obtain ⟨hfin, -⟩ := minresLoop_inv (Vec.op q.A) (.fin ε) q.kw lim (minresStart q.kw (.fin q.b)).2
    (fun s => s.istop ≠ -1 ∧ (s.itn = 0 → s = minresInit q.kw self (.fin q.b)))
    (fun s hs _ => ⟨minresStep_ne _ _ _ _ _ s hs.1 (fun h0 => by
        have h00 : s.itn = 0 := by omega
        rw [hs.2 h00]
        exact hne 0), fun h0 => by rw [minresStep_itn] at h0; omega⟩) (minresInit q.kw self (.fin q.b))
    ⟨by rw [(minresInit_rel q self hb).2]; omega, fun _ => rfl⟩
  apply hfin.1
  rw [← h.1] at hi
  exact hi

/-- **C34.** In exact arithmetic, MINRES without preconditioner on a symmetric operator, no singular value of
`A - shift I` being below the machine precision `ε`: for every nonzero right-hand side that is not within `10 ε` of an
eigenvector of `A - shift I`, every solve that allows `n` iterations converges, and needs at most `n`. -/
theorem C34_converges_generic [FiniteDimensional ℝ E] (q : MinresProblem E) (hA : ∀ u v, ⟪q.A u, v⟫ = ⟪u, q.A v⟫)
    (ε : ℝ) (hε : 0 < ε) (hlow : ∀ z, ε * ‖z‖ ≤ ‖q.A z - q.shift • z‖) (hw : q.window ≠ 0) (hrt : 0 ≤ q.rtol)
    (hb : q.b ≠ 0) (hlim : ∀ m, q.itnlim = some m → Module.finrank ℝ E ≤ m)
    (hgen : ∀ l : ℝ, 10 * ε * (‖q.b‖ * ‖q.b‖) < ‖(q.A q.b - q.shift • q.b) - l • q.b‖) (self : MinresObj Fl (Vec E)) :
    ∃ res products, minresSolve (Vec.op q.A) (.fin ε) (Module.finrank ℝ E) self (.fin q.b) q.kw = .ok (res, products) ∧
      res.converged = true ∧ products.length ≤ Module.finrank ℝ E := by
  obtain ⟨res, products, h, h' | h'⟩ := C34_converges_partial q hA ε hε hlow hw hrt hb hlim self
  · obtain ⟨l, hl⟩ := C34_beta2_eigenvector q hw ε _ self res products h h'
    exact absurd (hgen l) (not_lt.2 hl)
  · exact ⟨res, products, h, h'⟩

/-! ## Instances -/

/-- exchanging the two coordinates -/
noncomputable def swapOp : EuclideanSpace ℝ (Fin 2) →ₗ[ℝ] EuclideanSpace ℝ (Fin 2) where
  toFun x := !₂[x 1, x 0]
  map_add' x y := by ext i; fin_cases i <;> simp
  map_smul' c x := by ext i; fin_cases i <;> simp

theorem swapOp_symm (u v : EuclideanSpace ℝ (Fin 2)) : ⟪swapOp u, v⟫ = ⟪u, swapOp v⟫ := by
  simp [swapOp, PiLp.inner_apply, Fin.sum_univ_two]; ring

theorem swapOp_norm (u : EuclideanSpace ℝ (Fin 2)) : ‖swapOp u‖ = ‖u‖ := by
  simp [swapOp, EuclideanSpace.norm_eq, Fin.sum_univ_two, add_comm]

/-- the indefinite system exchanging coordinates, with right-hand side `(1, 0)` -/
noncomputable def swapProblem : MinresProblem (EuclideanSpace ℝ (Fin 2)) :=
  { A := swapOp, b := !₂[1, 0], shift := 0, check := true, itnlim := none, rtol := 1 / 1000, etol := 1 / 1000,
    storeIterates := true, window := 5 }

theorem swapProblem_low (z : EuclideanSpace ℝ (Fin 2)) : (1 / 100 : ℝ) * ‖z‖ ≤ ‖swapProblem.A z - swapProblem.shift • z‖ := by
  change _ ≤ ‖swapOp z - (0 : ℝ) • z‖
  rw [zero_smul, sub_zero, swapOp_norm]
  have := norm_nonneg z
  linarith

theorem swapProblem_b : swapProblem.b ≠ 0 := by
  intro h
  have := congrArg (fun v => v 0) h
  simp [swapProblem] at this

theorem swapProblem_generic (l : ℝ) : 10 * (1 / 100 : ℝ) * (‖swapProblem.b‖ * ‖swapProblem.b‖) <
    ‖(swapProblem.A swapProblem.b - swapProblem.shift • swapProblem.b) - l • swapProblem.b‖ := by
  have h1 : ‖swapProblem.b‖ = 1 := by simp [swapProblem, EuclideanSpace.norm_eq, Fin.sum_univ_two]
  have h2 : ‖(swapProblem.A swapProblem.b - swapProblem.shift • swapProblem.b) - l • swapProblem.b‖ = Real.sqrt (l ^ 2 + 1) := by
    simp [swapProblem, swapOp, EuclideanSpace.norm_eq, Fin.sum_univ_two]
  rw [h1, h2]
  apply Real.lt_sqrt_of_sq_lt
  nlinarith [sq_nonneg l]

/-- the hypotheses of `C34_converges_generic`, hence of `C34_converges_partial`, are met: MINRES solves the indefinite
system in at most two iterations -/
example (self : MinresObj Fl (Vec (EuclideanSpace ℝ (Fin 2)))) :
    ∃ res products, minresSolve (Vec.op swapOp) (.fin (1 / 100)) 2 self (.fin !₂[1, 0]) swapProblem.kw = .ok (res, products) ∧
      res.converged = true ∧ products.length ≤ 2 := by
  have := C34_converges_generic swapProblem swapOp_symm (1 / 100) (by norm_num) swapProblem_low (by decide)
    (by change (0 : ℝ) ≤ 1 / 1000; norm_num) swapProblem_b (fun m h => nomatch h) swapProblem_generic self
  simpa [show swapProblem.A = swapOp from rfl, show swapProblem.b = !₂[1, 0] from rfl] using this

/-- the hypotheses of `C35_residual_partial` are met by the same system -/
example (self : MinresObj Fl (Vec (EuclideanSpace ℝ (Fin 2)))) :=
  C35_residual_partial swapProblem swapOp_symm (1 / 100) (by norm_num) swapProblem_low (by decide) 2 self

/-- `A = 2`, of order one -/
noncomputable def twoProblem : MinresProblem ℝ :=
  { A := (2 : ℝ) • LinearMap.id, b := 3, shift := 0, check := true, itnlim := none, rtol := 1 / 1000, etol := 1 / 1000,
    storeIterates := true, window := 5 }

/-- the hypotheses of `C34_beta2_nan` are met by `A = 2` of order one and the default limit -/
example (self : MinresObj Fl (Vec ℝ)) :
    ∃ res products, minresSolve (Vec.op twoProblem.A) (.fin 0) 1 self (.fin 3) twoProblem.kw = .ok (res, products) ∧
      res.x = .nan ∧ res.istop = -1 ∧ res.converged = false ∧ products.length = 5 :=
  C34_beta2_nan twoProblem (by norm_num [twoProblem]) 2 (by simp [twoProblem]) (by decide) 0 (le_refl _) 1 (by decide) self

/-- the hypotheses of `C34_status_partial` are met -/
example (self : MinresObj Fl (Vec ℝ)) :=
  C34_status_partial (Vec.op twoProblem.A) (.fin 0) 1 self (.fin 3) twoProblem.kw (by decide)

end Verif.Solver
