import Verif.Solver.CraigExact

/-!
# What CRAIG computes in exact arithmetic: C41 (negative part) and C52
-/

namespace Verif.Solver
open Scalar Vect
open scoped RealInnerProductSpace
open MinresMath (krylov krylov_mono)
open CraigMath

variable {E F : Type} [NormedAddCommGroup E] [InnerProductSpace ℝ E] [NormedAddCommGroup F] [InnerProductSpace ℝ F]

/-- what the final state says about the last iterate -/
theorem CrInv.last {q : CraigProblem E F} (hq : q.Valid) {s : CraigLoop Fl (Vec F) (Vec E)} {rs : List F} (hh : CrHist q s rs)
    {n m : ℝ} (h : CrGood q s s.itn (rs.getLastD 0) n m ∨ CrDone q s (rs.getLastD 0) n m) :
    ⟪q.b, q.b - (rs.getLastD 0 + q.A (q.B (rs.getLastD 0)))⟫ = 0 ∧
    ((∀ _ : FiniteDimensional ℝ E, ∀ d, Confined (q.B ∘ₗ q.A) (q.B q.b) d → d ≤ s.itn → rs.getLastD 0 + q.A (q.B (rs.getLastD 0)) = q.b)) := by
  rcases h with ⟨x, u, v, α, c, sn, d, τ, wbar, hr, Us, Us', ah0, w, hcr, hcv⟩ | ⟨x, u, v, α, c, sn, d, wbar, hr, hsol, -⟩
  · refine ⟨hcv.orth hcr _ hcr.bU, fun _ m hm hk => ?_⟩
    have hα : α = 0 := by
      by_contra hα
      obtain ⟨Vs, Vs', hgk, -⟩ := hcr.gk hα
      have := hgk.lt_confined hm
      omega
    have := hcv.res
    rw [hcr.αv hα, hα, map_zero, zero_smul, sub_zero, smul_zero] at this
    exact (sub_eq_zero.1 this).symm
  · rw [hsol, sub_self, inner_zero_right]
    exact ⟨rfl, fun _ _ _ _ => rfl⟩

/-- the result in terms of the last state -/
theorem craigResult_eq {s : CraigLoop Fl (Vec F) (Vec E)} {res : CraigRes Fl (Vec F) (Vec E)} (h : craigResult s = .ok res) :
    res.x = s.x ∧ res.r = s.r ∧ res.istop = s.istop ∧ res.itn = s.itn ∧ res.r2norm = sqrt s.rnorm ∧ res.resids = s.resids ∧
    res.norms = s.norms ∧ res.iteratesP = s.iteratesP ∧ res.iteratesD = s.iteratesD := by
  unfold craigResult at h
  obtain ⟨a, -, h⟩ := except_bind_ok h
  cases h
  exact ⟨rfl, rfl, rfl, rfl, rfl, rfl, rfl, rfl, rfl⟩

theorem craigSolve_result {A : Vec E → Vec F} {AT : Vec F → Vec E} {n : ℕ} {b : Vec F} {kw : CraigKw Fl (Vec F) (Vec E)}
    {res : CraigRes Fl (Vec F) (Vec E)} {s : CraigLoop Fl (Vec F) (Vec E)} (h : craigSolve A AT n b kw = .ok (res, s)) :
    craigResult s = .ok res := by
  obtain ⟨-, -, -, -, -, -, -, -, -, h⟩ := craigSolve_cases h
  exact h

/-- a call that returns has a positive limit and a nonzero right-hand side -/
theorem craigSolve_returns {q : CraigProblem E F} {res : CraigRes Fl (Vec F) (Vec E)} {s : CraigLoop Fl (Vec F) (Vec E)}
    (h : craigSolve (Vec.op q.A) (Vec.op q.B) q.n (.fin q.b) q.kw = .ok (res, s)) : q.b ≠ 0 ∧ 1 ≤ q.limit := by
  obtain ⟨h1, h2, h3, -⟩ := C41_status_partial _ _ _ _ _ _ _ h
  refine ⟨?_, ?_⟩
  · intro h0
    have hM : applyPrecon q.kw.M (Vec.fin q.b) = .fin q.b := rfl
    rw [hM, h0, Vec.fin_dot, inner_zero_left, Fl.fin_sqrt le_rfl, Real.sqrt_zero, gt_fin_zero] at h1
    exact lt_irrefl _ h1
  · have : (res.itn : ℤ) ≤ q.limit := h3
    omega

/-- the result of a call that returns, for the dual iterates `rs` -/
theorem craigSolve_hist {q : CraigProblem E F} (hq : q.Valid) {res : CraigRes Fl (Vec F) (Vec E)}
    {s : CraigLoop Fl (Vec F) (Vec E)} (h : craigSolve (Vec.op q.A) (Vec.op q.B) q.n (.fin q.b) q.kw = .ok (res, s)) :
    CrInv q s := by
  obtain ⟨h1, h2⟩ := craigSolve_returns h
  obtain ⟨res', s', h', hi⟩ := craigSolve_exact hq h1 h2
  rw [h] at h'
  cases h'
  exact hi

/-! ### C41 -/

/-- **C41, negative.** For a zero right-hand side CRAIG raises `UnboundLocalError`, for every operator and all keywords without
`wantvar`. -/
theorem C41_zero_raises (q : CraigProblem E F) (hb : q.b = 0) :
    craigSolve (Vec.op q.A) (Vec.op q.B) q.n (.fin q.b) q.kw = .error (.unboundLocal "v") := by
  have hM : ∀ z : Vec F, applyPrecon q.kw.M z = z := fun _ => rfl
  have hv : lsqrVar q.kw.wantvar = .ok () := rfl
  have hvec : craigVectors (Vec.op q.B) q.kw (.fin q.b) = .ok (.fin 0, .fin 0, .fin 0, none, .fin 0, 0) := by
    unfold craigVectors
    simp only [hM, pysqrt_dot, ok_bind, hb, norm_zero]
    rw [if_neg (by rw [gt_fin_zero]; exact lt_irrefl _), Fl.lit_eq, Rat.cast_zero]
    rfl
  have e1 : normof2 (Fl.fin 0) (lit 1) = .fin (Real.sqrt (0 * 0 + 1 * 1)) := by rw [Fl.lit_eq, normof2_fin, Rat.cast_one]
  have hah : 0 < Real.sqrt (0 * 0 + 1 * 1) := Real.sqrt_pos.2 (by norm_num)
  unfold craigSolve
  simp only [hv, hvec, ok_bind]
  unfold craigStart
  simp only [e1, ok_bind]
  simp only [Fl.lit_eq, pydiv_fin _ hah.ne', ok_bind, bound]
  rfl

/-- **C41, negative.** With `damp = 0`, the documented default, CRAIG should solve `A x = b`; in exact arithmetic the vector it returns
is never a solution of `A x = b`, for every operator, right-hand side, damping and other keywords for which it returns. -/
theorem C41_never_solves (q : CraigProblem E F) (hq : q.Valid) (res : CraigRes Fl (Vec F) (Vec E)) (s : CraigLoop Fl (Vec F) (Vec E))
    (h : craigSolve (Vec.op q.A) (Vec.op q.B) q.n (.fin q.b) q.kw = .ok (res, s)) : ∃ x, res.x = .fin x ∧ q.A x ≠ q.b := by
  obtain ⟨hb, -⟩ := craigSolve_returns h
  obtain ⟨rs, hh, n, m, hn, hm, hpos, hg⟩ := craigSolve_hist hq h
  obtain ⟨r1, -⟩ := craigResult_eq (craigSolve_result h)
  refine ⟨_, r1.trans hh.x, fun hA => hpos.ne' ?_⟩
  obtain ⟨ho, -⟩ := CrInv.last hq hh hg
  have hrn : ⟪rs.getLastD 0, q.b⟫ = n := by
    rcases hg with ⟨x, u, v, α, c, sn, d, τ, wbar, hr, Us, Us', ah0, w, hcr, hcv⟩ | ⟨x, u, v, α, c, sn, d, wbar, hr, hsol, -, hrb⟩
    · exact hcv.rb
    · exact hrb
  rw [hA, sub_add_cancel_right, inner_neg_right, real_inner_comm] at ho
  linarith

/-! ### C52 -/

/-- **C52.** In exact arithmetic, without preconditioners, for every operator, nonzero right-hand side and keywords with a positive
iteration limit, CRAIG returns, and there are vectors `rs 0, ..., rs itn` such that: `res.r` is the last one and `res.x` is `A'` times
it; `rs i` is the best approximation, in the energy norm, of the solution of `(AA' + I) r = b` in the span of `b, ..., (AA')^i b`;
the stored iterates are `A' rs i` and `rs i`; `r2norm` is `sqrt(|r|^2 + |x|^2)`, and the stored residual norms are the squares
`|rs i|^2 + |A' rs i|^2`; the status 1 ("residual small") is reported only after exactly one iteration, and says that
`sqrt(|r|^2 + |x|^2)` is at most `btol |b|`; the status 8 is reported only if `etol` is positive. -/
theorem C52_true_norms (q : CraigProblem E F) (hq : q.Valid) (hb : q.b ≠ 0) (hl : 1 ≤ q.limit) :
    ∃ res s, craigSolve (Vec.op q.A) (Vec.op q.B) q.n (.fin q.b) q.kw = .ok (res, s) ∧
    ∃ rs : List F, rs.length = res.itn + 1 ∧
      res.r = .fin (rs.getLastD 0) ∧ res.x = .fin (q.B (rs.getLastD 0)) ∧
      (∀ i (h : i < rs.length), rs[i] ∈ krylov (q.A ∘ₗ q.B) q.b (i+1) ∧
        ∀ y ∈ krylov (q.A ∘ₗ q.B) q.b (i+1), ∀ z, q.A (q.B z) + z = q.b →
          ‖q.B (rs[i] - z)‖ ^ 2 + ‖rs[i] - z‖ ^ 2 ≤ ‖q.B (y - z)‖ ^ 2 + ‖y - z‖ ^ 2) ∧
      (q.storeIterates = true → res.iteratesD = rs.map Vec.fin ∧ res.iteratesP = rs.map fun r => Vec.fin (q.B r)) ∧
      res.r2norm = .fin (Real.sqrt (‖rs.getLastD 0‖ ^ 2 + ‖q.B (rs.getLastD 0)‖ ^ 2)) ∧
      (q.storeResids = true → res.resids = rs.map (fun r => Fl.fin (‖r‖ ^ 2 + ‖q.B r‖ ^ 2)) ∧
        res.norms = rs.map (fun r => Fl.fin (‖r‖ ^ 2 + ‖q.B r‖ ^ 2 - (‖rs.headD 0‖ ^ 2 + ‖q.B (rs.headD 0)‖ ^ 2)))) ∧
      res.istop ∈ [1, 7, 8] ∧
      (res.istop = 1 → res.itn = 1 ∧ Real.sqrt (‖rs.getLastD 0‖ ^ 2 + ‖q.B (rs.getLastD 0)‖ ^ 2) ≤ q.btol * ‖q.b‖) ∧
      (res.istop = 8 → 0 < q.etol) := by
  obtain ⟨res, s, hs, rs, hh, n, m, hn, hm, hpos, hg⟩ := craigSolve_exact hq hb hl
  obtain ⟨r1, r2, r3, r4, r5, r6, r7, r8, r9⟩ := craigResult_eq (craigSolve_result hs)
  obtain ⟨-, -, -, -, hmem, -⟩ := C41_status_partial _ _ _ _ _ _ _ hs
  have hbn : 0 < ‖q.b‖ := norm_pos_iff.2 hb
  refine ⟨res, s, hs, rs, ?_, ?_, ?_, hh.best, ?_, ?_, ?_, ?_, ?_, ?_⟩
  · rw [r4, hh.itn]
  · rw [r2, hh.r]
  · rw [r1, hh.x]
  · intro hk
    rw [r8, r9, hh.iteratesD, hh.iteratesP, if_pos hk, if_pos hk]
    exact ⟨rfl, rfl⟩
  · rw [r5, hh.rnorm, Fl.fin_sqrt (hn ▸ hpos.le)]; rfl
  · intro hk
    rw [r6, r7, hh.resids, hh.norms, if_pos hk, if_pos hk]
    exact ⟨rfl, rfl⟩
  · have h4 := hh.stop4
    rw [← r3] at h4
    simp only [List.mem_cons, List.not_mem_nil, or_false] at hmem ⊢
    rcases hmem with h | h | h | h
    · exact Or.inl h
    · exact absurd h h4
    · exact Or.inr (Or.inl h)
    · exact Or.inr (Or.inr h)
  · intro h1
    rw [r3] at h1
    obtain ⟨k1, k2⟩ := hh.stop1 h1
    rw [r4]
    exact ⟨k1, (div_le_iff₀ hbn).1 k2⟩
  · intro h1
    rw [r3] at h1
    exact (hh.stop8 h1).1

/-- C52 and C71: `A'b` is confined to `d` dimensions under `A'A` -/
theorem craig_confined [FiniteDimensional ℝ E] (q : CraigProblem E F) (hq : q.Valid) (hb : q.b ≠ 0) (hl : 1 ≤ q.limit)
    {d : ℕ} (hd : Confined (q.B ∘ₗ q.A) (q.B q.b) d) (hdl : (d : ℤ) ≤ q.limit) (hbt : q.btol ≤ 0) (het : q.etol ≤ 0) :
    ∃ res s x r, craigSolve (Vec.op q.A) (Vec.op q.B) q.n (.fin q.b) q.kw = .ok (res, s) ∧ res.x = .fin x ∧ res.r = .fin r ∧
      r + q.A (q.B r) = q.b ∧ x = q.B r ∧ r = q.b - q.A x ∧
      (∀ y, ‖q.b - q.A x‖ ^ 2 + ‖x‖ ^ 2 ≤ ‖q.b - q.A y‖ ^ 2 + ‖y‖ ^ 2) ∧
      (res.itn : ℤ) = q.limit ∧ res.status = "max iterations" ∧ res.optimal = false := by
  obtain ⟨res, s, hs, rs, hh, n, m, hn, hm, hpos, hg⟩ := craigSolve_exact hq hb hl
  obtain ⟨r1, r2, r3, r4, -⟩ := craigResult_eq (craigSolve_result hs)
  obtain ⟨-, -, hle, ⟨direct, hst, -⟩, hmem, hstat, hopt, -⟩ := C41_status_partial _ _ _ _ _ _ _ hs
  have hle : (res.itn : ℤ) ≤ q.limit := hle
  have hbn : 0 < ‖q.b‖ := norm_pos_iff.2 hb
  have h7 : res.istop = 7 := by
    simp only [List.mem_cons, List.not_mem_nil, or_false] at hmem
    rcases hmem with h | h | h | h
    · rw [r3] at h
      obtain ⟨-, k2⟩ := hh.stop1 h
      have : 0 < Real.sqrt (q.nrg (rs.getLastD 0)) / ‖q.b‖ := div_pos (Real.sqrt_pos.2 (hn ▸ hpos)) hbn
      linarith
    · rw [r3] at h
      exact absurd h hh.stop4
    · exact h
    · rw [r3] at h
      linarith [(hh.stop8 h).1]
  have hit : (res.itn : ℤ) = q.limit := by
    rw [h7] at hst
    have : (if q.kw.itnlim = 0 then 3 * (q.n : ℤ) else q.kw.itnlim) = q.limit := rfl
    rw [this] at hst
    split_ifs at hst <;> omega
  have hsol := (CrInv.last hq hh hg).2 inferInstance d hd (by rw [r4] at hit; omega)
  refine ⟨res, s, _, _, hs, r1.trans hh.x, r2.trans hh.r, hsol, rfl, ?_, ?_, hit, ?_, ?_⟩
  · rw [← hsol]; abel_nf
  · intro y
    set r := rs.getLastD 0
    have hr : q.b - q.A (q.B r) = r := by rw [← hsol]; abel_nf
    obtain ⟨w, rfl⟩ : ∃ w, y = q.B r + w := ⟨y - q.B r, by abel⟩
    have h1 : ⟪r, q.A w⟫ = ⟪q.B r, w⟫ := by rw [real_inner_comm, hq.adj, real_inner_comm]
    rw [map_add, ← sub_sub, hr, ← real_inner_self_eq_norm_sq, ← real_inner_self_eq_norm_sq, ← real_inner_self_eq_norm_sq,
      ← real_inner_self_eq_norm_sq, real_inner_sub_sub_self, real_inner_add_add_self, h1]
    nlinarith [real_inner_self_nonneg (x := q.A w), real_inner_self_nonneg (x := w)]
  · rw [hstat, h7]; rfl
  · rw [← Bool.not_eq_true, hopt, h7]; simp

/-- **C52, convergence.** In exact arithmetic, once as many iterations as the dimension of the domain of `A` were made, the result
solves the regularized problem with damping 1: `(AA' + I) r = b`, `x = A'r` and `x` minimizes `|b - Ax|^2 + |x|^2`.  This
happens for every call in which neither tolerance is positive and the limit is at least the dimension; such a call reports "max
iterations". -/
theorem C52_converges [FiniteDimensional ℝ E] (q : CraigProblem E F) (hq : q.Valid) (hb : q.b ≠ 0) (hl : 1 ≤ q.limit)
    (hd : (Module.finrank ℝ E : ℤ) ≤ q.limit) (hbt : q.btol ≤ 0) (het : q.etol ≤ 0) :
    ∃ res s x r, craigSolve (Vec.op q.A) (Vec.op q.B) q.n (.fin q.b) q.kw = .ok (res, s) ∧ res.x = .fin x ∧ res.r = .fin r ∧
      r + q.A (q.B r) = q.b ∧ x = q.B r ∧ r = q.b - q.A x ∧
      (∀ y, ‖q.b - q.A x‖ ^ 2 + ‖x‖ ^ 2 ≤ ‖q.b - q.A y‖ ^ 2 + ‖y‖ ^ 2) ∧
      (res.itn : ℤ) = q.limit ∧ res.status = "max iterations" ∧ res.optimal = false := by
  exact craig_confined q hq hb hl (confined_of_finrank le_rfl) hd hbt het

/-! ### Examples -/

/-- the identity on the real line, right-hand side 2: the solution of `x = 2` is 2, CRAIG computes 1 -/
noncomputable def craigExample : CraigProblem ℝ ℝ where
  A := LinearMap.id
  B := LinearMap.id
  b := 2
  n := 1
  damp := 0
  itnlim := 0
  atol := 0
  btol := 0
  etol := 0
  conlim := 0
  storeResids := true
  storeIterates := true
  window := 5

theorem craigExample_valid : craigExample.Valid := ⟨fun _ _ => rfl, by decide⟩

/-- the hypotheses of `C52_true_norms`, `C52_converges` and `C41_never_solves` are met: CRAIG returns 1 for `x = 2` -/
example : ∃ res s, craigSolve (Vec.op craigExample.A) (Vec.op craigExample.B) 1 (.fin (2:ℝ)) craigExample.kw = .ok (res, s) ∧
    res.x = .fin (1:ℝ) ∧ res.itn = 3 ∧ res.optimal = false := by
  obtain ⟨res, s, x, r, hs, hx, hr, h1, h2, h3, -, h4, -, h5⟩ := C52_converges craigExample craigExample_valid
    (by norm_num [craigExample]) (by norm_num [craigExample, CraigProblem.limit]) (by norm_num [craigExample, CraigProblem.limit])
    (by norm_num [craigExample]) (by norm_num [craigExample])
  refine ⟨res, s, hs, ?_, ?_, h5⟩
  · have h1' : r + r = 2 := h1
    have h2' : x = r := h2
    rw [hx, h2']
    congr 1
    linarith
  · norm_num [craigExample, CraigProblem.limit] at h4
    exact_mod_cast h4

/-- the hypothesis of `C41_zero_raises` is met -/
example : ({ craigExample with b := 0 } : CraigProblem ℝ ℝ).b = 0 := rfl

end Verif.Solver
