import Verif.Solver.MinresLeast
import Verif.Solver.SingularProps

/-!
# C86: MINRES on symmetric systems without a solution
-/

namespace Verif.Solver
open Scalar Vect
open scoped RealInnerProductSpace
open MinresMath (krylov St Exhausted InjOn LowOn)

variable {E : Type} [NormedAddCommGroup E] [InnerProductSpace ℝ E]

/-- **Specification.** `x` minimizes `‖b - B x‖` over the whole space. -/
def LeastSquares (B : E →ₗ[ℝ] E) (b x : E) : Prop := ∀ z, ‖b - B x‖ ≤ ‖b - B z‖

theorem leastSquares_of_normal {B : E →ₗ[ℝ] E} (hB : ∀ u v, ⟪B u, v⟫ = ⟪u, B v⟫) {b x : E} (h : B (b - B x) = 0) :
    LeastSquares B b x := by
  intro z
  have h0 : ⟪b - B x, B (x - z)⟫ = 0 := by rw [← hB, h, inner_zero_left]
  have h1 : b - B z = (b - B x) + B (x - z) := by rw [map_sub]; abel
  have h2 : ‖b - B z‖ * ‖b - B z‖ = ‖b - B x‖ * ‖b - B x‖ + ‖B (x - z)‖ * ‖B (x - z)‖ := by
    rw [h1]; exact norm_add_sq_eq_norm_sq_add_norm_sq_real h0
  by_contra hlt
  nlinarith [norm_nonneg (b - B z), norm_nonneg (b - B x), mul_self_nonneg ‖B (x - z)‖]

/-- **C86 (MINRES), partial.** In exact arithmetic, for every symmetric operator `A`, shift and right-hand side `b` such that
`B = A - shift I` has `B x = b` for no `x` and `B b ≠ 0`, and options with `rtol ≥ 0`: for every machine precision that is small enough
(how small depends on `B` and `b`), if the limit is at least the dimension, every solve converges within as many iterations as the
dimension; the result minimizes `‖b - B x‖` over the Krylov space of the products made; and if this space is exhausted, which happens
at the latest when the limit is reached, it minimizes `‖b - B x‖` over all vectors.  `rnorm` is the norm of its residual as long as the
space is not exhausted.  Missing, because the code violates it: `rnorm` when it is (`C86_minres_violated`), and that the result is the
minimizer of smallest norm (`C86_minres_not_shortest`). -/
theorem C86_minres_partial [FiniteDimensional ℝ E] (q : MinresProblem E) (hA : ∀ u v, ⟪q.A u, v⟫ = ⟪u, q.A v⟫)
    (hb : q.b ∉ LinearMap.range q.B) (hBb : q.B q.b ≠ 0) (hw : q.window ≠ 0) (hrt : 0 ≤ q.rtol) :
    ∃ ε₀ : ℝ, 0 < ε₀ ∧ ∀ ε, 0 < ε → ε ≤ ε₀ → ∀ n, Module.finrank ℝ E ≤ q.itnlim.getD (5 * n) → ∀ self,
      ∃ res products x, minresSolve (Vec.op q.A) (.fin ε) n self (.fin q.b) q.kw = .ok (res, products) ∧ res.x = .fin x ∧
        res.converged = true ∧ products.length ≠ 0 ∧ products.length ≤ Module.finrank ℝ E ∧
        x ∈ krylov q.B q.b products.length ∧ (∀ z ∈ krylov q.B q.b products.length, ‖q.b - q.B x‖ ≤ ‖q.b - q.B z‖) ∧
        (¬ Exhausted q.B q.b products.length → res.rnorm = .fin ‖q.b - q.B x‖) ∧
        (Exhausted q.B q.b products.length → LeastSquares q.B q.b x ∧ x ∈ krylov q.B q.b (products.length - 1) ∧
          res.rnorm = .fin 0 ∧ (res.istop = 1 ∨ res.istop = 10)) := by
  obtain ⟨ε₁, h1, hlow⟩ := MinresMath.exists_lowOn q.B q.b
  obtain ⟨ε₂, h2, hgen⟩ := exists_not_eigen q.B q.b hb hBb
  refine ⟨min ε₁ ε₂, lt_min h1 h2, fun ε hε hle n hlim self => ?_⟩
  replace hlow := hlow ε (hle.trans (min_le_left _ _))
  replace hgen := hgen ε (hle.trans (min_le_right _ _))
  have hb0 : q.b ≠ 0 := fun h => hb (h ▸ Submodule.zero_mem _)
  have hBx : ∀ x, q.A x - q.shift • x = q.B x := fun x => by simp [MinresProblem.B]
  have hB := q.B_symm hA
  obtain ⟨-, h4⟩ := minresStart_exact q hb0
  have hkl : Module.finrank ℝ E ≤ q.kw.itnlim.getD (5 * n) := hlim
  have hm1 := C34_beta2_eigenvector q hw ε n self
  unfold minresSolve at hm1 ⊢
  have hw' : ∀ P : Prop, ¬ (q.kw.window = 0 ∧ P) := fun P h => hw h.1
  simp only [h4, Bool.false_eq_true, if_false, hw'] at hm1 ⊢
  replace hm1 := fun h => hm1 _ _ rfl h
  generalize q.kw.itnlim.getD (5 * n) = lim at hkl hm1 ⊢
  have hinit := minresInit_good q self hb0
  obtain ⟨⟨hinv, hv, hz⟩, hc⟩ := minresLoop_inv (Vec.op q.A) (.fin ε) q.kw lim (minresStart q.kw (.fin q.b)).2
    (fun s => ((MGood q self s ∧ InjOn q.B q.b s.itn) ∨ MClip q s ∨ MBad s) ∧ MinresInv q.kw lim self s ∧ (s.itn = 0 → s.istop = 0))
    (fun s hs hc => ⟨minresStep_least q hA ε hε hlow hb self _ _ s hs.1 hc, minresStep_inv _ _ _ _ _ _ s hs.2.1 hc,
      fun h => by rw [minresStep_itn] at h; omega⟩)
    (minresInit q.kw self (.fin q.b))
    ⟨Or.inl ⟨hinit, fun z hz _ => by
      have : z ∈ krylov q.B q.b 0 := hz
      simpa [krylov] using this⟩, minresInit_inv _ _ _ _ (by rw [h4]), fun _ => (minresInit_rel q self hb0).2⟩
  generalize minresLoop (Vec.op q.A) _ _ _ _ _ = s at hinv hv hz hc hm1
  have hne : s.istop ≠ -1 := by
    intro h
    obtain ⟨l, hl⟩ := hm1 h
    rw [hBx] at hl
    exact absurd (hgen l) (not_lt.2 hl)
  have hcal : s.calls.length = s.itn := hv.calls
  have hst := hv.status
  simp only [List.mem_cons, List.not_mem_nil, or_false] at hst
  rcases hinv with ⟨hg, hinj⟩ | hcl | hbad
  · obtain ⟨k, t, vp, up, S, Sp, xs, hr, hi, -, -, -, -, hrn, -, -, -⟩ := hg.ex
    obtain ⟨-, hbe⟩ := hi.beta_ne hb
    have hk : k + 1 ≤ Module.finrank ℝ E := by
      rw [← MinresMath.finrank_sup_span hi hbe]; exact Submodule.finrank_le _
    have hpos : 0 < s.istop := by
      by_contra hnp
      have hbr : s.broke = false := by
        have := hv.broke; rw [← Bool.not_eq_true, this]; exact hnp
      simp only [minresCont, hbr, Bool.not_false, Bool.true_and, decide_eq_false_iff_not, hr.itn] at hc
      omega
    have h6 : s.istop ≠ 6 := by
      intro h6
      rcases hv.six h6 with h | ⟨r, h⟩
      · rw [hr.itn] at h; omega
      · change lt (dot r r) (lit 0) = true at h
        cases r with
        | nan => simp at h
        | fin r =>
          rw [Vec.fin_dot, Fl.lit_eq, Fl.fin_lt] at h
          have h0 : ⟪r, r⟫ < 0 := by simpa only [Rat.cast_zero] using h
          exact absurd h0 (not_lt.2 real_inner_self_nonneg)
    have hk0 : k ≠ 0 := by
      rintro rfl
      have := hz hr.itn
      omega
    refine ⟨_, _, t.x, rfl, hr.x, ?_, ?_, ?_, ?_, ?_, ?_, ?_⟩
    · simp only [minresResult, minresConverged, List.mem_cons, List.not_mem_nil, or_false, decide_eq_true_eq]
      omega
    · rw [hcal, hr.itn]; exact hk0
    · rw [hcal, hr.itn]; omega
    · rw [hcal, hr.itn]; exact hi.minimal.1
    · rw [hcal, hr.itn]; exact hi.minimal.2
    · intro _; exact hrn hk0
    · rw [hcal, hr.itn]
      exact fun h => absurd h (hi.not_exhausted hk0 hbe)
  · obtain ⟨x, hx, hx1, hx2⟩ := hcl.sol
    have hpos : 0 < s.istop ∧ (s.istop = 1 ∨ s.istop = 10) := by
      rcases hcl.istop with h | h
      · exact absurd h hne
      · exact ⟨h.1, h.2 hrt⟩
    have hx3 : x ∈ krylov q.B q.b s.itn := MinresMath.krylov_mono _ _ (by omega) hx1
    refine ⟨_, _, x, rfl, hx, ?_, ?_, ?_, ?_, ?_, ?_, ?_⟩
    · simp only [minresResult, minresConverged, List.mem_cons, List.not_mem_nil, or_false, decide_eq_true_eq]
      omega
    · rw [hcal]; exact hcl.pos
    · rw [hcal]; exact hcl.dim inferInstance
    · rw [hcal]; exact hx3
    · rw [hcal]; exact hx2
    · rw [hcal]; exact fun h => absurd hcl.exh h
    · rw [hcal]
      exact fun _ => ⟨leastSquares_of_normal hB (MinresMath.least_squares hB hcl.pos hcl.exh hx3 hx2), hx1, hcl.rnorm, hpos.2⟩
  · exact absurd hbad.istop hne

/-- as long as `B` is injective, the residual is not in its kernel -/
theorem MinresMath.Inv.root {B : E →ₗ[ℝ] E} {b : E} {k : ℕ} {t : St E} {vp up : E} {S Sp : Submodule ℝ E}
    (h : MinresMath.Inv B b k t vp up S Sp) (hB : ∀ u v, ⟪B u, v⟫ = ⟪u, B v⟫) (hb : t.beta ≠ 0) (hi : InjOn B b k) :
    MinresMath.gbar B k t ≠ 0 ∨ t.cs ≠ 0 := by
  by_contra hcon
  push Not at hcon
  obtain ⟨hg, hcs⟩ := hcon
  have hsn : t.sn = 1 := by
    have := h.rot
    rw [hcs] at this
    nlinarith [h.sn1]
  have hdb : t.dbar = 0 := by
    unfold MinresMath.gbar at hg
    rw [hcs, hsn] at hg
    linarith
  have hub : MinresMath.ub t up = up := by unfold MinresMath.ub; rw [hcs, hsn]; simp
  have hmin : ∀ z ∈ S, ⟪up, B z⟫ = 0 := by
    intro z hz
    have := h.minim z hz
    change ⟪MinresMath.ub t up, B z⟫ = 0 at this
    rwa [hub] at this
  have hv : ⟪up, B t.v⟫ = 0 := by
    have e : B t.v = MinresMath.q B k t + MinresMath.alfa B k t • t.v + t.beta • vp := by rw [h.q_eq hb]; abel
    rw [e, h.I1, inner_add_right, inner_add_right, inner_smul_right, inner_add_right, inner_smul_right, inner_smul_right,
      h.orth' hB hb _ (Submodule.mem_sup_left h.upS), h.vS _ h.upS, hmin _ h.w2S, hdb]
    ring
  have hmem := h.BS hb up h.upS
  have horth : ∀ z ∈ S ⊔ Submodule.span ℝ {t.v}, ⟪B up, z⟫ = 0 := by
    intro z hz
    obtain ⟨y, hy, c, hc, rfl⟩ := Submodule.mem_sup.1 hz
    obtain ⟨r, rfl⟩ := Submodule.mem_span_singleton.1 hc
    rw [hB, map_add, map_smul, inner_add_right, inner_smul_right, hmin y hy, hv]
    ring
  have h0 : up = 0 := hi up (h.kry ▸ h.upS) (inner_self_eq_zero.1 (horth _ hmem))
  have h1 : ⟪MinresMath.ub t up, MinresMath.ub t up⟫ = 1 := h.unit hb
  rw [hub, h0, inner_zero_left] at h1
  norm_num at h1

/-- some Krylov space is exhausted -/
theorem exists_exhausted [FiniteDimensional ℝ E] (B : E →ₗ[ℝ] E) (b : E) : ∃ k, k ≠ 0 ∧ Exhausted B b k := by
  obtain ⟨N, hN⟩ := monotone_stabilizes_iff_noetherian.2 (inferInstance : IsNoetherian ℝ E)
    ⟨krylov B b, fun _ _ h => MinresMath.krylov_mono B b h⟩
  refine ⟨N + 1, by omega, fun z hz => ?_⟩
  have e1 : krylov B b N = krylov B b (N + 1) := hN _ (by omega)
  have e2 : krylov B b N = krylov B b (N + 2) := hN _ (by omega)
  rw [← e1, e2]
  exact MinresMath.krylov_map B b _ hz

/-- the state before the Krylov space is exhausted, the same for all small machine precisions -/
theorem minres_run [FiniteDimensional ℝ E] (q : MinresProblem E) (hA : ∀ u v, ⟪q.A u, v⟫ = ⟪u, q.A v⟫)
    (hb : q.b ∉ LinearMap.range q.B) (hBb : ⟪q.b, q.B q.b⟫ ≠ 0) (hw : Module.finrank ℝ E ≤ q.window) (hrt : q.rtol = 0)
    (lim : ℕ) (hlim : Module.finrank ℝ E ≤ lim) (self : MinresObj Fl (Vec E)) (d : ℕ)
    (hd : ∀ k, k ≠ 0 → k < d → ¬ Exhausted q.B q.b k) (j : ℕ) (hj : j < d) :
    ∃ ε₀ : ℝ, 0 < ε₀ ∧ ∃ s t vp up S Sp, (∀ ε, 0 < ε → ε ≤ ε₀ →
        minresLoop (Vec.op q.A) (.fin ε) q.kw lim (.fin ‖q.b‖) (minresInit q.kw self (.fin q.b)) =
          minresLoop (Vec.op q.A) (.fin ε) q.kw lim (.fin ‖q.b‖) s) ∧
      MRel q j s t ∧ MinresMath.Inv q.B q.b j t vp up S Sp ∧ InjOn q.B q.b j ∧ s.istop = 0 ∧ s.broke = false ∧
      (j ≠ 0 → ∃ a c, s.gmax = .fin a ∧ s.gmin = .fin c ∧ 0 < c) ∧ (j = 0 → t = stInit q.b) := by
  have hb0 : q.b ≠ 0 := fun h => hb (h ▸ Submodule.zero_mem _)
  have hn : 0 < ‖q.b‖ := norm_pos_iff.2 hb0
  have hB := q.B_symm hA
  induction j with
  | zero =>
    obtain ⟨h1, h2⟩ := minresInit_rel q self hb0
    exact ⟨1, one_pos, _, _, _, _, _, _, fun ε _ _ => rfl, h1, MinresMath.inv_init q.B q.b hb0,
      fun z hz _ => by simpa [krylov] using hz, h2, rfl, fun h => absurd rfl h, fun _ => rfl⟩
  | succ j ih =>
    obtain ⟨ε₀, hε₀, s, t, vp, up, S, Sp, hrun, hr, hi, hinj, h0, hbr, hgm, ht⟩ := ih (by omega)
    obtain ⟨hph, hbe⟩ := hi.beta_ne hb
    have hbe' : MinresMath.beta' q.B j t ≠ 0 := fun h => hd (j+1) (by omega) hj (hi.exhausted hbe h)
    have hg : MinresMath.gam0 q.B j t ≠ 0 := fun h => hbe' (MinresMath.gam0_zero h).2
    have hgp : 0 < MinresMath.gam0 q.B j t := lt_of_le_of_ne (Real.sqrt_nonneg _) hg.symm
    have hi' := hi.step hB hbe rfl hgp
    obtain ⟨hph', hbe''⟩ := hi'.beta_ne hb
    have hdim : j + 2 ≤ Module.finrank ℝ E := by
      rw [← MinresMath.finrank_sup_span hi' hbe'']; exact Submodule.finrank_le _
    have ho : j ≠ 0 → t.oldb ≠ 0 := fun h => (hi.pos h).1
    obtain ⟨ε₁, hε₁, hle, s', hs', hi0, hbr', hgm'⟩ := minresStep_small q hrt lim ‖q.b‖ hn hr hbe ho (by omega) (by omega) h0 hgp
      (lt_of_le_of_ne (Real.sqrt_nonneg _) hbe'.symm) (lt_of_le_of_ne hi.ph hph.symm) (hi.root hB hbe hinj) (by
        split
        · rename_i hj0
          subst hj0
          rw [ht rfl]
          have e : MinresMath.alfa q.B 0 (stInit q.b) = 1 / ‖q.b‖ * (1 / ‖q.b‖) * ⟪q.b, q.B q.b⟫ := by
            unfold MinresMath.alfa MinresMath.p
            rw [if_neg (by omega)]
            change ⟪(1 / ‖q.b‖) • q.b, q.B ((1 / ‖q.b‖) • q.b)⟫ = _
            rw [map_smul, inner_smul_left, inner_smul_right]
            simp only [conj_trivial]
            ring
          rw [e]
          exact mul_ne_zero (mul_ne_zero (by positivity) (by positivity)) hBb
        · rename_i hj0
          exact hgm hj0)
    obtain ⟨hr', -⟩ := minresStep_exact q ε₁ lim (.fin ‖q.b‖) hr hbe ho (max_eq_left hle) hε₁
    rw [hs' ε₁ hε₁ le_rfl] at hr'
    refine ⟨min ε₀ ε₁, lt_min hε₀ hε₁, s', _, _, _, _, _, fun ε h1 h2 => ?_, hr', hi', hi.inj_succ hB hbe hinj hg, hi0, hbr',
      fun _ => hgm', fun h => by omega⟩
    rw [hrun ε h1 (h2.trans (min_le_left _ _)), ← hs' ε h1 (h2.trans (min_le_right _ _))]
    refine whileLoop_of_cont ?_
    simp only [minresCont, hbr, Bool.not_false, Bool.true_and, decide_eq_true_eq, hr.itn]
    omega

/-- **C86 (MINRES), negative.** In exact arithmetic, for every symmetric operator `A`, shift and right-hand side `b` such that
`B = A - shift I` has `B x = b` for no `x` and `b'Bb ≠ 0`, with `rtol = 0`, a window and a limit not below the dimension: for every machine
precision that is small enough, MINRES ends in a minimizer `x` of `‖b - B x‖`, but reports `rnorm = 0`, which is not the norm of its
residual, and the status that `A x = b` is solved (or that the direct error is small) instead of that of a least-squares solution. -/
theorem C86_minres_violated [FiniteDimensional ℝ E] (q : MinresProblem E) (hA : ∀ u v, ⟪q.A u, v⟫ = ⟪u, q.A v⟫)
    (hb : q.b ∉ LinearMap.range q.B) (hBb : ⟪q.b, q.B q.b⟫ ≠ 0) (hw : Module.finrank ℝ E ≤ q.window) (hrt : q.rtol = 0) :
    ∀ n, Module.finrank ℝ E ≤ q.itnlim.getD (5 * n) → ∀ self, ∃ ε₀ : ℝ, 0 < ε₀ ∧ ∀ ε, 0 < ε → ε ≤ ε₀ →
      ∃ res products x, minresSolve (Vec.op q.A) (.fin ε) n self (.fin q.b) q.kw = .ok (res, products) ∧ res.x = .fin x ∧
        res.converged = true ∧ LeastSquares q.B q.b x ∧ 0 < ‖q.b - q.B x‖ ∧ res.rnorm = .fin 0 ∧
        (res.istop = 1 ∨ res.istop = 10) ∧ products.length ≤ Module.finrank ℝ E ∧
        Exhausted q.B q.b products.length ∧ x ∈ krylov q.B q.b (products.length - 1) := by
  intro n hlim self
  have hB := q.B_symm hA
  have hb0 : q.b ≠ 0 := fun h => hb (h ▸ Submodule.zero_mem _)
  classical
  have hex := exists_exhausted q.B q.b
  obtain ⟨d, hd0, hd, hmin⟩ : ∃ d, d ≠ 0 ∧ Exhausted q.B q.b d ∧ ∀ k, k ≠ 0 → k < d → ¬ Exhausted q.B q.b k :=
    ⟨Nat.find hex, (Nat.find_spec hex).1, (Nat.find_spec hex).2, fun k hk hlt h => Nat.find_min hex hlt ⟨hk, h⟩⟩
  have hd1 : d ≠ 1 := by
    rintro rfl
    have h1 := hd q.b (Submodule.subset_span ⟨0, by omega, by simp⟩)
    have h2 : krylov q.B q.b 1 = Submodule.span ℝ {q.b} := by
      unfold krylov
      congr 1
      ext v
      constructor
      · rintro ⟨j, hj, rfl⟩
        obtain rfl : j = 0 := by omega
        simp
      · intro hv
        exact ⟨0, by omega, by simpa using hv⟩
    rw [h2] at h1
    obtain ⟨l, hl⟩ := Submodule.mem_span_singleton.1 h1
    have hl0 : l ≠ 0 := by
      rintro rfl
      rw [zero_smul] at hl
      rw [← hl, inner_zero_right] at hBb
      exact hBb rfl
    exact hb ⟨l⁻¹ • q.b, by rw [map_smul, ← hl, smul_smul, inv_mul_cancel₀ hl0, one_smul]⟩
  obtain ⟨j, rfl⟩ : ∃ j, d = j + 1 := ⟨d - 1, by omega⟩
  have hkl : Module.finrank ℝ E ≤ q.kw.itnlim.getD (5 * n) := hlim
  obtain ⟨h3, h4⟩ := minresStart_exact q hb0
  unfold minresSolve
  have hpos : 0 < Module.finrank ℝ E := by
    rw [Module.finrank_pos_iff]
    exact ⟨q.b, 0, hb0⟩
  have hw' : ∀ P : Prop, ¬ (q.kw.window = 0 ∧ P) := fun P h => by
    have : q.window = 0 := h.1
    omega
  simp only [h4, Bool.false_eq_true, if_false, hw', h3]
  generalize q.kw.itnlim.getD (5 * n) = lim at hkl ⊢
  obtain ⟨ε₀, hε₀, s, t, vp, up, S, Sp, hrun, hr, hi, hinj, h0, hbr, -, -⟩ := minres_run q hA hb hBb hw hrt lim hkl self (j+1) hmin j
    (by omega)
  obtain ⟨hph, hbe⟩ := hi.beta_ne hb
  have hg : MinresMath.gam0 q.B j t = 0 := by
    by_contra hg
    have hi' := hi.step hB hbe rfl (lt_of_le_of_ne (Real.sqrt_nonneg _) (Ne.symm hg))
    exact hi'.not_exhausted (by omega) (hi'.beta_ne hb).2 hd
  have hdim : j + 1 ≤ Module.finrank ℝ E := by
    rw [← MinresMath.finrank_sup_span hi hbe]; exact Submodule.finrank_le _
  refine ⟨ε₀, hε₀, fun ε h1 h2 => ?_⟩
  have hcl := minresStep_clip q hA ε h1 lim (.fin ‖q.b‖) hr hi hbe hg (Or.inl h0)
  have hne := minresStep_ne (Vec.op q.A) (.fin ε) q.kw lim (.fin ‖q.b‖) s (by rw [h0]; omega) (fun h => by rw [hr.itn] at h; omega)
  have hcont : minresCont lim s = true := by
    simp only [minresCont, hbr, Bool.not_false, Bool.true_and, decide_eq_true_eq, hr.itn]
    omega
  have hinv := (minresLoop_inv (Vec.op q.A) (.fin ε) q.kw lim (.fin ‖q.b‖) (MinresInv q.kw lim self)
    (fun s hs hc => minresStep_inv _ _ _ _ _ _ s hs hc) _ (minresInit_inv q.kw lim self (.fin q.b) (by rw [h4]))).1
  rw [hrun ε h1 h2] at hinv ⊢
  have e1 : minresLoop (Vec.op q.A) (.fin ε) q.kw lim (.fin ‖q.b‖) s =
      minresLoop (Vec.op q.A) (.fin ε) q.kw lim (.fin ‖q.b‖) (minresStep (Vec.op q.A) (.fin ε) q.kw lim (.fin ‖q.b‖) s) :=
    whileLoop_of_cont hcont
  rw [e1] at hinv ⊢
  generalize minresStep (Vec.op q.A) (.fin ε) q.kw lim (.fin ‖q.b‖) s = s' at hcl hne hinv ⊢
  have hst : 0 < s'.istop ∧ (s'.istop = 1 ∨ s'.istop = 10) := by
    rcases hcl.istop with h | h
    · exact absurd h hne
    · exact ⟨h.1, h.2 hrt.ge⟩
  have e2 : minresLoop (Vec.op q.A) (.fin ε) q.kw lim (.fin ‖q.b‖) s' = s' := whileLoop_of_not (by
    simp only [minresCont, hcl.broke.2 hst.1, Bool.not_true, Bool.false_and])
  rw [e2] at hinv ⊢
  obtain ⟨x, hx, hx1, hx2⟩ := hcl.sol
  have hx3 : x ∈ krylov q.B q.b s'.itn := MinresMath.krylov_mono _ _ (by omega) hx1
  have hcal : s'.calls.length = s'.itn := hinv.calls
  refine ⟨_, _, x, rfl, hx, ?_, leastSquares_of_normal hB (MinresMath.least_squares hB hcl.pos hcl.exh hx3 hx2), ?_, hcl.rnorm, hst.2, ?_, ?_, ?_⟩
  · simp only [minresResult, minresConverged, List.mem_cons, List.not_mem_nil, or_false, decide_eq_true_eq]
    omega
  · rw [norm_pos_iff, sub_ne_zero]
    exact fun h => hb ⟨x, h.symm⟩
  · rw [hcal]; exact hcl.dim inferInstance
  · rw [hcal]; exact hcl.exh
  · rw [hcal]; exact hx1

/-! ## The plane -/

/-- the projection of the plane to its first axis, with right-hand side `(3, 4)` -/
noncomputable def planeMinres : MinresProblem ℂ :=
  { A := planeProj, b := ⟨3, 4⟩, shift := 0, check := true, itnlim := none, rtol := 0, etol := 0, storeIterates := false, window := 5 }

theorem planeMinres_B : planeMinres.B = planeProj := by
  simp [MinresProblem.B, planeMinres]

theorem planeMinres_inconsistent : planeMinres.b ∉ LinearMap.range planeMinres.B := by
  rw [planeMinres_B, planeProj_mem]
  simp [planeMinres]

theorem planeMinres_curv : ⟪planeMinres.b, planeMinres.B planeMinres.b⟫ ≠ 0 := by
  rw [planeMinres_B, Complex.inner]
  simp [planeMinres]

/-- the hypotheses of `C86_minres_partial` are met -/
example := C86_minres_partial planeMinres planeProj_psd.1 planeMinres_inconsistent
  (fun h => planeMinres_curv (by rw [h, inner_zero_right])) (by simp [planeMinres]) (by simp [planeMinres])

/-- **C86 (MINRES), negative.** For the projection of the plane to its first axis and the right-hand side `(3, 4)`, and every machine
precision that is small enough, MINRES returns `(3, 4)`: a minimizer with residual norm 4, reported as 0, and not the shortest one. -/
theorem C86_minres_not_shortest (self : MinresObj Fl (Vec ℂ)) : ∃ ε₀ : ℝ, 0 < ε₀ ∧ ∀ ε, 0 < ε → ε ≤ ε₀ →
    ∃ res products, minresSolve (Vec.op planeProj) (.fin ε) 2 self (.fin ⟨3, 4⟩) planeMinres.kw = .ok (res, products) ∧
      res.converged = true ∧ res.x = .fin ⟨3, 4⟩ ∧ ‖(⟨3, 4⟩ : ℂ) - planeProj ⟨3, 4⟩‖ = 4 ∧ res.rnorm = .fin 0 ∧
      ¬ MinimumNormLeastSquares planeProj ⟨3, 4⟩ ⟨3, 4⟩ := by
  have hfin : Module.finrank ℝ ℂ = 2 := Complex.finrank_real_complex
  obtain ⟨ε₀, h0, h⟩ := C86_minres_violated planeMinres planeProj_psd.1 planeMinres_inconsistent planeMinres_curv
    (by rw [hfin]; simp [planeMinres]) rfl 2 (by rw [hfin]; simp [planeMinres]) self
  refine ⟨ε₀, h0, fun ε h1 h2 => ?_⟩
  obtain ⟨res, products, x, hs, hx, hc, hls, -, hrn, -, hlen, hexh, hmem⟩ := h ε h1 h2
  rw [planeMinres_B] at hls hexh hmem
  rw [hfin] at hlen
  have hb : planeMinres.b = ⟨3, 4⟩ := rfl
  rw [hb] at hls hexh hmem
  have hk : krylov planeProj (⟨3, 4⟩ : ℂ) (products.length - 1) ≤ Submodule.span ℝ {(⟨3, 4⟩ : ℂ)} := by
    refine (MinresMath.krylov_mono _ _ (show products.length - 1 ≤ 1 by omega)).trans ?_
    refine Submodule.span_le.2 ?_
    rintro v ⟨j, hj, rfl⟩
    obtain rfl : j = 0 := by omega
    simpa using Submodule.mem_span_singleton_self _
  obtain ⟨c, rfl⟩ := Submodule.mem_span_singleton.1 (hk hmem)
  have hres : ∀ z : ℂ, ‖(⟨3, 4⟩ : ℂ) - planeProj z‖ * ‖(⟨3, 4⟩ : ℂ) - planeProj z‖ = (3 - z.re) * (3 - z.re) + 16 := by
    intro z
    rw [← pow_two, Complex.sq_norm, Complex.normSq_apply]
    simp
    norm_num
  have hc1 : c = 1 := by
    have h3 := mul_self_le_mul_self (norm_nonneg _) (hls ⟨3, 0⟩)
    rw [hres, hres] at h3
    simp at h3
    nlinarith [mul_self_nonneg (3 - c * 3)]
  subst hc1
  rw [one_smul] at hx hls
  have h4 : ‖(⟨3, 4⟩ : ℂ) - planeProj ⟨3, 4⟩‖ = 4 := by
    have := hres ⟨3, 4⟩
    simp only [sub_self, mul_zero, zero_add] at this
    nlinarith [norm_nonneg ((⟨3, 4⟩ : ℂ) - planeProj ⟨3, 4⟩)]
  refine ⟨res, products, hs, hc, hx, h4, hrn, fun hm => ?_⟩
  have h5 := hm.2 ⟨3, 0⟩ (by
    rw [h4]
    have := hres ⟨3, 0⟩
    simp only [sub_self, mul_zero, zero_add] at this
    nlinarith [norm_nonneg ((⟨3, 4⟩ : ℂ) - planeProj ⟨3, 0⟩)]) (by simp [Complex.ext_iff])
  have h6 := mul_self_lt_mul_self (norm_nonneg _) h5
  rw [← pow_two, ← pow_two, Complex.sq_norm, Complex.sq_norm, Complex.normSq_apply, Complex.normSq_apply] at h6
  norm_num at h6

end Verif.Solver
