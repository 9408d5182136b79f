import Verif.Solver.MinresFindings
import Mathlib.Topology.Algebra.Module.FiniteDimension
import Mathlib.Analysis.Normed.Module.FiniteDimension
import Mathlib.RingTheory.Noetherian.Basic

/-!
# Helpers for C86: MINRES on symmetric systems without a solution
-/

namespace Verif.Solver.MinresMath
open scoped RealInnerProductSpace

variable {E : Type} [NormedAddCommGroup E] [InnerProductSpace ℝ E]
variable {B : E →ₗ[ℝ] E} {b : E} {k : ℕ} {s : St E} {vp up : E} {S Sp : Submodule ℝ E}

/-- `B` maps the Krylov space of order `k` into itself -/
def Exhausted (B : E →ₗ[ℝ] E) (b : E) (k : ℕ) : Prop := ∀ z ∈ krylov B b k, B z ∈ krylov B b k

/-- `B` is injective on the Krylov space of order `k` -/
def InjOn (B : E →ₗ[ℝ] E) (b : E) (k : ℕ) : Prop := ∀ z ∈ krylov B b k, B z = 0 → z = 0

/-- no vector of a Krylov space on which `B` is injective is shrunk by more than `ε` -/
def LowOn (B : E →ₗ[ℝ] E) (b : E) (ε : ℝ) : Prop := ∀ k, InjOn B b k → ∀ z ∈ krylov B b k, ε * ‖z‖ ≤ ‖B z‖

/-- the direction of the next step -/
noncomputable def dir (B : E →ₗ[ℝ] E) (k : ℕ) (s : St E) : E := s.v - s.epsln • s.w2 - delta B k s • s.w

theorem Inv.dir_norm (h : Inv B b k s vp up S Sp) (hB : ∀ u v, ⟪B u, v⟫ = ⟪u, B v⟫) (hb : s.beta ≠ 0) :
    ‖B (dir B k s)‖ = gam0 B k s := by
  have hq : ⟪ub s up, q B k s⟫ = 0 := h.orth' hB hb _ h.upS'
  have e1 : ‖B (dir B k s)‖ * ‖B (dir B k s)‖ = gbar B k s * gbar B k s + beta' B k s * beta' B k s := by
    rw [← real_inner_self_eq_norm_mul_norm, dir, h.Bd hb, inner_add_left, inner_add_right, inner_add_right, inner_smul_left,
      inner_smul_left, inner_smul_right, inner_smul_right, hq, real_inner_comm (ub s up) (q B k s), hq, beta'_sq]
    have : ⟪ub s up, ub s up⟫ = 1 := h.unit hb
    rw [this]; simp
  rw [gam0, ← e1, Real.sqrt_mul_self (norm_nonneg _)]

theorem Inv.dir_sub (h : Inv B b k s vp up S Sp) : s.v - dir B k s ∈ S := by
  have : s.v - dir B k s = s.epsln • s.w2 + delta B k s • s.w := by unfold dir; abel
  rw [this]
  exact Submodule.add_mem _ (Submodule.smul_mem _ _ h.w2S) (Submodule.smul_mem _ _ h.wS)

theorem Inv.dir_ge (h : Inv B b k s vp up S Sp) (hb : s.beta ≠ 0) : 1 ≤ ‖dir B k s‖ := by
  have hz' := h.vS _ (h.dir_sub)
  generalize hd : s.v - dir B k s = d at hz'
  have : dir B k s = s.v - d := by rw [← hd]; abel
  rw [this]
  have h3 : ‖s.v - d‖ * ‖s.v - d‖ = 1 + ‖d‖ * ‖d‖ := by
    rw [← real_inner_self_eq_norm_mul_norm, inner_sub_left, inner_sub_right, inner_sub_right, h.vv hb, hz',
      real_inner_comm, hz', real_inner_self_eq_norm_mul_norm]; ring
  nlinarith [norm_nonneg (s.v - d), norm_nonneg d, mul_self_nonneg ‖d‖]

theorem Inv.v_mem (h : Inv B b k s vp up S Sp) (hb : s.beta ≠ 0) : s.v ∈ krylov B b (k+1) := by
  rw [← h.kry_succ hb]; exact Submodule.mem_sup_right (Submodule.mem_span_singleton_self _)

theorem Inv.S_le (h : Inv B b k s vp up S Sp) : S ≤ krylov B b (k+1) := by
  rw [h.kry]; exact krylov_mono B b (by omega)

theorem Inv.dir_mem (h : Inv B b k s vp up S Sp) (hb : s.beta ≠ 0) : dir B k s ∈ krylov B b (k+1) := by
  have := Submodule.sub_mem _ (h.v_mem hb) (h.S_le h.dir_sub)
  rwa [sub_sub_cancel] at this

/-- the image of the direction is orthogonal to the images of the old space -/
theorem Inv.dir_orth (h : Inv B b k s vp up S Sp) (hB : ∀ u v, ⟪B u, v⟫ = ⟪u, B v⟫) (hb : s.beta ≠ 0) {y : E} (hy : y ∈ S) :
    ⟪B (dir B k s), B y⟫ = 0 := by
  have h1 : ⟪ub s up, B y⟫ = 0 := h.minim y hy
  rw [dir, h.Bd hb, inner_add_left, inner_smul_left, h1, real_inner_comm, h.orth' hB hb _ (h.BS hb y hy)]
  simp

/-- a pivot other than zero keeps `B` injective -/
theorem Inv.inj_succ (h : Inv B b k s vp up S Sp) (hB : ∀ u v, ⟪B u, v⟫ = ⟪u, B v⟫) (hb : s.beta ≠ 0) (hi : InjOn B b k)
    (hg : gam0 B k s ≠ 0) : InjOn B b (k+1) := by
  intro z hz h0
  rw [← h.kry_succ hb] at hz
  obtain ⟨y, hy, c, hc, rfl⟩ := Submodule.mem_sup.1 hz
  obtain ⟨t, rfl⟩ := Submodule.mem_span_singleton.1 hc
  have hy' : y + t • (s.v - dir B k s) ∈ S := Submodule.add_mem _ hy (Submodule.smul_mem _ _ h.dir_sub)
  have e : y + t • s.v = (y + t • (s.v - dir B k s)) + t • dir B k s := by rw [smul_sub]; abel
  rw [e] at h0 ⊢
  generalize y + t • (s.v - dir B k s) = y' at hy' h0
  rw [map_add, map_smul] at h0
  have h1 := h.dir_orth hB hb hy'
  have h2 : ⟪B (dir B k s), B y' + t • B (dir B k s)⟫ = 0 := by rw [h0, inner_zero_right]
  rw [inner_add_right, h1, inner_smul_right, real_inner_self_eq_norm_mul_norm, h.dir_norm hB hb, zero_add] at h2
  have ht : t = 0 := by
    rcases mul_eq_zero.1 h2 with h | h
    · exact h
    · exact absurd (mul_self_eq_zero.1 h) hg
  rw [ht, zero_smul, add_zero] at h0
  rw [ht, zero_smul, add_zero]
  exact hi y' (h.kry ▸ hy') h0

/-- a pivot is zero, or not below the bound -/
theorem Inv.gam_low (h : Inv B b k s vp up S Sp) (hB : ∀ u v, ⟪B u, v⟫ = ⟪u, B v⟫) (hb : s.beta ≠ 0) (hi : InjOn B b k) {ε : ℝ}
    (hε : 0 ≤ ε) (hlow : LowOn B b ε) (hg : gam0 B k s ≠ 0) : ε ≤ gam0 B k s := by
  have h1 := hlow (k+1) (h.inj_succ hB hb hi hg) _ (h.dir_mem hb)
  rw [h.dir_norm hB hb] at h1
  nlinarith [h.dir_ge hb]

theorem gam0_zero (hg : gam0 B k s = 0) : gbar B k s = 0 ∧ beta' B k s = 0 := by
  have h := (Real.sqrt_eq_zero (add_nonneg (mul_self_nonneg _) (mul_self_nonneg _))).1 hg
  constructor <;> nlinarith [mul_self_nonneg (gbar B k s), mul_self_nonneg (beta' B k s)]

/-- no new Lanczos vector: the Krylov space is exhausted -/
theorem Inv.exhausted (h : Inv B b k s vp up S Sp) (hb : s.beta ≠ 0) (hq : beta' B k s = 0) : Exhausted B b (k+1) := by
  have hq0 : q B k s = 0 := by
    have : ⟪q B k s, q B k s⟫ = 0 := by rw [← beta'_sq, hq, mul_zero]
    exact inner_self_eq_zero.1 this
  have hvmem := h.v_mem hb
  have hBv : B s.v ∈ krylov B b (k+1) := by
    have := h.q_eq hb
    rw [hq0] at this
    have e : B s.v = alfa B k s • s.v + s.beta • vp := by
      rw [← sub_eq_zero, ← sub_sub]; exact this.symm
    rw [e]
    exact Submodule.add_mem _ (Submodule.smul_mem _ _ hvmem) (Submodule.smul_mem _ _ (h.S_le h.vpS))
  intro z hz
  rw [← h.kry_succ hb] at hz
  obtain ⟨y, hy, c, hc, rfl⟩ := Submodule.mem_sup.1 hz
  obtain ⟨t, rfl⟩ := Submodule.mem_span_singleton.1 hc
  rw [map_add, map_smul]
  refine Submodule.add_mem _ ?_ (Submodule.smul_mem _ _ hBv)
  rw [← h.kry_succ hb]
  exact h.BS hb y hy

/-- a new Lanczos vector: the Krylov space is not exhausted -/
theorem Inv.not_exhausted (h : Inv B b k s vp up S Sp) (hk : k ≠ 0) (hb : s.beta ≠ 0) : ¬ Exhausted B b k := by
  intro he
  have hb0 : b ∈ krylov B b k := Submodule.subset_span ⟨0, by omega, by simp⟩
  have hle : krylov B b (k+1) ≤ krylov B b k := krylov_le hb0 he _
  have := h.orth s.r2 (by rw [h.kry]; exact hle h.kry2)
  rw [← h.bsq] at this
  exact hb (mul_self_eq_zero.1 this)

/-- with pivot zero the iterate is still optimal in the next Krylov space -/
theorem Inv.minimal_succ (h : Inv B b k s vp up S Sp) (hB : ∀ u v, ⟪B u, v⟫ = ⟪u, B v⟫) (hb : s.beta ≠ 0) (hg : gam0 B k s = 0) :
    s.x ∈ krylov B b (k+1) ∧ ∀ z ∈ krylov B b (k+1), ‖b - B s.x‖ ≤ ‖b - B z‖ := by
  refine ⟨h.S_le h.xS, fun z hz => ?_⟩
  rw [← h.kry_succ hb] at hz
  obtain ⟨y, hy, c, hc, rfl⟩ := Submodule.mem_sup.1 hz
  obtain ⟨t, rfl⟩ := Submodule.mem_span_singleton.1 hc
  have hd : B (dir B k s) = 0 := norm_eq_zero.1 (by rw [h.dir_norm hB hb, hg])
  have e : B (y + t • s.v) = B (y + t • (s.v - dir B k s)) := by
    rw [map_add, map_smul, map_add, map_smul, map_sub, hd, sub_zero]
  rw [e]
  refine h.minimal.2 _ ?_
  rw [← h.kry]
  exact Submodule.add_mem _ hy (Submodule.smul_mem _ _ h.dir_sub)

/-- the optimal vector of an exhausted Krylov space is a least-squares solution -/
theorem least_squares (hB : ∀ u v, ⟪B u, v⟫ = ⟪u, B v⟫) {x : E} (hk : k ≠ 0) (he : Exhausted B b k) (hx : x ∈ krylov B b k)
    (hm : ∀ z ∈ krylov B b k, ‖b - B x‖ ≤ ‖b - B z‖) : B (b - B x) = 0 := by
  have hbk : b ∈ krylov B b k := Submodule.subset_span ⟨0, by omega, by simp⟩
  have hr : b - B x ∈ krylov B b k := Submodule.sub_mem _ hbk (he x hx)
  have hBr := he _ hr
  generalize hrr : b - B x = r at hr hBr hm
  have key : ∀ t : ℝ, ‖r‖ * ‖r‖ ≤ ‖r‖ * ‖r‖ - 2 * t * (‖B r‖ * ‖B r‖) + t * t * (‖B (B r)‖ * ‖B (B r)‖) := by
    intro t
    have h1 := hm (x + t • B r) (Submodule.add_mem _ hx (Submodule.smul_mem _ _ hBr))
    have e : b - B (x + t • B r) = r - t • B (B r) := by rw [map_add, map_smul, ← hrr]; abel
    rw [e] at h1
    have h2 : ‖r - t • B (B r)‖ * ‖r - t • B (B r)‖ = ‖r‖ * ‖r‖ - 2 * t * (‖B r‖ * ‖B r‖) + t * t * (‖B (B r)‖ * ‖B (B r)‖) := by
      have e3 : ⟪r, B (B r)⟫ = ‖B r‖ * ‖B r‖ := by rw [← hB, real_inner_self_eq_norm_mul_norm]
      rw [← real_inner_self_eq_norm_mul_norm, inner_sub_left, inner_sub_right, inner_sub_right, inner_smul_left, inner_smul_left,
        inner_smul_right, inner_smul_right, real_inner_comm, e3, real_inner_self_eq_norm_mul_norm, real_inner_self_eq_norm_mul_norm]
      rw [real_inner_comm, e3]
      simp
      ring
    rw [← h2]
    exact mul_self_le_mul_self (norm_nonneg _) h1
  by_contra hne
  have hp : 0 < ‖B r‖ * ‖B r‖ := mul_self_pos.2 (norm_ne_zero_iff.2 hne)
  have hc : 0 ≤ ‖B (B r)‖ * ‖B (B r)‖ := mul_self_nonneg _
  have h1 := key (‖B r‖ * ‖B r‖ / (‖B (B r)‖ * ‖B (B r)‖ + 1))
  generalize ‖B r‖ * ‖B r‖ = a at hp h1
  generalize ‖B (B r)‖ * ‖B (B r)‖ = c at hc h1
  have ht : 0 < a / (c + 1) := div_pos hp (by linarith)
  have hta : a / (c + 1) * (c + 1) = a := div_mul_cancel₀ _ (by linarith)
  generalize a / (c + 1) = t at ht hta h1
  nlinarith

/-- small bounds exist in finite dimension -/
theorem exists_lowOn [FiniteDimensional ℝ E] (B : E →ₗ[ℝ] E) (b : E) : ∃ ε₀ : ℝ, 0 < ε₀ ∧ ∀ ε, ε ≤ ε₀ → LowOn B b ε := by
  have one : ∀ k, ∃ ε₀ : ℝ, 0 < ε₀ ∧ (InjOn B b k → ∀ z ∈ krylov B b k, ε₀ * ‖z‖ ≤ ‖B z‖) := by
    intro k
    by_cases hi : InjOn B b k
    · have hker : LinearMap.ker (B.domRestrict (krylov B b k)) = ⊥ := by
        rw [LinearMap.ker_eq_bot']
        rintro ⟨z, hz⟩ h0
        exact Subtype.ext (hi z hz h0)
      obtain ⟨K, hK, hanti⟩ := LinearMap.exists_antilipschitzWith _ hker
      refine ⟨(K : ℝ)⁻¹, inv_pos.2 hK, fun _ z hz => ?_⟩
      have h1 := hanti.le_mul_dist ⟨z, hz⟩ 0
      rw [dist_zero_right, map_zero, dist_zero_right] at h1
      have h2 : ‖z‖ ≤ K * ‖B z‖ := h1
      rw [inv_mul_le_iff₀ (NNReal.coe_pos.2 hK)]
      exact h2
    · exact ⟨1, one_pos, fun h => absurd h hi⟩
  have upto : ∀ n, ∃ ε₀ : ℝ, 0 < ε₀ ∧ ∀ k ≤ n, InjOn B b k → ∀ z ∈ krylov B b k, ε₀ * ‖z‖ ≤ ‖B z‖ := by
    intro n
    induction n with
    | zero =>
      obtain ⟨ε₀, h0, h⟩ := one 0
      exact ⟨ε₀, h0, fun k hk => by obtain rfl : k = 0 := by omega
                                    exact h⟩
    | succ n ih =>
      obtain ⟨ε₀, h0, h⟩ := ih
      obtain ⟨ε₁, h1, h'⟩ := one (n+1)
      refine ⟨min ε₀ ε₁, lt_min h0 h1, fun k hk hi z hz => ?_⟩
      rcases Nat.lt_or_ge k (n+1) with hlt | hge
      · exact (mul_le_mul_of_nonneg_right (min_le_left _ _) (norm_nonneg _)).trans (h k (by omega) hi z hz)
      · obtain rfl : k = n + 1 := by omega
        exact (mul_le_mul_of_nonneg_right (min_le_right _ _) (norm_nonneg _)).trans (h' hi z hz)
  obtain ⟨N, hN⟩ := monotone_stabilizes_iff_noetherian.2 (inferInstance : IsNoetherian ℝ E)
    ⟨krylov B b, fun _ _ h => krylov_mono B b h⟩
  obtain ⟨ε₀, h0, h⟩ := upto N
  refine ⟨ε₀, h0, fun ε hε k hi z hz => (mul_le_mul_of_nonneg_right hε (norm_nonneg _)).trans ?_⟩
  rcases Nat.le_total k N with hk | hk
  · exact h k hk hi z hz
  · have e : krylov B b N = krylov B b k := hN k hk
    refine h N le_rfl (fun z hz => hi z (e ▸ hz)) z (e ▸ hz)

end Verif.Solver.MinresMath

namespace Verif.Solver
open Scalar Vect
open scoped RealInnerProductSpace
open MinresMath (krylov St Exhausted InjOn LowOn)

variable {E : Type} [NormedAddCommGroup E] [InnerProductSpace ℝ E]

/-- the state after the iteration that finds the Krylov space exhausted -/
structure MClip (q : MinresProblem E) (s : MinresLoop Fl (Vec E)) : Prop where
  pos : s.itn ≠ 0
  dim : FiniteDimensional ℝ E → s.itn ≤ Module.finrank ℝ E
  sol : ∃ x, s.x = .fin x ∧ x ∈ krylov q.B q.b (s.itn - 1) ∧ ∀ z ∈ krylov q.B q.b s.itn, ‖q.b - q.B x‖ ≤ ‖q.b - q.B z‖
  exh : Exhausted q.B q.b s.itn
  rnorm : s.rnorm = .fin 0
  beta : s.beta = .fin 0
  istop : s.istop = -1 ∨ 0 < s.istop ∧ (0 ≤ q.rtol → s.istop = 1 ∨ s.istop = 10)
  broke : s.broke = true ↔ 0 < s.istop

theorem MRel.unique {q : MinresProblem E} {k k' : ℕ} {s : MinresLoop Fl (Vec E)} {t t' : St E} (h : MRel q k s t) (h' : MRel q k' s t') :
    k = k' ∧ t = t' := by
  have e : ∀ {a c : ℝ}, Fl.fin a = Fl.fin c → a = c := fun h => by cases h; rfl
  have f : ∀ {a c : E}, Vec.fin a = Vec.fin c → a = c := fun h => by cases h; rfl
  refine ⟨h.itn.symm.trans h'.itn, ?_⟩
  cases t; cases t'
  simp only [St.mk.injEq]
  exact ⟨f (h.x.symm.trans h'.x), f (h.w.symm.trans h'.w), f (h.w2.symm.trans h'.w2), f (h.r1.symm.trans h'.r1),
    f (h.r2.symm.trans h'.r2), e (h.oldb.symm.trans h'.oldb), e (h.beta.symm.trans h'.beta), e (h.dbar.symm.trans h'.dbar),
    e (h.epsln.symm.trans h'.epsln), e (h.phibar.symm.trans h'.phibar), e (h.cs.symm.trans h'.cs), e (h.sn.symm.trans h'.sn)⟩

/-- the residual is not zero, so there is a Lanczos vector -/
theorem MinresMath.Inv.beta_ne {B : E →ₗ[ℝ] E} {b : E} {k : ℕ} {t : St E} {vp up : E} {S Sp : Submodule ℝ E}
    (h : MinresMath.Inv B b k t vp up S Sp) (hb : b ∉ LinearMap.range B) : t.phibar ≠ 0 ∧ t.beta ≠ 0 := by
  have h1 : t.phibar ≠ 0 := by
    intro h0
    have := h.resid
    rw [h0, norm_eq_zero, sub_eq_zero] at this
    exact hb ⟨_, this.symm⟩
  exact ⟨h1, fun h0 => h1 (h.snb h0).2⟩

/-- the step with pivot zero -/
theorem minresStep_clip (q : MinresProblem E) (hA : ∀ u v, ⟪q.A u, v⟫ = ⟪u, q.A v⟫) (ε : ℝ) (hε : 0 < ε) (lim : ℕ) (β1 : Fl)
    {k : ℕ} {s : MinresLoop Fl (Vec E)} {t : St E} {vp up : E} {S Sp : Submodule ℝ E} (hr : MRel q k s t)
    (hi : MinresMath.Inv q.B q.b k t vp up S Sp) (hb : t.beta ≠ 0) (hg : MinresMath.gam0 q.B k t = 0)
    (hst : s.istop = 0 ∨ s.istop = -1 ∧ k ≠ 0) :
    MClip q (minresStep (Vec.op q.A) (.fin ε) q.kw lim β1 s) := by
  have hB := q.B_symm hA
  obtain ⟨hgb, hbe⟩ := MinresMath.gam0_zero hg
  obtain ⟨hr', hrn', -, -, hbr', hm', hz'⟩ := minresStep_exact q ε lim β1 hr hb (fun h => (hi.pos h).1)
    (γ := ε) (by rw [hg]; exact max_eq_right hε.le) hε
  generalize minresStep (Vec.op q.A) (.fin ε) q.kw lim β1 s = s' at *
  have hph : (MinresMath.step q.B k ε t).phibar = 0 := by simp [MinresMath.step, hbe]
  have hx : (MinresMath.step q.B k ε t).x = t.x := by simp [MinresMath.step, hgb]
  refine ⟨by rw [hr'.itn]; omega, fun hf => ?_, ⟨t.x, by rw [hr'.x, hx], ?_⟩, ?_, by rw [hrn', hph], ?_, ?_, hbr'⟩
  · rw [hr'.itn, ← MinresMath.finrank_sup_span hi hb]
    exact Submodule.finrank_le _
  · rw [hr'.itn]; exact ⟨hi.minimal.1, (hi.minimal_succ hB hb hg).2⟩
  · rw [hr'.itn]; exact hi.exhausted hb hbe
  · rw [hr'.beta]; simp [MinresMath.step, hbe]
  · rcases hst with h | ⟨h, hk⟩
    · exact hz' hph h
    · rcases hm' h hk with h | h
      · exact Or.inl h
      · exact Or.inr ⟨by omega, fun _ => Or.inr h⟩

theorem minresStep_least (q : MinresProblem E) (hA : ∀ u v, ⟪q.A u, v⟫ = ⟪u, q.A v⟫) (ε : ℝ) (hε : 0 < ε)
    (hlow : LowOn q.B q.b ε) (hb : q.b ∉ LinearMap.range q.B) (old : MinresObj Fl (Vec E)) (lim : ℕ) (β1 : Fl)
    (s : MinresLoop Fl (Vec E)) (hs : (MGood q old s ∧ InjOn q.B q.b s.itn) ∨ MClip q s ∨ MBad s) (hc : minresCont lim s = true) :
    (MGood q old (minresStep (Vec.op q.A) (.fin ε) q.kw lim β1 s) ∧
        InjOn q.B q.b (minresStep (Vec.op q.A) (.fin ε) q.kw lim β1 s).itn) ∨
      MClip q (minresStep (Vec.op q.A) (.fin ε) q.kw lim β1 s) ∨ MBad (minresStep (Vec.op q.A) (.fin ε) q.kw lim β1 s) := by
  have hB := q.B_symm hA
  have hc' := hc
  simp only [minresCont, Bool.and_eq_true, Bool.not_eq_true', decide_eq_true_eq] at hc
  rcases hs with ⟨hs, hinj⟩ | hs | hs
  · obtain ⟨k, t, vp, up, S, Sp, xs, hr, hi, -, -, -, -, -, -, -, hk0⟩ := hs.ex
    obtain ⟨-, hbe⟩ := hi.beta_ne hb
    rw [hr.itn] at hinj
    by_cases hg : MinresMath.gam0 q.B k t = 0
    · right; left
      refine minresStep_clip q hA ε hε lim β1 hr hi hbe hg ?_
      have h1 : ¬ 0 < s.istop := by rw [← hs.broke, hc.1]; simp
      have h2 := hs.status
      rcases Int.lt_or_le s.istop 0 with h | h
      · exact Or.inr ⟨by omega, hk0 (by omega)⟩
      · exact Or.inl (by omega)
    · have hst := minresStep_good q hA ε hε old lim β1 s ?_ (Or.inl hs) hc'
      · rcases hst with h | h
        · refine Or.inl ⟨h, ?_⟩
          rw [minresStep_itn, hr.itn]
          exact hi.inj_succ hB hbe hinj hg
        · exact Or.inr (Or.inr h)
      · intro k' t' vp' up' S' Sp' hr' hi' _
        obtain ⟨rfl, rfl⟩ := hr.unique hr'
        exact hi.gam_low hB hbe hinj hε.le hlow hg
  · right; right
    have him : s.istop = -1 := by
      rcases hs.istop with h | ⟨h, -⟩
      · exact h
      · rw [← hs.broke, hc.1] at h; cases h
    refine minresStep_nan q.A ε q.kw rfl lim β1 s ?_ him hs.pos
    have : (lit 1 / s.beta : Fl) = .nan := by
      rw [hs.beta]; change Fl.div _ _ = _; simp [Fl.div]
    rw [this, Vec.nan_smul]
  · right; right
    exact minresStep_nan q.A ε q.kw rfl lim β1 s (by rw [hs.y, Vec.smul_nan]) hs.istop hs.itn

/-- a right-hand side outside the range that is not in the kernel is not close to an eigenvector -/
theorem exists_not_eigen (B : E →ₗ[ℝ] E) (b : E) (hb : b ∉ LinearMap.range B) (hBb : B b ≠ 0) :
    ∃ ε₀ : ℝ, 0 < ε₀ ∧ ∀ ε, ε ≤ ε₀ → ∀ l : ℝ, 10 * ε * (‖b‖ * ‖b‖) < ‖B b - l • b‖ := by
  have hb0 : b ≠ 0 := fun h => hb (h ▸ Submodule.zero_mem _)
  have hn : 0 < ‖b‖ * ‖b‖ := mul_self_pos.2 (norm_ne_zero_iff.2 hb0)
  obtain ⟨m, hm⟩ : ∃ m : ℝ, m = ⟪b, B b⟫ / (‖b‖ * ‖b‖) := ⟨_, rfl⟩
  have hd : B b - m • b ≠ 0 := by
    intro h
    rw [sub_eq_zero] at h
    have hm0 : m ≠ 0 := by
      rintro rfl
      exact hBb (by rw [h, zero_smul])
    exact hb ⟨m⁻¹ • b, by rw [map_smul, h, smul_smul, inv_mul_cancel₀ hm0, one_smul]⟩
  have ho : ⟪B b - m • b, b⟫ = 0 := by
    rw [inner_sub_left, inner_smul_left, real_inner_self_eq_norm_mul_norm, real_inner_comm, hm]
    simp only [conj_trivial]
    rw [div_mul_cancel₀ _ hn.ne', sub_self]
  have hge : ∀ l : ℝ, ‖B b - m • b‖ ≤ ‖B b - l • b‖ := by
    intro l
    have e : B b - l • b = (B b - m • b) + (m - l) • b := by rw [sub_smul]; abel
    have h2 : ‖B b - l • b‖ * ‖B b - l • b‖ = ‖B b - m • b‖ * ‖B b - m • b‖ + (m - l) * (m - l) * (‖b‖ * ‖b‖) := by
      rw [e, ← real_inner_self_eq_norm_mul_norm, inner_add_left, inner_add_right, inner_add_right, inner_smul_right, inner_smul_left,
        inner_smul_left, inner_smul_right, ho, real_inner_comm (B b - m • b) b, ho, real_inner_self_eq_norm_mul_norm,
        real_inner_self_eq_norm_mul_norm]
      simp
      ring
    have h3 : 0 ≤ (m - l) * (m - l) * (‖b‖ * ‖b‖) := mul_nonneg (mul_self_nonneg _) hn.le
    by_contra hlt
    nlinarith [norm_nonneg (B b - m • b), norm_nonneg (B b - l • b)]
  have hdp : 0 < ‖B b - m • b‖ := norm_pos_iff.2 hd
  refine ⟨‖B b - m • b‖ / (20 * (‖b‖ * ‖b‖)), by positivity, fun ε hε l => lt_of_lt_of_le ?_ (hge l)⟩
  rw [le_div_iff₀ (by positivity)] at hε
  linarith

theorem pymin_fin (a c : ℝ) : pymin (Fl.fin a) (Fl.fin c) = .fin (min a c) := by
  unfold pymin
  by_cases h : c < a
  · rw [if_pos (by rw [Fl.fin_lt]; exact h), min_eq_right h.le]
  · rw [if_neg (by rw [Fl.fin_lt]; exact h), min_eq_left (not_lt.1 h)]

/-- the stopping tests with `rtol = 0` -/
theorem minresTests_goon {ε β T1 T2 AC EX : ℝ} {lim itn : ℕ} (h1 : 0 < T1) (h2 : 0 < T2) (hl : itn < lim) (hε : 0 < ε)
    (hA : AC < 1 / 10 / ε) (hX : EX < β) :
    minresTests (Fl.fin ε) (Fl.fin 0) (Fl.fin β) lim itn (Fl.fin T1) (Fl.fin T2) (Fl.fin AC) (Fl.fin EX) 0 = 0 := by
  have t2 : le (lit 1 + Fl.fin T2) (lit 1) = false := by
    rw [← Bool.not_eq_true, Fl.lit_eq, Fl.fin_add, Fl.fin_le]; push_cast; linarith
  have t1 : le (lit 1 + Fl.fin T1) (lit 1) = false := by
    rw [← Bool.not_eq_true, Fl.lit_eq, Fl.fin_add, Fl.fin_le]; push_cast; linarith
  have t4 : ge (Fl.fin AC) (lit (1/10) / Fl.fin ε) = false := by
    rw [← Bool.not_eq_true, ge, Fl.lit_eq, Fl.fin_div _ hε.ne', Fl.fin_le]; push_cast; linarith
  have t3 : ge (Fl.fin EX) (Fl.fin β) = false := by
    rw [← Bool.not_eq_true, ge, Fl.fin_le]; linarith
  have t2' : le (Fl.fin T2) (Fl.fin 0) = false := by
    rw [← Bool.not_eq_true, Fl.fin_le]; linarith
  have t1' : le (Fl.fin T1) (Fl.fin 0) = false := by
    rw [← Bool.not_eq_true, Fl.fin_le]; linarith
  simp only [minresTests, t1, t2, t3, t4, t1', t2', Bool.false_eq_true, if_false, if_true]
  rw [if_neg (by omega)]

/-- an iteration with a pivot that is not zero: for every small machine precision the outcome is the same, and the loop goes on -/
theorem minresStep_small (q : MinresProblem E) (hrt : q.rtol = 0) (lim : ℕ) (β : ℝ) (hβ : 0 < β) {k : ℕ}
    {s : MinresLoop Fl (Vec E)} {t : St E} (hr : MRel q k s t) (hb : t.beta ≠ 0) (ho : k ≠ 0 → t.oldb ≠ 0) (hw : k + 1 ≤ q.window)
    (hlim : k + 1 < lim) (h0 : s.istop = 0) (hγ : 0 < MinresMath.gam0 q.B k t) (hbe : 0 < MinresMath.beta' q.B k t)
    (hph : 0 < t.phibar) (hroot : MinresMath.gbar q.B k t ≠ 0 ∨ t.cs ≠ 0)
    (hgm : if k = 0 then MinresMath.alfa q.B k t ≠ 0 else ∃ a c, s.gmax = .fin a ∧ s.gmin = .fin c ∧ 0 < c) :
    ∃ ε₀ : ℝ, 0 < ε₀ ∧ ε₀ ≤ MinresMath.gam0 q.B k t ∧ ∃ s', (∀ ε, 0 < ε → ε ≤ ε₀ → minresStep (Vec.op q.A) (.fin ε) q.kw lim (.fin β) s = s') ∧
      s'.istop = 0 ∧ s'.broke = false ∧ ∃ a c, s'.gmax = .fin a ∧ s'.gmin = .fin c ∧ 0 < c := by
  have hL := minresLanczos_exact q hr hb ho
  have hlt : lt (Fl.fin ⟪MinresMath.q q.B k t, MinresMath.q q.B k t⟫) (lit 0) = false := by
    rw [← Bool.not_eq_true, Fl.lit_eq, Fl.fin_lt, not_lt]; simpa using real_inner_self_nonneg
  have hsq : sqrt (Fl.fin ⟪MinresMath.q q.B k t, MinresMath.q q.B k t⟫) = .fin (MinresMath.beta' q.B k t) :=
    Fl.fin_sqrt real_inner_self_nonneg
  have hgb : s.sn * s.dbar - s.cs * Fl.fin (MinresMath.alfa q.B k t) = .fin (MinresMath.gbar q.B k t) := by
    rw [hr.sn, hr.dbar, hr.cs, Fl.fin_mul, Fl.fin_mul, Fl.fin_sub]; rfl
  have hde : s.cs * s.dbar + s.sn * Fl.fin (MinresMath.alfa q.B k t) = .fin (MinresMath.delta q.B k t) := by
    rw [hr.sn, hr.dbar, hr.cs, Fl.fin_mul, Fl.fin_mul, Fl.fin_add]; rfl
  obtain ⟨γ, hγd⟩ : ∃ γ, γ = MinresMath.gam0 q.B k t := ⟨_, rfl⟩
  rw [← hγd] at hγ
  have hga : ∀ ε, ε ≤ γ → pymax (normof2 (Fl.fin (MinresMath.gbar q.B k t)) (Fl.fin (MinresMath.beta' q.B k t))) (Fl.fin ε)
      = .fin γ := by
    intro ε h
    rw [normof2_fin, Fl.fin_pymax, max_eq_left]
    · rw [hγd]; rfl
    · rw [hγd] at h; exact h
  obtain ⟨τ, hτ0, hτ⟩ := hr.tn
  obtain ⟨η, hη0, hη1, hη⟩ := hr.yn
  obtain ⟨ρ1, hρ10, hρ1⟩ := hr.rh1
  have hz : s.rhs1 / Fl.fin γ = .fin (ρ1 / γ) := by rw [hρ1, Fl.fin_div _ hγ.ne']
  have hdb : -s.cs * Fl.fin (MinresMath.beta' q.B k t) = .fin (-t.cs * MinresMath.beta' q.B k t) := by
    rw [hr.cs, Fl.fin_neg, Fl.fin_mul]
  obtain ⟨T, hT, hTe⟩ : ∃ T : ℝ, 0 < T ∧ s.tnorm2 + Fl.fin (MinresMath.alfa q.B k t * MinresMath.alfa q.B k t) + s.beta * s.beta +
      Fl.fin (MinresMath.beta' q.B k t * MinresMath.beta' q.B k t) = .fin T := by
    refine ⟨τ + MinresMath.alfa q.B k t * MinresMath.alfa q.B k t + t.beta * t.beta +
        MinresMath.beta' q.B k t * MinresMath.beta' q.B k t, ?_, by rw [hτ, hr.beta]; simp only [Fl.fin_mul, Fl.fin_add]⟩
    have := mul_self_pos.2 hb
    nlinarith [mul_self_nonneg (MinresMath.alfa q.B k t), mul_self_nonneg (MinresMath.beta' q.B k t)]
  obtain ⟨Y, hY, hYe⟩ : ∃ Y : ℝ, 0 < Y ∧ Fl.fin (ρ1 / γ * (ρ1 / γ)) + s.ynorm2 = .fin Y := by
    refine ⟨ρ1 / γ * (ρ1 / γ) + η, ?_, by rw [hη, Fl.fin_add]⟩
    by_cases hk : k = 0
    · have := mul_self_pos.2 (div_ne_zero (hρ10 hk) hγ.ne'); linarith
    · have := hη1 hk; nlinarith [mul_self_nonneg (ρ1 / γ)]
  obtain ⟨a, c, hc, hga', hgc'⟩ : ∃ a c : ℝ, 0 < c ∧
      pymax (if k + 1 = 1 then Scalar.abs (Fl.fin (MinresMath.alfa q.B k t)) else s.gmax) (Fl.fin γ) = .fin a ∧
      pymin (if k + 1 = 1 then Scalar.abs (Fl.fin (MinresMath.alfa q.B k t)) else s.gmin) (Fl.fin γ) = .fin c := by
    by_cases hk : k = 0
    · rw [if_pos hk] at hgm
      rw [if_pos (by omega), if_pos (by omega), Fl.fin_abs, Fl.fin_pymax, pymin_fin]
      exact ⟨_, _, lt_min (abs_pos.2 hgm) hγ, rfl, rfl⟩
    · rw [if_neg hk] at hgm
      obtain ⟨a, c, h1, h2, h3⟩ := hgm
      rw [if_neg (by omega), if_neg (by omega), h1, h2, Fl.fin_pymax, pymin_fin]
      exact ⟨_, _, lt_min h3 hγ, rfl, rfl⟩
  obtain ⟨R, hR, hRe⟩ : ∃ R : ℝ, 0 < R ∧ normof2 (Fl.fin (MinresMath.gbar q.B k t)) (Fl.fin (-t.cs * MinresMath.beta' q.B k t)) = .fin R := by
    refine ⟨_, Real.sqrt_pos.2 ?_, normof2_fin _ _⟩
    rcases hroot with h | h
    · have := mul_self_pos.2 h
      nlinarith [mul_self_nonneg (-t.cs * MinresMath.beta' q.B k t)]
    · have := mul_self_pos.2 (mul_ne_zero (neg_ne_zero.2 h) hbe.ne')
      nlinarith [mul_self_nonneg (MinresMath.gbar q.B k t)]
  have hphr : s.phibar = .fin t.phibar := hr.phibar
  have hm := mul_pos (Real.sqrt_pos.2 hT) (Real.sqrt_pos.2 hY)
  have hP : 0 < MinresMath.beta' q.B k t / γ * t.phibar := mul_pos (div_pos hbe hγ) hph
  have hrt' : q.kw.rtol = Fl.fin 0 := by rw [← hrt]; rfl
  -- the bound
  obtain ⟨e1, he1, hE1⟩ : ∃ e : ℝ, 0 < e ∧ ∀ ε, ε ≤ e → 10 * ε < MinresMath.beta' q.B k t / β := by
    refine ⟨MinresMath.beta' q.B k t / β / 20, by positivity, fun ε h => ?_⟩
    have : 0 < MinresMath.beta' q.B k t / β := div_pos hbe hβ
    linarith
  obtain ⟨e2, he2, hE2⟩ : ∃ e : ℝ, 0 < e ∧ ∀ ε, 0 < ε → ε ≤ e → a / c < 1 / 10 / ε := by
    refine ⟨1 / (20 * (|a / c| + 1)), by positivity, fun ε h0 h => ?_⟩
    rw [le_div_iff₀ (by positivity)] at h
    rw [lt_div_iff₀ h0]
    have := le_abs_self (a / c)
    nlinarith
  obtain ⟨e3, he3, hE3⟩ : ∃ e : ℝ, 0 < e ∧ ∀ ε, ε ≤ e → Real.sqrt T * Real.sqrt Y * ε < β := by
    refine ⟨β / (2 * (Real.sqrt T * Real.sqrt Y)), by positivity, fun ε h => ?_⟩
    rw [le_div_iff₀ (by positivity)] at h
    linarith
  refine ⟨min γ (min e1 (min e2 e3)), lt_min hγ (lt_min he1 (lt_min he2 he3)), by rw [← hγd]; exact min_le_left _ _,
    minresStep (Vec.op q.A) (.fin (min γ (min e1 (min e2 e3)))) q.kw lim (.fin β) s, ?_⟩
  have key : ∀ ε, 0 < ε → ε ≤ min γ (min e1 (min e2 e3)) →
      minresStep (Vec.op q.A) (.fin ε) q.kw lim (.fin β) s =
        { minresStep (Vec.op q.A) (.fin γ) q.kw lim (.fin β) s with istop := 0, broke := false } ∧
      ∃ a c, (minresStep (Vec.op q.A) (.fin ε) q.kw lim (.fin β) s).gmax = .fin a ∧
        (minresStep (Vec.op q.A) (.fin ε) q.kw lim (.fin β) s).gmin = .fin c ∧ 0 < c := by
    intro ε hε h
    have h1 : ε ≤ γ := h.trans (min_le_left _ _)
    have h2 := hE1 ε (h.trans ((min_le_right _ _).trans (min_le_left _ _)))
    have h3 := hE2 ε hε (h.trans ((min_le_right _ _).trans ((min_le_right _ _).trans (min_le_left _ _))))
    have h4 := hE3 ε (h.trans ((min_le_right _ _).trans ((min_le_right _ _).trans (min_le_right _ _))))
    have hb2 : minresBeta2 (Fl.fin ε) (Fl.fin β) (Fl.fin (MinresMath.beta' q.B k t)) (k + 1) 0 = 0 := by
      unfold minresBeta2
      rw [if_neg]
      rintro ⟨-, h⟩
      rw [Fl.fin_div _ hβ.ne', Fl.lit_eq, Fl.fin_mul, Fl.fin_le] at h
      push_cast at h
      linarith
    have hd : ∀ (u v : Fl), minresDirErr q.kw.etol u v q.kw.window (k + 1) 0 = 0 := by
      intro u v
      unfold minresDirErr
      rw [if_neg]
      rintro ⟨h, -⟩
      exact absurd h (by change ¬ (k + 1 > q.window); omega)
    have ht := minresTests_goon (ε := ε) (β := β) (T1 := MinresMath.beta' q.B k t / γ * t.phibar / (Real.sqrt T * Real.sqrt Y))
      (T2 := R / Real.sqrt T) (AC := a / c) (EX := Real.sqrt T * Real.sqrt Y * ε) (lim := lim) (itn := k + 1) (div_pos hP hm)
      (div_pos hR (Real.sqrt_pos.2 hT)) hlim hε h3 h4
    unfold minresStep
    rw [hr.itn]
    simp only [hL, hlt, Bool.false_eq_true, if_false, hsq, hgb, hde, hdb, hga ε h1, hga γ le_rfl, hga', hgc', hRe, Fl.fin_div _ hγ.ne', hphr,
      Fl.fin_mul, hz, hTe, hYe, Fl.fin_sqrt hT.le, Fl.fin_sqrt hY.le, Fl.fin_div _ hm.ne', Fl.fin_div _ (Real.sqrt_pos.2 hT).ne',
      Fl.fin_div _ hc.ne', h0, hb2, hd, hrt', ht]
    exact ⟨by simp, a, c, rfl, rfl, hc⟩
  have hself := key _ (lt_min hγ (lt_min he1 (lt_min he2 he3))) le_rfl
  refine ⟨fun ε h1 h2 => by rw [(key ε h1 h2).1, hself.1], ?_, ?_, hself.2⟩
  · rw [hself.1]
  · rw [hself.1]

end Verif.Solver
