import Verif.Solver.MinresProps
import Verif.Solver.MinresMath
import Verif.Solver.CGExact

/-!
# Properties of MINRES in exact arithmetic: C35 and the violation of C34
-/

namespace Verif.Solver
open Scalar Vect
open scoped RealInnerProductSpace
open MinresMath (krylov St)

variable {E : Type} [NormedAddCommGroup E] [InnerProductSpace ℝ E]

/-- A MINRES problem without preconditioner and with finite data, whose symmetry checks succeed. -/
structure MinresProblem (E : Type) [NormedAddCommGroup E] [InnerProductSpace ℝ E] where
  A : E →ₗ[ℝ] E
  b : E
  shift : ℝ
  check : Bool
  itnlim : Option Nat
  rtol : ℝ
  etol : ℝ
  storeIterates : Bool
  window : Nat

/-- the shifted operator `A - shift I` -/
noncomputable def MinresProblem.B (q : MinresProblem E) : E →ₗ[ℝ] E := q.A - q.shift • LinearMap.id

/-- the keywords of a problem -/
noncomputable def MinresProblem.kw (q : MinresProblem E) : MinresKw Fl (Vec E) :=
  { shift := .fin q.shift, check := q.check, itnlim := q.itnlim, rtol := .fin q.rtol, etol := .fin q.etol,
    storeIterates := q.storeIterates, window := q.window }

/-- the loop variables carry the finite values of `t` after `k` iterations -/
structure MRel (q : MinresProblem E) (k : ℕ) (s : MinresLoop Fl (Vec E)) (t : St E) : Prop where
  itn : s.itn = k
  x : s.x = .fin t.x
  y : s.y = .fin t.r2
  r1 : s.r1 = .fin t.r1
  r2 : s.r2 = .fin t.r2
  w : s.w = .fin t.w
  w2 : s.w2 = .fin t.w2
  oldb : s.oldb = .fin t.oldb
  beta : s.beta = .fin t.beta
  dbar : s.dbar = .fin t.dbar
  epsln : s.epsln = .fin t.epsln
  phibar : s.phibar = .fin t.phibar
  cs : s.cs = .fin t.cs
  sn : s.sn = .fin t.sn
  tn : ∃ τ : ℝ, 0 ≤ τ ∧ s.tnorm2 = .fin τ
  yn : ∃ η : ℝ, 0 ≤ η ∧ (k ≠ 0 → 0 < η) ∧ s.ynorm2 = .fin η
  rh1 : ∃ ρ : ℝ, (k = 0 → ρ ≠ 0) ∧ s.rhs1 = .fin ρ
  rh2 : ∃ ρ : ℝ, s.rhs2 = .fin ρ

theorem normof2_fin (a b : ℝ) : normof2 (Fl.fin a) (Fl.fin b) = .fin (Real.sqrt (a * a + b * b)) := by
  unfold normof2
  rw [Fl.fin_mul, Fl.fin_mul, Fl.fin_add, Fl.fin_sqrt (add_nonneg (mul_self_nonneg _) (mul_self_nonneg _))]

theorem minresLanczos_exact (q : MinresProblem E) {k : ℕ} {s : MinresLoop Fl (Vec E)} {t : St E} (hr : MRel q k s t)
    (hb : t.beta ≠ 0) (ho : k ≠ 0 → t.oldb ≠ 0) :
    minresLanczos (Vec.op q.A) q.kw (k+1) s =
      (.fin t.v, .fin (MinresMath.alfa q.B k t), .fin (MinresMath.q q.B k t), .fin (MinresMath.q q.B k t),
        .fin ⟪MinresMath.q q.B k t, MinresMath.q q.B k t⟫) := by
  have hv : smul (lit 1 / s.beta) s.y = .fin t.v := by
    rw [hr.beta, hr.y, Fl.lit_eq, Fl.fin_div _ hb, Vec.fin_smul]; simp [St.v]
  have hp : (if k + 1 ≥ 2 then (Vec.op q.A (Vec.fin t.v) - smul q.kw.shift (Vec.fin t.v)) - smul (s.beta / s.oldb) s.r1
      else (Vec.op q.A (Vec.fin t.v) - smul q.kw.shift (Vec.fin t.v))) = .fin (MinresMath.p q.B k t) := by
    have hB : q.A t.v - q.shift • t.v = q.B t.v := by simp [MinresProblem.B]
    have hs : q.kw.shift = Fl.fin q.shift := rfl
    unfold MinresMath.p
    rw [hs]
    by_cases hk : k = 0
    · have : ¬ k + 1 ≥ 2 := by omega
      rw [if_neg this, if_neg this, Vec.op_fin, Vec.fin_smul, Vec.fin_sub, hB]
    · have : k + 1 ≥ 2 := by omega
      rw [if_pos this, if_pos this, Vec.op_fin, Vec.fin_smul, Vec.fin_sub, hB, hr.beta, hr.oldb, hr.r1,
        Fl.fin_div _ (ho hk), Vec.fin_smul, Vec.fin_sub]
  unfold minresLanczos
  simp only [hv]
  have hpr : ∀ z, applyPrecon q.kw.precon z = z := fun _ => rfl
  simp only [hp, hpr]
  simp only [Vec.fin_dot, hr.beta, hr.r2, Fl.fin_neg, Fl.fin_div _ hb, Vec.fin_smul, Vec.fin_add]
  rfl

theorem minresTests_pos {eps rtol beta1 : Fl} {itnlim itn : Nat} {t1 t2 ac ex : Fl} (h : le (lit 1 + t1) (lit 1) = true) :
    0 < minresTests eps rtol beta1 itnlim itn t1 t2 ac ex 0 := by
  simp only [minresTests, if_true, h]
  split_ifs <;> norm_num

theorem minresTests_one {eps rtol beta1 : Fl} {itnlim itn : Nat} {t1 t2 ac ex : Fl} (h : le t1 rtol = true) :
    minresTests eps rtol beta1 itnlim itn t1 t2 ac ex 0 = 1 := by
  simp only [minresTests, if_true, h]

/-- one step of the loop is one step of the recurrences, with the pivot replaced by `ε` if it is smaller -/
theorem minresStep_exact (q : MinresProblem E) (ε : ℝ) (lim : ℕ) (β1 : Fl) {k : ℕ} {s : MinresLoop Fl (Vec E)} {t : St E}
    (hr : MRel q k s t) (hb : t.beta ≠ 0) (ho : k ≠ 0 → t.oldb ≠ 0)
    {γ : ℝ} (hγ : max (MinresMath.gam0 q.B k t) ε = γ) (hε : 0 < ε) :
    let s' := minresStep (Vec.op q.A) (.fin ε) q.kw lim β1 s
    let t' := MinresMath.step q.B k γ t
    MRel q (k+1) s' t' ∧ s'.rnorm = .fin t'.phibar ∧ s'.residHistory = s.residHistory ++ [.fin t'.phibar] ∧
    s'.iterates = (if q.storeIterates then s.iterates ++ [.fin t'.x] else s.iterates) ∧
    (s'.broke = true ↔ 0 < s'.istop) ∧ (s.istop = -1 → k ≠ 0 → s'.istop = -1 ∨ s'.istop = 10) ∧
    (t'.phibar = 0 → s.istop = 0 → s'.istop = -1 ∨ 0 < s'.istop ∧ (0 ≤ q.rtol → s'.istop = 1 ∨ s'.istop = 10)) := by
  have hγ0 : γ ≠ 0 := by rw [← hγ]; exact (lt_of_lt_of_le hε (le_max_right _ _)).ne'
  have hL := minresLanczos_exact q hr hb ho
  have hbb : ⟪MinresMath.q q.B k t, MinresMath.q q.B k t⟫ = MinresMath.beta' q.B k t * MinresMath.beta' q.B k t :=
    MinresMath.beta'_sq.symm
  have hlt : lt (Fl.fin ⟪MinresMath.q q.B k t, MinresMath.q q.B k t⟫) (lit 0) = false := by
    rw [← Bool.not_eq_true, Fl.lit_eq, Fl.fin_lt, not_lt]; simpa using real_inner_self_nonneg
  have hsq : sqrt (Fl.fin ⟪MinresMath.q q.B k t, MinresMath.q q.B k t⟫) = .fin (MinresMath.beta' q.B k t) :=
    Fl.fin_sqrt real_inner_self_nonneg
  have hgb : s.sn * s.dbar - s.cs * Fl.fin (MinresMath.alfa q.B k t) = .fin (MinresMath.gbar q.B k t) := by
    rw [hr.sn, hr.dbar, hr.cs, Fl.fin_mul, Fl.fin_mul, Fl.fin_sub]; rfl
  have hde : s.cs * s.dbar + s.sn * Fl.fin (MinresMath.alfa q.B k t) = .fin (MinresMath.delta q.B k t) := by
    rw [hr.sn, hr.dbar, hr.cs, Fl.fin_mul, Fl.fin_mul, Fl.fin_add]; rfl
  have hga : pymax (normof2 (Fl.fin (MinresMath.gbar q.B k t)) (Fl.fin (MinresMath.beta' q.B k t))) (Fl.fin ε)
      = .fin (γ) := by
    rw [normof2_fin, Fl.fin_pymax, ← hγ]; rfl
  obtain ⟨τ, hτ0, hτ⟩ := hr.tn
  obtain ⟨η, hη0, hη1, hη⟩ := hr.yn
  obtain ⟨ρ1, hρ10, hρ1⟩ := hr.rh1
  obtain ⟨ρ2, hρ2⟩ := hr.rh2
  have hz : s.rhs1 / Fl.fin (γ) = .fin (ρ1 / γ) := by
    rw [hρ1, Fl.fin_div _ hγ0]
  have hτ' : s.tnorm2 + Fl.fin (MinresMath.alfa q.B k t * MinresMath.alfa q.B k t) + s.beta * s.beta +
      Fl.fin (MinresMath.beta' q.B k t * MinresMath.beta' q.B k t) =
      .fin (τ + MinresMath.alfa q.B k t * MinresMath.alfa q.B k t + t.beta * t.beta +
        MinresMath.beta' q.B k t * MinresMath.beta' q.B k t) := by
    rw [hτ, hr.beta]; simp only [Fl.fin_mul, Fl.fin_add]
  have hτpos : 0 < τ + MinresMath.alfa q.B k t * MinresMath.alfa q.B k t + t.beta * t.beta +
        MinresMath.beta' q.B k t * MinresMath.beta' q.B k t := by
    have := mul_self_pos.2 hb
    nlinarith [mul_self_nonneg (MinresMath.alfa q.B k t), mul_self_nonneg (MinresMath.beta' q.B k t)]
  have hη' : Fl.fin (ρ1 / γ * (ρ1 / γ)) + s.ynorm2 =
      .fin (ρ1 / γ * (ρ1 / γ) + η) := by
    rw [hη, Fl.fin_add]
  have hηpos : 0 < ρ1 / γ * (ρ1 / γ) + η := by
    by_cases hk : k = 0
    · have := mul_self_pos.2 (div_ne_zero (hρ10 hk) hγ0); linarith
    · have := hη1 hk; nlinarith [mul_self_nonneg (ρ1 / γ)]
  have hx1 : s.phibar = .fin t.phibar := hr.phibar
  simp only
  unfold minresStep
  rw [hr.itn]
  simp only [hL, hlt, Bool.false_eq_true, if_false, hsq, hgb, hde, hga, Fl.fin_div _ hγ0, hx1, Fl.fin_mul, hz, hτ', hη',
    Fl.fin_sqrt hτpos.le, Fl.fin_sqrt hηpos.le]
  have hw : smul (lit 1 / Fl.fin (γ))
      (Vec.fin t.v - smul s.epsln s.w2 - smul (Fl.fin (MinresMath.delta q.B k t)) s.w)
      = .fin ((1 / γ) • (t.v - t.epsln • t.w2 - MinresMath.delta q.B k t • t.w)) := by
    rw [hr.epsln, hr.w2, hr.w, Fl.lit_eq, Fl.fin_div _ hγ0]; simp
  rw [hw]
  refine ⟨?_, rfl, rfl, ?_, ?_, ?_, ?_⟩
  · refine
      { itn := rfl, x := ?_, y := rfl, r1 := hr.r2, r2 := rfl, w := rfl, w2 := hr.w, oldb := hr.beta, beta := rfl,
        dbar := ?_, epsln := ?_, phibar := rfl, cs := rfl, sn := rfl, tn := ⟨_, hτpos.le, rfl⟩,
        yn := ⟨_, hηpos.le, fun _ => hηpos, rfl⟩, rh1 := ?_, rh2 := ?_ }
    · simp only [hr.x, Vec.fin_smul, Vec.fin_add]; rfl
    · simp only [hr.cs, Fl.fin_neg, Fl.fin_mul]; rfl
    · simp only [hr.sn, Fl.fin_mul]; rfl
    · simp only [hρ2, Fl.fin_sub]
      exact ⟨_, by omega, rfl⟩
    · simp only [hr.sn, Fl.fin_neg, Fl.fin_mul]
      exact ⟨_, rfl⟩
  · simp only [hr.x, Vec.fin_smul, Vec.fin_add]; rfl
  · simp
  · intro h hk
    simp only [h]
    generalize hi2 : minresDirErr (S := Fl) _ _ _ _ _ _ = i2
    have hi2' : i2 = -1 ∨ i2 = 10 := by
      rw [← hi2, minresDirErr, minresBeta2]; split
      · exact Or.inr rfl
      · rw [if_neg (by omega)]; exact Or.inl rfl
    rcases hi2' with rfl | rfl
    · left; simp [minresTests]
    · right; simp [minresTests]
  · intro hph h
    have hph : MinresMath.beta' q.B k t / γ * t.phibar = 0 := hph
    simp only [h, hph]
    generalize hi2 : minresDirErr (S := Fl) _ _ _ _ _ _ = i2
    have hi2' : i2 = -1 ∨ i2 = 10 ∨ i2 = 0 := by
      rw [← hi2, minresDirErr, minresBeta2]; split
      · simp
      · split <;> simp
    rcases hi2' with rfl | rfl | rfl
    · left; simp [minresTests]
    · right; simp [minresTests]
    · right
      have hm := mul_pos (Real.sqrt_pos.2 hτpos) (Real.sqrt_pos.2 hηpos)
      rw [Fl.fin_div _ hm.ne', zero_div]
      have h1 : le (lit 1 + Fl.fin 0) (lit 1) = true := by
        rw [Fl.lit_eq, Fl.fin_add, Fl.fin_le]; simp
      refine ⟨minresTests_pos h1, fun hq => ?_⟩
      refine Or.inl (minresTests_one ?_)
      change le (Fl.fin 0) (Fl.fin q.rtol) = true
      rw [Fl.fin_le]; exact hq

/-- everything has become undefined -/
structure MBad (s : MinresLoop Fl (Vec E)) : Prop where
  x : s.x = .nan
  y : s.y = .nan
  nrg : s.xNrgNorm2 = .nan
  istop : s.istop = -1
  itn : s.itn ≠ 0
  broke : s.broke = false

/-- a step with an undefined Lanczos vector -/
theorem minresStep_nan (A : E → E) (ε : ℝ) (kw : MinresKw Fl (Vec E)) (hp : kw.precon = none) (lim : ℕ) (β1 : Fl)
    (s : MinresLoop Fl (Vec E))
    (hv : smul (lit 1 / s.beta) s.y = .nan) (hi : s.istop = -1) (hn : s.itn ≠ 0) :
    MBad (minresStep (Vec.op A) (.fin ε) kw lim β1 s) := by
  have hL : minresLanczos (Vec.op A) kw (s.itn+1) s = (.nan, .nan, .nan, .nan, .nan) := by
    unfold minresLanczos
    simp only [hv, Vec.op_nan, Vec.smul_nan, Vec.sub_nan, Vec.nan_sub, ite_self, Vec.nan_dot, Vec.add_nan, applyPrecon, hp]
  have hlt : lt (Fl.nan) (lit 0 : Fl) = false := by simp
  unfold minresStep
  simp only [hL, hlt, Bool.false_eq_true, if_false, Fl.mul_nan, Fl.sub_nan, Fl.nan_div, Fl.nan_mul, Fl.add_nan, Fl.sqrt_nan,
    Vec.nan_smul, Vec.nan_sub, Vec.smul_nan, Vec.add_nan, hi]
  have h1 : ∀ a, minresDirErr kw.etol a Fl.nan kw.window (s.itn + 1) (minresBeta2 (Fl.fin ε) β1 Fl.nan (s.itn + 1) (-1)) = -1 := by
    intro a
    simp only [minresDirErr, minresBeta2, Fl.mul_nan]
    rw [if_neg (by simp), if_neg (by omega)]
  have h2 : ∀ a b c d (e : Fl), minresTests a kw.rtol b lim (s.itn+1) c d e (s.xNrgNorm2) (-1) = -1 := by
    intro a b c d e; simp [minresTests]
  refine ⟨rfl, rfl, rfl, ?_, by simp, ?_⟩
  · simp only [h1]; simp [minresTests]
  · simp only [h1]; simp [minresTests]


theorem getLast_append_single {α : Type} (a : α) (l : List α) (x : α) : (a :: (l ++ [x])).getLast? = some x := by
  rw [← List.cons_append, List.getLast?_append]; simp

/-- the state is finite and optimal -/
structure MGood (q : MinresProblem E) (old : MinresObj Fl (Vec E)) (s : MinresLoop Fl (Vec E)) : Prop where
  ex : ∃ (k : ℕ) (t : St E) (vp up : E) (S Sp : Submodule ℝ E) (xs : List E),
    MRel q k s t ∧ MinresMath.Inv q.B q.b k t vp up S Sp ∧ xs.length = k ∧
    (0 :: xs).getLast? = some t.x ∧
    s.residHistory = old.residHistory ++ xs.map (fun x => Fl.fin ‖q.b - q.B x‖) ∧
    (q.storeIterates = true → s.iterates = (0 :: xs).map Vec.fin) ∧
    (k ≠ 0 → s.rnorm = .fin ‖q.b - q.B t.x‖) ∧
    (∀ i y, (0 :: xs)[i]? = some y → y ∈ krylov q.B q.b i ∧ ∀ z ∈ krylov q.B q.b i, ‖q.b - q.B y‖ ≤ ‖q.b - q.B z‖) ∧
    (t.beta = 0 → 0 < s.istop ∧ (0 ≤ q.rtol → s.istop ≠ 6) ∨ s.istop = -1) ∧
    (s.istop = -1 → k ≠ 0)
  broke : s.broke = true ↔ 0 < s.istop
  status : -1 ≤ s.istop

theorem MinresProblem.B_symm (q : MinresProblem E) (hA : ∀ u v, ⟪q.A u, v⟫ = ⟪u, q.A v⟫) (u v : E) :
    ⟪q.B u, v⟫ = ⟪u, q.B v⟫ := by
  simp only [MinresProblem.B, LinearMap.sub_apply, LinearMap.smul_apply, LinearMap.id_apply, inner_sub_left,
    inner_sub_right, inner_smul_left, inner_smul_right, hA]
  simp

theorem minresStep_status {S V : Type} [Scalar S] [Vect S V] (op : V → V) (eps : S) (kw : MinresKw S V) (itnlim : Nat)
    (beta1 : S) (s : MinresLoop S V) (h : -1 ≤ s.istop) : -1 ≤ (minresStep op eps kw itnlim beta1 s).istop := by
  cases hb : lt (minresBB op kw s) (lit 0)
  · unfold minresStep
    simp only [minresBB] at hb
    simp only [hb, Bool.false_eq_true, if_false]
    generalize hi2 : minresDirErr (S := S) _ _ _ _ _ _ = i2
    have hi2' : -1 ≤ i2 := by
      rw [← hi2, minresDirErr, minresBeta2]; split
      · norm_num
      · split
        · norm_num
        · exact h
    generalize hi3 : minresTests (S := S) _ _ _ _ _ _ _ _ _ i2 = i3
    have hr : i3 = i2 ∨ i2 = 0 ∧ i3 ∈ ([1, 2, 3, 4, 6] : List Int) := hi3 ▸ minresTests_range ..
    simp only [List.mem_cons, List.not_mem_nil, or_false] at hr
    omega
  · rw [minresStep_break hb]; norm_num

theorem minresStep_good (q : MinresProblem E) (hA : ∀ u v, ⟪q.A u, v⟫ = ⟪u, q.A v⟫) (ε : ℝ) (hε : 0 < ε)
    (old : MinresObj Fl (Vec E)) (lim : ℕ) (β1 : Fl) (s : MinresLoop Fl (Vec E))
    (hγ : ∀ k t vp up S Sp, MRel q k s t → MinresMath.Inv q.B q.b k t vp up S Sp → t.beta ≠ 0 → ε ≤ MinresMath.gam0 q.B k t)
    (hs : MGood q old s ∨ MBad s) (hc : minresCont lim s = true) :
    MGood q old (minresStep (Vec.op q.A) (.fin ε) q.kw lim β1 s) ∨
    MBad (minresStep (Vec.op q.A) (.fin ε) q.kw lim β1 s) := by
  simp only [minresCont, Bool.and_eq_true, Bool.not_eq_true', decide_eq_true_eq] at hc
  rcases hs with hs | hs
  · obtain ⟨k, t, vp, up, S, Sp, xs, hr, hi, hlen, hlast, hh, hit, hrn, hmin, hb0, hk0⟩ := hs.ex
    have hnp : ¬ 0 < s.istop := by rw [← hs.broke, hc.1]; simp
    have hst := hs.status
    by_cases hb : t.beta = 0
    · right
      have him : s.istop = -1 := by rcases hb0 hb with h | h <;> omega
      refine minresStep_nan q.A ε q.kw rfl lim β1 s ?_ him (by rw [hr.itn]; exact hk0 him)
      have : (lit 1 / s.beta : Fl) = .nan := by
        rw [hr.beta, hb]; change Fl.div _ _ = _; simp [Fl.div]
      rw [this, Vec.nan_smul]
    · left
      have hB := q.B_symm hA
      replace hγ := hγ _ _ _ _ _ _ hr hi hb
      have ho : k ≠ 0 → t.oldb ≠ 0 := fun h => (hi.pos h).1
      obtain ⟨hr', hrn', hh', hit', hbr', hm', hz'⟩ := minresStep_exact q ε lim β1 hr hb ho (max_eq_left hγ) hε
      have hi' := hi.step hB hb rfl (lt_of_lt_of_le hε hγ)
      have hstat' := minresStep_status (Vec.op q.A) (.fin ε) q.kw lim β1 s hst
      generalize minresStep (Vec.op q.A) (.fin ε) q.kw lim β1 s = s' at *
      generalize MinresMath.step q.B k (MinresMath.gam0 q.B k t) t = t' at *
      have hres := hi'.resid
      refine ⟨⟨k+1, t', _, _, _, _, xs ++ [t'.x], hr', hi', by simp [hlen], getLast_append_single _ _ _, ?_, ?_, ?_, ?_, ?_, ?_⟩,
        hbr', ?_⟩
      · rw [hh', hh, List.map_append, List.append_assoc, ← hres]; rfl
      · intro h; rw [hit', if_pos h, hit h]; simp
      · intro _; rw [hrn', hres]
      · intro i y hy
        rw [← List.cons_append, List.getElem?_append] at hy
        split at hy
        · exact hmin i y hy
        · rename_i h
          simp only [List.length_cons, hlen] at h hy
          have : i - (k+1) = 0 := by
            by_contra hne
            rw [List.getElem?_eq_none (by simp only [List.length_singleton]; omega)] at hy
            cases hy
          rw [this] at hy
          simp only [List.getElem?_cons_zero, Option.some.injEq] at hy
          subst hy
          have : i = k + 1 := by omega
          rw [this]
          exact hi'.minimal
      · intro h0
        have hph := (hi'.snb h0).2
        rcases Int.lt_or_le s.istop 0 with h | h
        · have him : s.istop = -1 := by omega
          rcases hm' him (hk0 him) with h | h
          · exact Or.inr h
          · exact Or.inl ⟨by omega, fun _ => by omega⟩
        · rcases hz' hph (by omega) with h | ⟨h1, h2⟩
          · exact Or.inr h
          · exact Or.inl ⟨h1, fun h => by rcases h2 h with h | h <;> omega⟩
      · intro _; omega
      · exact hstat'
  · right
    exact minresStep_nan q.A ε q.kw rfl lim β1 s (by rw [hs.y, Vec.smul_nan]) hs.istop hs.itn

theorem minresStart_exact (q : MinresProblem E) (hb : q.b ≠ 0) :
    minresStart q.kw (.fin q.b) = (.fin q.b, .fin ‖q.b‖) ∧ minresEntry q.kw (.fin q.b) = (0, false) := by
  have hpos : 0 < ⟪q.b, q.b⟫ := by rw [real_inner_self_eq_norm_mul_norm]; exact mul_self_pos.2 (norm_ne_zero_iff.2 hb)
  have h1 : gt (Fl.fin ⟪q.b, q.b⟫) (lit 0) = true := by
    unfold gt; rw [Fl.lit_eq, Fl.fin_lt]; simpa using hpos
  have h2 : lt (Fl.fin ⟪q.b, q.b⟫) (lit 0) = false := by
    rw [← Bool.not_eq_true, Fl.lit_eq, Fl.fin_lt]; simp
  have h3 : feq (Fl.fin ⟪q.b, q.b⟫) (lit 0) = false := by
    unfold feq
    have : le (Fl.fin ⟪q.b, q.b⟫) (lit 0) = false := by
      rw [← Bool.not_eq_true, Fl.lit_eq, Fl.fin_le]; simpa using hb
    rw [this]; rfl
  have hpr : applyPrecon q.kw.precon (Vec.fin q.b) = .fin q.b := rfl
  constructor
  · simp only [minresStart, hpr, Vec.fin_dot, h1, if_true, Fl.fin_sqrt hpos.le]
    rw [real_inner_self_eq_norm_mul_norm, Real.sqrt_mul_self (norm_nonneg _)]
  · simp only [minresEntry, hpr, Vec.fin_dot, h2, h3]
    simp [MinresProblem.kw]

theorem minresInit_good (q : MinresProblem E) (old : MinresObj Fl (Vec E)) (hb : q.b ≠ 0) :
    MGood q old (minresInit q.kw old (.fin q.b)) := by
  obtain ⟨h1, h2⟩ := minresStart_exact q hb
  have hn : ‖q.b‖ ≠ 0 := norm_ne_zero_iff.2 hb
  unfold minresInit
  simp only [h1, h2]
  refine ⟨⟨0, _, 0, 0, ⊥, ⊥, [], ?_, MinresMath.inv_init q.B q.b hb, rfl, rfl, by simp, ?_, by simp, ?_, ?_, by simp⟩,
    by simp, by norm_num⟩
  · refine
      { itn := rfl, x := rfl, y := rfl, r1 := rfl, r2 := rfl, w := rfl, w2 := rfl, oldb := by simp, beta := rfl,
        dbar := by simp, epsln := by simp, phibar := rfl, cs := by simp, sn := by simp, tn := ⟨0, le_refl _, by simp⟩,
        yn := ⟨0, le_refl _, by simp, by simp⟩, rh1 := ⟨_, fun _ => hn, rfl⟩, rh2 := ⟨0, by simp⟩ }
  · intro h
    have : q.kw.storeIterates = true := h
    simp [this]
  · intro i y hy
    cases i with
    | zero =>
      simp only [List.getElem?_cons_zero, Option.some.injEq] at hy
      subst hy
      refine ⟨Submodule.zero_mem _, fun z hz => ?_⟩
      have : z = 0 := by simpa [krylov] using hz
      rw [this]
    | succ i => simp at hy
  · intro h; exact absurd h hn

/-- **C35 (partial).** In exact arithmetic, MINRES without preconditioner on a symmetric operator `A`, for every right-hand
side `b`, shift, options and state of the solver object, when no singular value of `A - shift I` is below the machine
precision `ε`: unless the solve breaks down, which only happens with `istop = -1` (`C34_beta2_nan`), there are vectors
`xs`, one per iteration, of which the last is the returned `x` (and which are the stored iterates if these are
requested), such that the residual norm recorded by each iteration is the true norm of `b - (A - shift I) x`; the
residual norms never increase; and each is the smallest that can be had in the Krylov space of its iteration.
Missing, because the code violates it: smaller singular values (`C35_clipped`). -/
theorem C35_residual_partial (q : MinresProblem E) (hA : ∀ u v, ⟪q.A u, v⟫ = ⟪u, q.A v⟫) (ε : ℝ) (hε : 0 < ε)
    (hlow : ∀ z, ε * ‖z‖ ≤ ‖q.A z - q.shift • z‖) (hw : q.window ≠ 0) (n : ℕ) (self : MinresObj Fl (Vec E)) :
    ∃ res products, minresSolve (Vec.op q.A) (.fin ε) n self (.fin q.b) q.kw = .ok (res, products) ∧
      (res.istop ≠ -1 → res.x ≠ .nan) ∧
      ∀ x, res.x = .fin x → ∃ xs : List E, xs.length = products.length ∧ (0 :: xs).getLast? = some x ∧
        res.residHistory = self.residHistory ++ xs.map (fun x => Fl.fin ‖q.b - (q.A x - q.shift • x)‖) ∧
        (q.storeIterates = true → res.iterates = (0 :: xs).map Vec.fin) ∧
        (products ≠ [] → res.rnorm = .fin ‖q.b - (q.A x - q.shift • x)‖) ∧
        (0 :: xs).IsChain (fun u v => ‖q.b - (q.A v - q.shift • v)‖ ≤ ‖q.b - (q.A u - q.shift • u)‖) ∧
        ∀ i y, (0 :: xs)[i]? = some y →
          y ∈ krylov (q.A - q.shift • LinearMap.id) q.b i ∧
          ∀ z ∈ krylov (q.A - q.shift • LinearMap.id) q.b i,
            ‖q.b - (q.A y - q.shift • y)‖ ≤ ‖q.b - (q.A z - q.shift • z)‖ := by
  have hBx : ∀ x, q.A x - q.shift • x = q.B x := fun x => by simp [MinresProblem.B]
  have hBd : q.A - q.shift • LinearMap.id = q.B := rfl
  simp only [hBx] at hlow ⊢
  rw [hBd]
  by_cases hb : q.b = 0
  · have hd : (minresEntry q.kw (.fin q.b)).2 = true := by
      have hpr : applyPrecon q.kw.precon (Vec.fin q.b) = .fin q.b := rfl
      have h3 : feq (Fl.fin ⟪q.b, q.b⟫) (lit 0) = true := by
        unfold feq
        rw [hb, inner_zero_left, Fl.lit_eq]
        simp
      simp only [minresEntry, hpr, Vec.fin_dot, h3, if_true]
      simp [MinresProblem.kw]
    unfold minresSolve
    simp only [hd, if_true]
    refine ⟨_, _, rfl, fun _ => by simp [minresResult, minresInit], ?_⟩
    intro x hx
    have hx : x = 0 := by
      have : (Vec.fin 0 : Vec E) = .fin x := hx
      cases this; rfl
    subst hx
    refine ⟨[], rfl, rfl, by simp [minresResult, minresInit], ?_, fun h => absurd rfl h, by simp, ?_⟩
    · intro h
      have : q.kw.storeIterates = true := h
      simp [minresResult, minresInit, this]
    · intro i y hy
      cases i with
      | zero =>
        simp only [List.getElem?_cons_zero, Option.some.injEq] at hy
        subst hy
        refine ⟨Submodule.zero_mem _, fun z hz => ?_⟩
        have : z = 0 := by simpa [krylov] using hz
        rw [this]
      | succ i => simp at hy
  · obtain ⟨h1, h2⟩ := minresStart_exact q hb
    unfold minresSolve
    have hw' : ∀ P : Prop, ¬ (q.kw.window = 0 ∧ P) := fun P h => hw h.1
    simp only [h2, Bool.false_eq_true, if_false, hw']
    refine ⟨_, _, rfl, ?_⟩
    have hinv := (minresLoop_inv (Vec.op q.A) (.fin ε) q.kw (q.kw.itnlim.getD (5 * n)) (minresStart q.kw (.fin q.b)).2
      (fun s => (MGood q self s ∨ MBad s) ∧ s.calls.length = s.itn)
      (fun s hs hc => ⟨minresStep_good q hA ε hε self _ _ s (fun _ _ _ _ _ _ _ h h' => h.gam_ge (q.B_symm hA) h' hε.le hlow) hs.1 hc, ?_⟩) _
      ⟨Or.inl (minresInit_good q self hb), rfl⟩).1
    · generalize minresLoop (Vec.op q.A) _ _ _ _ _ = s at hinv
      obtain ⟨hg | hbad, hcalls⟩ := hinv
      · obtain ⟨k, t, vp, up, S, Sp, xs, hr, hi, hlen, hlast, hh, hit, hrn, hmin, hb0, hk0⟩ := hg.ex
        refine ⟨fun _ => by simp [minresResult, hr.x], ?_⟩
        intro x hx
        have hx : t.x = x := by
          have : s.x = .fin x := hx
          rw [hr.x] at this; cases this; rfl
        subst hx
        refine ⟨xs, by rw [hlen, hcalls, hr.itn], hlast, hh, hit, ?_, ?_, hmin⟩
        · intro hne
          refine hrn ?_
          rintro rfl
          exact hne (List.eq_nil_of_length_eq_zero (by rw [hcalls, hr.itn]))
        · rw [List.isChain_iff_getElem]
          intro i hi
          have e1 := hmin i _ (List.getElem?_eq_getElem (by omega))
          have e2 := hmin (i+1) _ (List.getElem?_eq_getElem hi)
          exact e2.2 _ (MinresMath.krylov_mono _ _ (by omega) e1.1)
      · refine ⟨fun h => absurd hbad.istop h, ?_⟩
        intro x hx
        have : s.x = .fin x := hx
        rw [hbad.x] at this; cases this
    · have h1 := minresStep_itn (Vec.op q.A) (.fin ε) q.kw (q.kw.itnlim.getD (5 * n)) (minresStart q.kw (.fin q.b)).2 s
      rw [h1, ← hs.2]
      unfold minresStep
      simp only
      split <;> simp

/-- C34 and C71: the order `n` sets the default limit, and `b` is confined to `d` dimensions -/
theorem minres_confined [FiniteDimensional ℝ E] (q : MinresProblem E) (hA : ∀ u v, ⟪q.A u, v⟫ = ⟪u, q.A v⟫)
    (ε : ℝ) (hε : 0 < ε) (hlow : ∀ z, ε * ‖z‖ ≤ ‖q.A z - q.shift • z‖) (hw : q.window ≠ 0) (hrt : 0 ≤ q.rtol)
    (hb : q.b ≠ 0) {n d : ℕ} (hd : Confined q.A q.b d) (hlim : d ≤ q.itnlim.getD (5 * n)) (self : MinresObj Fl (Vec E)) :
    ∃ res products, minresSolve (Vec.op q.A) (.fin ε) n self (.fin q.b) q.kw = .ok (res, products) ∧
      (res.istop = -1 ∨ res.converged = true ∧ products.length ≤ d) := by
  have hBx : ∀ x, q.A x - q.shift • x = q.B x := fun x => by simp [MinresProblem.B]
  simp only [hBx] at hlow
  obtain ⟨h1, h2⟩ := minresStart_exact q hb
  unfold minresSolve
  have hw' : ∀ P : Prop, ¬ (q.kw.window = 0 ∧ P) := fun P h => hw h.1
  simp only [h2, Bool.false_eq_true, if_false, hw']
  refine ⟨_, _, rfl, ?_⟩
  have hkl : d ≤ q.kw.itnlim.getD (5 * n) := hlim
  have hdB : Confined q.B q.b d := hd.shift q.shift
  generalize q.kw.itnlim.getD (5 * n) = lim at hkl ⊢
  obtain ⟨⟨hinv, hv⟩, hc⟩ := minresLoop_inv (Vec.op q.A) (.fin ε) q.kw lim (minresStart q.kw (.fin q.b)).2
    (fun s => (MGood q self s ∨ MBad s) ∧ MinresInv q.kw lim self s)
    (fun s hs hc => ⟨minresStep_good q hA ε hε self _ _ s (fun _ _ _ _ _ _ _ h h' => h.gam_ge (q.B_symm hA) h' hε.le hlow) hs.1 hc, minresStep_inv _ _ _ _ _ _ s hs.2 hc⟩) _
    ⟨Or.inl (minresInit_good q self hb), minresInit_inv _ _ _ _ (by rw [h2])⟩
  generalize minresLoop (Vec.op q.A) _ _ _ _ _ = s at hinv hv hc
  rcases hinv with hg | hbad
  · obtain ⟨k, t, vp, up, S, Sp, xs, hr, hi, hlen, hlast, hh, hit, hrn, hmin, hb0, hk0⟩ := hg.ex
    have hkn : k ≤ d := hi.le_confined hdB
    have hend : lim ≤ k → 0 < s.istop ∧ (0 ≤ q.rtol → s.istop ≠ 6) ∨ s.istop = -1 :=
      fun h => hb0 (hi.beta_zero hdB (by omega))
    by_cases hm : s.istop = -1
    · exact Or.inl hm
    · right
      have hst := hv.status
      simp only [List.mem_cons, List.not_mem_nil, or_false] at hst
      refine ⟨?_, by rw [hv.calls, hr.itn]; exact hkn⟩
      have hpos : 0 < s.istop := by
        by_contra hnp
        have hbr : s.broke = false := by
          have := hv.broke; rw [← Bool.not_eq_true, this]; exact hnp
        simp only [minresCont, hbr, Bool.not_false, Bool.true_and, decide_eq_false_iff_not, hr.itn] at hc
        rcases hend (by omega) with h | h
        · exact hnp h.1
        · exact hm h
      have h6 : s.istop ≠ 6 := by
        intro h6
        rcases hv.six h6 with h | ⟨r, h⟩
        · rw [hr.itn] at h
          rcases hend (by omega) with h' | h'
          · exact h'.2 hrt h6
          · exact hm h'
        · change lt (dot r r) (lit 0) = true at h
          cases r with
          | nan => simp at h
          | fin r =>
            rw [Vec.fin_dot, Fl.lit_eq, Fl.fin_lt] at h
            have h0 : ⟪r, r⟫ < 0 := by simpa only [Rat.cast_zero] using h
            exact absurd h0 (not_lt.2 real_inner_self_nonneg)
      simp only [minresResult, minresConverged, List.mem_cons, List.not_mem_nil, or_false, decide_eq_true_eq]
      omega
  · exact Or.inl hbad.istop

/-- **C34** in exact arithmetic: on a symmetric operator on a space of dimension `n`, when no singular value of
`A - shift I` is below the machine precision, with `rtol ≥ 0` and at least `n` iterations allowed (the default is `5n`),
MINRES either ends with `istop = -1` or converges within `n` iterations. -/
theorem C34_converges_partial [FiniteDimensional ℝ E] (q : MinresProblem E) (hA : ∀ u v, ⟪q.A u, v⟫ = ⟪u, q.A v⟫)
    (ε : ℝ) (hε : 0 < ε) (hlow : ∀ z, ε * ‖z‖ ≤ ‖q.A z - q.shift • z‖) (hw : q.window ≠ 0) (hrt : 0 ≤ q.rtol)
    (hb : q.b ≠ 0) (hlim : ∀ m, q.itnlim = some m → Module.finrank ℝ E ≤ m) (self : MinresObj Fl (Vec E)) :
    ∃ res products, minresSolve (Vec.op q.A) (.fin ε) (Module.finrank ℝ E) self (.fin q.b) q.kw = .ok (res, products) ∧
      (res.istop = -1 ∨ res.converged = true ∧ products.length ≤ Module.finrank ℝ E) := by
  refine minres_confined q hA ε hε hlow hw hrt hb (confined_of_finrank le_rfl) ?_ self
  cases h : q.itnlim with
  | none => simp only [Option.getD_none]; omega
  | some m => exact hlim m h

end Verif.Solver
