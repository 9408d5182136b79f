import Verif.Solver.CraigmrProps
import Verif.Solver.CraigExact
import Mathlib.Analysis.InnerProductSpace.PiL2

/-!
# What CRAIG-MR computes in exact arithmetic: C42 (zero right-hand side) and C53
-/

namespace Verif.Solver
open Scalar Vect
open scoped RealInnerProductSpace
open MinresMath (krylov krylov_mono)
open CraigMath

variable {E F : Type} [NormedAddCommGroup E] [InnerProductSpace ℝ E] [NormedAddCommGroup F] [InnerProductSpace ℝ F]

/-- A CRAIG-MR problem without preconditioners and with finite data. -/
structure CraigmrProblem (E F : Type) [NormedAddCommGroup E] [InnerProductSpace ℝ E] [NormedAddCommGroup F]
    [InnerProductSpace ℝ F] where
  A : E →ₗ[ℝ] F
  B : F →ₗ[ℝ] E
  b : F
  /-- shape of the operator -/
  m : ℕ
  n : ℕ
  damp : ℝ
  itnlim : Option ℤ
  atol : ℝ
  btol : ℝ
  etol : ℝ
  conlim : ℝ
  storeResids : Bool
  storeIterates : Bool
  window : ℕ

/-- the keywords of a problem -/
noncomputable def CraigmrProblem.kw (q : CraigmrProblem E F) : CraigmrKw Fl (Vec F) (Vec E) :=
  { itnlim := q.itnlim, damp := .fin q.damp, atol := .fin q.atol, btol := .fin q.btol, conlim := .fin q.conlim,
    etol := .fin q.etol, storeResids := q.storeResids, storeIterates := q.storeIterates, window := q.window }

/-- what is required of the data: `B` is the transpose of `A` and the window is not empty -/
structure CraigmrProblem.Valid (q : CraigmrProblem E F) : Prop where
  adj : ∀ x y, ⟪q.A x, y⟫ = ⟪x, q.B y⟫
  window : q.window ≠ 0

/-- `(AA' + I) x` -/
def CraigmrProblem.K (q : CraigmrProblem E F) (x : F) : F := x + q.A (q.B x)

/-- `x` minimizes the norm of `b - (AA' + I) x` in the span of `b, (AA')b, ..., (AA')^(k-1) b` -/
def CraigmrProblem.Best (q : CraigmrProblem E F) (k : ℕ) (x : F) : Prop :=
  x ∈ krylov (q.A ∘ₗ q.B) q.b k ∧ ∀ y ∈ krylov (q.A ∘ₗ q.B) q.b k, ‖q.b - q.K x‖ ≤ ‖q.b - q.K y‖

/-! ### One iteration -/

/-- the bidiagonalization step if the next left vector is zero -/
theorem craigmrBidiag_zero (q : CraigmrProblem E F) {s : CraigmrLoop Fl (Vec F) (Vec E)} {v : E} {u : F} {α : ℝ}
    (hMu : s.Mu = .fin u) (hv : s.v = .fin v) (hα : s.alpha = .fin α) (h0 : q.A v - α • u = 0) :
    craigmrBidiag (Vec.op q.A) (Vec.op q.B) q.kw s = .ok (.fin 0, .fin 0, s.Nv, .fin v, .fin α, .fin 0, s.products + 1) := by
  unfold craigmrBidiag
  have hM : ∀ z : Vec F, applyPrecon q.kw.M z = z := fun _ => rfl
  simp only [hMu, hα, hv, Vec.op_fin, Vec.fin_smul, Vec.fin_sub, h0, hM, pysqrt_dot, norm_zero, ok_bind]
  rw [if_neg (by rw [gt_fin_zero]; exact lt_irrefl _)]
  rfl

/-- the bidiagonalization step if the next left vector is not zero -/
theorem craigmrBidiag_ne (q : CraigmrProblem E F) {s : CraigmrLoop Fl (Vec F) (Vec E)} {v : E} {u : F} {α : ℝ}
    (hMu : s.Mu = .fin u) (hNv : s.Nv = some (.fin v)) (hv : s.v = .fin v) (hα : s.alpha = .fin α) (h0 : q.A v - α • u ≠ 0) :
    ∃ (β α' : ℝ) (u' : F) (v' : E), 0 < β ∧ β • u' = q.A v - α • u ∧ ⟪u', u'⟫ = 1 ∧ α' • v' = q.B u' - β • v ∧ 0 ≤ α' ∧
      (α' ≠ 0 → ⟪v', v'⟫ = 1) ∧ (α' = 0 → v' = 0) ∧
      craigmrBidiag (Vec.op q.A) (Vec.op q.B) q.kw s =
        .ok (.fin u', .fin u', some (.fin v'), .fin v', .fin α', .fin β, s.products + 2) := by
  obtain ⟨k1, k2, k3, k4, k5⟩ := bidiag_next q.B v h0
  have hβ : 0 < ‖q.A v - α • u‖ := norm_pos_iff.2 h0
  refine ⟨_, _, _, _, hβ, k2, k1, k3, norm_nonneg _, k4, k5, ?_⟩
  have hM : ∀ z : Vec F, applyPrecon q.kw.M z = z := fun _ => rfl
  have hN : ∀ z : Vec E, applyPrecon q.kw.N z = z := fun _ => rfl
  unfold craigmrBidiag
  simp only [hM, hN, hMu, hα, hv, hNv, bound, Vec.op_fin, Vec.fin_smul, Vec.fin_sub, pysqrt_dot, ok_bind]
  rw [if_pos ((gt_fin_zero _).2 hβ)]
  simp only [Vec.fin_vdiv _ hβ.ne', Vec.op_fin, Vec.fin_smul, Vec.fin_sub, pysqrt_dot, ok_bind]
  generalize q.B (‖q.A v - α • u‖⁻¹ • (q.A v - α • u)) - ‖q.A v - α • u‖ • v = r
  by_cases h : r = 0
  · rw [if_neg (by rw [gt_fin_zero, h, norm_zero]; exact lt_irrefl _), h, smul_zero]; rfl
  · rw [if_pos ((gt_fin_zero _).2 (norm_pos_iff.2 h)), Vec.fin_vdiv _ (norm_ne_zero_iff.2 h)]; rfl

/-- the rotations -/
theorem craigmrRot_fin (c s α β : ℝ) : ∃ δ ah : ℝ, 0 < δ ∧ δ * δ = s * β * (s * β) + 1 ∧ 0 < ah ∧ ah * ah = α * α + δ * δ ∧
    craigmrRot (Fl.fin c) (.fin s) (.fin α) (.fin β) = .ok (.fin (c * β), .fin ah, .fin (α / ah), .fin (δ / ah)) := by
  have h1 : 0 < s * β * (s * β) + 1 := by nlinarith [mul_self_nonneg (s * β)]
  have hδ := Real.sqrt_pos.2 h1
  have hδ2 := Real.mul_self_sqrt h1.le
  set δ := Real.sqrt (s * β * (s * β) + 1) with hδd
  have h2 : 0 < α * α + δ * δ := by nlinarith [mul_self_nonneg α, mul_pos hδ hδ]
  have hah := Real.sqrt_pos.2 h2
  have hah2 := Real.mul_self_sqrt h2.le
  set ah := Real.sqrt (α * α + δ * δ) with had
  refine ⟨δ, ah, hδ, hδ2, hah, hah2, ?_⟩
  unfold craigmrRot
  have e1 : sqrt (Fl.fin s * Fl.fin β * (Fl.fin s * Fl.fin β) + lit 1) = .fin δ := by
    rw [Fl.fin_mul, Fl.fin_mul, Fl.lit_eq, Fl.fin_add, Rat.cast_one, Fl.fin_sqrt h1.le]
  have e2 : sqrt (Fl.fin α * Fl.fin α + Fl.fin δ * Fl.fin δ) = .fin ah := by
    rw [Fl.fin_mul, Fl.fin_mul, Fl.fin_add, Fl.fin_sqrt h2.le]
  simp only [e1, e2]
  simp only [Fl.fin_mul, Fl.lit_eq, pydiv_fin _ hδ.ne', pydiv_fin _ hah.ne', ok_bind]
  rfl

/-- the loop variables carry finite values -/
structure CmRel (s : CraigmrLoop Fl (Vec F) (Vec E)) (x u : F) (v : E) (α c sn : ℝ) (d dbar : F) (θ at_ ζ nx : ℝ) : Prop where
  hat0 : at_ ≠ 0
  n0 : 0 ≤ nx
  hx : s.x = .fin x
  hMu : s.Mu = .fin u
  hv : s.v = .fin v
  hα : s.alpha = .fin α
  hc : s.c = .fin c
  hs : s.s = .fin sn
  hd : s.d = .fin d
  hdbar : s.dbar = .fin dbar
  hθ : s.theta = .fin θ
  hat : s.alphaTilde = .fin at_
  hζ : s.zetaHat = .fin ζ
  hn : s.xNrgNorm2 = .fin nx

/-- the effect of an iteration on finite values -/
theorem craigmrStep_fin {q : CraigmrProblem E F} (hq : q.Valid) (lim : ℤ)
    {s : CraigmrLoop Fl (Vec F) (Vec E)} {x u : F} {v : E} {α c sn : ℝ} {d dbar : F} {θ at_ ζ nx : ℝ}
    (h : CmRel s x u v α c sn d dbar θ at_ ζ nx) {u' : F} {v' : E} {α' β : ℝ} {Nv' : Option (Vec E)} {p : ℕ}
    (hb : craigmrBidiag (Vec.op q.A) (Vec.op q.B) q.kw s = .ok (.fin u', .fin u', Nv', .fin v', .fin α', .fin β, p)) :
    ∃ δ ah ρ ch sh : ℝ, 0 < δ ∧ δ * δ = sn * β * (sn * β) + 1 ∧ 0 < ah ∧ ah * ah = α' * α' + δ * δ ∧
      0 < ρ ∧ ρ * ρ = at_ * at_ + c * β * (c * β) ∧ ch = at_ / ρ ∧ sh = c * β / ρ ∧
    ∃ t, craigmrStep (Vec.op q.A) (Vec.op q.B) q.kw lim s = .ok t ∧
      CmRel t (x + (ch * ζ) • ρ⁻¹ • (d - θ • dbar)) u' v' α' (α' / ah) (δ / ah) (ah⁻¹ • (u' - (c * β) • d)) (ρ⁻¹ • (d - θ • dbar))
        (sh * ah) (-ch * ah) (sh * ζ) (nx + ch * ζ * (ch * ζ)) ∧ t.Nv = Nv' ∧
      t.normalEqns = (if q.storeResids then s.normalEqns ++ [.fin |ch * ζ|] else s.normalEqns) ∧
      (t.istop = 8 → 0 < q.etol ∧ 0 < nx + ch * ζ * (ch * ζ)) := by
  obtain ⟨δ, ah, h1, h2, h3, h4, hrot⟩ := craigmrRot_fin c sn α' β
  have h5 : 0 < at_ * at_ + c * β * (c * β) := add_pos_of_pos_of_nonneg (mul_self_pos.2 h.hat0) (mul_self_nonneg _)
  have hρ := Real.sqrt_pos.2 h5
  have hρ2 := Real.mul_self_sqrt h5.le
  have e1 : sqrt (Fl.fin at_ * .fin at_ + .fin (c * β) * .fin (c * β)) = .fin (Real.sqrt (at_ * at_ + c * β * (c * β))) := by
    rw [Fl.fin_mul, Fl.fin_mul, Fl.fin_add, Fl.fin_sqrt h5.le]
  set ρ := Real.sqrt (at_ * at_ + c * β * (c * β))
  obtain ⟨ch, hch⟩ : ∃ ch, ch = at_ / ρ := ⟨_, rfl⟩
  obtain ⟨sh, hsh⟩ : ∃ sh, sh = c * β / ρ := ⟨_, rfl⟩
  refine ⟨δ, ah, ρ, ch, sh, h1, h2, h3, h4, hρ, hρ2, hch, hsh, ?_⟩
  have hch0 : ch ≠ 0 := by rw [hch]; exact div_ne_zero h.hat0 hρ.ne'
  have hn' : 0 ≤ nx + ch * ζ * (ch * ζ) := add_nonneg h.n0 (mul_self_nonneg _)
  have hw : pymod (s.itn + 1) q.kw.window = .ok ((s.itn + 1) % q.window) := if_neg hq.window
  unfold craigmrStep
  simp only [hb, ok_bind, h.hc, h.hs, hrot, h.hat, e1, pydiv_fin _ hρ.ne', hw, ← hch, ← hsh]
  refine ⟨_, rfl, ⟨mul_ne_zero (neg_ne_zero.2 hch0) h3.ne', hn', ?_, rfl, rfl, rfl, rfl, rfl, ?_, ?_, ?_, ?_, ?_, ?_⟩, rfl, ?_, ?_⟩
  · simp only [h.hx, h.hd, h.hθ, h.hdbar, h.hζ, Fl.fin_mul, Vec.fin_smul, Vec.fin_sub, Vec.fin_vdiv _ hρ.ne', Vec.fin_add]
  · simp only [h.hd, Vec.fin_smul, Vec.fin_sub, Vec.fin_vdiv _ h3.ne']
  · simp only [h.hd, h.hθ, h.hdbar, Vec.fin_smul, Vec.fin_sub, Vec.fin_vdiv _ hρ.ne']
  · simp only [Fl.fin_mul]
  · simp only [Fl.fin_neg, Fl.fin_mul]
  · simp only [h.hζ, Fl.fin_mul]
  · simp only [h.hn, h.hζ, Fl.fin_mul, Fl.fin_add]
  · simp only [h.hζ, Fl.fin_mul, Fl.fin_abs]; rfl
  · intro hd
    simp only [craigmrStop] at hd
    have hd : (decide (s.itn + 1 > q.kw.window) && lt (normList (s.dErr.set ((s.itn + 1) % q.window) (.fin ch * s.zetaHat)))
        (q.kw.etol * sqrt (s.xNrgNorm2 + .fin ch * s.zetaHat * (.fin ch * s.zetaHat)))) = true := by
      by_contra hcon
      rw [if_neg hcon] at hd
      split_ifs at hd <;> omega
    rw [Bool.and_eq_true] at hd
    by_cases hc : q.etol ≤ 0
    · have := normList_lt_false (s.dErr.set ((s.itn + 1) % q.window) (.fin ch * s.zetaHat)) hc
        (s.xNrgNorm2 + .fin ch * s.zetaHat * (.fin ch * s.zetaHat))
      rw [show q.kw.etol = Fl.fin q.etol from rfl, this] at hd
      simp at hd
    · refine ⟨lt_of_not_ge hc, lt_of_le_of_ne hn' ?_⟩
      intro h0
      have e3 : q.kw.etol * sqrt (s.xNrgNorm2 + .fin ch * s.zetaHat * (.fin ch * s.zetaHat)) = Fl.fin 0 * sqrt (.fin 0) := by
        rw [h.hn, h.hζ, Fl.fin_mul, Fl.fin_mul, Fl.fin_add, ← h0, Fl.fin_sqrt le_rfl, Real.sqrt_zero,
          show q.kw.etol = Fl.fin q.etol from rfl, Fl.fin_mul, Fl.fin_mul, mul_zero, mul_zero]
      rw [e3, normList_lt_false _ le_rfl] at hd
      simp at hd

/-! ### The invariant -/

/-- what the stored values mean, for the iterates `xs` -/
structure CmHist (q : CraigmrProblem E F) (s : CraigmrLoop Fl (Vec F) (Vec E)) (xs : List F) : Prop where
  itn : xs.length = s.itn + 1
  x : s.x = .fin (xs.getLastD 0)
  iterates : s.iterates = if q.storeIterates then xs.map Vec.fin else []
  norms : s.norms = if q.storeResids then xs.map (fun x => Fl.fin (‖q.K x‖ ^ 2)) else []
  normalEqns : s.normalEqns = if q.storeResids then
    (xs.zip xs.tail).map (fun p => Fl.fin (Real.sqrt (‖q.b - q.K p.1‖ ^ 2 - ‖q.b - q.K p.2‖ ^ 2))) else []
  best : ∀ i (h : i < xs.length), q.Best i xs[i]
  stop8 : s.istop = 8 → 0 < q.etol

/-- the process has not ended after `k` iterations -/
def CmGood (q : CraigmrProblem E F) (s : CraigmrLoop Fl (Vec F) (Vec E)) (k : ℕ) (x : F) : Prop :=
  ∃ u v α c sn d dbar θ at_ ζ nx, CmRel s x u v α c sn d dbar θ at_ ζ nx ∧ s.Nv = some (.fin v) ∧
  ∃ Us Us' ah p, CR q.A q.B q.b k u v α Us Us' c sn ah d ∧ CraigmrVars q.A q.B q.b u v α Us Us' c d x dbar p θ at_ ζ nx ∧
    (∀ _ : FiniteDimensional ℝ F, k ≤ Module.finrank ℝ Us') ∧ (∀ _ : FiniteDimensional ℝ E, ∀ m, Confined (q.B ∘ₗ q.A) (q.B q.b) m → k ≤ m)

/-- the process has ended: `x` is the solution -/
def CmDone (q : CraigmrProblem E F) (s : CraigmrLoop Fl (Vec F) (Vec E)) (x : F) : Prop :=
  ∃ u v α c sn d dbar θ at_, CmRel s x u v α c sn d dbar θ at_ 0 (‖q.b‖ ^ 2) ∧ (s.Nv = some (.fin v) ∨ v = 0 ∧ α = 0) ∧ q.K x = q.b

/-- the loop invariant -/
def CmInv (q : CraigmrProblem E F) (s : CraigmrLoop Fl (Vec F) (Vec E)) : Prop :=
  ∃ xs, CmHist q s xs ∧ (CmGood q s s.itn (xs.getLastD 0) ∨ CmDone q s (xs.getLastD 0))

omit [InnerProductSpace ℝ F] in
theorem zip_tail_append (xs : List F) (h : xs ≠ []) (x : F) :
    (xs ++ [x]).zip (xs ++ [x]).tail = xs.zip xs.tail ++ [(xs.getLastD 0, x)] := by
  induction xs with
  | nil => exact absurd rfl h
  | cons a l ih =>
    cases l with
    | nil => rfl
    | cons b l =>
      have := ih (by simp)
      simp only [List.cons_append, List.tail_cons, List.zip_cons_cons, List.getLastD_cons] at this ⊢
      rw [this]

/-- adding an iterate to the history -/
theorem CmHist.step {q : CraigmrProblem E F} {s t : CraigmrLoop Fl (Vec F) (Vec E)} {xs : List F} {lim : ℤ} (hh : CmHist q s xs)
    (he : CraigmrStepEff q.kw lim s t) {x : F} (hx : t.x = .fin x) (hn : t.xNrgNorm2 = .fin (‖q.K x‖ ^ 2)) {z : ℝ}
    (hz : t.normalEqns = if q.storeResids then s.normalEqns ++ [.fin |z|] else s.normalEqns)
    (hz2 : z * z = ‖q.b - q.K (xs.getLastD 0)‖ ^ 2 - ‖q.b - q.K x‖ ^ 2)
    (hb : q.Best xs.length x) (h8 : t.istop = 8 → 0 < q.etol) : CmHist q t (xs ++ [x]) := by
  have hl : (xs ++ [x]).getLastD 0 = x := List.getLastD_concat ..
  have hne : xs ≠ [] := by intro h; have := hh.itn; rw [h] at this; simp at this
  have k1 : q.kw.storeIterates = q.storeIterates := rfl
  have k2 : q.kw.storeResids = q.storeResids := rfl
  refine ⟨?_, ?_, ?_, ?_, ?_, ?_, h8⟩
  · rw [he.itn, List.length_append, hh.itn]; rfl
  · rw [hl, hx]
  · rw [he.iterates, hh.iterates, k1]
    split <;> simp [hx]
  · rw [he.norms, hh.norms, k2]
    split <;> simp [hn]
  · rw [hz, hh.normalEqns, zip_tail_append xs hne]
    split
    · simp only [List.map_append, List.map_cons, List.map_nil, ← hz2, Real.sqrt_mul_self_eq_abs]
    · rfl
  · intro i hi
    rcases Nat.lt_or_ge i xs.length with h | h
    · rw [List.getElem_append_left h]; exact hh.best i h
    · have hi' : i = xs.length := by simp at hi; omega
      subst hi'
      simpa using hb

theorem CraigmrProblem.best_of_solution {q : CraigmrProblem E F} {x : F} {k : ℕ}
    (hr : x ∈ krylov (q.A ∘ₗ q.B) q.b k) (h : q.K x = q.b) : q.Best k x :=
  ⟨hr, fun y _ => by rw [h, sub_self, norm_zero]; exact norm_nonneg _⟩

/-- an iteration from a state in which the process has not ended -/
theorem CmGood.next {q : CraigmrProblem E F} (hq : q.Valid) (lim : ℤ)
    {s : CraigmrLoop Fl (Vec F) (Vec E)} {xs : List F} (hh : CmHist q s xs) (hg : CmGood q s s.itn (xs.getLastD 0)) :
    ∃ t, craigmrStep (Vec.op q.A) (Vec.op q.B) q.kw lim s = .ok t ∧ CmInv q t := by
  obtain ⟨u, v, α, c, sn, d, dbar, θ, at_, ζ, nx, hr, hNv, Us, Us', ah0, p, hcr, hcv, hdim, hdimE⟩ := hg
  set x := xs.getLastD 0 with hxd
  obtain ⟨hnx, hζ⟩ := hcv.nx_eq hq.adj
  have hres : ‖q.b - q.K x‖ ^ 2 = ζ * ζ := by
    have : ‖q.b - q.K x‖ = |ζ| := hζ
    rw [this, sq_abs, sq]
  by_cases h0 : q.A v - α • u = 0
  · obtain ⟨δ, ah, ρ, ch, sh, hδ, hδ2, hah, hah2, hρ, hρ2, hch, hsh, t, ht, hrel, hNv', hne, h8⟩ :=
      craigmrStep_fin hq lim hr (craigmrBidiag_zero q hr.hMu hr.hv hr.hα h0)
    have he := craigmrStep_eff ht
    have hρ2' : ρ * ρ = at_ * at_ := by rw [hρ2]; ring
    have hsh0 : sh = 0 := by rw [hsh, mul_zero, zero_div]
    obtain ⟨hsol, hnb⟩ := hcv.last h0 hρ hρ2' hch
    have hsol' : q.K (x + (ch * ζ) • ρ⁻¹ • (d - θ • dbar)) = q.b := hsol
    have hmem : x + (ch * ζ) • ρ⁻¹ • (d - θ • dbar) ∈ Us :=
      Submodule.add_mem _ (hcr.le hcv.xU) (Submodule.smul_mem _ _ (Submodule.smul_mem _ _
        (Submodule.sub_mem _ hcr.dU (Submodule.smul_mem _ _ (hcr.le hcv.dbU)))))
    have hcc : ch * ch = 1 := by rw [hch]; field_simp; linear_combination -hρ2'
    refine ⟨t, ht, xs ++ [_], hh.step he hrel.hx ?_ hne ?_ (q.best_of_solution ?_ hsol') fun h => (h8 h).1, Or.inr ?_⟩
    · rw [hrel.hn, hnb, hsol']
    · rw [hsol', sub_self, norm_zero, ← hxd, hres]
      linear_combination ζ * ζ * hcc
    · rw [hh.itn, ← hcr.kry]; exact hmem
    · rw [List.getLastD_concat]
      rw [hsh0, zero_mul, zero_mul, hnb] at hrel
      exact ⟨_, _, _, _, _, _, _, _, _, hrel, Or.inl (hNv'.trans hNv), hsol'⟩
  · obtain ⟨β, α', u', v', hβ, hu, hu1, hv, hα', hv1, hv0, hbi⟩ := craigmrBidiag_ne q hr.hMu hNv hr.hv hr.hα h0
    obtain ⟨δ, ah, ρ, ch, sh, hδ, hδ2, hah, hah2, hρ, hρ2, hch, hsh, t, ht, hrel, hNv', hne, h8⟩ := craigmrStep_fin hq lim hr hbi
    have he := craigmrStep_eff ht
    obtain ⟨hcr', huo⟩ := hcr.next hq.adj hβ hu hu1 hv hα' hv1 hv0 hδ hδ2 hah hah2 rfl rfl rfl
    have hcv' := hcv.next hcr hu hu1 huo hah hcr'.Kd hρ hρ2 hch hsh
    obtain ⟨hnx', hζ'⟩ := hcv'.nx_eq hq.adj
    have hres' : ‖q.b - q.K (x + (ch * ζ) • ρ⁻¹ • (d - θ • dbar))‖ ^ 2 = sh * ζ * (sh * ζ) := by
      have : ‖q.b - q.K (x + (ch * ζ) • ρ⁻¹ • (d - θ • dbar))‖ = |sh * ζ| := hζ'
      rw [this, sq_abs, sq]
    have hcs : ch * ch + sh * sh = 1 := by rw [hch, hsh]; field_simp; linear_combination -hρ2
    refine ⟨t, ht, xs ++ [_], hh.step he hrel.hx ?_ hne ?_ ⟨?_, ?_⟩ fun h => (h8 h).1, Or.inl ?_⟩
    · rw [hrel.hn, hnx']; rfl
    · rw [← hxd, hres, hres']
      linear_combination ζ * ζ * hcs
    · rw [hh.itn, ← hcr.kry]; exact hcv'.xU
    · intro y hy
      rw [hh.itn, ← hcr.kry] at hy
      exact hcv'.minimal y hy
    · rw [List.getLastD_concat, he.itn]
      refine ⟨_, _, _, _, _, _, _, _, _, _, _, hrel, hNv', _, _, _, _, hcr', hcv', fun _ => ?_, fun _ m hm => ?_⟩
      · have hlt : Us' < Us := by
          refine lt_of_le_of_ne hcr.le fun heq => ?_
          have h1 := hcr.uorth u (heq ▸ hcr.uU)
          rw [hcr.uu] at h1
          exact one_ne_zero h1
        have := Submodule.finrank_lt_finrank_of_lt hlt
        have := hdim inferInstance
        omega
      · have hα : α ≠ 0 := fun hα => h0 (by rw [hcr.αv hα, hα, map_zero, zero_smul, sub_zero])
        obtain ⟨Vs, Vs', hgk, -⟩ := hcr.gk hα
        exact hgk.lt_confined hm

/-- an iteration after the end of the process -/
theorem CmDone.next {q : CraigmrProblem E F} (hq : q.Valid) (lim : ℤ)
    {s : CraigmrLoop Fl (Vec F) (Vec E)} {xs : List F} (hh : CmHist q s xs) (hg : CmDone q s (xs.getLastD 0)) :
    ∃ t, craigmrStep (Vec.op q.A) (Vec.op q.B) q.kw lim s = .ok t ∧ CmInv q t := by
  obtain ⟨u, v, α, c, sn, d, dbar, θ, at_, hr, hNv, hsol⟩ := hg
  have hne : xs ≠ [] := by intro h; have := hh.itn; rw [h] at this; simp at this
  have hmem : xs.getLastD 0 ∈ krylov (q.A ∘ₗ q.B) q.b xs.length := by
    have h1 : 0 < xs.length := List.length_pos_iff.2 hne
    have h2 := (hh.best (xs.length - 1) (by omega)).1
    have h3 : xs[xs.length - 1]'(by omega) = xs.getLastD 0 := by
      rw [← List.getLast_eq_getElem hne, List.getLastD_eq_getLast?, List.getLast?_eq_some_getLast hne]; rfl
    rw [h3] at h2
    exact krylov_mono _ _ (by omega) h2
  set x := xs.getLastD 0 with hxd
  obtain ⟨β, α', u', v', Nv', pr, hbi, hN'⟩ : ∃ (β α' : ℝ) (u' : F) (v' : E) (Nv' : Option (Vec E)) (pr : ℕ),
      craigmrBidiag (Vec.op q.A) (Vec.op q.B) q.kw s = .ok (.fin u', .fin u', Nv', .fin v', .fin α', .fin β, pr) ∧
      (Nv' = some (.fin v') ∨ v' = 0 ∧ α' = 0) := by
    by_cases h0 : q.A v - α • u = 0
    · exact ⟨_, _, _, _, _, _, craigmrBidiag_zero q hr.hMu hr.hv hr.hα h0, hNv⟩
    · rcases hNv with hNv | ⟨hv0, hα0⟩
      · obtain ⟨β, α', u', v', -, -, -, -, -, -, -, hbi⟩ := craigmrBidiag_ne q hr.hMu hNv hr.hv hr.hα h0
        exact ⟨_, _, _, _, _, _, hbi, Or.inl rfl⟩
      · rw [hv0, hα0, map_zero, zero_smul, sub_zero] at h0
        exact absurd rfl h0
  obtain ⟨δ, ah, ρ, ch, sh, hδ, hδ2, hah, hah2, hρ, hρ2, hch, hsh, t, ht, hrel, hNt, hnq, h8⟩ := craigmrStep_fin hq lim hr hbi
  have he := craigmrStep_eff ht
  rw [mul_zero, zero_smul, add_zero, mul_zero, mul_zero, add_zero] at hrel
  rw [mul_zero] at hnq
  refine ⟨t, ht, xs ++ [x], hh.step he hrel.hx ?_ hnq ?_ (q.best_of_solution hmem hsol) fun h => (h8 h).1, Or.inr ?_⟩
  · rw [hrel.hn, hsol]
  · rw [← hxd, sub_self, mul_zero]
  · rw [List.getLastD_concat]
    exact ⟨_, _, _, _, _, _, _, _, _, hrel, by rw [hNt]; exact hN', hsol⟩

theorem krylov_zero_craig (q : CraigmrProblem E F) : krylov (q.A ∘ₗ q.B) q.b 0 = ⊥ := by
  unfold krylov
  rw [Submodule.span_eq_bot]
  rintro z ⟨j, hj, -⟩
  omega

/-- the variables before the loop -/
theorem craigmrInit_exact {q : CraigmrProblem E F} (hq : q.Valid) :
    ∃ Mu u beta Nv v alpha p s, craigmrVectors (Vec.op q.B) q.kw (.fin q.b) = .ok (Mu, u, beta, Nv, v, alpha, p) ∧
      craigmrStart q.kw Mu u beta Nv v alpha p = .ok s ∧ CmInv q s := by
  have hM : ∀ z : Vec F, applyPrecon q.kw.M z = z := fun _ => rfl
  have hN : ∀ z : Vec E, applyPrecon q.kw.N z = z := fun _ => rfl
  have k1 : q.kw.storeIterates = q.storeIterates := rfl
  have k2 : q.kw.storeResids = q.storeResids := rfl
  have hhist : ∀ s : CraigmrLoop Fl (Vec F) (Vec E), s.itn = 0 → s.x = .fin 0 →
      s.iterates = (if q.kw.storeIterates then [.fin 0] else []) → s.norms = (if q.kw.storeResids then [.fin 0] else []) →
      s.normalEqns = [] → s.istop = 0 → CmHist q s [0] := by
    intro s h1 h2 h3 h4 h5 h6
    refine ⟨by rw [h1]; rfl, h2, by rw [h3, k1]; rfl, ?_, by rw [h5]; simp, ?_, fun h => by rw [h6] at h; cases h⟩
    · rw [h4, k2]
      simp [CraigmrProblem.K]
    · intro i hi
      have : i = 0 := by simpa using hi
      subst this
      refine ⟨Submodule.zero_mem _, fun y hy => ?_⟩
      rw [krylov_zero_craig, Submodule.mem_bot] at hy
      rw [hy]; rfl
  have hz : (zeros : Vec E) = .fin 0 := rfl
  by_cases hb : q.b = 0
  · have hvec : craigmrVectors (Vec.op q.B) q.kw (.fin q.b) = .ok (.fin 0, .fin 0, .fin 0, none, .fin 0, .fin 0, 0) := by
      unfold craigmrVectors
      simp only [hM, pysqrt_dot, ok_bind, hb, norm_zero]
      rw [if_neg (by rw [gt_fin_zero]; exact lt_irrefl _), Fl.lit_eq, Rat.cast_zero]
      rfl
    have e1 : sqrt (Fl.fin 0 * Fl.fin 0 + lit 1) = .fin 1 := by
      rw [Fl.fin_mul, Fl.lit_eq, Fl.fin_add, Rat.cast_one, Fl.fin_sqrt (by norm_num)]; norm_num
    refine ⟨.fin 0, .fin 0, .fin 0, none, .fin 0, .fin 0, 0, ?_⟩
    unfold craigmrStart
    simp only [e1]
    simp only [Fl.lit_eq, Rat.cast_one, Rat.cast_zero, pydiv_fin _ (one_ne_zero (α := ℝ)), ok_bind, Vec.fin_vdiv _ (one_ne_zero (α := ℝ))]
    refine ⟨_, hvec, rfl, [0], hhist _ rfl rfl rfl rfl rfl rfl, Or.inr ⟨_, _, _, _, _, _, _, _, _,
      ⟨one_ne_zero, ?_, rfl, rfl, rfl, rfl, rfl, rfl, rfl, rfl, rfl, rfl, rfl, ?_⟩, Or.inr ⟨rfl, rfl⟩, ?_⟩⟩
    · positivity
    · rw [hb]; simp
    · simp [CraigmrProblem.K, hb]
  · have hβ : 0 < ‖q.b‖ := norm_pos_iff.2 hb
    obtain ⟨k1, k2, k3, k4, k5⟩ := bidiag_next q.B 0 hb
    simp only [smul_zero, sub_zero] at k3 k4 k5
    set u := ‖q.b‖⁻¹ • q.b with hu
    set α := ‖q.B u‖ with hα
    set v := α⁻¹ • q.B u with hv
    have hvec : craigmrVectors (Vec.op q.B) q.kw (.fin q.b) =
        .ok (.fin u, .fin u, .fin ‖q.b‖, some (.fin v), .fin v, .fin α, 1) := by
      unfold craigmrVectors
      simp only [hM, hN, pysqrt_dot, ok_bind]
      rw [if_pos ((gt_fin_zero _).2 hβ)]
      simp only [Vec.fin_vdiv _ hβ.ne', Vec.op_fin, pysqrt_dot, ok_bind]
      by_cases h : q.B u = 0
      · rw [if_neg (by rw [gt_fin_zero, h, norm_zero]; exact lt_irrefl _), hv, h, smul_zero]
        rw [hα, h]; rfl
      · rw [if_pos ((gt_fin_zero _).2 (norm_pos_iff.2 h)), Vec.fin_vdiv _ (norm_ne_zero_iff.2 h)]; rfl
    have hp : 0 < α * α + 1 := by nlinarith [mul_self_nonneg α]
    have hah := Real.sqrt_pos.2 hp
    have hah2 := Real.mul_self_sqrt hp.le
    have e1 : sqrt (Fl.fin α * Fl.fin α + lit 1) = .fin (Real.sqrt (α * α + 1)) := by
      rw [Fl.fin_mul, Fl.lit_eq, Fl.fin_add, Rat.cast_one, Fl.fin_sqrt hp.le]
    set ah := Real.sqrt (α * α + 1)
    have hcr := CR.init (A := q.A) (b := q.b) hq.adj hβ k2 k1 k3 (norm_nonneg _) k4 k5 hah hah2 rfl rfl
    have hcv := CraigmrVars.init k2 k1 hcr
    refine ⟨.fin u, .fin u, .fin ‖q.b‖, some (.fin v), .fin v, .fin α, 1, ?_⟩
    unfold craigmrStart
    simp only [e1]
    simp only [Fl.lit_eq, Rat.cast_one, Rat.cast_zero, pydiv_fin _ hah.ne', ok_bind, Vec.fin_vdiv _ hah.ne']
    exact ⟨_, hvec, rfl, [0], hhist _ rfl rfl rfl rfl rfl rfl, Or.inl ⟨_, _, _, _, _, _, _, _, _, _, _,
      ⟨hah.ne', le_rfl, rfl, rfl, rfl, rfl, rfl, rfl, rfl, rfl, rfl, rfl, rfl, rfl⟩, rfl, _, _, _, _, hcr, hcv, fun _ => Nat.zero_le _, fun _ _ _ => Nat.zero_le _⟩⟩

/-- what is known when `solve` ends -/
theorem craigmrSolve_exact {q : CraigmrProblem E F} (hq : q.Valid) :
    ∃ res s, craigmrSolve (Vec.op q.A) (Vec.op q.B) q.m q.n (.fin q.b) q.kw = .ok (res, s) ∧ res = craigmrResult s ∧ CmInv q s := by
  obtain ⟨Mu, u, beta, Nv, v, alpha, p, s0, h1, h2, hinv⟩ := craigmrInit_exact hq
  obtain ⟨t, ht, hi, hc⟩ := exceptLoop_total (cont := craigmrCont (craigmrLimit q.m q.n q.kw.itnlim))
    (step := craigmrStep (Vec.op q.A) (Vec.op q.B) q.kw (craigmrLimit q.m q.n q.kw.itnlim))
    (μ := fun s => (craigmrLimit q.m q.n q.kw.itnlim - s.itn).toNat)
    (h := fun s t h ht h' => by
      have := craigmrStep_itn ht
      simp only [craigmrCont, Bool.and_eq_true, decide_eq_true_eq] at h h'
      omega)
    (CmInv q)
    (fun s hs hc => by
      obtain ⟨xs, hh, hg | hg⟩ := hs
      · exact CmGood.next hq _ hh hg
      · exact CmDone.next hq _ hh hg) s0 hinv
  have hloop : craigmrLoop (Vec.op q.A) (Vec.op q.B) q.kw (craigmrLimit q.m q.n q.kw.itnlim) s0 = .ok t := ht
  unfold craigmrSolve
  simp only [h1, h2, hloop, ok_bind]
  exact ⟨_, t, rfl, rfl, hi⟩

/-! ### C42 and C53 -/

/-- **C53.** In exact arithmetic, without preconditioners, for every operator, right-hand side (zero or not) and keywords, CRAIG-MR
returns, and there are vectors `xs 0, ..., xs itn` in the space of the right-hand side such that: `res.x` is the last one; `xs i`
minimizes the norm of `b - (AA' + I) x` in the span of `b, ..., (AA')^(i-1) b`; the stored iterates are the `xs i`; the stored norms
are `|(AA' + I) xs i|^2`, and the stored values `normal_eqns_resids` are the square roots of the decrease of the squared residual norm;
the status 8 is reported only if `etol` is positive. -/
theorem C53_minimizes (q : CraigmrProblem E F) (hq : q.Valid) :
    ∃ res s, craigmrSolve (Vec.op q.A) (Vec.op q.B) q.m q.n (.fin q.b) q.kw = .ok (res, s) ∧
    ∃ xs : List F, xs.length = res.itn + 1 ∧ res.x = .fin (xs.getLastD 0) ∧
      (∀ i (h : i < xs.length), xs[i] ∈ krylov (q.A ∘ₗ q.B) q.b i ∧
        ∀ y ∈ krylov (q.A ∘ₗ q.B) q.b i, ‖q.b - (xs[i] + q.A (q.B xs[i]))‖ ≤ ‖q.b - (y + q.A (q.B y))‖) ∧
      (q.storeIterates = true → res.iterates = xs.map Vec.fin) ∧
      (q.storeResids = true → res.norms = xs.map (fun x => Fl.fin (‖x + q.A (q.B x)‖ ^ 2)) ∧
        res.normalEqns = (xs.zip xs.tail).map (fun p =>
          Fl.fin (Real.sqrt (‖q.b - (p.1 + q.A (q.B p.1))‖ ^ 2 - ‖q.b - (p.2 + q.A (q.B p.2))‖ ^ 2)))) ∧
      (res.istop = 8 → 0 < q.etol) := by
  obtain ⟨res, s, hs, rfl, xs, hh, -⟩ := craigmrSolve_exact hq
  refine ⟨_, s, hs, xs, hh.itn, hh.x, hh.best, ?_, ?_, hh.stop8⟩
  · intro hk
    exact hh.iterates.trans (if_pos hk)
  · intro hk
    exact ⟨hh.norms.trans (if_pos hk), hh.normalEqns.trans (if_pos hk)⟩

/-- the end of CRAIG-MR when the limit is large enough -/
theorem craigmr_end (q : CraigmrProblem E F) (hq : q.Valid) (he : q.etol ≤ 0)
    (hd : (∃ _ : FiniteDimensional ℝ F, (Module.finrank ℝ F : ℤ) ≤ q.itnlim.getD (min q.m q.n : ℕ)) ∨
      (∃ _ : FiniteDimensional ℝ E, ∃ d : ℕ, Confined (q.B ∘ₗ q.A) (q.B q.b) d ∧ (d : ℤ) + 1 ≤ q.itnlim.getD (min q.m q.n : ℕ))) :
    ∃ res s x, craigmrSolve (Vec.op q.A) (Vec.op q.B) q.m q.n (.fin q.b) q.kw = .ok (res, s) ∧ res.x = .fin x ∧
      x + q.A (q.B x) = q.b := by
  obtain ⟨res, s, hs, rfl, xs, hh, hg⟩ := craigmrSolve_exact hq
  refine ⟨_, s, _, hs, hh.x, ?_⟩
  obtain ⟨hle, hmem, h0, h0', h7, -⟩ := C42_status _ _ _ _ _ _ _ _ hs
  have hlim : q.kw.itnlim = q.itnlim := rfl
  rw [hlim] at hle h0 h0' h7
  have hit : (craigmrResult s).itn = s.itn := rfl
  have hist : (craigmrResult s).istop = s.istop := rfl
  rw [hit] at hle h0' h7
  rw [hist] at hmem h0 h7
  generalize q.itnlim.getD (min q.m q.n : ℕ) = lim at *
  have h8 : s.istop ≠ 8 := fun h => by linarith [hh.stop8 h]
  have hk : lim ≤ (s.itn : ℤ) := by
    simp only [List.mem_cons, List.not_mem_nil, or_false] at hmem
    rcases hmem with h | h | h
    · have := h0.1 h
      have := h0' this
      omega
    · have := h7.1 h
      omega
    · exact absurd h h8
  rcases hg with ⟨u, v, α, c, sn, d, dbar, θ, at_, ζ, nx, hr, hNv, Us, Us', ah0, p, hcr, hcv, hdim, hdimE⟩ |
    ⟨u, v, α, c, sn, d, dbar, θ, at_, hr, hNv, hsol⟩
  · exfalso
    rcases hd with ⟨hF, hd⟩ | ⟨hE, m, hm, hd⟩
    · have h1 := hdim hF
      have hlt : Us' < Us := by
        refine lt_of_le_of_ne hcr.le fun heq => ?_
        have h1 := hcr.uorth u (heq ▸ hcr.uU)
        rw [hcr.uu] at h1
        exact one_ne_zero h1
      have h2 := Submodule.finrank_lt_finrank_of_lt hlt
      have h3 := Submodule.finrank_le Us
      omega
    · have := hdimE hE m hm
      omega
  · exact hsol

/-- C53 and C71: `A'b` is confined to `d` dimensions under `A'A` -/
theorem craigmr_confined [FiniteDimensional ℝ E] (q : CraigmrProblem E F) (hq : q.Valid) (he : q.etol ≤ 0) {d : ℕ}
    (hd : Confined (q.B ∘ₗ q.A) (q.B q.b) d) (hl : (d : ℤ) + 1 ≤ q.itnlim.getD (min q.m q.n : ℕ)) :
    ∃ res s x, craigmrSolve (Vec.op q.A) (Vec.op q.B) q.m q.n (.fin q.b) q.kw = .ok (res, s) ∧ res.x = .fin x ∧
      x + q.A (q.B x) = q.b :=
  craigmr_end q hq he (Or.inr ⟨inferInstance, d, hd, hl⟩)

/-- **C53, convergence.** In exact arithmetic, if `etol` is not positive and the iteration limit is at least the dimension of the
space of the right-hand side, or exceeds the dimension of the domain of `A`, then the result is the solution of `(AA' + I) x = b`. -/
theorem C53_converges (q : CraigmrProblem E F) (hq : q.Valid) (he : q.etol ≤ 0)
    (hd : (∃ _ : FiniteDimensional ℝ F, (Module.finrank ℝ F : ℤ) ≤ q.itnlim.getD (min q.m q.n : ℕ)) ∨
      (∃ _ : FiniteDimensional ℝ E, (Module.finrank ℝ E : ℤ) + 1 ≤ q.itnlim.getD (min q.m q.n : ℕ))) :
    ∃ res s x, craigmrSolve (Vec.op q.A) (Vec.op q.B) q.m q.n (.fin q.b) q.kw = .ok (res, s) ∧ res.x = .fin x ∧
      x + q.A (q.B x) = q.b := by
  refine craigmr_end q hq he (hd.imp id ?_)
  rintro ⟨hE, hd⟩
  exact ⟨hE, _, confined_of_finrank le_rfl, hd⟩

/-- **C42.** In exact arithmetic a zero right-hand side gives the zero vector, for every operator and all keywords. -/
theorem C42_zero (q : CraigmrProblem E F) (hq : q.Valid) (hb : q.b = 0) :
    ∃ res s, craigmrSolve (Vec.op q.A) (Vec.op q.B) q.m q.n (.fin q.b) q.kw = .ok (res, s) ∧ res.x = .fin 0 := by
  obtain ⟨res, s, hs, rfl, xs, hh, -⟩ := craigmrSolve_exact hq
  refine ⟨_, s, hs, ?_⟩
  have hne : xs ≠ [] := by intro h; have := hh.itn; rw [h] at this; simp at this
  have h1 : 0 < xs.length := List.length_pos_iff.2 hne
  have h2 := (hh.best (xs.length - 1) (by omega)).1
  have h3 : xs[xs.length - 1]'(by omega) = xs.getLastD 0 := by
    rw [← List.getLast_eq_getElem hne, List.getLastD_eq_getLast?, List.getLast?_eq_some_getLast hne]; rfl
  rw [h3, hb] at h2
  have h4 : krylov (q.A ∘ₗ q.B) 0 (xs.length - 1) = ⊥ := by
    unfold krylov
    rw [Submodule.span_eq_bot]
    rintro z ⟨j, hj, rfl⟩
    exact map_zero _
  rw [h4, Submodule.mem_bot] at h2
  have : (craigmrResult s).x = s.x := rfl
  rw [this, hh.x, h2]

/-! ### Examples -/

/-- the identity on the real line, right-hand side 2, default limit -/
noncomputable def craigmrExample : CraigmrProblem ℝ ℝ where
  A := LinearMap.id
  B := LinearMap.id
  b := 2
  m := 1
  n := 1
  damp := 0
  itnlim := none
  atol := 0
  btol := 0
  etol := 0
  conlim := 0
  storeResids := true
  storeIterates := true
  window := 5

theorem craigmrExample_valid : craigmrExample.Valid := ⟨fun _ _ => rfl, by decide⟩

/-- the hypotheses of `C53_minimizes`, `C53_converges` and `C42_status` are met: CRAIG-MR returns 1 for `x = 2` -/
example : ∃ res s, craigmrSolve (Vec.op craigmrExample.A) (Vec.op craigmrExample.B) 1 1 (.fin (2:ℝ)) craigmrExample.kw = .ok (res, s) ∧
    res.x = .fin (1:ℝ) := by
  obtain ⟨res, s, x, hs, hx, h1⟩ := C53_converges craigmrExample craigmrExample_valid
    (by norm_num [craigmrExample]) (Or.inl ⟨inferInstance, by norm_num [craigmrExample]⟩)
  refine ⟨res, s, hs, ?_⟩
  have h1' : x + x = 2 := h1
  rw [hx]
  congr 1
  linarith

/-- the hypothesis of `C42_zero` is met -/
example : ({ craigmrExample with b := 0 } : CraigmrProblem ℝ ℝ).b = 0 := rfl

/-- the operator `t -> (t, 0)` from the line to the plane, right-hand side `(1, 1)`, default limit `min(2, 1)` -/
noncomputable def craigmrShort : CraigmrProblem ℝ (EuclideanSpace ℝ (Fin 2)) where
  A := LinearMap.toSpanSingleton ℝ _ (EuclideanSpace.single 0 1)
  B := innerₛₗ ℝ (EuclideanSpace.single 0 1)
  b := EuclideanSpace.single 0 1 + EuclideanSpace.single 1 1
  m := 2
  n := 1
  damp := 0
  itnlim := none
  atol := 0
  btol := 0
  etol := 0
  conlim := 0
  storeResids := false
  storeIterates := false
  window := 5

theorem craigmrShort_valid : craigmrShort.Valid := by
  refine ⟨fun x y => ?_, by decide⟩
  simp only [craigmrShort, LinearMap.toSpanSingleton_apply, inner_smul_left, innerₛₗ_apply_apply, conj_trivial]
  rw [show inner ℝ x (inner ℝ (EuclideanSpace.single (0 : Fin 2) (1:ℝ)) y) = inner ℝ (EuclideanSpace.single (0 : Fin 2) (1:ℝ)) y * x from rfl,
    mul_comm]

/-- **C53, negative.** The default iteration limit, `min(m, n)`, can be too small in exact arithmetic: for the operator `t -> (t, 0)`
and the right-hand side `(1, 1)`, CRAIG-MR with default limit returns a vector that does not solve `(AA' + I) x = b`. -/
theorem C53_default_limit_short :
    ∃ res s x, craigmrSolve (Vec.op craigmrShort.A) (Vec.op craigmrShort.B) 2 1 (.fin craigmrShort.b) craigmrShort.kw = .ok (res, s) ∧
      res.x = .fin x ∧ x + craigmrShort.A (craigmrShort.B x) ≠ craigmrShort.b := by
  obtain ⟨res, s, hs, xs, hl, hx, hb, -⟩ := C53_minimizes craigmrShort craigmrShort_valid
  refine ⟨res, s, _, hs, hx, ?_⟩
  have hle := (C42_status _ _ _ _ _ _ _ _ hs).1
  have hle : (res.itn : ℤ) ≤ 1 := hle
  have hne : xs ≠ [] := by intro h; rw [h] at hl; simp at hl
  have h2 := (hb (xs.length - 1) (by omega)).1
  have h3 : xs[xs.length - 1]'(by omega) = xs.getLastD 0 := by
    rw [← List.getLast_eq_getElem hne, List.getLastD_eq_getLast?, List.getLast?_eq_some_getLast hne]; rfl
  rw [h3] at h2
  generalize xs.getLastD 0 = x at h2
  have h4 := krylov_mono _ _ (show xs.length - 1 ≤ 1 by omega) h2
  have h5 : x ∈ Submodule.span ℝ {craigmrShort.b} := by
    refine Submodule.span_mono ?_ h4
    rintro v ⟨j, hj, rfl⟩
    have : j = 0 := by omega
    rw [this]; rfl
  obtain ⟨t, rfl⟩ := Submodule.mem_span_singleton.1 h5
  intro h
  have e0 := congrArg (fun z : EuclideanSpace ℝ (Fin 2) => z 0) h
  have e1 := congrArg (fun z : EuclideanSpace ℝ (Fin 2) => z 1) h
  simp [craigmrShort, inner_add_right, EuclideanSpace.inner_single_left] at e0 e1
  linarith

end Verif.Solver
