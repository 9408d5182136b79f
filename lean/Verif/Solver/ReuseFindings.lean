import Verif.Solver.ReuseProps

/-!
# C69: where the code violates the property, and instances
-/

namespace Verif.Solver
open Scalar Vect

/-! ## Violations -/

/-- **C69, negative.**  MINRES: whenever a call makes an iteration, `residHistory` after a second, equal call is not what it is after the
first. -/
theorem C69_minres_doubles {S V : Type} [Scalar S] [Vect S V] (op : V → V) (eps : S) (n : Nat) (b : V) (kw : MinresKw S V)
    (res : MinresRes S V) (products : List V) (hs : minresSolve op eps n {} b kw = .ok (res, products)) (hne : res.residHistory ≠ []) :
    ¬ AsNew (minresClass op eps) ["status", "show"] := by
  intro h
  have hc := fun a => minres_call op eps a ((n, b, kw), res, products) hs
  obtain ⟨a, ha, hh⟩ := h _ (.returned .new (hc (minresClass op eps).init)) _ _ (hc _)
  rw [hc] at ha
  cases ha
  have := hh "residHistory" (by simp)
  have e : ∀ a : Attrs S V V, ∀ l, a "residHistory" = some (.list l) →
      writeAll (minresWrites (minresShow kw b) res) a "residHistory" = some (.list (l ++ res.residHistory.map .scal)) := by
    intro a l hl
    generalize minresShow kw b = sh
    cases sh <;> by_cases h10 : res.istop = 10 <;> simp [minresWrites, writeAll_eq, Wr.step, h10, hl]
  have e0 := e (minresClass op eps).init [] (by simp [minresClass, attrsOf])
  rw [e _ _ e0, e0] at this
  simp only [Option.some.injEq, PyV.list.injEq, List.nil_append] at this
  have := congrArg List.length this
  simp only [List.length_append, List.length_map] at this
  exact hne (List.eq_nil_of_length_eq_zero (by omega))

/-- **C69, negative.**  The last theorem applies to `A = 2` of order one and `b = 3`. -/
theorem C69_minres_violated : ¬ AsNew (minresClass (Vec.op twoProblem.A) (.fin 0)) ["status", "show"] := by
  obtain ⟨res, products, hs, -, h1, -, h5⟩ := C34_beta2_nan twoProblem (by norm_num [twoProblem]) 2 (by simp [twoProblem])
    (by simp [twoProblem]) 0 (le_refl _) 1 (by simp [twoProblem]) {}
  obtain ⟨res', products', h', -, -, -, -, -, -, -, -, -, -, new, hn, hl, -⟩ :=
    C34_status_partial (Vec.op twoProblem.A) (.fin 0) 1 {} (.fin twoProblem.b) twoProblem.kw (by simp [MinresProblem.kw, twoProblem])
  rw [hs] at h'
  simp only [Except.ok.injEq, Prod.mk.injEq] at h'
  obtain ⟨rfl, rfl⟩ := h'
  refine C69_minres_doubles _ _ _ _ _ _ _ hs ?_
  have := hl (by rw [h1]; decide)
  rw [h5] at this
  rw [hn, List.nil_append]
  intro e
  rw [e] at this
  simp [twoProblem] at this

/-- the hypotheses of `C69_minres_show` are met: `A = 2` of order one and `b = 3` leave `show` as it was -/
example (a : Attrs Fl (Vec ℝ) (Vec ℝ)) :
    ∃ a', (minresClass (Vec.op twoProblem.A) (.fin 0)).call a (1, .fin 3, twoProblem.kw) = .ok a' ∧ a' "show" = a "show" := by
  obtain ⟨res, products, hs, -⟩ := C34_beta2_nan twoProblem (by norm_num [twoProblem]) 2 (by simp [twoProblem])
    (by simp [twoProblem]) 0 (le_refl _) 1 (by simp [twoProblem]) {}
  refine ⟨_, minres_call _ _ a ((1, .fin 3, twoProblem.kw), res, products) hs, ?_⟩
  refine (C69_minres_show _ _ 1 _ _ a _ (minres_call _ _ a ((1, .fin 3, twoProblem.kw), res, products) hs)).1 ⟨?_, ?_, fun _ => rfl⟩
  · rw [← Bool.not_eq_true]
    change ¬ lt (dot (Vec.fin (3 : ℝ)) (Vec.fin 3)) (lit 0 : Fl) = true
    rw [Vec.fin_dot, Fl.lit_eq, Fl.fin_lt]
    norm_num
  · rw [← Bool.not_eq_true]
    change ¬ feq (dot (Vec.fin (3 : ℝ)) (Vec.fin 3)) (lit 0 : Fl) = true
    rw [Vec.fin_dot, Fl.lit_eq, feq, Bool.and_eq_true, Fl.fin_le, Fl.fin_le]
    norm_num

/-! ### A stale `status` -/

/-- the exchange of two coordinates with `etol = 2` and a window of one -/
noncomputable def swapDirect : MinresProblem (EuclideanSpace ℝ (Fin 2)) :=
  { A := swapOp, b := !₂[1, 0], shift := 0, check := true, itnlim := none, rtol := 0, etol := 2, storeIterates := false, window := 1 }

theorem dot2 (a b c d : ℝ) : dot (Vec.fin (!₂[a, b] : EuclideanSpace ℝ (Fin 2))) (Vec.fin !₂[c, d]) = Fl.fin (a * c + b * d) := by
  rw [Vec.fin_dot]
  simp [PiLp.inner_apply, Fin.sum_univ_two, mul_comm]

theorem smul2 (c a b : ℝ) : smul (Fl.fin c) (Vec.fin (!₂[a, b] : EuclideanSpace ℝ (Fin 2))) = Vec.fin !₂[c * a, c * b] := by
  rw [Vec.fin_smul]
  congr 1
  ext i; fin_cases i <;> simp

theorem add2 (a b c d : ℝ) : Vec.fin (!₂[a, b] : EuclideanSpace ℝ (Fin 2)) + Vec.fin !₂[c, d] = Vec.fin !₂[a + c, b + d] := by
  rw [Vec.fin_add]
  congr 1
  ext i; fin_cases i <;> simp

theorem sub2 (a b c d : ℝ) : Vec.fin (!₂[a, b] : EuclideanSpace ℝ (Fin 2)) - Vec.fin !₂[c, d] = Vec.fin !₂[a - c, b - d] := by
  rw [Vec.fin_sub]
  congr 1
  ext i; fin_cases i <;> simp

theorem swap2 (a b : ℝ) : Vec.op swapOp (Vec.fin !₂[a, b]) = Vec.fin !₂[b, a] := by
  change Vec.fin (swapOp !₂[a, b]) = _
  simp [swapOp]

theorem zeros2 : (zeros : Vec (EuclideanSpace ℝ (Fin 2))) = Vec.fin !₂[0, 0] := by
  change Vec.fin 0 = _
  congr 1
  ext i; fin_cases i <;> simp

theorem swapDirect_start : minresStart swapDirect.kw (.fin !₂[1, 0]) = (.fin !₂[1, 0], .fin 1) := by
  have : gt (Fl.fin 1) (lit 0) = true := by
    change lt (lit 0) (Fl.fin 1) = true
    rw [Fl.lit_eq, Fl.fin_lt]; norm_num
  have hk : swapDirect.kw.precon = none := rfl
  simp only [minresStart, hk, applyPrecon, dot2, mul_one, mul_zero, add_zero, this, if_true, Fl.fin_sqrt zero_le_one, Real.sqrt_one]

theorem fdiv (a b : ℝ) (h : b ≠ 0) : Fl.fin a / Fl.fin b = Fl.fin (a / b) := Fl.fin_div a h

theorem swapDirect_entry : minresEntry swapDirect.kw (.fin !₂[1, 0]) = (0, false) := by
  have hk : swapDirect.kw.precon = none := rfl
  have hc : swapDirect.kw.symOK = true := rfl
  have h1 : feq (Fl.fin 1) (lit 0) = false := by
    rw [← Bool.not_eq_true]; simp [feq]
  have hlt : lt (Fl.fin 1) (lit 0) = false := by
    rw [← Bool.not_eq_true, Fl.lit_eq, Fl.fin_lt]; norm_num
  simp only [minresEntry, hk, applyPrecon, dot2, mul_one, mul_zero, add_zero, hlt, h1, hc]
  rfl

theorem swapDirect_lanczos1 (self : MinresObj Fl (Vec (EuclideanSpace ℝ (Fin 2)))) :
    minresLanczos (Vec.op swapOp) swapDirect.kw 1 (minresInit swapDirect.kw self (.fin !₂[1, 0])) =
      (.fin !₂[1, 0], .fin 0, .fin !₂[0, 1], .fin !₂[0, 1], .fin 1) := by
  have hk : swapDirect.kw.precon = none := rfl
  have hs : swapDirect.kw.shift = .fin 0 := rfl
  simp only [minresLanczos, minresInit, swapDirect_start, hk, hs, applyPrecon, Fl.lit_eq, fdiv _ _ one_ne_zero, smul2, swap2, sub2, dot2, add2,
    Fl.fin_neg, show ¬ ((1:ℕ) ≥ 2) by decide, if_false]
  norm_num

/-- what iteration 1 leaves -/
structure Swap1 (s : MinresLoop Fl (Vec (EuclideanSpace ℝ (Fin 2)))) : Prop where
  itn : s.itn = 1
  broke : s.broke = false
  istop : s.istop = 0
  beta : s.beta = .fin 1
  oldb : s.oldb = .fin 1
  y : s.y = .fin !₂[0, 1]
  r1 : s.r1 = .fin !₂[1, 0]
  r2 : s.r2 = .fin !₂[0, 1]
  cs : s.cs = .fin 0
  sn : s.sn = .fin 1
  dbar : s.dbar = .fin 1
  phibar : s.phibar = .fin 1
  xn : s.xNrgNorm2 = .fin 0
  dErr : s.dErr = [.fin 0]

theorem swapDirect_step1 (self : MinresObj Fl (Vec (EuclideanSpace ℝ (Fin 2)))) :
    Swap1 (minresStep (Vec.op swapOp) (.fin (1 / 1000)) swapDirect.kw 10 (.fin 1) (minresInit swapDirect.kw self (.fin !₂[1, 0]))) := by
  have hlt : lt (Fl.fin 1) (lit 0) = false := by
    rw [← Bool.not_eq_true, Fl.lit_eq, Fl.fin_lt]; norm_num
  have h0 : (minresInit swapDirect.kw self (.fin !₂[1, 0])).itn = 0 := rfl
  unfold minresStep
  simp only [h0, Nat.zero_add, swapDirect_lanczos1, hlt, Bool.false_eq_true, if_false]
  simp only [minresInit, swapDirect_start]
  have he := swapDirect_entry
  simp only [he, Fl.lit_eq, Fl.fin_sqrt zero_le_one, Real.sqrt_one, normof2_fin, Fl.fin_mul, Fl.fin_add, Fl.fin_sub, Fl.fin_neg, Fl.fin_abs, Fl.fin_pymax]
  norm_num
  have d1 : Fl.fin 1 / Fl.fin 1 = Fl.fin 1 := by rw [fdiv _ _ one_ne_zero, div_one]
  have d0 : Fl.fin 0 / Fl.fin 1 = Fl.fin 0 := by rw [fdiv _ _ one_ne_zero, div_one]
  have hw : swapDirect.kw.window = 1 := rfl
  have hr : swapDirect.kw.rtol = .fin 0 := rfl
  have hp : pymin (Fl.fin 0) (Fl.fin 1) = Fl.fin 0 := by simp [pymin]
  have hz : Fl.fin 1 / Fl.fin 0 = Fl.nan := by
    change Fl.div _ _ = _
    simp [Fl.div]
  have h2 : sqrt (Fl.fin 2) = Fl.fin (Real.sqrt 2) := Fl.fin_sqrt (by norm_num)
  have h21 : (1 : ℝ) < Real.sqrt 2 := by
    rw [show (1 : ℝ) = Real.sqrt 1 from Real.sqrt_one.symm]
    exact Real.sqrt_lt_sqrt zero_le_one (by norm_num)
  have h22 : Real.sqrt 2 < 2 := by
    rw [Real.sqrt_lt' (by norm_num)]; norm_num
  have hi : minresTests (Fl.fin (1 / 1000)) swapDirect.kw.rtol (Fl.fin 1) 10 1
          (Fl.fin 1 / Fl.fin 1 * Fl.fin 1 /
            (sqrt (Fl.fin 2) * sqrt (Fl.fin 1 / Fl.fin 1 * (Fl.fin 1 / Fl.fin 1) + Fl.fin 0)))
          (Fl.fin 1 / sqrt (Fl.fin 2)) (Fl.fin 1 / pymin (Fl.fin 0) (Fl.fin 1))
          (sqrt (Fl.fin 2) * sqrt (Fl.fin 1 / Fl.fin 1 * (Fl.fin 1 / Fl.fin 1) + Fl.fin 0) * Fl.fin (1 / 1000))
          (minresDirErr swapDirect.kw.etol
            (normList
              ((List.replicate swapDirect.kw.window (Fl.fin 0)).set (1 % swapDirect.kw.window)
                (Fl.fin 0 / Fl.fin 1 * Fl.fin 1)))
            (sqrt (Fl.fin 0 + Fl.fin 0 / Fl.fin 1 * Fl.fin 1 * (Fl.fin 0 / Fl.fin 1 * Fl.fin 1))) swapDirect.kw.window 1
            (minresBeta2 (Fl.fin (1 / 1000)) (Fl.fin 1) (Fl.fin 1) 1 0)) = 0 := by
    have hb : minresBeta2 (Fl.fin (1 / 1000)) (Fl.fin 1) (Fl.fin 1) 1 0 = 0 := by
      simp only [minresBeta2, d1, Fl.lit_eq, Fl.fin_mul, Fl.fin_le]
      rw [if_neg]
      norm_num
    have hd : ∀ a b c : Fl, minresDirErr a b c 1 1 (0 : Int) = (0 : Int) := by
      intro a b c
      simp [minresDirErr]
    have hs2 : (0 : ℝ) < 1 / Real.sqrt 2 := by positivity
    have hge : ∀ a b : Fl, ge a b = le b a := fun _ _ => rfl
    simp only [hb, hw, hd, d1, d0, h2, Fl.fin_mul, Fl.fin_add, one_mul, mul_one, add_zero, Fl.fin_sqrt zero_le_one, Real.sqrt_one,
      fdiv _ _ (show Real.sqrt 2 ≠ 0 by positivity), hp, hz, hr, minresTests, Fl.lit_eq, Fl.fin_le, if_true, hge, Fl.le_nan]
    rw [if_neg (by linarith), if_neg (by linarith), if_neg (by linarith)]
    norm_num
    rw [if_neg (by linarith), if_neg (by linarith)]
  rw [hi]
  constructor <;> simp [d1, d0, hw]

theorem swapDirect_step2 (s : MinresLoop Fl (Vec (EuclideanSpace ℝ (Fin 2)))) (h : Swap1 s) :
    (minresStep (Vec.op swapOp) (.fin (1 / 1000)) swapDirect.kw 10 (.fin 1) s).istop = 10 ∧
    (minresStep (Vec.op swapOp) (.fin (1 / 1000)) swapDirect.kw 10 (.fin 1) s).broke = true := by
  have hk : swapDirect.kw.precon = none := rfl
  have hs : swapDirect.kw.shift = .fin 0 := rfl
  have hL : minresLanczos (Vec.op swapOp) swapDirect.kw 2 s =
      (.fin !₂[0, 1], .fin 0, .fin !₂[0, 0], .fin !₂[0, 0], .fin 0) := by
    simp only [minresLanczos, h.beta, h.oldb, h.y, h.r1, h.r2, hk, hs, applyPrecon, Fl.lit_eq, fdiv _ _ one_ne_zero, smul2, swap2, sub2, dot2,
      add2, Fl.fin_neg, ge_iff_le, le_refl, if_true]
    norm_num
  have hlt : lt (Fl.fin 0) (lit 0) = false := by
    rw [← Bool.not_eq_true, Fl.lit_eq, Fl.fin_lt]; norm_num
  have d1 : Fl.fin 1 / Fl.fin 1 = Fl.fin 1 := by rw [fdiv _ _ one_ne_zero, div_one]
  have hw : swapDirect.kw.window = 1 := rfl
  have het : swapDirect.kw.etol = .fin 2 := rfl
  unfold minresStep
  simp only [h.itn, Nat.reduceAdd, hL, hlt, Bool.false_eq_true, if_false, h.cs, h.sn, h.dbar, h.phibar, h.xn, h.dErr]
  simp only [Fl.fin_mul, Fl.fin_add, Fl.fin_sub, Fl.fin_sqrt le_rfl, Real.sqrt_zero, normof2_fin, Fl.fin_pymax]
  norm_num
  simp only [d1, Fl.fin_mul, mul_one, Fl.fin_add, zero_add, hw, List.set_cons_zero, Nat.mod_one, normList, List.foldl_cons, List.foldl_nil,
    Fl.lit_eq, Rat.cast_zero, Fl.fin_sqrt zero_le_one, Real.sqrt_one]
  have hd : ∀ i : Int, minresDirErr swapDirect.kw.etol (Fl.fin 1) (Fl.fin 1) 1 2 i = 10 := by
    intro i
    rw [minresDirErr, if_pos]
    exact ⟨by decide, by rw [het, Fl.fin_mul, Fl.fin_lt]; norm_num⟩
  have ht : ∀ (a b c : Fl) (m n : Nat) (d e f g : Fl), minresTests a b c m n d e f g 10 = 10 := by
    intros; simp [minresTests]
  simp only [hd, ht]
  decide

/-- a call of MINRES that stops for a small direct error -/
theorem swapDirect_stops : ∃ res products,
    minresSolve (Vec.op swapOp) (.fin (1 / 1000)) 2 {} (.fin !₂[1, 0]) swapDirect.kw = .ok (res, products) ∧ res.istop = 10 := by
  have h1 := swapDirect_step1 {}
  have h2 := swapDirect_step2 _ h1
  have he : (minresEntry swapDirect.kw (.fin !₂[1, 0])).2 = false := swapDirect_entry ▸ rfl
  have hlim : swapDirect.kw.itnlim.getD (5 * 2) = 10 := rfl
  have hb : (minresStart swapDirect.kw (.fin !₂[1, 0])).2 = .fin 1 := by rw [swapDirect_start]
  have hw : ∀ P : Prop, ¬ (swapDirect.kw.window = 0 ∧ P) := fun P h => absurd h.1 (by decide)
  unfold minresSolve
  simp only [he, hlim, hb, Bool.false_eq_true, if_false, hw]
  refine ⟨_, _, rfl, ?_⟩
  change (minresLoop _ _ _ _ _ _).istop = 10
  unfold minresLoop
  rw [whileLoop_of_cont (by rfl), whileLoop_of_cont (by rw [minresCont, h1.broke, h1.itn]; rfl), whileLoop_of_not (by rw [minresCont, h2.2]; rfl)]
  exact h2.1
theorem minresStale {S V : Type} [Scalar S] [Vect S V] (op : V → V) (eps : S) (p p0 : Nat × V × MinresKw S V) (res res0 : MinresRes S V)
    (products products0 : List V) (hs : minresSolve op eps p.1 {} p.2.1 p.2.2 = .ok (res, products)) (h10 : res.istop = 10)
    (hs0 : minresSolve op eps p0.1 {} p0.2.1 p0.2.2 = .ok (res0, products0)) (hn : res0.istop ≠ 10) (hc : res0.converged = false) :
    let c := minresClass op eps
    ∃ a1 a2 a, c.call c.init p = .ok a1 ∧ c.call a1 p0 = .ok a2 ∧
      a2 "status" = some (.str "direct error small") ∧ a2 "converged" = some (.bool false) ∧
      c.call c.init p0 = .ok a ∧ a "status" = none := by
  have hst : ∀ (sh : Bool) (res : MinresRes S V) a, writeAll (minresWrites sh res) a "status" =
      if res.istop = 10 then some (.str "direct error small") else a "status" := by
    intro sh res a
    cases sh <;> by_cases h10 : res.istop = 10 <;> simp [minresWrites, writeAll_eq, Wr.step, h10]
  refine ⟨_, _, _, minres_call op eps _ (p, res, products) hs, minres_call op eps _ (p0, res0, products0) hs0, ?_, ?_,
    minres_call op eps _ (p0, res0, products0) hs0, ?_⟩
  · rw [hst, if_neg hn, hst, if_pos h10]
  · rw [(C69_minres_values _ _ _).2.2.1, hc]
  · rw [hst, if_neg hn]
    simp [minresClass, attrsOf, baseAttrs]

/-- **C69, negative.**  MINRES on the exchange of two coordinates: a call that stops for a small direct error, and then one with the zero
right-hand side, which makes no iteration and does not converge.  The object says `'direct error small'`; a new object has no
attribute `status` after the second call. -/
theorem C69_minres_status_violated :
    let c := minresClass (Vec.op swapOp) (.fin (1 / 1000))
    ∃ a1 a2 a, c.call c.init (2, .fin !₂[1, 0], swapDirect.kw) = .ok a1 ∧ c.call a1 (2, .fin 0, swapDirect.kw) = .ok a2 ∧
      a2 "status" = some (.str "direct error small") ∧ a2 "converged" = some (.bool false) ∧
      c.call c.init (2, .fin 0, swapDirect.kw) = .ok a ∧ a "status" = none := by
  obtain ⟨res, products, hs, h10⟩ := swapDirect_stops
  have he : minresEntry swapDirect.kw (.fin (0 : EuclideanSpace ℝ (Fin 2))) = (0, true) := by
    have hk : swapDirect.kw.precon = none := rfl
    have hc : swapDirect.kw.symOK = true := rfl
    have h1 : feq (Fl.fin 0) (lit 0) = true := by simp [feq]
    have hlt : lt (Fl.fin 0) (lit 0) = false := by
      rw [← Bool.not_eq_true, Fl.lit_eq, Fl.fin_lt]; norm_num
    simp only [minresEntry, hk, applyPrecon, Vec.fin_dot, inner_zero_left, hlt, h1, hc]
    rfl
  obtain ⟨res0, hs0, hi0, hc0⟩ : ∃ res0, minresSolve (Vec.op swapOp) (.fin (1 / 1000)) 2 {} (.fin 0) swapDirect.kw = .ok (res0, []) ∧
      res0.istop = 0 ∧ res0.converged = false := by
    unfold minresSolve
    simp only [he, if_true]
    refine ⟨_, rfl, ?_, ?_⟩
    · change (minresEntry swapDirect.kw (.fin 0)).1 = 0
      rw [he]
    · change minresConverged (minresEntry swapDirect.kw (.fin 0)).1 = false
      rw [he]; rfl
  exact minresStale _ _ _ _ _ _ _ _ hs h10 hs0 (by rw [hi0]; decide) hc0

/-- **C69, negative.**  SYMMLQ: whenever a call stores an iterate, `iterates` after a second, equal call is not what it is after the
first. -/
theorem C69_symmlq_doubles {S V : Type} [Scalar S] [Vect S V] (self : SymmlqObj V) (n : Nat) (b : V) (kw : SymmlqKw S)
    (res : SymmlqRes S V) (products : List V) (hs : symmlqSolve self n b kw = .ok (res, products)) (hne : res.iterates ≠ []) :
    ¬ AsNew (symmlqClass (S := S) self) [] := by
  intro h
  have hc : ∀ a, (symmlqClass self).call a (n, b, kw) = .ok (writeAll (symmlqWrites res) a) := by
    intro a
    simp only [PySolver.call, symmlqClass, hs]
    rfl
  obtain ⟨a, ha, hh⟩ := h _ (.returned .new (hc (symmlqClass (S := S) self).init)) _ _ (hc _)
  rw [hc] at ha
  cases ha
  have := hh "iterates" (by simp)
  have e : ∀ a : Attrs S V V, ∀ l, a "iterates" = some (.list l) →
      writeAll (symmlqWrites res) a "iterates" = some (.list (l ++ res.iterates.map .vec)) := by
    intro a l hl
    simp [symmlqWrites, writeAll_eq, Wr.step, hl]
  have e0 := e (symmlqClass (S := S) self).init [] (by simp [symmlqClass, attrsOf])
  rw [e _ _ e0, e0] at this
  simp only [Option.some.injEq, PyV.list.injEq, List.nil_append] at this
  have := congrArg List.length this
  simp only [List.length_append, List.length_map] at this
  exact hne (List.eq_nil_of_length_eq_zero (by omega))

/-- with `store_iterates` every call that returns stores an iterate -/
theorem symmlqSolve_iterates {S V : Type} [Scalar S] [Vect S V] (self : SymmlqObj V) (n : Nat) (b : V) (kw : SymmlqKw S)
    (res : SymmlqRes S V) (products : List V) (hs : symmlqSolve self n b kw = .ok (res, products)) (hst : kw.storeIterates = true) :
    res.iterates ≠ [] := by
  have hloop : ∀ mm b1 s, s.iterates ≠ [] → (symmlqLoop self kw mm b1 s).iterates ≠ [] := by
    intro mm b1 s h
    refine (symmlqLoop_inv self kw mm b1 (fun s => s.iterates ≠ []) (fun s h _ => ?_) s h).1
    have ht : (symmlqTest kw mm b1 s).iterates = s.iterates := rfl
    unfold symmlqStep
    simp only
    split
    · rw [ht]; exact h
    · generalize symmlqTest kw mm b1 s = t at ht ⊢
      unfold symmlqUpdate
      simp only
      split
      · rw [← ht] at h; exact h
      · simp [hst]
  unfold symmlqSolve at hs
  simp only at hs
  split at hs
  · cases hs
  split at hs
  · split at hs
    · cases hs
    · rename_i mv _
      have h0 : (symmlqStart self kw mv b).1.iterates ≠ [] := by simp [symmlqStart, hst]
      split at hs
      · cases hs
      · rename_i l d hl
        simp only [Except.ok.injEq, symmlqFinish, Prod.mk.injEq] at hs
        rw [← hs.1]
        simp only
        split
        · exact h0
        · exact hloop _ _ _ h0
  · cases hs

/-- **C69, negative.**  SYMMLQ for `2x = 3` with `store_iterates`, on an object that was given the attribute `matvec`. -/
theorem C69_symmlq_violated (eps eps3 rtol : ℝ) :
    ¬ AsNew (symmlqClass (S := Fl) { op := Vec.op (fun x : ℝ => 2 * x), precon := none, matvec := some (Vec.op fun x : ℝ => 2 * x) }) [] := by
  obtain ⟨res, products, h⟩ := C36_returns_with_matvec_partial (Vec.op (fun x : ℝ => 2 * x)) (Vec.op (fun x : ℝ => 2 * x)) 1 one_ne_zero 3
    (by norm_num) { eps := .fin eps, eps3 := .fin eps3, rtol := .fin rtol, check := false, storeIterates := true } rfl (by simp)
  exact C69_symmlq_doubles _ _ _ _ _ _ h (symmlqSolve_iterates _ _ _ _ _ _ h rfl)

/-- **C69, negative.**  LSQR: `ctol` is assigned if `conlim > 0` only.  For every operator and right-hand side for which `solve` returns:
after a call with a positive `conlim` and one with `conlim = 0` the object holds the `ctol` of the first; a new object has no such
attribute. -/
theorem C69_lsqr_ctol {E F : Type} [NormedAddCommGroup E] [InnerProductSpace ℝ E] [NormedAddCommGroup F] [InnerProductSpace ℝ F]
    (A : Vec E → Vec F) (AT : Vec F → Vec E) (n : Nat) (b : Vec F) (kw : LsqrKw Fl (Vec F) (Vec E)) (r : LsqrRes Fl (Vec E) × LsqrLoop Fl (Vec F) (Vec E))
    (c : ℝ) (hc : 0 < c) (hr : lsqrSolve A AT n b { kw with conlim := .fin c } = .ok r) :
    ∃ a1 a2 a, (lsqrClass A AT n).call (lsqrClass A AT n).init (b, { kw with conlim := .fin c }) = .ok a1 ∧
      (lsqrClass A AT n).call a1 (b, { kw with conlim := .fin 0 }) = .ok a2 ∧ a2 "ctol" = some (.scal (.fin (1 / c))) ∧
      (lsqrClass A AT n).call (lsqrClass A AT n).init (b, { kw with conlim := .fin 0 }) = .ok a ∧ a "ctol" = none := by
  have hk : ∀ d, ∃ res s, lsqrSolve A AT n b { kw with conlim := .fin d } = .ok (res, s) ∧
      res.ctol = if gt (Fl.fin d) (lit 0) then some (lit 1 / Fl.fin d) else none := by
    intro d
    rcases C37_conlim_ignored A AT n b { kw with conlim := .fin c } (.fin d) with ⟨e, h, -⟩ | ⟨res, s, ct, h, h'⟩
    · rw [hr] at h; cases h
    · refine ⟨_, s, h', ?_⟩
      unfold lsqrSolve at h'
      simp only [bind, Except.bind] at h'
      repeat' split at h'
      all_goals first | exact absurd h' (by simp) | skip
      simp only [pure, Except.pure, Except.ok.injEq, Prod.mk.injEq] at h'
      rw [← h'.1]
      rfl
  have hcall : ∀ a d res s, lsqrSolve A AT n b { kw with conlim := .fin d } = .ok (res, s) →
      (lsqrClass A AT n).call a (b, { kw with conlim := .fin d }) = .ok (writeAll (lsqrWrites res) a) := by
    intro a d res s h
    simp only [PySolver.call, lsqrClass, h]
    rfl
  have hct : ∀ (a : Attrs Fl (Vec F) (Vec E)) (res : LsqrRes Fl (Vec E)), writeAll (lsqrWrites res) a "ctol" =
      match res.ctol with | some c => some (.scal c) | none => a "ctol" := by
    intro a res
    have hs := fun k hk o => statusWrites_step (S := Fl) (U := Vec F) (V := Vec E) res.istop k hk o
    cases hc : res.ctol <;> simp [lsqrWrites, writeAll_eq, Wr.step, hs, hc]
  obtain ⟨r1, s1, h1, e1⟩ := hk c
  obtain ⟨r2, s2, h2, e2⟩ := hk 0
  have g1 : gt (Fl.fin c) (lit 0) = true := by
    change lt (lit 0) (Fl.fin c) = true
    rw [Fl.lit_eq, Fl.fin_lt]; simpa using hc
  have g2 : gt (Fl.fin 0) (lit 0) = false := by
    rw [← Bool.not_eq_true]
    change ¬ lt (lit 0) (Fl.fin 0) = true
    rw [Fl.lit_eq, Fl.fin_lt]; simp
  rw [g1, if_pos rfl] at e1
  rw [g2, if_neg (by simp)] at e2
  have e3 : lit 1 / Fl.fin c = Fl.fin (1 / c) := by
    rw [Fl.lit_eq, Fl.fin_div _ hc.ne']; simp
  refine ⟨_, _, _, hcall _ _ _ _ h1, hcall _ _ _ _ h2, ?_, hcall _ _ _ _ h2, ?_⟩
  · rw [hct, e2, hct, e1, e3]
  · rw [hct, e2]
    simp [lsqrClass, attrsOf, lsAttrs, baseAttrs]

/-- the hypotheses are met: `A = diag(1, 2)`, `damp = 3` -/
example : ∃ r, lsqrSolve (Vec.op (lsqrDemo 3 0).A) (Vec.op (lsqrDemo 3 0).B) 2 (.fin (lsqrDemo 3 0).b)
    { (lsqrDemo 3 0).kw with conlim := .fin 1 } = .ok r := by
  obtain ⟨res, s, h, ho, -⟩ := C37_converges (lsqrDemo 3 0) (lsqrDemo_valid _ _)
    (by
      intro h
      have h0 := congrArg (fun x => x 0) h
      simp [lsqrDemo, Matrix.mulVec, dotProduct, Fin.sum_univ_two] at h0)
    (by simp [lsqrDemo]) (by simp [lsqrDemo])
  exact ⟨(res, s), h⟩

theorem craigWrites_ctol {S U V : Type} [Scalar S] [Vect S U] [Vect S V] (a : Attrs S U V) (kw : CraigKw S U V) (res : CraigRes S U V) :
    writeAll (craigWrites kw res) a "ctol" = if gt kw.conlim (lit 0) then some (.scal (lit 1 / kw.conlim)) else a "ctol" := by
  have hs := fun k hk o => statusWrites_step (S := S) (U := U) (V := V) res.istop k hk o
  by_cases hc : gt kw.conlim (lit 0) = true <;> simp [craigWrites, writeAll_eq, Wr.step, hs, hc]

/-- **C69, negative.**  CRAIG has the same defect: for `x = 2`, a call with `conlim = 5` and then one with `conlim = 0`. -/
theorem C69_craig_ctol :
    let c := craigClass (Vec.op craigExample.A) (Vec.op craigExample.B) 1
    ∃ a1 a2 a, c.call c.init (.fin 2, { craigExample.kw with conlim := .fin 5 }) = .ok a1 ∧
      c.call a1 (.fin 2, { craigExample.kw with conlim := .fin 0 }) = .ok a2 ∧ a2 "ctol" = some (.scal (.fin (1 / 5))) ∧
      c.call c.init (.fin 2, { craigExample.kw with conlim := .fin 0 }) = .ok a ∧ a "ctol" = none := by
  have hk : ∀ d : ℝ, ∃ res s, craigSolve (Vec.op craigExample.A) (Vec.op craigExample.B) 1 (.fin (2 : ℝ))
      { craigExample.kw with conlim := .fin d } = .ok (res, s) := by
    intro d
    obtain ⟨res, s, x, r, hs, -⟩ := C52_converges { craigExample with conlim := d } ⟨fun _ _ => rfl, by simp [craigExample]⟩
      (by norm_num [craigExample]) (by norm_num [craigExample, CraigProblem.limit]) (by norm_num [craigExample, CraigProblem.limit])
      (by norm_num [craigExample]) (by norm_num [craigExample])
    exact ⟨res, s, hs⟩
  have hcall : ∀ a d res s, craigSolve (Vec.op craigExample.A) (Vec.op craigExample.B) 1 (.fin (2 : ℝ))
      { craigExample.kw with conlim := .fin d } = .ok (res, s) →
      (craigClass (Vec.op craigExample.A) (Vec.op craigExample.B) 1).call a (.fin 2, { craigExample.kw with conlim := .fin d }) =
        .ok (writeAll (craigWrites { craigExample.kw with conlim := .fin d } res) a) := by
    intro a d res s h
    simp only [PySolver.call, craigClass, h]
    rfl
  obtain ⟨r1, s1, h1⟩ := hk 5
  obtain ⟨r2, s2, h2⟩ := hk 0
  have g1 : gt (Fl.fin 5) (lit 0) = true := by
    change lt (lit 0) (Fl.fin 5) = true
    rw [Fl.lit_eq, Fl.fin_lt]; norm_num
  have g2 : gt (Fl.fin 0) (lit 0) = false := by
    rw [← Bool.not_eq_true]
    change ¬ lt (lit 0) (Fl.fin 0) = true
    rw [Fl.lit_eq, Fl.fin_lt]; simp
  have e3 : lit 1 / Fl.fin 5 = Fl.fin (1 / 5) := by
    rw [Fl.lit_eq, Fl.fin_div _ (by norm_num)]; simp
  refine ⟨_, _, _, hcall _ _ _ _ h1, hcall _ _ _ _ h2, ?_, hcall _ _ _ _ h2, ?_⟩
  · rw [craigWrites_ctol, craigWrites_ctol]
    simp only [g1, g2, if_true, Bool.false_eq_true, if_false, e3]
  · rw [craigWrites_ctol]
    simp only [g2, Bool.false_eq_true, if_false]
    simp [craigClass, attrsOf, lsAttrs, baseAttrs]

/-- **C69, negative.**  LSMR: `A = diag(1, 2)`, `damp = 1`; a call with `b = (1, 1)` and then one with `b = 0`.  The attribute `x` is the
solution of the first system, on a new object it is `None`. -/
theorem C69_lsmr_x :
    let q := lsmrDemo 2 1 1 1 none
    let c := lsmrClass (Vec.op q.A) (Vec.op q.B) 2 2
    ∃ x a1 a2 a, c.call c.init (.fin q.b, q.kw) = .ok a1 ∧ q.B (q.b - q.A x) - x = 0 ∧ x ≠ 0 ∧ a1 "x" = some (.vec (.fin x)) ∧
      c.call a1 (.fin 0, q.kw) = .ok a2 ∧ a2 "x" = some (.vec (.fin x)) ∧
      c.call c.init (.fin 0, q.kw) = .ok a ∧ a "x" = some .none := by
  intro q c
  obtain ⟨res, s, h, h1, -, -, hx⟩ := C51_converges q (lsmrDemo_valid _ _ _ _ _) none
    (by
      intro h
      have h0 := congrArg (fun x => x 0) h
      simp [q, lsmrDemo] at h0)
    (by simp [q, lsmrDemo])
    (by
      rintro x ⟨h1, h2⟩
      have h2' : x = 0 := by simpa [q, lsmrDemo] using h2
      rw [h2', map_zero] at h1
      have h0 := congrArg (fun x => x 0) h1
      simp [q, lsmrDemo] at h0)
  obtain ⟨x, hx, hn⟩ := hx rfl rfl le_rfl le_rfl
  have hst := C40_status_partial _ _ _ _ _ _ _ _ _ h
  have hself : res.selfX = some res.x := by
    have := hst.2.2.1
    exact (hst.2.2.2.2.2.2.1 (by omega)).2
  obtain ⟨res0, s0, h0, -, hs0⟩ := C40_selfX_stale (Vec.op q.A) (Vec.op q.B) 2 2 q.kw rfl none
  have hc1 : c.call c.init (.fin q.b, q.kw) = .ok (writeAll (lsmrWrites res) c.init) := by
    have : c.solve (.fin q.b, q.kw) = .ok (lsmrWrites res) := by
      change (lsmrSolve (Vec.op q.A) (Vec.op q.B) 2 2 (.fin q.b) q.kw none).map _ = _
      have h' : lsmrSolve (Vec.op q.A) (Vec.op q.B) 2 2 (.fin q.b) q.kw none = .ok (res, s) := h
      rw [h']
      rfl
    rw [PySolver.call, this]
    rfl
  have hc0 : ∀ a, c.call a (.fin 0, q.kw) = .ok (writeAll (lsmrWrites res0) a) := by
    intro a
    have : c.solve (.fin 0, q.kw) = .ok (lsmrWrites res0) := by
      change (lsmrSolve (Vec.op q.A) (Vec.op q.B) 2 2 (.fin 0) q.kw none).map _ = _
      rw [h0]
      rfl
    rw [PySolver.call, this]
    rfl
  have hv1 := (C69_lsmr_values (U := Vec (EuclideanSpace ℝ (Fin 2))) res c.init).1 _ hself
  refine ⟨x, _, _, _, hc1, ?_, ?_, ?_, hc0 _, ?_, hc0 _, ?_⟩
  · simpa [q, lsmrDemo] using hn
  · rintro rfl
    have h0 := congrArg (fun x => x 0) hn
    simp [q, lsmrDemo] at h0
  · rw [hv1, hx]
  · rw [(C69_lsmr_values res0 _).2.1 hs0, hv1, hx]
  · rw [(C69_lsmr_values res0 _).2.1 hs0]
    simp [c, lsmrClass, attrsOf, lsAttrs]

/-! ## Instances: the states are reachable and the calls return -/

/-- CGS in any state of its life: after two calls and a call that raised -/
example (op : Vec ℝ → Vec ℝ) (o : KrylovOpts Fl (Vec ℝ)) (b1 b2 b3 : Vec ℝ) (kw : KrylovKw (Vec ℝ)) (a : Attrs Fl (Vec ℝ) (Vec ℝ))
    (ha : ∀ k, k ∉ (cgsClass op o).touched →
      a k = writeAll (krylovWrites (cgsSolve op o 1 b2 kw).1) (writeAll (krylovWrites (cgsSolve op o 1 b1 kw).1) (cgsClass op o).init) k) :
    ∃ a', (cgsClass op o).call a (1, b3, kw) = .ok a' ∧ ∃ a₀, (cgsClass op o).call (cgsClass op o).init (1, b3, kw) = .ok a₀ ∧
      ∀ k, a' k = a₀ k := by
  have h1 : (cgsClass op o).Lives _ := .returned (args := (1, b1, kw)) .new rfl
  have h2 : (cgsClass op o).Lives _ := .returned (args := (1, b2, kw)) h1 rfl
  obtain ⟨a₀, h3, h4⟩ := C69_cgs op o a (.raised h2 ha) (1, b3, kw) _ rfl
  exact ⟨_, rfl, a₀, h3, fun k => h4 k (by simp)⟩

/-- CRAIG-MR: the call of `craigmrExample` on an object in any state -/
example (a : Attrs Fl (Vec ℝ) (Vec ℝ)) (ha : (craigmrClass (Vec.op craigmrExample.A) (Vec.op craigmrExample.B) 1 1).Lives a) :
    ∃ a' a₀, (craigmrClass (Vec.op craigmrExample.A) (Vec.op craigmrExample.B) 1 1).call a (.fin 2, craigmrExample.kw) = .ok a' ∧
      (craigmrClass (Vec.op craigmrExample.A) (Vec.op craigmrExample.B) 1 1).call
        (craigmrClass (Vec.op craigmrExample.A) (Vec.op craigmrExample.B) 1 1).init (.fin 2, craigmrExample.kw) = .ok a₀ ∧
      ∀ k, a' k = a₀ k := by
  obtain ⟨res, s, x, hs, -⟩ := C53_converges craigmrExample craigmrExample_valid
    (by norm_num [craigmrExample]) (Or.inl ⟨inferInstance, by norm_num [craigmrExample]⟩)
  have h : craigmrSolve (Vec.op craigmrExample.A) (Vec.op craigmrExample.B) 1 1 (.fin (2:ℝ)) craigmrExample.kw = .ok (res, s) := hs
  have hc : ∀ a, (craigmrClass (Vec.op craigmrExample.A) (Vec.op craigmrExample.B) 1 1).call a (.fin 2, craigmrExample.kw) =
      .ok (writeAll (craigmrWrites res) a) := by
    intro a
    simp only [PySolver.call, craigmrClass, h]
    rfl
  obtain ⟨a₀, h3, h4⟩ := C69_craigmr _ _ _ _ a ha _ _ (hc a)
  exact ⟨_, a₀, hc a, h3, fun k => h4 k (by simp)⟩

end Verif.Solver
