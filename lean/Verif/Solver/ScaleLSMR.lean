import Verif.Solver.LSMRConv

/-!
# C76 is violated by LSMR

`lsmr.py:241` starts with `rhobar = 1`, and lines 408-411 take this number for an element of the factor of the operator when they estimate
the condition number in the first iteration: the estimate depends on the unit of the operator.
-/

namespace Verif.Solver
open Scalar Vect LsmrMath

/-- The operator `A = ε [3 0; 4 15; 0 1]`, the right-hand side `(1, 0, 0)`, the default tolerances (`lsmr.py:64-65`). -/
noncomputable def lsmrUnit (ε : ℝ) : LsmrProblem (EuclideanSpace ℝ (Fin 2)) (EuclideanSpace ℝ (Fin 3)) :=
  { A := ε • Matrix.toEuclideanLin !![3, 0; 4, 15; 0, 1], B := ε • Matrix.toEuclideanLin !![3, 4, 0; 0, 15, 1], b := !₂[1, 0, 0],
    m := 3, n := 2, damp := 0, itnlim := some 100, atol := 1/1000000, btol := 1/1000000, etol := 1/1000000, conlim := 100000000,
    storeResids := false, storeIterates := false, window := 5 }

theorem lsmrUnit_valid (ε : ℝ) : (lsmrUnit ε).Valid := by
  refine ⟨fun x y => ?_, by norm_num [lsmrUnit], by simp [lsmrUnit]⟩
  simp only [lsmrUnit, LinearMap.smul_apply, inner_smul_left, inner_smul_right, PiLp.inner_apply, Fin.sum_univ_two, Fin.sum_univ_three,
    Matrix.toLpLin_apply, Matrix.mulVec, dotProduct]
  simp only [conj_trivial]
  rw [mul_eq_mul_left_iff]
  left
  simp
  ring

private theorem e0 (ε : ℝ) : (lsmrUnit ε).B !₂[1, 0, 0] = (3 * ε) • (!₂[1, 0] : EuclideanSpace ℝ (Fin 2)) := by
  ext i; fin_cases i <;> simp [lsmrUnit, Matrix.toLpLin_apply, Matrix.mulVec, dotProduct, Fin.sum_univ_three] ; ring

private theorem e1 (ε : ℝ) : (lsmrUnit ε).A !₂[1, 0] - (3 * ε) • (!₂[1, 0, 0] : EuclideanSpace ℝ (Fin 3)) = (4 * ε) • !₂[0, 1, 0] := by
  ext i
  fin_cases i <;> simp [lsmrUnit, Matrix.toLpLin_apply, Matrix.mulVec, dotProduct, Fin.sum_univ_two] <;> ring

private theorem e2 (ε : ℝ) : (lsmrUnit ε).B !₂[0, 1, 0] - (4 * ε) • (!₂[1, 0] : EuclideanSpace ℝ (Fin 2)) = (15 * ε) • !₂[0, 1] := by
  ext i
  fin_cases i <;> simp [lsmrUnit, Matrix.toLpLin_apply, Matrix.mulVec, dotProduct, Fin.sum_univ_three] <;> ring

private theorem n0 : pysqrt (dot (Vec.fin (!₂[1, 0, 0] : EuclideanSpace ℝ (Fin 3))) (.fin !₂[1, 0, 0])) = .ok (Fl.fin 1) := by
  rw [Vec.fin_dot, pysqrt_fin real_inner_self_nonneg]
  simp [PiLp.inner_apply, EuclideanSpace.norm_eq, Fin.sum_univ_three]

private theorem nrm {G : Type} [NormedAddCommGroup G] [InnerProductSpace ℝ G] {w : G} (hw : ‖w‖ = 1) {c : ℝ} (hc : 0 < c) :
    pysqrt (dot (Vec.fin (c • w)) (Vec.fin (c • w))) = .ok (Fl.fin c) ∧ vdiv (Vec.fin (c • w)) (Fl.fin c) = Vec.fin w := by
  rw [Vec.fin_dot, pysqrt_fin real_inner_self_nonneg, real_inner_self_eq_norm_mul_norm, Real.sqrt_mul_self (norm_nonneg _), norm_smul, hw,
    mul_one, Real.norm_eq_abs, abs_of_pos hc, Vec.fin_vdiv _ hc.ne', smul_smul, inv_mul_cancel₀ hc.ne', one_smul]
  exact ⟨rfl, rfl⟩

private theorem u1 : ‖(!₂[1, 0] : EuclideanSpace ℝ (Fin 2))‖ = 1 := by simp [EuclideanSpace.norm_eq, Fin.sum_univ_two]
private theorem u2 : ‖(!₂[0, 1] : EuclideanSpace ℝ (Fin 2))‖ = 1 := by simp [EuclideanSpace.norm_eq, Fin.sum_univ_two]
private theorem u3 : ‖(!₂[0, 1, 0] : EuclideanSpace ℝ (Fin 3))‖ = 1 := by simp [EuclideanSpace.norm_eq, Fin.sum_univ_three]
private theorem u4 : ‖(!₂[1, 0, 0] : EuclideanSpace ℝ (Fin 3))‖ = 1 := by simp [EuclideanSpace.norm_eq, Fin.sum_univ_three]

private theorem gtp {c : ℝ} (hc : 0 < c) : gt (Fl.fin c) (lit 0) = true := (gt_fin_zero _).2 hc

variable {ε : ℝ}

/-- the variables before the loop -/
noncomputable def lsmrUnit0 (ε : ℝ) : LsmrLoop Fl (Vec (EuclideanSpace ℝ (Fin 3))) (Vec (EuclideanSpace ℝ (Fin 2))) :=
  lsmrStart (lsmrUnit ε).kw (.fin 1) (.fin !₂[1, 0, 0]) (some (.fin !₂[1, 0])) (.fin !₂[1, 0]) (.fin (3 * ε)) 1

theorem lsmrUnit_init (hε : 0 < ε) : lsmrInit (Vec.op (lsmrUnit ε).B) (lsmrUnit ε).kw (.fin (lsmrUnit ε).b) = .ok (lsmrUnit0 ε) := by
  have hb : (lsmrUnit ε).b = !₂[1, 0, 0] := rfl
  have hM : ∀ z, applyPrecon (lsmrUnit ε).kw.M z = z := fun _ => rfl
  have hN : ∀ z, applyPrecon (lsmrUnit ε).kw.N z = z := fun _ => rfl
  have h3 : 0 < 3 * ε := by positivity
  have hv : vdiv (Vec.fin (!₂[1, 0, 0] : EuclideanSpace ℝ (Fin 3))) (Fl.fin 1) = .fin !₂[1, 0, 0] := by
    rw [Vec.fin_vdiv _ one_ne_zero, inv_one, one_smul]
  unfold lsmrInit
  simp only [hb, hM, hN, n0, ok_bind, gtp one_pos, if_true, hv, Vec.op_fin, e0, (nrm u1 h3).1, (nrm u1 h3).2, gtp h3]
  rfl

theorem lsmrUnit_bidiag (hε : 0 < ε) : lsmrBidiag (Vec.op (lsmrUnit ε).A) (Vec.op (lsmrUnit ε).B) (lsmrUnit ε).kw (lsmrUnit0 ε) =
    .ok (.fin !₂[0, 1, 0], some (.fin !₂[0, 1]), .fin !₂[0, 1], .fin (15 * ε), .fin (4 * ε), 3) := by
  have hM : ∀ z, applyPrecon (lsmrUnit ε).kw.M z = z := fun _ => rfl
  have hN : ∀ z, applyPrecon (lsmrUnit ε).kw.N z = z := fun _ => rfl
  have h4 : 0 < 4 * ε := by positivity
  have h15 : 0 < 15 * ε := by positivity
  have s1 : (lsmrUnit0 ε).v = .fin !₂[1, 0] := rfl
  have s2 : (lsmrUnit0 ε).alpha = .fin (3 * ε) := rfl
  have s3 : (lsmrUnit0 ε).Mu = .fin !₂[1, 0, 0] := rfl
  have s4 : bound "Nv" (lsmrUnit0 ε).Nv = .ok (.fin !₂[1, 0]) := rfl
  have s5 : (lsmrUnit0 ε).products = 1 := rfl
  unfold lsmrBidiag
  simp only [hM, hN, s1, s2, s3, Vec.op_fin, Vec.fin_smul, Vec.fin_sub, e1, (nrm u3 h4).1, (nrm u3 h4).2, ok_bind, gtp h4, if_true, s4,
    e2, (nrm u2 h15).1, (nrm u2 h15).2, gtp h15, s5]
  rfl

private theorem hyp_of {a b r : ℝ} (hr : 0 < r) (h : a * a + b * b = r * r) : hyp a b = r := by
  unfold hyp; rw [h, Real.sqrt_mul_self hr.le]

/-- the rotations of the first iteration -/
noncomputable def lsmrUnitRot (ε : ℝ) : LsmrRot Fl :=
  { chat := .fin 1, shat := .fin 0, c := .fin (3/5), s := .fin (4/5), rho := .fin (5 * ε), thetanew := .fin (12 * ε),
    alphabar := .fin (9 * ε), thetabar := .fin 0, rhotemp := .fin (5 * ε), cbar := .fin (5/13), sbar := .fin (12/13),
    rhobar := .fin (13 * ε), zeta := .fin (15/13 * ε), zetabar := .fin (-(36/13 * ε)) }

theorem lsmrUnit_rot (hε : 0 < ε) :
    lsmrRot (Fl.fin 0) (Fl.fin (15 * ε)) (Fl.fin (4 * ε)) (lsmrUnit0 ε) = .ok (lsmrUnitRot ε) := by
  have s1 : (lsmrUnit0 ε).alphabar = .fin (3 * ε) := rfl
  have s2 : (lsmrUnit0 ε).sbar = .fin 0 := by change (lit 0 : Fl) = _; simp
  have s3 : (lsmrUnit0 ε).cbar = .fin 1 := by change (lit 1 : Fl) = _; simp
  have s4 : (lsmrUnit0 ε).zetabar = .fin (3 * ε) := by change Fl.fin (3 * ε) * Fl.fin 1 = _; simp
  have h1 : hyp (3 * ε) 0 = 3 * ε := hyp_of (by positivity) (by ring)
  have h2 : hyp (3 * ε) (4 * ε) = 5 * ε := hyp_of (by positivity) (by ring)
  have h3 : hyp (5 * ε) (12 * ε) = 13 * ε := hyp_of (by positivity) (by ring)
  have o1 := symOrtho_pos (a := 3 * ε) (b := 0) (by rw [h1]; positivity)
  have o2 := symOrtho_pos (a := 3 * ε) (b := 4 * ε) (by rw [h2]; positivity)
  have o3 := symOrtho_pos (a := 5 * ε) (b := 12 * ε) (by rw [h3]; positivity)
  rw [h1, div_self (by positivity), zero_div] at o1
  rw [h2, show 3 * ε / (5 * ε) = 3/5 by field_simp, show 4 * ε / (5 * ε) = 4/5 by field_simp] at o2
  rw [h3, show 5 * ε / (13 * ε) = 5/13 by field_simp, show 12 * ε / (13 * ε) = 12/13 by field_simp] at o3
  have m1 : 4/5 * (15 * ε) = 12 * ε := by ring
  have m2 : 3/5 * (15 * ε) = 9 * ε := by ring
  unfold lsmrRot
  simp only [s1, s2, s3, s4, o1, o2, ok_bind, Fl.fin_mul, one_mul, zero_mul, m1, m2, o3, Fl.fin_neg]
  have m3 : 5/13 * (3 * ε) = 15/13 * ε := by ring
  have m4 : -(12/13) * (3 * ε) = -(36/13 * ε) := by ring
  rw [m3, m4]
  rfl

theorem lsmrUnit_vectors (hε : 0 < ε) : lsmrVectors (lsmrUnitRot ε) (lsmrUnit0 ε) (.fin !₂[0, 1]) =
    .ok (.fin !₂[1, 0], .fin ((3 / (169 * ε)) • !₂[1, 0]), .fin (!₂[0, 1] - (12/5 : ℝ) • !₂[1, 0])) := by
  have s1 : (lsmrUnit0 ε).rho = .fin 1 := by change (lit 1 : Fl) = _; simp
  have s2 : (lsmrUnit0 ε).rhobar = .fin 1 := by change (lit 1 : Fl) = _; simp
  have s3 : (lsmrUnit0 ε).h = .fin !₂[1, 0] := rfl
  have s4 : (lsmrUnit0 ε).hbar = .fin 0 := rfl
  have s5 : (lsmrUnit0 ε).x = .fin 0 := rfl
  have d1 := pydiv_fin 0 one_ne_zero
  have d2 := pydiv_fin (15/13 * ε) (b := 5 * ε * (13 * ε)) (by positivity)
  have d3 := pydiv_fin (12 * ε) (b := 5 * ε) (by positivity)
  rw [show 15/13 * ε / (5 * ε * (13 * ε)) = 3 / (169 * ε) by field_simp; norm_num] at d2
  rw [show 12 * ε / (5 * ε) = 12/5 by field_simp] at d3
  rw [zero_div] at d1
  unfold lsmrVectors lsmrUnitRot
  simp only [s1, s2, s3, s4, s5, Fl.fin_mul, zero_mul, mul_one, d1, d2, d3, ok_bind, Vec.fin_smul, Vec.fin_sub, Vec.fin_add, smul_zero,
    sub_zero, zero_add]
  rfl

/-- the square of the residual norm after the first iteration -/
noncomputable def lsmrUnitR : ℝ := (3/5 - 15/169) * (3/5 - 15/169) + -(4/5) * -(4/5)

theorem lsmrUnit_resid (hε : 0 < ε) : ∃ a b c d e f,
    lsmrResid (lsmrUnitRot ε) (lsmrUnit0 ε) = .ok (a, b, c, d, e, f, .fin (Real.sqrt lsmrUnitR)) := by
  have s1 : (lsmrUnit0 ε).betadd = .fin 1 := rfl
  have s2 : (lsmrUnit0 ε).rhodold = .fin 1 := by change (lit 1 : Fl) = _; simp
  have s3 : (lsmrUnit0 ε).betad = .fin 0 := by change (lit 0 : Fl) = _; simp
  have s4 : (lsmrUnit0 ε).zeta = .fin 0 := by change (lit 0 : Fl) = _; simp
  have s5 : (lsmrUnit0 ε).thetatilde = .fin 0 := by change (lit 0 : Fl) = _; simp
  have s6 : (lsmrUnit0 ε).tautildeold = .fin 0 := by change (lit 0 : Fl) = _; simp
  have s7 : (lsmrUnit0 ε).d = .fin 0 := by change (lit 0 : Fl) = _; simp
  have h1 : hyp 1 0 = 1 := hyp_of (by norm_num) (by norm_num)
  have o1 := symOrtho_pos (a := 1) (b := 0) (by rw [h1]; norm_num)
  rw [h1, div_self one_ne_zero, zero_div] at o1
  have d1 := pydiv_fin 0 one_ne_zero
  rw [zero_div] at d1
  have d2 := pydiv_fin (15/13 * ε) (b := 13 * ε) (by positivity)
  rw [show 15/13 * ε / (13 * ε) = 15/169 by field_simp; norm_num] at d2
  have hR : 0 ≤ lsmrUnitR := by norm_num [lsmrUnitR]
  unfold lsmrResid lsmrUnitRot
  simp only [s1, s2, s3, s4, s5, s6, s7, o1, ok_bind, Fl.fin_mul, Fl.fin_neg, Fl.fin_sub, Fl.fin_add, zero_mul, mul_zero, sub_zero, neg_zero,
    mul_one, one_mul, zero_add, d1, d2]
  change ∃ a b c d e f, Except.ok (_, _, _, _, _, _, sqrt (Fl.fin lsmrUnitR)) = _
  rw [Fl.fin_sqrt hR]
  exact ⟨_, _, _, _, _, _, rfl⟩

/-- the first iteration: it stops with `istop = 3` iff the estimate `max(1, 5ε)/(5ε)` of the condition number is at least `1e8` -/
theorem lsmrUnit_step (hε : 0 < ε) (hε' : ε ≤ 1) : ∃ t, lsmrStep (Vec.op (lsmrUnit ε).A) (Vec.op (lsmrUnit ε).B) (lsmrUnit ε).kw 100 (.fin 1) (lsmrUnit0 ε) = .ok t ∧
    t.itn = 1 ∧ t.condA = .fin (max 1 (5 * ε) / (5 * ε)) ∧ t.istop = if 5 * ε / max 1 (5 * ε) ≤ 1/100000000 then 3 else 0 := by
  obtain ⟨a, b, c, d, e, f, hres⟩ := lsmrUnit_resid hε
  have s1 : (lsmrUnit0 ε).itn = 0 := rfl
  have s2 : pymod (0 + 1) (lsmrUnit ε).kw.window = .ok 1 := rfl
  have s3 : (lsmrUnit ε).kw.damp = .fin 0 := rfl
  have s4 : (lsmrUnit0 ε).maxrbar = .fin 0 := by change (lit 0 : Fl) = _; simp
  have s5 : (lsmrUnit0 ε).minrbar = .fin (10 ^ 100) := by change (lit (10 ^ 100) : Fl) = _; simp
  have s6 : (lsmrUnit0 ε).rhobar = .fin 1 := by change (lit 1 : Fl) = _; simp
  have s7 : (lsmrUnit0 ε).normA2 = .fin (3 * ε * (3 * ε)) := rfl
  have s8 : (lsmrUnitRot ε).rhotemp = .fin (5 * ε) := rfl
  have s9 : (lsmrUnitRot ε).zetabar = .fin (-(36/13 * ε)) := rfl
  have s10 : decide (0 + 1 > (lsmrUnit ε).kw.window) = false := rfl
  have hmin : min ((10:ℝ) ^ 100) (5 * ε) = 5 * ε := min_eq_right (by norm_num; linarith)
  have hmax : max (max (0:ℝ) 1) (5 * ε) = max 1 (5 * ε) := by rw [max_eq_right (zero_le_one)]
  have hA : sqrt (Fl.fin (3 * ε * (3 * ε) + 4 * ε * (4 * ε))) = .fin (5 * ε) := by
    rw [show 3 * ε * (3 * ε) + 4 * ε * (4 * ε) = (5 * ε) * (5 * ε) by ring, Fl.fin_sqrt (mul_self_nonneg _),
      Real.sqrt_mul_self (by positivity)]
  have hx : ‖(3 / (169 * ε)) • (!₂[1, 0] : EuclideanSpace ℝ (Fin 2))‖ = 3 / (169 * ε) := by
    rw [norm_smul, u1, mul_one, Real.norm_eq_abs, abs_of_pos (by positivity)]
  set rn := Real.sqrt lsmrUnitR with hrn
  have hr1 : 4/5 ≤ rn := Real.le_sqrt_of_sq_le (by norm_num [lsmrUnitR])
  have hr2 : rn ≤ 1 := by
    rw [hrn, Real.sqrt_le_one]; norm_num [lsmrUnitR]
  have hm : 1 ≤ max 1 (5 * ε) := le_max_left _ _
  have q1 : pydiv (Fl.fin rn) (Fl.fin 1) = .ok (.fin (rn / 1)) := pydiv_fin _ one_ne_zero
  have q2 : pydiv (Fl.fin |-(36/13 * ε)|) (Fl.fin (5 * ε) * Fl.fin rn) = .ok (.fin (36 / (65 * rn))) := by
    rw [Fl.fin_mul, pydiv_fin _ (by positivity), abs_neg, abs_of_pos (by positivity)]
    congr 2; field_simp; norm_num
  have q3 : pydiv (lit 1) (Fl.fin (max 1 (5 * ε) / (5 * ε))) = .ok (.fin (5 * ε / max 1 (5 * ε))) := by
    rw [Fl.lit_eq, Rat.cast_one, pydiv_fin _ (by positivity), one_div_div]
  have hAx : 5 * ε * (3 / (169 * ε)) = 15/169 := by field_simp; norm_num
  have t1 : Fl.fin (rn / 1) / (lit 1 + Fl.fin (5 * ε) * Fl.fin (3 / (169 * ε)) / Fl.fin 1) = .fin (rn / (184/169)) := by
    rw [Fl.fin_mul, hAx, Fl.fin_div _ one_ne_zero, Fl.lit_eq, Fl.fin_add, Fl.fin_div _ (by norm_num)]
    norm_num
  have t2 : (lsmrUnit ε).kw.btol + (lsmrUnit ε).kw.atol * Fl.fin (5 * ε) * Fl.fin (3 / (169 * ε)) / Fl.fin 1 =
      .fin (1/1000000 + 1/1000000 * (15/169)) := by
    change Fl.fin (1/1000000) + Fl.fin (1/1000000) * Fl.fin (5 * ε) * Fl.fin (3 / (169 * ε)) / Fl.fin 1 = _
    rw [Fl.fin_mul, Fl.fin_mul, mul_assoc, hAx, Fl.fin_div _ one_ne_zero, Fl.fin_add, div_one]
  have hq : lsmrQuantities (lsmrUnit ε).kw false (.fin 1) (.fin (5 * ε)) (.fin (max 1 (5 * ε) / (5 * ε))) (.fin rn) (.fin |-(36/13 * ε)|)
      (.fin (3 / (169 * ε))) = .ok
        { test1 := .fin (rn / 1), test2 := .fin (36 / (65 * rn)), test3 := .fin (5 * ε / max 1 (5 * ε)),
          t1 := .fin (rn / (184/169)), rtol := .fin (1/1000000 + 1/1000000 * (15/169)), direct := false } := by
    unfold lsmrQuantities
    simp only [q1, q2, q3, ok_bind, t1, t2]
    rfl
  have hct : lsmrCtol (lsmrUnit ε).kw.conlim = .fin (1/100000000) := by
    change (if gt (Fl.fin 100000000) (lit 0) = true then lit 1 / Fl.fin 100000000 else lit 0) = _
    rw [if_pos (gtp (by norm_num)), Fl.lit_eq, Rat.cast_one, Fl.fin_div _ (by norm_num)]
  unfold lsmrStep
  simp only [lsmrUnit_bidiag hε, ok_bind, s3, lsmrUnit_rot hε, lsmrUnit_vectors hε, s1, s2, hres, s4, s5, s6, s7, s8, s9, s10,
    Bool.false_and, Fl.fin_mul, Fl.fin_add, hA, Fl.fin_pymax, hmax, Fl.fin_abs, Vec.fin_norm, hx, gt_iff_lt, lt_irrefl, zero_add, if_false]
  have hc : pydiv (Fl.fin (max 1 (5 * ε))) (pymin (Fl.fin (10 ^ 100)) (Fl.fin (5 * ε))) = .ok (.fin (max 1 (5 * ε) / (5 * ε))) := by
    rw [fin_pymin', hmin, pydiv_fin _ (by positivity)]
  simp only [hc, ok_bind, hq]
  refine ⟨_, rfl, rfl, rfl, ?_⟩
  have hat : (lsmrUnit ε).kw.atol = .fin (1/1000000) := rfl
  have p2 : 36/65 ≤ 36 / (65 * rn) := by
    rw [div_le_div_iff₀ (by norm_num) (by positivity)]; nlinarith
  have p3 : 0 < 5 * ε / max 1 (5 * ε) := by positivity
  have p4 : 0 < rn / (184/169) := by positivity
  simp only [lsmrStop, hct, hat, Fl.lit_eq, Fl.fin_add, Fl.fin_le, Rat.cast_one]
  rw [if_neg (by linarith [div_one rn]), if_neg (by linarith)]
  by_cases h : 5 * ε / max 1 (5 * ε) ≤ 1/100000000
  · rw [if_pos h, if_pos h]
  · rw [if_neg h, if_neg h, if_neg (by linarith), if_neg (by linarith), if_neg (by linarith)]
    rfl

theorem lsmrUnit_solve (hε : 0 < ε) {t} (ht : lsmrStep (Vec.op (lsmrUnit ε).A) (Vec.op (lsmrUnit ε).B) (lsmrUnit ε).kw 100 (.fin 1) (lsmrUnit0 ε) = .ok t) :
    lsmrSolve (Vec.op (lsmrUnit ε).A) (Vec.op (lsmrUnit ε).B) (lsmrUnit ε).m (lsmrUnit ε).n (.fin (lsmrUnit ε).b) (lsmrUnit ε).kw none =
      (lsmrLoop (Vec.op (lsmrUnit ε).A) (Vec.op (lsmrUnit ε).B) (lsmrUnit ε).kw 100 (.fin 1) t >>= fun t =>
        .ok (lsmrResult (some t.x) t, t)) := by
  have hl : lsmrLimit (lsmrUnit ε).m (lsmrUnit ε).n (lsmrUnit ε).kw.itnlim = 100 := rfl
  have hf : lsmrFirst (lsmrUnit ε).kw (lsmrUnit0 ε) = lsmrUnit0 ε := rfl
  have hn : (lsmrUnit0 ε).normar = .fin (3 * ε) := by change Fl.fin (3 * ε) * Fl.fin 1 = _; simp
  have hb : (lsmrUnit0 ε).beta = .fin 1 := rfl
  have hne : ¬ feq (Fl.fin (3 * ε)) (lit 0) = true := by rw [feq_fin_zero]; positivity
  unfold lsmrSolve lsmrMain
  rw [lsmrUnit_init hε, ok_bind, hl, hn, if_neg hne, hb, hf]
  congr 1
  unfold lsmrLoop
  exact exceptLoop_of_cont rfl ht

/-- **C76 is violated by LSMR.** With the default tolerances there is a well-conditioned least-squares problem that LSMR solves in more
than one iteration; with the same operator and its transpose in a unit `10⁹` times as large, it stops after the first iteration, claims
that the estimate of the condition number exceeds `conlim` (`istop = 3`) and reports the condition number `2·10⁸`. -/
theorem C76_lsmr_violated : ∃ (q : LsmrProblem (EuclideanSpace ℝ (Fin 2)) (EuclideanSpace ℝ (Fin 3))) (c : ℝ), q.Valid ∧ 0 < c ∧
    let q' := { q with A := c • q.A, B := c • q.B }
    (∃ res s, lsmrSolve (Vec.op q.A) (Vec.op q.B) q.m q.n (.fin q.b) q.kw none = .ok (res, s) ∧ 1 ≤ res.istop ∧ 2 ≤ res.itn) ∧
    (∃ res s, lsmrSolve (Vec.op q'.A) (Vec.op q'.B) q'.m q'.n (.fin q'.b) q'.kw none = .ok (res, s) ∧ res.istop = 3 ∧ res.itn = 1 ∧
      res.condA = .fin (2 * 10 ^ 8)) := by
  refine ⟨lsmrUnit 1, 1 / 10 ^ 9, lsmrUnit_valid 1, by norm_num, ?_, ?_⟩
  · obtain ⟨res, s, h, h1, -⟩ := C51_converges (lsmrUnit 1) (lsmrUnit_valid 1) none
      (by
        intro h
        have := congrArg (fun x => x 0) h
        simp [lsmrUnit, Matrix.toLpLin_apply, Matrix.mulVec, dotProduct, Fin.sum_univ_three] at this)
      (by simp [lsmrUnit])
      (by
        rintro x ⟨hx, -⟩
        have h0 := congrArg (fun x => x 0) hx
        have h1 := congrArg (fun x => x 1) hx
        have h2 := congrArg (fun x => x 2) hx
        simp [lsmrUnit, Matrix.toLpLin_apply, Matrix.mulVec, dotProduct, Fin.sum_univ_two] at h0 h1 h2
        rw [h2] at h1
        linarith)
    refine ⟨res, s, h, h1, ?_⟩
    obtain ⟨t, ht, i1, -, i3⟩ := lsmrUnit_step (ε := 1) one_pos le_rfl
    rw [if_neg (by norm_num)] at i3
    rw [lsmrUnit_solve one_pos ht] at h
    obtain ⟨t', ht', h'⟩ := except_bind_ok h
    obtain ⟨rfl, rfl⟩ : lsmrResult (some t'.x) t' = res ∧ t' = s := by cases h'; exact ⟨rfl, rfl⟩
    unfold lsmrLoop at ht'
    have hI := (exceptLoop_inv (fun s => 1 ≤ s.itn ∧ (s.itn = 1 → s.istop = 0))
      (fun s t hs _ hst => by
        have := lsmrStep_itn hst
        exact ⟨by omega, fun h => by omega⟩) t ⟨by omega, fun _ => i3⟩ t' ht').1
    have e1 : (lsmrResult (some t'.x) t').itn = t'.itn := rfl
    have e2 : (lsmrResult (some t'.x) t').istop = t'.istop := rfl
    rw [e2] at h1
    rw [e1]
    by_contra hlt
    have := hI.2 (by omega)
    omega
  · have hq : ({ lsmrUnit 1 with A := (1 / 10 ^ 9 : ℝ) • (lsmrUnit 1).A, B := (1 / 10 ^ 9 : ℝ) • (lsmrUnit 1).B } :
        LsmrProblem (EuclideanSpace ℝ (Fin 2)) (EuclideanSpace ℝ (Fin 3))) = lsmrUnit (1 / 10 ^ 9) := by
      simp [lsmrUnit]
    simp only [hq]
    obtain ⟨t, ht, i1, i2, i3⟩ := lsmrUnit_step (ε := 1 / 10 ^ 9) (by norm_num) (by norm_num)
    rw [max_eq_left (by norm_num), if_pos (by norm_num)] at i3
    rw [max_eq_left (by norm_num)] at i2
    refine ⟨lsmrResult (some t.x) t, t, ?_, i3, i1, ?_⟩
    · have e1 : (1 / 10 ^ 9 : ℝ) • (lsmrUnit 1).A = (lsmrUnit (1 / 10 ^ 9)).A := by simp [lsmrUnit]
      have e2 : (1 / 10 ^ 9 : ℝ) • (lsmrUnit 1).B = (lsmrUnit (1 / 10 ^ 9)).B := by simp [lsmrUnit]
      rw [e1, e2]
      refine (lsmrUnit_solve (by norm_num) ht).trans ?_
      have : lsmrCont 100 t = false := by simp [lsmrCont, i3]
      unfold lsmrLoop
      rw [exceptLoop_of_not this]
      rfl
    · change t.condA = _
      rw [i2]
      norm_num

end Verif.Solver
