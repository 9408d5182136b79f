import Verif.Tools.FloatQuadraticLink
import Verif.Tools.FloatNewtonLemmas

/-! # C94: `roots_quadratic` with Newton steps, for roots that are not nearly equal -/

namespace Verif.Tools
open Verif.Solver Verif.Solver.Scalar

variable {F : FloatFormat}

theorem newtonF_cases {a2 a1 a0 r r' : FP F} (h : newtonF a2 a1 a0 r = .ok r') :
    ((⟨some 2⟩ : FP F) * a2 * r + a1).Finite ∧ (((⟨some 2⟩ : FP F) * a2 * r + a1).num = 0 ∧ r' = r ∨
      ((⟨some 2⟩ : FP F) * a2 * r + a1).num ≠ 0 ∧ r' = r - ((a2 * r + a1) * r + a0) / ((⟨some 2⟩ : FP F) * a2 * r + a1)) := by
  obtain ⟨v, h1, h2⟩ := bind_ok h
  obtain ⟨f, hz⟩ := isZeroF_ok h1
  refine ⟨f, ?_⟩
  cases v
  · simp only [Bool.false_eq_true, if_false] at h2
    obtain ⟨t, h3, h4⟩ := bind_ok h2
    cases h4
    obtain ⟨-, h5, h6⟩ := divF_ok h3
    rw [h6]
    exact .inr ⟨h5, rfl⟩
  · cases h2
    exact .inl ⟨hz.1 rfl, rfl⟩

theorem newtonF_finite {a2 a1 a0 r r' : FP F} (h : newtonF a2 a1 a0 r = .ok r') : r.Finite := by
  obtain ⟨f, -⟩ := newtonF_cases h
  exact (FP.mul_spec (FP.add_spec f).1).2.1

theorem newtonsF_finite {a2 a1 a0 : FP F} : ∀ {k : ℕ} {r r' : FP F}, newtonsF a2 a1 a0 k r = .ok r' → r'.Finite → r.Finite
  | 0, r, r', h, hf => by cases h; exact hf
  | k + 1, r, r', h, _ => by
    obtain ⟨t, h1, -⟩ := bind_ok h
    exact newtonF_finite h1

/-- a Newton step does not make a good approximation worse, if the roots are separated -/
theorem newtonF_good (hT : F.tiny = 0) {σ κ : ℝ} (hσ : 0 < σ) (hσ1 : σ ≤ 1) (hκ : 0 ≤ κ) (hκσ : κ + 5 * F.u ≤ σ / 1100) (hκu : 7 * F.u ≤ 0.9 * κ)
    {a2 a1 a0 r r' : FP F} (hW : 0 < a1.num ^ 2 + 4 * |a0.num * a2.num|)
    (hdisc : σ * (a1.num ^ 2 + 4 * |a0.num * a2.num|) ≤ a1.num ^ 2 - 4 * a0.num * a2.num)
    (hg : Good κ a2 a1 a0 r) (h : newtonF a2 a1 a0 r = .ok r') (hf : r'.Finite) : Good κ a2 a1 a0 r' := by
  obtain ⟨fD, hc⟩ := newtonF_cases h
  rcases hc with ⟨-, rfl⟩ | ⟨hD0, rfl⟩
  · exact hg
  have u0 := F.u_nonneg
  have hu : F.u ≤ 1 / 100 := by linarith
  obtain ⟨hne, hsep⟩ := Quadratic.separated hσ hσ1 hκ (by linarith) hW hdisc hg
  obtain ⟨-, ft, er'⟩ := FP.sub_spec hf
  obtain ⟨fv, -, -, et⟩ := div_spec ft
  obtain ⟨fm2, -, ev⟩ := FP.add_spec fv
  obtain ⟨fs1, -, em2⟩ := FP.mul_spec fm2
  obtain ⟨fm1, -, es1⟩ := FP.add_spec fs1
  obtain ⟨-, -, em1⟩ := FP.mul_spec fm1
  obtain ⟨fm3, -, eD⟩ := FP.add_spec fD
  obtain ⟨fb1, -, em3⟩ := FP.mul_spec fm3
  obtain ⟨-, -, eb1⟩ := FP.mul_spec fb1
  have hv := Quadratic.value_error u0 hu (rel hT em1).1 (rel hT es1).1 (rel hT em2).1 (rel hT ev).1
  have hd := Quadratic.derivative_error u0 hu (rel hT eb1).1 (rel hT em3).1 (rel hT eD).1
  have hθ : (Real.sqrt (σ / 11)) ^ 2 = σ / 11 := Real.sq_sqrt (by positivity)
  have hθ1 : Real.sqrt (σ / 11) ≤ 1 := Real.sqrt_le_iff.2 ⟨by norm_num, by linarith⟩
  have key := Quadratic.newton_error u0 hκ (Real.sqrt_pos.2 (by positivity)) hθ1 (by rw [hθ]; linarith) hg hne hsep hv hd (rel hT et).1 (rel hT er').2
  refine key.trans (mul_le_mul_of_nonneg_right ?_ (quadAbs_nonneg _ _ _ _))
  linarith

theorem newtonsF_good (hT : F.tiny = 0) {σ κ : ℝ} (hσ : 0 < σ) (hσ1 : σ ≤ 1) (hκ : 0 ≤ κ) (hκσ : κ + 5 * F.u ≤ σ / 1100) (hκu : 7 * F.u ≤ 0.9 * κ)
    {a2 a1 a0 : FP F} (hW : 0 < a1.num ^ 2 + 4 * |a0.num * a2.num|)
    (hdisc : σ * (a1.num ^ 2 + 4 * |a0.num * a2.num|) ≤ a1.num ^ 2 - 4 * a0.num * a2.num) :
    ∀ {k : ℕ} {r r' : FP F}, Good κ a2 a1 a0 r → newtonsF a2 a1 a0 k r = .ok r' → r'.Finite → Good κ a2 a1 a0 r'
  | 0, r, r', hg, h, _ => by cases h; exact hg
  | k + 1, r, r', hg, h, hf => by
    obtain ⟨t, h1, h2⟩ := bind_ok h
    exact newtonsF_good hT hσ hσ1 hκ hκσ hκu hW hdisc (newtonF_good hT hσ hσ1 hκ hκσ hκu hW hdisc hg h1 (newtonsF_finite h2 hf)) h2 hf

/-- the first Newton step for the small root of an ill-conditioned quadratic -/
theorem newtonF_small (hT : F.tiny = 0) (hu : F.u ≤ 1 / 500) {a2 a1 a0 tol r' : FP F} (htol : 0 ≤ tol.num) (h1 : a1.num ≠ 0)
    (hs : |a0.num * a2.num| ≤ 1.05 * (tol.num * a1.num ^ 2)) (h : newtonF a2 a1 a0 ⟨some 0⟩ = .ok r') (hf : r'.Finite) :
    Good (tol.num + 9 * F.u) a2 a1 a0 r' := by
  obtain ⟨fD, hc⟩ := newtonF_cases h
  have hz : (⟨some 0⟩ : FP F).num = 0 := rfl
  have u0 := F.u_nonneg
  obtain ⟨fm3, -, eD⟩ := FP.add_spec fD
  obtain ⟨-, -, em3⟩ := FP.mul_spec fm3
  have m30 : ((⟨some 2⟩ : FP F) * a2 * ⟨some 0⟩).num = 0 := (zero_of_rel hT em3).2 (by rw [hz, mul_zero])
  rw [m30, zero_add] at eD
  rcases hc with ⟨hD0, -⟩ | ⟨hD0, rfl⟩
  · exact absurd ((zero_of_rel hT eD).1 hD0) h1
  obtain ⟨-, ft, er'⟩ := FP.sub_spec hf
  obtain ⟨fv, -, -, et⟩ := div_spec ft
  obtain ⟨fm2, -, ev⟩ := FP.add_spec fv
  obtain ⟨-, -, em2⟩ := FP.mul_spec fm2
  have m20 : ((a2 * ⟨some 0⟩ + a1) * (⟨some 0⟩ : FP F)).num = 0 := (zero_of_rel hT em2).2 (by rw [hz, mul_zero])
  rw [m20, zero_add] at ev
  rw [hz, zero_sub] at er'
  have bv := (rel hT ev).1
  have bD := (rel hT eD).1
  have bt := (rel hT et).1
  have br := (rel hT er').2
  obtain ⟨v, hv⟩ : ∃ v, v = ((a2 * ⟨some 0⟩ + a1) * (⟨some 0⟩ : FP F) + a0).num := ⟨_, rfl⟩
  obtain ⟨D, hD⟩ : ∃ D, D = ((⟨some 2⟩ : FP F) * a2 * ⟨some 0⟩ + a1).num := ⟨_, rfl⟩
  obtain ⟨t, htd⟩ : ∃ t, t = (((a2 * ⟨some 0⟩ + a1) * (⟨some 0⟩ : FP F) + a0) / ((⟨some 2⟩ : FP F) * a2 * ⟨some 0⟩ + a1)).num := ⟨_, rfl⟩
  unfold Good quadF quadAbsF
  obtain ⟨r, hr⟩ : ∃ r, r = ((⟨some 0⟩ : FP F) - ((a2 * ⟨some 0⟩ + a1) * (⟨some 0⟩ : FP F) + a0) / ((⟨some 2⟩ : FP F) * a2 * ⟨some 0⟩ + a1)).num := ⟨_, rfl⟩
  rw [← hr]
  rw [← hr, ← htd] at br
  rw [← htd, ← hv, ← hD] at bt
  rw [← hv] at bv
  rw [← hD] at bD hD0
  clear hr htd hv hD et er' ev eD em2 em3 m20 m30 fv ft fm2 fm3 fD hf h
  generalize F.u = e at *
  obtain ⟨x, hx⟩ : ∃ x, x = a0.num / a1.num := ⟨_, rfl⟩
  have hxa : x * a1.num = a0.num := by rw [hx]; field_simp
  have ha1 : 0 < |a1.num| := abs_pos.2 h1
  have hDp : 0 < |D| := abs_pos.2 hD0
  have d1 : 0.99 * |a1.num| ≤ |D| := by
    have g1 := abs_sub_abs_le_abs_sub a1.num D
    rw [abs_sub_comm] at g1
    have g2 : e * |a1.num| ≤ 1 / 500 * |a1.num| := mul_le_mul_of_nonneg_right hu ha1.le
    linarith
  -- the quotient
  have t1 : |v / D - x| ≤ 2.03 * (e * |x|) := by
    have g1 : v / D - x = ((v - a0.num) - x * (D - a1.num)) / D := by
      field_simp
      linarith
    rw [g1, abs_div, div_le_iff₀ hDp]
    have g2 := abs_sub (v - a0.num) (x * (D - a1.num))
    rw [abs_mul x] at g2
    have g3 : |x| * |D - a1.num| ≤ |x| * (e * |a1.num|) := mul_le_mul_of_nonneg_left bD (abs_nonneg _)
    have g4 : |a0.num| = |x| * |a1.num| := by rw [← hxa, abs_mul]
    have g5 : e * |x| * (0.99 * |a1.num|) ≤ e * |x| * |D| := mul_le_mul_of_nonneg_left d1 (by positivity)
    have g6 : 0 ≤ e * |x| * |D| := by positivity
    rw [g4] at bv
    linarith
  have t2 : |v / D| ≤ 1.01 * |x| := by
    have g1 := abs_sub_abs_le_abs_sub (v / D) x
    have g2 : e * |x| ≤ 1 / 500 * |x| := mul_le_mul_of_nonneg_right hu (abs_nonneg _)
    have g3 := abs_nonneg x
    linarith
  have t3 : |t - x| ≤ 3.05 * (e * |x|) := by
    have g1 := abs_sub_le t (v / D) x
    have g2 : e * |v / D| ≤ e * (1.01 * |x|) := mul_le_mul_of_nonneg_left t2 u0
    have g3 : 0 ≤ e * |x| := by positivity
    linarith
  have t4 : |x| ≤ 1.02 * |r| := by
    have g1 := abs_sub_abs_le_abs_sub x t
    rw [abs_sub_comm] at g1
    have g2 := abs_sub_abs_le_abs_sub t (-r)
    rw [show t - -r = r - -t by ring, abs_neg] at g2
    have g3 : e * |x| ≤ 1 / 500 * |x| := mul_le_mul_of_nonneg_right hu (abs_nonneg _)
    have g4 : e * |r| ≤ 1 / 500 * |r| := mul_le_mul_of_nonneg_right hu (abs_nonneg _)
    have g5 := abs_nonneg r
    linarith
  have t5 : |r - -x| ≤ 4.2 * e * |r| := by
    have g1 := abs_add_le (r - -t) (x - t)
    rw [show r - -t + (x - t) = r - -x by ring, abs_sub_comm x t] at g1
    have g2 : e * |x| ≤ e * (1.02 * |r|) := mul_le_mul_of_nonneg_left t4 u0
    have g3 : 0 ≤ e * |r| := by positivity
    linarith
  have q1 : |a2.num * (-x) ^ 2 + a1.num * -x + a0.num| ≤ 0.525 * tol.num * (|a2.num| * (-x) ^ 2 + |a1.num| * |-x| + |a0.num|) := by
    have g1 : a2.num * (-x) ^ 2 + a1.num * -x + a0.num = a2.num * x ^ 2 := by rw [← hxa]; ring
    have g2 : |a1.num| * |-x| = |a0.num| := by rw [abs_neg, ← hxa, abs_mul]; ring
    rw [g1, g2, abs_mul, abs_of_nonneg (sq_nonneg x)]
    have g3 : |a2.num| * x ^ 2 ≤ 1.05 * (tol.num * |a0.num|) := by
      have g4 : (|a2.num| * x ^ 2) * |a1.num| ^ 2 = |a0.num| * |a0.num * a2.num| := by
        rw [abs_mul, ← hxa, abs_mul, ← sq_abs x]; ring
      have g5 : |a0.num| * |a0.num * a2.num| ≤ |a0.num| * (1.05 * (tol.num * a1.num ^ 2)) := mul_le_mul_of_nonneg_left hs (abs_nonneg _)
      rw [← sq_abs a1.num] at g5
      have g6 : (|a2.num| * x ^ 2) * |a1.num| ^ 2 ≤ (1.05 * (tol.num * |a0.num|)) * |a1.num| ^ 2 := by
        rw [g4]
        linarith
      exact le_of_mul_le_mul_right g6 (by positivity)
    have g7 : 0 ≤ tol.num * (|a2.num| * (-x) ^ 2) := by positivity
    linarith
  have key := Quadratic.round_error (e := 4.2 * e) (by positivity) (by linarith) (by positivity : 0 ≤ 0.525 * tol.num) q1 t5
  refine key.trans (mul_le_mul_of_nonneg_right ?_ (by positivity))
  linarith

theorem refineF_mem {a2 a1 a0 : FP F} (k : ℕ) : ∀ {l m : List (FP F)}, refineF a2 a1 a0 k l = .ok m →
    List.Forall₂ (fun r r' => newtonsF a2 a1 a0 k r = .ok r') l m
  | [], m, h => by cases h; exact .nil
  | r :: l, m, h => by
    obtain ⟨r', h1, h2⟩ := bind_ok h
    obtain ⟨l', h3, h4⟩ := bind_ok h2
    cases h4
    exact .cons h1 (refineF_mem k h3)

/-- **C94, with Newton steps.**  In an arithmetic without underflow, with a tolerance of at most 1/2000 (the default is `1e-8`) and at least one Newton step (the
default), and if the roots are not nearly equal (the discriminant is at least `20000 u (q1² + 4 |q0 q2|)`): every finite number `r` that `roots_quadratic`
returns satisfies `|q(r)| ≤ (tol + 9u) (|q2| r² + |q1| |r| + |q0|)`, and two numbers are returned unless `q2 = 0`.  There is no exception for
small roots. -/
theorem C94_newton_partial (hT : F.tiny = 0) (hu : F.u ≤ 1 / 50000) (q2 q1 q0 tol : FP F) (htol : 0 ≤ tol.num) (htol' : tol.num ≤ 1 / 2000)
    (nitref : ℕ) (hn : 1 ≤ nitref) (negZero : Bool) (hpos : 0 < q1.num ^ 2 - 4 * q0.num * q2.num)
    (hsep : 20000 * F.u * (q1.num ^ 2 + 4 * |q0.num * q2.num|) ≤ q1.num ^ 2 - 4 * q0.num * q2.num) (l : List (FP F))
    (h : rootsQuadraticF q2 q1 q0 tol nitref negZero = .ok l) :
    (∀ r ∈ l, r.Finite → |quadF q2 q1 q0 r.num| ≤ (tol.num + 9 * F.u) * quadAbsF q2 q1 q0 r.num) ∧ (q2.num ≠ 0 → l.length = 2) := by
  have u0 := F.u_nonneg
  have hu' : F.u ≤ 1 / 100 := by linarith
  obtain ⟨W, hWd⟩ : ∃ W, W = q1.num ^ 2 + 4 * |q0.num * q2.num| := ⟨_, rfl⟩
  obtain ⟨Δ, hΔ⟩ : ∃ Δ, Δ = q1.num ^ 2 - 4 * q0.num * q2.num := ⟨_, rfl⟩
  have hΔW : Δ ≤ W := by
    have := neg_abs_le (q0.num * q2.num)
    rw [hΔ, hWd]
    linarith
  rw [← hWd, ← hΔ] at hsep
  rw [← hΔ] at hpos
  have hW : 0 < W := lt_of_lt_of_le hpos hΔW
  have hσ : 0 < Δ / W := by positivity
  have hσ1 : Δ / W ≤ 1 := (div_le_one hW).2 hΔW
  have hσu : 20000 * F.u ≤ Δ / W := (le_div_iff₀ hW).2 hsep
  have hσΔ : Δ / W * W ≤ Δ := le_of_eq (by field_simp)
  -- the case in which the starting value is good to rounding
  have base : ∀ {r r' : FP F}, (r.Finite → Good (8 * F.u) q2 q1 q0 r) → newtonsF q2 q1 q0 nitref r = .ok r' → r'.Finite →
      Good (tol.num + 9 * F.u) q2 q1 q0 r' := by
    intro r r' hg hr hf
    have hg' := newtonsF_good hT hσ hσ1 (by positivity : 0 ≤ 8 * F.u) (by linarith) (by linarith) (hWd ▸ hW) (by rw [← hWd, ← hΔ]; exact hσΔ)
      (hg (newtonsF_finite hr hf)) hr hf
    exact hg'.trans (mul_le_mul_of_nonneg_right (by linarith) (quadAbs_nonneg _ _ _ _))
  obtain ⟨st, hst, h⟩ := bind_ok h
  obtain ⟨z2, hz2, hst⟩ := bind_ok hst
  obtain ⟨f2, hz2⟩ := isZeroF_ok hz2
  cases z2
  · have h2 : q2.num ≠ 0 := fun h => by simpa using hz2.2 h
    simp only [Bool.false_eq_true, if_false] at hst
    obtain ⟨v, hv, hst⟩ := bind_ok hst
    cases v
    · -- ill-conditioned
      simp only [Bool.false_eq_true, if_false] at hst
      obtain ⟨r1, hr1, hst⟩ := bind_ok hst
      cases hst
      have hs := small_product hT hu' htol hv
      have h1 : q1.num ≠ 0 := by
        intro h1
        rw [h1] at hs hΔ
        have h3 : q0.num * q2.num = 0 := abs_eq_zero.1 (le_antisymm (by linarith) (abs_nonneg _))
        rw [mul_assoc, h3] at hΔ
        linarith
      have hS : |q0.num * q2.num| ≤ 1.05 / 2000 * q1.num ^ 2 := by
        have : tol.num * q1.num ^ 2 ≤ 1 / 2000 * q1.num ^ 2 := mul_le_mul_of_nonneg_right htol' (sq_nonneg _)
        linarith
      have hσ' : 0.99 * (q1.num ^ 2 + 4 * |q0.num * q2.num|) ≤ q1.num ^ 2 - 4 * q0.num * q2.num := by
        have g1 := le_abs_self (q0.num * q2.num)
        have g2 := sq_nonneg q1.num
        linarith
      have hWp : 0 < q1.num ^ 2 + 4 * |q0.num * q2.num| := hWd ▸ hW
      obtain ⟨r1', r2', rfl, g1, g2⟩ : ∃ r1' r2', l = [r1', r2'] ∧ newtonsF q2 q1 q0 nitref r1 = .ok r1' ∧
          newtonsF q2 q1 q0 nitref ⟨some 0⟩ = .ok r2' := by
        have := refineF_mem nitref h
        cases this with
        | cons g1 g =>
          cases g with
          | cons g2 g =>
            cases g
            exact ⟨_, _, rfl, g1, g2⟩
      refine ⟨?_, fun _ => rfl⟩
      intro r hr hf
      simp only [List.mem_cons, List.not_mem_nil, or_false] at hr
      have hstep := @newtonsF_good F hT 0.99 (tol.num + 9 * F.u) (by norm_num) (by norm_num) (by positivity) (by linarith) (by linarith) q2 q1 q0 hWp hσ'
      rcases hr with rfl | rfl
      · refine hstep ?_ g1 hf
        refine (large_good hT hu' htol hs hr1 (newtonsF_finite g1 hf)).trans (mul_le_mul_of_nonneg_right (by linarith) (quadAbs_nonneg _ _ _ _))
      · obtain ⟨k, rfl⟩ : ∃ k, nitref = k + 1 := ⟨nitref - 1, by omega⟩
        obtain ⟨t, g3, g4⟩ := bind_ok g2
        exact hstep (newtonF_small hT (by linarith) htol h1 hs g3 (newtonsF_finite g4 hf)) g4 hf
    · simp only [if_true] at hst
      obtain ⟨w, hw, hst⟩ := bind_ok hst
      obtain ⟨fρ, -, hw⟩ := ltF_ok hw
      cases w
      · simp only [Bool.false_eq_true, if_false] at hst
        obtain ⟨s, hs, hst⟩ := bind_ok hst
        obtain ⟨c, hc, hst⟩ := bind_ok hst
        obtain ⟨r1, hr1, hst⟩ := bind_ok hst
        obtain ⟨r2, hr2, hst⟩ := bind_ok hst
        cases hst
        obtain ⟨e1, e2⟩ := formula_good hT hu' hs hc hr1 hr2
        obtain ⟨r1', r2', rfl, g1, g2⟩ : ∃ r1' r2', l = [r1', r2'] ∧ newtonsF q2 q1 q0 nitref r1 = .ok r1' ∧
            newtonsF q2 q1 q0 nitref r2 = .ok r2' := by
          have := refineF_mem nitref h
          cases this with
          | cons g1 g =>
            cases g with
            | cons g2 g =>
              cases g
              exact ⟨_, _, rfl, g1, g2⟩
        refine ⟨?_, fun _ => rfl⟩
        intro r hr hf
        simp only [List.mem_cons, List.not_mem_nil, or_false] at hr
        rcases hr with rfl | rfl
        · exact base e1 g1 hf
        · exact base e2 g2 hf
      · exfalso
        have hneg := hw.1 rfl
        obtain ⟨fp, fq, eρ⟩ := FP.sub_spec fρ
        obtain ⟨-, -, ep⟩ := FP.mul_spec fp
        obtain ⟨fq4, -, eq⟩ := FP.mul_spec fq
        obtain ⟨-, -, eq4⟩ := FP.mul_spec fq4
        have e1 := Quadratic.disc_error F.u_nonneg hu' (rel hT ep).1 (rel hT eq4).1 (rel hT eq).1 (rel hT eρ).1
        have hz : (⟨some 0⟩ : FP F).num = 0 := rfl
        rw [hz] at hneg
        rw [← hWd, ← hΔ] at e1
        have e2 := (abs_le.1 e1).1
        have e3 : 0 ≤ F.u * W := by positivity
        linarith
  · have h2 : q2.num = 0 := hz2.1 rfl
    simp only [if_true] at hst
    obtain ⟨z1, hz1, hst⟩ := bind_ok hst
    obtain ⟨f1, hz1⟩ := isZeroF_ok hz1
    refine ⟨?_, fun h => absurd h2 h⟩
    cases z1
    · simp only [Bool.false_eq_true, if_false] at hst
      obtain ⟨r1, hr1, hst⟩ := bind_ok hst
      cases hst
      obtain ⟨r1', rfl, g1⟩ : ∃ r1', l = [r1'] ∧ newtonsF q2 q1 q0 nitref r1 = .ok r1' := by
        have := refineF_mem nitref h
        cases this with
        | cons g1 g =>
          cases g
          exact ⟨_, rfl, g1⟩
      intro r hr hf
      rw [List.mem_singleton] at hr
      subst hr
      refine base ?_ g1 hf
      intro hf1
      obtain ⟨-, h1, er⟩ := divF_ok hr1
      subst er
      obtain ⟨k1, -, -, e1⟩ := div_spec hf1
      rw [(FP.neg_spec k1).2] at e1
      have e2 : |q2.num * (-q0.num / q1.num) ^ 2 + q1.num * (-q0.num / q1.num) + q0.num| ≤
          0 * (|q2.num| * (-q0.num / q1.num) ^ 2 + |q1.num| * |-q0.num / q1.num| + |q0.num|) := by
        rw [h2]
        refine le_of_eq ?_
        rw [zero_mul, zero_mul, abs_eq_zero]
        field_simp
        ring
      have e4 := Quadratic.round_error F.u_nonneg hu' le_rfl e2 (rel hT e1).2
      exact e4.trans (mul_le_mul_of_nonneg_right (by linarith) (quadAbs_nonneg _ _ _ _))
    · exfalso
      rw [h2, hz1.1 rfl] at hΔ
      norm_num at hΔ
      linarith

/-- **C94 in double precision with the default number of Newton steps.**  If no step of `roots_quadratic(q2, q1, q0, tol, nitref)` underflows or overflows, `tol` is at
most 1/2000, `nitref` is at least 1 and the roots are not nearly equal, then every number `r` returned satisfies
`|q(r)| ≤ (tol + 9u) (|q2| r² + |q1| |r| + |q0|)` with `u = 2^-53`, and two numbers are returned unless `q2 = 0`. -/
theorem C94_newton_float64_partial (q2 q1 q0 tol : FP normal64) (htol : 0 ≤ tol.num) (htol' : tol.num ≤ 1 / 2000) (nitref : ℕ) (hn : 1 ≤ nitref)
    (negZero : Bool) (hpos : 0 < q1.num ^ 2 - 4 * q0.num * q2.num)
    (hsep : 20000 * 2⁻¹ ^ 53 * (q1.num ^ 2 + 4 * |q0.num * q2.num|) ≤ q1.num ^ 2 - 4 * q0.num * q2.num) (l : List (FP normal64)) (hl : ∀ r ∈ l, r.Finite)
    (h : rootsQuadraticF q2 q1 q0 tol nitref negZero = .ok l) :
    ∃ l64, rootsQuadraticF q2.to64 q1.to64 q0.to64 tol.to64 nitref negZero = .ok l64 ∧
      (∀ r ∈ l64, r.Finite ∧ |quadF q2.to64 q1.to64 q0.to64 r.num| ≤ (tol.num + 9 * 2⁻¹ ^ 53) * quadAbsF q2.to64 q1.to64 q0.to64 r.num) ∧
      (q2.num ≠ 0 → l64.length = 2) := by
  refine ⟨_, C94_normal q2 q1 q0 tol nitref negZero l hl h, ?_⟩
  have hu : normal64.u ≤ 1 / 50000 := by
    show (2⁻¹ : ℝ) ^ 53 ≤ _
    norm_num
  obtain ⟨h1, h2⟩ := C94_newton_partial rfl hu q2 q1 q0 tol htol htol' nitref hn negZero hpos hsep l h
  refine ⟨?_, fun h => by rw [List.length_map]; exact h2 h⟩
  intro r hr
  obtain ⟨r0, hr0, rfl⟩ := List.mem_map.1 hr
  exact ⟨hl r0 hr0, h1 r0 hr0 (hl r0 hr0)⟩

theorem newton_without_underflow : rootsQuadraticF (int64 1) (int64 (-3)) (int64 2) (int64 0) 1 false = .ok [int64 2, int64 1] := by
  have c2 : (⟨some 2⟩ : FP normal64) = int64 2 := by simp [int64]
  have a1 : int64 1 * int64 2 = int64 2 := int64_mul _ _ (by norm_num)
  have a2 : int64 2 + int64 (-3) = int64 (-1) := int64_add _ _ (by norm_num)
  have a3 : int64 (-1) * int64 2 = int64 (-2) := int64_mul _ _ (by norm_num)
  have a4 : int64 (-2) + int64 2 = int64 0 := int64_add _ _ (by norm_num)
  have a5 : int64 2 * int64 1 = int64 2 := int64_mul _ _ (by norm_num)
  have a6 : int64 2 * int64 2 = int64 4 := int64_mul _ _ (by norm_num)
  have a7 : int64 4 + int64 (-3) = int64 1 := int64_add _ _ (by norm_num)
  have a8 : isZeroF (int64 1) = .ok false := by simp [isZeroF, int64]
  have a9 : divF (int64 0) (int64 1) = .ok (int64 0) := int64_div 0 1 (by norm_num) (by norm_num)
  have a10 : int64 2 - int64 0 = int64 2 := int64_sub _ _ (by norm_num)
  have b1 : int64 1 * int64 1 = int64 1 := int64_mul _ _ (by norm_num)
  have b2 : int64 1 + int64 (-3) = int64 (-2) := int64_add _ _ (by norm_num)
  have b3 : int64 (-2) * int64 1 = int64 (-2) := int64_mul _ _ (by norm_num)
  have b8 : isZeroF (int64 (-1)) = .ok false := by simp [isZeroF, int64]
  have b9 : divF (int64 0) (int64 (-1)) = .ok (int64 0) := int64_div 0 (-1) (by norm_num) (by norm_num)
  have b10 : int64 1 - int64 0 = int64 1 := int64_sub _ _ (by norm_num)
  have n1 : newtonF (int64 1) (int64 (-3)) (int64 2) (int64 2) = .ok (int64 2) := by
    unfold newtonF
    simp only [c2, a1, a2, a3, a4, a5, a6, a7, a8, a9, a10, ok_bind, Bool.false_eq_true, if_false]
  have n2 : newtonF (int64 1) (int64 (-3)) (int64 2) (int64 1) = .ok (int64 1) := by
    unfold newtonF
    simp only [c2, b1, b2, b3, a4, a5, a2, b8, b9, b10, ok_bind, Bool.false_eq_true, if_false]
  unfold rootsQuadraticF
  simp only [start_without_underflow, ok_bind, refineF, newtonsF, n1, n2]

/-- the hypotheses of `C94_newton_float64_partial` can be met -/
example : ∃ (q2 q1 q0 tol : FP normal64) (l : List (FP normal64)), 0 ≤ tol.num ∧ tol.num ≤ 1 / 2000 ∧ 0 < q1.num ^ 2 - 4 * q0.num * q2.num ∧
    20000 * 2⁻¹ ^ 53 * (q1.num ^ 2 + 4 * |q0.num * q2.num|) ≤ q1.num ^ 2 - 4 * q0.num * q2.num ∧ (∀ r ∈ l, r.Finite) ∧ l.length = 2 ∧
    rootsQuadraticF q2 q1 q0 tol 1 false = .ok l := by
  have n (m : ℤ) : (int64 m).num = m := rfl
  refine ⟨int64 1, int64 (-3), int64 2, int64 0, [int64 2, int64 1], ?_, ?_, ?_, ?_, ?_, rfl, newton_without_underflow⟩
  · simp [n]
  · simp [n]
  · simp only [n]
    norm_num
  · simp only [n]
    norm_num
  · intro r hr
    simp only [List.mem_cons, List.not_mem_nil, or_false] at hr
    rcases hr with rfl | rfl <;> rfl

end Verif.Tools
