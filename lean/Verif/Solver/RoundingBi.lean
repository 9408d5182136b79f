import Verif.Solver.RoundingCGS
import Verif.Solver.BiCGSTAB

/-! # C90: rounding errors of Bi-CGSTAB

An iteration consists of two half steps.  The iterate between them is `x + alpha q`, but the code adds the two corrections in the other order, and
they may cancel.  So the corrections are bounded by the residuals, with a bound `K` for the inverse of `A`. -/

namespace Verif.Solver
open Scalar Vect

/-- **Specification.**  The rounding errors of one iteration of Bi-CGSTAB: `N` bounds `A`, `K` its inverse, `c` the errors of the products, `theta` the iterates
and `R` the residuals. -/
noncomputable def Rounding.localBi {S V E : Type} [Scalar S] [Vect S V] [NormedAddCommGroup E] [InnerProductSpace ℝ E] (F : Rounding S V E)
    (N K c theta R : ℝ) : ℝ :=
  F.u * (7 * (R + F.tiny) + N * (3 * theta + 20 * K * (R + F.tiny))) + c * (12 * K * (R + F.tiny) + theta) + (4 + 5 * N) * F.tiny

section
variable {E : Type} [NormedAddCommGroup E] [InnerProductSpace ℝ E]

/-- a half step: the correction `a q` and the error of the new residual -/
theorem bi_half {u eta K c R : ℝ} (hu : 0 ≤ u) (hu4 : u ≤ 1 / 4) (heta : 0 ≤ eta) (hK : 0 ≤ K) (hc : 0 ≤ c) (hKc : K * c ≤ 1 / 2)
    (A : E →ₗ[ℝ] E) (hA : ∀ x, ‖x‖ ≤ K * ‖A x‖) (q v s r r' : E) (a : ℝ) (hv : ‖v - A q‖ ≤ c * ‖q‖)
    (hs : ‖s - a • v‖ ≤ u * ‖s‖ + eta) (hr' : ‖r' - (r - s)‖ ≤ u * ‖r'‖ + eta) (hr : ‖r‖ ≤ R) (hrr : ‖r'‖ ≤ R) :
    ‖a • q‖ ≤ 6 * (K * (R + eta)) ∧ ‖r' - (r - A (a • q))‖ ≤ u * (3.5 * (R + eta)) + c * (6 * (K * (R + eta))) + 2 * eta := by
  have hR : 0 ≤ R := (norm_nonneg _).trans hr
  have h1 : ‖s‖ ≤ 2.25 * R + eta := by
    have e : s = r - r' + (r' - (r - s)) := by abel
    have e1 : ‖s‖ ≤ ‖r‖ + ‖r'‖ + ‖r' - (r - s)‖ := by
      calc ‖s‖ = ‖r - r' + (r' - (r - s))‖ := by rw [← e]
        _ ≤ _ := (norm_add_le _ _).trans (by gcongr; exact norm_sub_le _ _)
    have e2 : u * ‖r'‖ ≤ 1 / 4 * R := mul_le_mul hu4 hrr (norm_nonneg _) (by norm_num)
    linarith
  have h2 : ‖s - a • v‖ ≤ u * (2.25 * R + eta) + eta := hs.trans (by gcongr)
  have h2' : ‖s - a • v‖ ≤ 1 / 4 * (2.25 * R + eta) + eta := h2.trans (by gcongr)
  have h3 : ‖a • v‖ ≤ 3 * (R + eta) := by
    have e1 := norm_sub_le s (s - a • v)
    rw [sub_sub_cancel] at e1
    linarith
  have h4 : ‖a • v - A (a • q)‖ ≤ c * ‖a • q‖ := by
    rw [map_smul, ← smul_sub, norm_smul, norm_smul]
    calc ‖a‖ * ‖v - A q‖ ≤ ‖a‖ * (c * ‖q‖) := by gcongr
      _ = _ := by ring
  have h5 : ‖A (a • q)‖ ≤ 6 * (R + eta) := by
    have e1 := norm_sub_le (a • v) (a • v - A (a • q))
    rw [sub_sub_cancel] at e1
    have e2 : c * ‖a • q‖ ≤ c * (K * ‖A (a • q)‖) := mul_le_mul_of_nonneg_left (hA _) hc
    have e3 : K * c * ‖A (a • q)‖ ≤ 1 / 2 * ‖A (a • q)‖ := mul_le_mul_of_nonneg_right hKc (norm_nonneg _)
    linarith
  have h6 : ‖a • q‖ ≤ 6 * (K * (R + eta)) := by
    have := (hA (a • q)).trans (mul_le_mul_of_nonneg_left h5 hK)
    linarith
  refine ⟨h6, ?_⟩
  have e : r' - (r - A (a • q)) = (r' - (r - s)) - (s - a • v) - (a • v - A (a • q)) := by abel
  rw [e]
  have e1 := norm_sub_le (r' - (r - s) - (s - a • v)) (a • v - A (a • q))
  have e2 := norm_sub_le (r' - (r - s)) (s - a • v)
  have e3 : u * ‖r'‖ ≤ u * R := mul_le_mul_of_nonneg_left hrr hu
  have e4 : c * ‖a • q‖ ≤ c * (6 * (K * (R + eta))) := mul_le_mul_of_nonneg_left h6 hc
  have e5 := mul_nonneg hu hR
  have e6 := mul_nonneg hu heta
  linarith

/-- an iteration with both half steps -/
theorem bi_full {u eta N K c theta R : ℝ} (hu : 0 ≤ u) (hu4 : u ≤ 1 / 4) (heta : 0 ≤ eta) (hN : 0 ≤ N) (hK : 0 ≤ K)
    (hc : 0 ≤ c) (A : E →ₗ[ℝ] E) (hA : ∀ x, ‖A x‖ ≤ N * ‖x‖) (b x xm x' t1 t2 w1 w2 r s r' : E) (hR : 0 ≤ R)
    (h1 : ‖w1‖ ≤ 6 * (K * (R + eta))) (h2 : ‖w2‖ ≤ 6 * (K * (R + eta)))
    (e1 : ‖s - (r - A w1)‖ ≤ u * (3.5 * (R + eta)) + c * (6 * (K * (R + eta))) + 2 * eta)
    (e2 : ‖r' - (s - A w2)‖ ≤ u * (3.5 * (R + eta)) + c * (6 * (K * (R + eta))) + 2 * eta)
    (ht1 : ‖t1 - w1‖ ≤ u * ‖w1‖ + eta) (ht2 : ‖t2 - w2‖ ≤ u * ‖w2‖ + eta)
    (hxm : ‖xm - (x + t2)‖ ≤ u * ‖xm‖ + eta) (hx' : ‖x' - (xm + t1)‖ ≤ u * ‖x'‖ + eta) (hth : ‖x'‖ ≤ theta) :
    ‖r' - (b - A x')‖ ≤ ‖r - (b - A x)‖ + (u * (7 * (R + eta) + N * (3 * theta + 20 * K * (R + eta))) + c * (12 * K * (R + eta) + theta) + (4 + 5 * N) * eta) := by
  have hth0 : 0 ≤ theta := (norm_nonneg _).trans hth
  obtain ⟨k, hk⟩ : ∃ k, k = K * (R + eta) := ⟨_, rfl⟩
  have hk0 : 0 ≤ k := by rw [hk]; positivity
  rw [← hk] at h1 h2 e1 e2
  have f1 : u * ‖w1‖ ≤ u * (6 * k) := mul_le_mul_of_nonneg_left h1 hu
  have f2 : u * ‖w2‖ ≤ u * (6 * k) := mul_le_mul_of_nonneg_left h2 hu
  have f3 : u * ‖x'‖ ≤ u * theta := mul_le_mul_of_nonneg_left hth hu
  have f4 : u * theta ≤ 1 / 4 * theta := mul_le_mul_of_nonneg_right hu4 hth0
  have f5 : u * (6 * k) ≤ 1 / 4 * (6 * k) := mul_le_mul_of_nonneg_right hu4 (by positivity)
  have g1 : ‖t1‖ ≤ 7.5 * k + eta := by
    have := norm_add_le w1 (t1 - w1)
    rw [add_sub_cancel] at this
    linarith
  have g2 : ‖xm‖ ≤ 1.25 * theta + 7.5 * k + 2 * eta := by
    have e : xm = x' - (x' - (xm + t1)) - t1 := by abel
    have := norm_sub_le (x' - (x' - (xm + t1))) t1
    rw [← e] at this
    have := norm_sub_le x' (x' - (xm + t1))
    linarith
  have f6 : u * ‖xm‖ ≤ u * (1.25 * theta + 7.5 * k + 2 * eta) := mul_le_mul_of_nonneg_left g2 hu
  have f7 : u * eta ≤ 1 / 4 * eta := mul_le_mul_of_nonneg_right hu4 heta
  have g3 : ‖x' - (x + w1 + w2)‖ ≤ u * (3 * theta + 20 * k) + 5 * eta := by
    have e : x' - (x + w1 + w2) = (x' - (xm + t1)) + (xm - (x + t2)) + (t1 - w1) + (t2 - w2) := by abel
    rw [e]
    have i1 := norm_add_le (x' - (xm + t1) + (xm - (x + t2)) + (t1 - w1)) (t2 - w2)
    have i2 := norm_add_le (x' - (xm + t1) + (xm - (x + t2))) (t1 - w1)
    have i3 := norm_add_le (x' - (xm + t1)) (xm - (x + t2))
    have i4 : 0 ≤ u * theta := by positivity
    have i5 : 0 ≤ u * k := by positivity
    linarith
  have g4 := (hA (x' - (x + w1 + w2))).trans (mul_le_mul_of_nonneg_left g3 hN)
  have e : r' - (b - A x') = (r' - (s - A w2)) + (s - (r - A w1)) + (r - (b - A x)) + A (x' - (x + w1 + w2)) := by
    simp only [map_sub, map_add]; abel
  rw [e]
  have i1 := norm_add_le (r' - (s - A w2) + (s - (r - A w1)) + (r - (b - A x))) (A (x' - (x + w1 + w2)))
  have i2 := norm_add_le (r' - (s - A w2) + (s - (r - A w1))) (r - (b - A x))
  have i3 := norm_add_le (r' - (s - A w2)) (s - (r - A w1))
  have i4 : 0 ≤ c * theta := by positivity
  rw [mul_assoc 20, mul_assoc 12, ← hk]
  linarith

/-- an iteration that stops after the first half step -/
theorem bi_short {u eta N K c theta R : ℝ} (hu : 0 ≤ u) (heta : 0 ≤ eta) (hN : 0 ≤ N) (hK : 0 ≤ K)
    (hc : 0 ≤ c) (A : E →ₗ[ℝ] E) (hA : ∀ x, ‖A x‖ ≤ N * ‖x‖) (b x x' t1 w1 r s : E) (hR : 0 ≤ R)
    (h1 : ‖w1‖ ≤ 6 * (K * (R + eta)))
    (e1 : ‖s - (r - A w1)‖ ≤ u * (3.5 * (R + eta)) + c * (6 * (K * (R + eta))) + 2 * eta)
    (ht1 : ‖t1 - w1‖ ≤ u * ‖w1‖ + eta) (hx' : ‖x' - (x + t1)‖ ≤ u * ‖x'‖ + eta) (hth : ‖x'‖ ≤ theta) :
    ‖s - (b - A x')‖ ≤ ‖r - (b - A x)‖ + (u * (7 * (R + eta) + N * (3 * theta + 20 * K * (R + eta))) + c * (12 * K * (R + eta) + theta) + (4 + 5 * N) * eta) := by
  have hth0 : 0 ≤ theta := (norm_nonneg _).trans hth
  obtain ⟨k, hk⟩ : ∃ k, k = K * (R + eta) := ⟨_, rfl⟩
  have hk0 : 0 ≤ k := by rw [hk]; positivity
  rw [← hk] at h1 e1
  have f1 : u * ‖w1‖ ≤ u * (6 * k) := mul_le_mul_of_nonneg_left h1 hu
  have f3 : u * ‖x'‖ ≤ u * theta := mul_le_mul_of_nonneg_left hth hu
  have g3 : ‖x' - (x + w1)‖ ≤ u * (3 * theta + 20 * k) + 5 * eta := by
    have e : x' - (x + w1) = (x' - (x + t1)) + (t1 - w1) := by abel
    rw [e]
    have i2 := norm_add_le (x' - (x + t1)) (t1 - w1)
    have i4 : 0 ≤ u * theta := by positivity
    have i5 : 0 ≤ u * k := by positivity
    linarith
  have g4 := (hA (x' - (x + w1))).trans (mul_le_mul_of_nonneg_left g3 hN)
  have e : s - (b - A x') = (s - (r - A w1)) + (r - (b - A x)) + A (x' - (x + w1)) := by
    simp only [map_sub, map_add]; abel
  rw [e]
  have i1 := norm_add_le (s - (r - A w1) + (r - (b - A x))) (A (x' - (x + w1)))
  have i2 := norm_add_le (s - (r - A w1)) (r - (b - A x))
  have i4 : 0 ≤ c * theta := by positivity
  have i5 : 0 ≤ u * (R + eta) := by positivity
  have i6 : 0 ≤ c * k := by positivity
  rw [mul_assoc 20, mul_assoc 12, ← hk]
  linarith

end

variable {S V E : Type} [Scalar S] [Vect S V] [NormedAddCommGroup E] [InnerProductSpace ℝ E]

/-- the state in which the loop of Bi-CGSTAB starts, with a budget of `m` products (`bicgstab.py:53-83`, as in `biSolve`, see `biSolve_start`) -/
def biStart (op : V → V) (o : KrylovOpts S V) (rhs : V) (guess : Option V) (m : ℕ) : BiLoop S V :=
  let (r0, nMatvec, calls) := match guess with
    | some g => (rhs - op g, 1, [g])
    | none => (rhs, 0, [])
  { x := guess.getD zeros, r := r0, p := zeros, v := zeros, rho := lit 1, rhoNext := dot r0 r0, alpha := lit 1, omega := lit 1,
    residNorm := Scalar.abs (sqrt (dot r0 r0)), nMatvec := nMatvec,
    finished := le (Scalar.abs (sqrt (dot r0 r0))) (pymax o.abstol (o.reltol * Scalar.abs (sqrt (dot r0 r0)))) || decide (nMatvec ≥ m), calls := calls }

/-- the threshold -/
def biThr (op : V → V) (o : KrylovOpts S V) (rhs : V) (guess : Option V) : S :=
  pymax o.abstol (o.reltol * (biStart op o rhs guess 0).residNorm)

/-- the loop with a budget of `m` -/
def biRun (op : V → V) (o : KrylovOpts S V) (rhs : V) (guess : Option V) (m : ℕ) : BiLoop S V → BiLoop S V :=
  biLoop op o.precon (biThr op o rhs guess) m (biStart op o rhs guess 0).r

theorem biSolve_start (op : V → V) (o : KrylovOpts S V) (n : ℕ) (rhs : V) (kw : KrylovKw V) :
    biSolve op o n rhs kw =
      (let s := biRun op o rhs kw.guess (kw.matvecMax.getD (2 * n)) (biStart op o rhs kw.guess (kw.matvecMax.getD (2 * n)))
       ({ residNorm0 := (biStart op o rhs kw.guess 0).residNorm, converged := le s.residNorm (biThr op o rhs kw.guess), nMatvec := s.nMatvec,
          x := s.x, residNorm := s.residNorm }, s.calls)) := by
  unfold biSolve biRun biThr biStart
  cases kw.guess <;> rfl

/-- the possible outcomes of an iteration, with every budget -/
theorem biStep_cases (op : V → V) (precon : Option (V → V)) (t : S) (r0 : V) (s : BiLoop S V) :
    ∃ (q z ss : V) (a w : S), ss = s.r - smul a (op q) ∧
      ((le (norm ss) t = true ∧ ∀ m, (biStep op precon t m r0 s).finished = true ∧ (biStep op precon t m r0 s).x = s.x + smul a q ∧
          (biStep op precon t m r0 s).residNorm = norm ss ∧ (biStep op precon t m r0 s).nMatvec = s.nMatvec + 1 ∧
          (biStep op precon t m r0 s).calls = s.calls ++ [q]) ∨
       (le (norm ss) t = false ∧
        (∀ m ≤ s.nMatvec + 1, (biStep op precon t m r0 s).finished = true ∧ (biStep op precon t m r0 s).residNorm = norm ss ∧
          (biStep op precon t m r0 s).nMatvec = s.nMatvec + 1 ∧ (biStep op precon t m r0 s).x = s.x) ∧
        ∃ s' : BiLoop S V, s'.x = s.x + smul w z + smul a q ∧ s'.r = ss - smul w (op z) ∧ s'.residNorm = norm s'.r ∧ s'.nMatvec = s.nMatvec + 2 ∧
          s'.calls = s.calls ++ [q, z] ∧
          ∀ m, s.nMatvec + 1 < m → biStep op precon t m r0 s = { s' with finished := le s'.residNorm t || decide (s.nMatvec + 2 ≥ m) })) := by
  set p := smul (s.rhoNext / s.rho * s.alpha / s.omega) s.p - smul (s.rhoNext / s.rho * s.alpha / s.omega * s.omega) s.v + s.r with hp
  set q := applyPrecon precon p with hq
  set a := s.rhoNext / dot r0 (op q) with ha
  set ss := s.r - smul a (op q) with hss
  set z := applyPrecon precon ss with hz
  set w := dot (op z) ss / dot (op z) (op z) with hw
  refine ⟨q, z, ss, a, w, rfl, ?_⟩
  have hstep : ∀ m, biStep op precon t m r0 s =
      if le (norm ss) t then
        { s with x := s.x + smul a q, p := p, v := op q, rho := s.rhoNext, alpha := a, residNorm := norm ss,
                 nMatvec := s.nMatvec + 1, finished := true, calls := s.calls ++ [q] }
      else if s.nMatvec + 1 ≥ m then
        { s with p := p, v := op q, rho := s.rhoNext, alpha := a, residNorm := norm ss, nMatvec := s.nMatvec + 1,
                 finished := true, calls := s.calls ++ [q] }
      else
        { x := s.x + smul w z + smul a q, r := ss - smul w (op z), p := p, v := op q, rho := s.rhoNext, rhoNext := -w * dot r0 (op z), alpha := a, omega := w,
          residNorm := norm (ss - smul w (op z)), nMatvec := s.nMatvec + 2,
          finished := le (norm (ss - smul w (op z))) t || decide (s.nMatvec + 2 ≥ m), calls := s.calls ++ [q, z] } := fun m => rfl
  cases hl : le (norm ss) t with
  | true =>
    refine .inl ⟨rfl, fun m => ?_⟩
    rw [hstep, hl, if_pos rfl]
    exact ⟨rfl, rfl, rfl, rfl, rfl⟩
  | false =>
    refine .inr ⟨rfl, fun m hm => ?_, ?_⟩
    · rw [hstep, hl, if_neg (by simp), if_pos hm]
      exact ⟨rfl, rfl, rfl, rfl⟩
    · refine ⟨BiLoop.mk (s.x + smul w z + smul a q) (ss - smul w (op z)) p (op q) s.rhoNext (-w * dot r0 (op z)) a w (norm (ss - smul w (op z)))
        (s.nMatvec + 2) true (s.calls ++ [q, z]), rfl, rfl, rfl, rfl, rfl, fun m hm => ?_⟩
      rw [hstep, hl, if_neg (by simp), if_neg (by omega)]

/-- the calls with smaller budgets: finite residual norms, bounded residuals and iterates -/
def BiSmaller (F : Rounding S V E) (op : V → V) (theta R : ℝ) (o : KrylovOpts S V) (rhs : V) (guess : Option V) (M : ℕ) : Prop :=
  ∀ m ≤ M, F.finS (biRun op o rhs guess m (biStart op o rhs guess m)).residNorm ∧
    F.num (biRun op o rhs guess m (biStart op o rhs guess m)).residNorm + (F.uNorm * F.num (biRun op o rhs guess m (biStart op o rhs guess m)).residNorm + F.tinyNorm) ≤ R ∧
    ‖F.vec (biRun op o rhs guess m (biStart op o rhs guess m)).x‖ ≤ theta

/-- the bound on the difference of the updated residual and the residual, along the loop -/
def BiDrift (F : Rounding S V E) (op : V → V) (A : E →ₗ[ℝ] E) (N K c theta R : ℝ) (rhs : V) (s : BiLoop S V) : Prop :=
  F.Computes op A N c s.calls → F.finV s.x →
    F.finV rhs ∧ ‖F.vec s.x‖ ≤ theta ∧ ∃ rr, (s.finished = false → rr = s.r) ∧ (s.residNorm = Scalar.abs (sqrt (dot rr rr)) ∨ s.residNorm = Vect.norm rr) ∧
      ‖F.vec rr‖ ≤ R ∧ ‖F.vec rr - (F.vec rhs - A (F.vec s.x))‖ ≤ (s.nMatvec + 1) * F.localBi N K c theta R

/-- what holds along the loop of Bi-CGSTAB with budget `M` -/
structure BiAlong (F : Rounding S V E) (op : V → V) (A : E →ₗ[ℝ] E) (N K c theta R : ℝ) (o : KrylovOpts S V) (rhs : V) (guess : Option V) (M : ℕ)
    (s : BiLoop S V) : Prop where
  budget : s.finished = false → s.nMatvec < M
  even : s.finished = false → Even (s.nMatvec + guess.toList.length)
  shorter : s.finished = false → ∀ m ≤ M, s.nMatvec < m → biRun op o rhs guess m (biStart op o rhs guess m) = biRun op o rhs guess m s
  ended : s.finished = true → biRun op o rhs guess M (biStart op o rhs guess M) = s
  drift : le s.residNorm (biThr op o rhs guess) = true ∨ Even (s.nMatvec + guess.toList.length) → BiDrift F op A N K c theta R rhs s

theorem Rounding.localBi_nonneg (F : Rounding S V E) {N K c theta R : ℝ} (hN : 0 ≤ N) (hK : 0 ≤ K) (hc : 0 ≤ c) (ht : 0 ≤ theta) (hR : 0 ≤ R) :
    0 ≤ F.localBi N K c theta R := by
  have := F.u_nonneg
  have := F.tiny_nonneg
  unfold Rounding.localBi
  positivity

theorem biRun_stop {op : V → V} {o : KrylovOpts S V} {rhs : V} {guess : Option V} {m : ℕ} {s : BiLoop S V} (h : s.finished = true) :
    biRun op o rhs guess m s = s := whileLoop_of_not (by simp [h])

theorem biRun_unroll {op : V → V} {o : KrylovOpts S V} {rhs : V} {guess : Option V} {m : ℕ} {s : BiLoop S V} (h : s.finished = false) :
    biRun op o rhs guess m s = biRun op o rhs guess m (biStep op o.precon (biThr op o rhs guess) m (biStart op o rhs guess 0).r s) :=
  whileLoop_of_cont (by simp [h])

theorem norm_le_of_norm (F : Rounding S V E) {v : V} {R : ℝ} (h1 : F.finS (Vect.norm v))
    (h2 : F.num (Vect.norm v) + (F.uNorm * F.num (Vect.norm v) + F.tinyNorm) ≤ R) : ‖F.vec v‖ ≤ R := by
  have := (abs_le.1 (F.norm_err v h1)).1
  linarith

theorem norm_le_of_root (F : Rounding S V E) {v : V} {R : ℝ} (h1 : F.finS (Scalar.abs (sqrt (dot v v))))
    (h2 : F.num (Scalar.abs (sqrt (dot v v))) + (F.uNorm * F.num (Scalar.abs (sqrt (dot v v))) + F.tinyNorm) ≤ R) : ‖F.vec v‖ ≤ R := by
  have := (abs_le.1 (F.root_err v h1)).1
  linarith

theorem biAlong_start (F : Rounding S V E) (op : V → V) (A : E →ₗ[ℝ] E) {N K c theta R : ℝ} (hK : 0 ≤ K) (o : KrylovOpts S V) (rhs : V) (guess : Option V)
    (M : ℕ) (hs : BiSmaller F op theta R o rhs guess M) : BiAlong F op A N K c theta R o rhs guess M (biStart op o rhs guess M) where
  budget h := by
    unfold biStart at h ⊢
    simp only [ge_iff_le, Bool.or_eq_false_iff, decide_eq_false_iff_not, not_le] at h
    exact h.2
  even _ := by
    unfold biStart
    cases guess
    · exact ⟨0, rfl⟩
    · exact ⟨1, rfl⟩
  shorter h m hm hlt := by
    have : biStart op o rhs guess m = biStart op o rhs guess M := by
      unfold biStart at h hlt ⊢
      simp only [ge_iff_le, Bool.or_eq_false_iff, decide_eq_false_iff_not, not_le] at h hlt ⊢
      congr 2
      rw [decide_eq_false (by omega), decide_eq_false (by omega)]
    rw [this]
  ended h := biRun_stop h
  drift := by
    intro _ hop hx
    obtain ⟨h1, h2, h3⟩ := hs 0 (Nat.zero_le _)
    rw [biRun_stop (by unfold biStart; simp)] at h1 h2 h3
    have th0 : 0 ≤ theta := (norm_nonneg _).trans h3
    have fr := F.root_fin (biStart op o rhs guess 0).r h1
    have nr : ‖F.vec (biStart op o rhs guess 0).r‖ ≤ R := norm_le_of_root F h1 h2
    have R0 : 0 ≤ R := (norm_nonneg _).trans nr
    have L0 := F.localBi_nonneg hop.N_nonneg hK hop.c_nonneg th0 R0
    have u0 := F.u_nonneg
    have t0 := F.tiny_nonneg
    cases guess with
    | none =>
      refine ⟨fr, h3, rhs, fun _ => rfl, .inl rfl, nr, ?_⟩
      have e : F.vec rhs - (F.vec rhs - A (F.vec (zeros : V))) = 0 := by rw [F.zeros_eq, map_zero, sub_zero, sub_self]
      have e' : ‖F.vec rhs - (F.vec rhs - A (F.vec (biStart op o rhs none M).x))‖ = 0 := by
        rw [← norm_zero (E := E), ← e]; rfl
      rw [e']
      positivity
    | some g =>
      refine ⟨(F.sub_fin _ _ fr).1, h3, rhs - op g, fun _ => rfl, .inl rfl, nr, ?_⟩
      have e1 := F.sub_err _ _ fr
      have e2 := hop.err g (List.mem_singleton_self g) hx (F.sub_fin _ _ fr).2
      have e3 : F.vec (rhs - op g) - (F.vec rhs - A (F.vec g)) = (F.vec (rhs - op g) - (F.vec rhs - F.vec (op g))) - (F.vec (op g) - A (F.vec g)) := by abel
      have e4 : ‖F.vec (rhs - op g) - (F.vec rhs - A (F.vec g))‖ ≤ F.localBi N K c theta R := by
        rw [e3]
        have i1 := norm_sub_le (F.vec (rhs - op g) - (F.vec rhs - F.vec (op g))) (F.vec (op g) - A (F.vec g))
        have i2 : F.u * ‖F.vec (rhs - op g)‖ ≤ F.u * R := mul_le_mul_of_nonneg_left nr u0
        have i3 : c * ‖F.vec g‖ ≤ c * theta := mul_le_mul_of_nonneg_left h3 hop.c_nonneg
        have i4 : 0 ≤ F.u * R := by positivity
        have i5 : 0 ≤ F.u * F.tiny := by positivity
        have hN := hop.N_nonneg
        have hc := hop.c_nonneg
        have i6 : 0 ≤ F.u * (N * (3 * theta + 20 * K * (R + F.tiny))) := by positivity
        have i7 : 0 ≤ c * (12 * K * (R + F.tiny)) := by positivity
        have i8 : 0 ≤ N * F.tiny := by positivity
        have i9 : ‖F.vec (rhs - op g) - (F.vec rhs - F.vec (op g))‖ ≤ F.u * ‖F.vec (rhs - op g)‖ + F.tiny := e1
        unfold Rounding.localBi
        linarith
      refine e4.trans (le_mul_of_one_le_left L0 ?_)
      have : (0:ℝ) ≤ ((biStart op o rhs (some g) M).nMatvec : ℝ) := Nat.cast_nonneg _
      linarith

theorem biAlong_step (F : Rounding S V E) {op : V → V} {A : E →ₗ[ℝ] E} {N K c theta R : ℝ} (hK : 0 ≤ K) (hKc : K * c ≤ 1 / 2) (hA : ∀ x, ‖x‖ ≤ K * ‖A x‖)
    {o : KrylovOpts S V} {rhs : V} {guess : Option V} {M : ℕ} (hs : BiSmaller F op theta R o rhs guess M) {s : BiLoop S V}
    (h : BiAlong F op A N K c theta R o rhs guess M s) (hc : s.finished = false) :
    BiAlong F op A N K c theta R o rhs guess M (biStep op o.precon (biThr op o rhs guess) M (biStart op o rhs guess 0).r s) := by
  obtain ⟨q, z, ss, a, w, hss, hcase⟩ := biStep_cases op o.precon (biThr op o rhs guess) (biStart op o rhs guess 0).r s
  have hM := h.budget hc
  have hev := h.even hc
  have u0 := F.u_nonneg
  have t0 := F.tiny_nonneg
  -- the budget that stops after this iteration
  have hrun : ∀ m ≤ M, s.nMatvec < m → (biStep op o.precon (biThr op o rhs guess) m (biStart op o rhs guess 0).r s).finished = true →
      biRun op o rhs guess m (biStart op o rhs guess m) = biStep op o.precon (biThr op o rhs guess) m (biStart op o rhs guess 0).r s := by
    intro m h1 h2 h3
    rw [h.shorter hc m h1 h2, biRun_unroll hc, biRun_stop h3]
  rcases hcase with ⟨hl, hcv⟩ | ⟨hl, hshort, s', hx', hr', hres', hn', hcalls', hstep⟩
  · obtain ⟨k1, k2, k3, k4, k5⟩ := hcv M
    have hend := hrun M le_rfl hM k1
    obtain ⟨j1, j2, j3⟩ := hs M le_rfl
    rw [hend, k3] at j1 j2
    rw [hend] at j3
    set S' := biStep op o.precon (biThr op o rhs guess) M (biStart op o rhs guess 0).r s
    refine ⟨fun hf => ?_, fun hf => ?_, fun hf => ?_, fun _ => hend, fun _ hop hx => ?_⟩
    · rw [k1] at hf; cases hf
    · rw [k1] at hf; cases hf
    · rw [k1] at hf; cases hf
    rw [k2] at hx
    obtain ⟨fx, fq⟩ := F.add_fin _ _ hx
    have hop' : F.Computes op A N c s.calls := hop.mono fun v hv => by rw [k5]; exact List.mem_append_left _ hv
    obtain ⟨e1, e2, rr, e3, -, e5, e6⟩ := h.drift (.inr hev) hop' fx
    rw [e3 hc] at e5 e6
    have R0 : 0 ≤ R := (norm_nonneg _).trans e5
    have fss := F.norm_fin _ j1
    have nss := norm_le_of_norm F j1 j2
    have fss' := fss
    rw [hss] at fss'
    have fav := (F.sub_fin _ _ fss').2
    have er := F.sub_err _ _ fss'
    rw [← hss] at er
    obtain ⟨b1, b2⟩ := bi_half u0 F.u_le t0 hK hop.c_nonneg hKc A hA (F.vec q) (F.vec (op q)) (F.vec (smul a (op q))) (F.vec s.r) (F.vec ss) (F.num a)
      (hop.err q (by rw [k5]; simp) (F.smul_fin _ _ fq) (F.smul_fin _ _ fav))
      ((F.smul_err _ _ fav).trans (by gcongr; exact min_le_right _ _)) er e5 nss
    have j3' := j3
    rw [k2] at j3'
    have key := bi_short (theta := theta) u0 t0 hop.N_nonneg hK hop.c_nonneg A hop.bound (F.vec rhs) (F.vec s.x) (F.vec (s.x + smul a q)) (F.vec (smul a q)) (F.num a • F.vec q) (F.vec s.r) (F.vec ss) R0
      b1 b2 ((F.smul_err _ _ fq).trans (by gcongr; exact min_le_left _ _)) (F.add_err _ _ hx) j3'
    refine ⟨e1, j3, ss, fun hf => ?_, .inr k3, nss, ?_⟩
    · rw [k1] at hf; cases hf
    rw [k2, k4]
    refine key.trans ?_
    push_cast
    change _ + F.localBi N K c theta R ≤ _
    linarith
  · by_cases hb : s.nMatvec + 1 < M
    · rw [hstep M hb]
      have q1 := hshort (s.nMatvec + 1) le_rfl
      have q2 := hstep (s.nMatvec + 2) (by omega)
      have hf2 : (biStep op o.precon (biThr op o rhs guess) (s.nMatvec + 2) (biStart op o rhs guess 0).r s).finished = true := by
        rw [q2]; simp
      obtain ⟨j1, j2, -⟩ := hs (s.nMatvec + 1) hb.le
      rw [hrun _ hb.le (by omega) q1.1, q1.2.1] at j1 j2
      obtain ⟨i1, i2, i3⟩ := hs (s.nMatvec + 2) hb
      rw [hrun _ hb (by omega) hf2, q2] at i1 i2 i3
      dsimp only at i1 i2 i3
      refine ⟨fun hf => ?_, fun hf => ?_, fun hf m hm hlt => ?_, fun hf => ?_, fun _ hop hx => ?_⟩
      · simp only [ge_iff_le, Bool.or_eq_false_iff, decide_eq_false_iff_not, not_le] at hf
        rw [hn']; exact hf.2
      · dsimp only
        rw [hn', show s.nMatvec + 2 + guess.toList.length = s.nMatvec + guess.toList.length + 2 by omega]
        exact hev.add (by decide)
      · dsimp only at hlt hf
        rw [hn'] at hlt
        simp only [ge_iff_le, Bool.or_eq_false_iff, decide_eq_false_iff_not, not_le] at hf
        rw [h.shorter hc m hm (by omega), biRun_unroll hc, hstep m (by omega)]
        congr 2
        rw [hf.1, decide_eq_false (by omega), decide_eq_false (by omega)]
      · rw [h.shorter hc M le_rfl hM, biRun_unroll hc, hstep M hb, biRun_stop hf]
      · dsimp only at hop hx
        rw [hx'] at hx
        rw [hcalls'] at hop
        obtain ⟨fxm, fq⟩ := F.add_fin _ _ hx
        obtain ⟨fx, fz⟩ := F.add_fin _ _ fxm
        have hop' : F.Computes op A N c s.calls := hop.mono fun v hv => List.mem_append_left _ hv
        obtain ⟨e1, e2, rr, e3, -, e5, e6⟩ := h.drift (.inr hev) hop' fx
        rw [e3 hc] at e5 e6
        have R0 : 0 ≤ R := (norm_nonneg _).trans e5
        have fss := F.norm_fin _ j1
        have nss := norm_le_of_norm F j1 j2
        have fss' := fss
        rw [hss] at fss'
        have fav := (F.sub_fin _ _ fss').2
        have er := F.sub_err _ _ fss'
        rw [← hss] at er
        rw [hres'] at i1 i2
        have fr' := F.norm_fin _ i1
        have nr' := norm_le_of_norm F i1 i2
        rw [hr'] at fr'
        have fwt := (F.sub_fin _ _ fr').2
        have er' := F.sub_err _ _ fr'
        rw [← hr'] at er'
        obtain ⟨b1, b2⟩ := bi_half u0 F.u_le t0 hK hop.c_nonneg hKc A hA (F.vec q) (F.vec (op q)) (F.vec (smul a (op q))) (F.vec s.r) (F.vec ss) (F.num a)
          (hop.err q (by simp) (F.smul_fin _ _ fq) (F.smul_fin _ _ fav))
          ((F.smul_err _ _ fav).trans (by gcongr; exact min_le_right _ _)) er e5 nss
        obtain ⟨c1, c2⟩ := bi_half u0 F.u_le t0 hK hop.c_nonneg hKc A hA (F.vec z) (F.vec (op z)) (F.vec (smul w (op z))) (F.vec ss) (F.vec s'.r) (F.num w)
          (hop.err z (by simp) (F.smul_fin _ _ fz) (F.smul_fin _ _ fwt))
          ((F.smul_err _ _ fwt).trans (by gcongr; exact min_le_right _ _)) er' nss nr'
        have i3' := i3
        rw [hx'] at i3'
        have key := bi_full (theta := theta) u0 F.u_le t0 hop.N_nonneg hK hop.c_nonneg A hop.bound (F.vec rhs) (F.vec s.x) (F.vec (s.x + smul w z)) (F.vec (s.x + smul w z + smul a q))
          (F.vec (smul a q)) (F.vec (smul w z)) (F.num a • F.vec q) (F.num w • F.vec z) (F.vec s.r) (F.vec ss) (F.vec s'.r) R0 b1 c1 b2 c2
          ((F.smul_err _ _ fq).trans (by gcongr; exact min_le_left _ _)) ((F.smul_err _ _ fz).trans (by gcongr; exact min_le_left _ _))
          (F.add_err _ _ fxm) (F.add_err _ _ hx) i3'
        refine ⟨e1, i3, s'.r, fun _ => rfl, .inr hres', nr', ?_⟩
        dsimp only
        rw [hx', hn']
        refine key.trans ?_
        have L0 := F.localBi_nonneg hop.N_nonneg hK hop.c_nonneg ((norm_nonneg _).trans i3) R0
        push_cast
        change _ + F.localBi N K c theta R ≤ _
        linarith
    · obtain ⟨k1, k2, k3, -⟩ := hshort M (by omega)
      have hend := hrun M le_rfl hM k1
      refine ⟨fun hf => ?_, fun hf => ?_, fun hf => ?_, fun _ => hend, fun hp => ?_⟩
      · rw [k1] at hf; cases hf
      · rw [k1] at hf; cases hf
      · rw [k1] at hf; cases hf
      · exfalso
        rw [k2, k3, hl] at hp
        rcases hp with hp | hp
        · cases hp
        · rw [show s.nMatvec + 1 + guess.toList.length = s.nMatvec + guess.toList.length + 1 by omega] at hp
          exact (Nat.not_even_iff_odd.2 hev.add_one) hp

/-- **C90 for Bi-CGSTAB (partial).**  With or without preconditioner, whatever it computes, for invertible `A`: suppose `BiCGSTAB.solve` returns finite numbers and either
reports convergence or did not stop in the middle of an iteration.  Then the reported residual norm differs from the norm of `b - A x` for the returned `x` by the
relative error of the computed norm and the accumulated rounding errors.  `theta` bounds the solutions that the call returns with this or a smaller budget,
and `R` the residual norms it reports with these budgets.  Missing: a budget that ends in the middle of an iteration, for which the statement is false
(`C32_wrong_residNorm`). -/
theorem C90_bicgstab_partial (F : Rounding S V E) (op : V → V) (A : E →ₗ[ℝ] E) (N K c : ℝ) (hK : 0 ≤ K) (hKc : K * c ≤ 1 / 2) (hA : ∀ x, ‖x‖ ≤ K * ‖A x‖)
    (o : KrylovOpts S V) (n : ℕ) (rhs : V) (kw : KrylovKw V) :
    let res := (biSolve op o n rhs kw).1
    (F.Computes op A N c (biSolve op o n rhs kw).2 → F.finV res.x → (res.converged = true ∨ Even (res.nMatvec + kw.guess.toList.length)) →
      ∀ theta R, (∀ m ≤ kw.matvecMax.getD (2 * n), ‖F.vec (biSolve op o n rhs { kw with matvecMax := some m }).1.x‖ ≤ theta ∧
          F.finS (biSolve op o n rhs { kw with matvecMax := some m }).1.residNorm ∧
          F.num (biSolve op o n rhs { kw with matvecMax := some m }).1.residNorm +
            (F.uNorm * F.num (biSolve op o n rhs { kw with matvecMax := some m }).1.residNorm + F.tinyNorm) ≤ R) →
        F.finV rhs ∧ ‖F.vec res.x‖ ≤ theta ∧
        |F.num res.residNorm - ‖F.vec rhs - A (F.vec res.x)‖| ≤
          F.uNorm * F.num res.residNorm + F.tinyNorm + (res.nMatvec + 1) * F.localBi N K c theta R) ∧
    (res.converged = true → F.finS res.residNorm → F.finS (pymax o.abstol (o.reltol * res.residNorm0)) →
      F.num res.residNorm ≤ F.num (pymax o.abstol (o.reltol * res.residNorm0))) := by
  intro res
  have hres : res = (biSolve op o n rhs kw).1 := rfl
  rw [biSolve_start] at hres
  set M := kw.matvecMax.getD (2 * n) with hM
  set s := biRun op o rhs kw.guess M (biStart op o rhs kw.guess M) with hs
  refine ⟨fun hop hx hp theta R hsm => ?_, fun hc h1 h2 => ?_⟩
  · have hsm' : BiSmaller F op theta R o rhs kw.guess M := by
      intro m hm
      obtain ⟨h1, h2, h3⟩ := hsm m hm
      rw [biSolve_start] at h1 h2 h3
      exact ⟨h2, h3, h1⟩
    have inv' : BiAlong F op A N K c theta R o rhs kw.guess M s := by
      rw [hs]
      unfold biRun biLoop
      refine (whileLoop_inv (BiAlong F op A N K c theta R o rhs kw.guess M) (fun s1 h1 hc => ?_) _ ?_).1
      · exact biAlong_step F hK hKc hA hsm' h1 (by simpa using hc)
      · exact biAlong_start F op A hK o rhs kw.guess M hsm'
    have ex : res.x = s.x := by rw [hres]
    have er : res.residNorm = s.residNorm := by rw [hres]
    have en : res.nMatvec = s.nMatvec := by rw [hres]
    have ec : res.converged = le s.residNorm (biThr op o rhs kw.guess) := by rw [hres]
    rw [biSolve_start] at hop
    rw [ec, en] at hp
    rw [ex] at hx ⊢
    rw [er, en]
    obtain ⟨hr, -, -⟩ := hsm' M le_rfl
    rw [← hs] at hr
    obtain ⟨e1, e2, rr, -, e4, -, e6⟩ := inv'.drift hp hop hx
    have herr : |F.num s.residNorm - ‖F.vec rr‖| ≤ F.uNorm * F.num s.residNorm + F.tinyNorm := by
      rcases e4 with h | h
      · rw [h] at hr ⊢
        exact F.root_err _ hr
      · rw [h] at hr ⊢
        exact F.norm_err _ hr
    refine ⟨e1, e2, ?_⟩
    have e5 : |‖F.vec rr‖ - ‖F.vec rhs - A (F.vec s.x)‖| ≤ ‖F.vec rr - (F.vec rhs - A (F.vec s.x))‖ := abs_norm_sub_norm_le _ _
    calc _ ≤ |F.num s.residNorm - ‖F.vec rr‖| + |‖F.vec rr‖ - ‖F.vec rhs - A (F.vec s.x)‖| := abs_sub_le _ _ _
      _ ≤ _ := add_le_add herr (e5.trans e6)
  · rw [hres] at hc h1 h2 ⊢
    exact F.le_num _ _ h1 h2 hc

end Verif.Solver
