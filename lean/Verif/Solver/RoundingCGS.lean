import Verif.Solver.RoundingProps

namespace Verif.Solver
open Scalar Vect

variable {S V E : Type} [Scalar S] [Vect S V] [NormedAddCommGroup E] [InnerProductSpace ℝ E]

/-! ## CGS -/

/-- the state in which the loop of CGS starts, with a budget of `m` products (`cgs.py:50-75`, as in `cgsSolve`, see `cgsSolve_start`) -/
def cgsStart (op : V → V) (o : KrylovOpts S V) (rhs : V) (guess : Option V) (m : ℕ) : CGSLoop S V :=
  let (r0, calls) := match guess with
    | some g => (rhs - op g, [g])
    | none => (rhs, [])
  { x := guess.getD zeros, r := r0, u := r0, p := r0, rho := dot r0 r0, residNorm := Scalar.abs (sqrt (dot r0 r0)), nMatvec := 0,
    finished := le (Scalar.abs (sqrt (dot r0 r0))) (pymax o.abstol (o.reltol * Scalar.abs (sqrt (dot r0 r0)))) || decide (0 ≥ m), calls := calls }

/-- the threshold -/
def cgsThr (op : V → V) (o : KrylovOpts S V) (rhs : V) (guess : Option V) : S :=
  pymax o.abstol (o.reltol * (cgsStart op o rhs guess 0).residNorm)

theorem cgsSolve_start (op : V → V) (o : KrylovOpts S V) (n : ℕ) (rhs : V) (kw : KrylovKw V) :
    cgsSolve op o n rhs kw =
      (let s := cgsLoop op o.precon (cgsThr op o rhs kw.guess) (kw.matvecMax.getD (2 * n)) (cgsStart op o rhs kw.guess 0).r
          (cgsStart op o rhs kw.guess (kw.matvecMax.getD (2 * n)))
       ({ residNorm0 := (cgsStart op o rhs kw.guess 0).residNorm, converged := le s.residNorm (cgsThr op o rhs kw.guess), nMatvec := s.nMatvec,
          x := s.x, residNorm := s.residNorm }, s.calls)) := by
  unfold cgsSolve cgsThr cgsStart
  cases kw.guess <;> rfl

/-- A step with a smaller budget that is not used up is the same step; if it is used up, the iterate, the residual and the calls are the same. -/
theorem cgsStep_budget (op : V → V) (precon : Option (V → V)) (t : S) (M m : ℕ) (r0 : V) (s : CGSLoop S V) (hm : m ≤ M)
    (hf : (cgsStep op precon t M r0 s).finished = false) :
    (s.nMatvec + 2 < m → cgsStep op precon t m r0 s = cgsStep op precon t M r0 s) ∧
    (m ≤ s.nMatvec + 2 → (cgsStep op precon t m r0 s).finished = true ∧
      (cgsStep op precon t m r0 s).x = (cgsStep op precon t M r0 s).x) := by
  unfold cgsStep at hf ⊢
  simp only at hf ⊢
  split at hf
  · cases hf
  · rename_i h
    simp only [ge_iff_le, Bool.or_eq_true, decide_eq_true_eq, not_or, not_le] at h
    refine ⟨fun h1 => ?_, fun h1 => ?_⟩
    · rw [if_neg, if_neg]
      · simp only [ge_iff_le, Bool.or_eq_true, decide_eq_true_eq, not_or, not_le]; exact h
      · simp only [ge_iff_le, Bool.or_eq_true, decide_eq_true_eq, not_or, not_le]; exact ⟨h.1, h1⟩
    · rw [if_pos, if_neg]
      · exact ⟨rfl, rfl⟩
      · simp only [ge_iff_le, Bool.or_eq_true, decide_eq_true_eq, not_or, not_le]; exact h
      · simp only [ge_iff_le, Bool.or_eq_true, decide_eq_true_eq]; exact .inr h1

theorem cgsStep_parts (op : V → V) (precon : Option (V → V)) (t : S) (M : ℕ) (r0 : V) (s : CGSLoop S V) :
    ∃ (a : S) (y z : V), (cgsStep op precon t M r0 s).x = s.x + smul a z ∧ (cgsStep op precon t M r0 s).r = s.r - smul a (op z) ∧
      (cgsStep op precon t M r0 s).calls = s.calls ++ [y, z] ∧
      (cgsStep op precon t M r0 s).residNorm = Vect.norm (cgsStep op precon t M r0 s).r := by
  unfold cgsStep
  simp only
  split <;> exact ⟨_, _, _, rfl, rfl, rfl, rfl⟩

/-- the bound on the difference of the updated residual and the residual, along the loop of CGS -/
def CGSDrift (F : Rounding S V E) (op : V → V) (A : E →ₗ[ℝ] E) (N c theta : ℝ) (rhs : V) (s : CGSLoop S V) : Prop :=
  F.Computes op A N c s.calls → F.finV s.x → F.finV s.r →
    F.finV rhs ∧ ‖F.vec s.x‖ ≤ theta ∧ ‖F.vec s.r - (F.vec rhs - A (F.vec s.x))‖ ≤ F.drift N c theta ‖F.vec rhs‖ s.nMatvec

/-- one update of iterate and residual, for residuals `b - A x` -/
theorem drift_update (F : Rounding S V E) {op : V → V} {A : E →ₗ[ℝ] E} {N c theta : ℝ} {rhs x r z : V} {a : S} {k : ℕ} {L : List V}
    (hop : F.Computes op A N c L) (hz : z ∈ L) (hx : F.finV (x + smul a z)) (hr : F.finV (r - smul a (op z)))
    (h1 : ‖F.vec x‖ ≤ theta) (h2 : ‖F.vec (x + smul a z)‖ ≤ theta)
    (h3 : ‖F.vec r - (F.vec rhs - A (F.vec x))‖ ≤ F.drift N c theta ‖F.vec rhs‖ k) :
    ‖F.vec (r - smul a (op z)) - (F.vec rhs - A (F.vec (x + smul a z)))‖ ≤ F.drift N c theta ‖F.vec rhs‖ (k + 1) := by
  have ft := (F.add_fin _ _ hx).2
  have fs := (F.sub_fin _ _ hr).2
  have flip : ∀ r b y : E, ‖-r - (y - b)‖ = ‖r - (b - y)‖ := fun r b y => by
    rw [← norm_neg]; congr 1; abel
  have hs := F.sub_err _ _ hr
  have key := round_step F.u_nonneg F.u_le F.tiny_nonneg hop.N_nonneg hop.c_nonneg A hop.bound (F.vec rhs) (F.vec x) (F.vec (x + smul a z))
    (F.vec (smul a z)) (F.vec z) (F.vec (op z)) (F.vec (smul a (op z))) (-F.vec r) (-F.vec (r - smul a (op z))) (F.num a)
    ((F.smul_err _ _ ft).trans (by gcongr; exacts [F.u_nonneg, min_le_right _ _])) (F.add_err _ _ hx)
    (hop.err _ hz (F.smul_fin _ _ ft) (F.smul_fin _ _ fs))
    ((F.smul_err _ _ fs).trans (by gcongr; exacts [F.u_nonneg, min_le_left _ _]))
    (by
      rw [norm_neg]
      refine le_trans (le_of_eq ?_) hs
      rw [← norm_neg]; congr 1; abel) h1 h2
  rw [flip, flip] at key
  exact key.trans (F.drift_step hop.N_nonneg hop.c_nonneg ((norm_nonneg _).trans h1) (norm_nonneg _) h3)

/-- the first residual, `b - A x0` or `b` -/
theorem drift_first (F : Rounding S V E) {op : V → V} {A : E →ₗ[ℝ] E} {N c theta : ℝ} {rhs g : V} {L : List V}
    (hop : F.Computes op A N c L) (hg : g ∈ L) (hx : F.finV g) (hr : F.finV (rhs - op g)) (h1 : ‖F.vec g‖ ≤ theta) :
    ‖F.vec (rhs - op g) - (F.vec rhs - A (F.vec g))‖ ≤ F.drift N c theta ‖F.vec rhs‖ 0 := by
  have hs := F.sub_err _ _ hr
  have key := round_start F.u_nonneg F.u_le F.tiny_nonneg hop.N_nonneg hop.c_nonneg A hop.bound (F.vec rhs) (F.vec g) (F.vec (op g))
    (-F.vec (rhs - op g)) (hop.err g hg hx (F.sub_fin _ _ hr).2)
    (by
      rw [norm_neg]
      refine le_trans (le_of_eq ?_) hs
      rw [← norm_neg]; congr 1; abel) h1
  have flip : ‖-F.vec (rhs - op g) - (A (F.vec g) - F.vec rhs)‖ = ‖F.vec (rhs - op g) - (F.vec rhs - A (F.vec g))‖ := by
    rw [← norm_neg]; congr 1; abel
  rw [flip] at key
  exact key.trans (F.drift_start hop.N_nonneg hop.c_nonneg ((norm_nonneg _).trans h1) (norm_nonneg _) _)

/-- what holds along the loop of CGS with budget `M` -/
structure CGSAlong (F : Rounding S V E) (op : V → V) (A : E →ₗ[ℝ] E) (N c theta : ℝ) (o : KrylovOpts S V) (rhs : V) (guess : Option V) (M : ℕ)
    (s : CGSLoop S V) : Prop where
  budget : s.finished = false → s.nMatvec < M
  shorter : s.finished = false → ∀ m ≤ M, s.nMatvec < m →
    cgsLoop op o.precon (cgsThr op o rhs guess) m (cgsStart op o rhs guess 0).r (cgsStart op o rhs guess m) =
      cgsLoop op o.precon (cgsThr op o rhs guess) m (cgsStart op o rhs guess 0).r s
  ended : s.finished = true →
    cgsLoop op o.precon (cgsThr op o rhs guess) M (cgsStart op o rhs guess 0).r (cgsStart op o rhs guess M) = s
  resid : s.residNorm = Scalar.abs (sqrt (dot s.r s.r)) ∨ s.residNorm = Vect.norm s.r
  drift : CGSDrift F op A N c theta rhs s

theorem cgsAlong_start (F : Rounding S V E) (op : V → V) (A : E →ₗ[ℝ] E) (N c theta : ℝ) (o : KrylovOpts S V) (rhs : V) (guess : Option V)
    (M : ℕ) (hx0 : ‖F.vec (guess.getD zeros)‖ ≤ theta) : CGSAlong F op A N c theta o rhs guess M (cgsStart op o rhs guess M) where
  budget h := by
    unfold cgsStart at h ⊢
    simp only [ge_iff_le, Bool.or_eq_false_iff, decide_eq_false_iff_not, not_le] at h
    exact h.2
  shorter h m hm hlt := by
    have : cgsStart op o rhs guess m = cgsStart op o rhs guess M := by
      unfold cgsStart at h hlt ⊢
      simp only [ge_iff_le, Bool.or_eq_false_iff, decide_eq_false_iff_not, not_le] at h hlt ⊢
      congr 2
      rw [decide_eq_false (by omega), decide_eq_false (by omega)]
    rw [this]
  ended h := by
    unfold cgsLoop
    rw [whileLoop_of_not (by simp [h])]
  resid := by unfold cgsStart; cases guess <;> exact .inl rfl
  drift := by
    intro hop h1 h2
    cases guess with
    | none =>
      refine ⟨h2, hx0, ?_⟩
      have e : F.vec rhs - (F.vec rhs - A (F.vec (zeros : V))) = 0 := by rw [F.zeros_eq, map_zero, sub_zero, sub_self]
      have e' : ‖F.vec (cgsStart op o rhs none M).r - (F.vec rhs - A (F.vec (cgsStart op o rhs none M).x))‖ = 0 := by
        rw [← norm_zero (E := E), ← e]; rfl
      rw [e']
      exact F.drift_nonneg hop.N_nonneg hop.c_nonneg ((norm_nonneg _).trans hx0) (norm_nonneg _) _
    | some g =>
      exact ⟨(F.sub_fin _ _ h2).1, hx0, drift_first F hop (List.mem_singleton_self g) h1 h2 hx0⟩

theorem cgsAlong_step (F : Rounding S V E) {op : V → V} {A : E →ₗ[ℝ] E} {N c theta : ℝ} {o : KrylovOpts S V} {rhs : V} {guess : Option V}
    {M : ℕ} (hth : ∀ m ≤ M, ‖F.vec (cgsLoop op o.precon (cgsThr op o rhs guess) m (cgsStart op o rhs guess 0).r (cgsStart op o rhs guess m)).x‖
      ≤ theta) {s : CGSLoop S V} (h : CGSAlong F op A N c theta o rhs guess M s) (hc : s.finished = false) :
    CGSAlong F op A N c theta o rhs guess M (cgsStep op o.precon (cgsThr op o rhs guess) M (cgsStart op o rhs guess 0).r s) := by
  set t := cgsThr op o rhs guess
  set r0 := (cgsStart op o rhs guess 0).r
  set s' := cgsStep op o.precon t M r0 s with hs'
  obtain ⟨hn, hb⟩ := cgsStep_nMatvec op o.precon t M r0 s
  have unroll : ∀ m, cgsLoop op o.precon t m r0 s = cgsLoop op o.precon t m r0 (cgsStep op o.precon t m r0 s) := fun m =>
    whileLoop_of_cont (by simp [hc])
  have stop : ∀ m (s1 : CGSLoop S V), s1.finished = true → cgsLoop op o.precon t m r0 s1 = s1 := fun m s1 h1 =>
    whileLoop_of_not (by simp [h1])
  have hended : s'.finished = true → cgsLoop op o.precon t M r0 (cgsStart op o rhs guess M) = s' := fun h1 => by
    rw [h.shorter hc M le_rfl (h.budget hc), unroll, ← hs', stop _ _ h1]
  have hx : ‖F.vec s'.x‖ ≤ theta := by
    cases hf : s'.finished with
    | true => rw [← hended hf]; exact hth M le_rfl
    | false =>
      have hlt := hb hf
      obtain ⟨-, h2⟩ := cgsStep_budget op o.precon t M s'.nMatvec r0 s hlt.le hf
      obtain ⟨h3, h4⟩ := h2 hn.le
      have := hth s'.nMatvec hlt.le
      rw [h.shorter hc _ hlt.le (by rw [hn]; omega), unroll, stop _ _ h3, h4] at this
      exact this
  obtain ⟨a, y, z, hx', hr', hcalls, hres⟩ := cgsStep_parts op o.precon t M r0 s
  refine ⟨fun hf => hb hf, fun hf m hm hlt => ?_, hended, .inr hres, fun hop h1 h2 => ?_⟩
  · rw [h.shorter hc m hm (by rw [hn] at hlt; omega), unroll, (cgsStep_budget op o.precon t M m r0 s hm hf).1 (by rw [hn] at hlt; exact hlt)]
  · rw [← hs'] at hx' hr' hcalls
    rw [hx'] at h1
    rw [hr'] at h2
    have hop' : F.Computes op A N c s.calls := hop.mono fun v hv => by rw [hcalls]; exact List.mem_append_left _ hv
    obtain ⟨e1, e2, e3⟩ := h.drift hop' (F.add_fin _ _ h1).1 (F.sub_fin _ _ h2).1
    refine ⟨e1, hx, ?_⟩
    have hx2 := hx
    rw [hx'] at hx2
    rw [hn, hx', hr']
    exact (drift_update F hop (by rw [hcalls]; simp) h1 h2 e2 hx2 e3).trans
      (F.drift_mono hop.N_nonneg hop.c_nonneg ((norm_nonneg _).trans e2) (norm_nonneg _) (by omega))

/-- **C90 for CGS.**  With or without preconditioner, whatever it computes: if `CGS.solve` returns finite numbers, the reported residual norm differs
from the norm of `b - A x` for the returned `x` by the relative error of the computed norm and the drift of the rounding errors.  `theta` bounds the
solutions that the call returns with this or a smaller budget, which are its iterates. -/
theorem C90_cgs (F : Rounding S V E) (op : V → V) (A : E →ₗ[ℝ] E) (N c : ℝ) (o : KrylovOpts S V) (n : ℕ) (rhs : V) (kw : KrylovKw V) :
    let res := (cgsSolve op o n rhs kw).1
    (F.Computes op A N c (cgsSolve op o n rhs kw).2 → F.finV res.x → F.finS res.residNorm →
      ∀ theta, (∀ m ≤ kw.matvecMax.getD (2 * n), ‖F.vec (cgsSolve op o n rhs { kw with matvecMax := some m }).1.x‖ ≤ theta) →
        F.finV rhs ∧ ‖F.vec res.x‖ ≤ theta ∧
        |F.num res.residNorm - ‖F.vec rhs - A (F.vec res.x)‖| ≤
          F.uNorm * F.num res.residNorm + F.tinyNorm + F.drift N c theta ‖F.vec rhs‖ res.nMatvec) ∧
    (res.converged = true → F.finS res.residNorm → F.finS (pymax o.abstol (o.reltol * res.residNorm0)) →
      F.num res.residNorm ≤ F.num (pymax o.abstol (o.reltol * res.residNorm0))) := by
  intro res
  have hres : res = (cgsSolve op o n rhs kw).1 := rfl
  rw [cgsSolve_start] at hres
  set M := kw.matvecMax.getD (2 * n) with hM
  set s := cgsLoop op o.precon (cgsThr op o rhs kw.guess) M (cgsStart op o rhs kw.guess 0).r (cgsStart op o rhs kw.guess M) with hs
  refine ⟨fun hop hx hr theta hth => ?_, fun hc h1 h2 => ?_⟩
  · have hth' : ∀ m ≤ M, ‖F.vec (cgsLoop op o.precon (cgsThr op o rhs kw.guess) m (cgsStart op o rhs kw.guess 0).r
        (cgsStart op o rhs kw.guess m)).x‖ ≤ theta := by
      intro m hm
      have := hth m hm
      rw [cgsSolve_start] at this
      exact this
    have h0 : ‖F.vec (kw.guess.getD zeros : V)‖ ≤ theta := by
      have := hth' 0 (Nat.zero_le _)
      unfold cgsLoop at this
      rw [whileLoop_of_not (by simp [cgsStart])] at this
      have e : (cgsStart op o rhs kw.guess 0).x = kw.guess.getD zeros := by unfold cgsStart; cases kw.guess <;> rfl
      rwa [e] at this
    have inv' : CGSAlong F op A N c theta o rhs kw.guess M s := by
      rw [hs]
      unfold cgsLoop
      refine (whileLoop_inv (CGSAlong F op A N c theta o rhs kw.guess M) (fun s1 h1 hc => ?_) _ ?_).1
      · exact cgsAlong_step F hth' h1 (by simpa using hc)
      · exact cgsAlong_start F op A N c theta o rhs kw.guess M h0
    have ex : res.x = s.x := by rw [hres]
    have er : res.residNorm = s.residNorm := by rw [hres]
    have en : res.nMatvec = s.nMatvec := by rw [hres]
    rw [cgsSolve_start] at hop
    rw [ex] at hx ⊢
    rw [er] at hr ⊢
    rw [en]
    have herr : F.finV s.r ∧ |F.num s.residNorm - ‖F.vec s.r‖| ≤ F.uNorm * F.num s.residNorm + F.tinyNorm := by
      rcases inv'.resid with h | h
      · rw [h] at hr ⊢
        exact ⟨F.root_fin _ hr, F.root_err _ hr⟩
      · rw [h] at hr ⊢
        exact ⟨F.norm_fin _ hr, F.norm_err _ hr⟩
    obtain ⟨e1, e2, e3⟩ := inv'.drift hop hx herr.1
    refine ⟨e1, e2, ?_⟩
    have e5 : |‖F.vec s.r‖ - ‖F.vec rhs - A (F.vec s.x)‖| ≤ ‖F.vec s.r - (F.vec rhs - A (F.vec s.x))‖ := abs_norm_sub_norm_le _ _
    calc _ ≤ |F.num s.residNorm - ‖F.vec s.r‖| + |‖F.vec s.r‖ - ‖F.vec rhs - A (F.vec s.x)‖| := abs_sub_le _ _ _
      _ ≤ _ := add_le_add herr.2 (e5.trans e3)
  · rw [hres] at hc h1 h2 ⊢
    exact F.le_num _ _ h1 h2 hc

end Verif.Solver
