import Verif.Solver.TypedLsMath
import Verif.Solver.LSQRConv
import Verif.Solver.LSMRConv
import Verif.Solver.CraigConv
import Verif.Solver.CraigmrExact

/-!
# C73 for LSQR, LSMR, CRAIG and CRAIG-MR

`k`, `A.dtype`, `kM` and `kN` are the dtype classes (integer, real, complex) of the right-hand side, the operator and the two
preconditioners.  The models with dtypes are in `Verif.Solver.TypedLs`; `ComplexRhs`, `Narrow`, `BetaPos` and the results with
arrays of floats (`LsqrRes.typed`, ...) are in `Verif.Solver.TypedLsSpec`.
-/

set_option linter.unusedSectionVars false

namespace Verif.Solver
open Scalar Vect Linop

variable {S U V : Type} [Scalar S] [Vect S U] [Vect S V]

/-- **C73 (LSQR).** If no data are complex and the right-hand side is an array of floats, the dtypes do not matter, whatever the
classes of the operator and the preconditioners: `solve` returns, or raises, what the model without dtypes does (in any
arithmetic), and the solution and the iterates are arrays of floats.  The same holds if `beta` is not positive and only the operator,
the preconditioner `N` or nothing is complex. -/
theorem C73_lsqr (A : DOp U V) (n : Nat) (k : DKind) (b : U) (kM kN : DKind) (kw : LsqrKw S U V)
    (hc : ¬ ComplexRhs k kM kw.M) (hn : Narrow A k kN kw.N → ¬ BetaPos kw.M b) :
    lsqrSolveD A n ⟨k, b⟩ (kw.typed kM kN) = (lsqrSolve A.fn A.tfn n b kw).map fun p => p.1.typed := by
  unfold lsqrSolveD lsqrSolve
  simp only [bind_map]
  rw [show (kw.typed kM kN).wantvar = kw.wantvar from rfl]
  refine bind_congr' fun _ => ?_
  rw [lsqrInitD_eq hc b hn, map_bind]
  cases hi : lsqrInit A.tfn kw b with
  | error e => rfl
  | ok s =>
    rw [ok_bind, ok_bind]
    suffices h : lsqrMainD A (kw.typed kM kN) (lsqrLimit n (kw.typed kM kN).itnlim) (s.typed k) =
        (lsqrMain A.fn A.tfn kw (lsqrLimit n kw.itnlim) s).map (LsqrLoop.typed k) by
      rw [h, map_bind]
      rfl
    unfold lsqrMainD lsqrMain
    rw [map_ite, show lsqrXZero (s.typed k) = lsqrXZero s from rfl]
    split
    · rfl
    · by_cases hN : Narrow A k kN kw.N
      · exact lsqrLoopD_unbound _ _ s (lsqrInit_unbound (hn hN) hi)
      · obtain ⟨-, hA, hN'⟩ := not_narrow hN (not_complexRhs_kind hc)
        exact lsqrLoopD_eq (not_complexRhs_kind hc) hA (not_complexRhs_precon hc) hN' _ _ s

/-- **C73 (LSQR), violated.** With a complex right-hand side or preconditioner `M`, `solve` raises `TypeError`, and so it does with
an integer right-hand side, a complex operator or a complex preconditioner `N` as soon as `beta` is positive. -/
theorem C73_lsqr_raises (A : DOp U V) (n : Nat) (k : DKind) (b : U) (kM kN : DKind) (kw : LsqrKw S U V)
    (h : ComplexRhs k kM kw.M ∨ (Narrow A k kN kw.N ∧ BetaPos kw.M b)) :
    lsqrSolveD A n ⟨k, b⟩ (kw.typed kM kN) = .error .typeError := by
  unfold lsqrSolveD
  rw [lsqrInitD_raises b h]
  cases hw : (kw.typed kM kN).wantvar <;> rfl

/-- **C73 (LSMR).** If no data are complex and the right-hand side is an array of floats (or `beta` is not positive), the dtypes do
not matter. -/
theorem C73_lsmr (A : DOp U V) (m n : Nat) (k : DKind) (b : U) (kM kN : DKind) (kw : LsmrKw S U V) (selfX : Option V)
    (hc : ¬ ComplexRhs k kM kw.M) (hA : A.dtype ≠ .complex) (hN : kw.N ≠ none → kN ≠ .complex)
    (hk : k = .int → ¬ BetaPos kw.M b) :
    lsmrSolveD A m n ⟨k, b⟩ (kw.typed kM kN) (selfX.map DArr.real) =
      (lsmrSolve A.fn A.tfn m n b kw selfX).map fun p => p.1.typed := by
  unfold lsmrSolveD lsmrSolve
  rw [bind_map, lsmrInitD_eq hc b (narrow_int hA hN hk), map_bind]
  refine bind_congr' fun s => ?_
  unfold lsmrMain
  rw [map_ite, show (s.typed k).normar = s.normar from rfl]
  split
  · rfl
  · have e : lsmrFirst (kw.typed kM kN) (s.typed k) = (lsmrFirst kw s).typed k := by
      unfold lsmrFirst
      rw [show (kw.typed kM kN).storeResids = kw.storeResids from rfl]
      cases kw.storeResids <;> rfl
    rw [e, lsmrLoopD_eq (not_complexRhs_kind hc) hA (not_complexRhs_precon hc) hN, map_bind, bind_map]
    rfl

/-- **C73 (LSMR), violated**, as for LSQR. -/
theorem C73_lsmr_raises (A : DOp U V) (m n : Nat) (k : DKind) (b : U) (kM kN : DKind) (kw : LsmrKw S U V) (selfX : Option (DArr V))
    (h : ComplexRhs k kM kw.M ∨ (Narrow A k kN kw.N ∧ BetaPos kw.M b)) :
    lsmrSolveD A m n ⟨k, b⟩ (kw.typed kM kN) selfX = .error .typeError := by
  unfold lsmrSolveD
  rw [lsmrInitD_raises b h]
  rfl

/-- **C73 (CRAIG)**, as for LSQR: every combination is settled by this theorem and the next one. -/
theorem C73_craig (A : DOp U V) (n : Nat) (k : DKind) (b : U) (kM kN : DKind) (kw : CraigKw S U V)
    (hc : ¬ ComplexRhs k kM kw.M) (hn : Narrow A k kN kw.N → ¬ BetaPos kw.M b) :
    craigSolveD A n ⟨k, b⟩ (kw.typed kM kN) = (craigSolve A.fn A.tfn n b kw).map fun p => p.1.typed := by
  unfold craigSolveD craigSolve
  simp only [bind_map]
  rw [show (kw.typed kM kN).wantvar = kw.wantvar from rfl]
  refine bind_congr' fun _ => ?_
  obtain ⟨l, hl, h⟩ := craigVectorsD_eq hc b hn
  rw [h, map_bind]
  cases hi : craigVectors A.tfn kw b with
  | error e => rfl
  | ok p =>
    obtain ⟨Mu, u, beta, vs, alpha, products⟩ := p
    rw [ok_bind, ok_bind]
    simp only [craigFirst]
    rw [craigStart_typed hl, map_bind]
    cases hs : craigStart kw Mu u beta vs alpha products with
    | error e => rfl
    | ok s =>
      rw [ok_bind, ok_bind]
      have hN : ¬ Narrow A k kN kw.N := fun hN => by
        have hv : vs = none := craigVectors_unbound (hn hN) hi
        rw [hv] at hs
        exact craigStart_unbound hs
      obtain ⟨-, hA, hN'⟩ := not_narrow hN (not_complexRhs_kind hc)
      suffices h : craigMainD A (kw.typed kM kN) (craigLimit n (kw.typed kM kN).itnlim) (s.typed k) =
          (craigMain A.fn A.tfn kw (craigLimit n kw.itnlim) s).map (CraigLoop.typed k) by
        rw [h, map_bind]
        refine bind_congr' fun t => ?_
        rw [craigResult_typed]
        cases craigResult t <;> rfl
      unfold craigMainD craigMain
      rw [map_ite, show (s.typed k).beta = s.beta from rfl]
      split
      · rfl
      · exact craigLoopD_eq (not_complexRhs_kind hc) hA (not_complexRhs_precon hc) hN' _ _ s

/-- **C73 (CRAIG), violated**, as for LSQR. -/
theorem C73_craig_raises (A : DOp U V) (n : Nat) (k : DKind) (b : U) (kM kN : DKind) (kw : CraigKw S U V)
    (h : ComplexRhs k kM kw.M ∨ (Narrow A k kN kw.N ∧ BetaPos kw.M b)) :
    craigSolveD A n ⟨k, b⟩ (kw.typed kM kN) = .error .typeError := by
  unfold craigSolveD
  rw [craigVectorsD_raises b h]
  cases hw : (kw.typed kM kN).wantvar <;> rfl

/-- **C73 (CRAIG-MR)**, as for LSMR. -/
theorem C73_craigmr (A : DOp U V) (m n : Nat) (k : DKind) (b : U) (kM kN : DKind) (kw : CraigmrKw S U V)
    (hc : ¬ ComplexRhs k kM kw.M) (hA : A.dtype ≠ .complex) (hN : kw.N ≠ none → kN ≠ .complex)
    (hk : k = .int → ¬ BetaPos kw.M b) :
    craigmrSolveD A m n ⟨k, b⟩ (kw.typed kM kN) = (craigmrSolve A.fn A.tfn m n b kw).map fun p => p.1.typed := by
  unfold craigmrSolveD craigmrSolve
  obtain ⟨l, hl, h⟩ := craigmrVectorsD_eq hc b (narrow_int hA hN hk)
  rw [bind_map, h, map_bind]
  refine bind_congr' fun ⟨Mu, u, beta, Nv, v, alpha, products⟩ => ?_
  simp only [craigmrFirst]
  rw [craigmrStart_typed hl, map_bind, bind_map]
  refine bind_congr' fun s => ?_
  rw [show craigmrLimit m n (kw.typed kM kN).itnlim = craigmrLimit m n kw.itnlim from rfl,
    craigmrLoopD_eq (not_complexRhs_kind hc) hA (not_complexRhs_precon hc) hN, map_bind, bind_map]
  rfl

/-- **C73 (CRAIG-MR), violated**, as for LSQR. -/
theorem C73_craigmr_raises (A : DOp U V) (m n : Nat) (k : DKind) (b : U) (kM kN : DKind) (kw : CraigmrKw S U V)
    (h : ComplexRhs k kM kw.M ∨ (Narrow A k kN kw.N ∧ BetaPos kw.M b)) :
    craigmrSolveD A m n ⟨k, b⟩ (kw.typed kM kN) = .error .typeError := by
  unfold craigmrSolveD
  rw [craigmrVectorsD_raises b h]
  rfl

/-! ### In exact arithmetic -/

section
variable {E F : Type} [NormedAddCommGroup E] [InnerProductSpace ℝ E] [NormedAddCommGroup F] [InnerProductSpace ℝ F]

theorem betaPos_fin (b : F) : BetaPos (S := Fl) none (Vec.fin b) ↔ b ≠ 0 := by
  have e : pysqrt (dot (applyPrecon none (Vec.fin b)) (Vec.fin b)) = .ok (Fl.fin ‖b‖) := by
    simp only [applyPrecon]
    rw [Vec.fin_dot, pysqrt_fin real_inner_self_nonneg, real_inner_self_eq_norm_sq, Real.sqrt_sq (norm_nonneg b)]
  unfold BetaPos
  rw [e]
  constructor
  · rintro ⟨beta, h, hg⟩
    cases h
    exact norm_pos_iff.1 ((gt_fin_zero _).1 hg)
  · exact fun h => ⟨_, rfl, (gt_fin_zero _).2 (norm_pos_iff.2 h)⟩

/-- **C73, violated.** Without `M`, every one of the four solvers raises `TypeError` for every nonzero right-hand side with an integer
dtype, whatever the operator and the other keywords: `b = np.array([1, 2, 3])` cannot be solved for. -/
theorem C73_lls_integers (A : DOp (Vec F) (Vec E)) (m n : Nat) (b : F) (hb : b ≠ 0) (kM kN : DKind) :
    (∀ kw : LsqrKw Fl (Vec F) (Vec E), kw.M = none → lsqrSolveD A n ⟨.int, .fin b⟩ (kw.typed kM kN) = .error .typeError) ∧
    (∀ (kw : LsmrKw Fl (Vec F) (Vec E)) selfX, kw.M = none →
      lsmrSolveD A m n ⟨.int, .fin b⟩ (kw.typed kM kN) selfX = .error .typeError) ∧
    (∀ kw : CraigKw Fl (Vec F) (Vec E), kw.M = none → craigSolveD A n ⟨.int, .fin b⟩ (kw.typed kM kN) = .error .typeError) ∧
    (∀ kw : CraigmrKw Fl (Vec F) (Vec E), kw.M = none →
      craigmrSolveD A m n ⟨.int, .fin b⟩ (kw.typed kM kN) = .error .typeError) := by
  have h : BetaPos (S := Fl) none (Vec.fin b) := (betaPos_fin b).2 hb
  exact ⟨fun kw hM => C73_lsqr_raises A n _ _ kM kN kw (.inr ⟨.inl rfl, hM ▸ h⟩),
    fun kw selfX hM => C73_lsmr_raises A m n _ _ kM kN kw selfX (.inr ⟨.inl rfl, hM ▸ h⟩),
    fun kw hM => C73_craig_raises A n _ _ kM kN kw (.inr ⟨.inl rfl, hM ▸ h⟩),
    fun kw hM => C73_craigmr_raises A m n _ _ kM kN kw (.inr ⟨.inl rfl, hM ▸ h⟩)⟩

/-- **C73, violated.** Without `M` and for a nonzero right-hand side, every one of the four solvers raises `TypeError` if the operator is
complex, although the operators of the package have a complex dtype whenever one of their parts does. -/
theorem C73_lls_complex (A : DOp (Vec F) (Vec E)) (hA : A.dtype = .complex) (m n : Nat) (k : DKind) (b : F) (hb : b ≠ 0) (kM kN : DKind) :
    (∀ kw : LsqrKw Fl (Vec F) (Vec E), kw.M = none → lsqrSolveD A n ⟨k, .fin b⟩ (kw.typed kM kN) = .error .typeError) ∧
    (∀ (kw : LsmrKw Fl (Vec F) (Vec E)) selfX, kw.M = none →
      lsmrSolveD A m n ⟨k, .fin b⟩ (kw.typed kM kN) selfX = .error .typeError) ∧
    (∀ kw : CraigKw Fl (Vec F) (Vec E), kw.M = none → craigSolveD A n ⟨k, .fin b⟩ (kw.typed kM kN) = .error .typeError) ∧
    (∀ kw : CraigmrKw Fl (Vec F) (Vec E), kw.M = none →
      craigmrSolveD A m n ⟨k, .fin b⟩ (kw.typed kM kN) = .error .typeError) := by
  have h : BetaPos (S := Fl) none (Vec.fin b) := (betaPos_fin b).2 hb
  exact ⟨fun kw hM => C73_lsqr_raises A n _ _ kM kN kw (.inr ⟨.inr (.inl hA), hM ▸ h⟩),
    fun kw selfX hM => C73_lsmr_raises A m n _ _ kM kN kw selfX (.inr ⟨.inr (.inl hA), hM ▸ h⟩),
    fun kw hM => C73_craig_raises A n _ _ kM kN kw (.inr ⟨.inr (.inl hA), hM ▸ h⟩),
    fun kw hM => C73_craigmr_raises A m n _ _ kM kN kw (.inr ⟨.inr (.inl hA), hM ▸ h⟩)⟩

end

/-! ### The hypotheses are met -/

/-- a real right-hand side and no complex data: the hypotheses of `C73_lsqr`, `C73_craig` -/
theorem plain_rhs {A : DOp U V} {kN : DKind} {N : Option (V → V)} (hA : A.dtype ≠ .complex) (hN : N = none) (P : Prop) :
    Narrow A .real kN N → P := by
  rintro (h | h | ⟨h, -⟩)
  · cases h
  · exact absurd h hA
  · exact absurd hN h

/-- LSQR, with an integer operator and a right-hand side of floats, solves `diag(1, 2) x = (1, 1)` with `damp = 3` -/
example : ∃ res, lsqrSolveD ⟨.int, Vec.op (lsqrDemo 3 0).A, Vec.op (lsqrDemo 3 0).B⟩ 2 ⟨.real, .fin (lsqrDemo 3 0).b⟩
    ((lsqrDemo 3 0).kw.typed .real .real) = .ok res ∧ res.optimal = true ∧ res.x.kind = .real := by
  obtain ⟨res, s, h, ho, -⟩ := C37_converges (lsqrDemo 3 0) (lsqrDemo_valid _ _)
    (by
      intro h
      have h0 := congrArg (fun x => x 0) h
      simp [lsqrDemo, Matrix.mulVec, dotProduct, Fin.sum_univ_two] at h0)
    (by simp [lsqrDemo]) (by simp [lsqrDemo])
  refine ⟨res.typed, ?_, ho, rfl⟩
  rw [C73_lsqr _ _ _ _ _ _ _ (by rintro (h | ⟨h, -⟩) <;> simp_all [LsqrProblem.kw]) (plain_rhs (by simp) rfl _)]
  change Except.map _ (lsqrSolve (Vec.op (lsqrDemo 3 0).A) (Vec.op (lsqrDemo 3 0).B) (lsqrDemo 3 0).n _ _) = _
  rw [h]
  rfl

/-- the same right-hand side as integers -/
example : lsqrSolveD ⟨.int, Vec.op (lsqrDemo 3 0).A, Vec.op (lsqrDemo 3 0).B⟩ 2 ⟨.int, .fin (lsqrDemo 3 0).b⟩
    ((lsqrDemo 3 0).kw.typed .real .real) = .error .typeError := by
  refine (C73_lls_integers _ 2 2 _ ?_ _ _).1 _ rfl
  intro h
  have h0 := congrArg (fun x => x 0) h
  simp [lsqrDemo] at h0

/-- CRAIG, with an integer operator and a right-hand side of floats -/
example : ∃ res, craigSolveD ⟨.int, Vec.op craigExample.A, Vec.op craigExample.B⟩ 1 ⟨.real, .fin craigExample.b⟩
    (craigExample.kw.typed .real .real) = .ok res ∧ res.x.kind = .real := by
  obtain ⟨res, s, x, r, h, -⟩ := C52_converges craigExample craigExample_valid (by simp [craigExample])
    (by simp [CraigProblem.limit, craigExample]) (by simp [CraigProblem.limit, craigExample]) le_rfl le_rfl
  refine ⟨res.typed, ?_, rfl⟩
  rw [C73_craig _ _ _ _ _ _ _ (by rintro (h | ⟨h, -⟩) <;> simp_all [CraigProblem.kw]) (plain_rhs (by simp) rfl _)]
  change Except.map _ (craigSolve (Vec.op craigExample.A) (Vec.op craigExample.B) craigExample.n _ _) = _
  rw [h]
  rfl

/-- CRAIG-MR, with an integer operator and a right-hand side of floats -/
example : ∃ res, craigmrSolveD ⟨.int, Vec.op craigmrExample.A, Vec.op craigmrExample.B⟩ 1 1 ⟨.real, .fin craigmrExample.b⟩
    (craigmrExample.kw.typed .real .real) = .ok res ∧ res.x.kind = .real := by
  obtain ⟨res, s, x, h, -⟩ := C53_converges craigmrExample craigmrExample_valid le_rfl
    (.inl ⟨inferInstance, by simp [craigmrExample]⟩)
  refine ⟨res.typed, ?_, rfl⟩
  rw [C73_craigmr _ _ _ _ _ _ _ _ (by rintro (h | ⟨h, -⟩) <;> simp_all [CraigmrProblem.kw]) (by simp) (fun h => absurd rfl h)
    (by simp)]
  change Except.map _ (craigmrSolve (Vec.op craigmrExample.A) (Vec.op craigmrExample.B) craigmrExample.m craigmrExample.n _ _) = _
  rw [h]
  rfl

/-- LSMR, with an integer operator and a right-hand side of floats: `diag(1, 2) x = (1, 1)`, `damp = 1` -/
example : ∃ res, lsmrSolveD ⟨.int, Vec.op (lsmrDemo 2 1 1 1 none).A, Vec.op (lsmrDemo 2 1 1 1 none).B⟩ 2 2
    ⟨.real, .fin (lsmrDemo 2 1 1 1 none).b⟩ ((lsmrDemo 2 1 1 1 none).kw.typed .real .real) none = .ok res ∧ 1 ≤ res.istop := by
  suffices hyp : _ ∧ _ ∧ _ by
    obtain ⟨res, s, h, h1, -⟩ := C51_converges (lsmrDemo 2 1 1 1 none) (lsmrDemo_valid _ _ _ _ _) none hyp.1 hyp.2.1 hyp.2.2
    refine ⟨res.typed, ?_, h1⟩
    refine (C73_lsmr _ 2 2 _ _ _ _ _ none (by rintro (h | ⟨h, -⟩) <;> simp_all [LsmrProblem.kw]) (by simp) (fun h => absurd rfl h)
      (by simp)).trans ?_
    change Except.map _ (lsmrSolve (Vec.op (lsmrDemo 2 1 1 1 none).A) (Vec.op (lsmrDemo 2 1 1 1 none).B) (lsmrDemo 2 1 1 1 none).m
      (lsmrDemo 2 1 1 1 none).n _ _ _) = _
    rw [h]
    rfl
  refine ⟨?_, ?_, ?_⟩
  · intro h
    have h0 := congrArg (fun x => x 0) h
    simp [lsmrDemo] at h0
  · simp [lsmrDemo]
  · rintro x ⟨h1, h2⟩
    have h2' : x = 0 := by simpa [lsmrDemo] using h2
    rw [h2', map_zero] at h1
    have h0 := congrArg (fun x => x 0) h1
    simp [lsmrDemo] at h0

end Verif.Solver
