import Verif.Solver.Singular

/-!
# C80: singular and rank-deficient systems

In exact arithmetic the solvers solve singular systems that are consistent, as if the operator were restricted to its range, and the
solution they find is the one nearest to the guess (of smallest norm without a guess).
-/

namespace Verif.Solver
open Scalar Vect
open scoped RealInnerProductSpace

variable {E F : Type} [NormedAddCommGroup E] [InnerProductSpace ℝ E] [NormedAddCommGroup F] [InnerProductSpace ℝ F]

/-- the rank of `A` -/
noncomputable def rank (A : E →ₗ[ℝ] F) : ℕ := Module.finrank ℝ (LinearMap.range A)

/-- the starting point: the guess, or zero -/
def UnitProblem.start (q : UnitProblem E) : E := q.guess.getD 0

/-- the documented threshold -/
noncomputable def UnitProblem.threshold (q : UnitProblem E) : ℝ := max q.abstol (q.reltol * ‖q.b - q.A q.start‖)

/-- **Specification.** A solve has found `x` on a consistent system: the residual is within the threshold, `x` differs from the guess by
a vector in the range of the operator, and, if the threshold is zero, `x` is the solution nearest to the guess. -/
def UnitProblem.Found (q : UnitProblem E) (x : E) : Prop :=
  ‖q.b - q.A x‖ ≤ q.threshold ∧ x - q.start ∈ LinearMap.range q.A ∧ (q.threshold = 0 → NearestSolution q.A q.b q.start x)

theorem UnitProblem.found {q : UnitProblem E} (hA : PSD q.A) {d : E} (hd : d ∈ LinearMap.range q.A)
    (ht : ‖q.cold.b - q.A d‖ ≤ q.threshold) : q.Found (q.start + d) := by
  have h1 : ‖q.b - q.A (q.start + d)‖ ≤ q.threshold := by rwa [map_add, ← sub_sub]
  have h2 : q.start + d - q.start ∈ LinearMap.range q.A := by rwa [add_sub_cancel_left]
  refine ⟨h1, h2, fun h0 => nearest_of_range hA.1 ?_ h2⟩
  rw [h0, norm_le_zero_iff, sub_eq_zero] at h1
  exact h1.symm

theorem Corrects.zero (r : KrylovRes Fl (Vec E)) : Corrects (.fin 0) 0 r r := by
  refine ⟨?_, rfl, rfl, rfl, rfl⟩
  cases r.x <;> simp

theorem UnitProblem.cold_none {q : UnitProblem E} (hg : q.guess = none) : q.cold = q := by
  cases q; simp_all [UnitProblem.cold]

theorem cgs_cold (q : UnitProblem E) (n : Nat) (mm : Option Nat) :
    Corrects (.fin q.start) 0 (cgsSolve (Vec.op q.A) q.opts n (.fin q.b) (q.kw mm)).1
      (cgsSolve (Vec.op q.cold.A) q.cold.opts n (.fin q.cold.b) (q.cold.kw mm)).1 := by
  cases hg : q.guess with
  | none =>
    rw [q.cold_none hg, UnitProblem.start, hg]
    exact .zero _
  | some g =>
    have := (C77_cgs (Vec.op q.A) q.opts n (.fin q.b) (.fin g) mm).1
    simpa [UnitProblem.cold, UnitProblem.kw, UnitProblem.opts, UnitProblem.start, hg] using this

theorem tf_cold (q : UnitProblem E) (n : Nat) (mm : Option Nat) :
    match tfSolve (Vec.op q.A) q.opts n (.fin q.b) (q.kw mm),
      tfSolve (Vec.op q.cold.A) q.cold.opts n (.fin q.cold.b) (q.cold.kw mm) with
    | .ok run, .ok run' => Corrects (.fin q.start) 0 run.1 run'.1
    | .error e, .error e' => e = e'
    | _, _ => False := by
  cases hg : q.guess with
  | none =>
    rw [q.cold_none hg, UnitProblem.start, hg]
    cases tfSolve (Vec.op q.A) q.opts n (.fin q.b) (q.kw mm) with
    | error e => rfl
    | ok run => exact .zero _
  | some g =>
    have := C77_tfqmr (Vec.op q.A) q.opts n (.fin q.b) (.fin g) mm
    have e1 : q.kw mm = { guess := some (.fin g), matvecMax := mm } := by simp [UnitProblem.kw, hg]
    have e2 : q.cold.kw mm = { guess := none, matvecMax := mm } := by simp [UnitProblem.cold, UnitProblem.kw]
    have e3 : (Vec.fin q.cold.b : Vec E) = .fin q.b - Vec.op q.A (.fin g) := by simp [UnitProblem.cold, hg]
    have e4 : q.cold.opts = q.opts := rfl
    have e5 : q.cold.A = q.A := rfl
    rw [e1, e2, e3, e4, e5, UnitProblem.start, hg]
    revert this
    cases tfSolve (Vec.op q.A) q.opts n (.fin q.b) { guess := some (.fin g), matvecMax := mm } <;>
      cases tfSolve (Vec.op q.A) q.opts n (.fin q.b - Vec.op q.A (.fin g)) { guess := none, matvecMax := mm }
    · exact id
    · exact id
    · exact id
    · exact fun h => h.1

theorem bi_cold (q : UnitProblem E) (n : Nat) (mm : Nat) :
    Corrects (.fin q.start) (if q.guess.isSome then 1 else 0)
      (biSolve (Vec.op q.A) q.opts n (.fin q.b) (q.kw (some (mm + if q.guess.isSome then 1 else 0)))).1
      (biSolve (Vec.op q.cold.A) q.cold.opts n (.fin q.cold.b) (q.cold.kw (some mm))).1 := by
  cases hg : q.guess with
  | none =>
    rw [q.cold_none hg, UnitProblem.start, hg]
    exact .zero _
  | some g =>
    have := (C77_bicgstab (Vec.op q.A) q.opts n (.fin q.b) (.fin g) mm).1
    simpa [UnitProblem.cold, UnitProblem.kw, UnitProblem.opts, UnitProblem.start, hg] using this

theorem cgLoop_kw {op : Vec E → Vec E} {M : Option (Vec E → Vec E)} (kw kw' : CGKw (Vec E)) (h1 : kw'.checkCurvature = kw.checkCurvature)
    (h2 : kw'.storeResids = kw.storeResids) (h3 : kw'.storeIterates = kw.storeIterates) (t : Fl) (mm : Nat) (s : CGLoop Fl (Vec E)) :
    cgLoop op M kw' t mm s = cgLoop op M kw t mm s := by
  rw [cgLoop.eq_def op M kw' t mm, cgLoop.eq_def op M kw t mm s]
  by_cases h : cgCont t mm s = true
  · have e : cgStep op M kw' s = cgStep op M kw s := by simp only [cgStep, h1, h2, h3]
    have := cgStep_nMatvec op M kw s
    rw [dif_pos h, dif_pos h, e]
    exact cgLoop_kw kw kw' h1 h2 h3 t mm _
  · rw [dif_neg h, dif_neg h]
termination_by mm - s.nMatvec
decreasing_by
  simp only [cgCont, Bool.and_eq_true, decide_eq_true_eq] at h
  omega

theorem cgSolve_limit (q : UnitProblem E) (n : Nat) (mm : Option Nat) (c r i : Bool) :
    cgSolve (Vec.op q.A) q.opts n {} (.fin q.b) (q.cgKw mm c r i) =
      cgSolve (Vec.op q.A) q.opts n {} (.fin q.b) (q.cgKw (some (mm.getD (2 * n))) c r i) := by
  cases mm with
  | some m => rfl
  | none =>
    have e := cgLoop_kw (op := Vec.op q.A) (M := q.opts.precon) (q.cgKw none c r i) (q.cgKw (some (2 * n)) c r i) rfl rfl rfl
    have e2 : cgInit (Vec.op q.A) q.opts (q.cgKw none c r i) {} (.fin q.b) =
      cgInit (Vec.op q.A) q.opts (q.cgKw (some (2 * n)) c r i) {} (.fin q.b) := rfl
    simp only [Option.getD_none]
    unfold cgSolve
    rw [e2]
    simp only [e]
    rfl

theorem cg_cold (q : UnitProblem E) (n : Nat) (mm : Nat) (c r i : Bool) :
    let run := (cgSolve (Vec.op q.A) q.opts n {} (.fin q.b) (q.cgKw (some (mm + if q.guess.isSome then 1 else 0)) c r i)).1
    let run' := (cgSolve (Vec.op q.cold.A) q.cold.opts n {} (.fin q.cold.b) (q.cold.cgKw (some mm) c r i)).1
    run.x = run'.x.map (.fin q.start + ·) ∧ run.converged = run'.converged ∧ run.definite = run'.definite ∧
    run.nMatvec = run'.nMatvec + (if q.guess.isSome then 1 else 0) ∧ run.infiniteDescent = run'.infiniteDescent := by
  cases hg : q.guess with
  | none =>
    rw [q.cold_none hg, UnitProblem.start, hg]
    refine ⟨?_, rfl, rfl, rfl, rfl⟩
    have : (fun v : Vec E => .fin ((none : Option E).getD 0) + v) = id := by
      funext v; cases v <;> simp
    rw [this]; simp
  | some g =>
    have := C77_cg (Vec.op q.A) q.opts n (.fin q.b) (.fin g) (q.cold.cgKw none c r i) mm (by simp [UnitProblem.cgKw])
    obtain ⟨h1, -, -, h2, h3, h4, h5, -⟩ := this
    have e : (Vec.fin q.cold.b : Vec E) = .fin q.b - Vec.op q.A (.fin g) := by simp [UnitProblem.cold, hg]
    have e1 : q.cgKw (some (mm + 1)) c r i =
        { q.cold.cgKw none c r i with guess := some (.fin g), matvecMax := some (mm + 1) } := by
      simp [UnitProblem.cgKw, hg, UnitProblem.cold]
    simp only [Option.isSome_some, if_true]
    rw [e, e1, UnitProblem.start, hg]
    exact ⟨h1, h2, h3, h4, h5⟩

theorem cold_same {q : UnitProblem E} (hp : q.precon = none) (b : LinearMap.range q.A) (hb : q.cold.b = b) :
    SameSystem (LinearMap.range q.A).subtypeₗᵢ 1 1 1 (rangeProblem q.A b q.abstol q.reltol) q.cold :=
  rangeProblem_same (q := q.cold) hp rfl b hb

theorem SameResult.fin {W : Submodule ℝ E} {r : KrylovRes Fl (Vec W)} {r' : KrylovRes Fl (Vec E)}
    (h : SameResult W.subtypeₗᵢ 1 1 r r') {x : W} (hx : r.x = .fin x) : r'.x = .fin (x : E) := by
  rw [h.x, hx]
  simp [Vec.sc]

/-- a problem on the range as a `LinProblem` -/
noncomputable def UnitProblem.lin (q : UnitProblem E) : LinProblem E :=
  { A := q.A, b := q.b, guess := none, abstol := q.abstol, reltol := q.reltol, precon := none }

/-- The problem in the form C28 states. -/
def UnitProblem.cg (q : UnitProblem E) : CGProblem E :=
  { A := q.A, b := q.b, guess := none, abstol := q.abstol, reltol := q.reltol }

theorem rangeProblem_threshold {q : UnitProblem E} (b : LinearMap.range q.A) (hb : q.cold.b = b) :
    max q.abstol (q.reltol * ‖b - onRange q.A 0‖) = q.threshold := by
  rw [map_zero, sub_zero, UnitProblem.threshold]
  congr 2
  change ‖(b : E)‖ = _
  rw [← hb]; rfl

/-- **C80 (CGS).** In exact arithmetic, for every symmetric positive semidefinite operator, singular or not, every right-hand side in its
range, guess and tolerances with a nonnegative threshold, CGS without preconditioner converges with at most twice as many products as the
rank, if the limit allows them; the result differs from the guess by a vector in the range, and, if the threshold is zero, it is the
solution nearest to the guess. -/
theorem C80_cgs [FiniteDimensional ℝ E] (q : UnitProblem E) (hp : q.precon = none) (hA : PSD q.A)
    (hb : q.b ∈ LinearMap.range q.A) (n : ℕ) (mm : Option Nat) (ht : 0 ≤ q.threshold) (hm : 2 * rank q.A ≤ mm.getD (2 * n)) :
    let res := (cgsSolve (Vec.op q.A) q.opts n (.fin q.b) (q.kw mm)).1
    res.converged = true ∧ res.nMatvec ≤ 2 * rank q.A ∧ ∃ x, res.x = .fin x ∧ q.Found x := by
  obtain ⟨b, hb'⟩ : ∃ b : LinearMap.range q.A, q.cold.b = b := ⟨⟨_, q.cold_b hb⟩, rfl⟩
  have hc := cgs_cold q n mm
  have hs := (C76_cgs (cold_same hp b hb') one_pos one_pos one_pos n mm).1
  obtain ⟨h1, h2, x, h3, h4⟩ := C55_cgs_spd (rangeProblem q.A b q.abstol q.reltol).lin rfl hA.onRange (rank q.A) le_rfl
    { guess := none, matvecMax := some (mm.getD (2 * n)) } rfl (by rw [← rangeProblem_threshold b hb'] at ht; exact ht) hm
  refine ⟨hc.converged.trans (hs.converged.trans h1), (hc.nMatvec.trans hs.nMatvec).trans_le h2, q.start + x, ?_, ?_⟩
  · rw [hc.x, hs.fin h3]; rfl
  · refine q.found hA x.2 ?_
    rw [← rangeProblem_threshold b hb', hb']
    exact h4

/-- **C80 (Bi-CGSTAB).** As for CGS, for an operator other than zero; the product with the guess is counted. -/
theorem C80_bicgstab [FiniteDimensional ℝ E] (q : UnitProblem E) (hp : q.precon = none) (hA : PSD q.A) (h0 : q.A ≠ 0)
    (hb : q.b ∈ LinearMap.range q.A) (n : ℕ) (mm : Option Nat) (ht : 0 ≤ q.threshold)
    (hm : 2 * rank q.A + (if q.guess.isSome then 1 else 0) ≤ mm.getD (2 * n)) :
    let res := (biSolve (Vec.op q.A) q.opts n (.fin q.b) (q.kw mm)).1
    res.converged = true ∧ res.nMatvec ≤ 2 * rank q.A + (if q.guess.isSome then 1 else 0) ∧ ∃ x, res.x = .fin x ∧ q.Found x := by
  obtain ⟨b, hb'⟩ : ∃ b : LinearMap.range q.A, q.cold.b = b := ⟨⟨_, q.cold_b hb⟩, rfl⟩
  obtain ⟨m, hm'⟩ : ∃ m, mm.getD (2 * n) = m + if q.guess.isSome then 1 else 0 :=
    ⟨mm.getD (2 * n) - if q.guess.isSome then 1 else 0, by omega⟩
  have hr : 0 < rank q.A := by
    refine Nat.pos_of_ne_zero fun h => h0 ?_
    exact LinearMap.range_eq_bot.1 (Submodule.finrank_eq_zero.1 h)
  have hc := bi_cold q n m
  rw [← hm'] at hc
  have hs := (C76_bicgstab (cold_same hp b hb') one_pos one_pos one_pos n (some m)).1
  obtain ⟨h1, h2, x, h3, h4⟩ := C55_bicgstab_spd (rangeProblem q.A b q.abstol q.reltol).lin rfl hA.onRange (rank q.A) le_rfl hr
    { guess := none, matvecMax := some m } rfl (by rw [← rangeProblem_threshold b hb'] at ht; exact ht)
    (show 2 * rank q.A ≤ m by omega)
  refine ⟨hc.converged.trans (hs.converged.trans h1), (hc.nMatvec.trans (congrArg (· + _) hs.nMatvec)).trans_le
    (Nat.add_le_add_right h2 _), q.start + x, ?_, ?_⟩
  · refine hc.x.trans ?_
    rw [hs.fin h3]; rfl
  · refine q.found hA x.2 ?_
    rw [← rangeProblem_threshold b hb', hb']
    exact h4

/-- **C80 (TFQMR).** As for CGS, for a positive threshold and an initial residual above it (otherwise TFQMR raises, see C33). -/
theorem C80_tfqmr [FiniteDimensional ℝ E] (q : UnitProblem E) (hp : q.precon = none) (hA : PSD q.A)
    (hb : q.b ∈ LinearMap.range q.A) (n : ℕ) (mm : Option Nat) (ht : 0 < q.threshold) (ht' : q.threshold < ‖q.b - q.A q.start‖)
    (hm : 2 * rank q.A ≤ mm.getD (2 * n)) :
    ∃ res products, tfSolve (Vec.op q.A) q.opts n (.fin q.b) (q.kw mm) = .ok (res, products) ∧
      res.converged = true ∧ res.nMatvec ≤ 2 * rank q.A ∧
      ∃ x, res.x = .fin x ∧ ‖q.b - q.A x‖ < q.threshold ∧ x - q.start ∈ LinearMap.range q.A := by
  obtain ⟨b, hb'⟩ : ∃ b : LinearMap.range q.A, q.cold.b = b := ⟨⟨_, q.cold_b hb⟩, rfl⟩
  have hc := tf_cold q n mm
  have hs := C76_tfqmr (cold_same hp b hb') one_pos one_pos one_pos n mm
  have hnorm : ‖b - onRange q.A 0‖ = ‖q.b - q.A q.start‖ := by
    rw [map_zero, sub_zero]
    change ‖(b : E)‖ = _
    rw [← hb']; rfl
  obtain ⟨res, products, h0, h1, h2, x, h3, h4⟩ := C55_tfqmr_spd (rangeProblem q.A b q.abstol q.reltol).lin rfl hA.onRange (rank q.A)
    le_rfl { guess := none, matvecMax := some (mm.getD (2 * n)) } rfl
    (by rw [← rangeProblem_threshold b hb'] at ht; exact ht)
    (by rw [← rangeProblem_threshold b hb', ← hnorm] at ht'; exact ht') hm
  have h0' : tfSolve (Vec.op (rangeProblem q.A b q.abstol q.reltol).A) (rangeProblem q.A b q.abstol q.reltol).opts n
      (.fin (rangeProblem q.A b q.abstol q.reltol).b) ((rangeProblem q.A b q.abstol q.reltol).kw mm) = .ok (res, products) := h0
  rw [h0'] at hs
  revert hc hs
  cases tfSolve (Vec.op q.cold.A) q.cold.opts n (.fin q.cold.b) (q.cold.kw mm) with
  | error e => exact fun _ h => h.elim
  | ok run' =>
    cases tfSolve (Vec.op q.A) q.opts n (.fin q.b) (q.kw mm) with
    | error e => exact fun h => h.elim
    | ok run =>
      intro hc hs
      refine ⟨run.1, run.2, rfl, hc.converged.trans (hs.1.converged.trans h1), (hc.nMatvec.trans hs.1.nMatvec).trans_le h2,
        q.start + x, ?_, ?_, ?_⟩
      · rw [hc.x, hs.1.fin h3]; rfl
      · rw [map_add, ← sub_sub]
        rw [← rangeProblem_threshold b hb']
        change ‖q.cold.b - q.A x‖ < _
        rw [hb']
        exact h4
      · rw [add_sub_cancel_left]; exact x.2

/-- **C80 (CG).** In exact arithmetic, for every symmetric positive semidefinite operator, singular or not, every right-hand side in its
range, guess and tolerances with `abstol ≥ 0`, CG without preconditioner converges with at most as many products as the rank (and one
for the guess), if the limit allows them; it never reports indefiniteness; the result differs from the guess by a vector in the range,
and, if the threshold is zero, it is the solution nearest to the guess. -/
theorem C80_cg [FiniteDimensional ℝ E] (q : UnitProblem E) (hp : q.precon = none) (hA : PSD q.A)
    (hb : q.b ∈ LinearMap.range q.A) (n : ℕ) (mm : Option Nat) (c r i : Bool) (hat : 0 ≤ q.abstol)
    (hm : rank q.A + (if q.guess.isSome then 1 else 0) ≤ mm.getD (2 * n)) :
    let res := (cgSolve (Vec.op q.A) q.opts n {} (.fin q.b) (q.cgKw mm c r i)).1
    res.converged = true ∧ res.nMatvec ≤ rank q.A + (if q.guess.isSome then 1 else 0) ∧ res.definite = some true ∧
    res.infiniteDescent = none ∧ ∃ x, res.x = some (.fin x) ∧ q.Found x := by
  obtain ⟨b, hb'⟩ : ∃ b : LinearMap.range q.A, q.cold.b = b := ⟨⟨_, q.cold_b hb⟩, rfl⟩
  obtain ⟨m, hm'⟩ : ∃ m, mm.getD (2 * n) = m + if q.guess.isSome then 1 else 0 :=
    ⟨mm.getD (2 * n) - if q.guess.isSome then 1 else 0, by omega⟩
  have hmm : cgSolve (Vec.op q.A) q.opts n {} (.fin q.b) (q.cgKw mm c r i) =
      cgSolve (Vec.op q.A) q.opts n {} (.fin q.b) (q.cgKw (some (mm.getD (2 * n))) c r i) :=
    cgSolve_limit q n mm c r i
  rw [hmm]
  have hc := cg_cold q n m c r i
  rw [← hm'] at hc
  have hs := C76_cg_partial (cold_same hp b hb') one_pos one_pos n (some m) c r i
  obtain ⟨h1, h2, ⟨x, h3, h4, -⟩, h5, h6, -⟩ := C28_terminates_partial (rangeProblem q.A b q.abstol q.reltol).cg
    ⟨hA.onRange.1, hA.onRange.2⟩ {} ((rangeProblem q.A b q.abstol q.reltol).cgKw (some m) c r i) rfl rfl hat (by
      intro k hk
      obtain rfl : m = k := Option.some.inj hk
      change rank q.A + 0 ≤ _
      omega)
  obtain ⟨c1, c2, c3, c4, c5⟩ := hc
  obtain ⟨s1, -, -, s2, s3, s4, s5, -⟩ := hs
  refine ⟨c2.trans (s2.trans h1), c4.trans_le (Nat.add_le_add_right (s3.trans_le h2) _), c3.trans (s4.trans h5), ?_, q.start + x, ?_, ?_⟩
  · rw [c5, s5]
    exact congrArg (Option.map _) h6
  · refine c1.trans ?_
    rw [s1]
    refine (congrArg (fun v => (Option.map _ v).map _) h3).trans ?_
    simp [Vec.sc]
  · refine q.found hA x.2 ?_
    rw [← rangeProblem_threshold b hb', hb']
    exact h4

/-! ### Least squares -/

/-- the ranks of an operator and of its transpose are equal; this half is what is needed -/
theorem rank_transpose_le [FiniteDimensional ℝ E] {A : E →ₗ[ℝ] F} {B : F →ₗ[ℝ] E} (hA : ∀ u v, ⟪A u, v⟫ = ⟪u, B v⟫) : rank B ≤ rank A := by
  refine LinearMap.finrank_le_finrank_of_injective
    (f := (A.codRestrict (LinearMap.range A) fun v => ⟨v, rfl⟩).comp (LinearMap.range B).subtype) ?_
  rw [← LinearMap.ker_eq_bot, LinearMap.ker_eq_bot']
  rintro ⟨_, y, rfl⟩ h
  have h1 : A (B y) = 0 := congrArg Subtype.val h
  have h2 : ⟪B y, B y⟫ = 0 := by rw [← hA, h1, inner_zero_left]
  exact Subtype.ext (inner_self_eq_zero.1 h2)

theorem krylov_le_range {A : E →ₗ[ℝ] F} {B : F →ₗ[ℝ] E} (b : F) (k : ℕ) : MinresMath.krylov (B ∘ₗ A) (B b) k ≤ LinearMap.range B := by
  refine MinresMath.krylov_le ?_ ?_ k
  · exact ⟨b, rfl⟩
  · rintro _ ⟨y, rfl⟩; exact ⟨A (B y), rfl⟩

theorem normal_confined [FiniteDimensional ℝ E] {A : E →ₗ[ℝ] F} {B : F →ₗ[ℝ] E} (hA : ∀ u v, ⟪A u, v⟫ = ⟪u, B v⟫) (b : F) :
    Confined (B ∘ₗ A) (B b) (rank A) :=
  ⟨LinearMap.range B, rank_transpose_le hA, ⟨b, rfl⟩, fun w _ => ⟨A w, rfl⟩⟩

/-- **C80 (LSQR).** In exact arithmetic, for every operator `A`, of whatever rank, with transpose `B`, every right-hand side and valid
options without damping, if the limit is at least the rank and two: LSQR stops after at most as many iterations as the rank, or two, with
an optimal point; the result is in the range of the transpose; and, if the tolerances are zero, it is the least-squares solution of
smallest norm. -/
theorem C80_lsqr [FiniteDimensional ℝ E] (q : LsqrProblem E F) (hq : q.Valid) (hd : q.damp = 0)
    (hl : (rank q.A : ℤ) ≤ if q.itnlim = 0 then 3 * (q.n : ℤ) else q.itnlim)
    (h2 : 2 ≤ if q.itnlim = 0 then 3 * (q.n : ℤ) else q.itnlim) :
    ∃ res s x, lsqrSolve (Vec.op q.A) (Vec.op q.B) q.n (.fin q.b) q.kw = .ok (res, s) ∧ res.x = .fin x ∧
      x ∈ LinearMap.range q.B ∧ (q.B q.b ≠ 0 → res.optimal = true ∧ res.itn ≤ max (rank q.A) 2) ∧
      (q.atol = 0 → q.btol = 0 → q.etol ≤ 0 → MinimumNormLeastSquares q.A q.b x) := by
  obtain ⟨res, s, x, r1, h, hx, hk, -⟩ := C50_minimal_partial q hq
  refine ⟨res, s, x, h, hx, krylov_le_range _ _ hk, ?_, ?_⟩
  · intro hb
    obtain ⟨res', s', h', g1, g2, -⟩ := lsqr_confined q hq hb (normal_confined hq.adj q.b) hl h2
    obtain ⟨rfl, rfl⟩ : res' = res ∧ s' = s := by simpa using h'.symm.trans h
    exact ⟨g1, g2⟩
  · intro ha hbt he
    refine minimumNorm_of_range hq.adj ?_ (krylov_le_range _ _ hk)
    by_cases hb : q.B q.b = 0
    · have h0 : x = 0 := by
        have : MinresMath.krylov (q.B ∘ₗ q.A) (q.B q.b) res.itn ≤ ⊥ := by
          refine MinresMath.krylov_le ?_ ?_ _
          · simp [hb]
          · simp
        simpa using this hk
      simp [h0, hb]
    · obtain ⟨res', s', h', -, -, g3⟩ := lsqr_confined q hq hb (normal_confined hq.adj q.b) hl h2
      obtain ⟨rfl, rfl⟩ : res' = res ∧ s' = s := by simpa using h'.symm.trans h
      obtain ⟨x', hx', e⟩ := g3 ha hbt he
      obtain rfl : x' = x := by simpa using hx'.symm.trans hx
      simpa [hd] using e

/-- **C80 (LSMR).** In exact arithmetic, for every operator `A`, of whatever rank, with transpose `B`, every right-hand side for which the
system is inconsistent and `B b ≠ 0`, and valid options without damping, if the limit is at least the rank: LSMR stops by one of its tests
after at most as many iterations as the rank; the result is in the range of the transpose; and, if the tolerances and the limit on the
condition number are zero, it is the least-squares solution of smallest norm.  (On consistent systems LSMR can raise, see C40.) -/
theorem C80_lsmr [FiniteDimensional ℝ E] (q : LsmrProblem E F) (hq : q.Valid) (selfX : Option (Vec E)) (hd : q.damp = 0)
    (hb : q.B q.b ≠ 0) (hn : q.b ∉ LinearMap.range q.A) (hl : (rank q.A : ℤ) ≤ q.itnlim.getD (min q.m q.n : ℕ)) :
    ∃ res s x, lsmrSolve (Vec.op q.A) (Vec.op q.B) q.m q.n (.fin q.b) q.kw selfX = .ok (res, s) ∧ res.x = .fin x ∧
      x ∈ LinearMap.range q.B ∧ 1 ≤ res.istop ∧ res.istop ≤ 8 ∧ res.istop ≠ 7 ∧ res.itn ≤ rank q.A ∧
      (q.atol = 0 → q.btol = 0 → q.etol ≤ 0 → q.conlim ≤ 0 → MinimumNormLeastSquares q.A q.b x) := by
  have hn' : ∀ x, ¬ (q.A x = q.b ∧ q.damp • x = 0) := fun x h => hn ⟨x, h.1⟩
  obtain ⟨res, s, h, h1, h8, h7, hi, hx⟩ := lsmr_confined q hq selfX hb (normal_confined hq.adj q.b) hl hn'
  rcases C51_true_norms q hq selfX with ⟨res', s', xs, h', -, hx', -, -, -, hk, -⟩ | ⟨h', -⟩
  · obtain ⟨rfl, rfl⟩ : res' = res ∧ s' = s := by simpa using h'.symm.trans h
    have hr : (0 :: xs).getLast (by simp) ∈ LinearMap.range q.B := by
      rcases List.eq_nil_or_concat xs with rfl | ⟨ys, y, rfl⟩
      · exact Submodule.zero_mem _
      · have := krylov_le_range _ _ (hk ys.length (by simp)).1
        simpa using this
    refine ⟨res', s', _, h, hx', hr, h1, h8, h7, hi, fun a b c d => ?_⟩
    obtain ⟨x, hx2, e⟩ := hx a b c d
    rw [hx'] at hx2
    have hx3 : (0 :: xs).getLast (by simp) = x := by simpa using hx2
    refine minimumNorm_of_range hq.adj ?_ hr
    rw [hx3]
    simpa [hd] using e
  · rw [h] at h'; cases h'

/-! ### MINRES and SYMMLQ -/

/-- `A` on the range of `A - σ I` -/
noncomputable def onShifted (A : E →ₗ[ℝ] E) (σ : ℝ) :
    LinearMap.range (A - σ • LinearMap.id) →ₗ[ℝ] LinearMap.range (A - σ • LinearMap.id) :=
  A.restrict fun v ⟨z, hz⟩ => ⟨A z, by rw [← hz]; simp⟩

theorem onShifted_shift (A : E →ₗ[ℝ] E) (σ : ℝ) (u : LinearMap.range (A - σ • LinearMap.id)) :
    ((onShifted A σ u - σ • u : LinearMap.range (A - σ • LinearMap.id)) : E) = A u - σ • (u : E) := rfl

/-- the MINRES problem on the range -/
noncomputable def MinresProblem.range (q : MinresProblem E) (b : LinearMap.range q.B) : MinresProblem (LinearMap.range q.B) :=
  { A := onShifted q.A q.shift, b := b, shift := q.shift, check := q.check, itnlim := q.itnlim, rtol := q.rtol, etol := q.etol,
    storeIterates := q.storeIterates, window := q.window }

/-- **C80 (MINRES).** In exact arithmetic, for every symmetric operator `A`, shift, nonzero right-hand side in the range of
`B = A - shift I`, singular or not, and options with `rtol ≥ 0`, when the singular values of `B` other than zero are not below the machine
precision `ε`: if the limit is at least the rank of `B`, a new MINRES object converges within as many iterations as the rank, unless it
breaks down with `istop = -1`; the result is in the range of `B`, so if it is a solution then it is the solution of smallest norm; and
`rnorm` is its residual norm. -/
theorem C80_minres [FiniteDimensional ℝ E] (q : MinresProblem E) (hA : ∀ u v, ⟪q.A u, v⟫ = ⟪u, q.A v⟫) (ε : ℝ) (hε : 0 < ε)
    (hlow : ∀ z ∈ LinearMap.range q.B, ε * ‖z‖ ≤ ‖q.B z‖) (hw : q.window ≠ 0) (hrt : 0 ≤ q.rtol) (h0 : q.b ≠ 0)
    (hb : q.b ∈ LinearMap.range q.B) (n : ℕ) (hlim : rank q.B ≤ q.itnlim.getD (5 * n)) :
    ∃ res products, minresSolve (Vec.op q.A) (.fin ε) n { residHistory := [] } (.fin q.b) q.kw = .ok (res, products) ∧
      (res.istop = -1 ∨ res.converged = true ∧ products.length ≤ rank q.B ∧
        ∃ x, res.x = .fin x ∧ x ∈ LinearMap.range q.B ∧ (products ≠ [] → res.rnorm = .fin ‖q.b - q.B x‖) ∧
          (q.B x = q.b → NearestSolution q.B q.b 0 x)) := by
  obtain ⟨b, hb'⟩ : ∃ b : LinearMap.range q.B, q.b = b := ⟨⟨_, hb⟩, rfl⟩
  have hsym : ∀ u v, ⟪(q.range b).A u, v⟫ = ⟪u, (q.range b).A v⟫ := fun u v => hA u v
  have hlow' : ∀ z, ε * ‖z‖ ≤ ‖(q.range b).A z - (q.range b).shift • z‖ := fun z => hlow z z.2
  have hb0 : (q.range b).b ≠ 0 := fun h => h0 (by rw [hb']; exact congrArg Subtype.val h)
  obtain ⟨res, products, h, h1⟩ := minres_confined (q.range b) hsym ε hε hlow' hw hrt hb0 (n := n) (d := rank q.B)
    (confined_of_finrank le_rfl) hlim { residHistory := [] }
  obtain ⟨res', products', h', h2, h3⟩ := C35_residual_partial (q.range b) hsym ε hε hlow' hw n { residHistory := [] }
  obtain ⟨rfl, rfl⟩ : res' = res ∧ products' = products := by simpa using h'.symm.trans h
  have hs := C76_minres_partial (Q := (LinearMap.range q.B).subtypeₗᵢ) (q := q.range b) (q' := q) (M := none) (M' := none) (fun v => rfl)
    hb' rfl (by simp) rfl (.fin ε) n
  have e : minresSolve (Vec.op (q.range b).A) (.fin ε) n { residHistory := [] } (.fin (q.range b).b)
    { (q.range b).kw with
      precon := (none : Option (LinearMap.range q.B →ₗ[ℝ] LinearMap.range q.B)).map
        fun m : LinearMap.range q.B →ₗ[ℝ] LinearMap.range q.B => Vec.op m } =
    .ok (res', products') := h
  rw [e] at hs
  have e' : minresSolve (Vec.op q.A) (.fin ε) n { residHistory := [] } (.fin q.b)
    { q.kw with precon := (none : Option (E →ₗ[ℝ] E)).map fun m : E →ₗ[ℝ] E => Vec.op m } =
    minresSolve (Vec.op q.A) (.fin ε) n { residHistory := [] } (.fin q.b) q.kw := rfl
  rw [e'] at hs
  revert hs
  cases minresSolve (Vec.op q.A) (.fin ε) n { residHistory := [] } (.fin q.b) q.kw with
  | error e => exact fun h => h.elim
  | ok run =>
    intro hs
    refine ⟨run.1, run.2, rfl, ?_⟩
    have hlen : run.2.length = products'.length := by rw [hs.2, List.length_map]
    rcases h1 with h1 | ⟨h1, h4⟩
    · exact Or.inl (hs.1.istop.trans h1)
    · by_cases hm : res'.istop = -1
      · exact Or.inl (hs.1.istop.trans hm)
      · refine Or.inr ⟨hs.1.converged.trans h1, hlen.trans_le h4, ?_⟩
        cases hx : res'.x with
        | nan => exact absurd hx (h2 hm)
        | fin x =>
          obtain ⟨xs, -, -, -, -, hr, -⟩ := h3 x hx
          refine ⟨x, ?_, x.2, fun hp => ?_, fun hx => nearest_of_range (B := q.B) ?_ hx ?_⟩
          · rw [hs.1.x, hx]; simp [Vec.sc]
          · rw [hs.1.rnorm, hr (fun h => hp (List.length_eq_zero_iff.1 (by rw [hlen, h]; rfl)))]
            rw [hb']
            rfl
          · intro u v
            simp [MinresProblem.B, inner_sub_left, inner_sub_right, inner_smul_left, inner_smul_right, hA]
          · rw [sub_zero]; exact x.2

/-- the SYMMLQ problem on the range -/
noncomputable def SymmlqProblem.range (q : SymmlqProblem E) (b : LinearMap.range q.B) : SymmlqProblem (LinearMap.range q.B) :=
  { A := onShifted q.A (q.shift.getD 0), b := b, shift := q.shift, rtol := q.rtol, eps := q.eps, eps3 := q.eps3, check := q.check,
    matvecMax := q.matvecMax, storeIterates := q.storeIterates }

/-- **C80 (SYMMLQ).** In exact arithmetic, for every symmetric operator `A` and shift for which `B = A - shift I` is positive semidefinite,
singular or not, every nonzero right-hand side in its range, and options with `rtol ≥ 0` and a budget larger than the rank of `B`, let the
client have given the solver object the missing attribute `matvec`.  Then `solve` returns after at most one product more than the rank; the
result is in the range of `B`, so if it is a solution then it is the solution of smallest norm; `residNorm` is its residual norm; and it
is as accurate as C56 says for nonsingular operators. -/
theorem C80_symmlq [FiniteDimensional ℝ E] (q : SymmlqProblem E) (n : ℕ) (hn : n ≠ 0) (hB : PSD q.B) (h0 : q.b ≠ 0)
    (hb : q.b ∈ LinearMap.range q.B) (hrt : 0 ≤ q.rtol) (he : 0 < q.eps) (he3 : 0 ≤ q.eps3)
    (hlim : rank q.B < q.matvecMax.getD (2 * n + 2)) :
    ∃ res products x a, symmlqSolve q.obj n (.fin q.b) q.kw = .ok (res, products) ∧ res.nMatvec ≤ rank q.B + 1 ∧
      res.x = .fin x ∧ x ∈ LinearMap.range q.B ∧ (q.B x = q.b → NearestSolution q.B q.b 0 x) ∧
      res.residNorm = .fin ‖q.b - q.B x‖ ∧ res.xNorm = .fin ‖x‖ ∧ res.anorm = .fin a ∧
      (∀ C, 0 ≤ C → (∀ z, ‖q.B z‖ ≤ C * ‖z‖) → a ^ 2 ≤ rank q.B * C ^ 2) ∧
      (‖q.b - q.B x‖ ≤ q.rtol * a * ‖x‖ ∨ ‖q.b - q.B x‖ ≤ q.eps * a * ‖x‖ ∨ ‖q.b‖ ≤ q.eps * a * ‖x‖ ∨
       (∃ c, res.acond = .fin c ∧ 1 / 10 / q.eps ≤ c) ∨ ‖q.b - q.B x‖ * |⟪q.b, q.B q.b⟫| ≤ q.eps * ‖q.b‖ ^ 3) := by
  obtain ⟨b, hb'⟩ : ∃ b : LinearMap.range q.B, q.b = b := ⟨⟨_, hb⟩, rfl⟩
  have hA : ∀ u v, ⟪q.A u, v⟫ = ⟪u, q.A v⟫ := by
    intro u v
    have := hB.1 u v
    simp only [SymmlqProblem.B, LinearMap.sub_apply, LinearMap.smul_apply, LinearMap.id_apply, inner_sub_left, inner_sub_right,
      inner_smul_left, inner_smul_right, conj_trivial] at this
    linarith
  have hdef : ∀ u : LinearMap.range q.B, u ≠ 0 → ⟪(q.range b).B u, u⟫ ≠ 0 := by
    intro u hu
    have := hB.onRange.2 u hu
    rw [real_inner_comm] at this
    exact this.ne'
  have hb0 : (q.range b).b ≠ 0 := fun h => h0 (by rw [hb']; exact congrArg Subtype.val h)
  obtain ⟨res, products, h, x, a, k, h1, h2, h3, h4, h5, h6, h7, -, h8⟩ := C56_definite_partial (q.range b) n hn (fun u v => hA u v) hdef hb0 hrt
    he he3 hlim
  have hs := C76_symmlq_partial (Q := (LinearMap.range q.B).subtypeₗᵢ) (q := q.range b) (q' := q) (τ := 1) (fun v => rfl)
    (by rw [one_smul]; exact hb') one_pos rfl n
  rw [h] at hs
  revert hs
  cases symmlqSolve q.obj n (.fin q.b) q.kw with
  | error e => exact fun h => h.elim
  | ok run =>
    intro hs
    have e1 : ∀ r, Fl.sc 1 (Fl.fin r) = .fin r := fun r => by simp [Fl.sc]
    refine ⟨run.1, run.2, x, a, rfl, ?_, ?_, x.2, fun hx => nearest_of_range (B := q.B) hB.1 hx ?_, ?_, ?_, ?_, ?_, ?_⟩
    · rw [hs.1.nMatvec, h5]; exact Nat.add_le_add_right h6 1
    · rw [hs.1.x, h1]; simp [Vec.sc]
    · rw [sub_zero]; exact x.2
    · rw [hs.1.residNorm, h2, e1, hb']; rfl
    · rw [hs.1.xNorm, h3, e1]; rfl
    · rw [hs.1.anorm, h4]
    · intro C hC0 hC
      refine (h7 C fun z => hC z).trans (mul_le_mul_of_nonneg_right (Nat.cast_le.2 h6) (sq_nonneg C))
    · rcases h8 with h | h | h | ⟨c, h, h'⟩ | h
      · left; rw [hb']; exact h
      · right; left; rw [hb']; exact h
      · right; right; left; rw [hb']; exact h
      · right; right; right; left
        exact ⟨c, by rw [hs.1.acond, h], h'⟩
      · right; right; right; right; rw [hb']; exact h

/-! ### The hypotheses are met -/

/-- the projection of the plane on its first axis -/
noncomputable def planeProj : ℂ →ₗ[ℝ] ℂ where
  toFun z := ⟨z.re, 0⟩
  map_add' u v := by apply Complex.ext <;> simp
  map_smul' a u := by apply Complex.ext <;> simp

@[simp] theorem planeProj_re (z : ℂ) : (planeProj z).re = z.re := rfl
@[simp] theorem planeProj_im (z : ℂ) : (planeProj z).im = 0 := rfl

theorem planeProj_psd : PSD planeProj := by
  refine ⟨fun u v => by simp [Complex.inner], fun u => ?_⟩
  simp only [Complex.inner, Complex.mul_re, Complex.conj_re, Complex.conj_im, planeProj_re, planeProj_im]
  nlinarith [mul_self_nonneg u.re]

theorem planeProj_mem {z : ℂ} : z ∈ LinearMap.range planeProj ↔ z.im = 0 :=
  ⟨fun ⟨y, hy⟩ => by rw [← hy]; rfl, fun h => ⟨z, Complex.ext rfl (by simp [h])⟩⟩

theorem planeProj_rank : rank planeProj = 1 := by
  have h : LinearMap.range planeProj = ℝ ∙ (1 : ℂ) := by
    ext z
    rw [planeProj_mem, Submodule.mem_span_singleton]
    constructor
    · intro h; exact ⟨z.re, Complex.ext (by simp) (by simp [h])⟩
    · rintro ⟨a, rfl⟩; simp
  rw [rank, h, finrank_span_singleton one_ne_zero]

theorem planeProj_nearest {g x : ℂ} (h : NearestSolution planeProj 1 g x) : x = ⟨1, g.im⟩ := by
  by_contra hne
  have hre : x.re = 1 := by simpa using congrArg Complex.re h.1
  have h1 := h.2 ⟨1, g.im⟩ (Complex.ext (by simp) (by simp)) (Ne.symm hne)
  have e : ∀ z : ℂ, ‖z‖ * ‖z‖ = z.re * z.re + z.im * z.im := fun z => by
    rw [Complex.norm_mul_self_eq_normSq, Complex.normSq_apply]
  have e1 := e (x - g)
  have e2 := e (⟨1, g.im⟩ - g)
  simp only [Complex.sub_re, Complex.sub_im, sub_self, hre] at e1 e2
  nlinarith [norm_nonneg (x - g), norm_nonneg ((⟨1, g.im⟩ : ℂ) - g), mul_self_nonneg (x.im - g.im)]

/-- CG, CGS and Bi-CGSTAB on the singular system `x₁ = 1` with the guess `(3, 2)` and tolerances zero: after one step (two for
Bi-CGSTAB and CGS) the result is `(1, 2)`. -/
example (c r i : Bool) : (cgSolve (Vec.op planeProj) ({ A := planeProj, b := 1, guess := some ⟨3, 2⟩, abstol := 0, reltol := 0 } :
      UnitProblem ℂ).opts 2 {} (.fin 1)
    (({ A := planeProj, b := 1, guess := some ⟨3, 2⟩, abstol := 0, reltol := 0 } : UnitProblem ℂ).cgKw none c r i)).1.x =
      some (.fin ⟨1, 2⟩) := by
  obtain ⟨-, -, -, -, x, hx, -, -, h⟩ := C80_cg { A := planeProj, b := 1, guess := some ⟨3, 2⟩, abstol := 0, reltol := 0 } rfl planeProj_psd
    (planeProj_mem.2 (by simp)) 2 none c r i le_rfl (by simp [planeProj_rank])
  rw [hx, planeProj_nearest (h (by simp [UnitProblem.threshold]))]
  rfl

example : ∃ x, (cgsSolve (Vec.op planeProj) ({ A := planeProj, b := 1, guess := some ⟨3, 2⟩, abstol := 0, reltol := 0 } :
      UnitProblem ℂ).opts 2 (.fin 1)
    (({ A := planeProj, b := 1, guess := some ⟨3, 2⟩, abstol := 0, reltol := 0 } : UnitProblem ℂ).kw none)).1.x = .fin x ∧ x = ⟨1, 2⟩ := by
  obtain ⟨-, -, x, hx, -, -, h⟩ := C80_cgs { A := planeProj, b := 1, guess := some ⟨3, 2⟩, abstol := 0, reltol := 0 } rfl planeProj_psd
    (planeProj_mem.2 (by simp)) 2 none (by simp [UnitProblem.threshold]) (by simp [planeProj_rank])
  exact ⟨x, hx, planeProj_nearest (h (by simp [UnitProblem.threshold]))⟩

example : ∃ x, (biSolve (Vec.op planeProj) ({ A := planeProj, b := 1, guess := some ⟨3, 2⟩, abstol := 0, reltol := 0 } :
      UnitProblem ℂ).opts 2 (.fin 1)
    (({ A := planeProj, b := 1, guess := some ⟨3, 2⟩, abstol := 0, reltol := 0 } : UnitProblem ℂ).kw none)).1.x = .fin x ∧ x = ⟨1, 2⟩ := by
  obtain ⟨-, -, x, hx, -, -, h⟩ := C80_bicgstab { A := planeProj, b := 1, guess := some ⟨3, 2⟩, abstol := 0, reltol := 0 } rfl planeProj_psd
    (fun h => by simpa using congrArg Complex.re (LinearMap.congr_fun h 1))
    (planeProj_mem.2 (by simp)) 2 none (by simp [UnitProblem.threshold]) (by simp [planeProj_rank])
  exact ⟨x, hx, planeProj_nearest (h (by simp [UnitProblem.threshold]))⟩

example : ∃ res products, tfSolve (Vec.op planeProj) ({ A := planeProj, b := 1, abstol := 1 / 2, reltol := 0 } :
      UnitProblem ℂ).opts 2 (.fin 1) (({ A := planeProj, b := 1, abstol := 1 / 2, reltol := 0 } : UnitProblem ℂ).kw none) =
      .ok (res, products) ∧ res.converged = true := by
  obtain ⟨res, products, h, h1, -⟩ := C80_tfqmr { A := planeProj, b := 1, abstol := 1 / 2, reltol := 0 } rfl planeProj_psd
    (planeProj_mem.2 (by simp)) 2 none (by simp [UnitProblem.threshold]) (by norm_num [UnitProblem.threshold, UnitProblem.start])
    (by simp [planeProj_rank])
  exact ⟨res, products, h, h1⟩

/-- LSQR on the inconsistent system `x₁ = 1, 0 = 1` with tolerances zero finds `(1, 0)`. -/
example : ∃ res s, lsqrSolve (Vec.op planeProj) (Vec.op planeProj) 2 (.fin ⟨1, 1⟩)
      (⟨planeProj, planeProj, ⟨1, 1⟩, 2, 0, 0, 0, 0, 0, 0, false, false, 5⟩ : LsqrProblem ℂ ℂ).kw = .ok (res, s) ∧ res.x = .fin 1 := by
  obtain ⟨res, s, x, h, hx, hr, -, hm⟩ := C80_lsqr (⟨planeProj, planeProj, ⟨1, 1⟩, 2, 0, 0, 0, 0, 0, 0, false, false, 5⟩ : LsqrProblem ℂ ℂ)
    ⟨planeProj_psd.1, le_rfl, le_rfl, by decide⟩ rfl (by simp [planeProj_rank]) (by simp)
  refine ⟨res, s, h, ?_⟩
  have h1 := (hm rfl rfl le_rfl).1 1
  have hi : x.im = 0 := planeProj_mem.1 hr
  have e : ∀ z : ℂ, ‖z‖ * ‖z‖ = z.re * z.re + z.im * z.im := fun z => by
    rw [Complex.norm_mul_self_eq_normSq, Complex.normSq_apply]
  have e1 := e ((⟨1, 1⟩ : ℂ) - planeProj x)
  have e2 := e ((⟨1, 1⟩ : ℂ) - planeProj 1)
  simp only [Complex.sub_re, Complex.sub_im, planeProj_re, planeProj_im, Complex.one_re, sub_self, sub_zero] at e1 e2
  simp only at h1
  have h2 : (1 - x.re) * (1 - x.re) ≤ 0 := by
    nlinarith [norm_nonneg ((⟨1, 1⟩ : ℂ) - planeProj x), norm_nonneg ((⟨1, 1⟩ : ℂ) - planeProj 1)]
  have h3 : 1 - x.re = 0 := mul_self_eq_zero.1 (le_antisymm h2 (mul_self_nonneg _))
  rw [hx, show x = 1 from Complex.ext (by simp; linarith) (by simp [hi])]

example : ∃ res s x, lsmrSolve (Vec.op planeProj) (Vec.op planeProj) 2 2 (.fin ⟨1, 1⟩)
      (⟨planeProj, planeProj, ⟨1, 1⟩, 2, 2, 0, none, 0, 0, 0, 0, false, false, 5⟩ : LsmrProblem ℂ ℂ).kw none = .ok (res, s) ∧
      res.x = .fin x ∧ res.itn ≤ 1 ∧ MinimumNormLeastSquares planeProj ⟨1, 1⟩ x := by
  obtain ⟨res, s, x, h, hx, -, -, -, -, hi, hm⟩ := C80_lsmr
    (⟨planeProj, planeProj, ⟨1, 1⟩, 2, 2, 0, none, 0, 0, 0, 0, false, false, 5⟩ : LsmrProblem ℂ ℂ)
    ⟨planeProj_psd.1, le_rfl, by decide⟩ none rfl (fun h => by simpa using congrArg Complex.re h)
    (fun h => by simpa using planeProj_mem.1 h) (by simp [planeProj_rank])
  exact ⟨res, s, x, h, hx, by simpa [planeProj_rank] using hi, hm rfl rfl le_rfl le_rfl⟩

example (rtol : ℝ) (h : 0 ≤ rtol) : ∃ res products, minresSolve (Vec.op planeProj) (.fin (1 / 100)) 2 { residHistory := [] } (.fin 1)
      (⟨planeProj, 1, 0, false, none, rtol, 0, false, 5⟩ : MinresProblem ℂ).kw = .ok (res, products) ∧
      (res.istop = -1 ∨ res.converged = true ∧ products.length ≤ 1) := by
  have hB : (⟨planeProj, 1, 0, false, none, rtol, 0, false, 5⟩ : MinresProblem ℂ).B = planeProj := by simp [MinresProblem.B]
  obtain ⟨res, products, h1, h2⟩ := C80_minres (⟨planeProj, 1, 0, false, none, rtol, 0, false, 5⟩ : MinresProblem ℂ) planeProj_psd.1
    (1 / 100) (by norm_num) (by
      rw [hB]; intro z hz
      have : planeProj z = z := Complex.ext rfl (planeProj_mem.1 hz).symm
      rw [this]; nlinarith [norm_nonneg z]) (by simp) h (by simp) (by rw [hB]; exact planeProj_mem.2 (by simp)) 2
    (by rw [hB, planeProj_rank]; simp)
  rw [hB, planeProj_rank] at h2
  exact ⟨res, products, h1, h2.imp_right fun h => ⟨h.1, h.2.1⟩⟩

example (rtol : ℝ) (h : 0 ≤ rtol) : ∃ res products, symmlqSolve
      (⟨planeProj, 1, none, rtol, 1 / 100, 1 / 100, false, none, false⟩ : SymmlqProblem ℂ).obj 2 (.fin 1)
      (⟨planeProj, 1, none, rtol, 1 / 100, 1 / 100, false, none, false⟩ : SymmlqProblem ℂ).kw = .ok (res, products) ∧ res.nMatvec ≤ 2 := by
  have hB : (⟨planeProj, 1, none, rtol, 1 / 100, 1 / 100, false, none, false⟩ : SymmlqProblem ℂ).B = planeProj := by
    simp [SymmlqProblem.B]
  obtain ⟨res, products, x, a, h1, h2, -⟩ := C80_symmlq
    (⟨planeProj, 1, none, rtol, 1 / 100, 1 / 100, false, none, false⟩ : SymmlqProblem ℂ) 2 (by simp) (by rw [hB]; exact planeProj_psd)
    (by simp) (by rw [hB]; exact planeProj_mem.2 (by simp)) h (by norm_num) (by norm_num) (by rw [hB, planeProj_rank]; simp)
  rw [hB, planeProj_rank] at h2
  exact ⟨res, products, h1, h2⟩

end Verif.Solver
