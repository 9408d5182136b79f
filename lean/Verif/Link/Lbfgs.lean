import Verif.Lbfgs.Props
import Verif.Solver.CGExact
import Verif.Solver.KrylovConvProps
import Verif.Solver.MinresPreconProps
import Verif.Solver.LSQRPreconProps

/-!
# C67: L-BFGS operators as operators and preconditioners of the solvers

The solvers are modelled with the operator and the preconditioner as functions.  An L-BFGS operator is an object whose products
change its attributes (`alpha`, `gamma`); `C67_replay` says that the answers are those of a function all the same.
-/

namespace Verif.Link
open Verif.Lbfgs Verif.Solver
open MinresMath (krylov)
open scoped RealInnerProductSpace

section any
variable {S V : Type} [Scalar S] [Vect S V]

/-- the answers of an L-BFGS operator to a sequence of products, each of which may change its attributes -/
def answers (cls : Class) (solve : LinSolve S) : LB S V → List V → List (Option V)
  | _, [] => []
  | st, v :: vs => (st.matvec cls solve v).1 :: answers cls solve (st.matvec cls solve v).2 vs

theorem run_snoc (cls : Class) (solve : LinSolve S) (st : LB S V) (cmds : List (Cmd S V)) (v : V) :
    ((st.run cls solve cmds).matvec cls solve v).2 = st.run cls solve (cmds ++ [.product v]) := by
  simp [LB.run, LB.exec]

theorem history_snoc (cmds : List (Cmd S V)) (v : V) : ∀ acc, history acc (cmds ++ [.product v]) = history acc cmds := by
  induction cmds with
  | nil => intro acc; rfl
  | cons c cmds ih => intro acc; cases c <;> exact ih _

/-- **C67, products do not disturb.** After any history, in any arithmetic, the answers of an L-BFGS operator to any sequence of
products are those it gives to each of them alone: a solver that uses the operator sees a function. -/
theorem C67_replay (cls : Class) (solve : LinSolve S) (npairs : Nat) (hn : 0 < npairs) (scaling : Bool) (junk : Junk S V)
    (cmds : List (Cmd S V)) (vs : List V) :
    answers cls solve ((LB.init npairs scaling junk).run cls solve cmds) vs =
      vs.map fun v => (((LB.init npairs scaling junk).run cls solve cmds).matvec cls solve v).1 := by
  induction vs generalizing cmds with
  | nil => rfl
  | cons v vs ih =>
    simp only [answers, List.map_cons]
    rw [run_snoc, ih]
    congr 1
    refine List.map_congr_left fun w _ => ?_
    rw [matvec_eq cls solve npairs hn, matvec_eq cls solve npairs hn]
    unfold recent
    rw [history_snoc]

end any

variable {E : Type} [NormedAddCommGroup E] [InnerProductSpace ℝ E]

/-- a product with an L-BFGS operator, as the solvers use it (`op * v`, `precon * v`); one that raises counts as not finite -/
noncomputable def lbOp (cls : Class) (solve : LinSolve Fl) (st : LB Fl (Vec E)) (v : Vec E) : Vec E :=
  match (st.matvec cls solve v).1 with
  | some w => w
  | none => .nan

/-! ### Vectors that are not finite -/

theorem twoLoop_nan (f : Vec E → Vec E) (hf : f .nan = .nan) (L : List (Vec E × Vec E × Fl)) : twoLoop f L .nan = .nan := by
  induction L with
  | nil => exact hf
  | cons p L ih => simp [twoLoop, ih]

theorem fwdList_nan (L : List (Vec E × Vec E × Fl)) : ∀ acc, (L.foldl (fwdList .nan) (.nan, acc)).1 = .nan := by
  induction L with
  | nil => intro acc; rfl
  | cons p L ih => intro acc; simp only [List.foldl_cons, fwdList, Vec.nan_add, Vec.nan_sub]; exact ih _

theorem cOut_nan (l : List (Vec E × Vec E × Fl)) (gamma : Fl) (b : Nat → Fl) : cOut l gamma b .nan = .nan := by
  unfold cOut
  generalize List.range l.length = ks
  induction ks with
  | nil => rfl
  | cons k ks ih => simp only [List.foldl_cons, Vec.nan_sub]; exact ih

theorem scaleBy_nan (scaling : Bool) (f : Fl → Vec E → Vec E) (hf : ∀ g, f g .nan = .nan) (L : List (Vec E × Vec E × Fl)) :
    scaleBy scaling f L .nan = .nan := by
  cases L with
  | nil => rfl
  | cons p L => simp only [scaleBy]; split <;> simp [hf]

theorem lbOp_nan (cls : Class) (solve : LinSolve Fl) (npairs : Nat) (hn : 0 < npairs) (scaling : Bool) (junk : Junk Fl (Vec E))
    (cmds : List (Cmd Fl (Vec E))) : lbOp cls solve ((LB.init npairs scaling junk).run cls solve cmds) .nan = .nan := by
  unfold lbOp
  rw [matvec_eq cls solve npairs hn]
  generalize (recent npairs cmds).map withYs = L
  cases cls with
  | inverse => simp only [productOf]; exact twoLoop_nan _ (scaleBy_nan _ _ (fun g => Vec.smul_nan g) L) L
  | forward => simp only [productOf]; exact fwdList_nan _ _
  | compact =>
    simp only [productOf, compactList]
    rw [scaleBy_nan _ _ (fun g => Vec.nan_vdiv g) L]
    cases L with
    | nil => rfl
    | cons p L =>
      simp only
      generalize solve _ _ _ = o
      cases o with
      | none => rfl
      | some b => simp only [Option.map_some]; exact cOut_nan _ _ _

variable {npairs : Nat} {cmds : List (Cmd Fl (Vec E))} {P : List (E × E)}

theorem lbOp_inverse (solve : LinSolve Fl) (hn : 0 < npairs) (scaling : Bool) (junk : Junk Fl (Vec E))
    (hP : recent npairs cmds = P.map fun p => (Vec.fin p.1, Vec.fin p.2)) :
    lbOp .inverse solve ((LB.init npairs scaling junk).run .inverse solve cmds) = Vec.op (invMat (scaleFactor scaling P) P) := by
  funext v
  cases v with
  | nan => exact lbOp_nan _ _ _ hn _ _ _
  | fin v => unfold lbOp; rw [(C22_inverse_bfgs solve npairs hn scaling junk cmds P hP).1 v]; rfl

theorem lbOp_forward (solve : LinSolve Fl) (hn : 0 < npairs) (scaling : Bool) (junk : Junk Fl (Vec E))
    (hP : recent npairs cmds = P.map fun p => (Vec.fin p.1, Vec.fin p.2)) :
    lbOp .forward solve ((LB.init npairs scaling junk).run .forward solve cmds) = Vec.op (fwdMat 1 P) := by
  funext v
  cases v with
  | nan => exact lbOp_nan _ _ _ hn _ _ _
  | fin v => unfold lbOp; rw [(C23_forward_bfgs_partial solve npairs hn scaling junk junk cmds P hP).1 v]; rfl

theorem lbOp_compact (solve : LinSolve Fl) (hs : SolveSpec solve) (hn : 0 < npairs) (scaling : Bool) (junk : Junk Fl (Vec E))
    (hP : recent npairs cmds = P.map fun p => (Vec.fin p.1, Vec.fin p.2)) :
    lbOp .compact solve ((LB.init npairs scaling junk).run .compact solve cmds) = Vec.op (fwdMat (scaleFactor scaling P) P) := by
  funext v
  cases v with
  | nan => exact lbOp_nan _ _ _ hn _ _ _
  | fin v => unfold lbOp; rw [(C24_compact_bfgs solve hs npairs hn scaling junk junk cmds P hP).1 v]; rfl

/-- **C67, a legitimate preconditioner.** After any history with finite remembered pairs, an inverse L-BFGS operator is the
kind of preconditioner the theorems about preconditioned solvers ask for: a symmetric positive definite linear map. -/
theorem C67_precon (solve : LinSolve Fl) (hn : 0 < npairs) (scaling : Bool) (junk : Junk Fl (Vec E))
    (hP : recent npairs cmds = P.map fun p => (Vec.fin p.1, Vec.fin p.2)) :
    ∃ M : E →ₗ[ℝ] E, Spd M ∧
      PreconIs M (some (lbOp .inverse solve ((LB.init npairs scaling junk).run .inverse solve cmds))) ∧
      (∀ v, (((LB.init npairs scaling junk).run .inverse solve cmds).matvec .inverse solve (.fin v)).1 = some (.fin (M v))) ∧
      ∀ s y older, P = (s, y) :: older → M y = s := by
  obtain ⟨h1, h2, h3, h4⟩ := C22_inverse_bfgs solve npairs hn scaling junk cmds P hP
  refine ⟨_, ⟨h2, h3⟩, ?_, h1, h4⟩
  rw [lbOp_inverse solve hn scaling junk hP]
  exact PreconIs.some

/-- **C67, CG on a compact L-BFGS operator.** In exact arithmetic and with zero tolerances, CG given a compact L-BFGS operator and
the right-hand side `b` returns, within as many products as unknowns, what one product of the inverse L-BFGS operator with the same
history and scaling gives; and the answers of the operator during the solve are those CG worked with. -/
theorem C67_cg_compact [FiniteDimensional ℝ E] (solve : LinSolve Fl) (hs : SolveSpec solve) (hn : 0 < npairs) (scaling : Bool)
    (junk junk' : Junk Fl (Vec E)) (hP : recent npairs cmds = P.map fun p => (Vec.fin p.1, Vec.fin p.2)) (b : E)
    (self : CGObj Fl (Vec E)) (kw : CGKw (Vec E)) (hk : kw.Runs) (guess : Option E) (hg : kw.guess = guess.map Vec.fin)
    (hm : ∀ m, kw.matvecMax = some m → Module.finrank ℝ E + (if guess.isSome then 1 else 0) ≤ m) :
    let cmp := (LB.init npairs scaling junk).run .compact solve cmds
    let inv := (LB.init npairs scaling junk').run .inverse solve cmds
    let out := cgSolve (lbOp .compact solve cmp) { abstol := .fin 0, reltol := .fin 0 } (Module.finrank ℝ E) self (.fin b) kw
    out.1.converged = true ∧ out.1.nMatvec ≤ Module.finrank ℝ E + (if guess.isSome then 1 else 0) ∧
    out.1.x = (inv.matvec .inverse solve (.fin b)).1 ∧
    answers .compact solve cmp out.2 = out.2.map fun v => (cmp.matvec .compact solve v).1 := by
  intro cmp inv out
  have hc : Curv P := recent_curv hP
  have hγ := scaleFactor_pos scaling hc
  have hop : lbOp .compact solve cmp = Vec.op (fwdMat (scaleFactor scaling P) P) := lbOp_compact solve hs hn scaling junk hP
  have hT := C28_terminates_partial
    { A := fwdMat (scaleFactor scaling P) P, b := b, guess := guess, abstol := 0, reltol := 0 } (fwdMat_spd hγ hc) self kw hk hg le_rfl
    (by rw [hg, Option.isSome_map]; exact hm)
  simp only [hg, CGProblem.opts, Option.isSome_map] at hT
  rw [← hop] at hT
  obtain ⟨h1, h2, ⟨x, h3, -, h4⟩, -⟩ := hT
  refine ⟨h1, h2, ?_, C67_replay .compact solve npairs hn scaling junk cmds out.2⟩
  rw [show out.1.x = some (.fin x) from h3, (C22_inverse_bfgs solve npairs hn scaling junk' cmds P hP).1 b, ← h4 trivial trivial,
    inv_fwd hγ hc]

/-- **C67, CG on a forward L-BFGS operator.** The same for the forward operator, with the inverse operator without scaling (the
forward operator ignores that option, see C23). -/
theorem C67_cg_forward [FiniteDimensional ℝ E] (solve : LinSolve Fl) (hn : 0 < npairs) (scaling : Bool)
    (junk junk' : Junk Fl (Vec E)) (hP : recent npairs cmds = P.map fun p => (Vec.fin p.1, Vec.fin p.2)) (b : E)
    (self : CGObj Fl (Vec E)) (kw : CGKw (Vec E)) (hk : kw.Runs) (guess : Option E) (hg : kw.guess = guess.map Vec.fin)
    (hm : ∀ m, kw.matvecMax = some m → Module.finrank ℝ E + (if guess.isSome then 1 else 0) ≤ m) :
    let fwd := (LB.init npairs scaling junk).run .forward solve cmds
    let inv := (LB.init npairs false junk').run .inverse solve cmds
    let out := cgSolve (lbOp .forward solve fwd) { abstol := .fin 0, reltol := .fin 0 } (Module.finrank ℝ E) self (.fin b) kw
    out.1.converged = true ∧ out.1.nMatvec ≤ Module.finrank ℝ E + (if guess.isSome then 1 else 0) ∧
    out.1.x = (inv.matvec .inverse solve (.fin b)).1 ∧
    answers .forward solve fwd out.2 = out.2.map fun v => (fwd.matvec .forward solve v).1 := by
  intro fwd inv out
  have hc : Curv P := recent_curv hP
  have hop : lbOp .forward solve fwd = Vec.op (fwdMat 1 P) := lbOp_forward solve hn scaling junk hP
  have hT := C28_terminates_partial
    { A := fwdMat 1 P, b := b, guess := guess, abstol := 0, reltol := 0 } (fwdMat_spd one_pos hc) self kw hk hg le_rfl
    (by rw [hg, Option.isSome_map]; exact hm)
  simp only [hg, CGProblem.opts, Option.isSome_map] at hT
  rw [← hop] at hT
  obtain ⟨h1, h2, ⟨x, h3, -, h4⟩, -⟩ := hT
  have hsc : scaleFactor false P = 1 := by cases P <;> simp [scaleFactor]
  refine ⟨h1, h2, ?_, C67_replay .forward solve npairs hn scaling junk cmds out.2⟩
  rw [show out.1.x = some (.fin x) from h3, (C22_inverse_bfgs solve npairs hn false junk' cmds P hP).1 b, ← h4 trivial trivial,
    hsc, inv_fwd one_pos hc]

/-- **C67, MINRES preconditioned with an inverse L-BFGS operator.** Whatever the history of the preconditioner, with `M` the matrix
of its products: if `A` is symmetric and `(A - shift I) M` has no singular value below the machine precision in the `M`-norm, then
the solve converges within the dimension (or stops with code -1), and the returned `x`, if finite, has the smallest residual norm
in the Krylov space of `M (A - shift I)` and `M b`. -/
theorem C67_minres [FiniteDimensional ℝ E] (solve : LinSolve Fl) (hn : 0 < npairs) (scaling : Bool) (junk : Junk Fl (Vec E))
    (hP : recent npairs cmds = P.map fun p => (Vec.fin p.1, Vec.fin p.2)) :
    let inv := (LB.init npairs scaling junk).run .inverse solve cmds
    ∃ M : E →ₗ[ℝ] E, Spd M ∧ (∀ v, (inv.matvec .inverse solve (.fin v)).1 = some (.fin (M v))) ∧
    ∀ (q : MinresProblem E), (∀ u v, ⟪q.A u, v⟫ = ⟪u, q.A v⟫) → ∀ ε : ℝ, 0 < ε →
      (∀ z, ε * pnorm M z ≤ pnorm M (q.A (M z) - q.shift • M z)) → q.window ≠ 0 → 0 ≤ q.rtol → q.b ≠ 0 →
      (∀ m, q.itnlim = some m → Module.finrank ℝ E ≤ m) → ∀ self : MinresObj Fl (Vec E),
      ∃ res products,
        minresSolve (Vec.op q.A) (.fin ε) (Module.finrank ℝ E) self (.fin q.b)
          { q.kw with precon := some (lbOp .inverse solve inv) } = .ok (res, products) ∧
        (res.istop = -1 ∨ res.converged = true ∧ products.length ≤ Module.finrank ℝ E) ∧
        ∀ x, res.x = .fin x →
          x ∈ krylov (M ∘ₗ (q.A - q.shift • LinearMap.id)) (M q.b) products.length ∧
          ∀ z ∈ krylov (M ∘ₗ (q.A - q.shift • LinearMap.id)) (M q.b) products.length,
            pnorm M (q.b - (q.A x - q.shift • x)) ≤ pnorm M (q.b - (q.A z - q.shift • z)) := by
  intro inv
  obtain ⟨h1, h2, h3, -⟩ := C22_inverse_bfgs solve npairs hn scaling junk cmds P hP
  refine ⟨_, ⟨h2, h3⟩, h1, fun q hA ε hε hlow hw hrt hb hlim self => ?_⟩
  obtain ⟨res, products, e1, e2⟩ := C34_preconditioned_partial q hA _ ⟨h2, h3⟩ ε hε hlow hw hrt hb hlim self
  obtain ⟨res', products', e3, -, e4⟩ := C35_preconditioned_partial q hA _ ⟨h2, h3⟩ ε hε hlow hw (Module.finrank ℝ E) self
  rw [e1] at e3
  cases e3
  rw [show lbOp .inverse solve inv = _ from lbOp_inverse solve hn scaling junk hP]
  refine ⟨res, products, e1, e2, fun x hx => ?_⟩
  obtain ⟨xs, f1, f2, -, -, -, -, f3⟩ := e4 x hx
  refine f3 products.length x ?_
  rw [← f2, List.getLast?_eq_getElem?]
  simp [f1]

variable {F : Type} [NormedAddCommGroup F] [InnerProductSpace ℝ F]

/-- **C67, LSQR preconditioned with two inverse L-BFGS operators.** Whatever their histories, LSQR reports success and, with zero
tolerances, the returned `x = N y` solves `A'M(b - Ax) = damp^2 y`. -/
theorem C67_lsqr [FiniteDimensional ℝ E] (solve : LinSolve Fl) (hn : 0 < npairs) (scaling : Bool) (junk : Junk Fl (Vec E))
    (hP : recent npairs cmds = P.map fun p => (Vec.fin p.1, Vec.fin p.2)) {npairs' : Nat} (hn' : 0 < npairs') (scaling' : Bool)
    (junk' : Junk Fl (Vec F)) {cmds' : List (Cmd Fl (Vec F))} {P' : List (F × F)}
    (hP' : recent npairs' cmds' = P'.map fun p => (Vec.fin p.1, Vec.fin p.2)) :
    let invN := (LB.init npairs scaling junk).run .inverse solve cmds
    let invM := (LB.init npairs' scaling' junk').run .inverse solve cmds'
    ∃ (N : E →ₗ[ℝ] E) (M : F →ₗ[ℝ] F), (∀ v, (invN.matvec .inverse solve (.fin v)).1 = some (.fin (N v))) ∧
    (∀ v, (invM.matvec .inverse solve (.fin v)).1 = some (.fin (M v))) ∧
    ∀ (q : LsqrProblem E F), q.Valid → ((Module.finrank ℝ E : ℤ) ≤ if q.itnlim = 0 then 3 * (q.n : ℤ) else q.itnlim) →
      (2 ≤ if q.itnlim = 0 then 3 * (q.n : ℤ) else q.itnlim) → q.B (M q.b) ≠ 0 →
      ∃ res s, lsqrSolve (Vec.op q.A) (Vec.op q.B) q.n (.fin q.b)
          { q.kw with M := some (lbOp .inverse solve invM), N := some (lbOp .inverse solve invN) } = .ok (res, s) ∧
        res.optimal = true ∧
        (q.atol = 0 → q.btol = 0 → q.etol ≤ 0 →
          ∃ y, res.x = .fin (N y) ∧ q.B (M (q.b - q.A (N y))) - (q.damp * q.damp) • y = 0) := by
  intro invN invM
  obtain ⟨N, h1, h2, h3, -⟩ := C67_precon solve hn scaling junk hP
  obtain ⟨M, g1, g2, g3, -⟩ := C67_precon solve hn' scaling' junk' hP'
  exact ⟨N, M, h3, g3, fun q hq hl hl2 hb => C37_preconditioned_converges q hq hl hl2 N h1 M g1 hb _ _ g2 h2⟩

/-! ### Pairs of conjugate directions -/

theorem invMat_conj {γ : ℝ} (P : List (E × E)) (hc : Curv P)
    (hj : P.Pairwise fun p q => ⟪p.1, q.2⟫ = 0 ∧ ⟪p.2, q.1⟫ = 0) : ∀ p ∈ P, invMat γ P p.2 = p.1 := by
  induction P with
  | nil => simp
  | cons p P ih =>
    rw [List.pairwise_cons] at hj
    intro r hr
    rcases List.mem_cons.1 hr with rfl | hr
    · exact bfgsInv_secant _ (hc _ List.mem_cons_self)
    · obtain ⟨h1, h2⟩ := hj.1 r hr
      have := ih (fun q hq => hc q (List.mem_cons_of_mem _ hq)) hj.2 r hr
      simp only [invMat]
      rw [bfgsInv_apply, h1, zero_div, zero_smul, sub_zero, this, h2]
      simp

/-- **C67, conjugate steps.** If the remembered pairs are `(s_j, A s_j)` with a symmetric `A` and mutually conjugate steps
(`s_i' A s_j = 0`), the inverse operator answers every remembered `y_j` with `s_j`, not only the last one; and on all combinations of
the `y_j` it is the inverse of `A`: if `b = A x` and `x` is a combination of the steps, one product with `b` gives `x`. -/
theorem C67_conjugate (solve : LinSolve Fl) (hn : 0 < npairs) (scaling : Bool) (junk : Junk Fl (Vec E))
    (hP : recent npairs cmds = P.map fun p => (Vec.fin p.1, Vec.fin p.2)) (A : E →ₗ[ℝ] E)
    (hA : ∀ u v, ⟪A u, v⟫ = ⟪u, A v⟫) (hy : ∀ p ∈ P, p.2 = A p.1) (hj : P.Pairwise fun p q => ⟪p.1, A q.1⟫ = 0)
    (x : E) (hx : x ∈ Submodule.span ℝ {s | ∃ p ∈ P, p.1 = s}) :
    (((LB.init npairs scaling junk).run .inverse solve cmds).matvec .inverse solve (.fin (A x))).1 = some (.fin x) := by
  rw [(C22_inverse_bfgs solve npairs hn scaling junk cmds P hP).1]
  congr 2
  have hH := invMat_conj (γ := scaleFactor scaling P) P (recent_curv hP) (by
    refine hj.imp_of_mem fun {p q} hp hq h => ⟨by rw [hy q hq]; exact h, by rw [hy p hp, hA]; exact h⟩)
  induction hx using Submodule.span_induction with
  | mem s hs => obtain ⟨p, hp, rfl⟩ := hs; rw [← hy p hp]; exact hH p hp
  | zero => simp
  | add u v _ _ h1 h2 => rw [map_add, map_add, h1, h2]
  | smul c u _ h1 => rw [map_smul, map_smul, h1]

theorem cg_steps [FiniteDimensional ℝ E] (q : CGProblem E) (hA : CGMath.SPD q.A) (hat : 0 ≤ q.abstol) (self : CGObj Fl (Vec E))
    (kw : CGKw (Vec E)) (hk : kw.Runs) (hg : kw.guess = q.guess.map Vec.fin) (hst : kw.storeIterates = true) :
    ∃ k : ℕ,
      let xs := CGMath.xs q.A q.it0
      let res := (cgSolve (Vec.op q.A) q.opts (Module.finrank ℝ E) self (.fin q.b) kw).1
      (∀ j < k, CGMath.rs q.A q.it0 j ≠ 0) ∧
      res.iterates = self.iterates ++ (List.range (k + 1)).map (fun j => Vec.fin (xs j)) ∧
      xs 0 = q.guess.getD 0 ∧ res.x = some (.fin (xs k)) ∧ res.nMatvec = k + (if q.guess.isSome then 1 else 0) ∧
      ∀ i j, i < j → j < k → ⟪xs (j + 1) - xs j, q.A (xs (i + 1) - xs i)⟫ = 0 := by
  obtain ⟨k, hs, hkn, hc, -⟩ := cgSolve_atIter q hA hat (kw.matvecMax.getD (2 * Module.finrank ℝ E)) (confined_of_finrank le_rfl) self kw hg
  have ht : (cgInit (Vec.op q.A) q.opts kw self (.fin q.b)).2 = .fin q.threshold := (cgInit_exact q kw self hg).2.2.2.2.2.2.2.2.2.2
  refine ⟨k, ?_⟩
  simp only
  rw [cgSolve_eq hk]
  simp only [ht]
  refine ⟨hs.ne, hs.its hst, rfl, by rw [hs.x], ?_, fun i j hij hjk => ?_⟩
  · rw [hs.nm]
    have : kw.guessCost = if kw.guess.isSome then 1 else 0 := rfl
    rw [this, hg, Option.isSome_map, add_comm]
  · have ho := (CGMath.orth hA (s0 := q.it0) rfl k hs.ne).pp i j hij hjk.le
    rw [CGMath.xs_succ, CGMath.xs_succ, add_sub_cancel_left, add_sub_cancel_left, map_smul, real_inner_smul_left,
      real_inner_smul_right, ho]
    simp

/-- **C67, steps of CG.** In exact arithmetic, the steps between consecutive iterates that CG stores (no preconditioner, `A`
symmetric positive definite, any budget) are mutually conjugate; the first iterate is the starting point, the last is the
returned `x`. -/
theorem C67_cg_steps [FiniteDimensional ℝ E] (q : CGProblem E) (hA : CGMath.SPD q.A) (hat : 0 ≤ q.abstol) (self : CGObj Fl (Vec E))
    (kw : CGKw (Vec E)) (hk : kw.Runs) (hg : kw.guess = q.guess.map Vec.fin) (hst : kw.storeIterates = true) :
    ∃ (k : ℕ) (xs : ℕ → E),
      let res := (cgSolve (Vec.op q.A) q.opts (Module.finrank ℝ E) self (.fin q.b) kw).1
      res.iterates = self.iterates ++ (List.range (k + 1)).map (fun j => Vec.fin (xs j)) ∧
      xs 0 = q.guess.getD 0 ∧ res.x = some (.fin (xs k)) ∧ res.nMatvec = k + (if q.guess.isSome then 1 else 0) ∧
      ∀ i j, i < j → j < k → ⟪xs (j + 1) - xs j, q.A (xs (i + 1) - xs i)⟫ = 0 := by
  obtain ⟨k, -, h⟩ := cg_steps q hA hat self kw hk hg hst
  exact ⟨k, _, h⟩

/-- what a client does with stored iterates: `for u, v in zip(its[:-1], its[1:]): H.store(v - u, A * (v - u))` -/
noncomputable def storeSteps (A : Vec E → Vec E) (its : List (Vec E)) : List (Cmd Fl (Vec E)) :=
  (its.zip its.tail).map fun p => .store (p.2 - p.1) (A (p.2 - p.1))

theorem zip_range_tail {α : Type} (f : ℕ → α) (k : ℕ) :
    ((List.range (k + 1)).map f).zip ((List.range (k + 1)).map f).tail = (List.range k).map fun j => (f j, f (j + 1)) := by
  apply List.ext_getElem
  · simp
  · intro i h1 h2
    simp

/-- **C67, a preconditioner from a solve.** `cg.solve(b, store_iterates=True)` on a symmetric positive definite `A`, then
the steps between the iterates are stored, with their images under `A`, in a new inverse L-BFGS operator whose memory is at least
the number of products made.  If none of the pairs is rejected, one product of this operator with `A x` is the `x` that CG
returned; if the tolerances are zero and the budget at least the number of unknowns, one product with `b` is the solution. -/
theorem C67_from_cg [FiniteDimensional ℝ E] (q : CGProblem E) (hA : CGMath.SPD q.A) (hat : 0 ≤ q.abstol) (hq : q.guess = none)
    (self : CGObj Fl (Vec E)) (hi : self.iterates = []) (kw : CGKw (Vec E)) (hk : kw.Runs) (hg : kw.guess = none)
    (hst : kw.storeIterates = true) (solve : LinSolve Fl) (hn : 0 < npairs) (scaling : Bool) (junk : Junk Fl (Vec E)) :
    let res := (cgSolve (Vec.op q.A) q.opts (Module.finrank ℝ E) self (.fin q.b) kw).1
    let pairs := storeSteps (Vec.op q.A) res.iterates
    let H := (LB.init npairs scaling junk).run .inverse solve pairs
    res.nMatvec ≤ npairs → (∀ s y, Cmd.store s y ∈ pairs → accepted (S := Fl) s y = true) →
    (∃ x, res.x = some (.fin x) ∧ (H.matvec .inverse solve (.fin (q.A x))).1 = some (.fin x)) ∧
    (q.abstol = 0 → q.reltol = 0 → (∀ m, kw.matvecMax = some m → Module.finrank ℝ E ≤ m) →
      ∃ x, q.A x = q.b ∧ (H.matvec .inverse solve (.fin q.b)).1 = some (.fin x)) := by
  intro res pairs H hlen hacc
  have hg' : kw.guess = q.guess.map Vec.fin := by rw [hg, hq]; rfl
  obtain ⟨k, xs, h1, h2, h3, h4, h5⟩ := C67_cg_steps q hA hat self kw hk hg' hst
  change res.iterates = _ at h1
  change res.x = _ at h3
  change res.nMatvec = _ at h4
  rw [hi, List.nil_append] at h1
  rw [hq] at h2 h4
  simp only [Option.getD_none] at h2
  simp only [Option.isSome_none, Bool.false_eq_true, if_false, add_zero] at h4
  set S : ℕ → E := fun j => xs (j + 1) - xs j with hS
  let P : List (E × E) := ((List.range k).map fun j => (S j, q.A (S j))).reverse
  have hpairs : pairs = (List.range k).map fun j => Cmd.store (Vec.fin (S j)) (Vec.fin (q.A (S j))) := by
    change storeSteps _ res.iterates = _
    rw [h1]
    unfold storeSteps
    rw [zip_range_tail, List.map_map]
    exact List.map_congr_left fun j _ => by simp [hS]
  have hrec : recent npairs pairs = P.map fun p => (Vec.fin p.1, Vec.fin p.2) := by
    have e : pairs = (P.map fun p => (Vec.fin p.1, Vec.fin p.2)).reverse.map fun p => Cmd.store p.1 p.2 := by
      rw [hpairs]; simp [P, List.map_reverse, Function.comp_def]
    unfold recent
    rw [e, history_stores _ (fun p hp => hacc p.1 p.2 (by
      rw [e]; exact List.mem_map.2 ⟨p, List.mem_reverse.2 hp, rfl⟩)), List.append_nil]
    exact List.take_of_length_le (by simp [P]; omega)
  have hspan : ∀ m, m ≤ k → xs m ∈ Submodule.span ℝ {s | ∃ p ∈ P, p.1 = s} := by
    intro m
    induction m with
    | zero => intro _; rw [h2]; exact Submodule.zero_mem _
    | succ m ih =>
      intro hm
      have hx : xs (m + 1) = xs m + S m := by simp [hS]
      rw [hx]
      refine Submodule.add_mem _ (ih (by omega)) (Submodule.subset_span ⟨(S m, q.A (S m)), ?_, rfl⟩)
      simp only [P, List.mem_reverse, List.mem_map, List.mem_range]
      exact ⟨m, by omega, rfl⟩
  have key := C67_conjugate solve hn scaling junk hrec q.A hA.symm (by
      intro p hp
      simp only [P, List.mem_reverse, List.mem_map, List.mem_range] at hp
      obtain ⟨j, -, rfl⟩ := hp
      rfl) (by
      simp only [P]
      rw [List.pairwise_reverse, List.pairwise_map]
      refine List.Pairwise.imp_of_mem (fun {i j} hi hj hij => ?_) List.pairwise_lt_range
      rw [List.mem_range] at hi hj
      exact h5 i j hij hj) (xs k) (hspan k le_rfl)
  refine ⟨⟨xs k, h3, key⟩, fun ha hr hm => ⟨xs k, ?_, ?_⟩⟩
  all_goals
    obtain ⟨-, -, ⟨x, e1, -, e2⟩, -⟩ := C28_terminates_partial q hA self kw hk hg' hat (by rw [hg]; simpa using hm)
    have e3 : some (Vec.fin x) = some (Vec.fin (xs k)) := e1.symm.trans h3
    cases e3
    have e4 := e2 ha hr
  · exact e4
  · rw [← e4]; exact key

/-! ### Concrete cases -/

/-- the plane with the identity: CG makes one step, `s = y = 1`, which is accepted -/
noncomputable def idProblem : CGProblem ℂ := { A := LinearMap.id, b := 1, guess := none, abstol := 0, reltol := 0 }

theorem idProblem_spd : CGMath.SPD idProblem.A :=
  ⟨fun _ _ => rfl, fun u hu => by
    simp only [idProblem, LinearMap.id_apply]
    rw [real_inner_self_eq_norm_mul_norm]; exact mul_self_pos.2 (norm_ne_zero_iff.2 hu)⟩

theorem idProblem_steps (kw : CGKw (Vec ℂ)) (hk : kw.Runs) (hg : kw.guess = none) (hst : kw.storeIterates = true) :
    let res := (cgSolve (Vec.op idProblem.A) idProblem.opts (Module.finrank ℝ ℂ) {} (.fin idProblem.b) kw).1
    res.nMatvec ≤ 1 ∧ ∀ s y, Cmd.store s y ∈ storeSteps (Vec.op idProblem.A) res.iterates → accepted (S := Fl) s y = true := by
  obtain ⟨k, h0, h1, h2, h3, h4, h5⟩ := cg_steps idProblem idProblem_spd le_rfl {} kw hk (by rw [hg]; rfl) hst
  intro res
  have ha : CGMath.al idProblem.A idProblem.it0 0 = 1 := by
    simp [CGMath.al, CGMath.rs, CGMath.ps, CGMath.seq, CGProblem.it0, idProblem, startPoint]
  have hr : CGMath.rs idProblem.A idProblem.it0 1 = 0 := by
    rw [CGMath.rs_succ, ha]
    simp [CGMath.rs, CGMath.ps, CGMath.seq, CGProblem.it0, idProblem, startPoint]
  have hx : CGMath.xs idProblem.A idProblem.it0 1 - CGMath.xs idProblem.A idProblem.it0 0 = 1 := by
    rw [CGMath.xs_succ, ha]
    simp [CGMath.xs, CGMath.ps, CGMath.seq, CGProblem.it0, idProblem, startPoint]
  have hk1 : k ≤ 1 := by
    by_contra hlt
    exact h0 1 (by omega) hr
  refine ⟨by change res.nMatvec = _ at h4; rw [h4]; simpa [idProblem] using hk1, fun s y hm => ?_⟩
  change res.iterates = _ at h1
  rw [h1] at hm
  change _ ∈ List.map _ _ at hm
  rw [show (({} : CGObj Fl (Vec ℂ)).iterates) = [] from rfl, List.nil_append, zip_range_tail, List.map_map] at hm
  obtain ⟨j, hj, e⟩ := List.mem_map.1 hm
  rw [List.mem_range] at hj
  obtain rfl : j = 0 := by omega
  simp only [Function.comp, zero_add, Vec.fin_sub, hx, Vec.op_fin, Cmd.store.injEq] at e
  obtain ⟨rfl, rfl⟩ := e
  have : Scalar.le (Fl.fin 1) (Fl.fin (10 ^ 20)⁻¹) = false := by
    rw [← Bool.not_eq_true, Fl.fin_le]; norm_num
  simpa [accepted, idProblem] using this

example (solve : LinSolve Fl) (junk : Junk Fl (Vec ℂ)) :=
  C67_from_cg idProblem idProblem_spd le_rfl rfl {} rfl { storeIterates := true } rfl rfl rfl solve (by norm_num : 0 < 3) true junk
    ((idProblem_steps { storeIterates := true } rfl rfl rfl).1.trans (by norm_num)) (idProblem_steps { storeIterates := true } rfl rfl rfl).2

example (solve : LinSolve Fl) (hs : SolveSpec solve) (junk junk' : Junk Fl (Vec ℂ)) (b : ℂ) :=
  C67_cg_compact solve hs (by norm_num : 0 < 5) true junk junk' (exCmds_recent 5 (by norm_num)) b {} {} rfl none rfl (by simp)

example (solve : LinSolve Fl) (junk junk' : Junk Fl (Vec ℂ)) (b : ℂ) :=
  C67_cg_forward solve (by norm_num : 0 < 5) true junk junk' (exCmds_recent 5 (by norm_num)) b {} {} rfl none rfl (by simp)

end Verif.Link
