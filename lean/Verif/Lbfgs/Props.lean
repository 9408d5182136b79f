import Verif.Lbfgs.CompactExact
import Mathlib.Analysis.Complex.Basic
import Mathlib.Tactic.NormNum

/-!
# Properties C21-C25 of the L-BFGS operators

Specifications: `recent`, `accepted` (`Verif.Lbfgs.Spec`) and `invMat`, `fwdMat`, `scaleFactor` (`Verif.Lbfgs.BFGS`).
-/

namespace Verif.Lbfgs
open Verif.Solver Scalar Vect
open scoped RealInnerProductSpace
open Verif.Solver.CGMath (SPD)

section memory
variable {S V : Type} [Scalar S] [Vect S V]

theorem history_stores (h : List (V × V)) (hacc : ∀ p ∈ h, accepted (S := S) p.1 p.2 = true) : ∀ acc,
    history (S := S) acc (h.reverse.map fun p => Cmd.store p.1 p.2) = h ++ acc := by
  have key : ∀ (l : List (V × V)), (∀ p ∈ l, accepted (S := S) p.1 p.2 = true) → ∀ acc,
      history (S := S) acc (l.map fun p => Cmd.store p.1 p.2) = l.reverse ++ acc := by
    intro l
    induction l with
    | nil => intro _ acc; rfl
    | cons p l ih =>
      intro hl acc
      simp only [List.map_cons, history, hl p List.mem_cons_self, if_true]
      rw [ih (fun q hq => hl q (List.mem_cons_of_mem _ hq))]
      simp
  intro acc
  rw [key _ (fun p hp => hacc p (List.mem_reverse.1 hp)), List.reverse_reverse]

theorem history_recent (n : Nat) (cmds : List (Cmd S V)) :
    recent n ((recent n cmds).reverse.map fun p => Cmd.store (S := S) p.1 p.2) = recent n cmds := by
  unfold recent
  rw [history_stores _ (fun p hp => history_accepted cmds [] (by simp) p (List.mem_of_mem_take hp)), List.append_nil,
    List.take_take, Nat.min_self]

/-- the product as a function of the remembered pairs -/
def productOf (cls : Class) (solve : LinSolve S) (scaling : Bool) (L : List (V × V × S)) (v : V) : Option V :=
  match cls with
  | .inverse => some (twoLoop (scaleBy scaling (fun g q => smul g q) L) L v)
  | .forward => some (L.reverse.foldl (fwdList v) (v, [])).1
  | .compact => compactList solve scaling L v

theorem matvec_eq (cls : Class) (solve : LinSolve S) (npairs : Nat) (hn : 0 < npairs) (scaling : Bool) (junk : Junk S V)
    (cmds : List (Cmd S V)) (v : V) :
    (((LB.init npairs scaling junk).run cls solve cmds).matvec cls solve v).1 =
      productOf cls solve scaling ((recent npairs cmds).map withYs) v := by
  obtain ⟨h1, h2, h3⟩ := rep_run cls solve cmds (LB.init npairs scaling junk) []
    (by rw [List.take_nil, List.map_nil]; exact rep_init npairs scaling junk hn)
  have h3' : ((LB.init npairs scaling junk).run cls solve cmds).scaling = scaling := h3
  change Rep _ ((recent npairs cmds).map withYs) at h1
  cases cls with
  | inverse => simp only [LB.matvec, productOf, h1.invMatvec, h3']
  | forward => simp only [LB.matvec, productOf, h1.fwdMatvec]
  | compact => simp only [LB.matvec, productOf, h1.cmpMatvec, h3']

/-- **C21.**  After any history of stores, restarts and products, a product with an L-BFGS operator (inverse, forward
or compact; any memory size, scaling option, uninitialised memory, and arithmetic) is the one of a new operator in which
only the most recent `npairs` accepted pairs since the last restart are stored, in their order. -/
theorem C21_memory (cls : Class) (solve : LinSolve S) (npairs : Nat) (hn : 0 < npairs) (scaling : Bool) (junk junk' : Junk S V)
    (cmds : List (Cmd S V)) (v : V) :
    (((LB.init npairs scaling junk).run cls solve cmds).matvec cls solve v).1 =
    (((LB.init npairs scaling junk').run cls solve
        ((recent npairs cmds).reverse.map fun p => Cmd.store p.1 p.2)).matvec cls solve v).1 := by
  rw [matvec_eq cls solve npairs hn, matvec_eq cls solve npairs hn, history_recent]

/-- **C21**, rejected pairs: storing a pair whose `s'y` is at most the threshold does not change the operator at all. -/
theorem C21_rejected (cls : Class) (solve : LinSolve S) (npairs : Nat) (hn : 0 < npairs) (scaling : Bool) (junk : Junk S V)
    (cmds : List (Cmd S V)) (s y : V) (h : le (dot s y) (lit (1 / 10 ^ 20) : S) = true) :
    (LB.init npairs scaling junk).run cls solve (cmds ++ [.store s y]) = (LB.init npairs scaling junk).run cls solve cmds := by
  obtain ⟨h1, -, -⟩ := rep_run cls solve cmds (LB.init npairs scaling junk) []
    (by rw [List.take_nil, List.map_nil]; exact rep_init npairs scaling junk hn)
  unfold LB.run at h1 ⊢
  rw [List.foldl_append]
  simp only [List.foldl_cons, List.foldl_nil, LB.exec, LB.store, h1.thr, h, if_true]

/-- **C21**, restart: after a restart, the operator behaves like a new one. -/
theorem C21_restart (cls : Class) (solve : LinSolve S) (npairs : Nat) (hn : 0 < npairs) (scaling : Bool) (junk junk' junk'' : Junk S V)
    (before after : List (Cmd S V)) (v : V) :
    (((LB.init npairs scaling junk).run cls solve (before ++ .restart junk' :: after)).matvec cls solve v).1 =
    (((LB.init npairs scaling junk'').run cls solve after).matvec cls solve v).1 := by
  have h : recent npairs (before ++ .restart junk' :: after) = recent npairs after := by
    unfold recent
    have key : ∀ (b : List (Cmd S V)) acc, history acc (b ++ .restart junk' :: after) = history [] after := by
      intro b
      induction b with
      | nil => intro acc; rfl
      | cons c b ih =>
        intro acc
        cases c with
        | store s y => exact ih _
        | restart j => exact ih _
        | product v => exact ih _
    rw [key]
  rw [matvec_eq cls solve npairs hn, matvec_eq cls solve npairs hn, h]

end memory

variable {E : Type} [NormedAddCommGroup E] [InnerProductSpace ℝ E]

theorem recent_map {n : Nat} {cmds : List (Cmd Fl (Vec E))} {P : List (E × E)} (h : recent n cmds = P.map finPair) :
    (recent n cmds).map withYs = P.map finTriple := by
  rw [h, List.map_map]
  refine List.map_congr_left fun p _ => ?_
  exact withYs_finPair p

/-- **C22.**  In exact arithmetic, for every history whose remembered pairs `P` (most recent first) are finite, the
product of `InverseLBFGSOperator` with `v` is the inverse BFGS matrix of these pairs times `v`; this matrix is symmetric
positive definite and maps the most recent `y` to the most recent `s`. -/
theorem C22_inverse_bfgs (solve : LinSolve Fl) (npairs : Nat) (hn : 0 < npairs) (scaling : Bool) (junk : Junk Fl (Vec E))
    (cmds : List (Cmd Fl (Vec E))) (P : List (E × E))
    (hP : recent npairs cmds = P.map fun p => (Vec.fin p.1, Vec.fin p.2)) :
    let st := (LB.init npairs scaling junk).run .inverse solve cmds
    let H := invMat (scaleFactor scaling P) P
    (∀ v : E, (st.matvec .inverse solve (.fin v)).1 = some (.fin (H v))) ∧
    (∀ u v, ⟪H u, v⟫ = ⟪u, H v⟫) ∧ (∀ u, u ≠ 0 → 0 < ⟪u, H u⟫) ∧
    (∀ s y older, P = (s, y) :: older → H y = s) := by
  have hc : Curv P := recent_curv hP
  have hSPD := invMat_spd (scaleFactor_pos scaling hc) hc
  refine ⟨fun v => ?_, hSPD.symm, hSPD.pos, ?_⟩
  · rw [matvec_eq .inverse solve npairs hn, recent_map hP]
    simp only [productOf]
    rw [twoLoop_exact (fun q => scaleBy_smul scaling hc q) hc]
  · rintro s y older rfl
    exact bfgsInv_secant _ (hc _ List.mem_cons_self)

/-- **C23** (partial).  For every history with finite remembered pairs, the product of `LBFGSOperator` is the BFGS
matrix of these pairs from the *unscaled* identity; it is symmetric positive definite and maps the most recent `s` to
the most recent `y`; and if `scaling=False` it is the two-sided inverse of `InverseLBFGSOperator` with the same history.
Missing: with `scaling=True` this fails, see `C23_scaling_ignored`. -/
theorem C23_forward_bfgs_partial (solve : LinSolve Fl) (npairs : Nat) (hn : 0 < npairs) (scaling : Bool)
    (junk junk' : Junk Fl (Vec E)) (cmds : List (Cmd Fl (Vec E))) (P : List (E × E))
    (hP : recent npairs cmds = P.map fun p => (Vec.fin p.1, Vec.fin p.2)) :
    let fwd := (LB.init npairs scaling junk).run .forward solve cmds
    let inv := (LB.init npairs scaling junk').run .inverse solve cmds
    let B := fwdMat 1 P
    (∀ v : E, (fwd.matvec .forward solve (.fin v)).1 = some (.fin (B v))) ∧
    (∀ u v, ⟪B u, v⟫ = ⟪u, B v⟫) ∧ (∀ u, u ≠ 0 → 0 < ⟪u, B u⟫) ∧
    (∀ s y older, P = (s, y) :: older → B s = y) ∧
    (scaling = false → ∀ v : E,
      ((inv.matvec .inverse solve (.fin v)).1.bind fun w => (fwd.matvec .forward solve w).1) = some (.fin v) ∧
      ((fwd.matvec .forward solve (.fin v)).1.bind fun w => (inv.matvec .inverse solve w).1) = some (.fin v)) := by
  have hc : Curv P := recent_curv hP
  have hSPD := fwdMat_spd one_pos hc
  have hf : ∀ v : E, (((LB.init npairs scaling junk).run .forward solve cmds).matvec .forward solve (.fin v)).1 =
      some (.fin (fwdMat 1 P v)) := by
    intro v
    rw [matvec_eq .forward solve npairs hn, recent_map hP]
    simp only [productOf]
    rw [List.foldl_reverse]
    obtain ⟨acc, h1, -⟩ := fwd_exact v hc
    rw [h1]
  refine ⟨hf, hSPD.symm, hSPD.pos, ?_, ?_⟩
  · rintro s y older rfl
    have hc0 := hc _ List.mem_cons_self
    have hP' : Curv older := fun q hq => hc q (List.mem_cons_of_mem _ hq)
    exact bfgs_secant _ ((fwdMat_spd one_pos hP').pos _ (pos_ne_zero hc0)).ne' hc0
  · rintro rfl v
    have hi := (C22_inverse_bfgs solve npairs hn false junk' cmds P hP).1
    have hs : scaleFactor false P = 1 := by cases P <;> simp [scaleFactor]
    rw [hs] at hi
    constructor
    · rw [hi v, Option.bind_some, hf, fwd_inv one_pos hc]
    · rw [hf v, Option.bind_some, hi, inv_fwd one_pos hc]

/-- **C24.**  For every history with finite remembered pairs, every scaling option, and every solver of small linear
systems meeting its specification, the product of `CompactLBFGSOperator` is the BFGS matrix from the scaled identity;
it is symmetric positive definite, and the two-sided inverse of `InverseLBFGSOperator` with the same history and scaling. -/
theorem C24_compact_bfgs (solve : LinSolve Fl) (hs : SolveSpec solve) (npairs : Nat) (hn : 0 < npairs) (scaling : Bool)
    (junk junk' : Junk Fl (Vec E)) (cmds : List (Cmd Fl (Vec E))) (P : List (E × E))
    (hP : recent npairs cmds = P.map fun p => (Vec.fin p.1, Vec.fin p.2)) :
    let cmp := (LB.init npairs scaling junk).run .compact solve cmds
    let inv := (LB.init npairs scaling junk').run .inverse solve cmds
    let B := fwdMat (scaleFactor scaling P) P
    (∀ v : E, (cmp.matvec .compact solve (.fin v)).1 = some (.fin (B v))) ∧
    (∀ u v, ⟪B u, v⟫ = ⟪u, B v⟫) ∧ (∀ u, u ≠ 0 → 0 < ⟪u, B u⟫) ∧
    (∀ v : E,
      ((inv.matvec .inverse solve (.fin v)).1.bind fun w => (cmp.matvec .compact solve w).1) = some (.fin v) ∧
      ((cmp.matvec .compact solve (.fin v)).1.bind fun w => (inv.matvec .inverse solve w).1) = some (.fin v)) := by
  have hc : Curv P := recent_curv hP
  have hγ := scaleFactor_pos scaling hc
  have hSPD := fwdMat_spd hγ hc
  have hf : ∀ v : E, (((LB.init npairs scaling junk).run .compact solve cmds).matvec .compact solve (.fin v)).1 =
      some (.fin (fwdMat (scaleFactor scaling P) P v)) := by
    intro v
    rw [matvec_eq .compact solve npairs hn, recent_map hP]
    exact compact_exact hs scaling hc v
  refine ⟨hf, hSPD.symm, hSPD.pos, fun v => ?_⟩
  have hi := (C22_inverse_bfgs solve npairs hn scaling junk' cmds P hP).1
  constructor
  · rw [hi v, Option.bind_some, hf, fwd_inv hγ hc]
  · rw [hf v, Option.bind_some, hi, inv_fwd hγ hc]

/-- **C25 is violated**: constructing a `StructuredLBFGSOperator` always raises `TypeError`. -/
theorem C25_never_constructed {S V : Type} [Scalar S] [Vect S V] (npairs : Nat) (scaling : Bool) (junk : Junk S V) :
    structuredInit npairs scaling junk = none := rfl

/-- The `TypeError` of `C25_never_constructed` comes from the repeated `self`: Python binds two or three positional
arguments to `(self, n, npairs=5)` and no other number. -/
theorem C25_binding {α : Type} (args : List α) :
    (bindPositional 3 1 args = some args ↔ args.length = 2 ∨ args.length = 3) ∧
    (bindPositional 3 1 args = none ↔ args.length ≠ 2 ∧ args.length ≠ 3) := by
  unfold bindPositional
  constructor <;> split_ifs with h <;> simp <;> omega

example : bindPositional 3 1 [PyArg.self, PyArg.n, PyArg.npairs] = some [PyArg.self, PyArg.n, PyArg.npairs] := rfl

/-- **C25** (partial).  The other three classes can be constructed for all memory sizes, and have an empty memory: in any
arithmetic, every product returns its argument.  Missing: `StructuredLBFGSOperator`, see `C25_never_constructed`. -/
theorem C25_empty_memory_partial {S V : Type} [Scalar S] [Vect S V] (cls : Class) (solve : LinSolve S) (npairs : Nat)
    (hn : 0 < npairs) (scaling : Bool) (junk : Junk S V) (v : V) :
    ((LB.init npairs scaling junk).matvec cls solve v).1 = some v := by
  have := matvec_eq cls solve npairs hn scaling junk [] v
  change ((LB.init npairs scaling junk).matvec cls solve v).1 = _ at this
  rw [this]
  cases cls <;> simp [recent, history, productOf, twoLoop, scaleBy, compactList]

/-! ## Instances and counterexamples -/

/-- two pairs in the plane, the second one rejected when its `y` is reversed -/
noncomputable def exCmds : List (Cmd Fl (Vec ℂ)) :=
  [.store (.fin 1) (.fin 2), .product (.fin 1), .store (.fin 1) (.fin (-1)), .store (.fin Complex.I) (.fin (3 * Complex.I))]

theorem exCmds_recent (n : Nat) (hn : 2 ≤ n) :
    recent n exCmds = [((Complex.I, 3 * Complex.I) : ℂ × ℂ), (1, 2)].map fun p => (Vec.fin p.1, Vec.fin p.2) := by
  have a1 : accepted (S := Fl) (Vec.fin (1 : ℂ)) (Vec.fin 2) = true := by
    unfold accepted
    rw [Vec.fin_dot, Fl.lit_eq, Bool.not_eq_true', ← Bool.not_eq_true, Fl.fin_le]
    simp [Complex.inner]; norm_num
  have a2 : accepted (S := Fl) (Vec.fin (1 : ℂ)) (Vec.fin (-1)) = false := by
    unfold accepted
    rw [Vec.fin_dot, Fl.lit_eq, Bool.not_eq_false', Fl.fin_le]
    simp [Complex.inner]; norm_num
  have a3 : accepted (S := Fl) (Vec.fin Complex.I) (Vec.fin (3 * Complex.I)) = true := by
    unfold accepted
    rw [Vec.fin_dot, Fl.lit_eq, Bool.not_eq_true', ← Bool.not_eq_true, Fl.fin_le]
    simp [Complex.inner]; norm_num
  unfold recent exCmds
  simp only [history, a1, a2, a3, if_true, Bool.false_eq_true, if_false]
  rw [List.take_of_length_le (by simpa using hn)]
  rfl

example (junk : Junk Fl (Vec ℂ)) :=
  C22_inverse_bfgs exactSolve 5 (by norm_num) true junk exCmds _ (exCmds_recent 5 (by norm_num))
example (junk junk' : Junk Fl (Vec ℂ)) :=
  C23_forward_bfgs_partial exactSolve 5 (by norm_num) false junk junk' exCmds _ (exCmds_recent 5 (by norm_num))
example (junk junk' : Junk Fl (Vec ℂ)) :=
  C24_compact_bfgs exactSolve exactSolve_spec 2 (by norm_num) true junk junk' exCmds _ (exCmds_recent 2 (by norm_num))
/-- a rejected pair -/
example : le (dot (Vec.fin (1 : ℝ)) (Vec.fin (-1))) (lit (1 / 10 ^ 20) : Fl) = true := by
  rw [Vec.fin_dot, Fl.lit_eq, Fl.fin_le]; simp; norm_num

/-- **C23 is violated** for `scaling=True`: `LBFGSOperator` ignores the option, so it is not the inverse of
`InverseLBFGSOperator`.  After storing `s = (1, 0)`, `y = (2, 0)` in the plane, `LBFGSOperator * (InverseLBFGSOperator * v)`
is `v / 2` for `v = (0, 1)`. -/
theorem C23_scaling_ignored (solve : LinSolve Fl) (npairs : Nat) (hn : 0 < npairs) (junk junk' : Junk Fl (Vec ℂ)) :
    let cmds : List (Cmd Fl (Vec ℂ)) := [.store (.fin 1) (.fin 2)]
    let fwd := (LB.init npairs true junk).run .forward solve cmds
    let inv := (LB.init npairs true junk').run .inverse solve cmds
    ((inv.matvec .inverse solve (.fin Complex.I)).1.bind fun w => (fwd.matvec .forward solve w).1) =
      some (.fin ((1 / 2 : ℝ) • Complex.I)) := by
  intro cmds fwd inv
  have a1 : accepted (S := Fl) (Vec.fin (1 : ℂ)) (Vec.fin 2) = true := by
    unfold accepted
    rw [Vec.fin_dot, Fl.lit_eq, Bool.not_eq_true', ← Bool.not_eq_true, Fl.fin_le]
    simp [Complex.inner]; norm_num
  have hP : recent npairs cmds = [((1, 2) : ℂ × ℂ)].map fun p => (Vec.fin p.1, Vec.fin p.2) := by
    unfold recent
    simp only [cmds, history, a1, if_true]
    rw [List.take_of_length_le (show 1 ≤ npairs from hn)]
    rfl
  have h1 := (C22_inverse_bfgs solve npairs hn true junk' cmds _ hP).1
  have h2 := (C23_forward_bfgs_partial solve npairs hn true junk junk' cmds _ hP).1
  have i1 : ⟪(1 : ℂ), Complex.I⟫ = 0 := by simp [Complex.inner]
  have i2 : ⟪(2 : ℂ), Complex.I⟫ = 0 := by simp [Complex.inner]
  have i3 : ⟪(2 : ℂ), 1⟫ = 2 := by simp [Complex.inner]
  have i4 : ⟪(2 : ℂ), 2⟫ = 4 := by simp [Complex.inner]; norm_num
  have e1 : invMat (scaleFactor true [((1, 2) : ℂ × ℂ)]) [((1, 2) : ℂ × ℂ)] Complex.I = (1 / 2 : ℝ) • Complex.I := by
    simp only [invMat, scaleFactor, bfgsInv_apply, LinearMap.smul_apply, LinearMap.id_apply, i1, i3, i4, zero_div, zero_smul, sub_zero,
      if_true, real_inner_smul_right, i2, mul_zero, zero_sub, neg_zero, add_zero]
    norm_num
  have e2 : fwdMat 1 [((1, 2) : ℂ × ℂ)] ((1 / 2 : ℝ) • Complex.I) = (1 / 2 : ℝ) • Complex.I := by
    simp only [fwdMat, bfgs_apply, inv_one, one_smul, LinearMap.id_apply, real_inner_smul_right, i1, i2, mul_zero, zero_div, zero_smul,
      sub_zero, add_zero]
  rw [h1, Option.bind_some, h2, e1, e2]

end Verif.Lbfgs
