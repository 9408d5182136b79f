import Verif.Solver.InterruptSq
import Verif.Solver.ReuseFindings
import Verif.Solver.LSMRConv
import Verif.Solver.CGExamples

/-!
# C79: what an interrupted `solve` leaves behind

Specification: `Verif.Solver.InterruptSpec`.  Each theorem is about a call that would return if it were not interrupted.  The trace of the call
(`Verif.Solver.Interrupt`) lists the statements on attributes in the order of execution; its effect is that of the complete call, and the
object is left with the effect of an initial part of it.
-/

namespace Verif.Solver
open Scalar Vect

/-! ## Least-squares solvers -/

section
variable {S U V : Type} [Scalar S] [Vect S U] [Vect S V]

/-- **C79.**  LSQR: until the last iteration has ended, everything except the lists and `ctol` is as before the call, and the lists have the
first entries of the complete lists. -/
theorem C79_lsqr (A : V → U) (AT : U → V) (n : Nat) (b : U) (kw : LsqrKw S U V) (run : LsqrRes S V × LsqrLoop S U V)
    (h : lsqrSolve A AT n b kw = .ok run) (a full : Attrs S U V) (hfull : (lsqrClass A AT n).call a (b, kw) = .ok full) :
    ∃ tr, lsqrTrace A AT n b kw = .ok tr ∧ writeAll tr.all a = full ∧
      ∀ a', tr.Leaves a a' → LeftBehind (lsqrLists run.1) ["ctol"] (lsqrOrder kw.storeIterates kw.storeResids) full a a' := by
  simp only [PySolver.call, lsqrClass, h] at hfull
  cases hfull
  obtain ⟨m, hm, -⟩ := lsqrTrace_spec h
  exact ⟨_, hm, (lsqr_interrupted h hm ⟨[], List.nil_prefix, rfl⟩).1, fun a' hl => (lsqr_interrupted h hm hl).2⟩

/-- **C79.**  LSMR -/
theorem C79_lsmr (A : V → U) (AT : U → V) (m n : Nat) (b : U) (kw : LsmrKw S U V) (run : LsmrRes S V × LsmrLoop S U V)
    (h : lsmrSolve A AT m n b kw none = .ok run) (a full : Attrs S U V) (hfull : (lsmrClass A AT m n).call a (b, kw) = .ok full) :
    ∃ tr, lsmrTrace A AT m n b kw = .ok tr ∧ writeAll tr.all a = full ∧
      ∀ a', tr.Leaves a a' → LeftBehind (lsmrLists run.1) [] (lsmrOrder kw.storeIterates kw.storeResids) full a a' := by
  simp only [PySolver.call, lsmrClass, h] at hfull
  cases hfull
  obtain ⟨w, hw, -⟩ := lsmrTrace_spec h
  exact ⟨_, hw, (lsmr_interrupted h hw ⟨[], List.nil_prefix, rfl⟩).1, fun a' hl => (lsmr_interrupted h hw hl).2⟩

/-- **C79.**  CRAIG -/
theorem C79_craig (A : V → U) (AT : U → V) (n : Nat) (b : U) (kw : CraigKw S U V) (run : CraigRes S U V × CraigLoop S U V)
    (h : craigSolve A AT n b kw = .ok run) (a full : Attrs S U V) (hfull : (craigClass A AT n).call a (b, kw) = .ok full) :
    ∃ tr, craigTrace A AT n b kw = .ok tr ∧ writeAll tr.all a = full ∧
      ∀ a', tr.Leaves a a' → LeftBehind (craigLists run.1) ["ctol"] (craigOrder kw.storeIterates kw.storeResids) full a a' := by
  simp only [PySolver.call, craigClass, h] at hfull
  cases hfull
  obtain ⟨m, hm, -⟩ := craigTrace_spec h
  exact ⟨_, hm, (craig_interrupted h hm ⟨[], List.nil_prefix, rfl⟩).1, fun a' hl => (craig_interrupted h hm hl).2⟩

/-- **C79.**  CRAIG-MR.  Missing: `init_data` resets `x`, `optimal` and the other attributes of `craigmrReset` when the call begins, so the
results of an earlier call are lost (`C79_craigmr_lost`). -/
theorem C79_craigmr_partial (A : V → U) (AT : U → V) (m n : Nat) (b : U) (kw : CraigmrKw S U V) (run : CraigmrRes S U × CraigmrLoop S U V)
    (h : craigmrSolve A AT m n b kw = .ok run) (a full : Attrs S U V) (hfull : (craigmrClass A AT m n).call a (b, kw) = .ok full) :
    ∃ tr, craigmrTrace A AT m n b kw = .ok tr ∧ writeAll tr.all a = full ∧
      ∀ a', tr.Leaves a a' → LeftBehind (craigmrLists run.1) craigmrReset (craigmrOrder kw.storeIterates kw.storeResids) full a a' := by
  simp only [PySolver.call, craigmrClass, h] at hfull
  cases hfull
  obtain ⟨w, hw, -⟩ := craigmrTrace_spec h
  exact ⟨_, hw, (craigmr_interrupted h hw ⟨[], List.nil_prefix, rfl⟩).1, fun a' hl => (craigmr_interrupted h hw hl).2⟩

/-- **C79, negative.**  CRAIG-MR: a call that is interrupted in its first product leaves `x = None` and `optimal = False`, whatever an earlier
call has found, and `bestSolution` of the earlier call. -/
theorem C79_craigmr_lost (A : V → U) (AT : U → V) (m n : Nat) (b : U) (kw : CraigmrKw S U V) (run : CraigmrRes S U × CraigmrLoop S U V)
    (h : craigmrSolve A AT m n b kw = .ok run) (a : Attrs S U V) :
    ∃ tr a', craigmrTrace A AT m n b kw = .ok tr ∧ tr.Leaves a a' ∧ a' "x" = some .none ∧ a' "optimal" = some (.bool false) ∧
      a' "bestSolution" = a "bestSolution" := by
  obtain ⟨w, hw, -⟩ := craigmrTrace_spec h
  refine ⟨_, writeAll craigmrEmpty a, hw, ⟨craigmrEmpty, ?_, rfl⟩, ?_, ?_, ?_⟩
  · unfold Trace.all
    rw [List.append_assoc]
    exact List.prefix_append _ _
  all_goals simp [craigmrEmpty, craigmrAttrs, lsAttrs, writeAll, Wr.exec]

/-- **C79, negative.**  LSQR: an interrupt between the last assignments (lines 436 to 443) leaves the `optimal` of this call and the `x` of an
earlier one. -/
theorem C79_lsqr_torn (A : V → U) (AT : U → V) (n : Nat) (b : U) (kw : LsqrKw S U V) (run : LsqrRes S V × LsqrLoop S U V)
    (h : lsqrSolve A AT n b kw = .ok run) (a : Attrs S U V) :
    ∃ tr a', lsqrTrace A AT n b kw = .ok tr ∧ tr.Leaves a a' ∧ a' "optimal" = some (.bool run.1.optimal) ∧ a' "x" = a "x" := by
  obtain ⟨m, hm, hrec, -⟩ := lsqrTrace_spec h
  refine ⟨_, writeAll (lsqrEmpty kw ++ m ++ (statusWrites run.1.istop ++ [.set "optimal" (.bool run.1.optimal)])) a, hm,
    ⟨_, ?_, rfl⟩, ?_, ?_⟩
  · unfold Trace.all lsqrEnd
    dsimp only
    rw [List.prefix_append_right_inj, List.prefix_append_right_inj]
    exact ⟨_, rfl⟩
  · rw [← List.append_assoc, writeAll_append]
    simp [writeAll, Wr.exec]
  · rw [writeAll_other]
    simp only [List.map_append, List.mem_append, not_or]
    refine ⟨⟨?_, ?_⟩, ?_, by simp [Wr.key]⟩
    · unfold lsqrEmpty
      split_ifs <;> simp [Wr.key]
    · intro hk
      obtain ⟨e, he, hk⟩ := List.mem_map.1 hk
      obtain ⟨k, hk', l, rfl⟩ := hrec.keys e he
      rw [show k = "x" from hk] at hk'
      simp at hk'
    · rcases statusWrites_keys (S := S) (U := U) (V := V) run.1.istop with hst | hst <;> rw [hst] <;> simp

end

/-! ## Square systems -/

section
variable {S V : Type} [Scalar S] [Vect S V]

/-- **C79.**  CG.  The three lists are not emptied: the entries of the interrupted call stay behind the older ones. -/
theorem C79_cg (op : V → V) (o : KrylovOpts S V) (n : Nat) (self : CGObj S V) (rhs : V) (kw : CGKw V)
    (hsym : (kw.checkSymmetric && !kw.symOK) = false) (a : Attrs S V V) (hself : HasLists self a) :
    let res := (cgSolve op o n self rhs kw).1
    let full := writeAll (cgWrites self res) a
    writeAll (cgTrace op o n self rhs kw).all a = full ∧
      ∀ a', (cgTrace op o n self rhs kw).Leaves a a' →
        LeftBehind (cgLists self res) ["residNorm0", "infiniteDescent"] (cgOrder kw.storeIterates kw.storeResids) full a a' :=
  ⟨(cg_interrupted hself hsym ⟨[], List.nil_prefix, rfl⟩).1, fun _ hl => (cg_interrupted hself hsym hl).2⟩

/-- **C79.**  CG: the attributes after the complete call are the results of the model of CG -/
theorem C79_cg_values (op : V → V) (o : KrylovOpts S V) (n : Nat) (self : CGObj S V) (rhs : V) (kw : CGKw V)
    (hsym : (kw.checkSymmetric && !kw.symOK) = false) (a : Attrs S V V) (hself : HasLists self a) :
    let res := (cgSolve op o n self rhs kw).1
    let full := writeAll (cgWrites self res) a
    full "x" = some (PyV.opt .vec res.x) ∧ full "bestSolution" = some (PyV.opt .vec res.x) ∧
      full "converged" = some (.bool res.converged) ∧ full "definite" = some (PyV.opt .bool res.definite) ∧
      full "nMatvec" = some (.int res.nMatvec) ∧ full "residNorm" = some (PyV.opt .scal res.residNorm) ∧
      full "residNorm0" = some (PyV.opt .scal res.residNorm0) ∧
      (res.definite = some false → full "infiniteDescent" = some (PyV.opt .vec res.infiniteDescent)) ∧ HasLists res full := by
  obtain ⟨p1, p2, p3⟩ := cg_lists_prefix op o n self rhs kw hsym
  exact cgWrites_values self _ p1 p2 p3 a hself

/-- **C79.**  CGS: nothing but `residNorm0` changes before the end. -/
theorem C79_cgs (op : V → V) (o : KrylovOpts S V) (n : Nat) (rhs : V) (kw : KrylovKw V) (a full : Attrs S V V)
    (hfull : (cgsClass op o).call a (n, rhs, kw) = .ok full) :
    writeAll (krylovTrace (cgsSolve op o n rhs kw).1).all a = full ∧
      ∀ a', (krylovTrace (cgsSolve op o n rhs kw).1).Leaves a a' → LeftBehind [] ["residNorm0"] (fun _ => True) full a a' := by
  cases hfull
  exact ⟨(krylov_interrupted ⟨[], List.nil_prefix, rfl⟩).1, fun _ hl => (krylov_interrupted hl).2⟩

/-- **C79.**  Bi-CGSTAB -/
theorem C79_bicgstab (op : V → V) (o : KrylovOpts S V) (n : Nat) (rhs : V) (kw : KrylovKw V) (a full : Attrs S V V)
    (hfull : (biClass op o).call a (n, rhs, kw) = .ok full) :
    writeAll (krylovTrace (biSolve op o n rhs kw).1).all a = full ∧
      ∀ a', (krylovTrace (biSolve op o n rhs kw).1).Leaves a a' → LeftBehind [] ["residNorm0"] (fun _ => True) full a a' := by
  cases hfull
  exact ⟨(krylov_interrupted ⟨[], List.nil_prefix, rfl⟩).1, fun _ hl => (krylov_interrupted hl).2⟩

/-- **C79.**  TFQMR -/
theorem C79_tfqmr (op : V → V) (o : KrylovOpts S V) (n : Nat) (rhs : V) (kw : KrylovKw V) (run : KrylovRes S V × List V)
    (h : tfSolve op o n rhs kw = .ok run) (a full : Attrs S V V) (hfull : (tfClass op o).call a (n, rhs, kw) = .ok full) :
    writeAll (krylovTrace run.1).all a = full ∧
      ∀ a', (krylovTrace run.1).Leaves a a' → LeftBehind [] ["residNorm0"] (fun _ => True) full a a' := by
  simp only [PySolver.call, tfClass, h] at hfull
  cases hfull
  exact ⟨(krylov_interrupted ⟨[], List.nil_prefix, rfl⟩).1, fun _ hl => (krylov_interrupted hl).2⟩

/-- **C79.**  MINRES.  `residHistory` is not emptied: the entries of the interrupted call stay behind the older ones. -/
theorem C79_minres (op : V → V) (eps : S) (n : Nat) (b : V) (kw : MinresKw S V) (run : MinresRes S V × List V)
    (h : minresSolve op eps n {} b kw = .ok run) (old : List (PyV S V V)) (a full : Attrs S V V)
    (hold : a "residHistory" = some (.list old)) (hfull : (minresClass op eps).call a (n, b, kw) = .ok full) :
    writeAll (minresTrace op eps n b kw).all a = full ∧
      ∀ a', (minresTrace op eps n b kw).Leaves a a' →
        LeftBehind (minresLists old run.1) ["show", "residNorm0"] (minresOrder kw.storeIterates) full a a' := by
  simp only [PySolver.call, minresClass, h] at hfull
  cases hfull
  exact ⟨(minres_interrupted hold h ⟨[], List.nil_prefix, rfl⟩).1, fun _ hl => (minres_interrupted hold h hl).2⟩

/-- **C79, negative.**  CG, for every call: an interrupt between the assignments of lines 161 and 164 leaves the `converged` of this call and
the `x` of an earlier one (`None` on a new object). -/
theorem C79_cg_torn (op : V → V) (o : KrylovOpts S V) (n : Nat) (self : CGObj S V) (rhs : V) (kw : CGKw V)
    (hsym : (kw.checkSymmetric && !kw.symOK) = false) (a : Attrs S V V) (hself : HasLists self a) :
    ∃ a', (cgTrace op o n self rhs kw).Leaves a a' ∧ a' "converged" = some (.bool (cgSolve op o n self rhs kw).1.converged) ∧
      a' "x" = a "x" := by
  obtain ⟨w, s, threshold, htr, hconv, hkeys⟩ := cgTrace_shape op o n self rhs kw hsym
  refine ⟨writeAll (w ++ [.set "converged" (.bool (cgSolve op o n self rhs kw).1.converged)]) a, ⟨_, ?_, rfl⟩, ?_, ?_⟩
  · rw [htr, hconv]
    unfold Trace.all cgEnd
    rw [List.nil_append, List.prefix_append_right_inj]
    exact ⟨_, rfl⟩
  · rw [writeAll_append]
    simp [writeAll, Wr.exec]
  · rw [writeAll_other]
    simp only [List.map_append, List.mem_append, not_or]
    exact ⟨hkeys, by simp [Wr.key]⟩

end

/-! ## Consequences -/

section
variable {S U V : Type} {lists : List (ListAttr S U V)} {others : List String} {order : (String → Nat) → Prop} {full a a' : Attrs S U V}

/-- An attribute that is not assigned early has the old or the new value. -/
theorem LeftBehind.old_or_new (h : LeftBehind lists others order full a a') (k : String) (hk : k ∉ others)
    (hk' : k ∉ lists.map ListAttr.key) : a' k = a k ∨ a' k = full k := by
  rcases h with ⟨hr, -⟩ | ⟨n, -, hr, -⟩ | ⟨-, hr⟩
  · exact .inl (hr k hk hk')
  · exact .inl (hr k hk hk')
  · exact hr k hk

/-- If such an attribute has changed, the lists are complete. -/
theorem LeftBehind.changed (h : LeftBehind lists others order full a a') (k : String) (hk : k ∉ others)
    (hk' : k ∉ lists.map ListAttr.key) (hne : a' k ≠ a k) : ∀ L ∈ lists, a' L.key = some (.list (L.base ++ L.new)) := by
  rcases h with ⟨hr, -⟩ | ⟨n, -, hr, -⟩ | ⟨hl, -⟩
  · exact absurd (hr k hk hk') hne
  · exact absurd (hr k hk hk') hne
  · exact hl

end

/-- **C79.**  LSQR: a solution that differs from the one before the call is the solution of the complete call, and then all lists are complete. -/
theorem C79_lsqr_solution {S U V : Type} [Scalar S] [Vect S U] [Vect S V] (A : V → U) (AT : U → V) (n : Nat) (b : U) (kw : LsqrKw S U V)
    (run : LsqrRes S V × LsqrLoop S U V) (h : lsqrSolve A AT n b kw = .ok run) (tr : Trace S U V) (htr : lsqrTrace A AT n b kw = .ok tr)
    (a a' : Attrs S U V) (hl : tr.Leaves a a') (hne : a' "x" ≠ a "x") :
    a' "x" = some (.vec run.1.x) ∧ a' "iterates" = some (.list (run.1.iterates.map .vec)) ∧
      a' "resids" = some (.list (run.1.resids.map .scal)) := by
  have hb := (lsqr_interrupted h htr hl).2
  have hx : "x" ∉ (lsqrLists (U := U) run.1).map ListAttr.key := by simp [lsqrLists]
  have hc := hb.changed "x" (by simp) hx hne
  refine ⟨?_, hc ⟨"iterates", [], _⟩ (by simp [lsqrLists]), hc ⟨"resids", [], _⟩ (by simp [lsqrLists])⟩
  rcases hb.old_or_new "x" (by simp) hx with he | he
  · exact absurd he hne
  · rw [he]
    have hs := fun k hk o => statusWrites_step (S := S) (U := U) (V := V) run.1.istop k hk o
    cases hc : run.1.ctol <;> simp [lsqrWrites, writeAll_eq, Wr.step, hs, hc]

/-! ## Instances -/

/-- LSQR with `A = diag(1, 2)` and `damp = 3`, on a new object -/
example : ∃ run : LsqrRes Fl (Vec (EuclideanSpace ℝ (Fin 2))) × LsqrLoop Fl (Vec (EuclideanSpace ℝ (Fin 2))) (Vec (EuclideanSpace ℝ (Fin 2))), ∃ tr,
       lsqrTrace (Vec.op (lsqrDemo 3 0).A) (Vec.op (lsqrDemo 3 0).B) 2 (.fin (lsqrDemo 3 0).b)
      (lsqrDemo 3 0).kw = .ok tr ∧
    ∀ a', tr.Leaves (lsqrClass (Vec.op (lsqrDemo 3 0).A) (Vec.op (lsqrDemo 3 0).B) 2).init a' →
      a' "x" = some .none ∨ a' "x" = some (.vec run.1.x) := by
  obtain ⟨res, s, h, -⟩ := C37_converges (lsqrDemo 3 0) (lsqrDemo_valid _ _)
    (by
      intro h
      have h0 := congrArg (fun x => x 0) h
      simp [lsqrDemo, Matrix.mulVec, dotProduct, Fin.sum_univ_two] at h0)
    (by simp [lsqrDemo]) (by simp [lsqrDemo])
  obtain ⟨m, hm, -⟩ := lsqrTrace_spec h
  refine ⟨(res, s), _, hm, fun a' hl => ?_⟩
  by_cases hne : a' "x" = (lsqrClass (Vec.op (lsqrDemo 3 0).A) (Vec.op (lsqrDemo 3 0).B) 2).init "x"
  · left
    rw [hne]
    simp [lsqrClass, attrsOf, lsAttrs]
  · exact .inr (C79_lsqr_solution _ _ _ _ _ _ h _ hm _ _ hl hne).1

/-- CRAIG-MR with `A = 1` -/
example (a : Attrs Fl (Vec ℝ) (Vec ℝ)) : ∃ tr a', craigmrTrace (Vec.op craigmrExample.A) (Vec.op craigmrExample.B) 1 1 (.fin (2 : ℝ))
    craigmrExample.kw = .ok tr ∧ tr.Leaves a a' ∧ a' "x" = some .none := by
  obtain ⟨res, s, x, hs, -⟩ := C53_converges craigmrExample craigmrExample_valid
    (by norm_num [craigmrExample]) (Or.inl ⟨inferInstance, by norm_num [craigmrExample]⟩)
  have h : craigmrSolve (Vec.op craigmrExample.A) (Vec.op craigmrExample.B) 1 1 (.fin (2:ℝ)) craigmrExample.kw = .ok (res, s) := hs
  obtain ⟨tr, a', h1, h2, h3, -⟩ := C79_craigmr_lost _ _ _ _ _ _ _ h a
  exact ⟨tr, a', h1, h2, h3⟩

/-- the attributes of a new CG object: `KrylovMethod.__init__` (`generic.py:79-87`) and `cg.py:38-39` -/
def cgNew {S V : Type} : Attrs S V V := attrsOf ([("iterates", .list []), ("resids", .list [])] ++ baseAttrs)

theorem cgNew_lists {S V : Type} : HasLists ({} : CGObj S V) cgNew :=
  ⟨rfl, rfl, rfl⟩

/-- CG on a new object, for a system of order two with a nonzero guess and iterates stored: whatever the moment of the interrupt, `x` is
`None` or the solution, and the list of iterates is part of the list of the complete call. -/
example (a' : Attrs Fl (Vec (EuclideanSpace ℝ (Fin 2))) (Vec (EuclideanSpace ℝ (Fin 2))))
    (hl : (cgTrace (Vec.op A2) problem2.opts 2 {} (.fin !₂[1, 3])
      { guess := some (.fin !₂[1, 0]), storeIterates := true }).Leaves cgNew a') :
    a' "x" = some .none ∨ ∃ x, a' "x" = some (.vec (.fin x)) ∧ A2 x = !₂[1, 3] := by
  have h := C79_cg (Vec.op A2) problem2.opts 2 {} (.fin !₂[1, 3]) { guess := some (.fin !₂[1, 0]), storeIterates := true } rfl cgNew
    cgNew_lists
  have hv := C79_cg_values (Vec.op A2) problem2.opts 2 {} (.fin !₂[1, 3]) { guess := some (.fin !₂[1, 0]), storeIterates := true } rfl cgNew
    cgNew_lists
  have ht := C28_terminates_partial problem2 A2_spd {} { guess := some (.fin !₂[1, 0]), storeIterates := true } rfl rfl le_rfl
    (by simp)
  rw [finrank_euclideanSpace_fin] at ht
  obtain ⟨-, -, ⟨x, hx, -, hx'⟩, -⟩ := ht
  rcases (h.2 a' hl).old_or_new "x" (by simp) (by simp [cgLists]) with e | e
  · exact .inl (by rw [e]; rfl)
  · refine .inr ⟨x, ?_, hx' rfl rfl⟩
    rw [e, hv.1]
    change some (PyV.opt PyV.vec (cgSolve (Vec.op problem2.A) problem2.opts 2 {} (.fin problem2.b) _).1.x) = _
    rw [hx]
    rfl

/-- LSMR with `A = diag(1, 2)` and `damp = 1` -/
example (a : Attrs Fl (Vec (EuclideanSpace ℝ (Fin 2))) (Vec (EuclideanSpace ℝ (Fin 2)))) :
    let q := lsmrDemo 2 1 1 1 none
    ∃ res : LsmrRes Fl (Vec (EuclideanSpace ℝ (Fin 2))), ∃ tr full, lsmrTrace (Vec.op q.A) (Vec.op q.B) 2 2 (.fin q.b) q.kw = .ok tr ∧
      writeAll tr.all a = full ∧
      ∀ a', tr.Leaves a a' → LeftBehind (lsmrLists res) [] (lsmrOrder q.kw.storeIterates q.kw.storeResids) full a a' := by
  intro q
  obtain ⟨res, s, h, -⟩ := C51_converges q (lsmrDemo_valid _ _ _ _ _) none
    (by
      intro h
      have h0 := congrArg (fun x => x 0) h
      simp [q, lsmrDemo] at h0)
    (by simp [q, lsmrDemo])
    (by
      rintro x ⟨h1, h2⟩
      have h2' : x = 0 := by simpa [q, lsmrDemo] using h2
      rw [h2', map_zero] at h1
      have h0 := congrArg (fun x => x 0) h1
      simp [q, lsmrDemo] at h0)
  have h' : lsmrSolve (Vec.op q.A) (Vec.op q.B) 2 2 (.fin q.b) q.kw none = .ok (res, s) := h
  have hc : (lsmrClass (Vec.op q.A) (Vec.op q.B) 2 2).call a (.fin q.b, q.kw) = .ok (writeAll (lsmrWrites res) a) := by
    simp only [PySolver.call, lsmrClass, h']
    rfl
  obtain ⟨tr, h1, h2, h3⟩ := C79_lsmr _ _ _ _ _ _ _ h' a _ hc
  exact ⟨res, tr, _, h1, h2, h3⟩

/-- CRAIG for `x = 2` -/
example (a : Attrs Fl (Vec ℝ) (Vec ℝ)) :
    ∃ res : CraigRes Fl (Vec ℝ) (Vec ℝ), ∃ tr full, craigTrace (Vec.op craigExample.A) (Vec.op craigExample.B) 1 (.fin (2 : ℝ))
        craigExample.kw = .ok tr ∧ writeAll tr.all a = full ∧
      ∀ a', tr.Leaves a a' →
        LeftBehind (craigLists res) ["ctol"] (craigOrder craigExample.kw.storeIterates craigExample.kw.storeResids) full a a' := by
  obtain ⟨res, s, x, r, hs, -⟩ := C52_converges craigExample ⟨fun _ _ => rfl, by simp [craigExample]⟩
    (by norm_num [craigExample]) (by norm_num [craigExample, CraigProblem.limit]) (by norm_num [craigExample, CraigProblem.limit])
    (by norm_num [craigExample]) (by norm_num [craigExample])
  have h : craigSolve (Vec.op craigExample.A) (Vec.op craigExample.B) 1 (.fin (2 : ℝ)) craigExample.kw = .ok (res, s) := hs
  have hc : (craigClass (Vec.op craigExample.A) (Vec.op craigExample.B) 1).call a (.fin (2 : ℝ), craigExample.kw) =
      .ok (writeAll (craigWrites craigExample.kw res) a) := by
    simp only [PySolver.call, craigClass, h]
    rfl
  obtain ⟨tr, h1, h2, h3⟩ := C79_craig _ _ _ _ _ _ h a _ hc
  exact ⟨res, tr, _, h1, h2, h3⟩

/-- MINRES for `A = 2` of order one and `b = 3`, on a new object -/
example : ∃ res : MinresRes Fl (Vec ℝ), ∃ full, (minresClass (Vec.op twoProblem.A) (.fin 0)).call
      (minresClass (Vec.op twoProblem.A) (.fin 0)).init (1, .fin twoProblem.b, twoProblem.kw) = .ok full ∧
    ∀ a', (minresTrace (Vec.op twoProblem.A) (.fin 0) 1 (.fin twoProblem.b) twoProblem.kw).Leaves
        (minresClass (Vec.op twoProblem.A) (.fin 0)).init a' →
      LeftBehind (minresLists [] res) ["show", "residNorm0"] (minresOrder twoProblem.kw.storeIterates) full
        (minresClass (Vec.op twoProblem.A) (.fin 0)).init a' := by
  obtain ⟨res, products, hs, -⟩ := C34_beta2_nan twoProblem (by norm_num [twoProblem]) 2 (by simp [twoProblem])
    (by simp [twoProblem]) 0 (le_refl _) 1 (by simp [twoProblem]) {}
  have hc : (minresClass (Vec.op twoProblem.A) (.fin 0)).call (minresClass (Vec.op twoProblem.A) (.fin 0)).init
      (1, .fin twoProblem.b, twoProblem.kw) = .ok (writeAll (minresWrites (minresShow twoProblem.kw (.fin twoProblem.b)) res)
        (minresClass (Vec.op twoProblem.A) (.fin 0)).init) := by
    simp only [PySolver.call, minresClass, hs]
    rfl
  exact ⟨res, _, hc, (C79_minres _ _ _ _ _ _ hs [] _ _ rfl hc).2⟩

end Verif.Solver
