import Verif.Solver.ReuseProps
import Verif.Solver.LSMRConv

/-!
# C89: attributes of the base class

What a new solver object shows (`generic.py:78-87`), and which of these attributes no call of `solve` ever changes.
-/

namespace Verif.Solver

variable {S U V : Type}

/-- The attributes of the base class before the first call. -/
def NothingYet (a : Attrs S U V) : Prop :=
  a "converged" = some (.bool false) ∧ a "bestSolution" = some .none ∧ a "x" = some .none ∧ a "residNorm" = some .none ∧
  a "residNorm0" = some .none ∧ a "residHistory" = some (.list []) ∧ a "nMatvec" = some (.int 0) ∧ a "nIter" = some (.int 0)

/-- an attribute that no statement of `solve` changes keeps the value the constructor gave it -/
theorem lives_keep {Args : Type} (c : PySolver Args S U V) (k : String) (hk : k ∉ c.touched)
    (h : ∀ args ws, c.solve args = .ok ws → ∀ w ∈ ws, w.key ≠ k) (a : Attrs S U V) (ha : c.Lives a) : a k = c.init k := by
  induction ha with
  | new => rfl
  | returned _ hs ih =>
    obtain ⟨ws, hs', rfl⟩ := Except.map_ok hs
    rw [writeAll_not_mem _ _ k (h _ _ hs'), ih]
  | raised _ hr ih => rw [hr k hk, ih]

section square
variable [Scalar S] [Vect S V]

/-- **C89, new objects.**  A solver that has not been called does not claim anything. -/
theorem C89_new_square (op : V → V) (o : KrylovOpts S V) (eps : S) (self : SymmlqObj V) :
    NothingYet (cgsClass op o).init ∧ NothingYet (biClass op o).init ∧ NothingYet (tfClass op o).init ∧
    NothingYet (minresClass op eps).init ∧ NothingYet (symmlqClass (S := S) self).init := by
  simp [NothingYet, cgsClass, biClass, tfClass, minresClass, symmlqClass, attrsOf, baseAttrs, List.lookup]

/-- **C89, negative.**  SYMMLQ never sets `converged`: it is `False` in all states of the object, whatever `solve` has found.  `nIter` is zero after
any number of calls of CGS, Bi-CGSTAB, TFQMR, MINRES and SYMMLQ. -/
theorem C89_square_violated (op : V → V) (o : KrylovOpts S V) (eps : S) (self : SymmlqObj V) :
    (∀ a, (symmlqClass (S := S) self).Lives a → a "converged" = some (.bool false) ∧ a "nIter" = some (.int 0)) ∧
    (∀ a, (cgsClass op o).Lives a → a "nIter" = some (.int 0)) ∧ (∀ a, (biClass op o).Lives a → a "nIter" = some (.int 0)) ∧
    (∀ a, (tfClass op o).Lives a → a "nIter" = some (.int 0)) ∧
    (∀ a, (minresClass op eps).Lives a → a "nIter" = some (.int 0)) := by
  have hk : ∀ res : KrylovRes S V, ∀ w ∈ krylovWrites res, w.key ≠ "nIter" := by simp [krylovWrites, Wr.key]
  refine ⟨fun a ha => ⟨?_, ?_⟩, fun a ha => ?_, fun a ha => ?_, fun a ha => ?_, fun a ha => ?_⟩
  · rw [lives_keep _ "converged" (by simp [symmlqClass]) ?_ a ha]
    · simp [symmlqClass, attrsOf, baseAttrs, List.lookup]
    · intro args ws h
      obtain ⟨r, -, rfl⟩ := Except.map_ok h
      simp [symmlqWrites, Wr.key]
  · rw [lives_keep _ "nIter" (by simp [symmlqClass]) ?_ a ha]
    · simp [symmlqClass, attrsOf, baseAttrs, List.lookup]
    · intro args ws h
      obtain ⟨r, -, rfl⟩ := Except.map_ok h
      simp [symmlqWrites, Wr.key]
  · rw [lives_keep _ "nIter" (by simp [cgsClass, krylovTouched]) ?_ a ha]
    · simp [cgsClass, attrsOf, baseAttrs, List.lookup]
    · intro args ws h
      cases h
      exact hk _
  · rw [lives_keep _ "nIter" (by simp [biClass, krylovTouched]) ?_ a ha]
    · simp [biClass, attrsOf, baseAttrs, List.lookup]
    · intro args ws h
      cases h
      exact hk _
  · rw [lives_keep _ "nIter" (by simp [tfClass, krylovTouched]) ?_ a ha]
    · simp [tfClass, attrsOf, baseAttrs, List.lookup]
    · intro args ws h
      obtain ⟨r, -, rfl⟩ := Except.map_ok h
      exact hk _
  · rw [lives_keep _ "nIter" (by simp [minresClass]) ?_ a ha]
    · simp [minresClass, attrsOf, baseAttrs, List.lookup]
    · intro args ws h
      obtain ⟨r, -, rfl⟩ := Except.map_ok h
      intro w hw
      simp only [minresWrites, List.mem_append, List.mem_cons, List.not_mem_nil, or_false] at hw
      split at hw <;> split at hw <;> aesop (add norm simp [Wr.key])

end square

section rectangular
variable [Scalar S] [Vect S U] [Vect S V]

/-- **C89, new objects.**  The least-squares solvers. -/
theorem C89_new_rectangular (A : V → U) (AT : U → V) (m n : Nat) :
    NothingYet (lsqrClass (S := S) A AT n).init ∧ NothingYet (lsmrClass (S := S) A AT m n).init ∧
    NothingYet (craigClass (S := S) A AT n).init ∧ NothingYet (craigmrClass (S := S) A AT m n).init ∧
    (lsqrClass (S := S) A AT n).init "optimal" = some (.bool false) ∧ (lsmrClass (S := S) A AT m n).init "optimal" = some (.bool false) ∧
    (craigClass (S := S) A AT n).init "optimal" = some (.bool false) ∧
    (craigmrClass (S := S) A AT m n).init "optimal" = some (.bool false) := by
  simp [NothingYet, lsqrClass, lsmrClass, craigClass, craigmrClass, craigmrAttrs, lsAttrs, attrsOf, baseAttrs, List.lookup]

theorem statusWrites_key (istop : Nat) (w : Wr S U V) (hw : w ∈ statusWrites istop) : w.key = "status" := by
  simp only [statusWrites, List.mem_append] at hw
  rcases hw with (((hw | hw) | hw) | hw) | hw <;> split at hw <;> simp at hw <;> rw [hw] <;> rfl

theorem lsqrWrites_key (res : LsqrRes S V) (k : String) (hk : k ∉ (lsqrClass (S := S) (fun v : V => v) (fun v : V => v) 0).touched)
    (w : Wr S U V) (hw : w ∈ lsqrWrites res) : w.key ≠ k := by
  rintro rfl
  apply hk
  simp only [lsqrWrites, List.mem_append, List.mem_cons, List.not_mem_nil, or_false] at hw
  rcases hw with (((hw | hw) | hw) | hw) | hw
  · rcases hw with rfl | rfl | rfl | rfl <;> simp [lsqrClass, Wr.key]
  · split at hw <;> simp at hw
    rw [hw]
    simp [lsqrClass, Wr.key]
  · rcases hw with rfl | rfl | rfl | rfl <;> simp [lsqrClass, Wr.key]
  · rw [statusWrites_key _ _ hw]
    simp [lsqrClass]
  · rcases hw with rfl | rfl | rfl | rfl | rfl | rfl | rfl | rfl | rfl | rfl | rfl | rfl | rfl | rfl <;> simp [lsqrClass, Wr.key]

/-- **C89, negative.**  `converged` is `False`, `nIter` is zero and `residNorm0` is `None` in all states of an LSQR object. -/
theorem C89_lsqr_violated (A : V → U) (AT : U → V) (n : Nat) (a : Attrs S U V) (ha : (lsqrClass (S := S) A AT n).Lives a) :
    a "converged" = some (.bool false) ∧ a "nIter" = some (.int 0) ∧ a "residNorm0" = some .none ∧ a "residHistory" = some (.list []) := by
  have hw : ∀ k, k ∉ (lsqrClass (S := S) A AT n).touched → a k = (lsqrClass (S := S) A AT n).init k := fun k hk =>
    lives_keep _ k hk (fun args ws h => by
      obtain ⟨r, -, rfl⟩ := Except.map_ok h
      exact lsqrWrites_key r.1 k hk) a ha
  refine ⟨?_, ?_, ?_, ?_⟩ <;>
    · rw [hw _ (by simp [lsqrClass])]
      simp [lsqrClass, lsAttrs, attrsOf, baseAttrs, List.lookup]

/-- **C89, negative.**  After any number of calls of LSMR the object shows `bestSolution = None`, `converged = optimal = False`, `nMatvec = 0`,
`itn = 0`, `istop = 0` and `residNorm = None`: the results other than `x` and the lists are only returned. -/
theorem C89_lsmr_violated (A : V → U) (AT : U → V) (m n : Nat) (a : Attrs S U V) (ha : (lsmrClass (S := S) A AT m n).Lives a) :
    a "converged" = some (.bool false) ∧ a "optimal" = some (.bool false) ∧ a "bestSolution" = some .none ∧ a "nMatvec" = some (.int 0) ∧
    a "nIter" = some (.int 0) ∧ a "itn" = some (.int 0) ∧ a "istop" = some (.int 0) ∧ a "residNorm" = some .none := by
  have hw : ∀ k, k ∉ (lsmrClass (S := S) A AT m n).touched → a k = (lsmrClass (S := S) A AT m n).init k := fun k hk =>
    lives_keep _ k hk (fun args ws h => by
      obtain ⟨r, -, rfl⟩ := Except.map_ok h
      rintro w hw rfl
      apply hk
      simp only [lsmrWrites, List.mem_append, List.mem_cons, List.not_mem_nil, or_false] at hw
      rcases hw with hw | hw
      · rcases hw with rfl | rfl | rfl | rfl | rfl | rfl | rfl | rfl | rfl | rfl <;> simp [lsmrClass, Wr.key]
      · split at hw <;> simp at hw
        rw [hw]
        simp [lsmrClass, Wr.key]) a ha
  refine ⟨?_, ?_, ?_, ?_, ?_, ?_, ?_, ?_⟩ <;>
    · rw [hw _ (by simp [lsmrClass])]
      simp [lsmrClass, lsAttrs, attrsOf, baseAttrs, List.lookup]

/-- **C89, negative.**  CRAIG never sets `converged`, nor `residNorm`, the attribute of the base class for the residual norm. -/
theorem C89_craig_violated (A : V → U) (AT : U → V) (n : Nat) (a : Attrs S U V) (ha : (craigClass (S := S) A AT n).Lives a) :
    a "converged" = some (.bool false) ∧ a "nIter" = some (.int 0) ∧ a "residNorm" = some .none ∧ a "residHistory" = some (.list []) := by
  have hw : ∀ k, k ∉ (craigClass (S := S) A AT n).touched → a k = (craigClass (S := S) A AT n).init k := fun k hk =>
    lives_keep _ k hk (fun args ws h => by
      obtain ⟨r, -, rfl⟩ := Except.map_ok h
      rintro w hw rfl
      apply hk
      simp only [craigWrites, List.mem_append, List.mem_cons, List.not_mem_nil, or_false] at hw
      rcases hw with (((hw | hw) | hw) | hw) | hw
      · rcases hw with rfl | rfl | rfl | rfl | rfl | rfl | rfl <;> simp [craigClass, Wr.key]
      · split at hw <;> simp at hw
        rw [hw]
        simp [craigClass, Wr.key]
      · rcases hw with rfl | rfl | rfl | rfl | rfl | rfl <;> simp [craigClass, Wr.key]
      · rw [statusWrites_key _ _ hw]
        simp [craigClass]
      · rcases hw with rfl | rfl | rfl | rfl | rfl | rfl | rfl | rfl | rfl | rfl | rfl <;> simp [craigClass, Wr.key]) a ha
  refine ⟨?_, ?_, ?_, ?_⟩ <;>
    · rw [hw _ (by simp [craigClass])]
      simp [craigClass, lsAttrs, attrsOf, baseAttrs, List.lookup]

/-- **C89, negative.**  CRAIG-MR never sets `converged` nor `residNorm`. -/
theorem C89_craigmr_violated (A : V → U) (AT : U → V) (m n : Nat) (a : Attrs S U V) (ha : (craigmrClass (S := S) A AT m n).Lives a) :
    a "converged" = some (.bool false) ∧ a "nIter" = some (.int 0) ∧ a "residNorm" = some .none ∧ a "residHistory" = some (.list []) := by
  have hw : ∀ k, k ∉ (craigmrClass (S := S) A AT m n).touched → a k = (craigmrClass (S := S) A AT m n).init k := fun k hk =>
    lives_keep _ k hk (fun args ws h => by
      obtain ⟨r, -, rfl⟩ := Except.map_ok h
      rintro w hw rfl
      apply hk
      simp only [craigmrWrites, List.mem_append, List.mem_cons, List.not_mem_nil, or_false] at hw
      rcases hw with ((hw | hw) | hw) | hw
      · obtain ⟨p, hp, rfl⟩ := List.mem_map.1 hw
        simp only [craigmrClass, List.mem_append, Wr.key]
        exact .inl (List.mem_map_of_mem hp)
      · rcases hw with rfl | rfl | rfl | rfl <;> simp [craigmrClass, craigmrAttrs, lsAttrs, Wr.key]
      · rw [statusWrites_key _ _ hw]
        simp [craigmrClass]
      · rcases hw with rfl | rfl | rfl | rfl | rfl | rfl <;> simp [craigmrClass, craigmrAttrs, lsAttrs, Wr.key]) a ha
  refine ⟨?_, ?_, ?_, ?_⟩ <;>
    · rw [hw _ (by simp [craigmrClass, craigmrAttrs, lsAttrs])]
      simp [craigmrClass, craigmrAttrs, lsAttrs, attrsOf, baseAttrs, List.lookup]

end rectangular

/-- LSMR with `A = diag(1, 2)` and `damp = 1`: the call returns, and the object still shows no solution -/
example :
    let q := lsmrDemo 2 1 1 1 none
    let c := lsmrClass (Vec.op q.A) (Vec.op q.B) 2 2
    ∃ a, c.call c.init (.fin q.b, q.kw) = .ok a ∧ a "bestSolution" = some .none ∧ a "optimal" = some (.bool false) := by
  intro q c
  obtain ⟨res, s, h, -⟩ := C51_converges q (lsmrDemo_valid _ _ _ _ _) none
    (by
      intro h
      have h0 := congrArg (fun x => x 0) h
      simp [q, lsmrDemo] at h0)
    (by simp [q, lsmrDemo])
    (by
      rintro x ⟨h1, h2⟩
      have h2' : x = 0 := by simpa [q, lsmrDemo] using h2
      rw [h2', map_zero] at h1
      have h0 := congrArg (fun x => x 0) h1
      simp [q, lsmrDemo] at h0)
  have h' : lsmrSolve (Vec.op q.A) (Vec.op q.B) 2 2 (.fin q.b) q.kw none = .ok (res, s) := h
  have hc : c.call c.init (.fin q.b, q.kw) = .ok (writeAll (lsmrWrites res) c.init) := by
    simp only [c, PySolver.call, lsmrClass, h']
    rfl
  have hu := C89_lsmr_violated _ _ _ _ _ (PySolver.Lives.returned .new hc)
  exact ⟨_, hc, hu.2.2.1, hu.2.1⟩

end Verif.Solver
