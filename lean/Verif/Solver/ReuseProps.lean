import Verif.Solver.Reuse
import Verif.Solver.MinresFindings
import Verif.Solver.LSQRConv
import Verif.Solver.LSMRConv
import Verif.Solver.CraigConv
import Verif.Solver.CraigmrExact
import Verif.Solver.SymmlqProps
import Verif.Solver.TFQMRProps

/-!
# C69: solver objects can be used again

An object that has been used before - any number of calls of `solve`, with any arguments, whether they returned or were cut short by
an exception - is compared with a new object: the same call leaves the same values in the attributes.  (CG has attributes that `solve`
reads before it assigns them; for CG see C30.)
-/

namespace Verif.Solver
open Scalar Vect

section spec
variable {Args S U V : Type}

/-- The specification: a call that returns leaves, on an object of the class in any state, the same attributes as on a new object,
except possibly the attributes in `except`. -/
def AsNew (c : PySolver Args S U V) (except : List String) : Prop :=
  ∀ a, c.Lives a → ∀ args a', c.call a args = .ok a' → ∃ a₀, c.call c.init args = .ok a₀ ∧ ∀ k, k ∉ except → a' k = a₀ k

theorem Except.map_ok {ε α β : Type} {e : Except ε α} {f : α → β} {y : β} (h : e.map f = .ok y) : ∃ x, e = .ok x ∧ f x = y := by
  cases e with
  | error e => cases h
  | ok x => cases h; exact ⟨x, rfl, rfl⟩

theorem writeAll_nil (a : Attrs S U V) : writeAll [] a = a := rfl

theorem writeAll_cons (w : Wr S U V) (ws : List (Wr S U V)) (a : Attrs S U V) : writeAll (w :: ws) a = writeAll ws (w.exec a) := rfl

theorem writeAll_append (ws ws' : List (Wr S U V)) (a : Attrs S U V) : writeAll (ws ++ ws') a = writeAll ws' (writeAll ws a) := by
  simp [writeAll, List.foldl_append]

theorem Wr.exec_congr (w : Wr S U V) {a b : Attrs S U V} {k : String} (h : a k = b k) : w.exec a k = w.exec b k := by
  cases w with
  | set j v => simp only [Wr.exec]; split <;> simp_all
  | app j l =>
    simp only [Wr.exec]
    split
    · rename_i e; subst e; rw [h]
    · exact h

theorem writeAll_congr (ws : List (Wr S U V)) {a b : Attrs S U V} {k : String} (h : a k = b k) : writeAll ws a k = writeAll ws b k := by
  induction ws generalizing a b with
  | nil => exact h
  | cons w ws ih => exact ih (w.exec_congr h)

/-- an attribute that is assigned does not depend on the state before -/
theorem writeAll_set (ws : List (Wr S U V)) (a b : Attrs S U V) (k : String) (h : ∃ v, Wr.set k v ∈ ws) : writeAll ws a k = writeAll ws b k := by
  induction ws generalizing a b with
  | nil => obtain ⟨v, hv⟩ := h; simp at hv
  | cons w ws ih =>
    obtain ⟨v, hv⟩ := h
    rcases List.mem_cons.1 hv with rfl | hv
    · rw [writeAll_cons, writeAll_cons]
      exact writeAll_congr _ (by simp [Wr.exec])
    · exact ih _ _ ⟨v, hv⟩

theorem writeAll_not_mem (ws : List (Wr S U V)) (a : Attrs S U V) (k : String) (h : ∀ w ∈ ws, w.key ≠ k) : writeAll ws a k = a k := by
  induction ws generalizing a with
  | nil => rfl
  | cons w ws ih =>
    rw [writeAll_cons, ih _ fun w' hw' => h w' (List.mem_cons_of_mem _ hw')]
    have := h w List.mem_cons_self
    cases w with
    | set j v => simp only [Wr.key] at this; simp [Wr.exec, Ne.symm this]
    | app j l => simp only [Wr.key] at this; simp [Wr.exec, Ne.symm this]

/-- effect of a statement on one attribute -/
def Wr.step (k : String) (o : Option (PyV S U V)) : Wr S U V → Option (PyV S U V)
  | .set j v => if j = k then some v else o
  | .app j l => if j = k then match o with
      | some (.list m) => some (.list (m ++ l))
      | v => v
    else o

theorem writeAll_eq (ws : List (Wr S U V)) (a : Attrs S U V) (k : String) : writeAll ws a k = ws.foldl (Wr.step k) (a k) := by
  induction ws generalizing a with
  | nil => rfl
  | cons w ws ih =>
    rw [writeAll_cons, ih, List.foldl_cons]
    congr 1
    cases w with
    | set j v => simp only [Wr.exec, Wr.step, eq_comm]
    | app j l =>
      simp only [Wr.exec, Wr.step]
      by_cases e : k = j
      · subst e; simp only [if_true]; rfl
      · simp [e, Ne.symm e]

/-- what has to be checked for a class -/
theorem asNew_of (c : PySolver Args S U V) (except : List String)
    (h : ∀ args ws, c.solve args = .ok ws → (∀ w ∈ ws, w.key ∈ c.touched) ∧ ∀ k ∈ c.touched, k ∉ except → ∃ v, Wr.set k v ∈ ws) :
    AsNew c except := by
  have hun : ∀ a, c.Lives a → ∀ k, k ∉ c.touched → a k = c.init k := by
    intro a ha
    induction ha with
    | new => intro k _; rfl
    | returned _ hs ih =>
      intro k hk
      obtain ⟨ws, hs', rfl⟩ := Except.map_ok hs
      rw [writeAll_not_mem _ _ k (fun w hw e => hk (by rw [← e]; exact (h _ _ hs').1 w hw)), ih k hk]
    | raised _ hr ih => intro k hk; rw [hr k hk, ih k hk]
  intro a ha args a' hs
  obtain ⟨ws, hs', rfl⟩ := Except.map_ok hs
  refine ⟨writeAll ws c.init, by simp only [PySolver.call, hs']; rfl, fun k hk => ?_⟩
  by_cases ht : k ∈ c.touched
  · exact writeAll_set _ _ _ _ ((h _ _ hs').2 k ht hk)
  · exact writeAll_congr _ (hun a ha k ht)

end spec

/-! ## CGS, Bi-CGSTAB and TFQMR -/

section square
variable {S V : Type} [Scalar S] [Vect S V]

theorem krylovWrites_ok (res : KrylovRes S V) :
    (∀ w ∈ krylovWrites res, w.key ∈ krylovTouched) ∧ ∀ k ∈ krylovTouched, k ∉ ([] : List String) → ∃ v, Wr.set k v ∈ krylovWrites res := by
  refine ⟨by simp [krylovWrites, krylovTouched, Wr.key], ?_⟩
  simp [krylovWrites, krylovTouched]

/-- **C69 for CGS.** -/
theorem C69_cgs (op : V → V) (o : KrylovOpts S V) : AsNew (cgsClass op o) [] :=
  asNew_of _ _ fun args ws h => by
    cases h
    exact krylovWrites_ok _

/-- **C69 for Bi-CGSTAB.** -/
theorem C69_bicgstab (op : V → V) (o : KrylovOpts S V) : AsNew (biClass op o) [] :=
  asNew_of _ _ fun args ws h => by
    cases h
    exact krylovWrites_ok _

/-- **C69 for TFQMR.** -/
theorem C69_tfqmr (op : V → V) (o : KrylovOpts S V) : AsNew (tfClass op o) [] :=
  asNew_of _ _ fun args ws h => by
    obtain ⟨r, -, rfl⟩ := Except.map_ok h
    exact krylovWrites_ok _

/-- The attributes of a CGS, Bi-CGSTAB or TFQMR object in any state after a call that returned `res`. -/
theorem C69_krylov_values (res : KrylovRes S V) (a : Attrs S V V) :
    let a' := writeAll (krylovWrites res) a
    a' "x" = some (.vec res.x) ∧ a' "bestSolution" = some (.vec res.x) ∧ a' "converged" = some (.bool res.converged) ∧
    a' "nMatvec" = some (.int res.nMatvec) ∧ a' "residNorm" = some (.scal res.residNorm) ∧
    a' "residNorm0" = some (.scal res.residNorm0) := by
  simp [krylovWrites, writeAll_eq, Wr.step]

/-! ## MINRES -/

/-- **C69 for MINRES (partial).**  Missing: `residHistory` grows from call to call (`C69_minres_history`), `status` and `show` are
never reset (`C69_minres_status`). -/
theorem C69_minres_partial (op : V → V) (eps : S) : AsNew (minresClass op eps) ["residHistory", "status", "show"] :=
  asNew_of _ _ fun args ws h => by
    obtain ⟨r, -, rfl⟩ := Except.map_ok h
    constructor
    · intro w hw
      simp only [minresWrites, List.mem_append, List.mem_cons, List.not_mem_nil, or_false] at hw
      split at hw <;> split at hw <;> aesop (add norm simp [minresClass, Wr.key])
    · simp [minresClass, minresWrites]

/-- the state of the loop with other entries in front of `residHistory` -/
def MinresLoop.pre (h : List S) (s : MinresLoop S V) : MinresLoop S V := { s with residHistory := h ++ s.residHistory }

theorem minresStep_pre (op : V → V) (eps : S) (kw : MinresKw S V) (itnlim : Nat) (beta1 : S) (h : List S) (s : MinresLoop S V) :
    minresStep op eps kw itnlim beta1 (s.pre h) = (minresStep op eps kw itnlim beta1 s).pre h := by
  have hL : ∀ k, minresLanczos op kw k (s.pre h) = minresLanczos op kw k s := fun k => rfl
  unfold minresStep
  simp only [hL]
  have e : (s.pre h).itn = s.itn := rfl
  rw [e]
  rcases minresLanczos op kw (s.itn + 1) s with ⟨v, alfa, r2, y, bb⟩
  simp only
  cases lt bb (lit 0)
  · simp [MinresLoop.pre]
  · rfl

/-- **C69 for MINRES, `solve` does not read the history.**  The model of `solve` takes the history of the object; a call on an object
with another history gives the same result, with the entries it appended behind that history. -/
theorem C69_minres_reads_nothing (op : V → V) (eps : S) (n : Nat) (h : List S) (b : V) (kw : MinresKw S V) :
    minresSolve op eps n { residHistory := h } b kw =
      (minresSolve op eps n {} b kw).map fun r => ({ r.1 with residHistory := h ++ r.1.residHistory }, r.2) := by
  have hi : minresInit kw { residHistory := h } b = (minresInit kw {} b).pre h := by
    simp [minresInit, MinresLoop.pre]
  have hloop : ∀ lim beta1 s, minresLoop op eps kw lim beta1 (s.pre h) = (minresLoop op eps kw lim beta1 s).pre h := by
    intro lim beta1 s
    refine (whileLoop_sim (fun s t => t = s.pre h) ?_ ?_ s (s.pre h) rfl)
    · rintro s t rfl; rfl
    · rintro s t rfl -; exact minresStep_pre op eps kw lim beta1 h s
  unfold minresSolve
  simp only [hi]
  have hL : ∀ k s, minresLanczos op kw k (MinresLoop.pre h s) = minresLanczos op kw k s := fun k s => rfl
  simp only [hL, hloop]
  split
  · rfl
  · split <;> rfl

omit [Scalar S] [Vect S V] in
/-- one more call -/
theorem foldlM_call {Args α : Type} {c : PySolver (α) S V V} {l : List Args} {f : Args → α} {x : Args} {a a₀ a' : Attrs S V V}
    (h : (l.map f).foldlM c.call a₀ = .ok a) (h' : c.call a (f x) = .ok a') : ((l ++ [x]).map f).foldlM c.call a₀ = .ok a' := by
  rw [List.map_append, List.foldlM_append, h]
  change (c.call a (f x) >>= pure) = _
  rw [h']
  rfl

theorem minres_call (op : V → V) (eps : S) (a : Attrs S V V) (c : (Nat × V × MinresKw S V) × MinresRes S V × List V)
    (h : minresSolve op eps c.1.1 {} c.1.2.1 c.1.2.2 = .ok c.2) :
    (minresClass op eps).call a c.1 = .ok (writeAll (minresWrites (minresShow c.1.2.2 c.1.2.1) c.2.1) a) := by
  simp only [PySolver.call, minresClass, h]
  rfl

/-- **C69 for MINRES, negative.**  `residHistory` is never cleared: after any sequence of calls that return it holds the residual norms
of all these calls. -/
theorem C69_minres_history (op : V → V) (eps : S) (calls : List ((Nat × V × MinresKw S V) × MinresRes S V × List V))
    (h : ∀ c ∈ calls, minresSolve op eps c.1.1 {} c.1.2.1 c.1.2.2 = .ok c.2) :
    ∃ a, (calls.map Prod.fst).foldlM (minresClass op eps).call (minresClass op eps).init = .ok a ∧
      a "residHistory" = some (.list (calls.flatMap fun c => c.2.1.residHistory.map .scal)) := by
  induction calls using List.reverseRecOn with
  | nil => exact ⟨_, rfl, by simp [minresClass, attrsOf]⟩
  | append_singleton calls c ih =>
    obtain ⟨a, ha, hh⟩ := ih fun c hc => h c (by simp [hc])
    refine ⟨_, foldlM_call ha (minres_call op eps a c (h c (by simp))), ?_⟩
    rw [List.flatMap_append, List.flatMap_singleton]
    generalize minresShow c.1.2.2 c.1.2.1 = sh
    cases sh <;> by_cases h10 : c.2.1.istop = 10 <;> simp [minresWrites, writeAll_eq, Wr.step, h10, hh]

/-- **C69 for MINRES, negative.**  The attribute `status` is only assigned by a call that stops for a small direct error, and is
`'direct error small'` ever after: also when a later call fails. -/
theorem C69_minres_status (op : V → V) (eps : S) (calls : List ((Nat × V × MinresKw S V) × MinresRes S V × List V))
    (h : ∀ c ∈ calls, minresSolve op eps c.1.1 {} c.1.2.1 c.1.2.2 = .ok c.2) :
    ∃ a, (calls.map Prod.fst).foldlM (minresClass op eps).call (minresClass op eps).init = .ok a ∧
      ((∃ c ∈ calls, c.2.1.istop = 10) → a "status" = some (.str "direct error small")) ∧
      ((∀ c ∈ calls, c.2.1.istop ≠ 10) → a "status" = none) := by
  induction calls using List.reverseRecOn with
  | nil => exact ⟨_, rfl, by simp [minresClass, attrsOf, baseAttrs]⟩
  | append_singleton calls c ih =>
    obtain ⟨a, ha, hh⟩ := ih fun c hc => h c (by simp [hc])
    refine ⟨_, foldlM_call ha (minres_call op eps a c (h c (by simp))), ?_⟩
    generalize minresShow c.1.2.2 c.1.2.1 = sh
    have hst : writeAll (minresWrites sh c.2.1) a "status" =
        if c.2.1.istop = 10 then some (.str "direct error small") else a "status" := by
      cases sh <;> by_cases h10 : c.2.1.istop = 10 <;> simp [minresWrites, writeAll_eq, Wr.step, h10]
    rw [hst]
    refine ⟨fun ⟨d, hd, h10⟩ => ?_, fun hn => ?_⟩
    · rcases List.mem_append.1 hd with hd | hd
      · rw [hh.1 ⟨d, hd, h10⟩, ite_self]
      · rw [if_pos (by rw [← List.mem_singleton.1 hd]; exact h10)]
    · rw [if_neg (hn c (by simp)), hh.2 fun d hd => hn d (by simp [hd])]

/-- **C69 for MINRES.**  The attribute `show` is left as it was by a call with `b'Mb > 0` whose operator passes the symmetry check or is
not checked; any other call that returns leaves it `True`, also when the caller asked for `show=False`. -/
theorem C69_minres_show (op : V → V) (eps : S) (n : Nat) (b : V) (kw : MinresKw S V) (a a' : Attrs S V V)
    (h : (minresClass op eps).call a (n, b, kw) = .ok a') :
    ((lt (dot b (applyPrecon kw.precon b)) (lit 0) = false ∧ feq (dot b (applyPrecon kw.precon b)) (lit 0) = false ∧
        (kw.check = true → kw.symOK = true)) → a' "show" = a "show") ∧
    (¬ (lt (dot b (applyPrecon kw.precon b)) (lit 0) = false ∧ feq (dot b (applyPrecon kw.precon b)) (lit 0) = false ∧
        (kw.check = true → kw.symOK = true)) → a' "show" = some (.bool true)) := by
  cases hs : minresSolve op eps n {} b kw with
  | error e =>
    simp only [PySolver.call, minresClass, hs] at h
    cases h
  | ok r =>
    rw [minres_call op eps a ((n, b, kw), r) hs] at h
    cases h
    have hw : ∀ sh, writeAll (minresWrites sh r.1) a "show" = if sh then some (.bool true) else a "show" := by
      intro sh
      cases sh <;> by_cases h10 : r.1.istop = 10 <;> simp [minresWrites, writeAll_eq, Wr.step, h10]
    simp only [hw, minresShow]
    cases lt (dot b (applyPrecon kw.precon b)) (lit 0) <;> cases feq (dot b (applyPrecon kw.precon b)) (lit 0) <;>
      cases kw.check <;> cases kw.symOK <;> simp

/-- The attributes of a MINRES object in any state after a call that returned `res`. -/
theorem C69_minres_values (sh : Bool) (res : MinresRes S V) (a : Attrs S V V) :
    let a' := writeAll (minresWrites sh res) a
    a' "x" = some (.vec res.x) ∧ a' "bestSolution" = some (.vec res.x) ∧ a' "converged" = some (.bool res.converged) ∧
    a' "istop" = some (.int res.istop) ∧ a' "itn" = some (.int res.itn) ∧ a' "nMatvec" = some (.int res.nMatvec) ∧
    a' "residNorm" = some (.scal res.rnorm) ∧ a' "rnorm" = some (.scal res.rnorm) ∧ a' "residNorm0" = some (.scal res.residNorm0) ∧
    a' "Arnorm" = some (.scal res.Arnorm) ∧ a' "Anorm" = some (.scal res.Anorm) ∧ a' "Acond" = some (.scal res.Acond) ∧
    a' "ynorm" = some (.scal res.ynorm) ∧ a' "iterates" = some (.list (res.iterates.map .vec)) ∧
    a' "dir_errors_window" = some (.list (res.dirErrors.map .scal)) := by
  cases sh <;> by_cases h10 : res.istop = 10 <;> simp [minresWrites, writeAll_eq, Wr.step, h10]

/-! ## SYMMLQ -/

/-- **C69 for SYMMLQ (partial).**  Missing: `iterates` grows from call to call (`C69_symmlq_iterates`). -/
theorem C69_symmlq_partial (self : SymmlqObj V) : AsNew (symmlqClass (S := S) self) ["iterates"] :=
  asNew_of _ _ fun args ws h => by
    obtain ⟨r, -, rfl⟩ := Except.map_ok h
    refine ⟨by simp [symmlqWrites, symmlqClass, Wr.key], by simp [symmlqWrites, symmlqClass]⟩

/-- **C69 for SYMMLQ, negative.**  `iterates` is never cleared: on an object on which calls have returned it holds the iterates of all
these calls. -/
theorem C69_symmlq_iterates (self : SymmlqObj V) (calls : List ((Nat × V × SymmlqKw S) × SymmlqRes S V × List V))
    (h : ∀ c ∈ calls, symmlqSolve self c.1.1 c.1.2.1 c.1.2.2 = .ok c.2) :
    ∃ a, (calls.map Prod.fst).foldlM (symmlqClass (S := S) self).call (symmlqClass self).init = .ok a ∧
      a "iterates" = some (.list (calls.flatMap fun c => c.2.1.iterates.map .vec)) := by
  induction calls using List.reverseRecOn with
  | nil => exact ⟨_, rfl, by simp [symmlqClass, attrsOf]⟩
  | append_singleton calls c ih =>
    obtain ⟨a, ha, hh⟩ := ih fun c hc => h c (by simp [hc])
    have hc : (symmlqClass self).call a c.1 = .ok (writeAll (symmlqWrites c.2.1) a) := by
      simp only [PySolver.call, symmlqClass, h c (by simp)]
      rfl
    refine ⟨_, foldlM_call ha hc, ?_⟩
    simp [symmlqWrites, writeAll_eq, Wr.step, hh]

/-- The attributes of a SYMMLQ object in any state after a call that returned `res`. -/
theorem C69_symmlq_values (res : SymmlqRes S V) (a : Attrs S V V) :
    let a' := writeAll (symmlqWrites res) a
    a' "x" = some (.vec res.x) ∧ a' "bestSolution" = some (.vec res.x) ∧ a' "nMatvec" = some (.int res.nMatvec) ∧
    a' "residNorm" = some (.scal res.residNorm) ∧ a' "xNorm" = some (.scal res.xNorm) ∧ a' "solutionNorm" = some (.scal res.xNorm) ∧
    a' "acond" = some (.scal res.acond) ∧ a' "anorm" = some (.scal res.anorm) := by
  simp [symmlqWrites, writeAll_eq, Wr.step]

end square

/-! ## The least-squares and least-norm solvers -/

section rectangular
variable {S U V : Type} [Scalar S] [Vect S U] [Vect S V]

theorem statusWrites_ok (istop : Nat) (h : istop ≤ 8) :
    (∀ w ∈ (statusWrites istop : List (Wr S U V)), w.key = "status") ∧ ∃ v, Wr.set "status" v ∈ (statusWrites istop : List (Wr S U V)) := by
  interval_cases istop <;> simp [statusWrites, Wr.key]

theorem statusWrites_step (istop : Nat) (k : String) (hk : k ≠ "status") (o : Option (PyV S U V)) :
    (statusWrites istop).foldl (Wr.step k) o = o := by
  have : ∀ w ∈ (statusWrites istop : List (Wr S U V)), w.key = "status" := by
    simp only [statusWrites, List.mem_append]
    rintro w ((((h | h) | h) | h) | h) <;> split at h <;> simp_all [Wr.key]
  have h2 := writeAll_not_mem (statusWrites istop) (fun _ => o) k fun w hw e => hk (by rw [← e, this w hw])
  rwa [writeAll_eq] at h2

/-- **C69 for LSQR (partial).**  Missing: `ctol` (`C69_lsqr_ctol`). -/
theorem C69_lsqr_partial (A : V → U) (AT : U → V) (n : Nat) : AsNew (lsqrClass (S := S) A AT n) ["ctol"] :=
  asNew_of _ _ fun args ws h => by
    obtain ⟨r, hr, rfl⟩ := Except.map_ok h
    have h8 := (C37_status_partial _ _ _ _ _ r.1 r.2 hr).2.1
    obtain ⟨h1, v, h2⟩ := statusWrites_ok (S := S) (U := U) (V := V) r.1.istop h8
    constructor
    · intro w hw
      simp only [lsqrWrites, List.mem_append, List.mem_cons, List.not_mem_nil, or_false] at hw
      rcases hw with (((hw | hw) | hw) | hw) | hw
      · aesop (add norm simp [lsqrClass, Wr.key])
      · split at hw <;> aesop (add norm simp [lsqrClass, Wr.key])
      · aesop (add norm simp [lsqrClass, Wr.key])
      · simp [lsqrClass, h1 w hw]
      · aesop (add norm simp [lsqrClass, Wr.key])
    · simp only [lsqrClass, lsqrWrites, List.mem_append]
      have : ∃ v, Wr.set "status" v ∈ (statusWrites r.1.istop : List (Wr S U V)) := ⟨v, h2⟩
      simp [exists_or, this]

/-- The attributes of an LSQR object in any state after a call that returned `res`. -/
theorem C69_lsqr_values (res : LsqrRes S V) (a : Attrs S U V) :
    let a' := writeAll (lsqrWrites res) a
    a' "x" = some (.vec res.x) ∧ a' "bestSolution" = some (.vec res.x) ∧ a' "optimal" = some (.bool res.optimal) ∧
    a' "istop" = some (.int res.istop) ∧ a' "itn" = some (.int res.itn) ∧ a' "nMatvec" = some (.int res.nMatvec) ∧
    a' "r1norm" = some (.scal res.r1norm) ∧ a' "r2norm" = some (.scal res.r2norm) ∧ a' "residNorm" = some (.scal res.r2norm) ∧
    a' "Anorm" = some (.scal res.Anorm) ∧ a' "Acond" = some (.scal res.Acond) ∧ a' "Arnorm" = some (.scal res.Arnorm) ∧
    a' "xnorm" = some (.scal res.xnorm) ∧ a' "iterates" = some (.list (res.iterates.map .vec)) ∧
    a' "resids" = some (.list (res.resids.map .scal)) ∧ a' "normal_eqns_resids" = some (.list (res.normalEqns.map .scal)) ∧
    a' "dir_errors_window" = some (.list (res.dirErrors.map .scal)) := by
  have hs := fun k hk o => statusWrites_step (S := S) (U := U) (V := V) res.istop k hk o
  cases hc : res.ctol <;> simp [lsqrWrites, writeAll_eq, Wr.step, hs, hc]

/-- **C69 for LSMR (partial).**  Missing: `x` is not assigned by a call that returns early (`C69_lsmr_x`). -/
theorem C69_lsmr_partial (A : V → U) (AT : U → V) (m n : Nat) : AsNew (lsmrClass (S := S) A AT m n) ["x"] :=
  asNew_of _ _ fun args ws h => by
    obtain ⟨r, hr, rfl⟩ := Except.map_ok h
    constructor
    · cases hx : r.1.selfX <;> simp [lsmrWrites, lsmrClass, hx, Wr.key]
    · simp [lsmrWrites, lsmrClass]

/-- **C69 for CRAIG (partial).**  Missing: `ctol` (`C69_craig_ctol`). -/
theorem C69_craig_partial (A : V → U) (AT : U → V) (n : Nat) : AsNew (craigClass (S := S) A AT n) ["ctol"] :=
  asNew_of _ _ fun args ws h => by
    obtain ⟨r, hr, rfl⟩ := Except.map_ok h
    have h8 : r.1.istop ≤ 8 := by
      have := (C41_status_partial _ _ _ _ _ r.1 r.2 hr).2.2.2.2.1
      simp only [List.mem_cons, List.not_mem_nil, or_false] at this
      omega
    obtain ⟨h1, h2⟩ := statusWrites_ok (S := S) (U := U) (V := V) r.1.istop h8
    constructor
    · intro w hw
      simp only [craigWrites, List.mem_append] at hw
      rcases hw with (((hw | hw) | hw) | hw) | hw
      · aesop (add norm simp [craigClass, Wr.key])
      · split at hw <;> aesop (add norm simp [craigClass, Wr.key])
      · aesop (add norm simp [craigClass, Wr.key])
      · simp [craigClass, h1 w hw]
      · aesop (add norm simp [craigClass, Wr.key])
    · simp only [craigClass, craigWrites, List.mem_append]
      simp [exists_or, h2]

/-- **C69 for CRAIG-MR.** -/
theorem C69_craigmr (A : V → U) (AT : U → V) (m n : Nat) : AsNew (craigmrClass (S := S) A AT m n) [] :=
  asNew_of _ _ fun args ws h => by
    obtain ⟨r, hr, rfl⟩ := Except.map_ok h
    have h8 : r.1.istop ≤ 8 := by
      have := (C42_status _ _ _ _ _ _ r.1 r.2 hr).2.1
      simp only [List.mem_cons, List.not_mem_nil, or_false] at this
      omega
    obtain ⟨h1, h2⟩ := statusWrites_ok (S := S) (U := U) (V := V) r.1.istop h8
    constructor
    · intro w hw
      simp only [craigmrWrites, List.mem_append] at hw
      rcases hw with ((hw | hw) | hw) | hw
      · aesop (add norm simp [craigmrClass, craigmrAttrs, lsAttrs, Wr.key])
      · aesop (add norm simp [craigmrClass, craigmrAttrs, lsAttrs, Wr.key])
      · simp [craigmrClass, h1 w hw]
      · aesop (add norm simp [craigmrClass, craigmrAttrs, lsAttrs, Wr.key])
    · intro k hk _
      simp only [craigmrClass, craigmrAttrs, lsAttrs, List.map_append, List.map_cons, List.map_nil, List.cons_append, List.nil_append,
        List.mem_cons, List.not_mem_nil, or_false] at hk
      have hmem : ∀ p : String × PyV S U V, p ∈ craigmrAttrs → ∃ v, Wr.set p.1 v ∈ (craigmrWrites r.1 : List (Wr S U V)) := by
        intro p hp
        refine ⟨p.2, ?_⟩
        simp only [craigmrWrites, List.mem_append, List.mem_map]
        exact Or.inl (Or.inl (Or.inl ⟨p, hp, rfl⟩))
      have hlast : ∀ k ∈ ["bestSolution", "nMatvec"], ∃ v, Wr.set k v ∈ (craigmrWrites r.1 : List (Wr S U V)) := by
        simp [craigmrWrites, exists_or]
      have hst : ∃ v, Wr.set "status" v ∈ (craigmrWrites r.1 : List (Wr S U V)) := by
        obtain ⟨v, hv⟩ := h2
        refine ⟨v, ?_⟩
        simp only [craigmrWrites, List.mem_append]
        exact Or.inl (Or.inr hv)
      by_cases h3 : k = "status"
      · rw [h3]; exact hst
      by_cases h4 : k ∈ ["bestSolution", "nMatvec"]
      · exact hlast k h4
      have : k ∈ (craigmrAttrs : List (String × PyV S U V)).map Prod.fst := by
        simp only [craigmrAttrs, lsAttrs, List.map_append, List.map_cons, List.map_nil, List.cons_append, List.nil_append, List.mem_cons,
          List.not_mem_nil, or_false] at h4 ⊢
        tauto
      obtain ⟨p, hp, rfl⟩ := List.mem_map.1 this
      exact hmem p hp

/-- The attributes of an LSMR object in any state after a call that returned `res`. -/
theorem C69_lsmr_values (res : LsmrRes S V) (a : Attrs S U V) :
    let a' := writeAll (lsmrWrites res) a
    (∀ x, res.selfX = some x → a' "x" = some (.vec x)) ∧ (res.selfX = none → a' "x" = a "x") ∧
    a' "iterates" = some (.list (res.iterates.map .vec)) ∧ a' "resids" = some (.list (res.resids.map .scal)) ∧
    a' "normal_eqns_resids" = some (.list (res.normalEqns.map .scal)) ∧ a' "norms" = some (.list (res.norms.map .scal)) ∧
    a' "dir_errors_window" = some (.list (res.dirErrors.map .scal)) := by
  cases hc : res.selfX <;> simp [lsmrWrites, writeAll_eq, Wr.step, hc]

/-- The attributes of a CRAIG object in any state after a call that returned `res`. -/
theorem C69_craig_values (kw : CraigKw S U V) (res : CraigRes S U V) (a : Attrs S U V) :
    let a' := writeAll (craigWrites kw res) a
    a' "x" = some (.vec res.x) ∧ a' "bestSolution" = some (.vec res.x) ∧ a' "r" = some (.rvec res.r) ∧
    a' "optimal" = some (.bool res.optimal) ∧ a' "istop" = some (.int res.istop) ∧ a' "itn" = some (.int res.itn) ∧
    a' "nMatvec" = some (.int res.nMatvec) ∧ a' "r1norm" = some (.scal res.r1norm) ∧ a' "r2norm" = some (.scal res.r2norm) ∧
    a' "Arnorm" = some (.scal res.Arnorm) ∧ a' "xnorm" = some (.scal res.xnorm) ∧
    a' "iterates_p" = some (.list (res.iteratesP.map .vec)) ∧ a' "iterates_d" = some (.list (res.iteratesD.map .rvec)) ∧
    a' "norms" = some (.list (res.norms.map .scal)) ∧ a' "resids" = some (.list (res.resids.map .scal)) ∧
    a' "normal_eqns_resids" = some (.list (res.normalEqns.map .scal)) ∧
    a' "dir_errors_d_window" = some (.list (res.dirErrors.map .scal)) ∧ a' "dir_errors_p_window" = some (.list []) := by
  have hs := fun k hk o => statusWrites_step (S := S) (U := U) (V := V) res.istop k hk o
  by_cases hc : gt kw.conlim (lit 0) = true <;> simp [craigWrites, writeAll_eq, Wr.step, hs, hc]

/-- The attributes of a CRAIG-MR object in any state after a call that returned `res`.  The attributes `Anorm`, `Acond`, `Arnorm`, `xnorm`,
`r1norm`, `r2norm` and `resids` are back at the values of the constructor. -/
theorem C69_craigmr_values (res : CraigmrRes S U) (a : Attrs S U V) :
    let a' := writeAll (craigmrWrites res) a
    a' "x" = some (.rvec res.x) ∧ a' "bestSolution" = some (.rvec res.x) ∧ a' "optimal" = some (.bool res.optimal) ∧
    a' "istop" = some (.int res.istop) ∧ a' "itn" = some (.int res.itn) ∧ a' "nMatvec" = some (.int res.nMatvec) ∧
    a' "iterates" = some (.list (res.iterates.map .rvec)) ∧ a' "norms" = some (.list (res.norms.map .scal)) ∧
    a' "normal_eqns_resids" = some (.list (res.normalEqns.map .scal)) ∧
    a' "dir_errors_window" = some (.list (res.dirErrors.map .scal)) ∧
    a' "Anorm" = some (.scal (lit 0)) ∧ a' "Acond" = some (.scal (lit 0)) ∧ a' "Arnorm" = some (.scal (lit 0)) ∧
    a' "xnorm" = some (.scal (lit 0)) ∧ a' "r1norm" = some (.scal (lit 0)) ∧ a' "r2norm" = some (.scal (lit 0)) ∧
    a' "resids" = some (.list []) := by
  have hs := fun k hk o => statusWrites_step (S := S) (U := U) (V := V) res.istop k hk o
  simp [craigmrWrites, craigmrAttrs, lsAttrs, writeAll_eq, Wr.step, hs]

theorem statusWrites_status (istop : Nat) (h : istop ≤ 8) (o : Option (PyV S U V)) :
    (statusWrites istop).foldl (Wr.step "status") o = some (.str (lsqrStatus istop)) := by
  interval_cases istop <;> simp [statusWrites, Wr.step, lsqrStatus]

/-- The attribute `status` of an LSQR, CRAIG or CRAIG-MR object in any state after a call that returned `res`: it is always assigned. -/
theorem C69_status (A : V → U) (AT : U → V) (m n : Nat) (b : U) (a : Attrs S U V) :
    (∀ kw res s, lsqrSolve (S := S) A AT n b kw = .ok (res, s) → writeAll (lsqrWrites res) a "status" = some (.str res.status)) ∧
    (∀ kw res s, craigSolve (S := S) A AT n b kw = .ok (res, s) → writeAll (craigWrites kw res) a "status" = some (.str res.status)) ∧
    (∀ kw res s, craigmrSolve (S := S) A AT m n b kw = .ok (res, s) →
      writeAll (craigmrWrites res) a "status" = some (.str res.status)) := by
  refine ⟨fun kw res s h => ?_, fun kw res s h => ?_, fun kw res s h => ?_⟩
  · have h8 := (C37_status_partial _ _ _ _ _ _ _ h).2.1
    have hs : res.status = lsqrStatus res.istop := by
      unfold lsqrSolve at h
      simp only [bind, Except.bind] at h
      repeat' split at h
      all_goals first | exact absurd h (by simp) | skip
      cases h
      rfl
    have e := fun o => statusWrites_status (S := S) (U := U) (V := V) res.istop h8 o
    cases hc : res.ctol <;> simp [lsqrWrites, writeAll_eq, Wr.step, e, hs, hc]
  · have h8 := (C41_status_partial _ _ _ _ _ _ _ h).2.2.2.2.1
    have hs := (C41_status_partial _ _ _ _ _ _ _ h).2.2.2.2.2.1
    have hs : res.status = lsqrStatus res.istop := by
      simp only [List.mem_cons, List.not_mem_nil, or_false] at h8
      rcases h8 with h8 | h8 | h8 | h8 <;> rw [hs, h8] <;> rfl
    have e := fun o => statusWrites_status (S := S) (U := U) (V := V) res.istop
      (by simp only [List.mem_cons, List.not_mem_nil, or_false] at h8; omega) o
    by_cases hc : gt kw.conlim (lit 0) = true <;> simp [craigWrites, writeAll_eq, Wr.step, e, hs, hc]
  · have h8 := (C42_status _ _ _ _ _ _ _ _ h).2.1
    have hs := (C42_status _ _ _ _ _ _ _ _ h).2.2.2.2.2.2.1
    have hs : res.status = lsqrStatus res.istop := by
      simp only [List.mem_cons, List.not_mem_nil, or_false] at h8
      rcases h8 with h8 | h8 | h8 <;> rw [hs, h8] <;> rfl
    have e := fun o => statusWrites_status (S := S) (U := U) (V := V) res.istop
      (by simp only [List.mem_cons, List.not_mem_nil, or_false] at h8; omega) o
    simp [craigmrWrites, craigmrAttrs, lsAttrs, writeAll_eq, Wr.step, e, hs]

end rectangular

end Verif.Solver
