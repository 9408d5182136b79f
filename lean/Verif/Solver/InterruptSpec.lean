import Verif.Solver.Reuse
import Verif.Solver.CG

/-!
# Specification: what an interrupted call leaves behind (C79)

An operator, a preconditioner or a signal handler may raise an exception in the middle of `solve`.  The solver object survives, with the
attributes that were assigned so far.
-/

namespace Verif.Solver

variable {S U V : Type}

/-- A list that a call of `solve` fills: the name of the attribute, what is in it when the call begins to append, and what the complete call
appends. -/
structure ListAttr (S U V : Type) where
  key : String
  base : List (PyV S U V)
  new : List (PyV S U V)

/-- `a'` are the attributes after an interrupted call on an object with the attributes `a`.  The complete call fills `lists` and gives
`full`; `others` are the names of attributes that are assigned before the last iteration has ended. -/
inductive LeftBehind (lists : List (ListAttr S U V)) (others : List String) (order : (String → Nat) → Prop) (full a a' : Attrs S U V) : Prop
  /-- the lists are being emptied; nothing else has changed -/
  | early (rest : ∀ k, k ∉ others → k ∉ lists.map ListAttr.key → a' k = a k)
      (filled : ∀ L ∈ lists, a' L.key = a L.key ∨ (L.base = [] ∧ a' L.key = some (.list [])))
  /-- the iterations are running; each list has the first entries of the complete list, `n` of them, and nothing else has changed -/
  | running (n : String → Nat) (ordered : order n) (rest : ∀ k, k ∉ others → k ∉ lists.map ListAttr.key → a' k = a k)
      (filled : ∀ L ∈ lists, n L.key ≤ L.new.length ∧ a' L.key = some (.list (L.base ++ L.new.take (n L.key))))
  /-- the iterations have ended; the lists are complete, and everything else has the old or the new value -/
  | finished (filled : ∀ L ∈ lists, a' L.key = some (.list (L.base ++ L.new)))
      (rest : ∀ k, k ∉ others → a' k = a k ∨ a' k = full k)

/-! ### The lists of the solvers, and the order in which they grow

With both options on, no list is ahead of another by more than the statements of one iteration. -/

/-- the entries of `l'` that are not in `l` -/
def newEntries {β : Type} (f : β → PyV S U V) (l l' : List β) : List (PyV S U V) := (l'.drop l.length).map f

/-- the lists of CG -/
def cgLists (self res : CGObj S V) : List (ListAttr S V V) :=
  [⟨"iterates", self.iterates.map .vec, newEntries .vec self.iterates res.iterates⟩,
   ⟨"resids", self.resids.map .vec, newEntries .vec self.resids res.resids⟩,
   ⟨"residHistory", self.residHistory.map .scal, newEntries .scal self.residHistory res.residHistory⟩]

/-- the attributes of the object are those of `self`, as far as the lists are concerned -/
def HasLists (self : CGObj S V) (a : Attrs S V V) : Prop :=
  a "iterates" = some (.list (self.iterates.map .vec)) ∧ a "resids" = some (.list (self.resids.map .vec)) ∧
  a "residHistory" = some (.list (self.residHistory.map .scal))

/-- the order in which CG records -/
def cgOrder (storeIterates storeResids : Bool) (n : String → Nat) : Prop :=
  (storeIterates = true → n "residHistory" ≤ n "iterates" ∧ n "iterates" ≤ n "residHistory" + 1) ∧
  (storeResids = true → n "residHistory" ≤ n "resids" ∧ n "resids" ≤ n "residHistory" + 1) ∧
  (storeIterates = true → storeResids = true → n "resids" ≤ n "iterates")

/-- the lists of MINRES; `residHistory` is not emptied -/
def minresLists (old : List (PyV S V V)) (res : MinresRes S V) : List (ListAttr S V V) :=
  [⟨"iterates", [], res.iterates.map .vec⟩, ⟨"dir_errors_window", [], res.dirErrors.map .scal⟩,
   ⟨"residHistory", old, res.residHistory.map .scal⟩]

/-- the order in which MINRES records: the iterate (there is one before the first iteration), then its residual norm -/
def minresOrder (storeIterates : Bool) (n : String → Nat) : Prop :=
  storeIterates = true → (n "residHistory" = 0 ∨ n "residHistory" < n "iterates") ∧ n "iterates" ≤ n "residHistory" + 2

/-- the lists of LSQR -/
def lsqrLists (res : LsqrRes S V) : List (ListAttr S U V) :=
  [⟨"iterates", [], res.iterates.map .vec⟩, ⟨"resids", [], res.resids.map .scal⟩, ⟨"normal_eqns_resids", [], res.normalEqns.map .scal⟩,
   ⟨"dir_errors_window", [], res.dirErrors.map .scal⟩]

/-- the order in which LSQR records -/
def lsqrOrder (storeIterates storeResids : Bool) (n : String → Nat) : Prop :=
  storeIterates = true → storeResids = true →
    n "normal_eqns_resids" ≤ n "resids" ∧ n "resids" ≤ n "iterates" ∧ n "iterates" ≤ n "normal_eqns_resids" + 1

/-- the lists of LSMR -/
def lsmrLists (res : LsmrRes S V) : List (ListAttr S U V) :=
  [⟨"iterates", [], res.iterates.map .vec⟩, ⟨"resids", [], res.resids.map .scal⟩, ⟨"normal_eqns_resids", [], res.normalEqns.map .scal⟩,
   ⟨"norms", [], res.norms.map .scal⟩, ⟨"dir_errors_window", [], res.dirErrors.map .scal⟩]

/-- the order in which LSMR records -/
def lsmrOrder (storeIterates storeResids : Bool) (n : String → Nat) : Prop :=
  storeIterates = true → storeResids = true →
    n "normal_eqns_resids" ≤ n "resids" ∧ n "resids" ≤ n "iterates" ∧ n "iterates" ≤ n "normal_eqns_resids" + 1 ∧
      n "norms" ≤ n "resids" ∧ n "resids" ≤ n "norms" + 1

/-- the lists of CRAIG; nothing is ever appended to `dir_errors_p_window` -/
def craigLists (res : CraigRes S U V) : List (ListAttr S U V) :=
  [⟨"iterates_p", [], res.iteratesP.map .vec⟩, ⟨"iterates_d", [], res.iteratesD.map .rvec⟩, ⟨"norms", [], res.norms.map .scal⟩,
   ⟨"resids", [], res.resids.map .scal⟩, ⟨"normal_eqns_resids", [], res.normalEqns.map .scal⟩,
   ⟨"dir_errors_d_window", [], res.dirErrors.map .scal⟩, ⟨"dir_errors_p_window", [], []⟩]

/-- the order in which CRAIG records -/
def craigOrder (storeIterates storeResids : Bool) (n : String → Nat) : Prop :=
  storeIterates = true → storeResids = true →
    n "resids" ≤ n "norms" ∧ n "norms" ≤ n "iterates_d" ∧ n "iterates_d" ≤ n "iterates_p" ∧ n "iterates_p" ≤ n "resids" + 1 ∧
      n "normal_eqns_resids" ≤ n "resids" ∧ n "resids" ≤ n "normal_eqns_resids" + 2

/-- the lists of CRAIG-MR; nothing is ever appended to `resids` -/
def craigmrLists (res : CraigmrRes S U) : List (ListAttr S U V) :=
  [⟨"iterates", [], res.iterates.map .rvec⟩, ⟨"norms", [], res.norms.map .scal⟩,
   ⟨"normal_eqns_resids", [], res.normalEqns.map .scal⟩, ⟨"dir_errors_window", [], res.dirErrors.map .scal⟩, ⟨"resids", [], []⟩]

/-- what `init_data` resets, apart from the lists -/
def craigmrReset : List String := ["x", "var", "itn", "istop", "Anorm", "Acond", "Arnorm", "xnorm", "r1norm", "r2norm", "optimal"]

/-- the order in which CRAIG-MR records -/
def craigmrOrder (storeIterates storeResids : Bool) (n : String → Nat) : Prop :=
  storeIterates = true → storeResids = true →
    n "norms" ≤ n "iterates" ∧ n "iterates" ≤ n "norms" + 1 ∧ n "normal_eqns_resids" ≤ n "norms" ∧
      n "norms" ≤ n "normal_eqns_resids" + 2

end Verif.Solver
