import Verif.Solver.Arith
import Mathlib.Logic.Function.Basic
import Mathlib.Data.List.Range

/-!
# Model of `pykrylov/linop/lbfgs.py`

Written against the lawless arithmetic interface (`Verif.Solver.Arith`).  Simplifications:
* matrices whose columns are vectors (`self.s`, `self.y`, `a`, `b`) are functions from column numbers to vectors; the
  column numbers used are always reduced modulo `npairs`, and `npairs ≥ 1` (for `npairs = 0` storing a pair raises
  `IndexError`);
* the arrays created by `np.empty` have arbitrary contents, given as parameters;
* `np.dot(np.outer(a, a), v)` (line 171) is written `(a'v) a`;
* vectors are floating-point arrays of the right size; logging is dropped;
* `np.linalg.solve` (line 247) is a parameter.
-/

namespace Verif.Lbfgs
open Verif.Solver Scalar Vect

variable {S V : Type} [Scalar S] [Vect S V]

/-- The attributes of an `InverseLBFGSOperator` (or of its subclasses), `lbfgs.py:39-59`. -/
structure LB (S V : Type) where
  npairs : Nat
  scaling : Bool
  insert : Nat
  threshold : S
  s : Nat → V
  y : Nat → V
  alpha : Nat → S
  ys : Nat → Option S
  gamma : S

/-- Contents of uninitialised arrays (`np.empty`). -/
structure Junk (S V : Type) where
  s : Nat → V
  y : Nat → V
  alpha : Nat → S

/-- `__init__`, `lbfgs.py:25-63` -/
def LB.init (npairs : Nat) (scaling : Bool) (junk : Junk S V) : LB S V :=
  { npairs := npairs, scaling := scaling, insert := 0, threshold := lit (1 / 10 ^ 20), s := junk.s, y := junk.y,
    alpha := junk.alpha, ys := fun _ => none, gamma := lit 1 }

/-- Python's `a % npairs` for an integer `a` (nonnegative result). -/
def LB.idx (st : LB S V) (a : Int) : Nat := (a % (st.npairs : Int)).toNat

/-- `store(new_s, new_y)`, `lbfgs.py:70-87` -/
def LB.store (st : LB S V) (newS newY : V) : LB S V :=
  let ys := dot newS newY
  if le ys st.threshold then st
  else
    let insert := st.insert
    { st with s := Function.update st.s insert newS, y := Function.update st.y insert newY,
              ys := Function.update st.ys insert (some ys), insert := st.idx ((st.insert : Int) + 1) }

/-- `restart()`, `lbfgs.py:89-95` -/
def LB.restart (st : LB S V) (junk : Junk S V) : LB S V :=
  { st with ys := fun _ => none, s := junk.s, y := junk.y, insert := 0 }

/-- body of the first loop, `lbfgs.py:110-113` -/
def invStep1 (st : LB S V) (p : V × (Nat → S)) (k : Nat) : V × (Nat → S) :=
  match st.ys k with
  | some ysk =>
    let alpha := Function.update p.2 k (dot (st.s k) p.1 / ysk)
    (p.1 - smul (alpha k) (st.y k), alpha)
  | none => p

/-- body of the second loop, `lbfgs.py:123-126` -/
def invStep2 (st : LB S V) (alpha : Nat → S) (r : V) (k : Nat) : V :=
  match st.ys k with
  | some ysk =>
    let beta := dot (st.y k) r / ysk
    r + smul (alpha k - beta) (st.s k)
  | none => r

/-- the scaling step of the inverse and compact products, `lbfgs.py:116-120` and `lbfgs.py:207-211`; `f` is how the
vector is scaled (`r *= self.gamma`, resp. `r /= self.gamma`). -/
def LB.updateGamma (st : LB S V) (f : S → V → V) (r : V) : V × LB S V :=
  if st.scaling then
    let last := st.idx ((st.insert : Int) - 1)
    match st.ys last with
    | some ysl =>
      let gamma := ysl / dot (st.y last) (st.y last)
      (f gamma r, { st with gamma := gamma })
    | none => (r, st)
  else (r, st)

/-- `InverseLBFGSOperator.lbfgs_matvec(v)`, `lbfgs.py:97-127` -/
def LB.invMatvec (st : LB S V) (v : V) : V × LB S V :=
  let p := (List.range st.npairs).foldl (fun p (i : Nat) => invStep1 st p (st.idx ((st.insert : Int) - 1 - i))) (v, st.alpha)
  let st := { st with alpha := p.2 }
  let (r, st) := st.updateGamma (fun gamma q => smul gamma q) p.1
  let r := (List.range st.npairs).foldl (fun r (i : Nat) => invStep2 st st.alpha r (st.idx ((st.insert : Int) + i))) r
  (r, st)

/-- local arrays of the forward product -/
structure Fwd (V : Type) where
  q : V
  a : Nat → V
  b : Nat → V

/-- body of the inner loop, `lbfgs.py:166-169` -/
def fwdInner (st : LB S V) (k : Nat) (b : Nat → V) (a : Nat → V) (l : Nat) : Nat → V :=
  match st.ys l with
  | some _ =>
    let a := Function.update a k (a k + smul (dot (b l) (st.s k)) (b l))
    Function.update a k (a k - smul (dot (a l) (st.s k)) (a l))
  | none => a

/-- body of the outer loop, `lbfgs.py:159-171` -/
def fwdStep (st : LB S V) (v : V) (f : Fwd V) (i : Nat) : Fwd V :=
  let k := st.idx ((st.insert : Int) + i)
  match st.ys k with
  | some ysk =>
    let b := Function.update f.b k (vdiv (st.y k) (sqrt ysk))
    let bv := dot (b k) v
    let q := f.q + smul bv (b k)
    let a := Function.update f.a k (st.s k)
    let a := (List.range i).foldl (fun a (j : Nat) => fwdInner st k b a (st.idx ((st.insert : Int) + j))) a
    let a := Function.update a k (vdiv (a k) (sqrt (dot (st.s k) (a k))))
    { q := q - smul (dot (a k) v) (a k), a := a, b := b }
  | none => f

/-- `LBFGSOperator.lbfgs_matvec(v)`, `lbfgs.py:140-173` -/
def LB.fwdMatvec (st : LB S V) (v : V) : V :=
  ((List.range st.npairs).foldl (fwdStep st v) { q := v, a := fun _ => zeros, b := fun _ => zeros }).q

/-- first loop of the compact product, `lbfgs.py:214-218`: fills `a` and counts the pairs -/
def cmpStep1 (st : LB S V) (r : V) (p : (Nat → S) × Nat) (i : Nat) : (Nat → S) × Nat :=
  let k := st.idx ((st.insert : Int) + i)
  match st.ys k with
  | some _ => (Function.update p.1 p.2 (dot r (st.s k)), p.2 + 1)
  | none => p

/-- second loop, `lbfgs.py:221-225` -/
def cmpStep2 (st : LB S V) (q : V) (paircount : Nat) (p : (Nat → S) × Nat) (i : Nat) : (Nat → S) × Nat :=
  let k := st.idx ((st.insert : Int) + i)
  match st.ys k with
  | some _ => (Function.update p.1 (paircount + p.2) (dot q (st.y k)), p.2 + 1)
  | none => p

/-- assignment `minimat[i, j] = x` -/
def mset (m : Nat → Nat → S) (i j : Nat) (x : S) : Nat → Nat → S := Function.update m i (Function.update (m i) j x)

/-- body of the inner loop, `lbfgs.py:236-242` -/
def cmpInner (st : LB S V) (gamma : S) (paircount k kInd : Nat) (p : (Nat → Nat → S) × Nat) (j : Nat) :
    (Nat → Nat → S) × Nat :=
  let l := st.idx ((st.insert : Int) + j)
  match st.ys l with
  | some _ =>
    let lInd := p.2
    let m := mset p.1 kInd (paircount + lInd) (dot (st.s k) (st.y l))
    let m := mset m (paircount + lInd) kInd (m kInd (paircount + lInd))
    let m := mset m kInd lInd (dot (st.s k) (st.s l) / gamma)
    let m := mset m lInd kInd (m kInd lInd)
    (m, lInd + 1)
  | none => p

/-- third loop, `lbfgs.py:229-243`: fills the small matrix -/
def cmpStep3 (st : LB S V) (gamma : S) (paircount : Nat) (p : (Nat → Nat → S) × Nat) (i : Nat) : (Nat → Nat → S) × Nat :=
  let k := st.idx ((st.insert : Int) + i)
  match st.ys k with
  | some ysk =>
    let kInd := p.2
    let m := mset p.1 (paircount + kInd) (paircount + kInd) (-ysk)
    let m := mset m kInd kInd (dot (st.s k) (st.s k) / gamma)
    let q := (List.range i).foldl (cmpInner st gamma paircount k kInd) (m, 0)
    (q.1, kInd + 1)
  | none => p

/-- `np.linalg.solve(M, a)` for a matrix of order `n`: a solution, or `LinAlgError` (`none`). -/
abbrev LinSolve (S : Type) := (n : Nat) → (Nat → Nat → S) → (Nat → S) → Option (Nat → S)

/-- last loop, `lbfgs.py:249-252` -/
def cmpStep4 (st : LB S V) (gamma : S) (paircount : Nat) (b : Nat → S) (r : V) (i : Nat) : V :=
  let k := st.idx ((st.insert : Int) - paircount + i)
  let r := r - smul (b i / gamma) (st.s k)
  r - smul (b (i + paircount)) (st.y k)

/-- `CompactLBFGSOperator.lbfgs_matvec(v)`, `lbfgs.py:188-254`; `none` if `np.linalg.solve` raises. -/
def LB.cmpMatvec (solve : LinSolve S) (st : LB S V) (v : V) : Option V × LB S V :=
  let q := v
  let r := v
  let (r, st) := st.updateGamma (fun gamma r => vdiv r gamma) r
  let p1 := (List.range st.npairs).foldl (cmpStep1 st r) (fun _ => lit 0, 0)
  let paircount := p1.2
  let a := ((List.range st.npairs).foldl (cmpStep2 st q paircount) (p1.1, 0)).1
  let m := ((List.range st.npairs).foldl (cmpStep3 st st.gamma paircount) (fun _ _ => lit 0, 0)).1
  if paircount > 0 then
    match solve (2 * paircount) m a with
    | none => (none, st)
    | some b => (some ((List.range paircount).foldl (cmpStep4 st st.gamma paircount b) r), st)
  else (some r, st)

/-! ## `StructuredLBFGSOperator.__init__` -/

/-- Binding of positional arguments in a Python call to a function with `nparams` positional parameters, the last
`ndefaults` of which have defaults, and which also takes `**kwargs`: `TypeError` (`none`) if there are too many or too
few. -/
def bindPositional {α : Type} (nparams ndefaults : Nat) (args : List α) : Option (List α) :=
  if nparams - ndefaults ≤ args.length ∧ args.length ≤ nparams then some args else none

/-- The value passed in a positional slot. -/
inductive PyArg | self | n | npairs
  deriving DecidableEq

/-- `StructuredLBFGSOperator(n, npairs)`, `lbfgs.py:263-279`.  Line 277 calls the bound method `super().__init__` with
the positional arguments `(self, n, npairs)`; the bound method adds `self` in front.  The function called is
`InverseLBFGSOperator.__init__(self, n, npairs=5, **kwargs)`, `lbfgs.py:25`. -/
def structuredInit (npairs : Nat) (scaling : Bool) (junk : Junk S V) : Option (LB S V) := do
  let args ← bindPositional 3 1 (PyArg.self :: [PyArg.self, PyArg.n, PyArg.npairs])
  if args = [PyArg.self, PyArg.n, PyArg.npairs] then return LB.init npairs scaling junk else none

end Verif.Lbfgs
