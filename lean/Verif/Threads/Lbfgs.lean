import Verif.Threads.Pool
import Verif.Lbfgs.Model

/-!
# L-BFGS operators shared by threads: products of `lbfgs.py` with `self.alpha` and `self.gamma` in shared memory

Products modify two attributes of the operator: the array `self.alpha` (lines 112, 126; inverse operator) and the number
`self.gamma` (lines 119, 210; inverse and compact operator, with scaling).  Here they are in shared memory and every access is
separate.  The other attributes are modified by `store` and `restart` only, which no thread calls while products are computed.
-/

namespace Verif.Threads
open Verif.Solver Scalar Vect Verif.Lbfgs

/-- what products modify -/
inductive Loc
  /-- `self.alpha[k]` -/
  | alpha (k : Nat)
  /-- `self.gamma` -/
  | gamma
  deriving DecidableEq

variable {S V : Type} [Scalar S] [Vect S V]

/-- the shared attributes of an operator -/
def lbMem (st : LB S V) : Loc → S
  | .alpha k => st.alpha k
  | .gamma => st.gamma

/-- `for i in range(n)`: the body for each of the numbers, one after the other -/
def forT {β : Type} (f : β → Nat → Tr Loc S β) : List Nat → β → Tr Loc S β
  | [], b => .ret b
  | i :: is, b => (f b i).bind (forT f is)

/-- body of the first loop, `lbfgs.py:109-113`: `alpha[k] = ...` and `q -= alpha[k] * y[:, k]` -/
def invStep1T (st : LB S V) (q : V) (i : Nat) : Tr Loc S V :=
  let k := st.idx ((st.insert : Int) - 1 - i)
  match st.ys k with
  | some ysk => .store (.alpha k) (dot (st.s k) q / ysk) (.load (.alpha k) fun a => .ret (q - smul a (st.y k)))
  | none => .ret q

/-- body of the second loop, `lbfgs.py:122-126` -/
def invStep2T (st : LB S V) (r : V) (i : Nat) : Tr Loc S V :=
  let k := st.idx ((st.insert : Int) + i)
  match st.ys k with
  | some ysk =>
    let beta := dot (st.y k) r / ysk
    .load (.alpha k) fun a => .ret (r + smul (a - beta) (st.s k))
  | none => .ret r

/-- `lbfgs.py:116-120` and `lbfgs.py:207-211`: `self.gamma = ...` and `r *= self.gamma`, resp. `r /= self.gamma` -/
def updateGammaT (st : LB S V) (f : S → V → V) (r : V) : Tr Loc S V :=
  if st.scaling then
    let last := st.idx ((st.insert : Int) - 1)
    match st.ys last with
    | some ysl => .store .gamma (ysl / dot (st.y last) (st.y last)) (.load .gamma fun gamma => .ret (f gamma r))
    | none => .ret r
  else .ret r

/-- `InverseLBFGSOperator.lbfgs_matvec(v)`, `lbfgs.py:97-127` -/
def invT (st : LB S V) (v : V) : Tr Loc S V :=
  (forT (invStep1T st) (List.range st.npairs) v).bind fun q =>
  (updateGammaT st (fun gamma q => smul gamma q) q).bind fun r =>
  forT (invStep2T st) (List.range st.npairs) r

/-- `LBFGSOperator.lbfgs_matvec(v)`, `lbfgs.py:140-173`: works on local arrays only -/
def fwdT (st : LB S V) (v : V) : Tr Loc S V := .ret (st.fwdMatvec v)

/-- body of the inner loop of the compact product, `lbfgs.py:236-242`, where `self.gamma` is read once -/
def cmpInnerT (st : LB S V) (paircount k kInd : Nat) (p : (Nat → Nat → S) × Nat) (j : Nat) : Tr Loc S ((Nat → Nat → S) × Nat) :=
  match st.ys (st.idx ((st.insert : Int) + j)) with
  | some _ => .load .gamma fun gamma => .ret (cmpInner st gamma paircount k kInd p j)
  | none => .ret p

/-- third loop, `lbfgs.py:229-243` -/
def cmpStep3T (st : LB S V) (paircount : Nat) (p : (Nat → Nat → S) × Nat) (i : Nat) : Tr Loc S ((Nat → Nat → S) × Nat) :=
  let k := st.idx ((st.insert : Int) + i)
  match st.ys k with
  | some ysk =>
    let kInd := p.2
    let m := mset p.1 (paircount + kInd) (paircount + kInd) (-ysk)
    .load .gamma fun gamma =>
    let m := mset m kInd kInd (dot (st.s k) (st.s k) / gamma)
    (forT (cmpInnerT st paircount k kInd) (List.range i) (m, 0)).bind fun q => .ret (q.1, kInd + 1)
  | none => .ret p

/-- last loop, `lbfgs.py:249-252` -/
def cmpStep4T (st : LB S V) (paircount : Nat) (b : Nat → S) (r : V) (i : Nat) : Tr Loc S V :=
  .load .gamma fun gamma => .ret (cmpStep4 st gamma paircount b r i)

/-- `CompactLBFGSOperator.lbfgs_matvec(v)`, `lbfgs.py:188-254` -/
def cmpT (solve : LinSolve S) (st : LB S V) (v : V) : Tr Loc S (Option V) :=
  (updateGammaT st (fun gamma r => vdiv r gamma) v).bind fun r =>
  let p1 := (List.range st.npairs).foldl (cmpStep1 st r) (fun _ => lit 0, 0)
  let paircount := p1.2
  let a := ((List.range st.npairs).foldl (cmpStep2 st v paircount) (p1.1, 0)).1
  (forT (cmpStep3T st paircount) (List.range st.npairs) (fun _ _ => lit 0, 0)).bind fun m =>
  if paircount > 0 then
    match solve (2 * paircount) m.1 a with
    | none => .ret none
    | some b => (forT (cmpStep4T st paircount b) (List.range paircount) r).bind fun r => .ret (some r)
  else .ret (some r)

end Verif.Threads
