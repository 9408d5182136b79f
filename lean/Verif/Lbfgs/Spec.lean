import Verif.Lbfgs.Model

/-!
# Client programs using L-BFGS operators, and which pairs they should remember
-/

namespace Verif.Lbfgs
open Verif.Solver Scalar Vect

variable {S V : Type} [Scalar S] [Vect S V]

/-- the three classes -/
inductive Class | inverse | forward | compact
  deriving DecidableEq

/-- what a client can do with an operator -/
inductive Cmd (S V : Type)
  | store (s y : V)
  | restart (junk : Junk S V)
  | product (v : V)

/-- a product with the operator: result (`none` if an exception is raised) and new state -/
def LB.matvec (cls : Class) (solve : LinSolve S) (st : LB S V) (v : V) : Option V × LB S V :=
  match cls with
  | .inverse => (some (st.invMatvec v).1, (st.invMatvec v).2)
  | .forward => (some (st.fwdMatvec v), st)
  | .compact => st.cmpMatvec solve v

/-- effect of a command on the operator -/
def LB.exec (cls : Class) (solve : LinSolve S) (st : LB S V) : Cmd S V → LB S V
  | .store s y => st.store s y
  | .restart junk => st.restart junk
  | .product v => (st.matvec cls solve v).2

/-- the operator after a sequence of commands -/
def LB.run (cls : Class) (solve : LinSolve S) (st : LB S V) (cmds : List (Cmd S V)) : LB S V :=
  cmds.foldl (LB.exec cls solve) st

/-- **Specification**: a pair is accepted unless `s'y` is at most the threshold `1e-20`. -/
def accepted (s y : V) : Bool := !(le (dot s y) (lit (1 / 10 ^ 20) : S))

/-- **Specification**: the pairs accepted since the last restart, most recent first; `acc` are the ones before. -/
def history : List (V × V) → List (Cmd S V) → List (V × V)
  | acc, [] => acc
  | acc, .store s y :: cmds => history (if accepted s y then (s, y) :: acc else acc) cmds
  | _, .restart _ :: cmds => history [] cmds
  | acc, .product _ :: cmds => history acc cmds

/-- **Specification**: the pairs an operator with memory `npairs` should remember after `cmds`, most recent first. -/
def recent (npairs : Nat) (cmds : List (Cmd S V)) : List (V × V) := (history [] cmds).take npairs

end Verif.Lbfgs
