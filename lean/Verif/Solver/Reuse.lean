import Verif.Solver.CGS
import Verif.Solver.BiCGSTAB
import Verif.Solver.TFQMR
import Verif.Solver.Minres
import Verif.Solver.Symmlq
import Verif.Solver.LSQR
import Verif.Solver.LSMR
import Verif.Solver.Craig
import Verif.Solver.CraigMR

/-!
# Solver objects that are used more than once

A solver object is a dictionary of attributes.  The constructor fills it, and `solve` assigns to attributes and appends to
attributes that are lists.  The models of the solvers give the values; here they are written to the object in the order of the
assignments in the code.

Attributes that no `solve` assigns (`op`, `precon`, `abstol`, `msg`, ...) are left out of the dictionaries.
-/

namespace Verif.Solver
open Scalar Vect

/-- values of attributes; `vec` and `rvec` are vectors of the two spaces of a rectangular operator -/
inductive PyV (S U V : Type)
  | none
  | bool (b : Bool)
  | int (i : Int)
  | str (s : String)
  | scal (s : S)
  | vec (v : V)
  | rvec (u : U)
  | list (l : List (PyV S U V))

/-- the attributes of an object -/
abbrev Attrs (S U V : Type) := String → Option (PyV S U V)

/-- a statement `self.key = value`, or statements `self.key.append(v)` for the values in a list -/
inductive Wr (S U V : Type)
  | set (key : String) (v : PyV S U V)
  | app (key : String) (l : List (PyV S U V))

variable {S U V : Type}

def Wr.key : Wr S U V → String
  | .set k _ => k
  | .app k _ => k

/-- Effect of a statement.  (An append to an attribute that is not a list would raise; no program below makes one.) -/
def Wr.exec (a : Attrs S U V) : Wr S U V → Attrs S U V
  | .set k v => fun j => if j = k then some v else a j
  | .app k l => fun j => if j = k then match a k with
      | some (.list m) => some (.list (m ++ l))
      | v => v
    else a j

/-- effect of a sequence of statements -/
def writeAll (ws : List (Wr S U V)) (a : Attrs S U V) : Attrs S U V := ws.foldl Wr.exec a

/-- A class of solvers: the attributes after construction, the attributes that `solve` may change, and the statements a call of
`solve` executes if it returns. -/
structure PySolver (Args S U V : Type) where
  init : Attrs S U V
  touched : List String
  solve : Args → Except PyError (List (Wr S U V))

/-- `obj.solve(args)` on an object with attributes `a`: the attributes afterwards -/
def PySolver.call {Args : Type} (c : PySolver Args S U V) (a : Attrs S U V) (args : Args) : Except PyError (Attrs S U V) :=
  (c.solve args).map fun ws => writeAll ws a

/-- The states of an object of the class: after construction; after a call that returned; and after a call that raised an exception
at any point (raised by the solver, by the operator, by the preconditioner or by the user), which may leave anything in the
attributes that `solve` changes. -/
inductive PySolver.Lives {Args : Type} (c : PySolver Args S U V) : Attrs S U V → Prop
  | new : Lives c c.init
  | returned {a a' : Attrs S U V} {args : Args} : Lives c a → c.call a args = .ok a' → Lives c a'
  | raised {a a' : Attrs S U V} : Lives c a → (∀ k, k ∉ c.touched → a' k = a k) → Lives c a'

/-- a dictionary with the given entries -/
def attrsOf (l : List (String × PyV S U V)) : Attrs S U V := fun k => l.lookup k

/-! ### The classes -/

/-- the attributes set by the constructor of the base class, `generic.py:78-87` -/
def baseAttrs : List (String × PyV S U V) :=
  [("residNorm", .none), ("residNorm0", .none), ("residHistory", .list []), ("nMatvec", .int 0), ("nIter", .int 0),
   ("converged", .bool false), ("bestSolution", .none), ("x", .none)]

section square
variable [Scalar S] [Vect S V]

/-- the assignments of CGS, Bi-CGSTAB and TFQMR, `cgs.py:64, 120-123`, `bicgstab.py:69, 148-151`, `tfqmr.py:63, 156-159` -/
def krylovWrites (res : KrylovRes S V) : List (Wr S V V) :=
  [.set "residNorm0" (.scal res.residNorm0), .set "converged" (.bool res.converged), .set "nMatvec" (.int res.nMatvec),
   .set "bestSolution" (.vec res.x), .set "x" (.vec res.x), .set "residNorm" (.scal res.residNorm)]

def krylovTouched : List String := ["residNorm0", "converged", "nMatvec", "x", "bestSolution", "residNorm"]

/-- class `CGS`; the arguments of `solve` are the length of the right-hand side, the right-hand side and the keywords -/
def cgsClass (op : V → V) (o : KrylovOpts S V) : PySolver (Nat × V × KrylovKw V) S V V :=
  { init := attrsOf baseAttrs, touched := krylovTouched,
    solve := fun p => .ok (krylovWrites (cgsSolve op o p.1 p.2.1 p.2.2).1) }

/-- class `BiCGSTAB` -/
def biClass (op : V → V) (o : KrylovOpts S V) : PySolver (Nat × V × KrylovKw V) S V V :=
  { init := attrsOf baseAttrs, touched := krylovTouched,
    solve := fun p => .ok (krylovWrites (biSolve op o p.1 p.2.1 p.2.2).1) }

/-- class `TFQMR` -/
def tfClass (op : V → V) (o : KrylovOpts S V) : PySolver (Nat × V × KrylovKw V) S V V :=
  { init := attrsOf baseAttrs, touched := krylovTouched,
    solve := fun p => (tfSolve op o p.1 p.2.1 p.2.2).map fun r => krylovWrites r.1 }

/-- whether `self.show = True` is executed, `minres.py:170-176, 187-190` -/
def minresShow (kw : MinresKw S V) (b : V) : Bool :=
  let b0 := dot b (applyPrecon kw.precon b)
  lt b0 (lit 0) || feq b0 (lit 0) || (kw.check && !kw.symOK)

/-- the statements of `Minres.solve` on attributes: `minres.py:132-133`, `142, 300`, `170-190`, `183`, `308`, `336`, `395-408` -/
def minresWrites (show' : Bool) (res : MinresRes S V) : List (Wr S V V) :=
  [.set "dir_errors_window" (.list []), .set "iterates" (.list []), .app "iterates" (res.iterates.map .vec)] ++
  (if show' then [.set "show" (.bool true)] else []) ++
  [.set "residNorm0" (.scal res.residNorm0), .app "dir_errors_window" (res.dirErrors.map .scal),
   .app "residHistory" (res.residHistory.map .scal), .set "converged" (.bool res.converged)] ++
  (if res.istop = 10 then [.set "status" (.str "direct error small")] else []) ++
  [.set "bestSolution" (.vec res.x), .set "x" (.vec res.x), .set "istop" (.int res.istop), .set "itn" (.int res.itn),
   .set "nMatvec" (.int res.nMatvec), .set "rnorm" (.scal res.rnorm), .set "residNorm" (.scal res.rnorm),
   .set "Arnorm" (.scal res.Arnorm), .set "Anorm" (.scal res.Anorm), .set "Acond" (.scal res.Acond),
   .set "ynorm" (.scal res.ynorm)]

/-- class `Minres`, `minres.py:79-110`; the model of `solve` with an empty `residHistory` gives the entries that this call appends -/
def minresClass (op : V → V) (eps : S) : PySolver (Nat × V × MinresKw S V) S V V :=
  { init := attrsOf ([("residHistory", .list []), ("resids", .list []), ("dir_errors_window", .list []), ("iterates", .list [])] ++ baseAttrs),
    touched := ["dir_errors_window", "iterates", "show", "residNorm0", "residHistory", "converged", "status", "bestSolution", "x",
      "istop", "itn", "nMatvec", "rnorm", "residNorm", "Arnorm", "Anorm", "Acond", "ynorm"],
    solve := fun p => (minresSolve op eps p.1 {} p.2.1 p.2.2).map fun r => minresWrites (minresShow p.2.2 p.2.1) r.1 }

/-- the statements of `Symmlq.solve` on attributes: `symmlq.py:123, 339` and `396-400` -/
def symmlqWrites (res : SymmlqRes S V) : List (Wr S V V) :=
  [.app "iterates" (res.iterates.map .vec), .set "nMatvec" (.int res.nMatvec), .set "bestSolution" (.vec res.x),
   .set "solutionNorm" (.scal res.xNorm), .set "x" (.vec res.x), .set "xNorm" (.scal res.xNorm), .set "residNorm" (.scal res.residNorm),
   .set "acond" (.scal res.acond), .set "anorm" (.scal res.anorm)]

/-- class `Symmlq`, `symmlq.py:56-62`, with the attributes `op`, `precon` and `matvec` in `self` -/
def symmlqClass (self : SymmlqObj V) : PySolver (Nat × V × SymmlqKw S) S V V :=
  { init := attrsOf ([("iterates", .list [])] ++ baseAttrs),
    touched := ["iterates", "nMatvec", "bestSolution", "solutionNorm", "x", "xNorm", "residNorm", "acond", "anorm"],
    solve := fun p => (symmlqSolve self p.1 p.2.1 p.2.2).map fun r => symmlqWrites r.1 }

end square

section rectangular
variable [Scalar S] [Vect S U] [Vect S V]

/-- what the constructors of the least-squares solvers set in common, `lsqr.py:72-81`, `lsmr.py:49-60`, `craig.py:88-97`,
`craigmr.py:38-48` -/
def lsAttrs : List (String × PyV S U V) :=
  [("x", .none), ("var", .none), ("itn", .int 0), ("istop", .int 0), ("Anorm", .scal (lit 0)), ("Acond", .scal (lit 0)),
   ("Arnorm", .scal (lit 0)), ("xnorm", .scal (lit 0)), ("r1norm", .scal (lit 0)), ("r2norm", .scal (lit 0)), ("optimal", .bool false),
   ("resids", .list []), ("normal_eqns_resids", .list [])]

/-- `lsqr.py:436-440`, the same in `craig.py:501-505` and `craigmr.py:232-236` -/
def statusWrites (istop : Nat) : List (Wr S U V) :=
  (if istop = 0 then [.set "status" (.str "solution is zero")] else []) ++
  (if istop ∈ [1, 2, 4, 5] then [.set "status" (.str "residual small")] else []) ++
  (if istop ∈ [3, 6] then [.set "status" (.str "ill-conditioned operator")] else []) ++
  (if istop = 7 then [.set "status" (.str "max iterations")] else []) ++
  (if istop = 8 then [.set "status" (.str "direct error small")] else [])

/-- the statements of `LSQRFramework.solve` on attributes: `lsqr.py:144-147`, `163`, `186, 307`, `237-238, 374-375`, `315`,
`436-453` -/
def lsqrWrites (res : LsqrRes S V) : List (Wr S U V) :=
  [.set "resids" (.list []), .set "normal_eqns_resids" (.list []), .set "dir_errors_window" (.list []), .set "iterates" (.list [])] ++
  (match res.ctol with | some c => [.set "ctol" (.scal c)] | none => []) ++
  [.app "iterates" (res.iterates.map .vec), .app "resids" (res.resids.map .scal), .app "normal_eqns_resids" (res.normalEqns.map .scal),
   .app "dir_errors_window" (res.dirErrors.map .scal)] ++ statusWrites res.istop ++
  [.set "optimal" (.bool res.optimal), .set "x" (.vec res.x), .set "bestSolution" (.vec res.x), .set "istop" (.int res.istop),
   .set "itn" (.int res.itn), .set "nMatvec" (.int res.nMatvec), .set "r1norm" (.scal res.r1norm), .set "r2norm" (.scal res.r2norm),
   .set "residNorm" (.scal res.r2norm), .set "Anorm" (.scal res.Anorm), .set "Acond" (.scal res.Acond), .set "Arnorm" (.scal res.Arnorm),
   .set "xnorm" (.scal res.xnorm), .set "var" .none]

/-- class `LSQRFramework`, `lsqr.py:54-84`; `n` is the number of columns of the operator -/
def lsqrClass (A : V → U) (AT : U → V) (n : Nat) : PySolver (U × LsqrKw S U V) S U V :=
  { init := attrsOf (lsAttrs ++ [("dir_errors_window", .list []), ("error_upper_bound", .list []), ("iterates", .list [])] ++ baseAttrs),
    touched := ["resids", "normal_eqns_resids", "dir_errors_window", "iterates", "ctol", "status", "optimal", "x", "bestSolution", "istop",
      "itn", "nMatvec", "r1norm", "r2norm", "residNorm", "Anorm", "Acond", "Arnorm", "xnorm", "var"],
    solve := fun p => (lsqrSolve A AT n p.1 p.2).map fun r => lsqrWrites r.1 }

/-- the statements of `LSMRFramework.solve` on attributes: `lsmr.py:174-178`, `250, 364`, `299-300, 430-431`, `429`, `371` and `491`;
line 491 is not reached by the `return` in line 287 -/
def lsmrWrites (res : LsmrRes S V) : List (Wr S U V) :=
  [.set "resids" (.list []), .set "normal_eqns_resids" (.list []), .set "norms" (.list []), .set "dir_errors_window" (.list []),
   .set "iterates" (.list []), .app "iterates" (res.iterates.map .vec), .app "resids" (res.resids.map .scal),
   .app "normal_eqns_resids" (res.normalEqns.map .scal), .app "norms" (res.norms.map .scal),
   .app "dir_errors_window" (res.dirErrors.map .scal)] ++
  (match res.selfX with | some x => [.set "x" (.vec x)] | none => [])

/-- class `LSMRFramework`, `lsmr.py:31-61`; `m` and `n` are the numbers of rows and columns of the operator -/
def lsmrClass (A : V → U) (AT : U → V) (m n : Nat) : PySolver (U × LsmrKw S U V) S U V :=
  { init := attrsOf (lsAttrs ++ [("norms", .list []), ("dir_errors_window", .list []), ("iterates", .list [])] ++ baseAttrs),
    touched := ["resids", "normal_eqns_resids", "norms", "dir_errors_window", "iterates", "x"],
    solve := fun p => (lsmrSolve A AT m n p.1 p.2 none).map fun r => lsmrWrites r.1 }

/-- the statements of `CRAIGFramework.solve` on attributes: `craig.py:165-171`, `187`, `272-273, 364-365`, `286-287, 438-440`, `377`,
`501-518` -/
def craigWrites (kw : CraigKw S U V) (res : CraigRes S U V) : List (Wr S U V) :=
  [.set "norms" (.list []), .set "resids" (.list []), .set "normal_eqns_resids" (.list []), .set "dir_errors_p_window" (.list []),
   .set "dir_errors_d_window" (.list []), .set "iterates_p" (.list []), .set "iterates_d" (.list [])] ++
  (if gt kw.conlim (lit 0) then [.set "ctol" (.scal (lit 1 / kw.conlim))] else []) ++
  [.app "iterates_p" (res.iteratesP.map .vec), .app "iterates_d" (res.iteratesD.map .rvec), .app "norms" (res.norms.map .scal),
   .app "resids" (res.resids.map .scal), .app "normal_eqns_resids" (res.normalEqns.map .scal),
   .app "dir_errors_d_window" (res.dirErrors.map .scal)] ++ statusWrites res.istop ++
  [.set "optimal" (.bool res.optimal), .set "x" (.vec res.x), .set "bestSolution" (.vec res.x), .set "r" (.rvec res.r),
   .set "istop" (.int res.istop), .set "itn" (.int res.itn), .set "nMatvec" (.int res.nMatvec), .set "r1norm" (.scal res.r1norm),
   .set "r2norm" (.scal res.r2norm), .set "Arnorm" (.scal res.Arnorm), .set "xnorm" (.scal res.xnorm)]

/-- class `CRAIGFramework`, `craig.py:70-102` -/
def craigClass (A : V → U) (AT : U → V) (n : Nat) : PySolver (U × CraigKw S U V) S U V :=
  { init := attrsOf (lsAttrs ++ [("norms", .list []), ("dir_errors_p_window", .list []), ("dir_errors_d_window", .list []),
      ("iterates_p", .list []), ("iterates_d", .list [])] ++ baseAttrs),
    touched := ["norms", "resids", "normal_eqns_resids", "dir_errors_p_window", "dir_errors_d_window", "iterates_p", "iterates_d", "ctol",
      "status", "optimal", "x", "bestSolution", "r", "istop", "itn", "nMatvec", "r1norm", "r2norm", "Arnorm", "xnorm"],
    solve := fun p => (craigSolve A AT n p.1 p.2).map fun r => craigWrites p.2 r.1 }

/-- what `init_data` sets, `craigmr.py:36-49` -/
def craigmrAttrs : List (String × PyV S U V) := lsAttrs ++ [("norms", .list []), ("dir_errors_window", .list []), ("iterates", .list [])]

/-- the statements of `CRAIGMRFramework.solve` on attributes: `craigmr.py:60` (`init_data`), `115, 195`, `125, 198`, `199`, `206`,
`232-241`; the solution is a vector of the space of the right-hand side -/
def craigmrWrites (res : CraigmrRes S U) : List (Wr S U V) :=
  (craigmrAttrs.map fun p => .set p.1 p.2) ++
  [.app "iterates" (res.iterates.map .rvec), .app "norms" (res.norms.map .scal), .app "normal_eqns_resids" (res.normalEqns.map .scal),
   .app "dir_errors_window" (res.dirErrors.map .scal)] ++ statusWrites res.istop ++
  [.set "optimal" (.bool res.optimal), .set "x" (.rvec res.x), .set "bestSolution" (.rvec res.x), .set "istop" (.int res.istop),
   .set "itn" (.int res.itn), .set "nMatvec" (.int res.nMatvec)]

/-- class `CRAIGMRFramework`, `craigmr.py:16-34` -/
def craigmrClass (A : V → U) (AT : U → V) (m n : Nat) : PySolver (U × CraigmrKw S U V) S U V :=
  { init := attrsOf (craigmrAttrs ++ baseAttrs),
    touched := craigmrAttrs.map (Prod.fst (α := String) (β := PyV S U V)) ++ ["status", "bestSolution", "nMatvec"],
    solve := fun p => (craigmrSolve A AT m n p.1 p.2).map fun r => craigmrWrites r.1 }

end rectangular

end Verif.Solver
