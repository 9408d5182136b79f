import Verif.Solver.CGProps
import Verif.Solver.KrylovProps
import Verif.Solver.TFQMRProps
import Verif.Solver.Minres

/-!
# Keyword arguments of the solvers

The constructors and the `solve` methods take keyword dictionaries.  A dictionary is a partial map from names to values.
Values of a type which the code does not expect at that key are outside the model: reading them gives `typeError`.
-/

namespace Verif.Solver
open Scalar Vect

variable {S V : Type} [Scalar S] [Vect S V]

/-- the values that occur as keyword arguments -/
inductive KwVal (S V : Type) where
  | none
  | num (a : S)
  | nat (k : Nat)
  | bool (b : Bool)
  | vec (v : V)
  | op (M : V → V)

/-- a keyword dictionary -/
abbrev Kwargs (S V : Type) := String → Option (KwVal S V)

/-- the dictionary with one more entry, or with that entry replaced -/
def Kwargs.set (d : Kwargs S V) (key : String) (val : KwVal S V) : Kwargs S V :=
  fun k => if k = key then some val else d k

namespace Kwargs

/-- `kwargs.get(key, default)` for a number, `generic.py:74-75`, `minres.py:122, 126, 127` -/
def getNum (d : Kwargs S V) (key : String) (default : S) : Except PyError S :=
  match d key with
  | Option.none => .ok default
  | some (.num a) => .ok a
  | some _ => .error .typeError

/-- `kwargs.get(key, default)` for a count; the default depends on the size of the problem, so `none` stands for it,
`cg.py:82`, `minres.py:125` -/
def getNat (d : Kwargs S V) (key : String) : Except PyError (Option Nat) :=
  match d key with
  | Option.none => .ok Option.none
  | some (.nat k) => .ok (some k)
  | some _ => .error .typeError

/-- `kwargs.get(key, default)` for a flag, `cg.py:64-67` -/
def getBool (d : Kwargs S V) (key : String) (default : Bool) : Except PyError Bool :=
  match d key with
  | Option.none => .ok default
  | some (.bool b) => .ok b
  | some _ => .error .typeError

/-- `kwargs.get('precon', None)`, `generic.py:76`, `minres.py:121` -/
def getOp (d : Kwargs S V) (key : String) : Except PyError (Option (V → V)) :=
  match d key with
  | Option.none => .ok Option.none
  | some .none => .ok Option.none
  | some (.op M) => .ok (some M)
  | some _ => .error .typeError

/-- `'guess' in kwargs.keys()` and `kwargs.get('guess', np.zeros(n)).astype(..)`, `cg.py:76-77`; `None` has no `astype`. -/
def getVec (d : Kwargs S V) (key : String) : Except PyError (Option V) :=
  match d key with
  | Option.none => .ok Option.none
  | some .none => .error (.attribute "astype")
  | some (.vec v) => .ok (some v)
  | some _ => .error .typeError

end Kwargs

/-- `KrylovMethod.__init__`, `generic.py:65-90`: the options kept in the object. -/
def krylovInit (d : Kwargs S V) : Except PyError (KrylovOpts S V) := do
  let abstol ← d.getNum "abstol" (lit (1 / 100000000))
  let reltol ← d.getNum "reltol" (lit (1 / 1000000))
  let precon ← d.getOp "precon"
  return { abstol := abstol, reltol := reltol, precon := precon }

/-- the keywords of `CG.solve`, `cg.py:64-67, 76-82`; `symOK` is the outcome of `check_symmetric` if it is run;
after a failed check `solve` returns (`cg.py:69-72`) without reading `guess` and `matvec_max` -/
def cgKwargs (symOK : Bool) (d : Kwargs S V) : Except PyError (CGKw V) := do
  let checkSymmetric ← d.getBool "check_symmetric" false
  let checkCurvature ← d.getBool "check_curvature" true
  let storeResids ← d.getBool "store_resids" false
  let storeIterates ← d.getBool "store_iterates" false
  if checkSymmetric && !symOK then
    return { guess := Option.none, matvecMax := Option.none, checkSymmetric := checkSymmetric, symOK := symOK,
             checkCurvature := checkCurvature, storeResids := storeResids, storeIterates := storeIterates }
  let guess ← d.getVec "guess"
  let matvecMax ← d.getNat "matvec_max"
  return { guess := guess, matvecMax := matvecMax, checkSymmetric := checkSymmetric, symOK := symOK,
           checkCurvature := checkCurvature, storeResids := storeResids, storeIterates := storeIterates }

/-- the keywords of `CGS.solve`, `BiCGSTAB.solve`, `TFQMR.solve`, `cgs.py:54-56`, `bicgstab.py:57-59`, `tfqmr.py:53-55` -/
def krylovKwargs (d : Kwargs S V) : Except PyError (KrylovKw V) := do
  let guess ← d.getVec "guess"
  let matvecMax ← d.getNat "matvec_max"
  return { guess := guess, matvecMax := matvecMax }

/-- the keywords of `Minres.solve`, `minres.py:121-130` -/
def minresKwargs (symOK preconSymOK : Bool) (d : Kwargs S V) : Except PyError (MinresKw S V) := do
  let precon ← d.getOp "precon"
  let shift ← d.getNum "shift" (lit 0)
  let check ← d.getBool "check" true
  let itnlim ← d.getNat "itnlim"
  let rtol ← d.getNum "rtol" (lit (1 / 1000000000000))
  let etol ← d.getNum "etol" (lit (1 / 1000000))
  let storeIterates ← d.getBool "store_iterates" false
  let window ← d.getNat "window"
  return { precon := precon, shift := shift, check := check, symOK := symOK, preconSymOK := preconSymOK, itnlim := itnlim,
           rtol := rtol, etol := etol, storeIterates := storeIterates, window := window.getD 5 }

/-- `CG(op, **ctor).solve(rhs, **kw)`, `cg.py:33-165`; `n` is the size of `rhs` -/
def cgCall (op : V → V) (symOK : Bool) (n : Nat) (ctor : Kwargs S V) (rhs : V) (kw : Kwargs S V) :
    Except PyError (CGObj S V × List V) := do
  let o ← krylovInit ctor
  let k ← cgKwargs symOK kw
  return cgSolve op o n {} rhs k

/-- `CGS(op, **ctor).solve(rhs, **kw)`, `cgs.py:33-123` -/
def cgsCall (op : V → V) (n : Nat) (ctor : Kwargs S V) (rhs : V) (kw : Kwargs S V) :
    Except PyError (KrylovRes S V × List V) := do
  let o ← krylovInit ctor
  let k ← krylovKwargs kw
  return cgsSolve op o n rhs k

/-- `BiCGSTAB(op, **ctor).solve(rhs, **kw)`, `bicgstab.py:36-151` -/
def biCall (op : V → V) (n : Nat) (ctor : Kwargs S V) (rhs : V) (kw : Kwargs S V) :
    Except PyError (KrylovRes S V × List V) := do
  let o ← krylovInit ctor
  let k ← krylovKwargs kw
  return biSolve op o n rhs k

/-- `TFQMR(op, **ctor).solve(rhs, **kw)`, `tfqmr.py:32-159` -/
def tfCall (op : V → V) (n : Nat) (ctor : Kwargs S V) (rhs : V) (kw : Kwargs S V) :
    Except PyError (KrylovRes S V × List V) := do
  let o ← krylovInit ctor
  let k ← krylovKwargs kw
  tfSolve op o n rhs k

/-- `Minres(op, **ctor).solve(b, **kw)`, `minres.py:81-410`; `eps` is `machine_epsilon()` -/
def minresCall (op : V → V) (symOK preconSymOK : Bool) (eps : S) (n : Nat) (ctor : Kwargs S V) (b : V) (kw : Kwargs S V) :
    Except PyError (MinresRes S V × List V) := do
  let _ ← krylovInit ctor
  let k ← minresKwargs symOK preconSymOK kw
  minresSolve op eps n {} b k

end Verif.Solver
