import Verif.Threads.Pool
import Verif.Linop.Core

/-!
# Operators shared by threads: `linop.py` with the counters in shared memory

The closures of `linop.py:144-425` and `_matvec`, `__mul_vector`, with the product counters `_nMatvec` of the operators in memory
that is shared by all threads.  `self._nMatvec += 1` (line 358) is a read and a write.  The objects themselves are not modified by
products.  Functions of the user are functions of their argument, as in `Verif.Linop.Core`.
-/

namespace Verif.Threads
open Linop

/-- a computation of a thread that can raise; the location `r` is the counter of operator `r` -/
abbrev TrE (α : Type) := Tr Nat Nat (Except Err α)

namespace TrE
def pure {α} (a : α) : TrE α := .ret (.ok a)
def raise {α} (e : Err) : TrE α := .ret (.error e)
def bind {α β} (t : TrE α) (f : α → TrE β) : TrE β := Tr.bind t fun
  | .ok a => f a
  | .error e => .ret (.error e)
end TrE

/-- `self._nMatvec += 1` for object `r`, `linop.py:358`. -/
def bumpT (r : Nat) : TrE Unit := .load r fun n => .store r (n + 1) (.ret (.ok ()))

def liftT {α} (e : Except Err α) : TrE α := .ret e

section
variable {K : Type} [CommRing K] [StarRing K] [DTypes K]

/-- `Linop.evalCode` (`linop.py:217-241, 315-344, 384-419, 569-615`) in a thread -/
def evalCodeT (h : Heap K) (app : Nat → Arr K → TrE (Arr K)) : Code K → Arr K → TrE (Arr K)
  | .prim f, x => liftT (f x)
  | .conj t, x =>
    (liftT (resolve h t)).bind fun r =>
    if x.kind = .complex then
      (app r x.conj).bind fun y => TrE.pure y.conj
    else
      (app r x).bind fun y => TrE.pure y.conj
  | .scal a ka t, x =>
    (liftT (resolve h t)).bind fun r =>
    (app r x).bind fun y =>
    TrE.pure (Arr.smul a ka y)
  | .comp outer inner, x =>
    (liftT (resolve h inner)).bind fun ri =>
    (app ri x).bind fun y =>
    (liftT (resolve h outer)).bind fun ro =>
    app ro y
  | .add l r, x =>
    (liftT (resolve h l)).bind fun rl =>
    (app rl x).bind fun y =>
    (liftT (resolve h r)).bind fun rr =>
    (app rr x).bind fun z =>
    liftT (y.add z)
  | .sub l r, x =>
    (liftT (resolve h l)).bind fun rl =>
    (app rl x).bind fun y =>
    (liftT (resolve h r)).bind fun rr =>
    (app rr x).bind fun z =>
    liftT (y.sub z)
  | .gather n put take t, x =>
    (liftT (scatter n put x.data)).bind fun z =>
    (liftT (resolve h t)).bind fun r =>
    (app r ⟨x.kind, z⟩).bind fun y =>
    (liftT (pick y.data take)).bind fun w =>
    TrE.pure ⟨y.kind, w⟩

/-- `op * x` in a thread: `__mul_vector` and `_matvec`, `linop.py:271-298, 356-360`.  The first argument is Python's recursion
limit, which counts the calls of one thread. -/
def runT (h : Heap K) : Nat → Nat → Arr K → TrE (Arr K)
  | 0, _, _ => TrE.raise .recursion
  | fuel + 1, r, x =>
    match h[r]? with
    | none => TrE.raise .typeError
    | some o =>
      (bumpT r).bind fun _ =>
      if x.data.length ≠ o.nargin then TrE.raise .valueError
      else
        (evalCodeT h (runT h fuel) o.code x).bind fun y =>
        if y.data.length ≠ o.nargout then TrE.raise .valueError
        else TrE.pure (y.astype (o.dtype.join x.kind))

/-- The program of a thread: products with operators and resets of counters, in an order that may depend on the results (and on the
exceptions) of the products so far; it ends with a result.  It does not read counters. -/
inductive Client (K α : Type)
  | ret (a : α)
  | mul (r : Nat) (x : Arr K) (k : Except Err (Arr K) → Client K α)
  | reset (r : Nat) (k : Client K α)

variable {α : Type}

/-- the program as a thread; `reset_counters()` (`linop.py:83-85`) writes 0 -/
def Client.tree (h : Heap K) (fuel : Nat) : Client K α → Tr Nat Nat α
  | .ret a => .ret a
  | .mul r x k => Tr.bind (runT h fuel r x) fun y => (k y).tree h fuel
  | .reset r k => .store r 0 (k.tree h fuel)

/-- the program alone, in the model of C01-C12 -/
def Client.alone (h : Heap K) (fuel : Nat) : Client K α → Cnt → α × Cnt
  | .ret a, c => (a, c)
  | .mul r x k, c =>
    let p := run h fuel r x c
    (k p.1).alone h fuel p.2
  | .reset r k, c => k.alone h fuel (c.modify r fun _ => 0)

/-- How many products with operator `r` the program makes, those inside other products included: what the counter of `r`
shows after each product if it is made alone, starting from 0. -/
def Client.products (h : Heap K) (fuel r : Nat) : Client K α → Nat
  | .ret _ => 0
  | .mul s x k => (run h fuel s x (List.replicate (r + 1) 0)).2[r]?.getD 0 + (k (run h fuel s x []).1).products h fuel r
  | .reset _ k => k.products h fuel r

end
end Verif.Threads
