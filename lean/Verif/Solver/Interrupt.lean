import Verif.Solver.InterruptSpec
import Verif.Solver.CG

/-!
# The order in which the solvers write to their attributes

`Verif.Solver.Reuse` lists the statements on attributes that a call of `solve` executes, those of a loop together.  Here they are listed in
the order in which they are executed, iteration by iteration.  An exception in the middle of a call (raised by the operator or by a
preconditioner, or a `KeyboardInterrupt`) leaves the object with the statements that come before it: an initial part of the list.

`append` of one entry is one statement, which is executed or not.  Not covered: exceptions that the solver itself raises in the middle of an
iteration (divisions by zero), because the rest of the list is not defined then.
-/

namespace Verif.Solver
open Scalar Vect

variable {σ α S U V : Type}

/-- the body of a loop, together with the statements it executes -/
def traceStep (step : σ → Except PyError σ) (ev : σ → σ → List α) (p : σ × List α) : Except PyError (σ × List α) :=
  (step p.1).map fun t => (t, p.2 ++ ev p.1 t)

theorem traceStep_ok {step : σ → Except PyError σ} {ev : σ → σ → List α} {p q : σ × List α} (h : traceStep step ev p = .ok q) :
    step p.1 = .ok q.1 ∧ q.2 = p.2 ++ ev p.1 q.1 := by
  unfold traceStep at h
  cases hs : step p.1 with
  | error e => rw [hs] at h; cases h
  | ok t => rw [hs] at h; cases h; exact ⟨rfl, rfl⟩

/-- `while cont s: s = step s`, together with the statements it executes -/
def traceLoop (cont : σ → Bool) (step : σ → Except PyError σ) (μ : σ → Nat)
    (h : ∀ s t, cont s = true → step s = .ok t → cont t = true → μ t < μ s) (ev : σ → σ → List α) (s : σ) (w : List α) :
    Except PyError (σ × List α) :=
  exceptLoop (fun p : σ × List α => cont p.1) (traceStep step ev) (fun p => μ p.1)
    (fun p q hp hs hq => h p.1 q.1 hp (traceStep_ok hs).1 hq) (s, w)

/-- `while cont s: s = step s`, for a body that does not raise, together with the statements it executes -/
def traceWhile (cont : σ → Bool) (step : σ → σ) (μ : σ → Nat) (h : ∀ s, cont s = true → cont (step s) = true → μ (step s) < μ s)
    (ev : σ → σ → List α) (s : σ) (w : List α) : σ × List α :=
  whileLoop (fun p : σ × List α => cont p.1) (fun p => (step p.1, p.2 ++ ev p.1 (step p.1))) (fun p => μ p.1)
    (fun p hp hq => h p.1 hp hq) (s, w)

/-- The statements on attributes that a call executes: assignments at the beginning, statements that fill the lists, assignments at the
end. -/
structure Trace (S U V : Type) where
  first : List (Wr S U V)
  middle : List (Wr S U V)
  last : List (Wr S U V)

/-- the statements in their order -/
def Trace.all (tr : Trace S U V) : List (Wr S U V) := tr.first ++ tr.middle ++ tr.last

/-- An object with the attributes `a` has the attributes `a'` after a call that was interrupted between two statements. -/
def Trace.Leaves (tr : Trace S U V) (a a' : Attrs S U V) : Prop := ∃ ws, ws <+: tr.all ∧ a' = writeAll ws a

section
variable [Scalar S] [Vect S V]

/-! ### CG -/

/-- before the loop: `cg.py:80, 98, 101, 102`; the lists of the object are not emptied -/
def cgBegin (self : CGObj S V) (s : CGLoop S V) : List (Wr S V V) :=
  [.app "iterates" (newEntries .vec self.iterates s.iterates), .app "resids" (newEntries .vec self.resids s.resids),
   .set "residNorm0" (.scal s.residNorm), .app "residHistory" (newEntries .scal self.residHistory s.residHistory)]

/-- an iteration: `cg.py:123`, or `134, 143, 155` -/
def cgEvents (s t : CGLoop S V) : List (Wr S V V) :=
  if t.definite then
    [.app "iterates" (newEntries .vec s.iterates t.iterates), .app "resids" (newEntries .vec s.resids t.resids),
     .app "residHistory" (newEntries .scal s.residHistory t.residHistory)]
  else [.set "infiniteDescent" (.vec s.p)]

/-- after the loop: `cg.py:161-165` -/
def cgEnd (threshold : S) (s : CGLoop S V) : List (Wr S V V) :=
  [.set "converged" (.bool (le s.residNorm threshold)), .set "definite" (.bool s.definite), .set "nMatvec" (.int s.nMatvec),
   .set "bestSolution" (.vec s.x), .set "x" (.vec s.x), .set "residNorm" (.scal s.residNorm)]

/-- the loop, `cg.py:113-158`, with its statements on attributes -/
def cgTraced (op : V → V) (precon : Option (V → V)) (kw : CGKw V) (threshold : S) (matvecMax : Nat) (s : CGLoop S V)
    (w : List (Wr S V V)) : CGLoop S V × List (Wr S V V) :=
  traceWhile (cgCont threshold matvecMax) (cgStep op precon kw) (fun s => matvecMax - s.nMatvec)
    (fun s h _ => by
      simp only [cgCont, Bool.and_eq_true, decide_eq_true_eq] at h
      rw [cgStep_nMatvec]; omega) cgEvents s w

/-- The statements on attributes of `CG.solve`, for a call that is not ended by the check of symmetry. -/
def cgTrace (op : V → V) (o : KrylovOpts S V) (n : Nat) (self : CGObj S V) (rhs : V) (kw : CGKw V) : Trace S V V :=
  let p := cgInit op o kw self rhs
  let q := cgTraced op o.precon kw p.2 (kw.matvecMax.getD (2 * n)) p.1 (cgBegin self p.1)
  { first := [], middle := q.2, last := cgEnd p.2 q.1 }

/-- the value of an attribute that may not have been assigned -/
def PyV.opt {β : Type} (f : β → PyV S U V) : Option β → PyV S U V
  | Option.some x => f x
  | Option.none => .none

/-- What a complete `CG.solve` does to the attributes, for an object with the lists of `self` and the result `res` of the model: the
statements of `cg.py:80, 134`, `98, 143`, `101`, `102, 155`, `123` and `161-165`. -/
def cgWrites (self res : CGObj S V) : List (Wr S V V) :=
  [.app "iterates" (newEntries .vec self.iterates res.iterates), .app "resids" (newEntries .vec self.resids res.resids),
   .set "residNorm0" (PyV.opt .scal res.residNorm0), .app "residHistory" (newEntries .scal self.residHistory res.residHistory)] ++
  (if res.definite = some false then [.set "infiniteDescent" (PyV.opt .vec res.infiniteDescent)] else []) ++
  [.set "converged" (.bool res.converged), .set "definite" (PyV.opt .bool res.definite), .set "nMatvec" (.int res.nMatvec),
   .set "bestSolution" (PyV.opt .vec res.x), .set "x" (PyV.opt .vec res.x), .set "residNorm" (PyV.opt .scal res.residNorm)]

/-! ### CGS, Bi-CGSTAB and TFQMR -/

/-- `cgs.py:64, 120-123`, `bicgstab.py:69, 148-151`, `tfqmr.py:63, 156-159` -/
def krylovTrace (res : KrylovRes S V) : Trace S V V :=
  { first := [.set "residNorm0" (.scal res.residNorm0)], middle := [],
    last := [.set "converged" (.bool res.converged), .set "nMatvec" (.int res.nMatvec), .set "bestSolution" (.vec res.x),
      .set "x" (.vec res.x), .set "residNorm" (.scal res.residNorm)] }

/-! ### MINRES -/

/-- the first statements: `minres.py:132-133` -/
def minresEmpty : List (Wr S V V) := [.set "dir_errors_window" (.list []), .set "iterates" (.list [])]

/-- before the loop: `minres.py:142`, `172, 176`, `181, 183` and `190`.  `self.show = True` stands before the assignment of `residNorm0`;
with the check of symmetry it is executed after it. -/
def minresBegin (show' : Bool) (beta1 : S) (s : MinresLoop S V) : List (Wr S V V) :=
  [.app "iterates" (s.iterates.map .vec)] ++ (if show' then [.set "show" (.bool true)] else []) ++ [.set "residNorm0" (.scal beta1)]

/-- an iteration: `minres.py:300, 308, 336` -/
def minresEvents (s t : MinresLoop S V) : List (Wr S V V) :=
  [.app "iterates" (newEntries .vec s.iterates t.iterates), .app "dir_errors_window" (newEntries .scal s.dirErrors t.dirErrors),
   .app "residHistory" (newEntries .scal s.residHistory t.residHistory)]

/-- after the loop: `minres.py:395-408` -/
def minresEnd (res : MinresRes S V) : List (Wr S V V) :=
  [.set "converged" (.bool res.converged)] ++ (if res.istop = 10 then [.set "status" (.str "direct error small")] else []) ++
  [.set "bestSolution" (.vec res.x), .set "x" (.vec res.x), .set "istop" (.int res.istop), .set "itn" (.int res.itn),
   .set "nMatvec" (.int res.nMatvec), .set "rnorm" (.scal res.rnorm), .set "residNorm" (.scal res.rnorm),
   .set "Arnorm" (.scal res.Arnorm), .set "Anorm" (.scal res.Anorm), .set "Acond" (.scal res.Acond),
   .set "ynorm" (.scal res.ynorm)]

/-- the loop, `minres.py:219-383`, with its statements on attributes -/
def minresTraced (op : V → V) (eps : S) (kw : MinresKw S V) (itnlim : Nat) (beta1 : S) (s : MinresLoop S V) (w : List (Wr S V V)) :
    MinresLoop S V × List (Wr S V V) :=
  traceWhile (minresCont itnlim) (minresStep op eps kw itnlim beta1) (fun s => itnlim - s.itn)
    (fun s h _ => by
      simp only [minresCont, Bool.and_eq_true, decide_eq_true_eq] at h
      have := minresStep_itn op eps kw itnlim beta1 s
      omega) minresEvents s w

/-- The statements on attributes of `Minres.solve`.  The list `residHistory` of the model, which starts empty here, has the entries that the
call appends.  (The empty window, which raises in the first iteration, is excluded in the theorems.) -/
def minresTrace (op : V → V) (eps : S) (n : Nat) (b : V) (kw : MinresKw S V) : Trace S V V :=
  let beta1 := (minresStart kw b).2
  let s := minresInit kw {} b
  let w := minresBegin (minresShow kw b) beta1 s
  let q := if (minresEntry kw b).2 then (s, w) else minresTraced op eps kw (kw.itnlim.getD (5 * n)) beta1 s w
  { first := minresEmpty, middle := q.2, last := minresEnd (minresResult beta1 q.1) }

end

section
variable [Scalar S] [Vect S U] [Vect S V]

/-! ### LSQR -/

/-- the first statements: `lsqr.py:144-147, 163` -/
def lsqrEmpty (kw : LsqrKw S U V) : List (Wr S U V) :=
  [.set "resids" (.list []), .set "normal_eqns_resids" (.list []), .set "dir_errors_window" (.list []), .set "iterates" (.list [])] ++
  (if gt kw.conlim (lit 0) then [.set "ctol" (.scal (lit 1 / kw.conlim))] else [])

/-- before the loop: `lsqr.py:186, 237, 238` -/
def lsqrBegin (s : LsqrLoop S U V) : List (Wr S U V) :=
  [.app "iterates" (s.iterates.map .vec), .app "resids" (s.resids.map .scal), .app "normal_eqns_resids" (s.normalEqns.map .scal)]

/-- an iteration: `lsqr.py:307, 315, 374, 375` -/
def lsqrEvents (s t : LsqrLoop S U V) : List (Wr S U V) :=
  [.app "iterates" (newEntries .vec s.iterates t.iterates), .app "dir_errors_window" (newEntries .scal s.dirErrors t.dirErrors),
   .app "resids" (newEntries .scal s.resids t.resids), .app "normal_eqns_resids" (newEntries .scal s.normalEqns t.normalEqns)]

/-- after the loop: `lsqr.py:436-453` -/
def lsqrEnd (res : LsqrRes S V) : List (Wr S U V) :=
  statusWrites res.istop ++
  [.set "optimal" (.bool res.optimal), .set "x" (.vec res.x), .set "bestSolution" (.vec res.x), .set "istop" (.int res.istop),
   .set "itn" (.int res.itn), .set "nMatvec" (.int res.nMatvec), .set "r1norm" (.scal res.r1norm), .set "r2norm" (.scal res.r2norm),
   .set "residNorm" (.scal res.r2norm), .set "Anorm" (.scal res.Anorm), .set "Acond" (.scal res.Acond), .set "Arnorm" (.scal res.Arnorm),
   .set "xnorm" (.scal res.xnorm), .set "var" .none]

/-- the loop, `lsqr.py:243-413`, with its statements on attributes -/
def lsqrTraced (A : V → U) (AT : U → V) (kw : LsqrKw S U V) (lim : Int) (bnorm : S) (s : LsqrLoop S U V) (w : List (Wr S U V)) :
    Except PyError (LsqrLoop S U V × List (Wr S U V)) :=
  traceLoop (lsqrCont lim) (lsqrStep A AT kw lim bnorm) (fun s => (lim - s.itn).toNat)
    (fun s t h ht h' => by
      have := lsqrStep_itn ht
      simp only [lsqrCont, Bool.and_eq_true, decide_eq_true_eq] at h h'
      omega) lsqrEvents s w

/-- The statements on attributes of `LSQRFramework.solve`, for a call that returns. -/
def lsqrTrace (A : V → U) (AT : U → V) (n : Nat) (b : U) (kw : LsqrKw S U V) : Except PyError (Trace S U V) := do
  let _ ← lsqrVar kw.wantvar
  let s ← lsqrInit AT kw b
  let p ← if lsqrXZero s then .ok (s, lsqrBegin s) else lsqrTraced A AT kw (lsqrLimit n kw.itnlim) s.beta s (lsqrBegin s)
  return { first := lsqrEmpty kw, middle := p.2, last := lsqrEnd (lsqrResult kw p.1) }

/-! ### LSMR -/

/-- the first statements: `lsmr.py:174-178` -/
def lsmrEmpty : List (Wr S U V) :=
  [.set "resids" (.list []), .set "normal_eqns_resids" (.list []), .set "norms" (.list []), .set "dir_errors_window" (.list []),
   .set "iterates" (.list [])]

/-- before the loop: `lsmr.py:250, 299, 300` -/
def lsmrBegin (s : LsmrLoop S U V) : List (Wr S U V) :=
  [.app "iterates" (s.iterates.map .vec), .app "resids" (s.resids.map .scal), .app "normal_eqns_resids" (s.normalEqns.map .scal)]

/-- an iteration: `lsmr.py:364, 371, 429, 430, 431` -/
def lsmrEvents (s t : LsmrLoop S U V) : List (Wr S U V) :=
  [.app "iterates" (newEntries .vec s.iterates t.iterates), .app "dir_errors_window" (newEntries .scal s.dirErrors t.dirErrors),
   .app "norms" (newEntries .scal s.norms t.norms), .app "resids" (newEntries .scal s.resids t.resids),
   .app "normal_eqns_resids" (newEntries .scal s.normalEqns t.normalEqns)]

/-- the loop, `lsmr.py:303-475`, with its statements on attributes -/
def lsmrTraced (A : V → U) (AT : U → V) (kw : LsmrKw S U V) (lim : Int) (normb : S) (s : LsmrLoop S U V) (w : List (Wr S U V)) :
    Except PyError (LsmrLoop S U V × List (Wr S U V)) :=
  traceLoop (lsmrCont lim) (lsmrStep A AT kw lim normb) (fun s => (lim - s.itn).toNat)
    (fun s t h ht h' => by
      have := lsmrStep_itn ht
      simp only [lsmrCont, Bool.and_eq_true, decide_eq_true_eq] at h h'
      omega) lsmrEvents s w

/-- The statements on attributes of `LSMRFramework.solve`, for a call that returns: in line 287 or at the end, where `x` is assigned
(`lsmr.py:491`). -/
def lsmrTrace (A : V → U) (AT : U → V) (m n : Nat) (b : U) (kw : LsmrKw S U V) : Except PyError (Trace S U V) := do
  let s ← lsmrInit AT kw b
  if feq s.normar (lit 0) then return { first := lsmrEmpty, middle := lsmrBegin s, last := [] }
  else
    let p ← lsmrTraced A AT kw (lsmrLimit m n kw.itnlim) s.beta (lsmrFirst kw s) (lsmrBegin (lsmrFirst kw s))
    return { first := lsmrEmpty, middle := p.2, last := [.set "x" (.vec p.1.x)] }

/-! ### CRAIG -/

/-- the first statements: `craig.py:165-171, 187` -/
def craigEmpty (kw : CraigKw S U V) : List (Wr S U V) :=
  [.set "norms" (.list []), .set "resids" (.list []), .set "normal_eqns_resids" (.list []), .set "dir_errors_p_window" (.list []),
   .set "dir_errors_d_window" (.list []), .set "iterates_p" (.list []), .set "iterates_d" (.list [])] ++
  (if gt kw.conlim (lit 0) then [.set "ctol" (.scal (lit 1 / kw.conlim))] else [])

/-- before the loop: `craig.py:272, 273, 286, 287` -/
def craigBegin (s : CraigLoop S U V) : List (Wr S U V) :=
  [.app "iterates_p" (s.iteratesP.map .vec), .app "iterates_d" (s.iteratesD.map .rvec), .app "norms" (s.norms.map .scal),
   .app "resids" (s.resids.map .scal)]

/-- an iteration: `craig.py:364, 365, 377, 438, 439, 440` -/
def craigEvents (s t : CraigLoop S U V) : List (Wr S U V) :=
  [.app "iterates_p" (newEntries .vec s.iteratesP t.iteratesP), .app "iterates_d" (newEntries .rvec s.iteratesD t.iteratesD),
   .app "dir_errors_d_window" (newEntries .scal s.dirErrors t.dirErrors), .app "norms" (newEntries .scal s.norms t.norms),
   .app "resids" (newEntries .scal s.resids t.resids), .app "normal_eqns_resids" (newEntries .scal s.normalEqns t.normalEqns)]

/-- after the loop: `craig.py:501-518` -/
def craigEnd (res : CraigRes S U V) : List (Wr S U V) :=
  statusWrites res.istop ++
  [.set "optimal" (.bool res.optimal), .set "x" (.vec res.x), .set "bestSolution" (.vec res.x), .set "r" (.rvec res.r),
   .set "istop" (.int res.istop), .set "itn" (.int res.itn), .set "nMatvec" (.int res.nMatvec), .set "r1norm" (.scal res.r1norm),
   .set "r2norm" (.scal res.r2norm), .set "Arnorm" (.scal res.Arnorm), .set "xnorm" (.scal res.xnorm)]

/-- the loop, `craig.py:293-478`, with its statements on attributes -/
def craigTraced (A : V → U) (AT : U → V) (kw : CraigKw S U V) (lim : Int) (bnorm : S) (s : CraigLoop S U V) (w : List (Wr S U V)) :
    Except PyError (CraigLoop S U V × List (Wr S U V)) :=
  traceLoop (craigCont lim) (craigStep A AT kw lim bnorm) (fun s => (lim - s.itn).toNat)
    (fun s t h ht h' => by
      have := craigStep_itn ht
      simp only [craigCont, Bool.and_eq_true, decide_eq_true_eq] at h h'
      omega) craigEvents s w

/-- The statements on attributes of `CRAIGFramework.solve`, for a call that returns. -/
def craigTrace (A : V → U) (AT : U → V) (n : Nat) (b : U) (kw : CraigKw S U V) : Except PyError (Trace S U V) := do
  let _ ← lsqrVar kw.wantvar
  let (Mu, u, beta, vs, alpha, products) ← craigVectors AT kw b
  let s ← craigStart kw Mu u beta vs alpha products
  let p ← if feq s.beta (lit 0) then .ok (s, craigBegin s) else craigTraced A AT kw (craigLimit n kw.itnlim) s.beta s (craigBegin s)
  let res ← craigResult p.1
  return { first := craigEmpty kw, middle := p.2, last := craigEnd res }

/-! ### CRAIG-MR -/

/-- the first statements: `init_data`, `craigmr.py:36-49, 60` -/
def craigmrEmpty : List (Wr S U V) := craigmrAttrs.map fun p => .set p.1 p.2

/-- before the loop: `craigmr.py:115, 125` -/
def craigmrBegin (s : CraigmrLoop S U V) : List (Wr S U V) :=
  [.app "iterates" (s.iterates.map .rvec), .app "norms" (s.norms.map .scal)]

/-- an iteration: `craigmr.py:195, 198, 199, 206` -/
def craigmrEvents (s t : CraigmrLoop S U V) : List (Wr S U V) :=
  [.app "iterates" (newEntries .rvec s.iterates t.iterates), .app "norms" (newEntries .scal s.norms t.norms),
   .app "normal_eqns_resids" (newEntries .scal s.normalEqns t.normalEqns),
   .app "dir_errors_window" (newEntries .scal s.dirErrors t.dirErrors)]

/-- after the loop: `craigmr.py:232-241` -/
def craigmrEnd (res : CraigmrRes S U) : List (Wr S U V) :=
  statusWrites res.istop ++
  [.set "optimal" (.bool res.optimal), .set "x" (.rvec res.x), .set "bestSolution" (.rvec res.x), .set "istop" (.int res.istop),
   .set "itn" (.int res.itn), .set "nMatvec" (.int res.nMatvec)]

/-- the loop, `craigmr.py:128-212`, with its statements on attributes -/
def craigmrTraced (A : V → U) (AT : U → V) (kw : CraigmrKw S U V) (lim : Int) (s : CraigmrLoop S U V) (w : List (Wr S U V)) :
    Except PyError (CraigmrLoop S U V × List (Wr S U V)) :=
  traceLoop (craigmrCont lim) (craigmrStep A AT kw lim) (fun s => (lim - s.itn).toNat)
    (fun s t h ht h' => by
      have := craigmrStep_itn ht
      simp only [craigmrCont, Bool.and_eq_true, decide_eq_true_eq] at h h'
      omega) craigmrEvents s w

/-- The statements on attributes of `CRAIGMRFramework.solve`, for a call that returns. -/
def craigmrTrace (A : V → U) (AT : U → V) (m n : Nat) (b : U) (kw : CraigmrKw S U V) : Except PyError (Trace S U V) := do
  let (Mu, u, beta, Nv, v, alpha, products) ← craigmrVectors AT kw b
  let s ← craigmrStart kw Mu u beta Nv v alpha products
  let p ← craigmrTraced A AT kw (craigmrLimit m n kw.itnlim) s (craigmrBegin s)
  return { first := craigmrEmpty, middle := p.2, last := craigmrEnd (craigmrResult p.1) }

end

end Verif.Solver
