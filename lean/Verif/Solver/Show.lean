import Verif.Solver.Minres
import Verif.Solver.LSQR
import Verif.Solver.LSMR
import Verif.Solver.Craig
import Verif.Solver.CraigMR

/-!
# What the solvers print

The models of MINRES, LSQR, LSMR, CRAIG and CRAIG-MR with the `print` statements and the argument `show`. (The other solvers have no
`print` statements: they write to a `logging` object.) A call prints lines and then returns or raises; the values are those of the
models without output, of which the pieces are reused.

Left open: the layout of the numbers in the lines, and the conditions other than `n <= 40` under which an iteration prints its row
(`other`); the theorems hold for all such conditions.
-/

namespace Verif.Solver
open Scalar Vect

/-- what one or several `print` statements write: fixed text and text with numbers; the row of an iteration; a message of `msg`; the
numbers `itn, xNrgNorm2` -/
inductive Line (S : Type)
  | blank
  | text (s : String)
  | row (itn : Nat)
  | message (k : Nat)
  | energy (itn : Nat) (xNrgNorm2 : S)

/-- The outcome of statements that print: the printed lines, and a value or an exception. -/
structure Out (S α : Type) where
  lines : List (Line S)
  val : Except PyError α

variable {S U V α β : Type}

/-- statements one after the other; an exception ends them -/
def Out.bind (p : Out S α) (f : α → Out S β) : Out S β :=
  match p.val with
  | .ok a => ⟨p.lines ++ (f a).lines, (f a).val⟩
  | .error e => ⟨p.lines, .error e⟩

instance : Monad (Out S) where
  pure a := ⟨[], .ok a⟩
  bind := Out.bind

/-- statements that print nothing -/
def quiet (r : Except PyError α) : Out S α := ⟨[], r⟩

/-- `if show: print ...` -/
def say (show' : Bool) (l : List (Line S)) : Out S Unit := ⟨if show' then l else [], .ok ()⟩

/-- `if show: ...` for statements that may raise -/
def sayWith (show' : Bool) (p : Out S Unit) : Out S Unit := if show' then p else ⟨[], .ok ()⟩

/-- the access `x[0]` to an array of length `n` -/
def firstEntry (n : Nat) : Out S Unit := ⟨[], if n = 0 then .error .indexError else .ok ()⟩

/-- `print msg[k]`, for a sequence of `len` messages (`k` is never negative) -/
def sayMsg (len k : Nat) : Out S Unit := if k < len then ⟨[.message k], .ok ()⟩ else ⟨[], .error .indexError⟩

/-- a row with `x[0]` -/
def sayRow (n itn : Nat) : Out S Unit := do
  firstEntry n
  say true [.row itn]

/-- `while cont s: s = step s`, for a body that prints and may raise -/
def outLoop {σ : Type} (cont : σ → Bool) (step : σ → Out S σ) (μ : σ → Nat)
    (h : ∀ s t, cont s = true → (step s).val = .ok t → cont t = true → μ t < μ s) (s : σ) : Out S σ :=
  if _hc : cont s = true then
    match _ht : (step s).val with
    | .error e => ⟨(step s).lines, .error e⟩
    | .ok t => ⟨(step s).lines ++ (outLoop cont step μ h t).lines, (outLoop cont step μ h t).val⟩
  else ⟨[], .ok s⟩
termination_by if cont s then μ s + 1 else 0
decreasing_by
  all_goals
    rw [if_pos _hc]
    split
    · rename_i h'
      have := h s t _hc _ht h'
      omega
    · omega

section
variable [Scalar S] [Vect S U] [Vect S V]

/-! ### LSQR -/

/-- One iteration with its row, `lsqr.py:245-413`, of which `396-411` print. -/
def lsqrStepO (show' : Bool) (other : LsqrLoop S U V → Bool) (A : V → U) (AT : U → V) (n : Nat) (kw : LsqrKw S U V) (lim : Int)
    (bnorm : S) (s : LsqrLoop S U V) : Out S (LsqrLoop S U V) := do
  let t ← quiet (lsqrStep A AT kw lim bnorm s)
  sayWith (show' && (decide (n ≤ 40) || other t)) (sayRow n t.itn)
  return t

theorem lsqrStepO_ok {show' : Bool} {other : LsqrLoop S U V → Bool} {A : V → U} {AT : U → V} {n : Nat} {kw : LsqrKw S U V} {lim : Int}
    {bnorm : S} {s t : LsqrLoop S U V} (h : (lsqrStepO show' other A AT n kw lim bnorm s).val = .ok t) :
    lsqrStep A AT kw lim bnorm s = .ok t := by
  cases hs : lsqrStep A AT kw lim bnorm s with
  | error e => simp [lsqrStepO, quiet, hs, bind, Out.bind] at h
  | ok t' =>
    simp only [lsqrStepO, quiet, hs, bind, Out.bind] at h
    split at h
    · cases h; rfl
    · cases h

/-- the loop, `lsqr.py:243-413` -/
def lsqrLoopO (show' : Bool) (other : LsqrLoop S U V → Bool) (A : V → U) (AT : U → V) (n : Nat) (kw : LsqrKw S U V) (lim : Int)
    (bnorm : S) (s : LsqrLoop S U V) : Out S (LsqrLoop S U V) :=
  outLoop (lsqrCont lim) (lsqrStepO show' other A AT n kw lim bnorm) (fun s => (lim - s.itn).toNat)
    (fun s t h ht h' => by
      have := lsqrStep_itn (lsqrStepO_ok ht)
      simp only [lsqrCont, Bool.and_eq_true, decide_eq_true_eq] at h h'
      omega) s

/-- the loop with `x_is_zero`, `lsqr.py:212-217, 243` -/
def lsqrMainO (show' : Bool) (other : LsqrLoop S U V → Bool) (A : V → U) (AT : U → V) (n : Nat) (kw : LsqrKw S U V) (lim : Int)
    (s : LsqrLoop S U V) : Out S (LsqrLoop S U V) :=
  if lsqrXZero s then pure s else lsqrLoopO show' other A AT n kw lim s.beta s

/-- the first row, `lsqr.py:226-234`, which divides `alpha / beta` unless `x_is_zero`, and reads `x[0]` -/
def lsqrRowO (n : Nat) (s : LsqrLoop S U V) : Out S Unit := do
  say true [.blank, .text "   Itn      x(1)       r1norm     r2norm  Compatible   LS      Norm A   Cond A"]
  let _ ← quiet (if lsqrXZero s then .ok (lit 1) else pydiv s.alpha s.beta)
  sayRow n 0

/-- The summary, with the method's name, `lsqr.py:418-434`, `craig.py:483-499`, `craigmr.py:214-230`. (The square roots in that of
CRAIG are taken again in lines `512-513`.) The sequence of messages has 9 entries. -/
def summaryO (name : String) (istop : Nat) : Out S Unit := do
  say true [.blank, .text name]
  sayMsg 9 istop
  say true [.blank, .text "istop, itn, bnorm, xNrgNorm2", .blank]

/-- `LSQRFramework.solve(rhs, ..., show)`: `lsqr.py:168-175` (heading), `213-215` (message for `x = 0`), `226-234` (first row), the
loop, `418-434` (summary). -/
def lsqrSolveO (show' : Bool) (other : LsqrLoop S U V → Bool) (A : V → U) (AT : U → V) (n : Nat) (b : U) (kw : LsqrKw S U V) :
    Out S (LsqrRes S V × LsqrLoop S U V) := do
  let _ ← quiet (lsqrVar kw.wantvar)
  say show' [.blank, .text "LSQR            Least-squares solution of  Ax = b", .text "The matrix A has", .text "damp", .text "atol",
    .text "btol"]
  let s ← quiet (lsqrInit AT kw b)
  sayWith (show' && lsqrXZero s) (sayMsg 9 0)
  sayWith show' (lsqrRowO n s)
  let s ← lsqrMainO show' other A AT n kw (lsqrLimit n kw.itnlim) s
  sayWith show' (summaryO "LSQR finished" s.istop)
  return (lsqrResult kw s, s)

/-! ### LSMR -/

/-- One iteration with its row, `lsmr.py:304-475`, of which `452-473` print; `more` is the repeated heading (`465-467`). -/
def lsmrStepO (show' : Bool) (other more : LsmrLoop S U V → Bool) (A : V → U) (AT : U → V) (n : Nat) (kw : LsmrKw S U V) (lim : Int)
    (normb : S) (s : LsmrLoop S U V) : Out S (LsmrLoop S U V) := do
  let t ← quiet (lsmrStep A AT kw lim normb s)
  sayWith (show' && (decide (n ≤ 40) || other t)) do
    say (more t) [.blank, .text "   itn      x(1)       norm r    norm A'r  compatible   LS      norm A   cond A"]
    sayRow n t.itn
  return t

theorem lsmrStepO_ok {show' : Bool} {other more : LsmrLoop S U V → Bool} {A : V → U} {AT : U → V} {n : Nat} {kw : LsmrKw S U V}
    {lim : Int} {normb : S} {s t : LsmrLoop S U V} (h : (lsmrStepO show' other more A AT n kw lim normb s).val = .ok t) :
    lsmrStep A AT kw lim normb s = .ok t := by
  cases hs : lsmrStep A AT kw lim normb s with
  | error e => simp [lsmrStepO, quiet, hs, bind, Out.bind] at h
  | ok t' =>
    simp only [lsmrStepO, quiet, hs, bind] at h
    simp only [Out.bind] at h
    split at h
    · cases h; rfl
    · cases h

/-- the loop, `lsmr.py:303-475` -/
def lsmrLoopO (show' : Bool) (other more : LsmrLoop S U V → Bool) (A : V → U) (AT : U → V) (n : Nat) (kw : LsmrKw S U V) (lim : Int)
    (normb : S) (s : LsmrLoop S U V) : Out S (LsmrLoop S U V) :=
  outLoop (lsmrCont lim) (lsmrStepO show' other more A AT n kw lim normb) (fun s => (lim - s.itn).toNat)
    (fun s t h ht h' => by
      have := lsmrStep_itn (lsmrStepO_ok ht)
      simp only [lsmrCont, Bool.and_eq_true, decide_eq_true_eq] at h h'
      omega) s

/-- the first row, `lsmr.py:289-296` -/
def lsmrRowO (n : Nat) (s : LsmrLoop S U V) : Out S Unit := do
  say true [.blank, .text "   itn      x(1)       norm r    norm A'r  compatible   LS      norm A   cond A"]
  let _ ← quiet (pydiv s.alpha s.beta)
  sayRow n 0

/-- the summary, `lsmr.py:479-489`, which takes the square root of `xNrgNorm2`; `msg` has 9 entries -/
def lsmrSummaryO (s : LsmrLoop S U V) : Out S Unit := do
  say true [.blank, .text "LSMR finished"]
  sayMsg 9 s.istop
  say true [.text "istop", .text "itn"]
  let _ ← quiet (pysqrt s.xNrgNorm2)
  say true [.text "Estimated energy norm of x"]

/-- `lsmr.py:284-492`: the message for `x = 0` and `return`, or the first row, the loop and the summary -/
def lsmrMainO (show' : Bool) (other more : LsmrLoop S U V → Bool) (A : V → U) (AT : U → V) (n : Nat) (kw : LsmrKw S U V) (lim : Int)
    (selfX : Option V) (s : LsmrLoop S U V) : Out S (LsmrRes S V × LsmrLoop S U V) :=
  if feq s.normar (lit 0) then do
    sayWith show' (sayMsg 9 0)
    return (lsmrResult selfX s, s)
  else do
    sayWith show' (lsmrRowO n s)
    let t ← lsmrLoopO show' other more A AT n kw lim s.beta (lsmrFirst kw s)
    sayWith show' (lsmrSummaryO t)
    return (lsmrResult (some t.x) t, t)

/-- `LSMRFramework.solve(b, ..., show)`: `lsmr.py:196-206` (heading) and `lsmrMainO`. -/
def lsmrSolveO (show' : Bool) (other more : LsmrLoop S U V → Bool) (A : V → U) (AT : U → V) (m n : Nat) (b : U) (kw : LsmrKw S U V)
    (selfX : Option V) : Out S (LsmrRes S V × LsmrLoop S U V) := do
  say show' [.blank, .text "LSMR            Least-squares solution of  Ax = b", .text "The matrix A has", .text "damp", .text "atol",
    .text "btol"]
  let s ← quiet (lsmrInit AT kw b)
  lsmrMainO show' other more A AT n kw (lsmrLimit m n kw.itnlim) selfX s

/-! ### CRAIG -/

/-- One iteration, `craig.py:293-478`; lines `461-476` read `x[0]` for a row that is not printed. -/
def craigStepO (show' : Bool) (other : CraigLoop S U V → Bool) (A : V → U) (AT : U → V) (n : Nat) (kw : CraigKw S U V) (lim : Int)
    (bnorm : S) (s : CraigLoop S U V) : Out S (CraigLoop S U V) := do
  let t ← quiet (craigStep A AT kw lim bnorm s)
  sayWith (show' && (decide (n ≤ 40) || other t)) (firstEntry n)
  return t

theorem craigStepO_ok {show' : Bool} {other : CraigLoop S U V → Bool} {A : V → U} {AT : U → V} {n : Nat} {kw : CraigKw S U V}
    {lim : Int} {bnorm : S} {s t : CraigLoop S U V} (h : (craigStepO show' other A AT n kw lim bnorm s).val = .ok t) :
    craigStep A AT kw lim bnorm s = .ok t := by
  cases hs : craigStep A AT kw lim bnorm s with
  | error e => simp [craigStepO, quiet, hs, bind, Out.bind] at h
  | ok t' =>
    simp only [craigStepO, quiet, hs, bind, Out.bind] at h
    split at h
    · cases h; rfl
    · cases h

/-- the loop, `craig.py:293-478` -/
def craigLoopO (show' : Bool) (other : CraigLoop S U V → Bool) (A : V → U) (AT : U → V) (n : Nat) (kw : CraigKw S U V) (lim : Int)
    (bnorm : S) (s : CraigLoop S U V) : Out S (CraigLoop S U V) :=
  outLoop (craigCont lim) (craigStepO show' other A AT n kw lim bnorm) (fun s => (lim - s.itn).toNat)
    (fun s t h ht h' => by
      have := craigStep_itn (craigStepO_ok ht)
      simp only [craigCont, Bool.and_eq_true, decide_eq_true_eq] at h h'
      omega) s

/-- the loop with `x_is_zero`, `craig.py:235-241, 293` -/
def craigMainO (show' : Bool) (other : CraigLoop S U V → Bool) (A : V → U) (AT : U → V) (n : Nat) (kw : CraigKw S U V) (lim : Int)
    (s : CraigLoop S U V) : Out S (CraigLoop S U V) :=
  if feq s.beta (lit 0) then pure s else craigLoopO show' other A AT n kw lim s.beta s

/-- `CRAIGFramework.solve(rhs, ..., show)`: `craig.py:193-200` (heading), `238-241` (message for `x = 0`), the loop, `483-499`
(summary). -/
def craigSolveO (show' : Bool) (other : CraigLoop S U V → Bool) (A : V → U) (AT : U → V) (n : Nat) (b : U) (kw : CraigKw S U V) :
    Out S (CraigRes S U V × CraigLoop S U V) := do
  let _ ← quiet (lsqrVar kw.wantvar)
  say show' [.blank, .text "CRAIG           Least-squares solution of  Ax = b", .text "The matrix A has", .text "damp", .text "atol",
    .text "btol"]
  let p ← quiet (craigVectors AT kw b)
  sayWith (show' && feq p.2.2.1 (lit 0)) (sayMsg 9 0)
  let s ← quiet (craigStart kw p.1 p.2.1 p.2.2.1 p.2.2.2.1 p.2.2.2.2.1 p.2.2.2.2.2)
  let s ← craigMainO show' other A AT n kw (craigLimit n kw.itnlim) s
  sayWith show' (summaryO "CRAIG finished" s.istop)
  let res ← quiet (craigResult s)
  return (res, s)

/-! ### CRAIG-MR -/

/-- One iteration, `craigmr.py:128-212`, with the `print` of line 190, which does not ask for `show`. -/
def craigmrStepO (A : V → U) (AT : U → V) (kw : CraigmrKw S U V) (lim : Int) (s : CraigmrLoop S U V) : Out S (CraigmrLoop S U V) := do
  let itn := s.itn + 1
  let (Mu, u, Nv, v, alpha, beta, products) ← quiet (craigmrBidiag A AT kw s)
  let (betaHat, alphaHat, c, sn) ← quiet (craigmrRot s.c s.s alpha beta)
  let rho := sqrt (s.alphaTilde * s.alphaTilde + betaHat * betaHat)
  let cHat ← quiet (pydiv s.alphaTilde rho)
  let sHat ← quiet (pydiv betaHat rho)
  let dbar := vdiv (s.d - smul s.theta s.dbar) rho
  let theta := sHat * alphaHat
  let alphaTilde := -cHat * alphaHat
  let zeta := cHat * s.zetaHat
  let zetaHat := sHat * s.zetaHat
  let xNrgNorm2 := s.xNrgNorm2 + zeta * zeta
  say true [.energy itn xNrgNorm2]
  let d := vdiv (u - smul betaHat s.d) alphaHat
  let x := s.x + smul zeta dbar
  let k ← quiet (pymod itn kw.window)
  let dErr := s.dErr.set k zeta
  let trnc := normList dErr
  let xNrgNorm := sqrt xNrgNorm2
  let direct := decide (itn > kw.window) && lt trnc (kw.etol * xNrgNorm)
  return { x := x, Mu := Mu, Nv := Nv, v := v, alpha := alpha, c := c, s := sn, d := d, dbar := dbar, theta := theta,
           alphaTilde := alphaTilde, zetaHat := zetaHat, xNrgNorm2 := xNrgNorm2, dErr := dErr,
           istop := craigmrStop lim itn direct, itn := itn,
           norms := if kw.storeResids then s.norms ++ [xNrgNorm2] else s.norms,
           normalEqns := if kw.storeResids then s.normalEqns ++ [Scalar.abs zeta] else s.normalEqns,
           dirErrors := if itn > kw.window then s.dirErrors ++ [trnc / xNrgNorm] else s.dirErrors,
           iterates := if kw.storeIterates then s.iterates ++ [x] else s.iterates,
           products := products }

/-- the value of an iteration is that of the model without output -/
theorem craigmrStepO_val (A : V → U) (AT : U → V) (kw : CraigmrKw S U V) (lim : Int) (s : CraigmrLoop S U V) :
    (craigmrStepO A AT kw lim s).val = craigmrStep A AT kw lim s := by
  unfold craigmrStepO craigmrStep
  simp only [quiet, bind, Out.bind, Except.bind]
  cases craigmrBidiag A AT kw s with
  | error e => rfl
  | ok p =>
    obtain ⟨Mu, u, Nv, v, alpha, beta, products⟩ := p
    simp only
    cases craigmrRot s.c s.s alpha beta with
    | error e => rfl
    | ok p =>
      obtain ⟨betaHat, alphaHat, c, sn⟩ := p
      simp only
      cases pydiv s.alphaTilde (sqrt (s.alphaTilde * s.alphaTilde + betaHat * betaHat)) with
      | error e => rfl
      | ok cHat =>
        simp only
        cases pydiv betaHat (sqrt (s.alphaTilde * s.alphaTilde + betaHat * betaHat)) with
        | error e => rfl
        | ok sHat =>
          simp only [say]
          cases pymod (s.itn + 1) kw.window <;> rfl

/-- an iteration that does not raise prints one line -/
theorem craigmrStepO_lines {A : V → U} {AT : U → V} {kw : CraigmrKw S U V} {lim : Int} {s t : CraigmrLoop S U V}
    (h : (craigmrStepO A AT kw lim s).val = .ok t) : (craigmrStepO A AT kw lim s).lines = [.energy t.itn t.xNrgNorm2] := by
  unfold craigmrStepO at h ⊢
  simp only [quiet, bind, Out.bind] at h ⊢
  cases h1 : craigmrBidiag A AT kw s with
  | error e => rw [h1] at h; cases h
  | ok p =>
    obtain ⟨Mu, u, Nv, v, alpha, beta, products⟩ := p
    rw [h1] at h
    simp only at h ⊢
    cases h2 : craigmrRot s.c s.s alpha beta with
    | error e => rw [h2] at h; cases h
    | ok p =>
      obtain ⟨betaHat, alphaHat, c, sn⟩ := p
      rw [h2] at h
      simp only at h ⊢
      cases h3 : pydiv s.alphaTilde (sqrt (s.alphaTilde * s.alphaTilde + betaHat * betaHat)) with
      | error e => rw [h3] at h; cases h
      | ok cHat =>
        rw [h3] at h
        simp only at h ⊢
        cases h4 : pydiv betaHat (sqrt (s.alphaTilde * s.alphaTilde + betaHat * betaHat)) with
        | error e => rw [h4] at h; cases h
        | ok sHat =>
          rw [h4] at h
          simp only [say] at h ⊢
          cases h5 : pymod (s.itn + 1) kw.window with
          | error e => rw [h5] at h; cases h
          | ok k => rw [h5] at h; cases h; rfl

/-- the loop, `craigmr.py:128-212` -/
def craigmrLoopO (A : V → U) (AT : U → V) (kw : CraigmrKw S U V) (lim : Int) (s : CraigmrLoop S U V) : Out S (CraigmrLoop S U V) :=
  outLoop (craigmrCont lim) (craigmrStepO A AT kw lim) (fun s => (lim - s.itn).toNat)
    (fun s t h ht h' => by
      rw [craigmrStepO_val] at ht
      have := craigmrStep_itn ht
      simp only [craigmrCont, Bool.and_eq_true, decide_eq_true_eq] at h h'
      omega) s

/-- `CRAIGMRFramework.solve(b, ..., show)`: the loop and `214-230` (summary). -/
def craigmrSolveO (show' : Bool) (A : V → U) (AT : U → V) (m n : Nat) (b : U) (kw : CraigmrKw S U V) :
    Out S (CraigmrRes S U × CraigmrLoop S U V) := do
  let p ← quiet (craigmrVectors AT kw b)
  let s ← quiet (craigmrStart kw p.1 p.2.1 p.2.2.1 p.2.2.2.1 p.2.2.2.2.1 p.2.2.2.2.2.1 p.2.2.2.2.2.2)
  let s ← craigmrLoopO A AT kw (craigmrLimit m n kw.itnlim) s
  sayWith show' (summaryO "CRAIG-MR finished" s.istop)
  return (craigmrResult s, s)

/-! ### MINRES -/

/-- One iteration, `minres.py:221-383`. If the preconditioner shows to be indefinite (`249-251`) the iteration ends before the part
that prints; otherwise it prints its row (`365-379`) and, if it is not the last one and its number is a multiple of 10, a line that
does not ask for `show` (`381-383`). -/
def minresStepO (show' : Bool) (other : MinresLoop S V → Bool) (op : V → V) (eps : S) (n : Nat) (kw : MinresKw S V) (itnlim : Nat)
    (beta1 : S) (s : MinresLoop S V) : Out S (MinresLoop S V) := do
  let t := minresStep op eps kw itnlim beta1 s
  if lt (minresLanczos op kw (s.itn + 1) s).2.2.2.2 (lit 0) then return t
  else do
    sayWith (show' && (decide (n ≤ 40) || other t)) (sayRow n t.itn)
    say (!t.broke && decide (t.itn % 10 = 0)) [.blank]
    return t

theorem minresStepO_ok {show' : Bool} {other : MinresLoop S V → Bool} {op : V → V} {eps : S} {n : Nat} {kw : MinresKw S V}
    {itnlim : Nat} {beta1 : S} {s t : MinresLoop S V} (h : (minresStepO show' other op eps n kw itnlim beta1 s).val = .ok t) :
    t = minresStep op eps kw itnlim beta1 s := by
  unfold minresStepO at h
  simp only at h
  split at h
  · cases h; rfl
  · simp only [bind] at h
    simp only [Out.bind, say] at h
    split at h
    · cases h; rfl
    · cases h

/-- the loop, `minres.py:219-383` -/
def minresLoopO (show' : Bool) (other : MinresLoop S V → Bool) (op : V → V) (eps : S) (n : Nat) (kw : MinresKw S V) (itnlim : Nat)
    (beta1 : S) (s : MinresLoop S V) : Out S (MinresLoop S V) :=
  outLoop (minresCont itnlim) (minresStepO show' other op eps n kw itnlim beta1) (fun s => itnlim - s.itn)
    (fun s t h ht _ => by
      have := minresStepO_ok ht
      subst this
      simp only [minresCont, Bool.and_eq_true, decide_eq_true_eq] at h
      have := minresStep_itn op eps kw itnlim beta1 s
      omega) s

/-- `show` after the checks: a preconditioner that fails its check sets the variable, `minres.py:193-197`. (The other statements set
an attribute, which nothing reads.) -/
def minresShowAfter (show' : Bool) (kw : MinresKw S V) : Bool := show' || (kw.check && kw.precon.isSome && !kw.preconSymOK)

/-- The part of `Minres.solve` under `if not done`, `minres.py:219-383`, with the exception for an empty window. -/
def minresMainO (show' : Bool) (other : MinresLoop S V → Bool) (op : V → V) (eps : S) (n : Nat) (kw : MinresKw S V) (itnlim : Nat)
    (b : V) (s : MinresLoop S V) : Out S (MinresLoop S V) :=
  if (minresEntry kw b).2 then pure s
  else if kw.window = 0 ∧ 0 < itnlim ∧ lt (minresLanczos op kw 1 s).2.2.2.2 (lit 0) = false then quiet (.error .zeroDivision)
  else minresLoopO show' other op eps n kw itnlim (minresStart kw b).2 s

/-- the summary, `minres.py:387-393`; `self.msg` has 12 entries, of which number `istop + 1` is printed -/
def minresSummaryO (istop : Int) : Out S Unit := do
  say true [.text "istop", .text "Anorm", .text "rnorm", .text "Arnorm"]
  sayMsg 12 (istop + 1).toNat

/-- `self.msg`, `minres.py:87-98` (without the blanks at the ends) -/
def minresMsg : List String :=
  ["beta2 = 0.  If M = I, b and x are eigenvectors", "beta1 = 0.  The exact solution is  x = 0",
   "A solution to Ax = b was found, given rtol", "A least-squares solution was found, given rtol",
   "Reasonable accuracy achieved, given eps", "x has converged to an eigenvector", "acond has exceeded 0.1/eps",
   "The iteration limit was reached", "Aname  does not define a symmetric matrix", "Mname  does not define a symmetric matrix",
   "Mname  does not define a pos-def preconditioner", "The truncated direct error is small enough, given etol"]

/-- `Minres.solve(b, ..., show)`: `minres.py:147-151` (heading), `210-214` (heading of the table), the loop, `387-393` (summary). -/
def minresSolveO (show' : Bool) (other : MinresLoop S V → Bool) (op : V → V) (eps : S) (n : Nat) (self : MinresObj S V) (b : V)
    (kw : MinresKw S V) : Out S (MinresRes S V × List V) := do
  say show' [.text "Enter minres.   Solution of symmetric Ax = b", .text "n", .text "itnlim", .blank]
  say (minresShowAfter show' kw) [.blank, .text "   Itn     x[0]     Compatible    LS       norm(A)  cond(A) gbar/|A|"]
  let s ← minresMainO (minresShowAfter show' kw) other op eps n kw (kw.itnlim.getD (5 * n)) b (minresInit kw self b)
  sayWith (minresShowAfter show' kw) (minresSummaryO s.istop)
  return (minresResult (minresStart kw b).2 s, s.calls)

end

end Verif.Solver
