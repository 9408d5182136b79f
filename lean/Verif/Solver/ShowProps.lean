import Verif.Solver.ShowLemmas
import Verif.Solver.Exact
import Verif.Solver.MinresFindings
import Verif.Solver.CraigmrExact

/-!
# Printing: the property (C78)
-/

namespace Verif.Solver
open Scalar Vect

variable {S U V : Type} [Scalar S] [Vect S U] [Vect S V]

/-- exact arithmetic has the laws used for the numbers that are only printed -/
theorem printLaws_exact : PrintLaws Fl := by
  refine ⟨?_, ?_, ?_, ?_⟩
  · intro b h
    obtain ⟨x, y, hx, rfl, hlt⟩ := Fl.lt_iff.1 h
    rw [Fl.lit_eq] at hx
    cases hx
    simp only [Rat.cast_zero] at hlt
    simp [feq, hlt]
  · intro b h
    simp only [feq, Bool.and_eq_true] at h ⊢
    obtain ⟨x, y, rfl, hy, hle⟩ := Fl.le_iff.1 h.1
    simp
  · intro a b h
    cases a with
    | nan => simp
    | fin a =>
      cases b with
      | nan => simp
      | fin b =>
        rw [Bool.eq_false_iff] at h ⊢
        simp only [Fl.lit_eq, Rat.cast_zero, ne_eq, Fl.fin_lt, not_lt, Fl.fin_mul, Fl.fin_add] at h ⊢
        nlinarith [mul_self_nonneg b]
  · rw [Bool.eq_false_iff]; simp

/-! ### LSQR -/

theorem lsqrInit_beta (laws : PrintLaws S) {AT : U → V} {kw : LsqrKw S U V} {b : U} {s : LsqrLoop S U V}
    (h : lsqrInit AT kw b = .ok s) (hz : lsqrXZero s = false) : feq s.beta (lit 0) = false ∧ s.istop = 0 := by
  unfold lsqrInit at h
  obtain ⟨beta, -, h⟩ := except_bind_ok h
  split at h
  · rename_i hb
    obtain ⟨alpha, -, h⟩ := except_bind_ok h
    split at h <;> cases h <;> exact ⟨laws.pos_ne _ hb, rfl⟩
  · cases h
    refine ⟨?_, rfl⟩
    cases hf : feq beta (lit 0) with
    | false => exact hf
    | true =>
      have := laws.zero_mul _ hf
      simp only [lsqrXZero, lsqrStart] at hz
      rw [this] at hz
      cases hz

theorem lsqrInit_istop {AT : U → V} {kw : LsqrKw S U V} {b : U} {s : LsqrLoop S U V} (h : lsqrInit AT kw b = .ok s) :
    s.istop = 0 := by
  unfold lsqrInit at h
  obtain ⟨beta, -, h⟩ := except_bind_ok h
  split at h
  · obtain ⟨alpha, -, h⟩ := except_bind_ok h
    split at h <;> cases h <;> rfl
  · cases h
    rfl

theorem lsqrLoopO_val {show' : Bool} {n : Nat} (hn : show' = true → 0 < n) (other : LsqrLoop S U V → Bool) (A : V → U) (AT : U → V)
    (kw : LsqrKw S U V) (lim : Int) (bnorm : S) (s : LsqrLoop S U V) :
    (lsqrLoopO show' other A AT n kw lim bnorm s).val = lsqrLoop A AT kw lim bnorm s :=
  outLoop_val (fun s => lsqrStepO_val hn other A AT kw lim bnorm s) s

theorem lsqrMainO_val {show' : Bool} {n : Nat} (hn : show' = true → 0 < n) (other : LsqrLoop S U V → Bool) (A : V → U) (AT : U → V)
    (kw : LsqrKw S U V) (lim : Int) (s : LsqrLoop S U V) :
    (lsqrMainO show' other A AT n kw lim s).val = lsqrMain A AT kw lim s := by
  unfold lsqrMainO lsqrMain
  split
  · rfl
  · exact lsqrLoopO_val hn ..

theorem lsqrMain_istop {A : V → U} {AT : U → V} {kw : LsqrKw S U V} {lim : Int} {s t : LsqrLoop S U V} (hs : s.istop ≤ 8)
    (h : lsqrMain A AT kw lim s = .ok t) : t.istop ≤ 8 := by
  unfold lsqrMain at h
  split at h
  · cases h; exact hs
  · exact (exceptLoop_inv (fun s : LsqrLoop S U V => s.istop ≤ 8) (fun s t _ _ ht => lsqrStep_istop ht) s hs t h).1

theorem lsqrRowO_val (laws : PrintLaws S) {n : Nat} (hn : 0 < n) {AT : U → V} {kw : LsqrKw S U V} {b : U} {s : LsqrLoop S U V}
    (h : lsqrInit AT kw b = .ok s) : (lsqrRowO n s).val = .ok () := by
  unfold lsqrRowO
  rw [Out.val_bind, say_val, except_bind_ok' rfl, Out.val_bind, quiet_val]
  cases hz : lsqrXZero s with
  | true => exact sayRow_val hn 0
  | false =>
    rw [if_neg (by simp), pydiv, if_neg (by rw [(lsqrInit_beta laws h hz).1]; simp)]
    exact sayRow_val hn 0

theorem summaryO_val (name : String) {istop : Nat} (h : istop ≤ 8) : (summaryO name istop : Out S Unit).val = .ok () := by
  unfold summaryO
  rw [Out.val_bind, say_val, except_bind_ok' rfl, Out.val_bind, sayMsg_val (by omega)]
  rfl

theorem summaryO_message (name : String) {istop : Nat} (h : istop ≤ 8) :
    lastMessage (summaryO name istop : Out S Unit).lines = some istop := by
  unfold summaryO
  rw [Out.bind_ok _ (say_val ..), Out.bind_ok _ (sayMsg_val (by omega)), sayMsg_lines (by omega)]
  rfl

theorem lsqrSolveO_val {show' : Bool} {n : Nat} (hn : show' = true → 0 < n) (hl : show' = true → PrintLaws S)
    (other : LsqrLoop S U V → Bool) (A : V → U) (AT : U → V) (b : U) (kw : LsqrKw S U V) :
    (lsqrSolveO show' other A AT n b kw).val = lsqrSolve A AT n b kw := by
  unfold lsqrSolveO lsqrSolve
  rw [Out.val_bind, quiet_val]
  cases lsqrVar kw.wantvar with
  | error e => rfl
  | ok u =>
    rw [except_bind_ok' rfl, except_bind_ok' rfl, Out.val_bind, say_val, except_bind_ok' rfl, Out.val_bind, quiet_val]
    cases hi : lsqrInit AT kw b with
    | error e => rfl
    | ok s =>
      rw [except_bind_ok' rfl, except_bind_ok' rfl, Out.val_bind, sayWith_val (fun _ => sayMsg_val (by norm_num)), except_bind_ok' rfl,
        Out.val_bind, sayWith_val (fun h => lsqrRowO_val (hl h) (hn h) hi), except_bind_ok' rfl, Out.val_bind, lsqrMainO_val hn]
      cases ht : lsqrMain A AT kw (lsqrLimit n kw.itnlim) s with
      | error e => rfl
      | ok t =>
        have h8 := lsqrMain_istop (by rw [lsqrInit_istop hi]; omega) ht
        rw [except_bind_ok' rfl, Out.val_bind, sayWith_val (fun _ => summaryO_val _ h8)]
        rfl

/-- **C78, LSQR, `show=False`.** For every arithmetic, operator, right-hand side and options: nothing is printed. The values are those
of the model without output, so that all that is proved about it holds for the calls that print. -/
theorem C78_lsqr_silent (other : LsqrLoop S U V → Bool) (A : V → U) (AT : U → V) (n : Nat) (b : U) (kw : LsqrKw S U V) :
    (lsqrSolveO false other A AT n b kw).lines = [] ∧ (lsqrSolveO false other A AT n b kw).val = lsqrSolve A AT n b kw := by
  refine ⟨?_, lsqrSolveO_val (by simp) (by simp) ..⟩
  unfold lsqrSolveO
  refine Out.lines_bind_nil rfl fun _ _ => Out.lines_bind_nil rfl fun _ _ => Out.lines_bind_nil rfl fun s _ =>
    Out.lines_bind_nil rfl fun _ _ => Out.lines_bind_nil rfl fun _ _ => Out.lines_bind_nil ?_ fun _ _ =>
    Out.lines_bind_nil rfl fun _ _ => rfl
  unfold lsqrMainO
  split
  · rfl
  · exact outLoop_quiet (fun s => lsqrStepO_quiet other A AT n kw _ _ s) s

/-- **C78, LSQR, `show=True`.** For every operator with at least one column, right-hand side and options, in every arithmetic with the
laws above: printing does not change what the call returns or raises, and if it returns, the last message is the one of the stop
code that it returns. -/
theorem C78_lsqr_show (laws : PrintLaws S) (other : LsqrLoop S U V → Bool) (A : V → U) (AT : U → V) (n : Nat) (hn : 0 < n) (b : U)
    (kw : LsqrKw S U V) :
    (lsqrSolveO true other A AT n b kw).val = lsqrSolve A AT n b kw ∧
    ∀ res s, lsqrSolve A AT n b kw = .ok (res, s) → lastMessage (lsqrSolveO true other A AT n b kw).lines = some res.istop := by
  refine ⟨lsqrSolveO_val (fun _ => hn) (fun _ => laws) .., fun res s' h => ?_⟩
  unfold lsqrSolve at h
  obtain ⟨u, hv, h⟩ := except_bind_ok h
  obtain ⟨s, hi, h⟩ := except_bind_ok h
  obtain ⟨t, ht, h⟩ := except_bind_ok h
  cases h
  have h8 := lsqrMain_istop (by rw [lsqrInit_istop hi]; omega) ht
  unfold lsqrSolveO
  rw [Out.bind_ok _ ((quiet_val _).trans hv), Out.bind_ok _ (say_val ..), Out.bind_ok _ ((quiet_val _).trans hi),
    Out.bind_ok _ (sayWith_val (fun _ => sayMsg_val (by norm_num))), Out.bind_ok _ (sayWith_val fun _ => lsqrRowO_val laws hn hi),
    Out.bind_ok _ ((lsqrMainO_val (fun _ => hn) ..).trans ht), Out.bind_ok _ (sayWith_val fun _ => summaryO_val _ h8), sayWith_true]
  simp only [lastMessage_append, sayWith_true, Out.lines_pure]
  rw [summaryO_message _ h8]
  rfl

/-- **C78, LSQR without columns.** With `show=True` a call never returns for an operator with no columns: the first row reads `x[0]`.
(With `show=False` it may return.) -/
theorem C78_lsqr_no_columns (other : LsqrLoop S U V → Bool) (A : V → U) (AT : U → V) (b : U) (kw : LsqrKw S U V)
    (r : LsqrRes S V × LsqrLoop S U V) : (lsqrSolveO true other A AT 0 b kw).val ≠ .ok r := by
  intro h
  unfold lsqrSolveO at h
  rw [Out.val_bind] at h
  obtain ⟨u, -, h⟩ := except_bind_ok h
  rw [Out.val_bind] at h
  obtain ⟨_, _, h⟩ := except_bind_ok h
  rw [Out.val_bind] at h
  obtain ⟨s, -, h⟩ := except_bind_ok h
  rw [Out.val_bind] at h
  obtain ⟨_, _, h⟩ := except_bind_ok h
  rw [Out.val_bind] at h
  obtain ⟨_, h, _⟩ := except_bind_ok h
  rw [sayWith_true, lsqrRowO, Out.val_bind] at h
  obtain ⟨_, _, h⟩ := except_bind_ok h
  rw [Out.val_bind] at h
  obtain ⟨_, _, h⟩ := except_bind_ok h
  cases h

/-! ### LSMR -/

theorem lsmrInit_facts {AT : U → V} {kw : LsmrKw S U V} {b : U} {s : LsmrLoop S U V} (h : lsmrInit AT kw b = .ok s) :
    s.istop = 0 ∧ s.xNrgNorm2 = lit 0 ∧ (PrintLaws S → feq s.normar (lit 0) = false → feq s.beta (lit 0) = false) := by
  unfold lsmrInit at h
  obtain ⟨beta, -, h⟩ := except_bind_ok h
  split at h
  · rename_i hb
    obtain ⟨alpha, -, h⟩ := except_bind_ok h
    split at h <;> cases h <;> exact ⟨rfl, rfl, fun laws _ => laws.pos_ne _ hb⟩
  · cases h
    refine ⟨rfl, rfl, fun laws hz => ?_⟩
    cases hf : feq beta (lit 0) with
    | false => exact hf
    | true =>
      have := laws.zero_mul _ hf
      simp only [lsmrStart] at hz
      rw [this] at hz
      cases hz

theorem lsmrLoopO_val {show' : Bool} {n : Nat} (hn : show' = true → 0 < n) (other more : LsmrLoop S U V → Bool) (A : V → U) (AT : U → V)
    (kw : LsmrKw S U V) (lim : Int) (normb : S) (s : LsmrLoop S U V) :
    (lsmrLoopO show' other more A AT n kw lim normb s).val = lsmrLoop A AT kw lim normb s :=
  outLoop_val (fun s => lsmrStepO_val hn other more A AT kw lim normb s) s

theorem lsmrRowO_val {n : Nat} (hn : 0 < n) {s : LsmrLoop S U V} (h : feq s.beta (lit 0) = false) : (lsmrRowO n s).val = .ok () := by
  unfold lsmrRowO
  rw [Out.val_bind, say_val, except_bind_ok' rfl, Out.val_bind, quiet_val, pydiv, if_neg (by rw [h]; simp)]
  exact sayRow_val hn 0

theorem lsmrSummaryO_val {s : LsmrLoop S U V} (h : s.istop ≤ 8) (h' : lt s.xNrgNorm2 (lit 0) = false) :
    (lsmrSummaryO s).val = .ok () := by
  unfold lsmrSummaryO
  rw [Out.val_bind, say_val, except_bind_ok' rfl, Out.val_bind, sayMsg_val (by omega), except_bind_ok' rfl, Out.val_bind, say_val,
    except_bind_ok' rfl, Out.val_bind, quiet_val, pysqrt, if_neg (by rw [h']; simp)]
  rfl

theorem lsmrSummaryO_message {s : LsmrLoop S U V} (h : s.istop ≤ 8) (h' : lt s.xNrgNorm2 (lit 0) = false) :
    lastMessage (lsmrSummaryO s).lines = some s.istop := by
  unfold lsmrSummaryO
  rw [Out.bind_ok _ (say_val ..), Out.bind_ok _ (sayMsg_val (by omega)), sayMsg_lines (by omega), Out.bind_ok _ (say_val ..),
    Out.bind_ok (a := sqrt s.xNrgNorm2) _ (by rw [quiet_val, pysqrt, if_neg (by rw [h']; simp)])]
  rfl

theorem lsmrLoop_facts {A : V → U} {AT : U → V} {kw : LsmrKw S U V} {lim : Int} {normb : S} {s t : LsmrLoop S U V}
    (hs : s.istop ≤ 8) (h : lsmrLoop A AT kw lim normb s = .ok t) :
    t.istop ≤ 8 ∧ (PrintLaws S → lt s.xNrgNorm2 (lit 0) = false → lt t.xNrgNorm2 (lit 0) = false) := by
  refine ⟨(exceptLoop_inv (fun s : LsmrLoop S U V => s.istop ≤ 8) (fun s t _ _ ht => (lsmrStep_istop ht).1) s hs t h).1,
    fun laws h0 => (exceptLoop_inv (fun s : LsmrLoop S U V => lt s.xNrgNorm2 (lit 0) = false) (fun s t hs _ ht => ?_) s h0 t h).1⟩
  obtain ⟨zeta, hz⟩ := (lsmrStep_istop ht).2
  rw [hz]
  exact laws.add_sq _ _ hs

theorem lsmrFirst_istop (kw : LsmrKw S U V) (s : LsmrLoop S U V) :
    (lsmrFirst kw s).istop = s.istop ∧ (lsmrFirst kw s).xNrgNorm2 = s.xNrgNorm2 := by
  unfold lsmrFirst; split <;> exact ⟨rfl, rfl⟩

theorem lsmrMainO_val {show' : Bool} {n : Nat} (hn : show' = true → 0 < n) (hl : show' = true → PrintLaws S)
    (other more : LsmrLoop S U V → Bool) (A : V → U) (AT : U → V) (b : U) (kw : LsmrKw S U V) (lim : Int) (selfX : Option V)
    {s : LsmrLoop S U V} (hi : lsmrInit AT kw b = .ok s) :
    (lsmrMainO show' other more A AT n kw lim selfX s).val = lsmrMain A AT kw lim selfX s := by
  obtain ⟨h0, h1, h2⟩ := lsmrInit_facts hi
  unfold lsmrMainO lsmrMain
  cases hz : feq s.normar (lit 0) with
  | true =>
    simp only [if_true]
    rw [Out.val_bind, sayWith_val (fun _ => sayMsg_val (by norm_num))]
    rfl
  | false =>
    simp only [Bool.false_eq_true, if_false]
    rw [Out.val_bind, sayWith_val (fun h => lsmrRowO_val (hn h) (h2 (hl h) hz)), except_bind_ok' rfl, Out.val_bind, lsmrLoopO_val hn]
    cases ht : lsmrLoop A AT kw lim s.beta (lsmrFirst kw s) with
    | error e => rfl
    | ok t =>
      obtain ⟨h8, hx⟩ := lsmrLoop_facts (by rw [(lsmrFirst_istop kw s).1, h0]; omega) ht
      rw [except_bind_ok' rfl, Out.val_bind, sayWith_val (fun h => lsmrSummaryO_val h8 (hx (hl h) (by
        rw [(lsmrFirst_istop kw s).2, h1]; exact (hl h).zero)))]
      rfl

theorem lsmrSolveO_val {show' : Bool} {n : Nat} (hn : show' = true → 0 < n) (hl : show' = true → PrintLaws S)
    (other more : LsmrLoop S U V → Bool) (A : V → U) (AT : U → V) (m : Nat) (b : U) (kw : LsmrKw S U V) (selfX : Option V) :
    (lsmrSolveO show' other more A AT m n b kw selfX).val = lsmrSolve A AT m n b kw selfX := by
  unfold lsmrSolveO lsmrSolve
  rw [Out.val_bind, say_val, except_bind_ok' rfl, Out.val_bind, quiet_val]
  cases hi : lsmrInit AT kw b with
  | error e => rfl
  | ok s => exact lsmrMainO_val hn hl other more A AT b kw _ selfX hi

/-- **C78, LSMR, `show=False`.** As for LSQR. -/
theorem C78_lsmr_silent (other more : LsmrLoop S U V → Bool) (A : V → U) (AT : U → V) (m n : Nat) (b : U) (kw : LsmrKw S U V)
    (selfX : Option V) :
    (lsmrSolveO false other more A AT m n b kw selfX).lines = [] ∧
    (lsmrSolveO false other more A AT m n b kw selfX).val = lsmrSolve A AT m n b kw selfX := by
  refine ⟨?_, lsmrSolveO_val (by simp) (by simp) ..⟩
  unfold lsmrSolveO
  refine Out.lines_bind_nil rfl fun _ _ => Out.lines_bind_nil rfl fun s _ => ?_
  unfold lsmrMainO
  split
  · rfl
  · exact Out.lines_bind_nil rfl fun _ _ => Out.lines_bind_nil
      (outLoop_quiet (fun s => lsmrStepO_quiet other more A AT n kw _ _ s) _) fun _ _ => rfl

/-- **C78, LSMR, `show=True`.** As for LSQR. -/
theorem C78_lsmr_show (laws : PrintLaws S) (other more : LsmrLoop S U V → Bool) (A : V → U) (AT : U → V) (m n : Nat) (hn : 0 < n)
    (b : U) (kw : LsmrKw S U V) (selfX : Option V) :
    (lsmrSolveO true other more A AT m n b kw selfX).val = lsmrSolve A AT m n b kw selfX ∧
    ∀ res s, lsmrSolve A AT m n b kw selfX = .ok (res, s) →
      lastMessage (lsmrSolveO true other more A AT m n b kw selfX).lines = some res.istop := by
  refine ⟨lsmrSolveO_val (fun _ => hn) (fun _ => laws) .., fun res s' h => ?_⟩
  unfold lsmrSolve at h
  obtain ⟨s, hi, h⟩ := except_bind_ok h
  obtain ⟨h0, h1, h2⟩ := lsmrInit_facts hi
  unfold lsmrSolveO
  rw [Out.bind_ok _ (say_val ..), Out.bind_ok _ ((quiet_val _).trans hi)]
  unfold lsmrMain at h
  unfold lsmrMainO
  cases hz : feq s.normar (lit 0) with
  | true =>
    simp only [hz, if_true] at h ⊢
    cases h
    rw [Out.bind_ok _ (sayWith_val fun _ => sayMsg_val (by norm_num)), sayWith_true, sayMsg_lines (by norm_num)]
    simp only [lastMessage_append]
    rw [show (lsmrResult selfX _).istop = 0 from h0]
    rfl
  | false =>
    simp only [hz, Bool.false_eq_true, if_false] at h ⊢
    obtain ⟨t, ht, h⟩ := except_bind_ok h
    cases h
    obtain ⟨h8, hx⟩ := lsmrLoop_facts (by rw [(lsmrFirst_istop kw s).1, h0]; omega) ht
    have hx := hx laws (by rw [(lsmrFirst_istop kw s).2, h1]; exact laws.zero)
    rw [Out.bind_ok _ (sayWith_val fun _ => lsmrRowO_val hn (h2 laws hz)),
      Out.bind_ok _ ((lsmrLoopO_val (fun _ => hn) ..).trans ht), Out.bind_ok _ (sayWith_val fun _ => lsmrSummaryO_val h8 hx)]
    simp only [lastMessage_append, sayWith_true, Out.lines_pure]
    rw [lsmrSummaryO_message h8 hx]
    rfl

/-! ### CRAIG -/

theorem craigLoopO_val {show' : Bool} {n : Nat} (hn : show' = true → 0 < n) (other : CraigLoop S U V → Bool) (A : V → U) (AT : U → V)
    (kw : CraigKw S U V) (lim : Int) (bnorm : S) (s : CraigLoop S U V) :
    (craigLoopO show' other A AT n kw lim bnorm s).val = craigLoop A AT kw lim bnorm s :=
  outLoop_val (fun s => craigStepO_val hn other A AT kw lim bnorm s) s

theorem craigMainO_val {show' : Bool} {n : Nat} (hn : show' = true → 0 < n) (other : CraigLoop S U V → Bool) (A : V → U) (AT : U → V)
    (kw : CraigKw S U V) (lim : Int) (s : CraigLoop S U V) :
    (craigMainO show' other A AT n kw lim s).val = craigMain A AT kw lim s := by
  unfold craigMainO craigMain
  split
  · rfl
  · exact craigLoopO_val hn ..

theorem craigStart_istop {kw : CraigKw S U V} {Mu u : U} {beta : S} {vs : Option (V × V)} {alpha : S} {products : Nat}
    {s : CraigLoop S U V} (h : craigStart kw Mu u beta vs alpha products = .ok s) : s.istop = 0 := by
  unfold craigStart at h
  obtain ⟨tau, -, h⟩ := except_bind_ok h
  obtain ⟨c, -, h⟩ := except_bind_ok h
  obtain ⟨sn, -, h⟩ := except_bind_ok h
  obtain ⟨⟨v, Nv⟩, -, h⟩ := except_bind_ok h
  cases h
  rfl

theorem craigMain_istop {A : V → U} {AT : U → V} {kw : CraigKw S U V} {lim : Int} {s t : CraigLoop S U V} (hs : s.istop ≤ 8)
    (h : craigMain A AT kw lim s = .ok t) : t.istop ≤ 8 := by
  unfold craigMain at h
  split at h
  · cases h; exact hs
  · exact (exceptLoop_inv (fun s : CraigLoop S U V => s.istop ≤ 8) (fun s t _ _ ht => craigStep_istop ht) s hs t h).1

theorem craigSolveO_val {show' : Bool} {n : Nat} (hn : show' = true → 0 < n) (other : CraigLoop S U V → Bool) (A : V → U) (AT : U → V)
    (b : U) (kw : CraigKw S U V) : (craigSolveO show' other A AT n b kw).val = craigSolve A AT n b kw := by
  unfold craigSolveO craigSolve
  rw [Out.val_bind, quiet_val]
  cases lsqrVar kw.wantvar with
  | error e => rfl
  | ok u =>
    rw [except_bind_ok' rfl, except_bind_ok' rfl, Out.val_bind, say_val, except_bind_ok' rfl, Out.val_bind, quiet_val]
    cases craigVectors AT kw b with
    | error e => rfl
    | ok p =>
      obtain ⟨Mu, u', beta, vs, alpha, products⟩ := p
      rw [except_bind_ok' rfl, except_bind_ok' rfl, Out.val_bind, sayWith_val (fun _ => sayMsg_val (by norm_num)), except_bind_ok' rfl,
        Out.val_bind, quiet_val]
      simp only
      cases hi : craigStart kw Mu u' beta vs alpha products with
      | error e => rfl
      | ok s =>
        rw [except_bind_ok' rfl, except_bind_ok' rfl, Out.val_bind, craigMainO_val hn]
        cases ht : craigMain A AT kw (craigLimit n kw.itnlim) s with
        | error e => rfl
        | ok t =>
          have h8 := craigMain_istop (by rw [craigStart_istop hi]; omega) ht
          rw [except_bind_ok' rfl, except_bind_ok' rfl, Out.val_bind, sayWith_val (fun _ => summaryO_val _ h8), except_bind_ok' rfl,
            Out.val_bind, quiet_val]
          cases craigResult t <;> rfl

/-- **C78, CRAIG, `show=False`.** As for LSQR. -/
theorem C78_craig_silent (other : CraigLoop S U V → Bool) (A : V → U) (AT : U → V) (n : Nat) (b : U) (kw : CraigKw S U V) :
    (craigSolveO false other A AT n b kw).lines = [] ∧ (craigSolveO false other A AT n b kw).val = craigSolve A AT n b kw := by
  refine ⟨?_, craigSolveO_val (by simp) ..⟩
  unfold craigSolveO
  refine Out.lines_bind_nil rfl fun _ _ => Out.lines_bind_nil rfl fun _ _ => Out.lines_bind_nil rfl fun p _ =>
    Out.lines_bind_nil rfl fun _ _ => Out.lines_bind_nil rfl fun s _ => Out.lines_bind_nil ?_ fun _ _ =>
    Out.lines_bind_nil rfl fun _ _ => Out.lines_bind_nil rfl fun _ _ => rfl
  unfold craigMainO
  split
  · rfl
  · exact outLoop_quiet (fun s => craigStepO_quiet false other A AT n kw _ _ s) s

/-- **C78, CRAIG, `show=True`.** As for LSQR, in every arithmetic. -/
theorem C78_craig_show (other : CraigLoop S U V → Bool) (A : V → U) (AT : U → V) (n : Nat) (hn : 0 < n) (b : U) (kw : CraigKw S U V) :
    (craigSolveO true other A AT n b kw).val = craigSolve A AT n b kw ∧
    ∀ res s, craigSolve A AT n b kw = .ok (res, s) → lastMessage (craigSolveO true other A AT n b kw).lines = some res.istop := by
  refine ⟨craigSolveO_val (fun _ => hn) .., fun res s' h => ?_⟩
  unfold craigSolve at h
  obtain ⟨u, hv, h⟩ := except_bind_ok h
  obtain ⟨⟨Mu, u', beta, vs, alpha, products⟩, hp, h⟩ := except_bind_ok h
  obtain ⟨s, hi, h⟩ := except_bind_ok h
  obtain ⟨t, ht, h⟩ := except_bind_ok h
  obtain ⟨r, hr, h⟩ := except_bind_ok h
  cases h
  have h8 := craigMain_istop (by rw [craigStart_istop hi]; omega) ht
  have hri : res.istop = s'.istop := by
    unfold craigResult at hr
    obtain ⟨Arnorm, -, hr⟩ := except_bind_ok hr
    cases hr
    rfl
  unfold craigSolveO
  rw [Out.bind_ok _ ((quiet_val _).trans hv), Out.bind_ok _ (say_val ..), Out.bind_ok _ ((quiet_val _).trans hp),
    Out.bind_ok _ (sayWith_val (fun _ => sayMsg_val (by norm_num))), Out.bind_ok _ ((quiet_val _).trans hi),
    Out.bind_ok _ ((craigMainO_val (fun _ => hn) ..).trans ht), Out.bind_ok _ (sayWith_val fun _ => summaryO_val _ h8),
    Out.bind_ok _ ((quiet_val _).trans hr)]
  simp only [lastMessage_append, sayWith_true, Out.lines_pure, quiet_lines]
  rw [summaryO_message _ h8, hri]
  rfl

/-! ### CRAIG-MR -/

/-- the number of the iteration in a line `itn, xNrgNorm2` -/
def Line.itn : Line S → Option Nat
  | .energy i _ => some i
  | _ => none

theorem craigmrLoopO_val (A : V → U) (AT : U → V) (kw : CraigmrKw S U V) (lim : Int) (s : CraigmrLoop S U V) :
    (craigmrLoopO A AT kw lim s).val = craigmrLoop A AT kw lim s :=
  outLoop_val (fun s => craigmrStepO_val A AT kw lim s) s

/-- the lines of the loop: one for each iteration -/
theorem craigmrLoopO_lines (A : V → U) (AT : U → V) (kw : CraigmrKw S U V) (lim : Int) (s t : CraigmrLoop S U V)
    (h : (craigmrLoopO A AT kw lim s).val = .ok t) :
    s.itn ≤ t.itn ∧ (craigmrLoopO A AT kw lim s).lines.map Line.itn =
      (List.range' (s.itn + 1) (t.itn - s.itn)).map some := by
  revert h
  unfold craigmrLoopO
  refine outLoop_rec (fun s r => r.val = .ok t → s.itn ≤ t.itn ∧
    r.lines.map Line.itn = (List.range' (s.itn + 1) (t.itn - s.itn)).map some)
    ?_ ?_ ?_ s
  · intro s _ h
    cases h
    exact ⟨le_refl _, by simp⟩
  · intro s e _ _ h
    cases h
  · intro s u r _ hu ih h
    obtain ⟨h1, h2⟩ := ih h
    have hi : u.itn = s.itn + 1 := craigmrStep_itn ((craigmrStepO_val ..).symm.trans hu)
    refine ⟨by omega, ?_⟩
    simp only [List.map_append, h2, craigmrStepO_lines hu]
    rw [hi, show t.itn - s.itn = (t.itn - (s.itn + 1)) + 1 by omega, List.range'_succ]
    rfl

theorem craigmrStart_itn {kw : CraigmrKw S U V} {Mu u : U} {beta : S} {Nv : Option V} {v : V} {alpha : S} {products : Nat}
    {s : CraigmrLoop S U V} (h : craigmrStart kw Mu u beta Nv v alpha products = .ok s) : s.istop = 0 ∧ s.itn = 0 := by
  unfold craigmrStart at h
  obtain ⟨c, -, h⟩ := except_bind_ok h
  obtain ⟨sn, -, h⟩ := except_bind_ok h
  cases h
  exact ⟨rfl, rfl⟩

theorem craigmrLoop_istop {A : V → U} {AT : U → V} {kw : CraigmrKw S U V} {lim : Int} {s t : CraigmrLoop S U V} (hs : s.istop ≤ 8)
    (h : craigmrLoop A AT kw lim s = .ok t) : t.istop ≤ 8 :=
  (exceptLoop_inv (fun s : CraigmrLoop S U V => s.istop ≤ 8) (fun s t _ _ ht => craigmrStep_istop ht) s hs t h).1

theorem craigmrSolveO_val (show' : Bool) (A : V → U) (AT : U → V) (m n : Nat) (b : U) (kw : CraigmrKw S U V) :
    (craigmrSolveO show' A AT m n b kw).val = craigmrSolve A AT m n b kw := by
  unfold craigmrSolveO craigmrSolve
  rw [Out.val_bind, quiet_val]
  cases craigmrVectors AT kw b with
  | error e => rfl
  | ok p =>
    obtain ⟨Mu, u', beta, Nv, v, alpha, products⟩ := p
    rw [except_bind_ok' rfl, except_bind_ok' rfl, Out.val_bind, quiet_val]
    simp only
    cases hi : craigmrStart kw Mu u' beta Nv v alpha products with
    | error e => rfl
    | ok s =>
      rw [except_bind_ok' rfl, except_bind_ok' rfl, Out.val_bind, craigmrLoopO_val]
      cases ht : craigmrLoop A AT kw (craigmrLimit m n kw.itnlim) s with
      | error e => rfl
      | ok t =>
        have h8 := craigmrLoop_istop (by rw [(craigmrStart_itn hi).1]; omega) ht
        rw [except_bind_ok' rfl, Out.val_bind, sayWith_val (fun _ => summaryO_val _ h8)]
        rfl

/-- **C78, CRAIG-MR.** For every arithmetic, operator (with or without columns), right-hand side and options: printing does not
change what the call returns or raises, and with `show=True` the last message is the one of the stop code that it returns. -/
theorem C78_craigmr_show (A : V → U) (AT : U → V) (m n : Nat) (b : U) (kw : CraigmrKw S U V) (show' : Bool) :
    (craigmrSolveO show' A AT m n b kw).val = craigmrSolve A AT m n b kw ∧
    ∀ res s, craigmrSolve A AT m n b kw = .ok (res, s) →
      lastMessage (craigmrSolveO true A AT m n b kw).lines = some res.istop := by
  refine ⟨craigmrSolveO_val .., fun res s' h => ?_⟩
  unfold craigmrSolve at h
  obtain ⟨⟨Mu, u', beta, Nv, v, alpha, products⟩, hp, h⟩ := except_bind_ok h
  obtain ⟨s, hi, h⟩ := except_bind_ok h
  obtain ⟨t, ht, h⟩ := except_bind_ok h
  cases h
  have h8 := craigmrLoop_istop (by rw [(craigmrStart_itn hi).1]; omega) ht
  unfold craigmrSolveO
  rw [Out.bind_ok _ ((quiet_val _).trans hp), Out.bind_ok _ ((quiet_val _).trans hi),
    Out.bind_ok _ ((craigmrLoopO_val ..).trans ht), Out.bind_ok _ (sayWith_val fun _ => summaryO_val _ h8)]
  simp only [lastMessage_append, sayWith_true, Out.lines_pure, quiet_lines]
  rw [summaryO_message _ h8]
  rfl

/-- **C78, CRAIG-MR, `show=False`, violated.** For every arithmetic, operator, right-hand side and options: a call that returns
printed exactly one line for each of its iterations, with its number, although `show` was `False`. -/
theorem C78_craigmr_noise (A : V → U) (AT : U → V) (m n : Nat) (b : U) (kw : CraigmrKw S U V) (res : CraigmrRes S U)
    (s : CraigmrLoop S U V) (h : craigmrSolve A AT m n b kw = .ok (res, s)) :
    (craigmrSolveO false A AT m n b kw).lines.map Line.itn =
      (List.range' 1 res.itn).map some := by
  unfold craigmrSolve at h
  obtain ⟨⟨Mu, u', beta, Nv, v, alpha, products⟩, hp, h⟩ := except_bind_ok h
  obtain ⟨s₀, hi, h⟩ := except_bind_ok h
  obtain ⟨t, ht, h⟩ := except_bind_ok h
  cases h
  have hl := (craigmrLoopO_lines A AT kw (craigmrLimit m n kw.itnlim) s₀ s ((craigmrLoopO_val ..).trans ht)).2
  unfold craigmrSolveO
  rw [Out.bind_ok _ ((quiet_val _).trans hp), Out.bind_ok _ ((quiet_val _).trans hi),
    Out.bind_ok _ ((craigmrLoopO_val ..).trans ht)]
  simp only [quiet_lines, List.nil_append, List.map_append]
  rw [hl, (craigmrStart_itn hi).2]
  simp only [sayWith_false]
  show _ ++ [] = _
  simp [craigmrResult]

/-! ### MINRES -/

theorem minresLoopO_val {show' : Bool} {n : Nat} (hn : show' = true → 0 < n) (other : MinresLoop S V → Bool) (op : V → V) (eps : S)
    (kw : MinresKw S V) (itnlim : Nat) (beta1 : S) (s : MinresLoop S V) :
    (minresLoopO show' other op eps n kw itnlim beta1 s).val = .ok (minresLoop op eps kw itnlim beta1 s) := by
  unfold minresLoopO minresLoop
  refine outLoop_rec (fun s r => r.val = .ok (whileLoop (minresCont itnlim) (minresStep op eps kw itnlim beta1) (fun s => itnlim - s.itn)
    _ s)) ?_ ?_ ?_ s
  · intro s hc
    rw [whileLoop_of_not hc]
  · intro s e _ he
    rw [minresStepO_val hn] at he
    cases he
  · intro s t r hc ht ih
    rw [minresStepO_val hn] at ht
    cases ht
    rw [whileLoop_of_cont hc]
    exact ih

/-- the number of lines that do not ask for `show` -/
def minresBlanks (broke : Bool) (itn : Nat) : Nat := if broke then (itn - 1) / 10 else itn / 10

theorem minresStepO_lines (other : MinresLoop S V → Bool) (op : V → V) (eps : S) (n : Nat) (kw : MinresKw S V) (itnlim : Nat)
    (beta1 : S) (s t : MinresLoop S V) (ht : t = minresStep op eps kw itnlim beta1 s) :
    (minresStepO false other op eps n kw itnlim beta1 s).lines = if t.broke = false ∧ t.itn % 10 = 0 then [.blank] else [] := by
  subst ht
  unfold minresStepO
  simp only
  split
  · rename_i h
    rw [minresStep_break h]
    simp
  · simp only [Bool.false_and, sayWith_false]
    show ([] : List (Line S)) ++ ((if (_ : Bool) then _ else _) ++ []) = _
    simp

theorem minresLoopO_lines (other : MinresLoop S V → Bool) (op : V → V) (eps : S) (n : Nat) (kw : MinresKw S V) (itnlim : Nat)
    (beta1 : S) (s t : MinresLoop S V) (h : (minresLoopO false other op eps n kw itnlim beta1 s).val = .ok t) :
    (s.broke = true → t = s) ∧ (s.broke = false → s.itn / 10 ≤ minresBlanks t.broke t.itn) ∧
    (minresLoopO false other op eps n kw itnlim beta1 s).lines =
      List.replicate (minresBlanks t.broke t.itn - s.itn / 10) .blank := by
  revert h
  unfold minresLoopO
  refine outLoop_rec (fun s r => r.val = .ok t → (s.broke = true → t = s) ∧
    (s.broke = false → s.itn / 10 ≤ minresBlanks t.broke t.itn) ∧
    r.lines = List.replicate (minresBlanks t.broke t.itn - s.itn / 10) .blank) ?_ ?_ ?_ s
  · intro s _ h
    cases h
    refine ⟨fun _ => rfl, fun hb => by rw [minresBlanks, hb]; simp, ?_⟩
    have : minresBlanks t.broke t.itn - t.itn / 10 = 0 := by
      unfold minresBlanks
      split <;> omega
    rw [this]
    rfl
  · intro s e _ _ h
    cases h
  · intro s u r hc hu ih h
    obtain ⟨h1, h2, h3⟩ := ih h
    have hu' := minresStepO_ok hu
    have hi : u.itn = s.itn + 1 := by rw [hu']; exact minresStep_itn ..
    simp only [minresCont, Bool.and_eq_true, Bool.not_eq_true'] at hc
    simp only [minresStepO_lines other op eps n kw itnlim beta1 s u hu', h3, hc.1]
    cases hb : u.broke with
    | true =>
      have hut := h1 hb
      subst hut
      have hk : minresBlanks true t.itn = s.itn / 10 := by rw [minresBlanks, if_pos rfl, hi]; rfl
      rw [hb, hk]
      refine ⟨by simp, fun _ => le_refl _, ?_⟩
      rw [show s.itn / 10 - t.itn / 10 = 0 by omega, Nat.sub_self]
      simp
    | false =>
      have h2 := h2 hb
      refine ⟨by simp, fun _ => by omega, ?_⟩
      split
      · rename_i h10
        rw [show minresBlanks t.broke t.itn - s.itn / 10 = (minresBlanks t.broke t.itn - u.itn / 10) + 1 by omega]
        rw [List.replicate_succ]
        rfl
      · rename_i h10
        have h10 : ¬ u.itn % 10 = 0 := fun h => h10 ⟨rfl, h⟩
        rw [show minresBlanks t.broke t.itn - s.itn / 10 = (minresBlanks t.broke t.itn - u.itn / 10) by omega]
        rfl

theorem minresSummaryO_val {istop : Int} (h0 : -1 ≤ istop) (h : istop ≤ 10) : (minresSummaryO istop : Out S Unit).val = .ok () := by
  unfold minresSummaryO
  rw [Out.val_bind, say_val, except_bind_ok' rfl, sayMsg_val (by omega)]

theorem minresSummaryO_message {istop : Int} (h0 : -1 ≤ istop) (h : istop ≤ 10) :
    lastMessage (minresSummaryO istop : Out S Unit).lines = some (istop + 1).toNat := by
  unfold minresSummaryO
  rw [Out.bind_ok _ (say_val ..), sayMsg_lines (by omega)]
  rfl

theorem minresEntry_range (kw : MinresKw S V) (b : V) : -1 ≤ (minresEntry kw b).1 ∧ (minresEntry kw b).1 ≤ 10 := by
  unfold minresEntry
  simp only
  repeat' split
  all_goals simp

/-- the state after the loop -/
theorem minresMainO_ok {show' : Bool} {n : Nat} (hn : show' = true → 0 < n) (other : MinresLoop S V → Bool) (op : V → V) (eps : S)
    (kw : MinresKw S V) (self : MinresObj S V) (b : V) :
    ((minresMainO show' other op eps n kw (kw.itnlim.getD (5 * n)) b (minresInit kw self b)).val >>= fun s =>
      .ok (minresResult (minresStart kw b).2 s, s.calls)) = minresSolve op eps n self b kw ∧
    ∀ s, (minresMainO show' other op eps n kw (kw.itnlim.getD (5 * n)) b (minresInit kw self b)).val = .ok s →
      -1 ≤ s.istop ∧ s.istop ≤ 10 ∧ (s.itn ≠ 0 → (s.broke = true ↔ 0 < s.istop)) := by
  unfold minresMainO minresSolve
  simp only
  cases hd : (minresEntry kw b).2
  · obtain ⟨h0, -⟩ := minresEntry_go kw b hd
    simp only [Bool.false_eq_true, if_false]
    split
    · exact ⟨rfl, fun s h => by cases h⟩
    · rw [minresLoopO_val hn]
      refine ⟨rfl, fun s h => ?_⟩
      cases h
      obtain ⟨hv, -⟩ := minresLoop_inv op eps kw (kw.itnlim.getD (5 * n)) (minresStart kw b).2
        (MinresInv kw (kw.itnlim.getD (5 * n)) self) (fun s hs hc => minresStep_inv op eps kw _ self _ s hs hc) _
        (minresInit_inv kw _ self b h0)
      generalize minresLoop op eps kw _ _ _ = s at hv
      have hst := hv.status
      simp only [List.mem_cons, List.not_mem_nil, or_false] at hst
      exact ⟨by omega, by omega, fun _ => hv.broke⟩
  · simp only [if_true]
    refine ⟨rfl, fun s h => ?_⟩
    cases h
    exact ⟨(minresEntry_range kw b).1, (minresEntry_range kw b).2, fun h => absurd rfl h⟩


theorem minresSolveO_val {show' : Bool} {n : Nat} {kw : MinresKw S V} (hn : minresShowAfter show' kw = true → 0 < n)
    (other : MinresLoop S V → Bool) (op : V → V) (eps : S) (self : MinresObj S V) (b : V) :
    (minresSolveO show' other op eps n self b kw).val = minresSolve op eps n self b kw := by
  obtain ⟨h1, h2⟩ := minresMainO_ok hn other op eps kw self b
  rw [← h1]
  unfold minresSolveO
  rw [Out.val_bind, say_val, except_bind_ok' rfl, Out.val_bind, say_val, except_bind_ok' rfl, Out.val_bind]
  cases hm : (minresMainO (minresShowAfter show' kw) other op eps n kw (kw.itnlim.getD (5 * n)) b (minresInit kw self b)).val with
  | error e => rfl
  | ok s =>
    obtain ⟨h3, h4, -⟩ := h2 s hm
    rw [except_bind_ok' rfl, Out.val_bind, sayWith_val fun _ => minresSummaryO_val h3 h4]
    rfl

/-- the state of the loop behind a result -/
theorem minresMainO_result {show' : Bool} {n : Nat} (hn : show' = true → 0 < n) (other : MinresLoop S V → Bool) (op : V → V) (eps : S)
    (kw : MinresKw S V) (self : MinresObj S V) (b : V) {res : MinresRes S V} {products : List V}
    (h : minresSolve op eps n self b kw = .ok (res, products)) :
    ∃ s, (minresMainO show' other op eps n kw (kw.itnlim.getD (5 * n)) b (minresInit kw self b)).val = .ok s ∧
      res = minresResult (minresStart kw b).2 s ∧ products = s.calls ∧ -1 ≤ s.istop ∧ s.istop ≤ 10 ∧
      (s.itn ≠ 0 → (s.broke = true ↔ 0 < s.istop)) := by
  obtain ⟨h1, h2⟩ := minresMainO_ok hn other op eps kw self b
  rw [← h1] at h
  obtain ⟨s, hs, h⟩ := except_bind_ok h
  cases h
  exact ⟨s, hs, rfl, rfl, h2 s hs⟩

/-- **C78, MINRES, `show=True`.** For every arithmetic, operator, preconditioner, right-hand side with at least one entry, state of the
solver object and options: printing does not change what the call returns or raises, and if it returns, the last message is the one of
the stop code that it returns. -/
theorem C78_minres_show (other : MinresLoop S V → Bool) (op : V → V) (eps : S) (n : Nat) (hn : 0 < n) (self : MinresObj S V) (b : V)
    (kw : MinresKw S V) (show' : Bool) :
    (minresSolveO show' other op eps n self b kw).val = minresSolve op eps n self b kw ∧
    ∀ res products, minresSolve op eps n self b kw = .ok (res, products) →
      lastMessage (minresSolveO true other op eps n self b kw).lines = some (res.istop + 1).toNat ∧ -1 ≤ res.istop ∧ res.istop ≤ 10 := by
  refine ⟨minresSolveO_val (fun _ => hn) .., fun res products h => ?_⟩
  obtain ⟨s, hs, rfl, rfl, h3, h4, -⟩ :=
    minresMainO_result (show' := minresShowAfter true kw) (fun _ => hn) other op eps kw self b h
  refine ⟨?_, h3, h4⟩
  unfold minresSolveO
  rw [Out.bind_ok _ (say_val ..), Out.bind_ok _ (say_val ..), Out.bind_ok _ hs,
    Out.bind_ok _ (sayWith_val fun _ => minresSummaryO_val h3 h4)]
  simp only [lastMessage_append, minresShowAfter, Bool.true_or, sayWith_true, Out.lines_pure]
  rw [minresSummaryO_message h3 h4]
  rfl

/-- **C78, MINRES, `show=False`.** For every arithmetic, operator, right-hand side, state of the solver object and options such that a
preconditioner, if given, passes its check or is not checked: what a call that returns printed is a number of blank lines, one for
every tenth iteration after which it did not stop. -/
theorem C78_minres_noise (other : MinresLoop S V → Bool) (op : V → V) (eps : S) (n : Nat) (self : MinresObj S V) (b : V)
    (kw : MinresKw S V) (hk : kw.precon = none ∨ kw.check = false ∨ kw.preconSymOK = true) (res : MinresRes S V) (products : List V)
    (h : minresSolve op eps n self b kw = .ok (res, products)) :
    (minresSolveO false other op eps n self b kw).lines =
      List.replicate (if 0 < res.istop then (res.itn - 1) / 10 else res.itn / 10) .blank := by
  have hs' : minresShowAfter false kw = false := by
    rcases hk with h | h | h <;> simp [minresShowAfter, h]
  obtain ⟨s, hs, rfl, rfl, h3, h4, h5⟩ := minresMainO_result (show' := false) (by simp) other op eps kw self b h
  have hb : minresBlanks s.broke s.itn = if 0 < s.istop then (s.itn - 1) / 10 else s.itn / 10 := by
    unfold minresBlanks
    by_cases hz : s.itn = 0
    · simp [hz]
    · cases hbr : s.broke with
      | true => rw [if_pos rfl, if_pos ((h5 hz).1 hbr)]
      | false => rw [if_neg (by simp), if_neg (fun h => by rw [(h5 hz).2 h] at hbr; cases hbr)]
  have hl : (minresMainO false other op eps n kw (kw.itnlim.getD (5 * n)) b (minresInit kw self b)).lines =
      List.replicate (minresBlanks s.broke s.itn) .blank := by
    unfold minresMainO at hs ⊢
    split at hs
    · rename_i hd
      cases hs
      rw [if_pos hd]
      have : minresBlanks (minresInit kw self b).broke (minresInit kw self b).itn = 0 := by
        rw [show (minresInit kw self b).itn = 0 from rfl]
        unfold minresBlanks
        simp
      rw [this]
      rfl
    · rename_i hd
      rw [if_neg hd]
      split at hs
      · cases hs
      · rename_i hw
        rw [if_neg hw]
        have := (minresLoopO_lines other op eps n kw _ _ _ _ hs).2.2
        rw [show (minresInit kw self b).itn = 0 from rfl, Nat.zero_div, Nat.sub_zero] at this
        exact this
  unfold minresSolveO
  rw [hs', Out.bind_ok _ (say_val ..), Out.bind_ok _ (say_val ..), Out.bind_ok _ hs, hl, hb]
  show ([] : List (Line S)) ++ ([] ++ (_ ++ [])) = _
  rw [List.nil_append, List.nil_append, List.append_nil]
  rfl

/-- **C78, MINRES, a preconditioner that fails its check.** `show=False` is overruled: the heading of the table, the summary and the
message that the preconditioner is not symmetric are printed. -/
theorem C78_minres_overruled (other : MinresLoop S V → Bool) (op : V → V) (eps : S) (n : Nat) (self : MinresObj S V) (b : V)
    (kw : MinresKw S V) (hp : kw.precon.isSome = true) (hc : kw.check = true) (hs : kw.preconSymOK = false) :
    lastMessage (minresSolveO false other op eps n self b kw).lines = some 9 ∧
    minresMsg[9]? = some "Mname  does not define a symmetric matrix" := by
  refine ⟨?_, rfl⟩
  have h1 : minresEntry kw b = (8, true) := by simp [minresEntry, hp, hc, hs]
  have hm : (minresMainO true other op eps n kw (kw.itnlim.getD (5 * n)) b (minresInit kw self b)).val =
      .ok (minresInit kw self b) := by
    unfold minresMainO
    rw [if_pos (by rw [h1])]
    rfl
  have h8 : (minresInit kw self b).istop = 8 := by
    show (minresEntry kw b).1 = 8
    rw [h1]
  have hs' : minresShowAfter false kw = true := by simp [minresShowAfter, hp, hc, hs]
  unfold minresSolveO
  rw [hs', Out.bind_ok _ (say_val ..), Out.bind_ok _ (say_val ..), Out.bind_ok _ hm, h8,
    Out.bind_ok _ (sayWith_val fun _ => minresSummaryO_val (by norm_num) (by norm_num))]
  simp only [lastMessage_append, sayWith_true, Out.lines_pure]
  rw [minresSummaryO_message (by norm_num) (by norm_num)]
  rfl

end Verif.Solver
