import Verif.Solver.Log
import Verif.Solver.CGLemmas

/-!
# Helper lemmas about the logs
-/

namespace Verif.Solver
open Scalar Vect

variable {S V : Type} [Scalar S] [Vect S V]

/-- lines of a table without curvature: counts of products from `k`, `d` apart -/
def numbered (k d : Nat) : List S → List (Rec S)
  | [] => []
  | h :: t => .row k h none :: numbered (k + d) d t

/-- lines of CG's table: consecutive counts of products, with the curvature along the direction of the product -/
def curved (op : V → V) (k : Nat) : List S → List V → List (Rec S)
  | h :: t, p :: ps => .row k h (some (re (dot p (op p)))) :: curved op (k + 1) t ps
  | _, _ => []

omit [Scalar S] in
theorem numbered_append (k d : Nat) (l : List S) (h : S) :
    numbered k d (l ++ [h]) = numbered k d l ++ [.row (k + d * l.length) h none] := by
  induction l generalizing k with
  | nil => simp [numbered]
  | cons a t ih =>
    simp only [List.cons_append, numbered, ih, List.length_cons, List.cons.injEq, true_and, List.append_cancel_left_eq, Rec.row.injEq,
      and_true]
    ring

omit [Scalar S] in
theorem numbered_mem {k d : Nat} {l : List S} {r : Rec S} (h : r ∈ numbered k d l) :
    ∃ i a, i < l.length ∧ r = .row (k + d * i) a none ∧ l[i]? = some a := by
  induction l generalizing k with
  | nil => cases h
  | cons a t ih =>
    simp only [numbered, List.mem_cons] at h
    rcases h with h | h
    · exact ⟨0, a, by simp, by simpa using h, rfl⟩
    · obtain ⟨i, b, hi, e, hb⟩ := ih h
      exact ⟨i + 1, b, by simpa using hi, by rw [e]; congr 1; ring, by simpa using hb⟩

theorem curved_append (op : V → V) (k : Nat) (l : List S) (ps : List V) (h : S) (p : V) (hl : l.length = ps.length) :
    curved op k (l ++ [h]) (ps ++ [p]) = curved op k l ps ++ [.row (k + l.length) h (some (re (dot p (op p))))] := by
  induction l generalizing k ps with
  | nil =>
    cases ps with
    | nil => simp [curved]
    | cons => cases hl
  | cons a t ih =>
    cases ps with
    | nil => cases hl
    | cons q qs =>
      simp only [List.length_cons, Nat.add_right_cancel_iff] at hl
      simp only [List.cons_append, curved, ih _ _ hl, List.length_cons, List.cons.injEq, true_and, List.append_cancel_left_eq,
        Rec.row.injEq, and_true]
      ring

theorem curved_extra (op : V → V) (k : Nat) (l : List S) (ps : List V) (p : V) (hl : l.length = ps.length) :
    curved op k l (ps ++ [p]) = curved op k l ps := by
  induction l generalizing k ps with
  | nil => cases ps <;> rfl
  | cons a t ih =>
    cases ps with
    | nil => cases hl
    | cons q qs =>
      simp only [List.length_cons, Nat.add_right_cancel_iff] at hl
      simp only [List.cons_append, curved, ih _ _ hl]

theorem curved_last (op : V → V) (k : Nat) (l : List S) (ps : List V) (hl : l.length = ps.length) (b : Rec S) (r0 : S) :
    (b :: curved op k l ps).getLast? = some b ∧ l = [] ∨
      ∃ h c, (b :: curved op k l ps).getLast? = some (.row (k + l.length - 1) h (some c)) ∧ (r0 :: l).getLast? = some h ∧ l ≠ [] := by
  rcases List.eq_nil_or_concat l with rfl | ⟨l', h, rfl⟩
  · left
    cases ps with
    | nil => simp [curved]
    | cons => cases hl
  · right
    rw [List.concat_eq_append] at hl ⊢
    rcases List.eq_nil_or_concat ps with rfl | ⟨ps', p, rfl⟩
    · simp at hl
    · rw [List.concat_eq_append] at hl ⊢
      have hl' : l'.length = ps'.length := by simpa using hl
      rw [curved_append op k l' ps' h p hl']
      refine ⟨h, re (dot p (op p)), ?_, ?_, by simp⟩
      · rw [← List.cons_append, List.getLast?_append]
        simp only [List.getLast?_singleton, Option.some_or, List.length_append, List.length_singleton]
        rfl
      · rw [← List.cons_append, List.getLast?_append]; simp

/-- an invariant of the loop with its log -/
theorem cgLoopLog_inv (op : V → V) (precon : Option (V → V)) (kw : CGKw V) (t : S) (mm : Nat)
    (P : CGLoop S V → List (Rec S) → Prop)
    (hstep : ∀ s log, P s log → cgCont t mm s = true → P (cgStep op precon kw s) (log ++ cgRecs op precon kw s)) :
    ∀ s log, P s log → P (cgLoopLog op precon kw t mm s log).1 (cgLoopLog op precon kw t mm s log).2 ∧
      (cgLoopLog op precon kw t mm s log).1 = cgLoop op precon kw t mm s
  | s, log, hs => by
    rw [cgLoopLog, cgLoop]
    split
    · rename_i h
      exact cgLoopLog_inv op precon kw t mm P hstep _ _ (hstep s log hs h)
    · exact ⟨hs, rfl⟩
termination_by s => mm - s.nMatvec
decreasing_by
  rename_i h
  simp only [cgCont, Bool.and_eq_true, decide_eq_true_eq] at h
  rw [cgStep_nMatvec]; omega

/-- What holds whenever CG's loop tests its condition: the history grew by `norms`, the operator was applied to `dirs`. -/
def CGLogOK (op : V → V) (H : List S) (r0 : S) (g : Nat) (c0 : List V) (base : List (Rec S)) (s : CGLoop S V)
    (log : List (Rec S)) : Prop :=
  ∃ norms dirs, s.residHistory = H ++ r0 :: norms ∧ s.calls = c0 ++ dirs ∧ (r0 :: norms).getLast? = some s.residNorm ∧
    if s.definite then
      dirs.length = norms.length ∧ s.nMatvec = g + norms.length ∧ log = base ++ curved op (g + 1) norms dirs
    else
      dirs.length = norms.length + 1 ∧ s.nMatvec = g + norms.length + 1 ∧
        log = base ++ curved op (g + 1) norms dirs ++ [.error "Coefficient operator is not positive definite"]

theorem cgLogOK_step (op : V → V) (precon : Option (V → V)) (kw : CGKw V) (t : S) (mm : Nat) (H : List S) (r0 : S) (g : Nat)
    (c0 : List V) (base : List (Rec S)) (s : CGLoop S V) (log : List (Rec S)) (hs : CGLogOK op H r0 g c0 base s log)
    (hc : cgCont t mm s = true) :
    CGLogOK op H r0 g c0 base (cgStep op precon kw s) (log ++ cgRecs op precon kw s) := by
  obtain ⟨norms, dirs, h1, h2, h3, h4⟩ := hs
  rw [if_pos (cgCont_def hc)] at h4
  obtain ⟨h4, h5, rfl⟩ := h4
  rcases hp : (kw.checkCurvature && notPositive (dot s.p (op s.p))) with _ | _
  · have hr : cgRecs op precon kw s =
        [.row (cgStep op precon kw s).nMatvec (cgStep op precon kw s).residNorm (some (re (dot s.p (op s.p))))] := by
      unfold cgRecs; simp only [hp, Bool.false_eq_true, if_false]
    rw [hr]
    refine ⟨norms ++ [(cgStep op precon kw s).residNorm], dirs ++ [s.p], ?_, ?_, ?_, ?_⟩
    · rw [cgStep_def hp, h1]; simp
    · rw [cgStep_calls, h2, List.append_assoc]
    · rw [← List.cons_append, List.getLast?_append]; simp
    · have hd : (cgStep op precon kw s).definite = true := by rw [cgStep_def hp]; exact cgCont_def (s := s) hc
      rw [if_pos hd, cgStep_nMatvec, h5, curved_append op _ _ _ _ _ h4.symm]
      refine ⟨by simp [h4], by simp [Nat.add_assoc], ?_⟩
      rw [List.append_assoc, List.append_cancel_left_eq, List.append_cancel_left_eq, Nat.add_right_comm g 1]
  · have hr : cgRecs op precon kw s = [.error "Coefficient operator is not positive definite"] := by
      unfold cgRecs; simp only [hp, if_true]
    rw [hr, cgStep_indef hp]
    refine ⟨norms, dirs ++ [s.p], h1, by simp [h2], h3, ?_⟩
    rw [if_neg (by simp), curved_extra op _ _ _ _ h4.symm]
    exact ⟨by simp [h4], by simp [h5], rfl⟩

/-- a loop with a log runs as the loop without -/
theorem logLoop_fst {σ ρ : Type} {cont : σ → Bool} {step : σ → σ} {recs : σ → List ρ} {μ : σ → Nat}
    {h : ∀ s, cont s = true → cont (step s) = true → μ (step s) < μ s}
    {h' : ∀ q : σ × List ρ, cont q.1 = true → cont (step q.1) = true → μ (step q.1) < μ q.1} (s : σ) (log : List ρ) :
    (whileLoop (fun q : σ × List ρ => cont q.1) (fun q => (step q.1, q.2 ++ recs q.1)) (fun q => μ q.1) h' (s, log)).1 =
      whileLoop cont step μ h s :=
  whileLoop_sim (σ := σ × List ρ) (R := fun q s => q.1 = s) (fun q s e => by simp only [e]) (fun q s e _ => by simp only [e]) _ _ rfl

/-- one pass of Bi-CGSTAB and what it writes -/
theorem biStep_log (op : V → V) (precon : Option (V → V)) (t : S) (mm : Nat) (r0 : V) (s : BiLoop S V) :
    ((biStep op precon t mm r0 s).finished = true ∧ (biStep op precon t mm r0 s).nMatvec = s.nMatvec + 1 ∧
      biRecs op precon t mm r0 s = [.row (s.nMatvec + 1) (biStep op precon t mm r0 s).residNorm none]) ∨
    ((biStep op precon t mm r0 s).nMatvec = s.nMatvec + 2 ∧
      ((biStep op precon t mm r0 s).finished = false → le (biStep op precon t mm r0 s).residNorm t = false) ∧
      ∃ a, le a t = false ∧ biRecs op precon t mm r0 s =
        [.row (s.nMatvec + 1) a none, .row (s.nMatvec + 2) (biStep op precon t mm r0 s).residNorm none]) := by
  unfold biRecs biStep
  simp only
  split
  · exact Or.inl ⟨rfl, rfl, rfl⟩
  · rename_i h
    split
    · exact Or.inl ⟨rfl, rfl, rfl⟩
    · refine Or.inr ⟨rfl, fun hf => ?_, _, by simpa using h, rfl⟩
      simp only [Bool.or_eq_false_iff] at hf
      exact hf.1

/-- one pass of TFQMR and what it writes -/
theorem tfStep_log (op : V → V) (precon : Option (V → V)) (t : S) (mm : Nat) (r0 : V) (s : TFLoop S V) (hs : s.finished = false) :
    (tfStep op precon t mm r0 s).m ≠ none ∧
    (((tfStep op precon t mm r0 s).finished = true ∧
      ((tfStep op precon t mm r0 s).nMatvec = s.nMatvec ∨ (tfStep op precon t mm r0 s).nMatvec = s.nMatvec + 1)) ∨
    ((tfStep op precon t mm r0 s).finished = false ∧ (tfStep op precon t mm r0 s).nMatvec = s.nMatvec + 2 ∧
      (tfStep op precon t mm r0 s).k = s.k + 1 ∧
      lt ((tfStep op precon t mm r0 s).residNorm * sqrt (lit 2 * lit ((s.k + 1 : Nat) : ℚ) - lit 1 + lit 1 + lit 1)) t = false)) := by
  unfold tfStep
  simp only
  split
  · exact ⟨by simp, Or.inl ⟨rfl, Or.inl rfl⟩⟩
  · split
    · exact ⟨by simp [tfPass, tfMid], Or.inl ⟨rfl, Or.inr rfl⟩⟩
    · rename_i h
      refine ⟨by simp [tfFinal, tfPass, tfMid], Or.inr ⟨hs, rfl, rfl, ?_⟩⟩
      simp only [tfTest, Bool.or_eq_true, not_or, Bool.not_eq_true] at h
      exact h.1

end Verif.Solver
