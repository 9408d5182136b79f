import Mathlib.Tactic.Basic

/-!
# While loops
-/

namespace Verif.Solver

variable {σ : Type}

/-- `while cont s: s = step s`, for a loop that terminates because of the measure `μ`. -/
def whileLoop (cont : σ → Bool) (step : σ → σ) (μ : σ → Nat)
    (h : ∀ s, cont s = true → cont (step s) = true → μ (step s) < μ s) (s : σ) : σ :=
  if _hc : cont s = true then whileLoop cont step μ h (step s) else s
termination_by if cont s then μ s + 1 else 0
decreasing_by
  rw [if_pos _hc]
  split
  · rename_i h'
    have := h s _hc h'
    omega
  · omega

variable {cont : σ → Bool} {step : σ → σ} {μ : σ → Nat}
  {h : ∀ s, cont s = true → cont (step s) = true → μ (step s) < μ s}

theorem whileLoop_of_cont {s : σ} (hc : cont s = true) : whileLoop cont step μ h s = whileLoop cont step μ h (step s) := by
  rw [whileLoop, dif_pos hc]

theorem whileLoop_of_not {s : σ} (hc : cont s = false) : whileLoop cont step μ h s = s := by
  rw [whileLoop, dif_neg (by simp [hc])]

/-- An invariant holds at the exit, where the loop condition is false. -/
theorem whileLoop_inv (P : σ → Prop) (hstep : ∀ s, P s → cont s = true → P (step s)) (s : σ) (hs : P s) :
    P (whileLoop cont step μ h s) ∧ cont (whileLoop cont step μ h s) = false := by
  induction hm : (if cont s then μ s + 1 else 0) using Nat.strongRecOn generalizing s with
  | ind m ih =>
    rcases Bool.eq_false_or_eq_true (cont s) with hc | hc
    · rw [whileLoop_of_cont hc]
      refine ih _ ?_ (step s) (hstep s hs hc) rfl
      rw [← hm, if_pos hc]
      split
      · rename_i h'
        have := h s hc h'
        omega
      · omega
    · rw [whileLoop_of_not hc]
      exact ⟨hs, hc⟩

/-- Two loops related step by step end in related states. -/
theorem whileLoop_sim {τ : Type} {cont' : τ → Bool} {step' : τ → τ} {μ' : τ → Nat}
    {h' : ∀ s, cont' s = true → cont' (step' s) = true → μ' (step' s) < μ' s}
    (R : σ → τ → Prop) (hcont : ∀ s t, R s t → cont s = cont' t)
    (hstep : ∀ s t, R s t → cont s = true → R (step s) (step' t)) (s : σ) (t : τ) (hs : R s t) :
    R (whileLoop cont step μ h s) (whileLoop cont' step' μ' h' t) := by
  induction hm : (if cont s then μ s + 1 else 0) using Nat.strongRecOn generalizing s t with
  | ind m ih =>
    have hct := hcont s t hs
    rcases Bool.eq_false_or_eq_true (cont s) with hc | hc
    · rw [whileLoop_of_cont hc, whileLoop_of_cont (s := t) (hct ▸ hc)]
      refine ih _ ?_ (step s) _ (hstep s t hs hc) rfl
      rw [← hm, if_pos hc]
      split
      · rename_i h'
        have := h s hc h'
        omega
      · omega
    · rw [whileLoop_of_not hc, whileLoop_of_not (s := t) (hct ▸ hc)]
      exact hs

/-- Two loops whose bodies coincide on every state of which the first one "approves" afterwards. -/
theorem whileLoop_congr {step' : σ → σ} {h' : ∀ s, cont s = true → cont (step' s) = true → μ (step' s) < μ s}
    (agree : σ → Prop) (hmono : ∀ s, agree (step s) → agree s) (hstep : ∀ s, agree (step s) → step' s = step s) (s : σ)
    (hs : agree (whileLoop cont step μ h s)) :
    whileLoop cont step' μ h' s = whileLoop cont step μ h s ∧ agree s := by
  induction hm : (if cont s then μ s + 1 else 0) using Nat.strongRecOn generalizing s with
  | ind m ih =>
    rcases Bool.eq_false_or_eq_true (cont s) with hc | hc
    · rw [whileLoop_of_cont hc] at hs
      have key := ih _ (by
        rw [← hm, if_pos hc]
        split
        · rename_i h'
          have := h s hc h'
          omega
        · omega) (step s) hs rfl
      rw [whileLoop_of_cont (step := step) hc, whileLoop_of_cont (step := step') hc, hstep s key.2]
      exact ⟨key.1, hmono s key.2⟩
    · rw [whileLoop_of_not hc] at hs
      exact ⟨by rw [whileLoop_of_not (step := step) hc, whileLoop_of_not (step := step') hc], hs⟩

/-! ### Loops whose body can raise -/

theorem except_bind_ok {ε α β : Type} {x : Except ε α} {f : α → Except ε β} {b : β} (h : (x >>= f) = .ok b) :
    ∃ a, x = .ok a ∧ f a = .ok b := by
  cases x with
  | error e => cases h
  | ok a => exact ⟨a, rfl, h⟩

theorem except_bind_ok' {ε α β : Type} {x : Except ε α} {f : α → Except ε β} {a : α} (h : x = .ok a) :
    (x >>= f) = f a := by rw [h]; rfl

variable {ε : Type}

/-- `while cont s: s = step s`, for a body that may raise, which ends the loop. -/
def exceptLoop (cont : σ → Bool) (step : σ → Except ε σ) (μ : σ → Nat)
    (h : ∀ s t, cont s = true → step s = .ok t → cont t = true → μ t < μ s) (s : σ) : Except ε σ :=
  if _hc : cont s = true then
    match _ht : step s with
    | .error e => .error e
    | .ok t => exceptLoop cont step μ h t
  else .ok s
termination_by if cont s then μ s + 1 else 0
decreasing_by
  rw [if_pos _hc]
  split
  · rename_i h'
    have := h s t _hc _ht h'
    omega
  · omega

section
variable {step : σ → Except ε σ} {h : ∀ s t, cont s = true → step s = .ok t → cont t = true → μ t < μ s}

theorem exceptLoop_of_cont {s t : σ} (hc : cont s = true) (ht : step s = .ok t) :
    exceptLoop cont step μ h s = exceptLoop cont step μ h t := by
  rw [exceptLoop, dif_pos hc]
  split
  · rename_i h'; rw [ht] at h'; cases h'
  · rename_i h'; rw [ht] at h'; cases h'; rfl

theorem exceptLoop_of_error {s : σ} {e : ε} (hc : cont s = true) (ht : step s = .error e) :
    exceptLoop cont step μ h s = .error e := by
  rw [exceptLoop, dif_pos hc]
  split
  · rename_i h'; rw [ht] at h'; cases h'; rfl
  · rename_i h'; rw [ht] at h'; cases h'

theorem exceptLoop_of_not {s : σ} (hc : cont s = false) : exceptLoop cont step μ h s = .ok s := by
  rw [exceptLoop, dif_neg (by simp [hc])]

/-- An invariant holds at a normal exit, where the loop condition is false. -/
theorem exceptLoop_inv (P : σ → Prop) (hstep : ∀ s t, P s → cont s = true → step s = .ok t → P t) (s : σ) (hs : P s) (t : σ)
    (ht : exceptLoop cont step μ h s = .ok t) : P t ∧ cont t = false := by
  induction hm : (if cont s then μ s + 1 else 0) using Nat.strongRecOn generalizing s with
  | ind m ih =>
    rcases Bool.eq_false_or_eq_true (cont s) with hc | hc
    · cases hst : step s with
      | error e => rw [exceptLoop_of_error hc hst] at ht; cases ht
      | ok s' =>
        rw [exceptLoop_of_cont hc hst] at ht
        refine ih _ ?_ s' (hstep s s' hs hc hst) ht rfl
        rw [← hm, if_pos hc]
        split
        · rename_i h'
          have := h s s' hc hst h'
          omega
        · omega
    · rw [exceptLoop_of_not hc] at ht
      cases ht
      exact ⟨hs, hc⟩

/-- If the body never raises under an invariant, neither does the loop. -/
theorem exceptLoop_total (P : σ → Prop) (hstep : ∀ s, P s → cont s = true → ∃ t, step s = .ok t ∧ P t) (s : σ) (hs : P s) :
    ∃ t, exceptLoop cont step μ h s = .ok t ∧ P t ∧ cont t = false := by
  induction hm : (if cont s then μ s + 1 else 0) using Nat.strongRecOn generalizing s with
  | ind m ih =>
    rcases Bool.eq_false_or_eq_true (cont s) with hc | hc
    · obtain ⟨s', hst, hP⟩ := hstep s hs hc
      rw [exceptLoop_of_cont hc hst]
      refine ih _ ?_ s' hP rfl
      rw [← hm, if_pos hc]
      split
      · rename_i h'
        have := h s s' hc hst h'
        omega
      · omega
    · exact ⟨s, exceptLoop_of_not hc, hs, hc⟩

end

end Verif.Solver
