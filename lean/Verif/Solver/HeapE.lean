import Verif.Solver.HeapBi
import Verif.Solver.LSQR

/-!
# Code on the heap that can raise

For the least-squares solvers, whose scalars are Python floats (a division by zero and the square root of a negative number raise).
`HeapE W α` is code that works on the heap and returns a value or raises; the heap is that at the point of the exception.

There is one type `W` of arrays, for vectors with `m` and with `n` entries.
-/

namespace Verif.Solver
open Scalar Vect

/-- code that works on the heap and can raise -/
def HeapE (W α : Type) := Heap W → Except PyError α × Heap W

variable {W α β σ τ : Type}

instance : Monad (HeapE W) where
  pure a := fun h => (.ok a, h)
  bind m f := fun h =>
    match m h with
    | (.ok a, h') => f a h'
    | (.error e, h') => (.error e, h')

/-- the contents of an array -/
def hrd (l : Nat) : HeapE W W := fun h => (.ok (h.mem l), h)
/-- overwrite an array -/
def hwr (l : Nat) (v : W) : HeapE W Unit := fun h => (.ok (), h.upd l v)
/-- a new array -/
def hnew (v : W) : HeapE W Nat := fun h => (.ok h.next, h.alloc v)
/-- `op * a` -/
def hcall (f : HOp W) (l : Nat) : HeapE W Nat := fun h => (.ok (call f l h).1, (call f l h).2)
/-- `precon(a)`, or `a` if there is no preconditioner -/
def hprecon (o : Option (HOp W)) (l : Nat) : HeapE W Nat := fun h => (.ok (callPrecon o l h).1, (callPrecon o l h).2)
/-- `if flag: lst.append(a.copy())` -/
def happend (flag : Bool) (lst : List Nat) (l : Nat) : HeapE W (List Nat) :=
  fun h => (.ok (appendCopy flag lst l h).1, (appendCopy flag lst l h).2)
/-- a computation with scalars that may raise -/
def hexc (x : Except PyError α) : HeapE W α := fun h => (x, h)

/-! ### What existed before is not modified -/

/-- run after `h0`, the code does not modify any array that exists in `h0`, and its value has the property `Q` -/
def Keeps (h0 : Heap W) (m : HeapE W α) (Q : α → Prop) : Prop :=
  ∀ h, h0.Ext h → h0.Ext (m h).2 ∧ ∀ a, (m h).1 = .ok a → Q a

namespace Keeps
variable {h0 : Heap W} {m : HeapE W α} {f : α → HeapE W β} {Q : α → Prop} {R : β → Prop}

theorem pure {a : α} (h : Q a) : Keeps h0 (Pure.pure a) Q := fun _ he => ⟨he, fun _ hb => by cases hb; exact h⟩

theorem bind (hm : Keeps h0 m Q) (hf : ∀ a, Q a → Keeps h0 (f a) R) : Keeps h0 (m >>= f) R := by
  intro h he
  obtain ⟨h1, h2⟩ := hm h he
  change h0.Ext (match m h with | (.ok a, h') => f a h' | (.error e, h') => (.error e, h')).2 ∧
    ∀ b, (match m h with | (.ok a, h') => f a h' | (.error e, h') => (.error e, h')).1 = .ok b → R b
  cases hr : m h with
  | mk r h' =>
    rw [hr] at h1 h2
    cases r with
    | ok a => exact hf a (h2 a rfl) h' h1
    | error e => exact ⟨h1, fun b hb => by cases hb⟩

theorem mono {Q' : α → Prop} (hm : Keeps h0 m Q) (h : ∀ a, Q a → Q' a) : Keeps h0 m Q' :=
  fun g hg => ⟨(hm g hg).1, fun a ha => h a ((hm g hg).2 a ha)⟩

theorem rd {l : Nat} : Keeps h0 (hrd l) (fun _ => True) := fun _ he => ⟨he, fun _ _ => trivial⟩
theorem wr {l : Nat} {v : W} (hl : h0.next ≤ l) : Keeps h0 (hwr l v) (fun _ => True) := fun _ he => ⟨he.upd hl v, fun _ _ => trivial⟩
theorem new {v : W} : Keeps h0 (hnew v) (fun k => h0.next ≤ k) :=
  fun h he => ⟨he.trans (h.ext_alloc v), fun a ha => by cases ha; exact he.next⟩
/-- a product with an array that may be old -/
theorem call' {op : HOp W} {l : Nat} : Keeps h0 (hcall op l) (fun _ => True) :=
  fun h he => ⟨he.trans (call_ext op l h).1, fun _ _ => trivial⟩
theorem call {op : HOp W} {l : Nat} (hl : h0.next ≤ l) : Keeps h0 (hcall op l) (fun k => h0.next ≤ k) :=
  fun h he => ⟨he.trans (call_ext op l h).1, fun a ha => by
    cases ha
    rcases (call_ext op l h).2 with h1 | h1
    · rw [h1]; exact hl
    · rw [h1]; exact he.next⟩
theorem precon {o : Option (HOp W)} {l : Nat} (hl : h0.next ≤ l) : Keeps h0 (hprecon o l) (fun k => h0.next ≤ k) := by
  cases o with
  | none => exact fun h he => ⟨he, fun a ha => by cases ha; exact hl⟩
  | some M => exact call hl
theorem append {flag : Bool} {lst : List Nat} {l : Nat} : Keeps h0 (happend flag lst l) (fun _ => True) := by
  intro h he
  refine ⟨?_, fun _ _ => trivial⟩
  cases flag
  · exact he
  · exact he.trans (h.ext_alloc _)
theorem exc {x : Except PyError α} : Keeps h0 (hexc x) (fun a => x = .ok a) := fun _ he => ⟨he, fun _ ha => ha⟩
theorem ite {c : Prop} [Decidable c] {m' : HeapE W α} (h1 : c → Keeps h0 m Q) (h2 : ¬c → Keeps h0 m' Q) :
    Keeps h0 (if c then m else m') Q := by
  split
  · exact h1 ‹_›
  · exact h2 ‹_›

/-- the heap after a piece of code that has been run -/
theorem ext_of (hm : Keeps h0 m Q) {h h' : Heap W} {r : Except PyError α} (hr : m h = (r, h')) (he : h0.Ext h) : h0.Ext h' := by
  have := (hm h he).1
  rw [hr] at this
  exact this

end Keeps

/-! ### Loops -/

/-- `while cont s: s = step s`, for a body that works on the heap and may raise, which ends the loop -/
def heapLoop (cont : σ → Bool) (step : σ → HeapE W σ) (μ : σ → Nat)
    (h : ∀ s g t g', cont s = true → step s g = (.ok t, g') → cont t = true → μ t < μ s) (s : σ) (g : Heap W) :
    Except PyError σ × Heap W :=
  if _hc : cont s = true then
    match _ht : step s g with
    | (.error e, g') => (.error e, g')
    | (.ok t, g') => heapLoop cont step μ h t g'
  else (.ok s, g)
termination_by if cont s then μ s + 1 else 0
decreasing_by
  rw [if_pos _hc]
  split
  · rename_i h'
    have := h s g t g' _hc _ht h'
    omega
  · omega

section
variable {cont : σ → Bool} {step : σ → HeapE W σ} {μ : σ → Nat}
  {h : ∀ s g t g', cont s = true → step s g = (.ok t, g') → cont t = true → μ t < μ s}

theorem heapLoop_of_cont {s t : σ} {g g' : Heap W} (hc : cont s = true) (ht : step s g = (.ok t, g')) :
    heapLoop cont step μ h s g = heapLoop cont step μ h t g' := by
  rw [heapLoop, dif_pos hc]
  split
  · rename_i h'; rw [ht] at h'; cases h'
  · rename_i h'; rw [ht] at h'; cases h'; rfl

theorem heapLoop_of_error {s : σ} {g g' : Heap W} {e : PyError} (hc : cont s = true) (ht : step s g = (.error e, g')) :
    heapLoop cont step μ h s g = (.error e, g') := by
  rw [heapLoop, dif_pos hc]
  split
  · rename_i h'; rw [ht] at h'; cases h'; rfl
  · rename_i h'; rw [ht] at h'; cases h'

theorem heapLoop_of_not {s : σ} {g : Heap W} (hc : cont s = false) : heapLoop cont step μ h s g = (.ok s, g) := by
  rw [heapLoop, dif_neg (by simp [hc])]

theorem heapLoop_keeps {h0 : Heap W} (P : σ → Prop) (hstep : ∀ s, P s → Keeps h0 (step s) P) (s : σ) (hs : P s) :
    Keeps h0 (heapLoop cont step μ h s) P := by
  induction hm : (if cont s then μ s + 1 else 0) using Nat.strongRecOn generalizing s with
  | ind m ih =>
    intro g hg
    rcases Bool.eq_false_or_eq_true (cont s) with hc | hc
    · obtain ⟨h1, h2⟩ := hstep s hs g hg
      cases hst : step s g with
      | mk r g' =>
        rw [hst] at h1 h2
        cases r with
        | error e =>
          rw [heapLoop_of_error hc hst]
          exact ⟨h1, fun a ha => by cases ha⟩
        | ok t =>
          rw [heapLoop_of_cont hc hst]
          refine ih _ ?_ t (h2 t rfl) rfl g' h1
          rw [← hm, if_pos hc]
          split
          · rename_i h'
            have := h s g t g' hc hst h'
            omega
          · omega
    · rw [heapLoop_of_not hc]
      exact ⟨hg, fun a ha => by cases ha; exact hs⟩

end

/-! ### Relation to code on values -/

/-- the outcomes of code on the heap and of code on values are related: both raise the same exception, or both return -/
def SimE (h : Heap W) (m : HeapE W α) (p : Except PyError β) (R : α → β → Heap W → Prop) : Prop :=
  match m h, p with
  | (.ok a, h'), .ok b => R a b h'
  | (.error e, _), .error e' => e = e'
  | _, _ => False

namespace SimE
variable {h : Heap W} {α' β' : Type} {m : HeapE W α} {f : α → HeapE W α'} {p : Except PyError β} {g : β → Except PyError β'}
  {R : α → β → Heap W → Prop} {R' : α' → β' → Heap W → Prop}

theorem pure {a : α} {b : β} (hr : R a b h) : SimE h (Pure.pure a) (.ok b) R := hr

theorem bind (hm : SimE h m p R) (hf : ∀ a b h', R a b h' → SimE h' (f a) (g b) R') : SimE h (m >>= f) (p >>= g) R' := by
  unfold SimE at hm
  change (match (match m h with | (.ok a, h') => f a h' | (.error e, h') => (.error e, h')), (p >>= g) with
    | (.ok a, h'), .ok b => R' a b h'
    | (.error e, _), .error e' => e = e'
    | _, _ => False)
  cases hr : m h with
  | mk r h' =>
    rw [hr] at hm
    cases r with
    | ok a =>
      cases p with
      | ok b => exact hf a b h' hm
      | error e => exact hm.elim
    | error e =>
      cases p with
      | ok b => exact hm.elim
      | error e' => exact hm

theorem mono {R₂ : α → β → Heap W → Prop} (hm : SimE h m p R) (hr : ∀ a b h', R a b h' → R₂ a b h') : SimE h m p R₂ := by
  unfold SimE at hm ⊢
  cases hmh : m h with
  | mk r h' =>
    rw [hmh] at hm
    cases r <;> cases p
    · exact hm
    · exact hm.elim
    · exact hm.elim
    · exact hr _ _ _ hm

variable {p' : Except PyError β'}
theorem rd {l : Nat} {f : W → HeapE W α'} (hf : SimE h (f (h.mem l)) p' R') : SimE h (hrd l >>= f) p' R' := hf
theorem wr {l : Nat} {v : W} {f : Unit → HeapE W α'} (hf : SimE (h.upd l v) (f ()) p' R') : SimE h (hwr l v >>= f) p' R' := hf
theorem new {v : W} {f : Nat → HeapE W α'} (hf : SimE (h.alloc v) (f h.next) p' R') : SimE h (hnew v >>= f) p' R' := hf
theorem call {op : HOp W} {l : Nat} {f : Nat → HeapE W α'} (hf : SimE (Verif.Solver.call op l h).2 (f (Verif.Solver.call op l h).1) p' R') :
    SimE h (hcall op l >>= f) p' R' := hf
theorem precon {o : Option (HOp W)} {l : Nat} {f : Nat → HeapE W α'} (hf : SimE (callPrecon o l h).2 (f (callPrecon o l h).1) p' R') :
    SimE h (hprecon o l >>= f) p' R' := hf
theorem append {flag : Bool} {lst : List Nat} {l : Nat} {f : List Nat → HeapE W α'}
    (hf : SimE (appendCopy flag lst l h).2 (f (appendCopy flag lst l h).1) p' R') : SimE h (happend flag lst l >>= f) p' R' := hf
theorem pureBind {a : α} (hf : SimE h (f a) p' R') : SimE h ((Pure.pure a : HeapE W α) >>= f) p' R' := hf

theorem exc {γ : Type} {x : Except PyError γ} {f : γ → HeapE W α'} {g : γ → Except PyError β'}
    (hf : ∀ a, x = .ok a → SimE h (f a) (g a) R') : SimE h (hexc x >>= f) (x >>= g) R' := by
  cases x with
  | ok a => exact hf a rfl
  | error e => exact (rfl : e = e)

theorem ite {c : Prop} [Decidable c] {m' : HeapE W α} {q : Except PyError β} (h1 : c → SimE h m p R) (h2 : ¬c → SimE h m' q R) :
    SimE h (if c then m else m') (if c then p else q) R := by
  by_cases hc : c
  · rw [if_pos hc, if_pos hc]; exact h1 hc
  · rw [if_neg hc, if_neg hc]; exact h2 hc

end SimE

/-- two loops with related bodies -/
theorem heapLoop_sim {cont : σ → Bool} {step : σ → HeapE W σ} {μ : σ → Nat}
    {h : ∀ s g t g', cont s = true → step s g = (.ok t, g') → cont t = true → μ t < μ s}
    {cont' : τ → Bool} {step' : τ → Except PyError τ} {μ' : τ → Nat}
    {h' : ∀ s t, cont' s = true → step' s = .ok t → cont' t = true → μ' t < μ' s}
    (R : σ → τ → Heap W → Prop) (hcont : ∀ s t g, R s t g → cont s = cont' t)
    (hstep : ∀ s t g, R s t g → cont s = true → SimE g (step s) (step' t) R) (s : σ) (t : τ) (g : Heap W) (hs : R s t g) :
    SimE g (heapLoop cont step μ h s) (exceptLoop cont' step' μ' h' t) R := by
  induction hm : (if cont s then μ s + 1 else 0) using Nat.strongRecOn generalizing s t g with
  | ind m ih =>
    have hct := hcont s t g hs
    rcases Bool.eq_false_or_eq_true (cont s) with hc | hc
    · have hst := hstep s t g hs hc
      rw [hc] at hct
      unfold SimE at hst
      cases h1 : step s g with
      | mk r g' =>
        rw [h1] at hst
        cases r with
        | error e =>
          cases h2 : step' t with
          | ok b => rw [h2] at hst; exact hst.elim
          | error e' =>
            rw [h2] at hst
            unfold SimE
            rw [heapLoop_of_error hc h1, exceptLoop_of_error hct.symm h2]
            exact hst
        | ok s1 =>
          cases h2 : step' t with
          | error e' => rw [h2] at hst; exact hst.elim
          | ok t1 =>
            rw [h2] at hst
            have key := ih (if cont s1 then μ s1 + 1 else 0) (by
              rw [← hm, if_pos hc]
              split
              · rename_i hh
                have := h s g s1 g' hc h1 hh
                omega
              · omega) s1 t1 g' hst rfl
            unfold SimE at key ⊢
            rw [heapLoop_of_cont hc h1, exceptLoop_of_cont hct.symm h2]
            exact key
    · rw [hc] at hct
      unfold SimE
      rw [heapLoop_of_not hc, exceptLoop_of_not hct.symm]
      exact hs

end Verif.Solver
