import Mathlib.Logic.Function.Basic
import Mathlib.Data.List.Count

/-!
# Threads that share memory

A thread is a tree of atomic accesses to shared memory: read a location and continue with what was read, write a value to a
location, or stop with a result.  Any number of threads run under any schedule.  In CPython a thread can lose control between any
two bytecodes, so that `self.n += 1` is a read followed by a write; everything that concerns only local variables of a
thread is part of the continuation.
-/

namespace Verif.Threads

/-- A thread: locations `L`, contents `W`, result `α`. -/
inductive Tr (L W α : Type) : Type
  | ret (a : α)
  | load (l : L) (k : W → Tr L W α)
  | store (l : L) (w : W) (k : Tr L W α)

variable {L W α β : Type} [DecidableEq L]

/-- do the first, then the second with its result -/
def Tr.bind : Tr L W α → (α → Tr L W β) → Tr L W β
  | .ret a, f => f a
  | .load l k, f => .load l fun w => (k w).bind f
  | .store l w k, f => .store l w (k.bind f)

/-- a thread alone: its result and the memory afterwards -/
def Tr.exec : Tr L W α → (L → W) → α × (L → W)
  | .ret a, m => (a, m)
  | .load l k, m => (k (m l)).exec m
  | .store l w k, m => k.exec (Function.update m l w)

/-- the threads and the memory they share -/
structure Pool (ι L W α : Type) where
  thread : ι → Tr L W α
  mem : L → W

variable {ι : Type} [DecidableEq ι]

/-- thread `i` performs one access; a thread that has stopped does nothing -/
def Pool.step (p : Pool ι L W α) (i : ι) : Pool ι L W α :=
  match p.thread i with
  | .ret _ => p
  | .load l k => { p with thread := Function.update p.thread i (k (p.mem l)) }
  | .store l w k => { thread := Function.update p.thread i k, mem := Function.update p.mem l w }

/-- the threads run in the order given by the schedule -/
def Pool.run (p : Pool ι L W α) (schedule : List ι) : Pool ι L W α := schedule.foldl Pool.step p

/-! ### Threads whose result does not depend on what they read -/

/-- `Blind t a d`: `t` stops after `d` accesses with result `a`, whatever it reads -/
inductive Blind : Tr L W α → α → Nat → Prop
  | ret (a : α) : Blind (.ret a) a 0
  | load {l : L} {k : W → Tr L W α} {a : α} {d : Nat} : (∀ w, Blind (k w) a d) → Blind (.load l k) a (d + 1)
  | store {l : L} {w : W} {k : Tr L W α} {a : α} {d : Nat} : Blind k a d → Blind (.store l w k) a (d + 1)

omit [DecidableEq L] in
theorem Blind.bind {t : Tr L W α} {a : α} {d : Nat} (h : Blind t a d) {f : α → Tr L W β} {b : β} {e : Nat}
    (hf : Blind (f a) b e) : Blind (t.bind f) b (d + e) := by
  induction h with
  | ret a => simpa [Tr.bind] using hf
  | @load l k a d _ ih => rw [show d + 1 + e = (d + e) + 1 by omega]; exact .load fun w => ih w hf
  | @store l w k a d _ ih => rw [show d + 1 + e = (d + e) + 1 by omega]; exact .store (ih hf)

theorem Blind.exec {t : Tr L W α} {a : α} {d : Nat} (h : Blind t a d) (m : L → W) : (t.exec m).1 = a := by
  induction h generalizing m with
  | ret a => rfl
  | load _ ih => exact ih _ _
  | store _ ih => exact ih _

theorem exec_bind (t : Tr L W α) (f : α → Tr L W β) (m : L → W) :
    (t.bind f).exec m = (f (t.exec m).1).exec (t.exec m).2 := by
  induction t generalizing m with
  | ret a => rfl
  | load l k ih => exact ih _ m
  | store l w k ih => exact ih _

theorem Blind.step {p : Pool ι L W α} {i : ι} {a : α} {d : Nat} (h : Blind (p.thread i) a d) (j : ι) :
    Blind ((p.step j).thread i) a (d - if j = i then 1 else 0) := by
  unfold Pool.step
  by_cases hj : j = i
  · subst hj
    rw [if_pos rfl]
    generalize ht : p.thread j = t at h
    cases h with
    | ret a => simpa [ht] using Blind.ret a
    | load h => simpa using h _
    | store h => simpa using h
  · rw [if_neg hj, Nat.sub_zero]
    cases ht : p.thread j with
    | ret b => exact h
    | load l k => simpa [Function.update_of_ne (Ne.symm hj)] using h
    | store l w k => simpa [Function.update_of_ne (Ne.symm hj)] using h

theorem Blind.run {i : ι} {a : α} (schedule : List ι) : ∀ {p : Pool ι L W α} {d : Nat}, Blind (p.thread i) a d →
    Blind ((p.run schedule).thread i) a (d - schedule.count i) := by
  induction schedule with
  | nil => intro p d h; simpa [Pool.run] using h
  | cons j js ih =>
    intro p d h
    have h1 := ih (h.step j)
    have e : d - (if j = i then 1 else 0) - js.count i = d - (j :: js).count i := by
      rw [List.count_cons]
      by_cases hj : j = i
      · subst hj; simp; omega
      · simp [hj]
    rw [e] at h1
    exact h1

omit [DecidableEq L] in
theorem Blind.stopped {t : Tr L W α} {a b : α} {d : Nat} (h : Blind t a d) (ht : t = .ret b) : b = a := by
  subst ht; cases h; rfl

omit [DecidableEq L] in
theorem Blind.done {t : Tr L W α} {a : α} (h : Blind t a 0) : t = .ret a := by
  cases h; rfl

/-! ### Threads that write only what the others expect -/

/-- `Safe Good t a d`: `t` stops after `d` accesses with result `a` as long as the memory is good whenever it reads, and what it
writes keeps the memory good -/
inductive Safe (Good : (L → W) → Prop) : Tr L W α → α → Nat → Prop
  | ret (a : α) : Safe Good (.ret a) a 0
  | load {l : L} {k : W → Tr L W α} {a : α} {d : Nat} : (∀ m, Good m → Safe Good (k (m l)) a d) → Safe Good (.load l k) a (d + 1)
  | store {l : L} {w : W} {k : Tr L W α} {a : α} {d : Nat} : (∀ m, Good m → Good (Function.update m l w)) → Safe Good k a d →
      Safe Good (.store l w k) a (d + 1)

/-- a thread whose first access is a write that makes the memory good -/
def Starts (Good : (L → W) → Prop) (t : Tr L W α) (a : α) (d : Nat) : Prop :=
  ∃ l w k e, t = .store l w k ∧ d = e + 1 ∧ (∀ m, Good (Function.update m l w)) ∧ Safe Good k a e

theorem Starts.safe {Good : (L → W) → Prop} {t : Tr L W α} {a : α} {d : Nat} (h : Starts Good t a d) : Safe Good t a d := by
  obtain ⟨l, w, k, e, rfl, rfl, h1, h2⟩ := h
  exact .store (fun m _ => h1 m) h2

theorem Safe.bind {Good : (L → W) → Prop} {t : Tr L W α} {a : α} {d : Nat} (h : Safe Good t a d) {f : α → Tr L W β} {b : β} {e : Nat}
    (hf : Safe Good (f a) b e) : Safe Good (t.bind f) b (d + e) := by
  induction h with
  | ret a => simpa [Tr.bind] using hf
  | @load l k a d _ ih => rw [show d + 1 + e = (d + e) + 1 by omega]; exact .load fun m hm => ih m hm hf
  | @store l w k a d h1 _ ih => rw [show d + 1 + e = (d + e) + 1 by omega]; exact .store h1 (ih hf)

/-- the memory is good, or all threads are about to make it good -/
def Guarded (Good : (L → W) → Prop) (a : ι → α) (d : ι → Nat) (p : Pool ι L W α) : Prop :=
  (∀ i, Safe Good (p.thread i) (a i) (d i)) ∧ (Good p.mem ∨ ∀ i, Starts Good (p.thread i) (a i) (d i))

theorem Guarded.step {Good : (L → W) → Prop} {a : ι → α} {d : ι → Nat} {p : Pool ι L W α} (h : Guarded Good a d p) (j : ι) :
    Guarded Good a (fun i => d i - if j = i then 1 else 0) (p.step j) := by
  obtain ⟨h1, h2⟩ := h
  unfold Pool.step
  have other : ∀ (t : Tr L W α) (m : L → W), Good m → Safe Good t (a j) (d j - 1) →
      Guarded Good a (fun i => d i - if j = i then 1 else 0) ⟨Function.update p.thread j t, m⟩ := by
    intro t m hm ht
    refine ⟨fun i => ?_, .inl hm⟩
    by_cases hj : j = i
    · subst hj; simpa using ht
    · simpa [hj, Function.update_of_ne (Ne.symm hj)] using h1 i
  have hj := h1 j
  cases ht : p.thread j with
  | ret b =>
    have hd : d j = 0 := by
      rw [ht] at hj; generalize d j = e at hj; cases hj; rfl
    have he : (fun i => d i - if j = i then 1 else 0) = d := by
      funext i
      by_cases hi : j = i
      · subst hi; simp [hd]
      · simp [hi]
    rw [he]
    exact ⟨h1, h2⟩
  | load l k =>
    rcases h2 with h2 | h2
    · rw [ht] at hj
      generalize d j = e at hj other
      cases hj with
      | load hk => exact other _ _ h2 (hk _ h2)
    · obtain ⟨l', w, k', e, h3, -⟩ := h2 j
      rw [ht] at h3; cases h3
  | store l w k =>
    rcases h2 with h2 | h2
    · rw [ht] at hj
      generalize d j = e at hj other
      cases hj with
      | store hm hk => exact other _ _ (hm _ h2) hk
    · obtain ⟨l', w', k', e, h3, h4, h5, h6⟩ := h2 j
      rw [ht] at h3; cases h3
      exact other _ _ (h5 _) (by rw [h4]; exact h6)

theorem Guarded.run {Good : (L → W) → Prop} {a : ι → α} (schedule : List ι) : ∀ {d : ι → Nat} {p : Pool ι L W α},
    Guarded Good a d p → Guarded Good a (fun i => d i - schedule.count i) (p.run schedule) := by
  induction schedule with
  | nil => intro d p h; simpa [Pool.run] using h
  | cons j js ih =>
    intro d p h
    have h1 := ih (h.step j)
    have e : (fun i => d i - (if j = i then 1 else 0) - js.count i) = fun i => d i - (j :: js).count i := by
      funext i
      rw [List.count_cons]
      by_cases hj : j = i
      · subst hj; simp; omega
      · simp [hj]
    rw [e] at h1
    exact h1

theorem Safe.stopped {Good : (L → W) → Prop} {t : Tr L W α} {a b : α} {d : Nat} (h : Safe Good t a d) (ht : t = .ret b) : b = a := by
  subst ht; cases h; rfl

theorem Safe.done {Good : (L → W) → Prop} {t : Tr L W α} {a : α} (h : Safe Good t a 0) : t = .ret a := by
  cases h; rfl

end Verif.Threads
