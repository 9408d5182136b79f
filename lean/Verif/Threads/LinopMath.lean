import Verif.Threads.Linop
import Mathlib.Algebra.BigOperators.Group.Finset.Basic
import Mathlib.Algebra.Order.BigOperators.Group.Finset
import Mathlib.Data.Fintype.BigOperators

/-!
# Lemmas on threads that multiply
-/

namespace Verif.Threads
open Linop

section
variable {α β : Type}

/-- `Counts t v rs`: `t` increments the counters `rs`, in this order, and stops with `v` -/
inductive Counts : Tr Nat Nat α → α → List Nat → Prop
  | ret (a : α) : Counts (.ret a) a []
  | inc {r : Nat} {k : Tr Nat Nat α} {a : α} {rs : List Nat} : Counts k a rs →
      Counts (.load r fun n => .store r (n + 1) k) a (r :: rs)

theorem Counts.bind {t : Tr Nat Nat α} {v : α} {rs : List Nat} (h : Counts t v rs) {f : α → Tr Nat Nat β} {w : β}
    {rs' : List Nat} (hf : Counts (f v) w rs') : Counts (t.bind f) w (rs ++ rs') := by
  induction h with
  | ret a => exact hf
  | inc _ ih => exact .inc (ih hf)

theorem Counts.blind {t : Tr Nat Nat α} {v : α} {rs : List Nat} (h : Counts t v rs) : Blind t v (2 * rs.length) := by
  induction h with
  | ret a => exact .ret a
  | inc _ ih =>
    rw [List.length_cons, show ∀ n, 2 * (n + 1) = 2 * n + 1 + 1 by intro n; omega]
    exact .load fun w => .store ih

def bumps (rs : List Nat) (c : Cnt) : Cnt := rs.foldl (fun c r => c.modify r (· + 1)) c

theorem bumps_append (rs rs' : List Nat) (c : Cnt) : bumps (rs ++ rs') c = bumps rs' (bumps rs c) := List.foldl_append

@[simp] theorem bumps_length (rs : List Nat) (c : Cnt) : (bumps rs c).length = c.length := by
  induction rs generalizing c with
  | nil => rfl
  | cons r rs ih => rw [bumps, List.foldl_cons]; exact (ih _).trans (by simp)

theorem bumps_get (rs : List Nat) (c : Cnt) (r : Nat) : (bumps rs c)[r]? = c[r]?.map (· + rs.count r) := by
  induction rs generalizing c with
  | nil => simp [bumps]
  | cons s rs ih =>
    rw [bumps, List.foldl_cons]
    refine (ih _).trans ?_
    rw [List.getElem?_modify, List.count_cons]
    by_cases h : s = r
    · subst h; cases c[s]? with
      | none => simp
      | some n => simp; omega
    · simp [h]

/-- the thread does what the model without threads does -/
def Same (t : TrE α) (a : Act α) : Prop := ∃ v rs, Counts t v rs ∧ ∀ c, a c = (v, bumps rs c)

theorem Same.lift (e : Except Err α) : Same (liftT e) (liftE e) := ⟨e, [], .ret e, fun _ => rfl⟩
theorem Same.pure (a : α) : Same (TrE.pure a) (Act.pure a) := ⟨.ok a, [], .ret _, fun _ => rfl⟩
theorem Same.raise (e : Err) : Same (TrE.raise (α := α) e) (Act.raise e) := ⟨.error e, [], .ret _, fun _ => rfl⟩
theorem Same.bump (r : Nat) : Same (bumpT r) (bump r) := ⟨.ok (), [r], .inc (.ret _), fun _ => rfl⟩

theorem Same.bind {t : TrE α} {a : Act α} (h : Same t a) {f : α → TrE β} {g : α → Act β} (hf : ∀ x, Same (f x) (g x)) :
    Same (t.bind f) (a.bind g) := by
  obtain ⟨v, rs, h1, h2⟩ := h
  cases v with
  | error e => exact ⟨.error e, rs ++ [], h1.bind (.ret _), fun c => by simp [Act.bind, h2]⟩
  | ok x =>
    obtain ⟨w, rs', h3, h4⟩ := hf x
    exact ⟨w, rs ++ rs', h1.bind h3, fun c => by simp [Act.bind, h2, h4, bumps_append]⟩

end

section
variable {K : Type} [CommRing K] [StarRing K] [DTypes K]

theorem evalCode_same (h : Heap K) {app : Nat → Arr K → TrE (Arr K)} {app' : Nat → Arr K → Act (Arr K)}
    (ha : ∀ r x, Same (app r x) (app' r x)) (c : Code K) (x : Arr K) : Same (evalCodeT h app c x) (evalCode h app' c x) := by
  cases c with
  | prim f => exact Same.lift _
  | conj t =>
    refine (Same.lift _).bind fun r => ?_
    split
    · exact (ha _ _).bind fun y => Same.pure _
    · exact (ha _ _).bind fun y => Same.pure _
  | scal a ka t => exact (Same.lift _).bind fun r => (ha _ _).bind fun y => Same.pure _
  | comp o i => exact (Same.lift _).bind fun r => (ha _ _).bind fun y => (Same.lift _).bind fun _ => ha _ _
  | add l r => exact (Same.lift _).bind fun _ => (ha _ _).bind fun _ => (Same.lift _).bind fun _ => (ha _ _).bind fun _ => Same.lift _
  | sub l r => exact (Same.lift _).bind fun _ => (ha _ _).bind fun _ => (Same.lift _).bind fun _ => (ha _ _).bind fun _ => Same.lift _
  | gather n put take t =>
    exact (Same.lift _).bind fun _ => (Same.lift _).bind fun _ => (ha _ _).bind fun _ => (Same.lift _).bind fun _ => Same.pure _

theorem run_same (h : Heap K) : ∀ (fuel r : Nat) (x : Arr K), Same (runT h fuel r x) (run h fuel r x)
  | 0, _, _ => Same.raise _
  | fuel + 1, r, x => by
    unfold runT run
    cases hr : h[r]? with
    | none => exact Same.raise _
    | some o =>
      refine (Same.bump r).bind fun _ => ?_
      split
      · exact Same.raise _
      · refine (evalCode_same h (run_same h fuel) _ _).bind fun y => ?_
        split
        · exact Same.raise _
        · exact Same.pure _

variable {α : Type}

theorem tree_blind (h : Heap K) (fuel : Nat) (p : Client K α) (c : Cnt) :
    ∃ d, Blind (p.tree h fuel) (p.alone h fuel c).1 d := by
  induction p generalizing c with
  | ret a => exact ⟨0, .ret a⟩
  | mul r x k ih =>
    obtain ⟨v, rs, h1, h2⟩ := run_same h fuel r x
    obtain ⟨d, hd⟩ := ih v (bumps rs c)
    refine ⟨2 * rs.length + d, ?_⟩
    simp only [Client.alone, h2]
    exact h1.blind.bind hd
  | reset r k ih =>
    obtain ⟨d, hd⟩ := ih (c.modify r fun _ => 0)
    exact ⟨d + 1, .store hd⟩

/-- a list of counters as shared memory -/
def memOf (c : Cnt) : Nat → Nat := fun r => c[r]?.getD 0

theorem counts_exec {t : Tr Nat Nat α} {v : α} {rs : List Nat} (h : Counts t v rs) (m : Nat → Nat) :
    t.exec m = (v, fun r => m r + rs.count r) := by
  induction h generalizing m with
  | ret a => simp [Tr.exec]
  | @inc s k a rs _ ih =>
    simp only [Tr.exec, ih]
    congr 1
    funext r
    rw [List.count_cons]
    by_cases hr : r = s
    · subst hr; simp; omega
    · simp [Function.update_of_ne hr, Ne.symm hr]

theorem tree_exec (h : Heap K) (fuel : Nat) (p : Client K α) (c : Cnt) (m : Nat → Nat) (hm : ∀ r < c.length, c[r]? = some (m r)) :
    ((p.tree h fuel).exec m).1 = (p.alone h fuel c).1 ∧
    ∀ r < c.length, (p.alone h fuel c).2[r]? = some (((p.tree h fuel).exec m).2 r) := by
  induction p generalizing c m with
  | ret a => exact ⟨rfl, hm⟩
  | mul r x k ih =>
    obtain ⟨v, rs, h1, h2⟩ := run_same h fuel r x
    simp only [Client.tree, Client.alone, exec_bind, counts_exec h1, h2]
    have := ih v (bumps rs c) (fun r => m r + rs.count r) (fun r hr => by
      rw [bumps_length] at hr
      rw [bumps_get, hm r hr]; rfl)
    rwa [bumps_length] at this
  | reset r k ih =>
    have := ih (c.modify r fun _ => 0) (Function.update m r 0) (fun s hs => by
      rw [List.length_modify] at hs
      rw [List.getElem?_modify, hm s hs]
      by_cases hrs : r = s
      · subst hrs; simp
      · simp [hrs, Function.update_of_ne (Ne.symm hrs)])
    rwa [List.length_modify] at this

/-! ### The counters -/

/-- `Incs r t m`: `t` increments counter `r` exactly `m` times -/
inductive Incs (r : Nat) : Tr Nat Nat α → Nat → Prop
  | ret (a : α) : Incs r (.ret a) 0
  | inc {k : Tr Nat Nat α} {m : Nat} : Incs r k m → Incs r (.load r fun n => .store r (n + 1) k) (m + 1)
  | other {l : Nat} {k : Tr Nat Nat α} {m : Nat} : l ≠ r → Incs r k m → Incs r (.load l fun n => .store l (n + 1) k) m
  | reset {l : Nat} {k : Tr Nat Nat α} {m : Nat} : Incs r k m → Incs r (.store l 0 k) m

theorem Counts.incs {β : Type} {t : Tr Nat Nat α} {v : α} {rs : List Nat} (h : Counts t v rs) (r : Nat) {f : α → Tr Nat Nat β} {m : Nat}
    (hf : Incs r (f v) m) : Incs r (t.bind f) (rs.count r + m) := by
  induction h with
  | ret a => simpa [Tr.bind] using hf
  | @inc s k a rs _ ih =>
    by_cases hs : s = r
    · subst hs
      rw [List.count_cons_self, show rs.count s + 1 + m = rs.count s + m + 1 by omega]
      exact .inc (ih hf)
    · rw [List.count_cons_of_ne hs]
      exact .other hs (ih hf)

/-- a thread at any moment: also between the read and the write of an increment, with at most `b` to be written -/
def Pending (r b : Nat) (t : Tr Nat Nat α) (m : Nat) : Prop :=
  Incs r t m ∨ ∃ l w k, t = .store l w k ∧ Incs r k m ∧ (l = r → w ≤ b)

theorem Pending.mono {r b b' : Nat} {t : Tr Nat Nat α} {m : Nat} (h : Pending r b t m) (hb : b ≤ b') : Pending r b' t m := by
  rcases h with h | ⟨l, w, k, h1, h2, h3⟩
  · exact .inl h
  · exact .inr ⟨l, w, k, h1, h2, fun h => (h3 h).trans hb⟩

variable {ι : Type} [DecidableEq ι] [Fintype ι]

theorem sum_update (m : ι → Nat) (i : ι) (v : Nat) :
    (∑ j, Function.update m i v j) + m i = (∑ j, m j) + v := by
  classical
  rw [← Finset.add_sum_erase _ _ (Finset.mem_univ i), ← Finset.add_sum_erase (a := i) _ m (Finset.mem_univ i),
    Function.update_self]
  have : ∑ j ∈ Finset.univ.erase i, Function.update m i v j = ∑ j ∈ Finset.univ.erase i, m j :=
    Finset.sum_congr rfl fun j hj => Function.update_of_ne (Finset.ne_of_mem_erase hj) _ _
  omega

/-- the invariant: what is stored, and what is about to be stored, is bounded by the total minus what is still to come -/
def Bounded (r T : Nat) (p : Pool ι Nat Nat α) : Prop :=
  ∃ rem : ι → Nat, (∑ i, rem i) ≤ T ∧ p.mem r ≤ T - ∑ i, rem i ∧ ∀ i, Pending r (T - ∑ i, rem i) (p.thread i) (rem i)

theorem Bounded.step {r T : Nat} {p : Pool ι Nat Nat α} (h : Bounded r T p) (i : ι) : Bounded r T (p.step i) := by
  obtain ⟨rem, h0, h1, h2⟩ := h
  unfold Pool.step
  rcases h2 i with hi | ⟨l, w, k, hi, hk, hw⟩
  · generalize ht : p.thread i = t at hi
    generalize hri : rem i = ri at hi
    have upd : ∀ (t' : Tr Nat Nat α) (m' : Nat), m' ≤ rem i → Pending r (T - ∑ j, Function.update rem i m' j) t' m' →
        ∀ mem : Nat → Nat, mem r ≤ T - ∑ j, Function.update rem i m' j →
        Bounded r T ⟨Function.update p.thread i t', mem⟩ := by
      intro t' m' hm hp mem hmem
      have hs := sum_update rem i m'
      refine ⟨Function.update rem i m', by omega, hmem, fun j => ?_⟩
      by_cases hj : j = i
      · subst hj; simpa using hp
      · simp only [Function.update_of_ne hj]
        exact (h2 j).mono (by omega)
    cases hi with
    | ret a => exact ⟨rem, h0, h1, h2⟩
    | @inc k m hk =>
      have hs := sum_update rem i m
      refine upd _ m (by omega) (.inr ⟨r, _, k, rfl, hk, fun _ => ?_⟩) _ ?_ <;> omega
    | @other l k m hl hk =>
      have hs := sum_update rem i (rem i)
      refine upd _ (rem i) le_rfl (.inr ⟨l, _, k, rfl, by rw [hri]; exact hk, fun h => absurd h hl⟩) _ ?_
      omega
    | @reset l k m hk =>
      have hs := sum_update rem i (rem i)
      refine upd _ (rem i) le_rfl (.inl (by rw [hri]; exact hk)) _ ?_
      by_cases hl : r = l
      · subst hl; simp
      · rw [Function.update_of_ne hl]; omega
  · rw [hi]
    refine ⟨rem, h0, ?_, fun j => ?_⟩
    · by_cases hl : l = r
      · subst hl; simpa using hw rfl
      · simpa [Function.update_of_ne (Ne.symm hl)] using h1
    · by_cases hj : j = i
      · subst hj; exact .inl (by simpa using hk)
      · simpa [Function.update_of_ne hj] using h2 j

theorem Bounded.run {r T : Nat} (schedule : List ι) : ∀ {p : Pool ι Nat Nat α}, Bounded r T p → Bounded r T (p.run schedule) := by
  induction schedule with
  | nil => exact fun h => h
  | cons i is ih => exact fun h => ih (h.step i)

theorem tree_incs (h : Heap K) (fuel r : Nat) (p : Client K α) : Incs r (p.tree h fuel) (p.products h fuel r) := by
  induction p with
  | ret a => exact .ret a
  | mul s x k ih =>
    obtain ⟨v, rs, h1, h2⟩ := run_same h fuel s x
    have e : (run h fuel s x (List.replicate (r + 1) 0)).2[r]?.getD 0 = rs.count r := by
      rw [h2, bumps_get]; simp
    have e1 : (run h fuel s x []).1 = v := by rw [h2]
    simp only [Client.products, e, e1]
    exact h1.incs r (ih v)
  | reset s k ih => exact .reset ih

end
end Verif.Threads
