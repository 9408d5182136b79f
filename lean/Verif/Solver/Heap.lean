import Verif.Solver.Loop

/-!
# Arrays with identity

The models of the solvers treat vectors as values.  In the code they are NumPy arrays, many statements update an array in
place, and several variables can refer to the same array.  Here an array is an address in a heap; `Verif.Solver.HeapCG` and
the modules after it model the solvers statement by statement on the heap.

An operator or a preconditioner does not modify its argument; it returns either a new array or the argument itself.
(The operators of the library return new arrays, even `IdentityOperator`, because `__mul_vector`, `linop.py:356-360`, ends
with `astype`, which copies; but the solvers accept any object with a product, and the least-squares solvers any function as
preconditioner, such as `lambda v: v`.)  Operators that keep and return an array of their own are not modelled.
-/

namespace Verif.Solver

/-- the arrays that exist: those with an address less than `next`.  `past` is bookkeeping: the contents of the arrays after every
statement executed so far that writes to an array or makes a new one, the latest first. -/
structure Heap (V : Type) where
  mem : Nat → V
  next : Nat
  past : List (Nat → V)

/-- a piece of code that works on the heap -/
def HeapM (V α : Type) := Heap V → α × Heap V

variable {V α β : Type}

instance : Monad (HeapM V) where
  pure a := fun h => (a, h)
  bind m f := fun h => f (m h).1 (m h).2

/-- the contents of an array -/
def rd (l : Nat) : HeapM V V := fun h => (h.mem l, h)

/-- overwrite an array: `l[:] = v`, `l += ..`, `l *= ..` -/
def wr (l : Nat) (v : V) : HeapM V Unit := fun h =>
  ((), { h with mem := fun k => if k = l then v else h.mem k, past := (fun k => if k = l then v else h.mem k) :: h.past })

/-- a new array: the result of an expression, `copy`, `astype`, `zeros` -/
def new (v : V) : HeapM V Nat := fun h =>
  (h.next, { mem := fun k => if k = h.next then v else h.mem k, next := h.next + 1,
             past := (fun k => if k = h.next then v else h.mem k) :: h.past })

/-- an operator: what it computes, and when it returns its argument itself -/
structure HOp (V : Type) where
  fn : V → V
  same : Heap V → Nat → Bool
  sound : ∀ h l, same h l = true → fn (h.mem l) = h.mem l

/-- `op * a` -/
def call (f : HOp V) (l : Nat) : HeapM V Nat := fun h => if f.same h l then (l, h) else new (f.fn (h.mem l)) h

/-- `precon * a`, or `a` if there is no preconditioner -/
def callPrecon (o : Option (HOp V)) (l : Nat) : HeapM V Nat :=
  match o with
  | some f => call f l
  | none => pure l

/-- `if flag: lst.append(a.copy())` -/
def appendCopy (flag : Bool) (lst : List Nat) (l : Nat) : HeapM V (List Nat) :=
  if flag then do
    let v ← rd l
    let c ← new v
    return lst ++ [c]
  else return lst

theorem HeapM.pure_apply (a : α) (h : Heap V) : (pure a : HeapM V α) h = (a, h) := rfl
theorem HeapM.bind_apply (m : HeapM V α) (f : α → HeapM V β) (h : Heap V) : (m >>= f) h = f (m h).1 (m h).2 := rfl
theorem HeapM.ite_apply (c : Prop) [Decidable c] (m m' : HeapM V α) (h : Heap V) :
    (if c then m else m') h = if c then m h else m' h := by split <;> rfl
theorem HeapM.pure_bind (a : α) (f : α → HeapM V β) : ((pure a : HeapM V α) >>= f) = f a := rfl

/-- the heap after `wr` -/
def Heap.upd (h : Heap V) (l : Nat) (v : V) : Heap V :=
  { h with mem := fun k => if k = l then v else h.mem k, past := (fun k => if k = l then v else h.mem k) :: h.past }

/-- the heap after `new` -/
def Heap.alloc (h : Heap V) (v : V) : Heap V :=
  { mem := fun k => if k = h.next then v else h.mem k, next := h.next + 1,
    past := (fun k => if k = h.next then v else h.mem k) :: h.past }

theorem bind_rd (l : Nat) (f : V → HeapM V β) (h : Heap V) : (rd l >>= f) h = f (h.mem l) h := rfl
theorem bind_wr (l : Nat) (v : V) (f : Unit → HeapM V β) (h : Heap V) : (wr l v >>= f) h = f () (h.upd l v) := rfl
theorem bind_new (v : V) (f : Nat → HeapM V β) (h : Heap V) : (new v >>= f) h = f h.next (h.alloc v) := rfl
theorem bind_call (op : HOp V) (l : Nat) (f : Nat → HeapM V β) (h : Heap V) :
    (call op l >>= f) h = f (call op l h).1 (call op l h).2 := rfl
theorem bind_callPrecon (o : Option (HOp V)) (l : Nat) (f : Nat → HeapM V β) (h : Heap V) :
    (callPrecon o l >>= f) h = f (callPrecon o l h).1 (callPrecon o l h).2 := rfl
theorem bind_appendCopy (b : Bool) (lst : List Nat) (l : Nat) (f : List Nat → HeapM V β) (h : Heap V) :
    (appendCopy b lst l >>= f) h = f (appendCopy b lst l h).1 (appendCopy b lst l h).2 := rfl

theorem Heap.mem_upd (h : Heap V) (l : Nat) (v : V) (k : Nat) : (h.upd l v).mem k = if k = l then v else h.mem k := rfl
theorem Heap.next_upd (h : Heap V) (l : Nat) (v : V) : (h.upd l v).next = h.next := rfl
theorem Heap.mem_alloc (h : Heap V) (v : V) (k : Nat) : (h.alloc v).mem k = if k = h.next then v else h.mem k := rfl
theorem Heap.next_alloc (h : Heap V) (v : V) : (h.alloc v).next = h.next + 1 := rfl
theorem Heap.mem_upd_self (h : Heap V) (l : Nat) (v : V) : (h.upd l v).mem l = v := if_pos rfl
theorem Heap.mem_upd_ne (h : Heap V) {l k : Nat} (v : V) (hk : k ≠ l) : (h.upd l v).mem k = h.mem k := if_neg hk
theorem Heap.mem_alloc_self (h : Heap V) (v : V) : (h.alloc v).mem h.next = v := if_pos rfl
theorem Heap.mem_alloc_lt (h : Heap V) {k : Nat} (v : V) (hk : k < h.next) : (h.alloc v).mem k = h.mem k :=
  if_neg (Nat.ne_of_lt hk)

/-- `h'` comes after `h`: the arrays of `h` are still there, with the same contents, and have had these contents all the time -/
structure Heap.Ext (h h' : Heap V) : Prop where
  next : h.next ≤ h'.next
  mem : ∀ k < h.next, h'.mem k = h.mem k
  past : ∀ m ∈ h'.past, m ∈ h.past ∨ ∀ k < h.next, m k = h.mem k

theorem Heap.Ext.refl (h : Heap V) : h.Ext h := ⟨Nat.le_refl _, fun _ _ => rfl, fun _ hm => .inl hm⟩

theorem Heap.Ext.trans {h h' h'' : Heap V} (a : h.Ext h') (b : h'.Ext h'') : h.Ext h'' :=
  ⟨Nat.le_trans a.next b.next, fun k hk => (b.mem k (Nat.lt_of_lt_of_le hk a.next)).trans (a.mem k hk), fun m hm => by
    rcases b.past m hm with h1 | h1
    · exact a.past m h1
    · exact .inr fun k hk => (h1 k (Nat.lt_of_lt_of_le hk a.next)).trans (a.mem k hk)⟩

theorem Heap.ext_alloc (h : Heap V) (v : V) : h.Ext (h.alloc v) :=
  ⟨Nat.le_succ _, fun _ hk => h.mem_alloc_lt v hk, fun m hm => by
    rcases List.mem_cons.1 hm with rfl | hm
    · exact .inr fun k hk => h.mem_alloc_lt v hk
    · exact .inl hm⟩

/-- an update of an array newer than `h` -/
theorem Heap.Ext.upd {h h' : Heap V} (a : h.Ext h') {l : Nat} (hl : h.next ≤ l) (v : V) : h.Ext (h'.upd l v) :=
  have hk' : ∀ k < h.next, (h'.upd l v).mem k = h.mem k := fun k hk => (h'.mem_upd_ne v (by omega)).trans (a.mem k hk)
  ⟨a.next, hk', fun m hm => by
    rcases List.mem_cons.1 hm with rfl | hm
    · exact .inr hk'
    · exact a.past m hm⟩

theorem call_spec (f : HOp V) (l : Nat) (h : Heap V) (hl : l < h.next) :
    (call f l h).2.mem (call f l h).1 = f.fn (h.mem l) ∧ h.Ext (call f l h).2 ∧ (call f l h).1 < (call f l h).2.next ∧
    ((call f l h).1 = l ∨ (call f l h).1 = h.next) := by
  unfold call
  split
  · rename_i hs
    exact ⟨(f.sound h l hs).symm, .refl h, hl, .inl rfl⟩
  · exact ⟨h.mem_alloc_self _, h.ext_alloc _, Nat.lt_succ_self _, .inr rfl⟩

theorem call_fresh (f : HOp V) (l : Nat) (h : Heap V) (hf : f.same h l = false) :
    call f l h = (h.next, h.alloc (f.fn (h.mem l))) := by
  unfold call
  rw [hf]
  rfl

/-- `Option` of operators to `Option` of functions -/
def HOp.fn? (o : Option (HOp V)) : Option (V → V) := o.map HOp.fn

theorem appendCopy_spec (flag : Bool) (lst : List Nat) (l : Nat) (h : Heap V) (hl : ∀ k ∈ lst, k < h.next) :
    (appendCopy flag lst l h).1.map (appendCopy flag lst l h).2.mem = lst.map h.mem ++ (if flag then [h.mem l] else []) ∧
    h.Ext (appendCopy flag lst l h).2 ∧
    ∀ k ∈ (appendCopy flag lst l h).1, k < (appendCopy flag lst l h).2.next ∧ (k ∈ lst ∨ h.next ≤ k) := by
  have hm : ∀ v : V, lst.map (h.alloc v).mem = lst.map h.mem := fun v =>
    List.map_congr_left fun k hk => h.mem_alloc_lt v (hl k hk)
  cases flag
  · exact ⟨by simp [appendCopy, HeapM.pure_apply], .refl h, fun k hk => ⟨hl k hk, .inl hk⟩⟩
  · refine ⟨?_, h.ext_alloc _, ?_⟩
    · simp only [appendCopy, if_true, bind_rd, bind_new, HeapM.pure_apply, List.map_append, hm]
      simp [Heap.mem_alloc_self]
    · intro k hk
      simp only [appendCopy, if_true, bind_rd, bind_new, HeapM.pure_apply, List.mem_append, List.mem_singleton, Heap.next_alloc] at hk ⊢
      rcases hk with hk | rfl
      · exact ⟨Nat.lt_succ_of_lt (hl k hk), .inl hk⟩
      · exact ⟨Nat.lt_succ_self _, .inr (Nat.le_refl _)⟩

end Verif.Solver
