import Verif.Tools.Random

/-!
# C82: the checks and the random numbers of the caller
-/

namespace Verif.Tools
open Classical Matrix

variable (G : Generator)

/-- **Specification.** The state after `k` more draws. -/
def Generator.after : Nat → G.State → G.State
  | 0, s => s
  | k + 1, s => Generator.after k (G.next s).2

/-- **Specification.** The `k`-th number drawn from now on, counted from 0. -/
def Generator.number (s : G.State) (k : Nat) : ℝ := (G.next (G.after k s)).1

/-- **Specification.** The `j`-th of successive vectors of `n` numbers. -/
def Generator.vector (n : Nat) (s : G.State) (j : Nat) : Fin n → ℝ := fun i => G.number s (j * n + i)

theorem after_add (k l : Nat) (s : G.State) : G.after (k + l) s = G.after l (G.after k s) := by
  induction k generalizing s with
  | zero => simp [Generator.after]
  | succ k ih => rw [Nat.succ_add]; exact ih _

theorem draws_eq (n : Nat) (s : G.State) : G.draws n s = ((List.range n).map (G.number s), G.after n s) := by
  induction n generalizing s with
  | zero => rfl
  | succ n ih =>
    have e : ∀ k, G.number (G.next s).2 k = G.number s (k + 1) := fun k => rfl
    simp only [Generator.draws, ih, List.range_succ_eq_map, List.map_cons, List.map_map]
    refine Prod.ext ?_ rfl
    simp only [List.cons.injEq]
    exact ⟨rfl, rfl⟩

theorem array_eq (n : Nat) (s : G.State) : G.array n s = (G.vector n s 0, G.after n s) := by
  unfold Generator.array
  rw [draws_eq]
  refine Prod.ext ?_ rfl
  funext i
  simp [Generator.vector, i.2]

theorem vector_after (n : Nat) (s : G.State) (j : Nat) : G.vector n (G.after n s) j = G.vector n s (j + 1) := by
  funext i
  unfold Generator.vector Generator.number
  rw [← after_add]
  congr 3
  ring

theorem symmetricLoop_shift {n : Nat} (A : Matrix (Fin n) (Fin n) ℂ) (eps eps3 : ℝ) (s : G.State) (k i : Nat) :
    symmetricLoop A eps eps3 (G.vector n (G.after n s)) k i = symmetricLoop A eps eps3 (G.vector n s) k (i + 1) := by
  induction k generalizing i with
  | zero => rfl
  | succ k ih => simp only [symmetricLoop, vector_after, ih]

theorem definiteLoop_shift {n : Nat} (A : Matrix (Fin n) (Fin n) ℂ) (e : ℝ) (semi : Bool) (s : G.State) (k i : Nat) :
    definiteLoop A e semi (G.vector n (G.after n s)) k i = definiteLoop A e semi (G.vector n s) k (i + 1) := by
  induction k generalizing i with
  | zero => rfl
  | succ k ih => simp only [definiteLoop, vector_after, ih]

theorem symmetricRun_eq {n : Nat} (A : Matrix (Fin n) (Fin n) ℂ) (eps eps3 : ℝ) (k : Nat) (s : G.State) :
    ∃ j ≤ k, symmetricRun G A eps eps3 k s = (symmetricLoop A eps eps3 (G.vector n s) k 0, G.after (j * n) s, 2 * j) ∧
      (symmetricLoop A eps eps3 (G.vector n s) k 0 = true → j = k) := by
  induction k generalizing s with
  | zero => exact ⟨0, le_rfl, by simp [symmetricRun, symmetricLoop, Generator.after], fun _ => rfl⟩
  | succ k ih =>
    simp only [symmetricRun, symmetricLoop, array_eq]
    by_cases h : asymmetryFound A eps eps3 (G.vector n s 0)
    · refine ⟨1, by omega, ?_, ?_⟩
      · simp [h]
      · simp [h]
    · obtain ⟨j, hj, e, ht⟩ := ih (G.after n s)
      rw [symmetricLoop_shift] at e ht
      refine ⟨j + 1, by omega, ?_, ?_⟩
      · simp only [h, if_false, e]
        rw [← after_add, show n + j * n = (j + 1) * n by ring]
        rfl
      · simp only [h, if_false]
        intro hh; rw [ht hh]

theorem definiteRun_eq {n : Nat} (A : Matrix (Fin n) (Fin n) ℂ) (e : ℝ) (semi : Bool) (k : Nat) (s : G.State) :
    ∃ j ≤ k, definiteRun G A e semi k s = (definiteLoop A e semi (G.vector n s) k 0, G.after (j * n) s, j) ∧
      (definiteLoop A e semi (G.vector n s) k 0 = true → j = k) := by
  induction k generalizing s with
  | zero => exact ⟨0, le_rfl, by simp [definiteRun, definiteLoop, Generator.after], fun _ => rfl⟩
  | succ k ih =>
    simp only [definiteRun, definiteLoop, array_eq]
    by_cases h : negativeFound A e semi (G.vector n s 0)
    · exact ⟨1, by omega, by simp [h], by simp [h]⟩
    · obtain ⟨j, hj, e1, ht⟩ := ih (G.after n s)
      rw [definiteLoop_shift] at e1 ht
      refine ⟨j + 1, by omega, ?_, ?_⟩
      · simp only [h, if_false, e1]
        rw [← after_add, show n + j * n = (j + 1) * n by ring]
      · simp only [h, if_false]
        intro hh; rw [ht hh]

/-- **C82 (`check_symmetric`).** For every generator, state, square operator and number of repetitions: the verdict is that of `Tools/Checks`
on the vectors drawn after `np.random.seed(1)`, so it does not depend on the state of the generator or on earlier calls; there are two
products for each vector drawn, and `repeats` vectors if the verdict is True; and afterwards the generator is in a state that does
not depend on its state before. -/
theorem C82_symmetric {n : Nat} (A : Matrix (Fin n) (Fin n) ℂ) (repeats : Nat) (eps eps3 : ℝ) (s : G.State) :
    ∃ j ≤ repeats, checkSymmetricRun G A repeats eps eps3 s =
        (checkSymmetric A repeats eps eps3 (G.vector n (G.seed 1)), G.after (j * n) (G.seed 1), 2 * j) ∧
      (checkSymmetric A repeats eps eps3 (G.vector n (G.seed 1)) = true → j = repeats) := by
  rw [checkSymmetric_square]
  obtain ⟨j, h1, h2, h3⟩ := symmetricRun_eq G A eps eps3 repeats (G.seed 1)
  refine ⟨j, h1, ?_, h3⟩
  rw [← h2]
  unfold checkSymmetricRun
  rw [dif_pos rfl]
  rfl

/-- **C82 (`check_positive_definite`).** For every generator, state, square operator and number of repetitions: the verdict is that of
`Tools/Checks` on the next vectors of the caller's stream; there is one product for each vector drawn, and `repeats` vectors if
the verdict is True; and the caller's stream goes on after these vectors. -/
theorem C82_definite {n : Nat} (A : Matrix (Fin n) (Fin n) ℂ) (repeats : Nat) (semi : Bool) (e : ℝ) (s : G.State) :
    ∃ j ≤ repeats, checkDefiniteRun G A repeats semi e s =
        (checkPositiveDefinite A repeats semi e (G.vector n s), G.after (j * n) s, j) ∧
      (checkPositiveDefinite A repeats semi e (G.vector n s) = true → j = repeats) := by
  rw [checkPositiveDefinite_square]
  obtain ⟨j, h1, h2, h3⟩ := definiteRun_eq G A e semi repeats s
  refine ⟨j, h1, ?_, h3⟩
  rw [← h2]
  unfold checkDefiniteRun
  rw [dif_pos rfl]
  rfl

/-- **C82.** Operators that are not square are rejected without a product, and the generator is left alone. -/
theorem C82_not_square {m n : Nat} (h : m ≠ n) (A : Matrix (Fin m) (Fin n) ℂ) (repeats : Nat) (semi : Bool) (eps eps3 e : ℝ) (s : G.State) :
    checkSymmetricRun G A repeats eps eps3 s = (false, s, 0) ∧ checkDefiniteRun G A repeats semi e s = (false, s, 0) := by
  simp [checkSymmetricRun, checkDefiniteRun, h]

/-- **Specification.** The caller's stream of random numbers goes on: after the command the generator is where it was before, up to a number
of draws. -/
def KeepsStream (eps eps3 e : ℝ) (c : Cmd) : Prop := ∀ s : G.State, ∃ k, (c.run G eps eps3 e s).2 = G.after k s

/-- **C82 (partial).** Drawing, `check_positive_definite`, and `check_symmetric` on an operator that is not square keep the caller's stream.
Missing, because the code violates it: `check_symmetric` on square operators (`C82_stream_lost`). -/
theorem C82_keeps_stream_partial (eps eps3 e : ℝ) :
    KeepsStream G eps eps3 e .draw ∧ (∀ m n A repeats semi, KeepsStream G eps eps3 e (.definite m n A repeats semi)) ∧
    ∀ m n A repeats, m ≠ n → KeepsStream G eps eps3 e (.symmetric m n A repeats) := by
  refine ⟨fun s => ⟨1, rfl⟩, fun m n A repeats semi s => ?_, fun m n A repeats h s => ⟨0, ?_⟩⟩
  · by_cases h : m = n
    · subst h
      obtain ⟨j, -, h2, -⟩ := C82_definite G A repeats semi e s
      exact ⟨j * m, by simp only [Cmd.run, h2]⟩
    · exact ⟨0, by simp only [Cmd.run, (C82_not_square G h A repeats semi eps eps3 e s).2]; rfl⟩
  · simp only [Cmd.run, (C82_not_square G h A repeats false eps eps3 e s).1]; rfl

/-- **C82 is violated by `check_symmetric`.** For every generator, square operator and number of repetitions, whatever the client did before
and whatever seed they chose: what the client sees from the call on is the same.  In particular a client who calls
`check_symmetric` before every experiment draws the same "random" numbers in all experiments. -/
theorem C82_stream_lost {n : Nat} (A : Matrix (Fin n) (Fin n) ℂ) (repeats : Nat) (eps eps3 e : ℝ) (cs : List Cmd) (s s' : G.State) :
    runAll G eps eps3 e (.symmetric n n A repeats :: cs) s = runAll G eps eps3 e (.symmetric n n A repeats :: cs) s' := by
  have : (Cmd.symmetric n n A repeats).run G eps eps3 e s = (Cmd.symmetric n n A repeats).run G eps eps3 e s' := by
    simp [Cmd.run, checkSymmetricRun]
  simp only [runAll, this]

/-- a generator that counts: the state is the next number -/
def counting : Generator := ⟨Nat, fun k => k, fun s => ((s : ℝ), s + 1)⟩

/-- **C82 is violated**, a concrete case: the stream of the caller is not continued. -/
theorem C82_stream_violated : ∃ (G : Generator) (A : Matrix (Fin 1) (Fin 1) ℂ), ¬ KeepsStream G 0 0 0 (.symmetric 1 1 A 10) := by
  refine ⟨counting, 1, fun h => ?_⟩
  obtain ⟨k, hk⟩ := h (100 : Nat)
  obtain ⟨j, hj, h2, -⟩ := C82_symmetric counting (1 : Matrix (Fin 1) (Fin 1) ℂ) 10 0 0 (100 : Nat)
  simp only [Cmd.run, h2] at hk
  have ha : ∀ k (s : Nat), counting.after k s = s + k := by
    intro k
    induction k with
    | zero => intro s; rfl
    | succ k ih => intro s; exact (ih (s + 1)).trans (Nat.succ_add_eq_add_succ s k)
  have e1 := ha (j * 1) (1 : Nat)
  have e2 := ha k (100 : Nat)
  have : (1 + j * 1 : Nat) = 100 + k := e1.symm.trans (hk.trans e2)
  omega

/-- **C82.** After a `check_symmetric` that accepts, `check_positive_definite` (on an operator of any order) uses the same vectors in every
run of the program: its verdict does not depend on the state before either. -/
theorem C82_reproducible {n m : Nat} (A : Matrix (Fin n) (Fin n) ℂ) (B : Matrix (Fin m) (Fin m) ℂ) (repeats repeats' : Nat) (semi : Bool)
    (eps eps3 e : ℝ) (s : G.State) (h : checkSymmetric A repeats eps eps3 (G.vector n (G.seed 1)) = true) :
    (runAll G eps eps3 e [.symmetric n n A repeats, .definite m m B repeats' semi] s).1 =
      [.verdict true, .verdict (checkPositiveDefinite B repeats' semi e (fun j i => G.number (G.seed 1) (repeats * n + (j * m + i))))] := by
  obtain ⟨j, -, h2, h3⟩ := C82_symmetric G A repeats eps eps3 s
  obtain rfl := h3 h
  obtain ⟨l, -, h4, -⟩ := C82_definite G B repeats' semi e (G.after (j * n) (G.seed 1))
  have e1 : G.vector m (G.after (j * n) (G.seed 1)) = fun k (i : Fin m) => G.number (G.seed 1) (j * n + (k * m + i)) := by
    funext k i
    unfold Generator.vector Generator.number
    rw [← after_add]
  rw [e1] at h4
  simp [runAll, Cmd.run, h2, h4, h]

/-- the hypothesis of the last theorem is met by every real symmetric matrix -/
example (s : counting.State) : (runAll counting 0 0 0 [.symmetric 2 2 (ofReal !![2, 1; 1, 2]) 10, .definite 2 2 (ofReal !![2, 1; 1, 2]) 10 false] s).1 =
      [.verdict true, .verdict (checkPositiveDefinite (ofReal !![2, 1; 1, 2]) 10 false 0
        (fun j i => counting.number (counting.seed 1) (10 * 2 + (j * 2 + i))))] :=
  C82_reproducible counting _ _ 10 10 false 0 0 0 s
    ((C44_check_symmetric_partial 10 0 0 le_rfl le_rfl).2.1 2 !![2, 1; 1, 2] _ (by ext i j; fin_cases i <;> fin_cases j <;> rfl))

end Verif.Tools
