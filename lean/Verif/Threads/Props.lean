import Verif.Threads.LinopMath
import Verif.Threads.LbfgsMath
import Verif.Linop.Props
import Verif.Linop.Examples
import Verif.Solver.CGExamples

/-!
# C74: operators shared by threads

`Pool.run` (`Verif.Threads.Pool`) is the specification of a concurrent execution: an arbitrary schedule of the accesses of all
threads to shared memory.
-/

namespace Verif.Threads
open Linop

section
variable {K : Type} [CommRing K] [StarRing K] [DTypes K] {α : Type}

/-- The model with threads refines the sequential model: a program that runs alone has the result and leaves the counters of
C01-C12. -/
theorem C74_alone (h : Heap K) (fuel : Nat) (p : Client K α) (c : Cnt) :
    ((p.tree h fuel).exec (memOf c)).1 = (p.alone h fuel c).1 ∧
    ∀ r < c.length, (p.alone h fuel c).2[r]? = some (((p.tree h fuel).exec (memOf c)).2 r) :=
  tree_exec h fuel p c _ fun r hr => by simp [memOf, hr]

/-- **C74.** Any number of threads multiply with the same operators (and reset counters), each in an order that depends on its
results.  Under every schedule, a thread that has stopped has the result it has alone, and a thread that gets its turn often
enough stops. -/
theorem C74_results {ι : Type} [DecidableEq ι] (h : Heap K) (fuel : Nat) (program : ι → Client K α) (counters : Nat → Nat) (i : ι)
    (c : Cnt) :
    let pool : Pool ι Nat Nat α := { thread := fun i => (program i).tree h fuel, mem := counters }
    (∀ schedule a, (pool.run schedule).thread i = .ret a → a = ((program i).alone h fuel c).1) ∧
    ∃ N, ∀ schedule, N ≤ schedule.count i → ∃ a, (pool.run schedule).thread i = .ret a := by
  intro pool
  obtain ⟨d, hd⟩ := tree_blind h fuel (program i) c
  have hd' : Blind (pool.thread i) _ d := hd
  refine ⟨fun schedule a ha => (hd'.run schedule).stopped ha, d, fun schedule hs => ?_⟩
  have h1 := hd'.run schedule
  rw [Nat.sub_eq_zero_of_le hs] at h1
  exact ⟨_, h1.done⟩

/-- **C74.** In particular, with the operators of any client program of the operator layer: a product in a thread, whatever the other
threads do, is the product with the matrix. -/
theorem C74_matrix [DecidableEq K] {env : List Nat} {h : Heap K} {mats : List (Mat K)} (R : ReachTotal env h mats) {j r : Nat}
    {A : Mat K} (hr : env[j]? = some r) (hA : mats[j]? = some A) (fuel : Nat) (hf : h.length ≤ fuel) (x : Arr K) (hx : x.Typed)
    (hn : x.data.length = A.cols) {ι : Type} [DecidableEq ι] (program : ι → Client K (Except Err (Arr K))) (i : ι)
    (hi : program i = .mul r x .ret) (counters : Nat → Nat) (schedule : List ι) (a : Except Err (Arr K))
    (ha : (Pool.run { thread := fun i => (program i).tree h fuel, mem := counters } schedule).thread i = .ret a) :
    a = .ok ⟨A.kind.join x.kind, A.app x.data⟩ := by
  rw [(C74_results h fuel program counters i []).1 schedule a ha, hi]
  obtain ⟨cs, h1, h2, h3, h4⟩ := R
  have := C01_operator_algebra_total cs h1 h2
  rw [h3, h4] at this
  obtain ⟨c', hc⟩ := (this.2 j r A hr hA).2 fuel x [] hf hx hn
  simp [Client.alone, hc]

/-- **C74.** Under every schedule and at any moment, the counter of an operator shows at most the number of products made with it in
all threads together. -/
theorem C74_counter_partial {ι : Type} [DecidableEq ι] [Fintype ι] (h : Heap K) (fuel : Nat) (program : ι → Client K α)
    (counters : Nat → Nat) (schedule : List ι) (r : Nat) :
    (Pool.run { thread := fun i => (program i).tree h fuel, mem := counters } schedule).mem r ≤
      counters r + ∑ i, (program i).products h fuel r := by
  obtain ⟨rem, -, h2, -⟩ := Bounded.run (r := r) (T := counters r + ∑ i, (program i).products h fuel r) schedule
    (p := { thread := fun i => (program i).tree h fuel, mem := counters })
    ⟨fun i => (program i).products h fuel r, Nat.le_add_left _ _, by simp, fun i => .inl (tree_incs h fuel r (program i))⟩
  omega

/-- **C74 is violated by the counters (finding)**: `_nMatvec += 1` is not atomic.  Two threads that multiply once each with any
operator defined by a function of the user can leave the counter one higher than it was, not two. -/
theorem C74_counter_violated (o : Obj K) (f : Arr K → Except Err (Arr K)) (hc : o.code = .prim f) (n : Nat) (x : Arr K)
    (hx : x.data.length = o.nargin) (fuel : Nat) :
    let program : Bool → Client K Unit := fun _ => .mul 0 x fun _ => .ret ()
    let pool : Pool Bool Nat Nat Unit := { thread := fun i => (program i).tree [o] (fuel + 1), mem := fun _ => n }
    (∀ i, (program i).products [o] (fuel + 1) 0 = 1) ∧
    ∃ schedule, (∀ i, (pool.run schedule).thread i = .ret ()) ∧ (pool.run schedule).mem 0 = n + 1 := by
  have ht : ∀ k : Except Err (Arr K) → Client K Unit, (∀ y, k y = .ret ()) →
      Client.tree [o] (fuel + 1) (.mul 0 x k) = .load 0 fun n => .store 0 (n + 1) (.ret ()) := by
    intro k hk
    simp only [Client.tree, runT, List.getElem?_cons_zero, bumpT, TrE.bind, Tr.bind, hk, hx, ne_eq, not_true_eq_false, if_false]
    congr 1
    funext m
    congr 1
    rw [hc, evalCodeT, liftT]
    cases f x with
    | error e => rfl
    | ok y =>
      simp only [Tr.bind]
      split <;> rfl
  intro program pool
  constructor
  · intro i
    simp only [program, Client.products, Nat.add_zero, run, List.getElem?_cons_zero]
    change (Act.bind (bump 0) _ _).2[0]?.getD 0 = 1
    simp only [Act.bind, bump, hx, ne_eq, not_true_eq_false, if_false, List.replicate]
    change (Act.bind (evalCode [o] (run [o] fuel) o.code x) _ _).2[0]?.getD 0 = 1
    rw [hc]
    simp only [Act.bind, evalCode, liftE]
    cases f x with
    | error e => rfl
    | ok y =>
      simp only
      split <;> rfl
  · refine ⟨[false, true, false, true], ?_, ?_⟩ <;>
      simp [pool, program, Pool.run, Pool.step, ht, Function.update]

end

section lbfgs
open Verif.Solver Scalar Vect Verif.Lbfgs
variable {S V : Type} [Scalar S] [Vect S V] {ι : Type} [DecidableEq ι]

/-- **C74 (forward and compact L-BFGS operators).** Any number of threads multiply with the same operator at the same time: under
every schedule, in any arithmetic, each gets the result it gets alone, and stops if it gets its turn often enough. -/
theorem C74_lbfgs_compact (solve : LinSolve S) (st : LB S V) (v : ι → V) (i : ι) :
    let pool : Pool ι Loc S (Option V) := { thread := fun i => cmpT solve st (v i), mem := lbMem st }
    (∀ schedule a, (pool.run schedule).thread i = .ret a → a = (st.cmpMatvec solve (v i)).1) ∧
    ∃ N, ∀ schedule, N ≤ schedule.count i → ∃ a, (pool.run schedule).thread i = .ret a := by
  intro pool
  obtain ⟨g, hg⟩ := cmp_safe solve st
  choose d hd1 hd2 using hg
  have h0 : Guarded (fun m : Loc → S => m .gamma = g) (fun i => (st.cmpMatvec solve (v i)).1) (fun i => d (v i)) pool := by
    refine ⟨fun i => hd1 (v i), ?_⟩
    by_cases h : st.gamma = g
    · exact .inl h
    · exact .inr fun i => (hd2 (v i)).resolve_left h
  refine ⟨fun schedule a ha => ((h0.run schedule).1 i).stopped ha, d (v i), fun schedule hs => ?_⟩
  have h1 : Safe _ _ _ (d (v i) - schedule.count i) := (h0.run schedule).1 i
  rw [Nat.sub_eq_zero_of_le hs] at h1
  exact ⟨_, h1.done⟩

theorem C74_lbfgs_forward (st : LB S V) (v : ι → V) (i : ι) (schedule : List ι) :
    (Pool.run { thread := fun i => fwdT st (v i), mem := lbMem st } schedule).thread i = .ret (st.fwdMatvec (v i)) :=
  run_stopped i schedule _ rfl

/-- **C74 (inverse L-BFGS operators), what is true.** After any history, a product that is not interrupted by other threads (for
instance because the caller uses a lock) gives the result it gives alone, whatever other threads did before and do afterwards. -/
theorem C74_lbfgs_inverse_partial (solve : LinSolve S) (npairs : Nat) (hn : 0 < npairs) (scaling : Bool) (junk : Junk S V)
    (cmds : List (Cmd S V)) (v : ι → V) (i : ι) (before : List ι) (hi : i ∉ before) :
    let st := (LB.init npairs scaling junk).run .inverse solve cmds
    let pool : Pool ι Loc S V := { thread := fun i => invT st (v i), mem := lbMem st }
    ∃ N, ∀ n, N ≤ n → ∀ after,
      (pool.run (before ++ List.replicate n i ++ after)).thread i = .ret (st.invMatvec (v i)).1 := by
  intro st pool
  have hsplit : ∀ s t : List ι, pool.run (s ++ t) = (pool.run s).run t := fun s t => List.foldl_append
  obtain ⟨N, hN⟩ := replicate_stops i _ (pool.run before) rfl
  refine ⟨N, fun n hn' after => ?_⟩
  obtain ⟨a, ha⟩ := hN n hn'
  have hval : a = (st.invMatvec (v i)).1 := by
    rw [run_replicate i n _ ha, run_absent i before hi pool, exec_inv]
    obtain ⟨h1, -, -⟩ := rep_run .inverse solve cmds (LB.init npairs scaling junk) []
      (by rw [List.take_nil, List.map_nil]; exact rep_init npairs scaling junk hn)
    have h2 := h1.invMatvec (v i)
    have h3 : Rep { st with alpha := fun k => (pool.run before).mem (.alpha k) } _ := ⟨h1.insert_lt, h1.len, h1.slots, h1.gamma, h1.thr⟩
    exact (h3.invMatvec (v i)).trans h2.symm
  rw [← hval, hsplit, hsplit]
  exact run_stopped i after _ ha

/-- **C74 is violated by the inverse L-BFGS operator (finding)**: the multipliers of the two loops are kept in an attribute of the
operator.  After storing the pair `s = y = 1` in one variable, the product with 1 is 1; if another thread begins the product with
2 in the meantime, it is 2. -/
theorem C74_lbfgs_inverse_violated (solve : LinSolve Fl) (junk : Junk Fl (Vec ℝ)) :
    let st := (LB.init 1 false junk).run .inverse solve [.store (.fin 1) (.fin 1)]
    let v : Bool → Vec ℝ := fun i => if i then .fin 2 else .fin 1
    let pool : Pool Bool Loc Fl (Vec ℝ) := { thread := fun i => invT st (v i), mem := lbMem st }
    (st.invMatvec (v false)).1 = .fin 1 ∧
    ∃ schedule, (pool.run schedule).thread false = .ret (.fin 2) := by
  intro st v pool
  have d1 : ∀ a : ℝ, dot (S := Fl) (Vec.fin (1 : ℝ)) (Vec.fin a) = .fin a := by intro a; simp
  have d2 : ∀ a : ℝ, (Fl.fin a) / Fl.fin 1 = .fin a := by intro a; rw [Fl.fin_div a one_ne_zero, div_one]
  have hst : st =
      { npairs := 1, scaling := false, insert := 0, threshold := lit (1 / 10 ^ 20),
        s := Function.update junk.s 0 (.fin 1), y := Function.update junk.y 0 (.fin 1), alpha := junk.alpha,
        ys := Function.update (fun _ => none) 0 (some (.fin 1)), gamma := lit 1 } := by
    have h : le (dot (Vec.fin (1 : ℝ)) (Vec.fin (1 : ℝ))) (lit (1 / 10 ^ 20) : Fl) = false := by
      rw [d1, Fl.lit_eq, ← Bool.not_eq_true, Fl.fin_le]; norm_num
    change (LB.init 1 false junk).store (.fin 1) (.fin 1) = _
    unfold LB.store
    rw [if_neg (by rw [Bool.not_eq_true]; exact h), d1]
    have hi : (LB.init 1 false junk).idx (((LB.init 1 false junk).insert : Int) + 1) = 0 := by simp [LB.idx, LB.init]
    simp only [hi]
    rfl
  have ht : ∀ a : ℝ, invT st (.fin a) = .store (.alpha 0) (.fin a) (.load (.alpha 0) fun c => .load (.alpha 0) fun b =>
      .ret (Vec.fin a - smul c (Vec.fin 1) +
        smul (b - dot (Vec.fin (1 : ℝ)) (Vec.fin a - smul c (Vec.fin (1 : ℝ))) / Fl.fin 1) (Vec.fin (1 : ℝ)))) := by
    intro a
    rw [hst]
    change Tr.store (Loc.alpha 0) (dot (Vec.fin (1 : ℝ)) (Vec.fin a) / Fl.fin 1) _ = _
    rw [d1, d2]
    rfl
  constructor
  · have h := exec_inv st (v false) (lbMem st)
    change _ = (LB.invMatvec st _).1 at h
    rw [← h]
    change ((invT st (.fin 1)).exec _).1 = _
    rw [ht]
    simp [Tr.exec, Function.update, d2]
  · refine ⟨[false, false, true, false], ?_⟩
    simp [pool, v, Pool.run, Pool.step, ht, Function.update, d2]

end lbfgs

/-! ## Instances -/

section examples
open Linop.Examples

/-- `C74_matrix` for the demonstration program: two threads multiply with the sum `A + A.H` of the product `A = a22 * diag(d2)`
and its adjoint -/
example (counters : Nat → Nat) (schedule : List Bool) (x : Bool → Arr G) (hx : ∀ i, (x i).Typed) (hn : ∀ i, (x i).data.length = 2)
    (i : Bool) (a : Except Err (Arr G))
    (ha : (Pool.run { thread := fun i => ((.mul (demoState.1.getD 4 0) (x i) .ret : Client G _)).tree demoState.2 demoState.2.length,
                      mem := counters } schedule).thread i = .ret a) :
    a = .ok ⟨.complex, (demoMats.getD 4 shiftM).app (x i).data⟩ := by
  have hk : ∀ k : DKind, DKind.join .complex k = .complex := by intro k; cases k <;> rfl
  rw [C74_matrix (j := 4) demo_reachTotal rfl rfl demoState.2.length le_rfl (x i) (hx i) (hn i)
    (fun i => .mul (demoState.1.getD 4 0) (x i) .ret) i rfl counters schedule a ha]
  exact congrArg (fun k => Except.ok (Arr.mk k _)) (hk _)

/-- the hypotheses of `C74_counter_violated` are met by every operator that is defined by a function -/
example (o : Obj G) (f : Arr G → Except Err (Arr G)) (hc : o.code = .prim f) (x : Arr G) (hx : x.data.length = o.nargin) (n : Nat) :
    ∃ schedule, (Pool.run { thread := fun _ : Bool => (.mul 0 x fun _ => .ret () : Client G Unit).tree [o] 1,
                            mem := fun _ => n } schedule).mem 0 = n + 1 := by
  obtain ⟨-, s, -, h⟩ := C74_counter_violated o f hc n x hx 0
  exact ⟨s, h⟩

end examples
end Verif.Threads
