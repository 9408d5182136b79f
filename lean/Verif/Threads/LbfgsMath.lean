import Verif.Threads.Lbfgs
import Verif.Lbfgs.Props

/-!
# Lemmas on products with L-BFGS operators in threads
-/

namespace Verif.Threads
open Verif.Solver Scalar Vect Verif.Lbfgs

section pool
variable {ι L W α : Type} [DecidableEq L] [DecidableEq ι]

/-- a thread that runs without interruption computes what it computes alone -/
theorem run_replicate (i : ι) {a : α} : ∀ (n : Nat) (p : Pool ι L W α), (p.run (List.replicate n i)).thread i = .ret a →
    a = ((p.thread i).exec p.mem).1 := by
  intro n
  induction n with
  | zero => intro p h; simp only [List.replicate_zero, Pool.run, List.foldl_nil] at h; rw [h]; rfl
  | succ n ih =>
    intro p h
    rw [List.replicate_succ] at h
    have h1 := ih (p.step i) h
    rw [h1]
    unfold Pool.step
    cases ht : p.thread i with
    | ret b => simp [ht]
    | load l k => simp [Tr.exec]
    | store l w k => simp [Tr.exec]

/-- a thread that runs without interruption for long enough stops -/
theorem replicate_stops (i : ι) (t : Tr L W α) : ∀ p : Pool ι L W α, p.thread i = t →
    ∃ N, ∀ n, N ≤ n → ∃ a, (p.run (List.replicate n i)).thread i = .ret a := by
  have next : ∀ p : Pool ι L W α, (∃ N, ∀ n, N ≤ n → ∃ a, ((p.step i).run (List.replicate n i)).thread i = .ret a) →
      ∃ N, ∀ n, N ≤ n → ∃ a, (p.run (List.replicate n i)).thread i = .ret a := by
    rintro p ⟨N, h⟩
    refine ⟨N + 1, fun n hn => ?_⟩
    obtain ⟨m, rfl⟩ : ∃ m, n = m + 1 := ⟨n - 1, by omega⟩
    exact h m (by omega)
  induction t with
  | ret a =>
    intro p hp
    refine ⟨0, fun n _ => ⟨a, ?_⟩⟩
    induction n with
    | zero => exact hp
    | succ n ih =>
      have : p.step i = p := by simp [Pool.step, hp]
      change ((p.step i).run (List.replicate n i)).thread i = _
      rw [this]
      exact ih (Nat.zero_le _)
  | load l k ih =>
    intro p hp
    exact next p (ih (p.mem l) _ (by simp [Pool.step, hp]))
  | store l w k ih =>
    intro p hp
    exact next p (ih _ (by simp [Pool.step, hp]))

/-- the other threads leave a thread where it is -/
theorem run_absent (i : ι) (schedule : List ι) (hi : i ∉ schedule) : ∀ p : Pool ι L W α,
    (p.run schedule).thread i = p.thread i := by
  induction schedule with
  | nil => intro p; rfl
  | cons j js ih =>
    intro p
    rw [List.mem_cons, not_or] at hi
    change ((p.step j).run js).thread i = _
    rw [ih hi.2]
    unfold Pool.step
    split <;> simp [Function.update_of_ne hi.1]

/-- a thread that has stopped has stopped -/
theorem run_stopped (i : ι) {a : α} (schedule : List ι) : ∀ p : Pool ι L W α, p.thread i = .ret a →
    (p.run schedule).thread i = .ret a := by
  induction schedule with
  | nil => intro p h; exact h
  | cons j js ih =>
    intro p h
    refine ih (p.step j) ?_
    unfold Pool.step
    by_cases hj : j = i
    · subst hj; rw [h]; exact h
    · split
      · exact h
      · simpa [Function.update_of_ne (Ne.symm hj)] using h
      · simpa [Function.update_of_ne (Ne.symm hj)] using h

end pool

variable {S V : Type} [Scalar S] [Vect S V]

/-- the memory with the array `self.alpha` replaced -/
def withAlpha (m : Loc → S) (a : Nat → S) : Loc → S
  | .alpha k => a k
  | .gamma => m .gamma

theorem withAlpha_update (m : Loc → S) (a : Nat → S) (k : Nat) (w : S) :
    Function.update (withAlpha m a) (.alpha k) w = withAlpha m (Function.update a k w) := by
  funext l
  cases l with
  | gamma => rfl
  | alpha j =>
    by_cases h : j = k
    · subst h; simp [withAlpha]
    · simp [withAlpha, Function.update_of_ne h, Function.update_of_ne (a := Loc.alpha j) (a' := Loc.alpha k) (by simpa using h)]

theorem exec_loop1 (st : LB S V) (is : List Nat) (m : Loc → S) : ∀ (q : V) (a : Nat → S),
    (forT (invStep1T st) is q).exec (withAlpha m a) =
      ((is.foldl (fun p (i : Nat) => invStep1 st p (st.idx ((st.insert : Int) - 1 - i))) (q, a)).1,
       withAlpha m (is.foldl (fun p (i : Nat) => invStep1 st p (st.idx ((st.insert : Int) - 1 - i))) (q, a)).2) := by
  induction is with
  | nil => intro q a; rfl
  | cons i is ih =>
    intro q a
    simp only [forT, exec_bind, List.foldl_cons]
    have : (invStep1T st q i).exec (withAlpha m a) =
        ((invStep1 st (q, a) (st.idx ((st.insert : Int) - 1 - i))).1,
         withAlpha m (invStep1 st (q, a) (st.idx ((st.insert : Int) - 1 - i))).2) := by
      unfold invStep1T invStep1
      simp only
      cases st.ys (st.idx ((st.insert : Int) - 1 - i)) with
      | none => rfl
      | some ysk => simp only [Tr.exec, withAlpha_update]; simp [withAlpha]
    rw [this]
    exact ih _ _

theorem exec_loop2 (st : LB S V) (is : List Nat) (m : Loc → S) (a : Nat → S) (hm : ∀ k, m (.alpha k) = a k) : ∀ r : V,
    ((forT (invStep2T st) is r).exec m).1 =
      is.foldl (fun r (i : Nat) => invStep2 st a r (st.idx ((st.insert : Int) + i))) r := by
  have key : ∀ (r : V) (i : Nat), (invStep2T st r i).exec m = (invStep2 st a r (st.idx ((st.insert : Int) + i)), m) := by
    intro r i
    unfold invStep2T invStep2
    simp only
    cases st.ys (st.idx ((st.insert : Int) + i)) with
    | none => rfl
    | some ysk => simp only [Tr.exec, hm]
  induction is with
  | nil => intro r; rfl
  | cons i is ih =>
    intro r
    simp only [forT, exec_bind, List.foldl_cons, key]
    exact ih _

theorem exec_inv (st : LB S V) (v : V) (m : Loc → S) :
    ((invT st v).exec m).1 = (LB.invMatvec { st with alpha := fun k => m (.alpha k) } v).1 := by
  have hm : m = withAlpha m fun k => m (.alpha k) := by funext l; cases l <;> rfl
  unfold invT
  simp only [exec_bind]
  generalize ha : (fun k => m (.alpha k)) = a at hm ⊢
  rw [hm, exec_loop1]
  unfold LB.invMatvec
  simp only
  have e : ∀ (p : V × (Nat → S)) (i : Nat), invStep1 { st with alpha := a } p
    (LB.idx { st with alpha := a } ((st.insert : Int) - 1 - i)) = invStep1 st p (st.idx ((st.insert : Int) - 1 - i)) := fun _ _ => rfl
  simp only [e]
  generalize (List.range st.npairs).foldl (fun p (i : Nat) => invStep1 st p (st.idx ((st.insert : Int) - 1 - i))) (v, a) = p
  unfold updateGammaT LB.updateGamma
  simp only
  have e2 : ∀ (x : Nat → S), (LB.idx { st with alpha := x } ((st.insert : Int) - 1)) = st.idx ((st.insert : Int) - 1) := fun _ => rfl
  simp only [e2]
  have fin : ∀ (g : S) (r : V) (m' : Loc → S), (∀ k, m' (.alpha k) = p.2 k) →
      ((forT (invStep2T st) (List.range st.npairs) r).exec m').1 =
      (List.range st.npairs).foldl (fun r (i : Nat) => invStep2 { st with alpha := p.2, gamma := g } p.2 r
        (LB.idx { st with alpha := p.2, gamma := g } ((st.insert : Int) + i))) r :=
    fun g r m' hm' => exec_loop2 st _ _ _ hm' _
  by_cases hs : st.scaling = true
  · simp only [hs, if_true]
    cases st.ys (st.idx ((st.insert : Int) - 1)) with
    | none => exact fin st.gamma _ _ fun k => rfl
    | some ysl =>
      simp only [Tr.exec, Function.update_self]
      exact fin (ysl / dot (st.y (st.idx ((st.insert : Int) - 1))) (st.y (st.idx ((st.insert : Int) - 1)))) _ _ fun k => rfl
  · simp only [hs, Bool.false_eq_true, if_false]
    exact fin st.gamma _ _ fun k => rfl

/-! ### The compact product -/

section
variable {Good : (Loc → S) → Prop} {β : Type}

theorem forT_safe {f : β → Nat → Tr Loc S β} {f' : β → Nat → β} (h : ∀ b i, ∃ d, Safe Good (f b i) (f' b i) d) :
    ∀ (is : List Nat) (b : β), ∃ d, Safe Good (forT f is b) (is.foldl f' b) d := by
  intro is
  induction is with
  | nil => intro b; exact ⟨0, .ret b⟩
  | cons i is ih =>
    intro b
    obtain ⟨d, hd⟩ := h b i
    obtain ⟨e, he⟩ := ih (f' b i)
    exact ⟨d + e, hd.bind he⟩

end

theorem cmpInner_none (st : LB S V) (g : S) (pc k kInd : Nat) (p : (Nat → Nat → S) × Nat) (j : Nat)
    (h : st.ys (st.idx ((st.insert : Int) + j)) = none) : cmpInner st g pc k kInd p j = p := by
  unfold cmpInner; simp only [h]

/-- the rest of the compact product, after the scaling -/
def cmpRestT (solve : LinSolve S) (st : LB S V) (v r : V) : Tr Loc S (Option V) :=
  let p1 := (List.range st.npairs).foldl (cmpStep1 st r) (fun _ => lit 0, 0)
  let paircount := p1.2
  let a := ((List.range st.npairs).foldl (cmpStep2 st v paircount) (p1.1, 0)).1
  (forT (cmpStep3T st paircount) (List.range st.npairs) (fun _ _ => lit 0, 0)).bind fun m =>
  if paircount > 0 then
    match solve (2 * paircount) m.1 a with
    | none => .ret none
    | some b => (forT (cmpStep4T st paircount b) (List.range paircount) r).bind fun r => .ret (some r)
  else .ret (some r)

def cmpRest (solve : LinSolve S) (st : LB S V) (v r : V) (g : S) : Option V :=
  let p1 := (List.range st.npairs).foldl (cmpStep1 st r) (fun _ => lit 0, 0)
  let paircount := p1.2
  let a := ((List.range st.npairs).foldl (cmpStep2 st v paircount) (p1.1, 0)).1
  let m := ((List.range st.npairs).foldl (cmpStep3 st g paircount) (fun _ _ => lit 0, 0)).1
  if paircount > 0 then
    match solve (2 * paircount) m a with
    | none => none
    | some b => some ((List.range paircount).foldl (cmpStep4 st g paircount b) r)
  else some r

theorem cmpMatvec_rest (solve : LinSolve S) (st : LB S V) (v : V) : (st.cmpMatvec solve v).1 =
    cmpRest solve st v (st.updateGamma (fun gamma r => vdiv r gamma) v).1
      (st.updateGamma (fun gamma r => vdiv r gamma) v).2.gamma := by
  obtain ⟨g, e, -⟩ := updateGamma_state st (fun gamma r => vdiv r gamma) v
  unfold LB.cmpMatvec cmpRest
  simp only
  rw [e]
  generalize (st.updateGamma (fun gamma r => vdiv r gamma) v).1 = r
  change Prod.fst (if ((List.range st.npairs).foldl (cmpStep1 st r) (fun _ => lit 0, 0)).2 > 0 then _ else _) = _
  split
  · change Prod.fst (match solve (2 * ((List.range st.npairs).foldl (cmpStep1 st r) (fun _ => lit 0, 0)).2)
      ((List.range st.npairs).foldl (cmpStep3 st g ((List.range st.npairs).foldl (cmpStep1 st r) (fun _ => lit 0, 0)).2)
        (fun _ _ => lit 0, 0)).1
      ((List.range st.npairs).foldl (cmpStep2 st v ((List.range st.npairs).foldl (cmpStep1 st r) (fun _ => lit 0, 0)).2)
        (((List.range st.npairs).foldl (cmpStep1 st r) (fun _ => lit 0, 0)).1, 0)).1 with
      | none => _
      | some b => _) = _
    split
    · rename_i heq; simp only [heq]
    · rename_i heq; simp only [heq]; rfl
  · rfl

theorem cmp_rest (solve : LinSolve S) (st : LB S V) (v r : V) (g : S) :
    ∃ d, Safe (fun m : Loc → S => m .gamma = g) (cmpRestT solve st v r) (cmpRest solve st v r g) d := by
  unfold cmpRestT cmpRest
  simp only
  generalize (List.range st.npairs).foldl (cmpStep1 st r) (fun _ => lit 0, 0) = p1
  generalize ((List.range st.npairs).foldl (cmpStep2 st v p1.2) (p1.1, 0)).1 = a
  have h3 : ∀ b i, ∃ d, Safe (fun m : Loc → S => m .gamma = g) (cmpStep3T st p1.2 b i) (cmpStep3 st g p1.2 b i) d := by
    intro b i
    unfold cmpStep3T cmpStep3
    simp only
    cases st.ys (st.idx ((st.insert : Int) + i)) with
    | none => exact ⟨0, .ret _⟩
    | some ysk =>
      have hin : ∀ c j, ∃ d, Safe (fun m : Loc → S => m .gamma = g) (cmpInnerT st p1.2 (st.idx ((st.insert : Int) + i)) b.2 c j)
          (cmpInner st g p1.2 (st.idx ((st.insert : Int) + i)) b.2 c j) d := by
        intro c j
        unfold cmpInnerT
        cases hy : st.ys (st.idx ((st.insert : Int) + j)) with
        | none => rw [cmpInner_none _ _ _ _ _ _ _ hy]; exact ⟨0, .ret _⟩
        | some y => exact ⟨1, .load fun m hm => by rw [hm]; exact .ret _⟩
      obtain ⟨d, hd⟩ := forT_safe hin (List.range i) (mset (mset b.1 (p1.2 + b.2) (p1.2 + b.2) (-ysk)) b.2 b.2
        (dot (st.s (st.idx ((st.insert : Int) + i))) (st.s (st.idx ((st.insert : Int) + i))) / g), 0)
      refine ⟨d + 0 + 1, .load fun m hm => ?_⟩
      rw [hm]
      exact hd.bind (.ret _)
  obtain ⟨d, hd⟩ := forT_safe h3 (List.range st.npairs) (fun _ _ => lit 0, 0)
  by_cases hp : p1.2 > 0
  · simp only [hp, if_true]
    cases hs : solve (2 * p1.2) ((List.range st.npairs).foldl (cmpStep3 st g p1.2) (fun _ _ => lit 0, 0)).1 a with
    | none => exact ⟨d + 0, hd.bind (by simp only [hs]; exact .ret _)⟩
    | some b =>
      obtain ⟨e, he⟩ := forT_safe (Good := fun m : Loc → S => m .gamma = g) (f := cmpStep4T st p1.2 b) (f' := cmpStep4 st g p1.2 b)
        (fun c i => ⟨1, .load fun m hm => by rw [hm]; exact .ret _⟩) (List.range p1.2) r
      exact ⟨d + (e + 0), hd.bind (by simp only [hs]; exact he.bind (.ret _))⟩
  · simp only [hp, if_false]
    exact ⟨d + 0, hd.bind (.ret _)⟩

/-- the compact product, in threads that share `self.gamma` -/
theorem cmp_safe (solve : LinSolve S) (st : LB S V) : ∃ g, ∀ v, ∃ d,
    Safe (fun m : Loc → S => m .gamma = g) (cmpT solve st v) (st.cmpMatvec solve v).1 d ∧
    (st.gamma = g ∨ Starts (fun m : Loc → S => m .gamma = g) (cmpT solve st v) (st.cmpMatvec solve v).1 d) := by
  have hT : ∀ v, cmpT solve st v = (updateGammaT st (fun gamma r => vdiv r gamma) v).bind (cmpRestT solve st v) := fun _ => rfl
  simp only [cmpMatvec_rest, hT]
  unfold updateGammaT LB.updateGamma
  by_cases hs : st.scaling = true
  · simp only [hs, if_true]
    cases hy : st.ys (st.idx ((st.insert : Int) - 1)) with
    | none =>
      refine ⟨st.gamma, fun v => ?_⟩
      obtain ⟨d, hd⟩ := cmp_rest solve st v v st.gamma
      exact ⟨d, hd, .inl rfl⟩
    | some ysl =>
      refine ⟨ysl / dot (st.y (st.idx ((st.insert : Int) - 1))) (st.y (st.idx ((st.insert : Int) - 1))), fun v => ?_⟩
      simp only
      generalize hg : ysl / dot (st.y (st.idx ((st.insert : Int) - 1))) (st.y (st.idx ((st.insert : Int) - 1))) = g
      obtain ⟨d, hd⟩ := cmp_rest solve st v (vdiv v g) g
      have hS : Starts (fun m : Loc → S => m .gamma = g)
          ((Tr.store Loc.gamma g (.load .gamma fun gamma => .ret (vdiv v gamma))).bind (cmpRestT solve st v))
          (cmpRest solve st v (vdiv v g) g) (d + 1 + 1) :=
        ⟨.gamma, g, _, d + 1, rfl, rfl, fun m => by simp, .load fun m hm => by rw [hm]; exact hd⟩
      exact ⟨_, hS.safe, .inr hS⟩
  · simp only [hs, Bool.false_eq_true, if_false]
    refine ⟨st.gamma, fun v => ?_⟩
    obtain ⟨d, hd⟩ := cmp_rest solve st v v st.gamma
    exact ⟨d, hd, .inl rfl⟩

end Verif.Threads
