import Verif.Linop.Counts

/-!
# Helper lemmas: how the heap grows, transposes of non-complex operators
-/

set_option linter.unusedSectionVars false

namespace Verif.Linop

variable {K : Type} [CommRing K] [StarRing K] [DTypes K]

/-- The heap changes by constructor calls and conjugations only. -/
inductive Grows : Heap K → Heap K → Prop
  | refl (h : Heap K) : Grows h h
  | new {h h' : Heap K} (g : Grows h h') (nin nout : Nat) (mv : Code K) (mt ma : Option (Code K)) (sy he : Bool)
      (dt : DKind) : Grows h (LinearOperator ⟨nin, nout, mv, mt, ma, sy, he, dt, none, none, none⟩ h').2
  | conj {h h' : Heap K} (g : Grows h h') (r : Nat) : Grows h (conjugate r h').2

theorem Grows.trans {a b c : Heap K} (g : Grows a b) (g' : Grows b c) : Grows a c := by
  induction g' with
  | refl => exact g
  | new _ nin nout mv mt ma sy he dt ih => exact Grows.new ih nin nout mv mt ma sy he dt
  | conj _ r ih => exact Grows.conj ih r

theorem mulLinop_grows {h : Heap K} {r s : Nat} {p : Nat × Heap K} (hp : mulLinop r s h = .ok p) : Grows h p.2 := by
  unfold mulLinop at hp
  split at hp
  · split at hp
    · cases hp
    · cases hp; exact .new (.refl _) ..
  · cases hp

theorem mulScalar_grows [DecidableEq K] {h : Heap K} {r : Nat} {a : K} {ka : DKind} {p : Nat × Heap K}
    (hp : mulScalar r a ka h = .ok p) : Grows h p.2 := by
  unfold mulScalar at hp
  split at hp
  · cases hp
  · simp only at hp
    split at hp
    · cases hp; exact .new (.refl _) ..
    · cases hp; exact .new (.refl _) ..

theorem powGo_grows {r : Nat} : ∀ (k : Nat) (h : Heap K) (p : Nat × Heap K), powOp.go r k h = .ok p → Grows h p.2
  | 0, h, p, hp => by
    simp only [powOp.go, Except.ok.injEq] at hp
    subst hp; exact .new (.refl _) ..
  | 1, h, p, hp => by
    simp only [powOp.go, Except.ok.injEq] at hp
    subst hp; exact .refl _
  | k + 2, h, p, hp => by
    simp only [powOp.go] at hp
    obtain ⟨q, hq, hp⟩ := ebind_ok hp
    exact (powGo_grows (k + 1) h q hq).trans (mulLinop_grows hp)

theorem exec_grows [DecidableEq K] {h : Heap K} {env : List Nat} {c : Cmd K} {p : Nat × Heap K}
    (hp : c.exec env h = .ok p) : Grows h p.2 := by
  cases c with
  | new A sy he f ft fa => cases hp; exact .new (.refl _) ..
  | ident n k => cases hp; exact .new (.refl _) ..
  | zero nin nout k => cases hp; exact .new (.refl _) ..
  | diag d => cases hp; exact .new (.refl _) ..
  | nd A sy he =>
    simp only [Cmd.exec, linopFromNdarray] at hp
    split at hp
    · cases hp; exact .new (.refl _) ..
    · split at hp
      · cases hp
      · cases hp; exact .new (.refl _) ..
  | mul i j =>
    simp only [Cmd.exec] at hp
    obtain ⟨r, hr, hp⟩ := ebind_ok hp
    obtain ⟨s, hs, hp⟩ := ebind_ok hp
    exact mulLinop_grows hp
  | smul i a ka =>
    simp only [Cmd.exec] at hp
    obtain ⟨r, hr, hp⟩ := ebind_ok hp
    exact mulScalar_grows hp
  | add i j =>
    simp only [Cmd.exec] at hp
    obtain ⟨r, hr, hp⟩ := ebind_ok hp
    obtain ⟨s, hs, hp⟩ := ebind_ok hp
    unfold addOp at hp
    split at hp
    · split at hp
      · cases hp
      · cases hp; exact .new (.refl _) ..
    · cases hp
  | sub i j =>
    simp only [Cmd.exec] at hp
    obtain ⟨r, hr, hp⟩ := ebind_ok hp
    obtain ⟨s, hs, hp⟩ := ebind_ok hp
    unfold subOp at hp
    split at hp
    · split at hp
      · cases hp
      · cases hp; exact .new (.refl _) ..
    · cases hp
  | neg i =>
    simp only [Cmd.exec] at hp
    obtain ⟨r, hr, hp⟩ := ebind_ok hp
    exact mulScalar_grows hp
  | pow i k =>
    simp only [Cmd.exec] at hp
    obtain ⟨r, hr, hp⟩ := ebind_ok hp
    unfold powOp at hp
    split at hp
    · cases hp
    · split at hp
      · cases hp
      · split at hp
        · cases hp
        · exact powGo_grows _ _ _ hp
  | T i =>
    simp only [Cmd.exec] at hp
    obtain ⟨r, hr, hp⟩ := ebind_ok hp
    split at hp
    · cases hp; exact .refl _
    · cases hp
  | H i =>
    simp only [Cmd.exec] at hp
    obtain ⟨r, hr, hp⟩ := ebind_ok hp
    split at hp
    · cases hp; exact .refl _
    · cases hp
  | conj i =>
    simp only [Cmd.exec] at hp
    obtain ⟨r, hr, hp⟩ := ebind_ok hp
    cases hp; exact .conj (.refl _) r
  | reduce i rows cols =>
    simp only [Cmd.exec] at hp
    obtain ⟨r, hr, hp⟩ := ebind_ok hp
    unfold ReducedLinearOperator at hp
    split at hp
    · cases hp
    · cases hp; exact .new (.refl _) ..
  | symreduce i idx =>
    simp only [Cmd.exec] at hp
    obtain ⟨r, hr, hp⟩ := ebind_ok hp
    unfold SymmetricallyReducedLinearOperator at hp
    split at hp
    · cases hp
    · cases hp; exact .new (.refl _) ..

theorem execAll_grows [DecidableEq K] : ∀ (cs : List (Cmd K)) {env : List Nat} {h : Heap K} {env' : List Nat}
    {h' : Heap K}, execAll cs (env, h) = .ok (env', h') → Grows h h'
  | [], env, h, env', h', he => by
    simp only [execAll, Except.ok.injEq, Prod.mk.injEq] at he
    obtain ⟨rfl, rfl⟩ := he
    exact .refl _
  | c :: cs, env, h, env', h', he => by
    simp only [execAll] at he
    split at he
    · cases he
    · next r h1 hc => exact (exec_grows hc).trans (execAll_grows cs he)

/-! ## Non-complex operators: `.T` is `None` iff `.H` is -/

def RealTH (h : Heap K) : Prop :=
  ∀ (r : Nat) (o : Obj K), h[r]? = some o → o.dtype ≠ .complex → (o.T = none ↔ o.H = none)

theorem RealTH.append {h : Heap K} (hh : RealTH h) {news : Heap K}
    (hn : ∀ o ∈ news, o.dtype ≠ .complex → (o.T = none ↔ o.H = none)) : RealTH (h ++ news) := by
  intro r o ho hk
  by_cases hr : r < h.length
  · rw [List.getElem?_append_left hr] at ho; exact hh r o ho hk
  · rw [List.getElem?_append_right (by omega)] at ho
    exact hn o (List.mem_of_getElem? ho) hk

theorem conjugate_news (r : Nat) (h : Heap K) :
    ∃ news, (conjugate r h).2 = h ++ news ∧ ∀ o ∈ news, o.dtype = .complex := by
  by_cases hk : (h[r]?.map Obj.dtype) = some .complex
  · cases ho : h[r]? with
    | none => simp [ho] at hk
    | some o =>
      simp only [ho, Option.map_some, Option.some.injEq] at hk
      have hr := get_lt ho
      cases hot : o.T with
      | none =>
        cases hou : o.H with
        | none =>
          have : (conjugate r h).2 = h ++ [⟨o.nargin, o.nargout, false, false, .complex, .conj ⟨r, .self⟩, none, none⟩] := by
            simp [conjugate, conjugateWith, ho, hk, conjArgs, getT, getH, hot, hou, LinearOperator, initWith,
              setTranspose, setAdjoint]
          exact ⟨_, this, by simp⟩
        | some u =>
          cases hcu : codeAt h u with
          | none =>
            refine ⟨_, by simp only [conjugate, conjugateWith, ho, Option.map_some, hk, if_true, conjArgs, getT, getH,
              Option.bind_some, hot, hou, hcu, LinearOperator, initWith, setTranspose, setAdjoint]
                          simp [setT, setH, modify_app0, modify_app]
                          rfl, ?_⟩
            simp
          | some cu =>
            refine ⟨_, by simp only [conjugate, conjugateWith, ho, Option.map_some, hk, if_true, conjArgs, getT, getH,
              Option.bind_some, hot, hou, hcu, LinearOperator, initWith, setTranspose, setAdjoint]
                          simp [setT, setH, modify_app0, modify_app]
                          rfl, ?_⟩
            simp
      | some t =>
        cases hou : o.H with
        | none =>
          cases hct : codeAt h t with
          | none =>
            refine ⟨_, by simp only [conjugate, conjugateWith, ho, Option.map_some, hk, if_true, conjArgs, getT, getH,
              Option.bind_some, hot, hou, hct, LinearOperator, initWith, setTranspose, setAdjoint]
                          simp [setT, setH, modify_app0, modify_app]
                          rfl, ?_⟩
            simp
          | some cu =>
            refine ⟨_, by simp only [conjugate, conjugateWith, ho, Option.map_some, hk, if_true, conjArgs, getT, getH,
              Option.bind_some, hot, hou, hct, LinearOperator, initWith, setTranspose, setAdjoint]
                          simp [setT, setH, modify_app0, modify_app]
                          rfl, ?_⟩
            simp
        | some u =>
          rw [conjugate_complex ho hk hot hou]
          exact ⟨_, rfl, by simp⟩
  · exact ⟨[], by simp [conjugate, conjugateWith, hk], by simp⟩

theorem Grows.realTH {h h' : Heap K} (g : Grows h h') (hh : RealTH h) : RealTH h' := by
  induction g with
  | refl => exact hh
  | new _ nin nout mv mt ma sy he dt ih =>
    by_cases hd : dt = .complex
    · subst hd
      rw [LinearOperator_complex]
      refine ih.append ?_
      intro o ho hk
      exfalso; apply hk
      cases sy <;> cases he <;> cases mt <;> cases ma <;>
        simp [newComplex, mkFwd, mkBwd, mkConj, mkConjBwd] at ho <;> aesop
    · rw [LinearOperator_real _ _ _ _ _ _ _ _ hd]
      refine ih.append ?_
      intro o ho hk
      cases sy <;> cases he <;> cases mt <;> cases ma <;>
        simp [newReal, mkFwd, mkBwd] at ho <;> aesop
  | conj _ r ih =>
    obtain ⟨news, hn, hc⟩ := conjugate_news (K := K) r _
    rw [hn]
    exact ih.append fun o ho hk => absurd (hc o ho) hk

end Verif.Linop
