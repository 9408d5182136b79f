import Verif.Linop.ProgramTotal
import Mathlib.Tactic.Ring

/-!
# Product counters and dense conversion

`toArray` models `linop.py:255-266`; the rest are lemmas about the counters.
-/

set_option linter.unusedSectionVars false

namespace Verif.Linop

variable {K : Type} [CommRing K] [StarRing K] [DTypes K]

/-- The `j`-th unit vector `e` of line 259-264 (dtype of the operator). -/
def unitArr (k : DKind) (n j : Nat) : Arr K := ⟨k, (List.replicate n 0).set j 1⟩

/-- The loop of `to_array`, lines 260-264: columns `j, j+1, ..., j+m-1`. -/
def toArrayLoop (h : Heap K) (fuel r : Nat) (k : DKind) (n : Nat) : Nat → Nat → Act (List (List K))
  | _, 0 => Act.pure []
  | j, m + 1 => do
    let y ← run h fuel r (unitArr k n j)
    let rest ← toArrayLoop h fuel r k n (j + 1) m
    Act.pure ((y.astype k).data :: rest)

/-- `to_array` / `full`, lines 255-270; the result is the list of columns. -/
def toArray (h : Heap K) (fuel r : Nat) : Act (List (List K)) :=
  match h[r]? with
  | none => Act.raise .attributeError
  | some o => toArrayLoop h fuel r o.dtype o.nargin 0 o.nargin

/-! ## Targets point to earlier objects -/

def Code.targets : Code K → List Tgt
  | .prim _ => []
  | .conj t => [t]
  | .scal _ _ t => [t]
  | .comp o i => [o, i]
  | .add a b => [a, b]
  | .sub a b => [a, b]
  | .gather _ _ _ t => [t]

/-- A closure only applies operators created before the operator it belongs to. -/
def CodeOrd (h : Heap K) (r : Nat) (c : Code K) : Prop := ∀ t ∈ c.targets, ∀ r', resolve h t = .ok r' → r' < r

def Ordered (h : Heap K) : Prop := ∀ (r : Nat) (o : Obj K), h[r]? = some o → CodeOrd h r o.code

theorem targets_lt {D : List (Mat K)} {A : Mat K} {c : Code K} (hc : CodeOK D A c) {t : Tgt} (ht : t ∈ c.targets) :
    t.ref < D.length := by
  have key : ∀ {t : Tgt} {B : Mat K}, tgtMat D t = some B → t.ref < D.length := by
    intro t B hB
    unfold tgtMat at hB
    cases hs : t.sel <;> simp only [hs] at hB
    · exact (List.getElem?_eq_some_iff.1 hB).1
    · cases hd : D[t.ref]? with
      | none => simp [hd] at hB
      | some C => exact (List.getElem?_eq_some_iff.1 hd).1
    · cases hd : D[t.ref]? with
      | none => simp [hd] at hB
      | some C => exact (List.getElem?_eq_some_iff.1 hd).1
  cases c with
  | prim f => simp [Code.targets] at ht
  | conj t' =>
    obtain ⟨B, hB, _⟩ := hc
    simp only [Code.targets, List.mem_singleton] at ht; subst ht; exact key hB
  | scal a ka t' =>
    obtain ⟨B, hB, _⟩ := hc
    simp only [Code.targets, List.mem_singleton] at ht; subst ht; exact key hB
  | comp a b =>
    obtain ⟨B, C, hB, hC, _⟩ := hc
    simp only [Code.targets, List.mem_cons, List.not_mem_nil, or_false] at ht
    rcases ht with rfl | rfl
    · exact key hB
    · exact key hC
  | add a b =>
    obtain ⟨B, C, hB, hC, _⟩ := hc
    simp only [Code.targets, List.mem_cons, List.not_mem_nil, or_false] at ht
    rcases ht with rfl | rfl
    · exact key hB
    · exact key hC
  | sub a b =>
    obtain ⟨B, C, hB, hC, _⟩ := hc
    simp only [Code.targets, List.mem_cons, List.not_mem_nil, or_false] at ht
    rcases ht with rfl | rfl
    · exact key hB
    · exact key hC
  | gather n put take t' =>
    obtain ⟨B, hB, _⟩ := hc
    simp only [Code.targets, List.mem_singleton] at ht; subst ht; exact key hB

theorem resolve_lt_len {D : List (Mat K)} {h : Heap K} (I : HInv D h) {t : Tgt} {r : Nat}
    (hr : resolve h t = .ok r) : r < h.length := by
  have hlt := resolve_lt hr
  unfold resolve at hr
  rw [List.getElem?_eq_getElem hlt] at hr
  obtain ⟨A, hA, hok⟩ := I.get' (List.getElem?_eq_getElem hlt)
  have key : ∀ {t' : Nat} {B : Mat K}, D[t']? = some B → t' < h.length := by
    intro t' B hB; rw [I.len]; exact (List.getElem?_eq_some_iff.1 hB).1
  simp only at hr
  split at hr
  · cases hr; exact hlt
  · split at hr
    · next t' ht' => cases hr; obtain ⟨B, hB, _⟩ := hok.T _ ht'; exact key hB
    · cases hr
  · split at hr
    · next t' ht' => cases hr; obtain ⟨B, hB, _⟩ := hok.H _ ht'; exact key hB
    · cases hr

/-- a closure mentions existing operators only -/
def CodeRng (h : Heap K) (c : Code K) : Prop := ∀ t ∈ c.targets, t.ref < h.length

theorem CodeOrd.new {D : List (Mat K)} {h : Heap K} (I : HInv D h) {c : Code K} (hc : CodeRng h c)
    (news : Heap K) (i : Nat) : CodeOrd (h ++ news) (h.length + i) c := by
  intro t ht r' hr
  have := hc t ht
  rw [(append_frame h news).resolve this] at hr
  have := resolve_lt_len I hr
  omega

theorem Ordered.append {D : List (Mat K)} {h : Heap K} (I : HInv D h) (O : Ordered h) (news : Heap K)
    (hn : ∀ (i : Nat) (o : Obj K), news[i]? = some o → CodeOrd (h ++ news) (h.length + i) o.code) : Ordered (h ++ news) := by
  intro r o ho
  by_cases hr : r < h.length
  · rw [List.getElem?_append_left hr] at ho
    intro t ht r' hr'
    obtain ⟨A, hA, hok⟩ := I.get' ho
    have := targets_lt hok.code ht
    rw [← I.len] at this
    rw [(append_frame h news).resolve this] at hr'
    exact O r o ho t ht r' hr'
  · rw [List.getElem?_append_right (by omega)] at ho
    have := hn _ o ho
    rwa [show h.length + (r - h.length) = r by omega] at this

theorem newObjs_eq (nin nout : Nat) (mv : Code K) (mt ma : Option (Code K)) (sy he : Bool) (dt : DKind) (h : Heap K) :
    LinearOperator ⟨nin, nout, mv, mt, ma, sy, he, dt, none, none, none⟩ h =
      (h.length, h ++ newObjs ⟨nin, nout, mv, mt, ma, sy, he, dt, none, none, none⟩ h.length) := by
  by_cases hd : dt = .complex
  · subst hd; simp only [newObjs, if_true]; exact LinearOperator_complex _ _ _ _ _ _ _ _
  · simp only [newObjs, hd, if_false]; exact LinearOperator_real _ _ _ _ _ _ _ _ hd _

set_option hygiene false in
/-- one case of `LinearOperator_ordered` -/
macro "ordcase" : tactic => `(tactic| (
  refine Ordered.append I O _ fun i o ho => ?_
  rcases i with _ | _ | _ | _ | i
  all_goals simp only [List.getElem?_cons_succ, List.getElem?_cons_zero, List.getElem?_nil, Option.some.injEq,
    reduceCtorEq] at ho
  all_goals subst ho
  all_goals first
    | exact CodeOrd.new I hmv _ _
    | exact CodeOrd.new I (hmt _ rfl) _ _
    | exact CodeOrd.new I (hma _ rfl) _ _
    | (intro t ht r' hr
       simp only [mkConj, mkConjBwd, Code.targets, List.mem_singleton] at ht
       subst ht
       simp [resolve, mkFwd] at hr
       omega)))

theorem LinearOperator_ordered {D : List (Mat K)} {h : Heap K} (I : HInv D h) (O : Ordered h) {nin nout : Nat}
    {mv : Code K} {mt ma : Option (Code K)} {sy he : Bool} {dt : DKind} (hmv : CodeRng h mv)
    (hmt : ∀ c, mt = some c → CodeRng h c) (hma : ∀ c, ma = some c → CodeRng h c) :
    Ordered (LinearOperator ⟨nin, nout, mv, mt, ma, sy, he, dt, none, none, none⟩ h).2 := by
  by_cases hd : dt = .complex
  · subst hd
    rw [LinearOperator_complex]
    cases sy <;> cases he <;> cases mt <;> cases ma <;> dsimp only [newComplex]
    all_goals ordcase
  · rw [LinearOperator_real _ _ _ _ _ _ _ _ hd]
    cases sy <;> cases he <;> cases mt <;> cases ma <;> dsimp only [newReal]
    all_goals ordcase

theorem rng_prim (h : Heap K) (f) : CodeRng h (.prim f) := by intro t ht; simp [Code.targets] at ht
theorem rng_conj {h : Heap K} {r : Nat} (hr : r < h.length) (s : Sel) : CodeRng h (.conj ⟨r, s⟩) := by
  intro t ht; simp only [Code.targets, List.mem_singleton] at ht; subst ht; exact hr
theorem rng_scal {h : Heap K} {r : Nat} (hr : r < h.length) (a : K) (ka : DKind) (s : Sel) :
    CodeRng h (.scal a ka ⟨r, s⟩) := by
  intro t ht; simp only [Code.targets, List.mem_singleton] at ht; subst ht; exact hr
theorem rng_gather {h : Heap K} {r : Nat} (hr : r < h.length) (n : Nat) (put take : List Int) (s : Sel) :
    CodeRng h (.gather n put take ⟨r, s⟩) := by
  intro t ht; simp only [Code.targets, List.mem_singleton] at ht; subst ht; exact hr
theorem rng_comp {h : Heap K} {r q : Nat} (hr : r < h.length) (hq : q < h.length) (s u : Sel) :
    CodeRng h (.comp ⟨r, s⟩ ⟨q, u⟩) := by
  intro t ht; simp only [Code.targets, List.mem_cons, List.not_mem_nil, or_false] at ht
  rcases ht with rfl | rfl
  · exact hr
  · exact hq
theorem rng_add {h : Heap K} {r q : Nat} (hr : r < h.length) (hq : q < h.length) (s u : Sel) :
    CodeRng h (.add ⟨r, s⟩ ⟨q, u⟩) := by
  intro t ht; simp only [Code.targets, List.mem_cons, List.not_mem_nil, or_false] at ht
  rcases ht with rfl | rfl
  · exact hr
  · exact hq
theorem rng_sub {h : Heap K} {r q : Nat} (hr : r < h.length) (hq : q < h.length) (s u : Sel) :
    CodeRng h (.sub ⟨r, s⟩ ⟨q, u⟩) := by
  intro t ht; simp only [Code.targets, List.mem_cons, List.not_mem_nil, or_false] at ht
  rcases ht with rfl | rfl
  · exact hr
  · exact hq

theorem some_rng {h : Heap K} {c : Code K} (hc : CodeRng h c) : ∀ d, some c = some d → CodeRng h d := by
  intro d hd; cases hd; exact hc
theorem none_rng {h : Heap K} : ∀ d, (none : Option (Code K)) = some d → CodeRng h d := by
  intro d hd; cases hd

theorem get_lt {h : Heap K} {r : Nat} {o : Obj K} (ho : h[r]? = some o) : r < h.length :=
  (List.getElem?_eq_some_iff.1 ho).1

section
variable {D : List (Mat K)} {h : Heap K}

theorem IdentityOperator_ordered (I : HInv D h) (O : Ordered h) (n : Nat) (k : DKind) :
    Ordered (IdentityOperator n k h).2 :=
  LinearOperator_ordered I O (rng_prim _ _) none_rng none_rng

theorem mulLinop_ordered (I : HInv D h) (O : Ordered h) {r s : Nat} {p : Nat × Heap K}
    (hp : mulLinop r s h = .ok p) : Ordered p.2 := by
  unfold mulLinop at hp
  split at hp
  · next o q ho hq =>
    split at hp
    · cases hp
    · cases hp
      exact LinearOperator_ordered I O (rng_comp (get_lt ho) (get_lt hq) _ _)
        (some_rng (rng_comp (get_lt hq) (get_lt ho) _ _)) (some_rng (rng_comp (get_lt hq) (get_lt ho) _ _))
  · cases hp

theorem mulScalar_ordered [DecidableEq K] (I : HInv D h) (O : Ordered h) {r : Nat} {a : K} {ka : DKind}
    {p : Nat × Heap K} (hp : mulScalar r a ka h = .ok p) : Ordered p.2 := by
  unfold mulScalar at hp
  split at hp
  · cases hp
  · next o ho =>
    simp only at hp
    split at hp
    · cases hp
      exact LinearOperator_ordered I O (rng_prim _ _) (some_rng (rng_prim _ _)) (some_rng (rng_prim _ _))
    · cases hp
      exact LinearOperator_ordered I O (rng_scal (get_lt ho) _ _ _) (some_rng (rng_scal (get_lt ho) _ _ _))
        (some_rng (rng_scal (get_lt ho) _ _ _))

theorem conjugate_ordered (I : HInv D h) (O : Ordered h) {r : Nat} (hr : r < h.length) :
    Ordered (conjugate r h).2 := by
  have ho : h[r]? = some h[r] := List.getElem?_eq_getElem hr
  generalize h[r] = o at ho
  by_cases hk : o.dtype = .complex
  · have hT : ∀ t, o.T = some t → t < h.length := by
      intro t ht
      exact resolve_lt_len I (t := ⟨r, .T⟩) (by simp [resolve, ho, ht])
    have hH : ∀ t, o.H = some t → t < h.length := by
      intro t ht
      exact resolve_lt_len I (t := ⟨r, .H⟩) (by simp [resolve, ho, ht])
    cases hot : o.T with
    | none => cases hou : o.H with
      | none =>
        have : conjugate r h = (h.length, h ++ [⟨o.nargin, o.nargout, false, false, .complex, .conj ⟨r, .self⟩, none, none⟩]) := by
          simp [conjugate, conjugateWith, ho, hk, conjArgs, getT, getH, hot, hou, LinearOperator, initWith,
            setTranspose, setAdjoint]
        rw [this]
        refine Ordered.append I O _ fun i o ho => ?_
        rcases i with _ | i <;> simp at ho
        subst ho
        exact CodeOrd.new I (rng_conj hr _) _ _
      | some u =>
        have : conjugate r h = (h.length, h ++ [⟨o.nargin, o.nargout, false, false, .complex, .conj ⟨r, .self⟩, some u,
            some (h.length + 1)⟩, ⟨o.nargout, o.nargin, false, false, .complex, .conj ⟨r, .H⟩, none, some h.length⟩]) := by
          simp [conjugate, conjugateWith, ho, hk, conjArgs, getT, getH, hot, hou, LinearOperator, initWith,
            setTranspose, setAdjoint, setT, setH, modify_app0, modify_app]
        rw [this]
        refine Ordered.append I O _ fun i o ho => ?_
        rcases i with _ | _ | i <;> simp at ho
        · subst ho
          exact CodeOrd.new I (rng_conj hr _) _ _
        · subst ho
          exact CodeOrd.new I (rng_conj hr _) _ _
    | some t => cases hou : o.H with
      | none =>
        have : conjugate r h = (h.length, h ++ [⟨o.nargin, o.nargout, false, false, .complex, .conj ⟨r, .self⟩,
            some (h.length + 1), some t⟩,
            ⟨o.nargout, o.nargin, false, false, .complex, .conj ⟨r, .T⟩, some h.length, none⟩]) := by
          simp [conjugate, conjugateWith, ho, hk, conjArgs, getT, getH, hot, hou, LinearOperator, initWith,
            setTranspose, setAdjoint, setT, setH, modify_app0, modify_app]
        rw [this]
        refine Ordered.append I O _ fun i o ho => ?_
        rcases i with _ | _ | i <;> simp at ho
        · subst ho
          exact CodeOrd.new I (rng_conj hr _) _ _
        · subst ho
          exact CodeOrd.new I (rng_conj hr _) _ _
      | some u =>
        rw [conjugate_complex ho hk hot hou]
        refine Ordered.append I O _ fun i o ho => ?_
        rcases i with _ | i <;> simp at ho
        subst ho
        exact CodeOrd.new I (rng_conj hr _) _ _
  · rw [conjugate_real ho hk]; exact O

theorem powGo_ordered {r : Nat} {A : Mat K} (hsq : A.cols = A.rows) :
    ∀ (k : Nat) (D : List (Mat K)) (h : Heap K), HInv D h → Ordered h → D[r]? = some A →
      ∀ p, powOp.go r k h = .ok p → Ordered p.2
  | 0, D, h, I, O, hA, p, hp => by
    simp only [powOp.go, Except.ok.injEq] at hp
    subst hp
    exact IdentityOperator_ordered I O _ _
  | 1, D, h, I, O, hA, p, hp => by
    simp only [powOp.go, Except.ok.injEq] at hp
    subst hp
    exact O
  | k + 2, D, h, I, O, hA, p, hp => by
    simp only [powOp.go] at hp
    obtain ⟨q, hq, hp⟩ := ebind_ok hp
    obtain ⟨_, E, I', _⟩ := powGo_makes hsq (k + 1) D h I hA q hq
    exact mulLinop_ordered I' (powGo_ordered hsq (k + 1) D h I O hA q hq) hp

theorem exec_ordered [DecidableEq K] (I : HInv D h) (O : Ordered h) {env : List Nat} {mats : List (Mat K)}
    (L : Link D env mats) {c : Cmd K} {p : Nat × Heap K} (hp : c.exec env h = .ok p) : Ordered p.2 := by
  have hlook : ∀ {i r}, look env i = .ok r → r < h.length := by
    intro i r hr
    obtain ⟨_, A', _, _, hA', _⟩ := L.look hr
    rw [I.len]; exact (List.getElem?_eq_some_iff.1 hA').1
  cases c with
  | new A sy he f ft fa =>
    simp only [Cmd.exec, Except.ok.injEq] at hp
    subst hp
    refine LinearOperator_ordered I O (rng_prim _ _) ?_ ?_
    · cases ft with
      | none => exact none_rng
      | some g => exact some_rng (rng_prim _ _)
    · cases fa with
      | none => exact none_rng
      | some g => exact some_rng (rng_prim _ _)
  | ident n k =>
    simp only [Cmd.exec, Except.ok.injEq] at hp
    subst hp
    exact IdentityOperator_ordered I O n k
  | zero nin nout k =>
    simp only [Cmd.exec, Except.ok.injEq] at hp
    subst hp
    exact LinearOperator_ordered I O (rng_prim _ _) (some_rng (rng_prim _ _)) (some_rng (rng_prim _ _))
  | diag d =>
    simp only [Cmd.exec, Except.ok.injEq] at hp
    subst hp
    exact LinearOperator_ordered I O (rng_prim _ _) none_rng (some_rng (rng_prim _ _))
  | nd A sy he =>
    simp only [Cmd.exec, linopFromNdarray] at hp
    split at hp
    · cases hp
      exact LinearOperator_ordered I O (rng_prim _ _) (some_rng (rng_prim _ _)) (some_rng (rng_prim _ _))
    · split at hp
      · cases hp
      · cases hp
        exact LinearOperator_ordered I O (rng_prim _ _) (some_rng (rng_prim _ _)) none_rng
  | mul i j =>
    simp only [Cmd.exec] at hp
    obtain ⟨r, hr, hp⟩ := ebind_ok hp
    obtain ⟨s, hs, hp⟩ := ebind_ok hp
    exact mulLinop_ordered I O hp
  | smul i a ka =>
    simp only [Cmd.exec] at hp
    obtain ⟨r, hr, hp⟩ := ebind_ok hp
    exact mulScalar_ordered I O hp
  | add i j =>
    simp only [Cmd.exec] at hp
    obtain ⟨r, hr, hp⟩ := ebind_ok hp
    obtain ⟨s, hs, hp⟩ := ebind_ok hp
    unfold addOp at hp
    split at hp
    · next o q ho hq =>
      split at hp
      · cases hp
      · cases hp
        exact LinearOperator_ordered I O (rng_add (get_lt ho) (get_lt hq) _ _)
          (some_rng (rng_add (get_lt ho) (get_lt hq) _ _)) (some_rng (rng_add (get_lt ho) (get_lt hq) _ _))
    · cases hp
  | sub i j =>
    simp only [Cmd.exec] at hp
    obtain ⟨r, hr, hp⟩ := ebind_ok hp
    obtain ⟨s, hs, hp⟩ := ebind_ok hp
    unfold subOp at hp
    split at hp
    · next o q ho hq =>
      split at hp
      · cases hp
      · cases hp
        exact LinearOperator_ordered I O (rng_sub (get_lt ho) (get_lt hq) _ _)
          (some_rng (rng_sub (get_lt ho) (get_lt hq) _ _)) (some_rng (rng_sub (get_lt ho) (get_lt hq) _ _))
    · cases hp
  | neg i =>
    simp only [Cmd.exec] at hp
    obtain ⟨r, hr, hp⟩ := ebind_ok hp
    exact mulScalar_ordered I O hp
  | pow i k =>
    simp only [Cmd.exec] at hp
    obtain ⟨r, hr, hp⟩ := ebind_ok hp
    obtain ⟨A, A', hA, _, hA', hAE⟩ := L.look hr
    obtain ⟨o, ho, hoA⟩ := I.get hA'
    simp only [powOp, ho] at hp
    split at hp
    · cases hp
    · split at hp
      · cases hp
      · next hsq =>
        have hsq : A'.cols = A'.rows := by rw [← hoA.nargin, ← hoA.nargout]; exact not_not.1 hsq
        exact powGo_ordered hsq _ D h I O hA' p hp
  | T i =>
    simp only [Cmd.exec] at hp
    obtain ⟨r, hr, hp⟩ := ebind_ok hp
    split at hp
    · cases hp; exact O
    · cases hp
  | H i =>
    simp only [Cmd.exec] at hp
    obtain ⟨r, hr, hp⟩ := ebind_ok hp
    split at hp
    · cases hp; exact O
    · cases hp
  | conj i =>
    simp only [Cmd.exec] at hp
    obtain ⟨r, hr, hp⟩ := ebind_ok hp
    cases hp
    exact conjugate_ordered I O (hlook hr)
  | reduce i rows cols =>
    simp only [Cmd.exec] at hp
    obtain ⟨r, hr, hp⟩ := ebind_ok hp
    unfold ReducedLinearOperator at hp
    split at hp
    · cases hp
    · next o ho =>
      cases hp
      exact LinearOperator_ordered I O (rng_gather (get_lt ho) _ _ _ _) (some_rng (rng_gather (get_lt ho) _ _ _ _))
        (some_rng (rng_gather (get_lt ho) _ _ _ _))
  | symreduce i idx =>
    simp only [Cmd.exec] at hp
    obtain ⟨r, hr, hp⟩ := ebind_ok hp
    unfold SymmetricallyReducedLinearOperator at hp
    split at hp
    · cases hp
    · next o ho =>
      cases hp
      exact LinearOperator_ordered I O (rng_gather (get_lt ho) _ _ _ _) (some_rng (rng_gather (get_lt ho) _ _ _ _))
        (some_rng (rng_gather (get_lt ho) _ _ _ _))

end

/-! ## Counters -/

/-- `c'` is `c` with `d i` added to counter `i`. -/
def Adds (d : Nat → Nat) (c c' : Cnt) : Prop := ∀ i, c'[i]? = c[i]?.map (· + d i)

theorem Adds.refl (c : Cnt) : Adds (fun _ => 0) c c := by intro i; simp
theorem Adds.trans {d e : Nat → Nat} {a b c : Cnt} (h : Adds d a b) (g : Adds e b c) :
    Adds (fun i => d i + e i) a c := by
  intro i
  rw [g i, h i, Option.map_map]
  congr 1
  funext n; simp [Nat.add_assoc]
theorem Adds.congr {d e : Nat → Nat} {a b : Cnt} (h : Adds d a b) (hde : ∀ i, d i = e i) : Adds e a b := by
  intro i; rw [h i, hde i]

/-- indicator -/
def one (r : Nat) : Nat → Nat := fun i => if i = r then 1 else 0

theorem bump_adds (r : Nat) (c : Cnt) : Adds (one r) c (c.modify r (· + 1)) := by
  intro i
  rw [List.getElem?_modify]
  by_cases hi : r = i
  · subst hi; simp [one]
  · simp [one, hi, Ne.symm hi]

/-- Counter `i` is unchanged for all `i ≥ r`. -/
def Below (r : Nat) (c c' : Cnt) : Prop := c'.length = c.length ∧ ∀ i, r ≤ i → c'[i]? = c[i]?

theorem Below.refl (r : Nat) (c : Cnt) : Below r c c := ⟨rfl, fun _ _ => rfl⟩
theorem Below.trans {r : Nat} {a b c : Cnt} (h : Below r a b) (g : Below r b c) : Below r a c :=
  ⟨g.1.trans h.1, fun i hi => (g.2 i hi).trans (h.2 i hi)⟩
theorem Below.mono {r s : Nat} (hrs : r ≤ s) {a b : Cnt} (h : Below r a b) : Below s a b :=
  ⟨h.1, fun i hi => h.2 i (hrs.trans hi)⟩

/-- an action that only changes counters below `r`, whatever its outcome -/
def ActBelow {α : Type} (r : Nat) (a : Act α) : Prop := ∀ c, Below r c (a c).2

theorem ActBelow.pure {α : Type} (r : Nat) (a : α) : ActBelow r (Act.pure a) := fun c => Below.refl r c
theorem ActBelow.raise {α : Type} (r : Nat) (e : Err) : ActBelow r (Act.raise e : Act α) := fun c => Below.refl r c
theorem ActBelow.lift {α : Type} (r : Nat) (e : Except Err α) : ActBelow r (liftE e) := fun c => Below.refl r c
theorem ActBelow.bind {α β : Type} {r : Nat} {a : Act α} {f : α → Act β} (ha : ActBelow r a)
    (hf : ∀ v c c', a c = (.ok v, c') → ActBelow r (f v)) : ActBelow r (a >>= f) := by
  intro c
  change Below r c (Act.bind a f c).2
  unfold Act.bind
  cases hac : a c with
  | mk res c1 =>
    have h1 := ha c
    rw [hac] at h1
    cases res with
    | error e => exact h1
    | ok v => exact h1.trans (hf v c c1 hac c1)

theorem liftE_eq {α : Type} {e : Except Err α} {c c' : Cnt} {v : α} (h : liftE e c = (.ok v, c')) : e = .ok v := by
  simp only [liftE, Prod.mk.injEq] at h; exact h.1

theorem evalCode_below {h : Heap K} {r : Nat} {code : Code K} (hc : CodeOrd h r code)
    {app : Nat → Arr K → Act (Arr K)} (happ : ∀ r' x, r' < r → ActBelow r (app r' x)) (x : Arr K) :
    ActBelow r (evalCode h app code x) := by
  cases code with
  | prim f => exact ActBelow.lift r _
  | conj t =>
    refine ActBelow.bind (ActBelow.lift _ _) fun r' c c' h1 => ?_
    have hr := hc t (by simp [Code.targets]) r' (liftE_eq h1)
    split
    · exact ActBelow.bind (happ _ _ hr) fun _ _ _ _ => ActBelow.pure _ _
    · exact ActBelow.bind (happ _ _ hr) fun _ _ _ _ => ActBelow.pure _ _
  | scal a ka t =>
    refine ActBelow.bind (ActBelow.lift _ _) fun r' c c' h1 => ?_
    have hr := hc t (by simp [Code.targets]) r' (liftE_eq h1)
    exact ActBelow.bind (happ _ _ hr) fun _ _ _ _ => ActBelow.pure _ _
  | comp o i =>
    refine ActBelow.bind (ActBelow.lift _ _) fun ri c c' h1 => ?_
    have hr := hc i (by simp [Code.targets]) ri (liftE_eq h1)
    refine ActBelow.bind (happ _ _ hr) fun y _ _ _ => ActBelow.bind (ActBelow.lift _ _) fun ro c c' h1 => ?_
    exact happ _ _ (hc o (by simp [Code.targets]) ro (liftE_eq h1))
  | add a b =>
    refine ActBelow.bind (ActBelow.lift _ _) fun ri c c' h1 => ?_
    have hr := hc a (by simp [Code.targets]) ri (liftE_eq h1)
    refine ActBelow.bind (happ _ _ hr) fun y _ _ _ => ActBelow.bind (ActBelow.lift _ _) fun ro c c' h1 => ?_
    exact ActBelow.bind (happ _ _ (hc b (by simp [Code.targets]) ro (liftE_eq h1))) fun _ _ _ _ => ActBelow.lift _ _
  | sub a b =>
    refine ActBelow.bind (ActBelow.lift _ _) fun ri c c' h1 => ?_
    have hr := hc a (by simp [Code.targets]) ri (liftE_eq h1)
    refine ActBelow.bind (happ _ _ hr) fun y _ _ _ => ActBelow.bind (ActBelow.lift _ _) fun ro c c' h1 => ?_
    exact ActBelow.bind (happ _ _ (hc b (by simp [Code.targets]) ro (liftE_eq h1))) fun _ _ _ _ => ActBelow.lift _ _
  | gather n put take t =>
    refine ActBelow.bind (ActBelow.lift _ _) fun z _ _ _ => ActBelow.bind (ActBelow.lift _ _) fun r' c c' h1 => ?_
    have hr := hc t (by simp [Code.targets]) r' (liftE_eq h1)
    exact ActBelow.bind (happ _ _ hr) fun _ _ _ _ => ActBelow.bind (ActBelow.lift _ _) fun _ _ _ _ => ActBelow.pure _ _

/-- Whatever the outcome, a product with `r` adds one to the counter of `r` and nothing to those of later
objects. -/
theorem run_own {h : Heap K} (O : Ordered h) : ∀ (fuel r : Nat) (x : Arr K) (c : Cnt),
    (run h fuel r x c).2.length = c.length ∧ (∀ i, r < i → (run h fuel r x c).2[i]? = c[i]?) ∧
    (0 < fuel → r < h.length → (run h fuel r x c).2[r]? = c[r]?.map (· + 1)) := by
  intro fuel
  induction fuel with
  | zero => intro r x c; exact ⟨rfl, fun _ _ => rfl, fun h => by omega⟩
  | succ fuel ih =>
    intro r x c
    cases ho : h[r]? with
    | none =>
      simp only [run, ho]
      refine ⟨rfl, fun _ _ => rfl, fun _ hr => ?_⟩
      rw [List.getElem?_eq_none_iff] at ho; omega
    | some o =>
      have hcode : ActBelow r (evalCode h (run h fuel) o.code x) := by
        refine evalCode_below (O r o ho) (fun r' x' hr' c => ?_) x
        obtain ⟨h1, h2, _⟩ := ih r' x' c
        exact ⟨h1, fun i hi => h2 i (by omega)⟩
      have key : ActBelow r (if x.data.length ≠ o.nargin then Act.raise .valueError
          else do
            let y ← evalCode h (run h fuel) o.code x
            if y.data.length ≠ o.nargout then Act.raise .valueError
            else Act.pure (y.astype (o.dtype.join x.kind))) := by
        split
        · exact ActBelow.raise _ _
        · refine ActBelow.bind hcode fun y _ _ _ => ?_
          split
          · exact ActBelow.raise _ _
          · exact ActBelow.pure _ _
      have hb := key (c.modify r (· + 1))
      have hr : run h (fuel + 1) r x c = (if x.data.length ≠ o.nargin then Act.raise .valueError
          else do
            let y ← evalCode h (run h fuel) o.code x
            if y.data.length ≠ o.nargout then Act.raise .valueError
            else Act.pure (y.astype (o.dtype.join x.kind))) (c.modify r (· + 1)) := by
        simp only [run, ho]
        rw [bind_ok (show bump r c = (.ok (), c.modify r (· + 1)) from rfl)]
      rw [hr]
      refine ⟨hb.1.trans (by simp), fun i hi => ?_, fun _ _ => ?_⟩
      · rw [hb.2 i hi.le, bump_adds r c i]
        simp [one, (show i ≠ r by omega)]
      · rw [hb.2 r le_rfl, bump_adds r c r]
        simp [one]

/-! ### Successful products -/

/-- counter increments caused by a product with a target -/
def tgtCost (h : Heap K) (cost : Nat → Nat → Nat) (t : Tgt) (i : Nat) : Nat :=
  match resolve h t with
  | .ok r => cost r i
  | .error _ => 0

def codeCost (h : Heap K) (cost : Nat → Nat → Nat) : Code K → Nat → Nat
  | .prim _, _ => 0
  | .conj t, i => tgtCost h cost t i
  | .scal _ _ t, i => tgtCost h cost t i
  | .comp a b, i => tgtCost h cost a i + tgtCost h cost b i
  | .add a b, i => tgtCost h cost a i + tgtCost h cost b i
  | .sub a b, i => tgtCost h cost a i + tgtCost h cost b i
  | .gather _ _ _ t, i => tgtCost h cost t i

/-- counter increments caused by a product -/
def cost (h : Heap K) : Nat → Nat → Nat → Nat
  | 0, _, _ => 0
  | fuel + 1, r, i => one r i + match h[r]? with
    | some o => codeCost h (cost h fuel) o.code i
    | none => 0

theorem tgtCost_ok {h : Heap K} {cost : Nat → Nat → Nat} {t : Tgt} {r : Nat} (hr : resolve h t = .ok r) (i : Nat) :
    tgtCost h cost t i = cost r i := by simp [tgtCost, hr]

theorem evalCode_adds {h : Heap K} {app : Nat → Arr K → Act (Arr K)} {cst : Nat → Nat → Nat}
    (happ : ∀ r x c y c', app r x c = (.ok y, c') → Adds (cst r) c c') {code : Code K} {x y : Arr K} {c c' : Cnt}
    (hr : evalCode h app code x c = (.ok y, c')) : Adds (codeCost h cst code) c c' := by
  cases code with
  | prim f =>
    simp only [evalCode, liftE, Prod.mk.injEq] at hr
    obtain ⟨_, rfl⟩ := hr
    exact Adds.refl c
  | conj t =>
    simp only [evalCode] at hr
    obtain ⟨r, c1, h1, hr2⟩ := act_bind_ok hr
    clear hr
    replace h1 := liftE_ok h1; obtain ⟨h1, rfl⟩ := h1
    split at hr2
    · obtain ⟨z, c2, h2, hr⟩ := act_bind_ok hr2
      obtain ⟨_, rfl⟩ := pure_ok hr
      exact (happ _ _ _ _ _ h2).congr fun i => (tgtCost_ok h1 i).symm
    · obtain ⟨z, c2, h2, hr⟩ := act_bind_ok hr2
      obtain ⟨_, rfl⟩ := pure_ok hr
      exact (happ _ _ _ _ _ h2).congr fun i => (tgtCost_ok h1 i).symm
  | scal a ka t =>
    simp only [evalCode] at hr
    replace hr := act_bind_ok hr; obtain ⟨r, c1, h1, hr⟩ := hr
    replace h1 := liftE_ok h1; obtain ⟨h1, rfl⟩ := h1
    replace hr := act_bind_ok hr; obtain ⟨z, c2, h2, hr⟩ := hr
    obtain ⟨_, rfl⟩ := pure_ok hr
    exact (happ _ _ _ _ _ h2).congr fun i => (tgtCost_ok h1 i).symm
  | comp a b =>
    simp only [evalCode] at hr
    replace hr := act_bind_ok hr; obtain ⟨r, c1, h1, hr⟩ := hr
    replace h1 := liftE_ok h1; obtain ⟨h1, rfl⟩ := h1
    replace hr := act_bind_ok hr; obtain ⟨z, c2, h2, hr⟩ := hr
    replace hr := act_bind_ok hr; obtain ⟨s, c3, h3, hr⟩ := hr
    replace h3 := liftE_ok h3; obtain ⟨h3, rfl⟩ := h3
    refine ((happ _ _ _ _ _ h2).trans (happ _ _ _ _ _ hr)).congr fun i => ?_
    simp only [codeCost, tgtCost_ok h1, tgtCost_ok h3, Nat.add_comm]
  | add a b =>
    simp only [evalCode] at hr
    replace hr := act_bind_ok hr; obtain ⟨r, c1, h1, hr⟩ := hr
    replace h1 := liftE_ok h1; obtain ⟨h1, rfl⟩ := h1
    replace hr := act_bind_ok hr; obtain ⟨z, c2, h2, hr⟩ := hr
    replace hr := act_bind_ok hr; obtain ⟨s, c3, h3, hr⟩ := hr
    replace h3 := liftE_ok h3; obtain ⟨h3, rfl⟩ := h3
    replace hr := act_bind_ok hr; obtain ⟨w, c4, h4, hr⟩ := hr
    replace hr := liftE_ok hr; obtain ⟨hr, rfl⟩ := hr
    refine ((happ _ _ _ _ _ h2).trans (happ _ _ _ _ _ h4)).congr fun i => ?_
    simp only [codeCost, tgtCost_ok h1, tgtCost_ok h3]
  | sub a b =>
    simp only [evalCode] at hr
    replace hr := act_bind_ok hr; obtain ⟨r, c1, h1, hr⟩ := hr
    replace h1 := liftE_ok h1; obtain ⟨h1, rfl⟩ := h1
    replace hr := act_bind_ok hr; obtain ⟨z, c2, h2, hr⟩ := hr
    replace hr := act_bind_ok hr; obtain ⟨s, c3, h3, hr⟩ := hr
    replace h3 := liftE_ok h3; obtain ⟨h3, rfl⟩ := h3
    replace hr := act_bind_ok hr; obtain ⟨w, c4, h4, hr⟩ := hr
    replace hr := liftE_ok hr; obtain ⟨hr, rfl⟩ := hr
    refine ((happ _ _ _ _ _ h2).trans (happ _ _ _ _ _ h4)).congr fun i => ?_
    simp only [codeCost, tgtCost_ok h1, tgtCost_ok h3]
  | gather n put take t =>
    simp only [evalCode] at hr
    replace hr := act_bind_ok hr; obtain ⟨z, c1, h1, hr⟩ := hr
    replace h1 := liftE_ok h1; obtain ⟨h1, rfl⟩ := h1
    replace hr := act_bind_ok hr; obtain ⟨r, c2, h2, hr⟩ := hr
    replace h2 := liftE_ok h2; obtain ⟨h2, rfl⟩ := h2
    replace hr := act_bind_ok hr; obtain ⟨w, c3, h3, hr⟩ := hr
    replace hr := act_bind_ok hr; obtain ⟨v, c4, h4, hr⟩ := hr
    replace h4 := liftE_ok h4; obtain ⟨h4, rfl⟩ := h4
    obtain ⟨_, rfl⟩ := pure_ok hr
    exact (happ _ _ _ _ _ h3).congr fun i => (tgtCost_ok h2 i).symm

theorem run_adds {h : Heap K} : ∀ (fuel r : Nat) (x : Arr K) (c : Cnt) (y : Arr K) (c' : Cnt),
    run h fuel r x c = (.ok y, c') → Adds (cost h fuel r) c c' := by
  intro fuel
  induction fuel with
  | zero => intro r x c y c' hr; simp [run, Act.raise] at hr
  | succ fuel ih =>
    intro r x c y c' hr
    cases ho : h[r]? with
    | none => simp [run, ho, Act.raise] at hr
    | some o =>
      simp only [run, ho] at hr
      rw [bind_ok (show bump r c = (.ok (), c.modify r (· + 1)) from rfl)] at hr
      split at hr
      · simp [Act.raise] at hr
      · obtain ⟨z, c2, h1, hr⟩ := act_bind_ok hr
        split at hr
        · simp [Act.raise] at hr
        · obtain ⟨_, rfl⟩ := pure_ok hr
          refine ((bump_adds r c).trans (evalCode_adds (fun r x c y c' hy => ih r x c y c' hy) h1)).congr fun i => ?_
          simp only [cost, ho]

theorem codeCost_congr {h : Heap K} {r : Nat} {code : Code K} (hc : CodeOrd h r code) {c1 c2 : Nat → Nat → Nat}
    (hcc : ∀ r', r' < r → c1 r' = c2 r') : codeCost h c1 code = codeCost h c2 code := by
  have key : ∀ t ∈ code.targets, ∀ i, tgtCost h c1 t i = tgtCost h c2 t i := by
    intro t ht i
    unfold tgtCost
    split
    · next r' hr' => rw [hcc r' (hc t ht r' hr')]
    · rfl
  funext i
  cases code with
  | prim f => rfl
  | conj t => exact key t (by simp [Code.targets]) i
  | scal a ka t => exact key t (by simp [Code.targets]) i
  | comp a b => simp only [codeCost]; rw [key a (by simp [Code.targets]), key b (by simp [Code.targets])]
  | add a b => simp only [codeCost]; rw [key a (by simp [Code.targets]), key b (by simp [Code.targets])]
  | sub a b => simp only [codeCost]; rw [key a (by simp [Code.targets]), key b (by simp [Code.targets])]
  | gather n put take t => exact key t (by simp [Code.targets]) i

/-- the cost does not depend on the recursion limit -/
theorem cost_fuel {h : Heap K} (O : Ordered h) : ∀ (r f g : Nat), r < f → r < g → cost h f r = cost h g r := by
  intro r
  induction r using Nat.strong_induction_on with
  | _ r ih =>
    intro f g hf hg
    obtain ⟨f, rfl⟩ : ∃ f', f = f' + 1 := ⟨f - 1, by omega⟩
    obtain ⟨g, rfl⟩ : ∃ g', g = g' + 1 := ⟨g - 1, by omega⟩
    funext i
    simp only [cost]
    cases ho : h[r]? with
    | none => rfl
    | some o =>
      simp only
      rw [codeCost_congr (O r o ho) (c1 := cost h f) (c2 := cost h g) fun r' hr' => ih r' hr' f g (by omega) (by omega)]

/-- what a product with `r` adds to the counters -/
def productCost (h : Heap K) (r : Nat) : Nat → Nat := cost h (r + 1) r

theorem productCost_unfold {h : Heap K} (O : Ordered h) {r : Nat} {o : Obj K} (ho : h[r]? = some o) (i : Nat) :
    productCost h r i = one r i + codeCost h (productCost h) o.code i := by
  have : cost h (r + 1) r i = one r i + codeCost h (cost h r) o.code i := by simp only [cost, ho]
  change cost h (r + 1) r i = _
  rw [this, codeCost_congr (O r o ho) (c1 := cost h r) (c2 := productCost h)
    fun r' hr' => cost_fuel O r' _ _ (by omega) (by omega)]

/-- A product that returns under some recursion limit returns the same under any larger one. -/
theorem run_mono {h : Heap K} : ∀ (fuel r : Nat) (x : Arr K) (c : Cnt) (y : Arr K) (c' : Cnt),
    run h fuel r x c = (.ok y, c') → run h (fuel + 1) r x c = (.ok y, c') := by
  intro fuel
  induction fuel with
  | zero => intro r x c y c' hr; simp [run, Act.raise] at hr
  | succ fuel ih =>
    intro r x c y c' hr
    cases ho : h[r]? with
    | none => simp [run, ho, Act.raise] at hr
    | some o =>
      rw [run] at hr ⊢
      simp only [ho] at hr ⊢
      rw [bind_ok (show bump r c = (.ok (), c.modify r (· + 1)) from rfl)] at hr ⊢
      split at hr
      · simp [Act.raise] at hr
      · next hl =>
        rw [if_neg hl]
        obtain ⟨z, c2, h1, hr2⟩ := act_bind_ok hr
        clear hr
        have : evalCode h (run h (fuel + 1)) o.code x (c.modify r (· + 1)) = (.ok z, c2) := by
          revert h1
          generalize c.modify r (· + 1) = c
          intro h1
          cases hcode : o.code with
          | prim f => rw [hcode] at h1; exact h1
          | conj t =>
            rw [hcode] at h1
            simp only [evalCode] at h1 ⊢
            obtain ⟨s, c3, h2, h3⟩ := act_bind_ok h1
            rw [bind_ok h2]
            clear h1
            split at h3
            · next hk =>
              rw [if_pos hk]
              obtain ⟨w, c4, h4, h1⟩ := act_bind_ok h3
              rw [bind_ok (ih _ _ _ _ _ h4)]; exact h1
            · next hk =>
              rw [if_neg hk]
              obtain ⟨w, c4, h4, h1⟩ := act_bind_ok h3
              rw [bind_ok (ih _ _ _ _ _ h4)]; exact h1
          | scal a ka t =>
            rw [hcode] at h1
            simp only [evalCode] at h1 ⊢
            obtain ⟨s, c3, h2, h1⟩ := act_bind_ok h1
            rw [bind_ok h2]
            obtain ⟨w, c4, h4, h1⟩ := act_bind_ok h1
            rw [bind_ok (ih _ _ _ _ _ h4)]; exact h1
          | comp a b =>
            rw [hcode] at h1
            simp only [evalCode] at h1 ⊢
            obtain ⟨s, c3, h2, h1⟩ := act_bind_ok h1
            rw [bind_ok h2]
            obtain ⟨w, c4, h4, h1⟩ := act_bind_ok h1
            rw [bind_ok (ih _ _ _ _ _ h4)]
            obtain ⟨s, c3, h2, h1⟩ := act_bind_ok h1
            rw [bind_ok h2]; exact ih _ _ _ _ _ h1
          | add a b =>
            rw [hcode] at h1
            simp only [evalCode] at h1 ⊢
            obtain ⟨s, c3, h2, h1⟩ := act_bind_ok h1
            rw [bind_ok h2]
            obtain ⟨w, c4, h4, h1⟩ := act_bind_ok h1
            rw [bind_ok (ih _ _ _ _ _ h4)]
            obtain ⟨s, c3, h2, h1⟩ := act_bind_ok h1
            rw [bind_ok h2]
            obtain ⟨w, c4, h4, h1⟩ := act_bind_ok h1
            rw [bind_ok (ih _ _ _ _ _ h4)]; exact h1
          | sub a b =>
            rw [hcode] at h1
            simp only [evalCode] at h1 ⊢
            obtain ⟨s, c3, h2, h1⟩ := act_bind_ok h1
            rw [bind_ok h2]
            obtain ⟨w, c4, h4, h1⟩ := act_bind_ok h1
            rw [bind_ok (ih _ _ _ _ _ h4)]
            obtain ⟨s, c3, h2, h1⟩ := act_bind_ok h1
            rw [bind_ok h2]
            obtain ⟨w, c4, h4, h1⟩ := act_bind_ok h1
            rw [bind_ok (ih _ _ _ _ _ h4)]; exact h1
          | gather n put take t =>
            rw [hcode] at h1
            simp only [evalCode] at h1 ⊢
            obtain ⟨s, c3, h2, h1⟩ := act_bind_ok h1
            rw [bind_ok h2]
            obtain ⟨s, c3, h2, h1⟩ := act_bind_ok h1
            rw [bind_ok h2]
            obtain ⟨w, c4, h4, h1⟩ := act_bind_ok h1
            rw [bind_ok (ih _ _ _ _ _ h4)]; exact h1
        rw [bind_ok this]
        exact hr2

theorem run_productCost {h : Heap K} (O : Ordered h) {fuel r : Nat} {x y : Arr K} {c c' : Cnt}
    (hr : run h fuel r x c = (.ok y, c')) : Adds (productCost h r) c c' := by
  have up : ∀ k, run h (fuel + k) r x c = (.ok y, c') := by
    intro k
    induction k with
    | zero => exact hr
    | succ k ih => exact run_mono _ _ _ _ _ _ ih
  refine (run_adds _ _ _ _ _ _ (up (r + 1))).congr fun i => ?_
  rw [productCost, cost_fuel O r (fuel + (r + 1)) (r + 1) (by omega) (by omega)]

theorem codeCost_frame {D : List (Mat K)} {h h' : Heap K} (I : HInv D h) (F : Frame h.length h h') {A : Mat K}
    {code : Code K} (hc : CodeOK D A code) {c1 c2 : Nat → Nat → Nat} (hcc : ∀ r, r < h.length → c1 r = c2 r) :
    codeCost h' c1 code = codeCost h c2 code := by
  have key : ∀ t ∈ code.targets, ∀ i, tgtCost h' c1 t i = tgtCost h c2 t i := by
    intro t ht i
    have := targets_lt hc ht
    rw [← I.len] at this
    unfold tgtCost
    rw [F.resolve this]
    split
    · next r' hr' => rw [hcc r' (resolve_lt_len I hr')]
    · rfl
  funext i
  cases code with
  | prim f => rfl
  | conj t => exact key t (by simp [Code.targets]) i
  | scal a ka t => exact key t (by simp [Code.targets]) i
  | comp a b => simp only [codeCost]; rw [key a (by simp [Code.targets]), key b (by simp [Code.targets])]
  | add a b => simp only [codeCost]; rw [key a (by simp [Code.targets]), key b (by simp [Code.targets])]
  | sub a b => simp only [codeCost]; rw [key a (by simp [Code.targets]), key b (by simp [Code.targets])]
  | gather n put take t => exact key t (by simp [Code.targets]) i

theorem cost_frame {D : List (Mat K)} {h h' : Heap K} (I : HInv D h) (F : Frame h.length h h') :
    ∀ (fuel r : Nat), r < h.length → cost h' fuel r = cost h fuel r := by
  intro fuel
  induction fuel with
  | zero => intro r _; rfl
  | succ fuel ih =>
    intro r hr
    funext i
    have ho : h[r]? = some h[r] := List.getElem?_eq_getElem hr
    obtain ⟨A, hA, hok⟩ := I.get' ho
    have ho' : h'[r]? = some h[r] := by rw [F r hr, ho]
    simp only [cost, ho, ho']
    rw [codeCost_frame I F hok.code ih]

/-- later constructions do not change what a product costs -/
theorem productCost_frame {D : List (Mat K)} {h h' : Heap K} (I : HInv D h) (F : Frame h.length h h') {r : Nat}
    (hr : r < h.length) : productCost h' r = productCost h r := cost_frame I F _ r hr

/-- the counters stay sorted out along a program -/
theorem execAll_ordered [DecidableEq K] : ∀ (cs : List (Cmd K)) {D : List (Mat K)} {env : List Nat} {h : Heap K}
    {mats : List (Mat K)}, HInv D h → Link D env mats → Ordered h → WFAll mats cs →
    ∀ {env' : List Nat} {h' : Heap K}, execAll cs (env, h) = .ok (env', h') → Ordered h'
  | [], D, env, h, mats, I, L, O, _, env', h', he => by
    simp only [execAll, Except.ok.injEq, Prod.mk.injEq] at he
    obtain ⟨rfl, rfl⟩ := he
    exact O
  | c :: cs, D, env, h, mats, I, L, O, w, env', h', he => by
    simp only [execAll] at he
    split at he
    · cases he
    · next r h1 hc =>
      obtain ⟨A, hA, D', I', L'⟩ := exec_pinv ⟨D, I, L⟩ w.1 hc
      exact execAll_ordered cs I' L' (exec_ordered I O L hc) (w.2 A hA) he

/-! ## Dense conversion -/

theorem toArrayLoop_ok {D : List (Mat K)} {h : Heap K} (I : HInv D h) (O : Ordered h) {r : Nat} {A : Mat K}
    (hA : D[r]? = some A) (fuel n : Nat) (hn : n = A.cols) : ∀ (m j : Nat) (c : Cnt) (cols : List (List K)) (c' : Cnt),
    j + m = n → toArrayLoop h fuel r A.kind n j m c = (.ok cols, c') →
    cols = (List.range m).map (fun l => (List.range A.rows).map fun i => A.e i (j + l)) ∧
      Adds (fun i => m * productCost h r i) c c' := by
  intro m
  induction m with
  | zero =>
    intro j c cols c' _ hr
    obtain ⟨rfl, rfl⟩ := pure_ok hr
    exact ⟨rfl, (Adds.refl _).congr (by simp)⟩
  | succ m ih =>
    intro j c cols c' hj hr
    simp only [toArrayLoop] at hr
    replace hr := act_bind_ok hr
    obtain ⟨y, c1, h1, hr⟩ := hr
    replace hr := act_bind_ok hr
    obtain ⟨rest, c2, h2, hr⟩ := hr
    obtain ⟨rfl, rfl⟩ := pure_ok hr
    obtain ⟨o, ho, hok⟩ := I.get hA
    have hty : (unitArr (K := K) A.kind n j).Typed := by
      intro a ha
      simp only [unitArr] at ha
      rcases List.mem_or_eq_of_mem_set ha with h | h
      · rw [(List.mem_replicate.1 h).2]; exact Subring.zero_mem _
      · rw [h]; exact Subring.one_mem _
    obtain ⟨hl, hy⟩ := run_sound I fuel r A _ c y c1 hA hty h1
    obtain ⟨hrest, hadd⟩ := ih (j + 1) c1 rest _ (by omega) h2
    refine ⟨?_, ?_⟩
    · rw [List.range_succ_eq_map, List.map_cons, List.map_map]
      congr 1
      · have hyt := Mat.app_typed hok.typed hty
        have hjj : ∀ k : DKind, k.join k = k := by intro k; cases k <;> rfl
        have hk : A.kind.join (unitArr (K := K) A.kind n j).kind = A.kind := hjj A.kind
        rw [hk] at hyt hy
        rw [astype_of_mem (by rw [hy]; exact hyt), hy]
        simp only [Mat.app]
        apply List.map_congr_left
        intro i _
        rw [Finset.sum_eq_single j]
        · simp [unitArr, List.getD_eq_getElem?_getD, (show j < n by omega)]
        · intro l _ hlj
          simp [unitArr, List.getD_eq_getElem?_getD, Ne.symm hlj, List.getElem?_replicate]
          split <;> simp
        · intro hj'; simp at hj'; omega
      · rw [hrest]
        apply List.map_congr_left
        intro l _
        simp only [Function.comp, Nat.add_assoc, Nat.add_comm 1]
    · refine ((run_productCost O h1).trans hadd).congr fun i => ?_
      ring

theorem toArrayLoop_total {D : List (Mat K)} {h : Heap K} (I : HInv D h) {S : Nat → Prop} (hS : Closed h S) {r : Nat}
    (hr : S r) {A : Mat K} (hA : D[r]? = some A) {fuel : Nat} (hf : h.length ≤ fuel) : ∀ (m j : Nat) (c : Cnt),
    ∃ cols c', toArrayLoop h fuel r A.kind A.cols j m c = (.ok cols, c') := by
  intro m
  induction m with
  | zero => intro j c; exact ⟨[], c, rfl⟩
  | succ m ih =>
    intro j c
    have hty : (unitArr (K := K) A.kind A.cols j).Typed := by
      intro a ha
      simp only [unitArr] at ha
      rcases List.mem_or_eq_of_mem_set ha with h | h
      · rw [(List.mem_replicate.1 h).2]; exact Subring.zero_mem _
      · rw [h]; exact Subring.one_mem _
    obtain ⟨y, c1, h1⟩ : ∃ y c1, run h fuel r (unitArr A.kind A.cols j) c = (.ok y, c1) :=
      ⟨_, run_total I hS fuel r A (unitArr A.kind A.cols j) c hr (lt_of_lt_of_le (hS.lt hr) hf) hA hty
        (by simp [unitArr])⟩
    obtain ⟨cols, c2, h2⟩ := ih (j + 1) c1
    refine ⟨(y.astype A.kind).data :: cols, c2, ?_⟩
    simp only [toArrayLoop]
    rw [bind_ok h1, bind_ok h2]
    rfl

end Verif.Linop
