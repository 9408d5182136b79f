import Verif.Linop.Diagonal
import Verif.Linop.CoordProps

/-!
# Property C14: diagonal operators
-/

set_option linter.unusedSectionVars false

namespace Verif.Linop

/-! ## Specification -/

/-- the entrywise product of `d` and `x`, with the result dtype -/
noncomputable def entrywise (d x : Arr ℂ) : Arr ℂ := ⟨d.kind.join x.kind, List.zipWith (· * ·) d.data x.data⟩

/-- the command writes to array `c` -/
def DCmd.Writes (c : Nat) : DCmd → Prop
  | .store c' _ => c' = c
  | _ => False

/-- all arrays the client makes or writes have entries of their dtype -/
def DCmd.Typed : DCmd → Prop
  | .array a => a.Typed
  | .store _ a => a.Typed
  | _ => True

/-! ## Helpers: invariant of the states -/

structure DOp.OK (s : DState) (o : DOp) : Prop where
  src : ∃ a, s.cells[o.src]? = some a ∧ a.kind = o.kind ∧ a.data.length = o.n
  diag : ∃ a, s.cells[o.diag]? = some a ∧ a.kind = o.kind ∧ a.data.length = o.n

structure DState.OK (s : DState) : Prop where
  typed : ∀ a ∈ s.cells, a.Typed
  ops : ∀ o ∈ s.ops, o.OK s
  hid : ∀ c ∈ s.hidden, c < s.cells.length

theorem npAbs_typed {a : Arr ℂ} (ha : a.Typed) : (npAbs a).Typed := by
  intro z hz
  simp only [npAbs, List.mem_map] at hz
  obtain ⟨w, hw, rfl⟩ := hz
  have hwt := ha w hw
  cases hk : a.kind with
  | complex => simp only [npAbs, hk]; exact ⟨‖w‖, rfl⟩
  | real => simp only [npAbs, hk]; exact ⟨‖w‖, rfl⟩
  | int =>
    simp only [npAbs, hk]
    rw [hk] at hwt
    obtain ⟨n, rfl⟩ := hwt
    exact ⟨|n|, by
      have : ‖((n : ℤ) : ℂ)‖ = ((|n| : ℤ) : ℝ) := by rw [Complex.norm_intCast]; push_cast; rfl
      simp only [Int.coe_castRingHom, this, Complex.ofReal_intCast]⟩

theorem npSqrt_typed {a : Arr ℂ} : (npSqrt a).Typed := by
  intro z hz
  cases hk : a.kind with
  | complex => simp only [npSqrt, hk] at hz ⊢; exact DTypes.complex_all z
  | real =>
    simp only [npSqrt, hk, List.mem_map] at hz ⊢
    obtain ⟨w, _, rfl⟩ := hz
    exact ⟨_, rfl⟩
  | int =>
    simp only [npSqrt, hk, List.mem_map] at hz ⊢
    obtain ⟨w, _, rfl⟩ := hz
    exact ⟨_, rfl⟩

theorem get_append_some {α} {l m : List α} {i : Nat} {a : α} (h : l[i]? = some a) : (l ++ m)[i]? = some a := by
  rw [List.getElem?_append_left (List.getElem?_eq_some_iff.1 h).1, h]

theorem DOp.OK.append {s : DState} {o : DOp} (h : o.OK s) (m : List (Arr ℂ)) (hd : List Nat) (os : List DOp) :
    o.OK ⟨s.cells ++ m, hd, os⟩ := by
  obtain ⟨⟨a, h1, h2, h3⟩, ⟨b, g1, g2, g3⟩⟩ := h
  exact ⟨⟨a, get_append_some h1, h2, h3⟩, ⟨b, get_append_some g1, g2, g3⟩⟩

theorem DState.OK.fresh {s : DState} (h : s.OK) {a : Arr ℂ} (ha : a.Typed) : (s.fresh a).OK where
  typed := by
    intro b hb
    simp only [DState.fresh, List.mem_append, List.mem_cons, List.not_mem_nil, or_false] at hb
    rcases hb with hb | rfl | rfl
    · exact h.typed b hb
    · exact ha
    · exact ha
  ops := by
    intro o ho
    simp only [DState.fresh, List.mem_append, List.mem_singleton] at ho
    rcases ho with ho | rfl
    · exact (h.ops o ho).append _ _ _
    · exact ⟨⟨a, by simp [DState.fresh], rfl, rfl⟩, ⟨a, by simp [DState.fresh], rfl, rfl⟩⟩
  hid := by
    intro c hc
    simp only [DState.fresh, List.mem_append, List.mem_singleton, List.length_append, List.length_cons,
      List.length_nil] at hc ⊢
    rcases hc with hc | rfl
    · have := h.hid c hc; omega
    · omega

theorem set_get {l : List (Arr ℂ)} {c i : Nat} {a b x : Arr ℂ} (hb : l[c]? = some b) (hx : l[i]? = some x)
    (hk : a.kind = b.kind) (hl : a.data.length = b.data.length) :
    ∃ y, (l.set c a)[i]? = some y ∧ y.kind = x.kind ∧ y.data.length = x.data.length := by
  by_cases h : c = i
  · subst h
    rw [hb] at hx; cases hx
    exact ⟨a, by rw [List.getElem?_set_self (List.getElem?_eq_some_iff.1 hb).1], hk, hl⟩
  · exact ⟨x, by rw [List.getElem?_set_ne h, hx], rfl, rfl⟩

theorem DState.OK.step {s : DState} (h : s.OK) {c : DCmd} (hc : c.Typed) {s' : DState} (hs : s.step c = .ok s') :
    s'.OK := by
  cases c with
  | array a =>
    cases hs
    refine ⟨?_, ?_, ?_⟩
    · intro b hb
      simp only [List.mem_append, List.mem_singleton] at hb
      rcases hb with hb | rfl
      · exact h.typed b hb
      · exact hc
    · intro o ho; exact (h.ops o ho).append _ _ _
    · intro c hc; have := h.hid c hc; simp; omega
  | mk i =>
    simp only [DState.step] at hs
    cases hi : s.cells[i]? with
    | none => rw [hi] at hs; cases hs
    | some a =>
      rw [hi] at hs; cases hs
      refine ⟨?_, ?_, ?_⟩
      · intro b hb
        simp only [List.mem_append, List.mem_singleton] at hb
        rcases hb with hb | rfl
        · exact h.typed b hb
        · exact h.typed _ (List.mem_of_getElem? hi)
      · intro o ho
        simp only [List.mem_append, List.mem_singleton] at ho
        rcases ho with ho | rfl
        · exact (h.ops o ho).append _ _ _
        · exact ⟨⟨a, get_append_some hi, rfl, rfl⟩, ⟨a, by simp, rfl, rfl⟩⟩
      · intro c hc; have := h.hid c hc; simp; omega
  | store i a =>
    simp only [DState.step] at hs
    cases hi : s.cells[i]? with
    | none => rw [hi] at hs; cases hs
    | some b =>
      rw [hi] at hs
      simp only at hs
      split at hs
      · cases hs
      · split at hs
        · rename_i hkl
          cases hs
          refine ⟨?_, ?_, ?_⟩
          · intro d hd
            rcases List.mem_or_eq_of_mem_set hd with hd | rfl
            · exact h.typed d hd
            · exact hc
          · intro o ho
            obtain ⟨⟨x, h1, h2, h3⟩, ⟨y, g1, g2, g3⟩⟩ := h.ops o ho
            obtain ⟨x', k1, k2, k3⟩ := set_get hi h1 hkl.1 hkl.2
            obtain ⟨y', l1, l2, l3⟩ := set_get hi g1 hkl.1 hkl.2
            exact ⟨⟨x', k1, k2.trans h2, k3.trans h3⟩, ⟨y', l1, l2.trans g2, l3.trans g3⟩⟩
          · intro c hc; have := h.hid c hc; simpa using this
        · cases hs
  | abs i =>
    simp only [DState.step] at hs
    cases hi : s.ops[i]?.bind fun o => s.cells[o.diag]? with
    | none => rw [hi] at hs; cases hs
    | some d =>
      rw [hi] at hs; cases hs
      obtain ⟨o, _, ho⟩ := Option.bind_eq_some_iff.1 hi
      exact h.fresh (npAbs_typed (h.typed _ (List.mem_of_getElem? ho)))
  | sqrt i =>
    simp only [DState.step] at hs
    cases hi : s.ops[i]?.bind fun o => s.cells[o.diag]? with
    | none => rw [hi] at hs; cases hs
    | some d =>
      rw [hi] at hs
      simp only at hs
      unfold sqrtDiag at hs
      split at hs
      · rename_i a ha
        split at ha
        · cases ha
        · cases ha; cases hs; exact h.fresh npSqrt_typed
      · cases hs

theorem DState.OK.steps : ∀ (cs : List DCmd) {s s' : DState}, s.OK → (∀ c ∈ cs, c.Typed) → s.steps cs = .ok s' → s'.OK
  | [], s, s', h, _, hs => by cases hs; exact h
  | c :: cs, s, s', h, hc, hs => by
    simp only [DState.steps] at hs
    cases h1 : s.step c with
    | error e => rw [h1] at hs; cases hs
    | ok s1 =>
      rw [h1] at hs
      exact DState.OK.steps cs (h.step (hc c (by simp)) h1) (fun d hd => hc d (by simp [hd])) hs

theorem DState.OK.init : DState.init.OK :=
  ⟨by simp [DState.init], by simp [DState.init], by simp [DState.init]⟩

theorem entrywise_typed {d x : Arr ℂ} (hd : d.Typed) (hx : x.Typed) : (entrywise d x).Typed := by
  intro z hz
  simp only [entrywise] at hz ⊢
  obtain ⟨k, hk, rfl⟩ := List.getElem_of_mem hz
  simp only [List.length_zipWith] at hk
  simp only [List.getElem_zipWith]
  exact Subring.mul_mem _ (sub_left _ _ (hd _ (List.getElem_mem _))) (sub_right _ _ (hx _ (List.getElem_mem _)))

/-- operators and the other cells survive a step -/
theorem DState.step_frame {s s' : DState} {c : DCmd} (hs : s.step c = .ok s') :
    (∀ (i : Nat) (o : DOp), s.ops[i]? = some o → s'.ops[i]? = some o) ∧
    (∀ (k : Nat) (a : Arr ℂ), s.cells[k]? = some a → ¬ c.Writes k → s'.cells[k]? = some a) ∧
    (∀ k ∈ s.hidden, k ∈ s'.hidden) ∧ (∀ k ∈ s.hidden, ¬ c.Writes k) := by
  cases c with
  | array a =>
    cases hs
    exact ⟨fun _ _ h => h, fun k a h _ => get_append_some h, fun _ h => h, fun _ _ h => h⟩
  | mk i =>
    simp only [DState.step] at hs
    cases hi : s.cells[i]? with
    | none => rw [hi] at hs; cases hs
    | some a =>
      rw [hi] at hs; cases hs
      exact ⟨fun _ _ h => get_append_some h, fun k a h _ => get_append_some h, fun _ h => h, fun _ _ h => h⟩
  | store i a =>
    simp only [DState.step] at hs
    cases hi : s.cells[i]? with
    | none => rw [hi] at hs; cases hs
    | some b =>
      rw [hi] at hs
      simp only at hs
      split at hs
      · cases hs
      · rename_i hn
        split at hs
        · cases hs
          refine ⟨fun _ _ h => h, fun k x h hw => ?_, fun _ h => h, fun k hk hw => ?_⟩
          · have : i ≠ k := hw
            simp only [List.getElem?_set_ne this, h]
          · have : i = k := hw
            exact hn (this ▸ hk)
        · cases hs
  | abs i =>
    simp only [DState.step] at hs
    split at hs
    · cases hs
      exact ⟨fun _ _ h => get_append_some h, fun k a h _ => get_append_some h, fun _ h => by simp [DState.fresh, h],
        fun _ _ h => h⟩
    · cases hs
  | sqrt i =>
    simp only [DState.step] at hs
    split at hs
    · split at hs
      · cases hs
        exact ⟨fun _ _ h => get_append_some h, fun k a h _ => get_append_some h, fun _ h => by simp [DState.fresh, h],
          fun _ _ h => h⟩
      · cases hs
    · cases hs

theorem DState.steps_frame : ∀ (cs : List DCmd) {s s' : DState}, s.steps cs = .ok s' →
    (∀ (i : Nat) (o : DOp), s.ops[i]? = some o → s'.ops[i]? = some o) ∧
    (∀ (k : Nat) (a : Arr ℂ), s.cells[k]? = some a → (∀ c ∈ cs, ¬ c.Writes k) → s'.cells[k]? = some a) ∧
    (∀ k ∈ s.hidden, ∀ c ∈ cs, ¬ c.Writes k)
  | [], s, s', hs => by
    cases hs; exact ⟨fun _ _ h => h, fun _ _ h _ => h, fun _ _ c hc => by simp at hc⟩
  | c :: cs, s, s', hs => by
    simp only [DState.steps] at hs
    cases h1 : s.step c with
    | error e => rw [h1] at hs; cases hs
    | ok s1 =>
      rw [h1] at hs
      obtain ⟨a1, a2, a3, a4⟩ := DState.step_frame h1
      obtain ⟨b1, b2, b3⟩ := DState.steps_frame cs hs
      refine ⟨fun i o h => b1 i o (a1 i o h), fun k a h hw => b2 k a (a2 k a h (hw c (by simp)))
        (fun d hd => hw d (by simp [hd])), fun k hk d hd => ?_⟩
      rcases List.mem_cons.1 hd with rfl | hd
      · exact a4 k hk
      · exact b3 k (a3 k hk) d hd

theorem DState.OK.apply {s : DState} (h : s.OK) {i : Nat} {o : DOp} (ho : s.ops[i]? = some o) {d : Arr ℂ}
    (hd : s.cells[o.src]? = some d) {x : Arr ℂ} (hx : x.Typed) (hl : x.data.length = o.n) :
    s.apply i x = .ok (entrywise d x) := by
  obtain ⟨⟨a, h1, h2, h3⟩, _⟩ := h.ops o (List.mem_of_getElem? ho)
  rw [hd] at h1; cases h1
  have ht := entrywise_typed (h.typed _ (List.mem_of_getElem? hd)) hx
  have e : d.data.length = x.data.length := by rw [h3, hl]
  have hd' : diagFn d x = .ok (entrywise d x) := by simp [diagFn, e, entrywise]
  have hlen : (entrywise d x).data.length = o.n := by simp [entrywise, hl, h3]
  simp only [DState.apply, ho, hl, ne_eq, not_true_eq_false, if_false, hd, hd', hlen]
  congr 1
  have : o.kind.join x.kind = (entrywise d x).kind := by simp [entrywise, h2]
  rw [this]
  exact astype_of_mem ht

theorem DState.OK.applyH {s : DState} (h : s.OK) {i : Nat} {o : DOp} (ho : s.ops[i]? = some o) {d : Arr ℂ}
    (hd : s.cells[o.src]? = some d) {x : Arr ℂ} (hx : x.Typed) (hl : x.data.length = o.n) :
    s.applyH i x = .ok (entrywise d.conj x) := by
  obtain ⟨⟨a, h1, h2, h3⟩, _⟩ := h.ops o (List.mem_of_getElem? ho)
  rw [hd] at h1; cases h1
  have hdt := h.typed _ (List.mem_of_getElem? hd)
  by_cases hk : o.kind = .complex
  · have ht := entrywise_typed (Arr.conj_typed hdt) hx
    have e : d.conj.data.length = x.data.length := by simp [Arr.conj, h3, hl]
    have hd' : diagFn d.conj x = .ok (entrywise d.conj x) := by simp [diagFn, e, entrywise]
    have hlen : (entrywise d.conj x).data.length = o.n := by simp [entrywise, Arr.conj, hl, h3]
    simp only [DState.applyH, ho, hk, hl, ne_eq, not_true_eq_false, if_false, hd, hd', hlen]
    congr 1
    have : DKind.join .complex x.kind = (entrywise d.conj x).kind := by
      simp only [entrywise, Arr.conj, h2, hk]
    rw [this]
    exact astype_of_mem ht
  · have : d.conj = d := by
      have := map_star_of_real hdt (by rw [h2]; exact hk)
      simp only [Arr.conj, this]
    simp only [DState.applyH, ho, hk, ne_eq, not_false_eq_true, if_true, this]
    exact h.apply ho hd hx hl

theorem npSqrt_sq {d : Arr ℂ} (hdt : d.Typed) (hneg : ¬ (d.kind ≠ .complex ∧ ∃ z ∈ d.data, z.re < 0)) :
    (npSqrt d).data.map (fun z => z * z) = d.data := by
  by_cases hk : d.kind = .complex
  · simp only [npSqrt, hk, List.map_map]
    conv_rhs => rw [← List.map_id d.data]
    apply List.map_congr_left
    intro z _
    simp only [Function.comp, id]
    rw [← sq, ← Complex.cpow_nat_mul]
    simp
  · have hnn : ∀ z ∈ d.data, ((Real.sqrt z.re : ℝ) : ℂ) * ((Real.sqrt z.re : ℝ) : ℂ) = z := by
      intro z hz
      have hz0 : 0 ≤ z.re := by
        by_contra hlt
        exact hneg ⟨hk, z, hz, not_le.1 hlt⟩
      have hzr : star z = z := star_eq_of_mem hk (hdt z hz)
      have him : z.im = 0 := by
        have := congrArg Complex.im hzr
        simp at this; linarith
      rw [← Complex.ofReal_mul, Real.mul_self_sqrt hz0]
      exact Complex.ext (by simp) (by simp [him])
    have : (npSqrt d).data = d.data.map fun z => ((Real.sqrt z.re : ℝ) : ℂ) := by
      unfold npSqrt; split
      · exact absurd ‹_› hk
      · rfl
    rw [this, List.map_map]
    conv_rhs => rw [← List.map_id d.data]
    apply List.map_congr_left
    intro z hz
    simpa using hnn z hz

theorem ReachTotal.snoc {K : Type} [CommRing K] [StarRing K] [DTypes K] [DecidableEq K] {env : List Nat} {h : Heap K}
    {mats : List (Mat K)} (R : ReachTotal env h mats)
    {c : Cmd K} (w : c.WF mats) (hc : c.Complete) {r : Nat} {h' : Heap K} (hx : c.exec env h = .ok (r, h')) {A : Mat K}
    (hA : c.spec mats = .ok A) : ReachTotal (env ++ [r]) h' (mats ++ [A]) := by
  obtain ⟨cs, h1, h0, h2, h3⟩ := R
  refine ⟨cs ++ [c], WFAll_append cs c [] h1 h3 w, ?_, execAll_append cs c _ h2 hx,
    specAll_append cs c _ h3 hA⟩
  intro d hd
  rcases List.mem_append.1 hd with hd | hd
  · exact h0 d hd
  · rw [List.mem_singleton.1 hd]; exact hc

theorem diag_mul_app (a : Arr ℂ) (x : List ℂ) (hx : x.length = a.data.length) :
    ((Mat.diag a).mul (Mat.diag a)).app x = List.zipWith (· * ·) (a.data.map fun z => z * z) x := by
  rw [Mat.app_mul _ _ rfl, diag_app a x hx, diag_app a _ (by simp [hx])]
  apply List.ext_getElem (by simp [hx])
  intro i h1 h2
  simp [mul_assoc]

/-! ## C14 -/

/-- **C14, action, abs, sqrt and aliasing.**  Let a client run any commands `pre`, then build
`op = DiagonalOperator(array c)` when the array holds `d`, then run any commands `post` that do not write to the
caller's array (nor, for the `diag` clause, to the array handed out by `op.diag`).  Then `op * x` is the entrywise
product of `d` and `x`, `op.H * x` the one of `conj(d)` and `x`, and `op.diag` is `d`.

Partial: the property also claims this when the caller does write to the array, which is false
(`C14_caller_mutation`). -/
theorem C14_diagonal_partial (pre post : List DCmd) (s s' s'' : DState) (c : Nat) (d : Arr ℂ)
    (ht : ∀ e ∈ pre ++ post, e.Typed)
    (h1 : DState.init.steps pre = .ok s) (hd : s.cells[c]? = some d)
    (h2 : s.step (.mk c) = .ok s') (h3 : s'.steps post = .ok s'') :
    ((∀ e ∈ post, ¬ e.Writes c) → ∀ x : Arr ℂ, x.Typed → x.data.length = d.data.length →
      s''.apply s.ops.length x = .ok (entrywise d x) ∧ s''.applyH s.ops.length x = .ok (entrywise d.conj x)) ∧
    ((∀ e ∈ post, ¬ e.Writes s.cells.length) → s''.diagOf s.ops.length = some d) := by
  have ok := DState.OK.init.steps pre (fun e he => ht e (by simp [he])) h1
  have ok' := ok.step (c := .mk c) trivial h2
  have ok'' := DState.OK.steps post ok' (fun e he => ht e (by simp [he])) h3
  simp only [DState.step, hd] at h2
  cases h2
  obtain ⟨f1, f2, _⟩ := DState.steps_frame post h3
  have ho : s''.ops[s.ops.length]? = some ⟨c, s.cells.length, d.data.length, d.kind⟩ := f1 _ _ (by simp)
  refine ⟨fun hw x hx hl => ?_, fun hw => ?_⟩
  · have hc : s''.cells[c]? = some d := f2 c d (get_append_some hd) hw
    exact ⟨ok''.apply ho hc hx hl, ok''.applyH ho hc hx hl⟩
  · simp only [DState.diagOf, ho, Option.bind_some]
    exact f2 _ _ (by simp) hw

/-- **C14 (violated clause).**  After `d = array; op = DiagonalOperator(d); d[:] = d'` the operator multiplies by
`d'` while `op.diag` still is `d`, whatever `d` and `d'` are (of equal size and dtype). -/
theorem C14_caller_mutation (d d' : Arr ℂ) (hd : d.Typed) (hd' : d'.Typed) (hk : d'.kind = d.kind)
    (hl : d'.data.length = d.data.length) :
    ∃ s, DState.init.steps [.array d, .mk 0, .store 0 d'] = .ok s ∧ s.diagOf 0 = some d ∧
      ∀ x : Arr ℂ, x.Typed → x.data.length = d.data.length → s.apply 0 x = .ok (entrywise d' x) := by
  have hs : DState.init.steps [.array d, .mk 0, .store 0 d'] =
      .ok ⟨[d', d], [], [⟨0, 1, d.data.length, d.kind⟩]⟩ := by
    simp [DState.steps, DState.step, DState.init, hk, hl]
  refine ⟨_, hs, rfl, ?_⟩
  intro x hx hxl
  have ok := DState.OK.steps _ DState.OK.init (by
    intro e he
    simp only [List.mem_cons, List.not_mem_nil, or_false] at he
    rcases he with rfl | rfl | rfl
    · exact hd
    · trivial
    · exact hd') hs
  exact ok.apply (i := 0) (o := ⟨0, 1, d.data.length, d.kind⟩) rfl rfl hx hxl

/-- **C14, derived operators.**  `abs(op)` has the absolute values of the current `op.diag` on its diagonal;
`sqrt(op)` raises `ValueError` iff `op` is not complex and a diagonal entry is negative, and otherwise has a
diagonal whose entries square to those of `op.diag` and are nonnegative if `op` is not complex.  Both keep multiplying
by that diagonal whatever the client does afterwards: their arrays are out of reach. -/
theorem C14_abs_sqrt (pre post : List DCmd) (s : DState) (i : Nat) (d : Arr ℂ)
    (ht : ∀ e ∈ pre ++ post, e.Typed)
    (h1 : DState.init.steps pre = .ok s) (hd : s.diagOf i = some d) :
    (∃ s' a, s.step (.abs i) = .ok s' ∧ a.data = d.data.map (fun z => ((‖z‖ : ℝ) : ℂ)) ∧ a.kind ≠ .complex ∧
      ∀ s'', s'.steps post = .ok s'' → ∀ x : Arr ℂ, x.Typed → x.data.length = d.data.length →
        s''.apply s.ops.length x = .ok (entrywise a x)) ∧
    (s.step (.sqrt i) = .error .valueError ↔ d.kind ≠ .complex ∧ ∃ z ∈ d.data, z.re < 0) ∧
    (¬ (d.kind ≠ .complex ∧ ∃ z ∈ d.data, z.re < 0) →
      ∃ s' a, s.step (.sqrt i) = .ok s' ∧ a.data.map (fun z => z * z) = d.data ∧
        (a.kind = .complex ↔ d.kind = .complex) ∧
        (d.kind ≠ .complex → ∀ z ∈ a.data, 0 ≤ z.re ∧ z.im = 0) ∧
        ∀ s'', s'.steps post = .ok s'' → ∀ x : Arr ℂ, x.Typed → x.data.length = d.data.length →
          s''.apply s.ops.length x = .ok (entrywise a x)) := by
  have ok := DState.OK.init.steps pre (fun e he => ht e (by simp [he])) h1
  have hdt : d.Typed := by
    simp only [DState.diagOf] at hd
    obtain ⟨o, _, ho⟩ := Option.bind_eq_some_iff.1 hd
    exact ok.typed _ (List.mem_of_getElem? ho)
  have key : ∀ (a : Arr ℂ), a.Typed → a.data.length = d.data.length → ∀ s'', (s.fresh a).steps post = .ok s'' →
      ∀ x : Arr ℂ, x.Typed → x.data.length = d.data.length → s''.apply s.ops.length x = .ok (entrywise a x) := by
    intro a ha hal s'' h3 x hx hxl
    have ok'' := DState.OK.steps post (ok.fresh ha) (fun e he => ht e (by simp [he])) h3
    obtain ⟨f1, f2, f3⟩ := DState.steps_frame post h3
    have ho : s''.ops[s.ops.length]? = some ⟨s.cells.length, s.cells.length + 1, a.data.length, a.kind⟩ :=
      f1 _ _ (by simp [DState.fresh])
    refine ok''.apply ho (f2 _ a (by simp [DState.fresh]) (f3 _ (by simp [DState.fresh]))) hx (by rw [hxl, hal])
  have hd' : (s.ops[i]?.bind fun o => s.cells[o.diag]?) = some d := hd
  refine ⟨⟨s.fresh (npAbs d), npAbs d, by simp only [DState.step, hd'], rfl, ?_, key _ (npAbs_typed hdt) (by simp [npAbs])⟩,
    ?_, ?_⟩
  · simp only [npAbs]
    split
    · simp
    · assumption
  · simp only [DState.step, hd', sqrtDiag]
    by_cases hneg : d.kind ≠ .complex ∧ ∃ z ∈ d.data, z.re < 0
    · simp [hneg]
    · simp [hneg]
  · intro hneg
    refine ⟨s.fresh (npSqrt d), npSqrt d, by simp only [DState.step, hd', sqrtDiag, if_neg hneg], ?_, ?_, ?_,
      key _ npSqrt_typed ?_⟩
    · exact npSqrt_sq hdt hneg
    · unfold npSqrt; split <;> simp_all
    · intro hk z hz
      have : (npSqrt d).data = d.data.map fun z => ((Real.sqrt z.re : ℝ) : ℂ) := by
        unfold npSqrt; split
        · exact absurd ‹_› hk
        · rfl
      rw [this] at hz
      obtain ⟨w, _, rfl⟩ := List.mem_map.1 hz
      exact ⟨by simp [Real.sqrt_nonneg], by simp⟩
    · unfold npSqrt; split <;> simp

open Classical in
/-- **C14, composition.**  In any state a client program can reach, the operator `sqrt(op)` of a diagonal operator
composed with itself exists and its products reproduce those of `op`. -/
theorem C14_sqrt_squared {env : List Nat} {h : Heap ℂ} {mats : List (Mat ℂ)} (R : ReachTotal env h mats)
    (d a : Arr ℂ) (hd : d.Typed) (ha : sqrtDiag d = .ok a) :
    ∃ s h', mulLinop (DiagonalOperator a h).1 (DiagonalOperator a h).1 (DiagonalOperator a h).2 = .ok (s, h') ∧
      ∀ (fuel : Nat) (x : Arr ℂ) (c : Cnt), h'.length ≤ fuel → x.Typed → x.data.length = d.data.length →
        ∃ y c', run h' fuel s x c = (.ok y, c') ∧ y.data = List.zipWith (· * ·) d.data x.data := by
  have hneg : ¬ (d.kind ≠ .complex ∧ ∃ z ∈ d.data, z.re < 0) := by
    intro hn
    simp [sqrtDiag, hn] at ha
  simp only [sqrtDiag, if_neg hneg, Except.ok.injEq] at ha
  subst ha
  have hsq := npSqrt_sq hd hneg
  have hlen : (npSqrt d).data.length = d.data.length := by
    have := congrArg List.length hsq; simpa using this
  have R1 := R.snoc (c := .diag (npSqrt d)) npSqrt_typed trivial (r := (DiagonalOperator (npSqrt d) h).1)
    (h' := (DiagonalOperator (npSqrt d) h).2) rfl rfl
  have hl := R.reach.len
  generalize (DiagonalOperator (npSqrt d) h).1 = r at *
  generalize (DiagonalOperator (npSqrt d) h).2 = h1 at *
  have hr : (env ++ [r])[env.length]? = some r := by simp
  have hA : (mats ++ [Mat.diag (npSqrt d)])[env.length]? = some (Mat.diag (npSqrt d)) := by rw [hl]; simp
  have hspec : (Cmd.mul env.length env.length).spec (mats ++ [Mat.diag (npSqrt d)]) =
      .ok ((Mat.diag (npSqrt d)).mul (Mat.diag (npSqrt d))) := by
    simp only [Cmd.spec, mlook, hA, bind, Except.bind]
    exact if_pos rfl
  have hexec : (Cmd.mul env.length env.length).exec (env ++ [r]) h1 = mulLinop r r h1 := by
    simp only [Cmd.exec, look, hr, bind, Except.bind]
  cases hm : mulLinop r r h1 with
  | error e =>
    exfalso
    obtain ⟨o, ho, hi, hout, _⟩ := (R1.reach.represents hr hA).1.shape
    simp only [mulLinop, ho] at hm
    have : o.nargin = o.nargout := by rw [hi, hout]; rfl
    simp [this] at hm
  | ok p =>
    obtain ⟨t, h2⟩ := p
    have R2 := R1.snoc (c := .mul env.length env.length) trivial trivial (hexec.trans hm) hspec
    refine ⟨t, h2, rfl, ?_⟩
    intro fuel x c hf hx hxl
    have hT := R2.total (i := env.length + 1) (r := t) (A := (Mat.diag (npSqrt d)).mul (Mat.diag (npSqrt d)))
      (by simp) (by rw [hl]; simp)
    obtain ⟨c', hrun⟩ := hT fuel x c hf hx (by simpa [Mat.mul, Mat.diag, hlen] using hxl)
    exact ⟨_, c', hrun, by rw [diag_mul_app _ _ (by rw [hxl, hlen]), hsq]⟩

/-! ### Concrete cases -/

/-- a history to which `C14_diagonal_partial` applies: build an array, an operator, another array, overwrite that -/
example : ∃ s s' s'', DState.init.steps [.array ⟨.complex, [1, Complex.I]⟩] = .ok s ∧
    s.cells[0]? = some ⟨.complex, [1, Complex.I]⟩ ∧ s.step (.mk 0) = .ok s' ∧
    s'.steps [.array ⟨.complex, [2]⟩, .store 2 ⟨.complex, [3]⟩] = .ok s'' ∧
    ∀ e ∈ [DCmd.array ⟨.complex, [2]⟩, DCmd.store 2 ⟨.complex, [3]⟩], ¬ e.Writes 0 := by
  refine ⟨_, _, _, by simp [DState.steps, DState.step, DState.init]; rfl, rfl, rfl,
    by simp [DState.steps, DState.step]; rfl, ?_⟩
  intro e he
  simp only [List.mem_cons, List.not_mem_nil, or_false] at he
  rcases he with rfl | rfl <;> simp [DCmd.Writes]

/-- mutation by the caller: the diagonal `(1, 1)` becomes `(5, 1)` -/
example : ∃ s, DState.init.steps [.array ⟨.complex, [1, 1]⟩, .mk 0, .store 0 ⟨.complex, [5, 1]⟩] = .ok s ∧
    s.diagOf 0 = some ⟨.complex, [1, 1]⟩ ∧ ∀ x : Arr ℂ, x.Typed → x.data.length = 2 →
      s.apply 0 x = .ok (entrywise ⟨.complex, [5, 1]⟩ x) :=
  C14_caller_mutation ⟨.complex, [1, 1]⟩ ⟨.complex, [5, 1]⟩ (fun a _ => DTypes.complex_all a)
    (fun a _ => DTypes.complex_all a) rfl rfl

/-- the square root of a complex operator is defined -/
example : ∃ a, sqrtDiag ⟨.complex, [-1, 4]⟩ = .ok a := ⟨_, by simp [sqrtDiag]; rfl⟩

/-- the square root of `diag(4, -1)` over the reals raises -/
example : sqrtDiag ⟨.real, [4, -1]⟩ = .error .valueError := by simp [sqrtDiag]

end Verif.Linop
