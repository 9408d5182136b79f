import Verif.Solver.Interrupt
import Verif.Solver.ReuseProps
import Verif.Solver.PreconTwo
import Verif.Solver.InterruptSpec
import Mathlib.Tactic.IntervalCases

/-!
# Lemmas about interrupted calls
-/

namespace Verif.Solver
open Scalar Vect

variable {σ α S U V : Type}

/-! ### Initial parts of lists -/

theorem prefix_append_cases {a b v : List α} (h : v <+: a ++ b) : v <+: a ∨ ∃ c, c <+: b ∧ v = a ++ c := by
  obtain ⟨t, ht⟩ := h
  rcases List.append_eq_append_iff.1 ht with ⟨c, hc1, hc2⟩ | ⟨c, hc1, hc2⟩
  · exact .inl ⟨c, hc1.symm⟩
  · exact .inr ⟨c, ⟨t, hc2.symm⟩, hc1⟩

/-- every initial part satisfies `G` -/
def AllPre (G : List α → Prop) (w : List α) : Prop := ∀ v, v <+: w → G v

theorem AllPre.append {G : List α → Prop} {w b : List α} (hw : AllPre G w) (hb : ∀ c, c <+: b → G (w ++ c)) : AllPre G (w ++ b) := by
  intro v hv
  rcases prefix_append_cases hv with h | ⟨c, hc, rfl⟩
  · exact hw v h
  · exact hb c hc

/-! ### Entries appended by statements -/

/-- the entries that the statements `ws` append to the list `k` -/
def recorded (k : String) (ws : List (Wr S U V)) : List (PyV S U V) :=
  ws.flatMap fun w => match w with
    | .app j l => if j = k then l else []
    | .set _ _ => []

@[simp] theorem recorded_nil (k : String) : recorded k ([] : List (Wr S U V)) = [] := rfl
@[simp] theorem recorded_app (k j : String) (l : List (PyV S U V)) (ws : List (Wr S U V)) :
    recorded k (.app j l :: ws) = (if j = k then l else []) ++ recorded k ws := rfl
@[simp] theorem recorded_set (k j : String) (v : PyV S U V) (ws : List (Wr S U V)) : recorded k (.set j v :: ws) = recorded k ws := rfl
@[simp] theorem recorded_append (k : String) (ws ws' : List (Wr S U V)) : recorded k (ws ++ ws') = recorded k ws ++ recorded k ws' := by
  simp [recorded]

theorem recorded_prefix (k : String) {v w : List (Wr S U V)} (h : v <+: w) : recorded k v <+: recorded k w := by
  obtain ⟨t, rfl⟩ := h
  rw [recorded_append]
  exact ⟨_, rfl⟩

/-- an attribute that is only appended to -/
theorem writeAll_recorded (ws : List (Wr S U V)) (a : Attrs S U V) (k : String) (m : List (PyV S U V)) (ha : a k = some (.list m))
    (h : ∀ v, Wr.set k v ∉ ws) : writeAll ws a k = some (.list (m ++ recorded k ws)) := by
  induction ws generalizing a m with
  | nil => simpa [writeAll] using ha
  | cons w ws ih =>
    rw [writeAll_cons]
    have h' : ∀ v, Wr.set k v ∉ ws := fun v hv => h v (List.mem_cons_of_mem _ hv)
    cases w with
    | set j v =>
      have hj : j ≠ k := fun e => h v (by rw [e]; exact List.mem_cons_self)
      rw [ih _ m (by simp [Wr.exec, Ne.symm hj, ha]) h', recorded_set]
    | app j l =>
      by_cases e : j = k
      · subst e
        rw [ih _ (m ++ l) (by simp [Wr.exec, ha]) h', recorded_app]
        simp
      · rw [ih _ m (by simp [Wr.exec, Ne.symm e, ha]) h', recorded_app]
        simp [e]

/-- statements that empty lists -/
theorem writeAll_emptied (ws : List (Wr S U V)) (a : Attrs S U V) (k : String) (h : ∀ w ∈ ws, w.key = k → w = .set k (.list [])) :
    writeAll ws a k = a k ∨ writeAll ws a k = some (.list []) := by
  induction ws generalizing a with
  | nil => exact .inl rfl
  | cons w ws ih =>
    rw [writeAll_cons]
    have h' := ih (w.exec a) fun w' hw' => h w' (List.mem_cons_of_mem _ hw')
    by_cases e : w.key = k
    · rw [h w List.mem_cons_self e] at h' ⊢
      rcases h' with h' | h'
      · right; rw [h']; simp [Wr.exec]
      · exact .inr h'
    · have : w.exec a k = a k := by
        have := writeAll_not_mem [w] a k (by simpa using e)
        simpa [writeAll] using this
      rw [this] at h'
      exact h'

/-! ### Loops -/

section
variable {cont : σ → Bool} {step : σ → Except PyError σ} {μ : σ → Nat}
  {h : ∀ s t, cont s = true → step s = .ok t → cont t = true → μ t < μ s} {ev : σ → σ → List α}

/-- without the statements the loop is the loop of the model -/
theorem traceLoop_fst (s : σ) (w : List α) : exceptLoop cont step μ h s = (traceLoop cont step μ h ev s w).map Prod.fst :=
  exceptLoop_map (f := Prod.fst) (fun _ => rfl) (fun p => by unfold traceStep; cases step p.1 <;> rfl) (s, w)

theorem traceLoop_inv (P : σ → List α → Prop)
    (hP : ∀ s t w, P s w → cont s = true → step s = .ok t → P t (w ++ ev s t)) {s t : σ} {w w' : List α} (hs : P s w)
    (ht : traceLoop cont step μ h ev s w = .ok (t, w')) : P t w' :=
  (exceptLoop_inv (fun p : σ × List α => P p.1 p.2) (fun p q hp hc hq => by
    obtain ⟨h1, h2⟩ := traceStep_ok hq
    rw [h2]
    exact hP _ _ _ hp hc h1) (s, w) hs (t, w') ht).1

end

theorem newEntries_append {β : Type} (f : β → PyV S U V) (l e : List β) : newEntries f l (l ++ e) = e.map f := by
  simp [newEntries]

/-! ### What is left behind -/

/-- the numbers of entries that the statements append -/
def counts (ws : List (Wr S U V)) : String → Nat := fun k => (recorded k ws).length

theorem writeAll_other (ws : List (Wr S U V)) (a : Attrs S U V) (k : String) (h : k ∉ ws.map Wr.key) : writeAll ws a k = a k :=
  writeAll_not_mem ws a k fun _ he hk => h (hk ▸ List.mem_map_of_mem he)

/-- Assignments with different names: after some of them an attribute has the old value or the new one. -/
theorem writeAll_torn {c w : List (Wr S U V)} (hc : c <+: w) (hnd : (w.map Wr.key).Nodup) (a : Attrs S U V) (k : String) :
    writeAll c a k = a k ∨ writeAll c a k = writeAll w a k := by
  obtain ⟨d, rfl⟩ := hc
  by_cases hk : k ∈ c.map Wr.key
  · right
    rw [writeAll_append, writeAll_other d]
    rw [List.map_append, List.nodup_append] at hnd
    exact fun hd => hnd.2.2 k hk k hd rfl
  · exact .inl (writeAll_other c a k hk)

theorem leftBehind {tr : Trace S U V} {lists : List (ListAttr S U V)} {others : List String} {order : (String → Nat) → Prop}
    {a a' full : Attrs S U V} (hfull : full = writeAll tr.all a)
    (hf : ∀ e ∈ tr.first, e.key ∈ others ∧ e.key ∉ lists.map ListAttr.key ∨ ∃ L ∈ lists, L.base = [] ∧ e = .set L.key (.list []))
    (hb : ∀ L ∈ lists, writeAll tr.first a L.key = some (.list L.base))
    (hm : ∀ e ∈ tr.middle, e.key ∈ others ∧ e.key ∉ lists.map ListAttr.key ∨ ∃ L ∈ lists, ∃ l, e = .app L.key l)
    (hr : ∀ L ∈ lists, recorded L.key tr.middle = L.new)
    (ho : AllPre (fun w => order (counts w)) tr.middle)
    (hl : ∀ e ∈ tr.last, e.key ∉ lists.map ListAttr.key) (hnd : (tr.last.map Wr.key).Nodup)
    (hkey : (lists.map ListAttr.key).Nodup)
    (h : tr.Leaves a a') : LeftBehind lists others order full a a' := by
  obtain ⟨ws, hws, rfl⟩ := h
  have hfk : ∀ c, c <+: tr.first → ∀ k, k ∉ others → k ∉ lists.map ListAttr.key → writeAll c a k = a k := by
    intro c hc k hk1 hk2
    refine writeAll_other _ _ _ fun hmem => ?_
    obtain ⟨e, he, rfl⟩ := List.mem_map.1 hmem
    rcases hf e (hc.subset he) with h | ⟨L, hL, -, rfl⟩
    · exact hk1 h.1
    · exact hk2 (List.mem_map_of_mem hL)
  have hmk : ∀ c, c <+: tr.middle → ∀ k, k ∉ others → k ∉ lists.map ListAttr.key →
      writeAll c (writeAll tr.first a) k = a k := by
    intro c hc k hk1 hk2
    rw [writeAll_other c, hfk _ List.prefix_rfl k hk1 hk2]
    intro hmem
    obtain ⟨e, he, rfl⟩ := List.mem_map.1 hmem
    rcases hm e (hc.subset he) with h | ⟨L, hL, l, rfl⟩
    · exact hk1 h.1
    · exact hk2 (List.mem_map_of_mem hL)
  have hml : ∀ c, c <+: tr.middle → ∀ L ∈ lists,
      writeAll c (writeAll tr.first a) L.key = some (.list (L.base ++ recorded L.key c)) := by
    intro c hc L hL
    refine writeAll_recorded _ _ _ _ (hb L hL) fun v hv => ?_
    rcases hm _ (hc.subset hv) with h | ⟨L', -, l, hl'⟩
    · exact h.2 (List.mem_map_of_mem hL)
    · cases hl'
  unfold Trace.all at hws hfull
  rw [List.append_assoc] at hws
  rcases prefix_append_cases hws with hws | ⟨c, hc, rfl⟩
  · refine .early (hfk ws hws) fun L hL => ?_
    by_cases hb' : L.base = []
    · refine (writeAll_emptied ws a L.key fun e he hk => ?_).imp_right fun h => ⟨hb', h⟩
      rcases hf e (hws.subset he) with h | ⟨L', -, -, rfl⟩
      · exact absurd (hk ▸ List.mem_map_of_mem hL) h.2
      · rw [show L'.key = L.key from hk]
    · refine .inl (writeAll_other _ _ _ fun hmem => ?_)
      obtain ⟨e, he, hk⟩ := List.mem_map.1 hmem
      rcases hf e (hws.subset he) with h | ⟨L', hL', hb'', rfl⟩
      · exact h.2 (hk ▸ List.mem_map_of_mem hL)
      · have : L' = L := List.inj_on_of_nodup_map hkey hL' hL hk
        exact hb' (this ▸ hb'')
  · rcases prefix_append_cases hc with hc | ⟨d, hd, rfl⟩
    · refine .running (counts c) (ho c hc) (fun k hk1 hk2 => ?_) fun L hL => ?_
      · rw [writeAll_append, hmk c hc k hk1 hk2]
      · have hp := recorded_prefix L.key hc
        rw [hr L hL] at hp
        refine ⟨hp.length_le, ?_⟩
        rw [writeAll_append, hml c hc L hL]
        congr 3
        exact List.prefix_iff_eq_take.1 hp
    · have hdk : ∀ c, c <+: tr.last → ∀ k ∈ lists.map ListAttr.key, k ∉ c.map Wr.key := by
        intro c hc k hk hmem
        obtain ⟨e, he, rfl⟩ := List.mem_map.1 hmem
        exact hl e (hc.subset he) hk
      have hfin : ∀ c, c <+: tr.last → ∀ L ∈ lists,
          writeAll c (writeAll tr.middle (writeAll tr.first a)) L.key = some (.list (L.base ++ L.new)) := by
        intro c hc L hL
        rw [writeAll_other _ _ _ (hdk c hc _ (List.mem_map_of_mem hL)), hml _ List.prefix_rfl L hL, hr L hL]
      refine .finished (fun L hL => ?_) fun k hk => ?_
      · rw [writeAll_append, writeAll_append, hfin d hd L hL]
      · rw [hfull]
        simp only [writeAll_append]
        by_cases hk2 : k ∈ lists.map ListAttr.key
        · obtain ⟨L, hL, rfl⟩ := List.mem_map.1 hk2
          rw [hfin d hd L hL, hfin _ List.prefix_rfl L hL]
          exact .inr rfl
        · rcases writeAll_torn hd hnd (writeAll tr.middle (writeAll tr.first a)) k with h | h
          · rw [h, hmk _ List.prefix_rfl k hk hk2]
            exact .inl rfl
          · exact .inr h

theorem statusWrites_keys (istop : Nat) :
    (statusWrites istop : List (Wr S U V)).map Wr.key = [] ∨ (statusWrites istop : List (Wr S U V)).map Wr.key = ["status"] := by
  unfold statusWrites
  by_cases h : istop ≤ 8
  · interval_cases istop <;> simp [Wr.key]
  · left
    have h0 : istop ≠ 0 := by omega
    have h1 : istop ∉ [1, 2, 4, 5] := by simp; omega
    have h3 : istop ∉ [3, 6] := by simp; omega
    have h7 : istop ≠ 7 := by omega
    have h8 : istop ≠ 8 := by omega
    rw [if_neg h0, if_neg h1, if_neg h3, if_neg h7, if_neg h8]
    rfl

/-! ### The complete call -/

/-- an assignment -/
def Wr.isSet : Wr S U V → Bool
  | .set _ _ => true
  | .app _ _ => false

theorem writeAll_sets (ws : List (Wr S U V)) (a : Attrs S U V) (k : String) (h : ∀ l, Wr.app k l ∉ ws) :
    writeAll ws a k = writeAll (ws.filter Wr.isSet) a k := by
  induction ws using List.reverseRecOn with
  | nil => rfl
  | append_singleton ws w ih =>
    have h' : ∀ l, Wr.app k l ∉ ws := fun l hl => h l (List.mem_append_left _ hl)
    rw [List.filter_append, writeAll_append, writeAll_append]
    cases w with
    | set j v =>
      simp only [List.filter_cons, Wr.isSet, if_true, List.filter_nil, writeAll_cons, writeAll_nil, Wr.exec]
      split_ifs
      · rfl
      · exact ih h'
    | app j l =>
      have hj : j ≠ k := fun e => h l (by rw [e]; exact List.mem_append_right _ List.mem_cons_self)
      rw [writeAll_other _ _ k (by simp [Wr.key, Ne.symm hj]), ih h']
      simp [Wr.isSet, writeAll]

/-- Statements that append the same entries and make the same assignments have the same effect. -/
theorem writeAll_same {m m' : List (Wr S U V)} {lists : List (ListAttr S U V)} {b : Attrs S U V}
    (hm : ∀ e ∈ m, e.isSet = true ∧ e.key ∉ lists.map ListAttr.key ∨ ∃ L ∈ lists, ∃ l, e = .app L.key l)
    (hm' : ∀ e ∈ m', e.isSet = true ∧ e.key ∉ lists.map ListAttr.key ∨ ∃ L ∈ lists, ∃ l, e = .app L.key l)
    (hr : ∀ L ∈ lists, recorded L.key m = recorded L.key m') (hs : m.filter Wr.isSet = m'.filter Wr.isSet)
    (hb : ∀ L ∈ lists, b L.key = some (.list L.base)) : writeAll m b = writeAll m' b := by
  have hset : ∀ n : List (Wr S U V),
      (∀ e ∈ n, e.isSet = true ∧ e.key ∉ lists.map ListAttr.key ∨ ∃ L ∈ lists, ∃ l, e = .app L.key l) →
      ∀ k ∉ lists.map ListAttr.key, ∀ l, Wr.app k l ∉ n := by
    intro n hn k hk l hl
    rcases hn _ hl with h | ⟨L, hL, l', he⟩
    · simp [Wr.isSet] at h
    · cases he
      exact hk (List.mem_map_of_mem hL)
  have happ : ∀ n : List (Wr S U V),
      (∀ e ∈ n, e.isSet = true ∧ e.key ∉ lists.map ListAttr.key ∨ ∃ L ∈ lists, ∃ l, e = .app L.key l) →
      ∀ L ∈ lists, writeAll n b L.key = some (.list (L.base ++ recorded L.key n)) := by
    intro n hn L hL
    refine writeAll_recorded _ _ _ _ (hb L hL) fun v hv => ?_
    rcases hn _ hv with h | ⟨L', -, l, he⟩
    · exact h.2 (List.mem_map_of_mem hL)
    · cases he
  funext k
  by_cases hk : k ∈ lists.map ListAttr.key
  · obtain ⟨L, hL, rfl⟩ := List.mem_map.1 hk
    rw [happ m hm L hL, happ m' hm' L hL, hr L hL]
  · rw [writeAll_sets m b k (hset m hm k hk), writeAll_sets m' b k (hset m' hm' k hk), hs]

/-- the two parts of the theorems together -/
theorem interrupted {tr : Trace S U V} {lists : List (ListAttr S U V)} {others : List String} {order : (String → Nat) → Prop}
    {writes apps : List (Wr S U V)} {a a' : Attrs S U V} (hw : writes = tr.first ++ apps ++ tr.last)
    (hf : ∀ e ∈ tr.first, e.key ∈ others ∧ e.key ∉ lists.map ListAttr.key ∨ ∃ L ∈ lists, L.base = [] ∧ e = .set L.key (.list []))
    (hb : ∀ L ∈ lists, writeAll tr.first a L.key = some (.list L.base))
    (hm : ∀ e ∈ tr.middle, (e.isSet = true ∧ e.key ∈ others ∧ e.key ∉ lists.map ListAttr.key) ∨ ∃ L ∈ lists, ∃ l, e = .app L.key l)
    (ha : ∀ e ∈ apps, (e.isSet = true ∧ e.key ∈ others ∧ e.key ∉ lists.map ListAttr.key) ∨ ∃ L ∈ lists, ∃ l, e = .app L.key l)
    (hr : ∀ L ∈ lists, recorded L.key tr.middle = L.new) (hra : ∀ L ∈ lists, recorded L.key apps = L.new)
    (hs : tr.middle.filter Wr.isSet = apps.filter Wr.isSet)
    (ho : AllPre (fun w => order (counts w)) tr.middle)
    (hl : ∀ k ∈ tr.last.map Wr.key, k ∉ lists.map ListAttr.key) (hnd : (tr.last.map Wr.key).Nodup)
    (hkey : (lists.map ListAttr.key).Nodup) (h : tr.Leaves a a') :
    writeAll tr.all a = writeAll writes a ∧ LeftBehind lists others order (writeAll writes a) a a' := by
  have hfull : writeAll tr.all a = writeAll writes a := by
    rw [hw]
    unfold Trace.all
    simp only [writeAll_append]
    congr 1
    exact writeAll_same (lists := lists) (fun e he => (hm e he).imp_left fun h => ⟨h.1, h.2.2⟩)
      (fun e he => (ha e he).imp_left fun h => ⟨h.1, h.2.2⟩) (fun L hL => by rw [hr L hL, hra L hL]) hs hb
  exact ⟨hfull, leftBehind hfull.symm hf hb (fun e he => (hm e he).imp_left And.right) hr ho
    (fun e he => hl _ (List.mem_map_of_mem he)) hnd hkey h⟩

/-- statements that only append -/
theorem filter_apps {lists : List (ListAttr S U V)} {ws : List (Wr S U V)} (h : ∀ e ∈ ws, ∃ L ∈ lists, ∃ l, e = .app L.key l) :
    ws.filter Wr.isSet = [] := by
  rw [List.filter_eq_nil_iff]
  intro e he
  obtain ⟨L, -, l, rfl⟩ := h e he
  simp [Wr.isSet]

end Verif.Solver
