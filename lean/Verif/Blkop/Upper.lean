import Verif.Blkop.Ops

/-!
# Helper lemmas: completing the upper triangle, mirroring after an assignment
-/

set_option linter.unusedSectionVars false

namespace Verif.Blkop
open Verif.Linop Finset

variable {K : Type} [CommRing K] [StarRing K] [DTypes K] [DecidableEq K]

/-! ## Monadic loops -/

theorem foldlM_push {α β : Type} (step : List β → α → Except Err (List β)) (g : α → β) :
    ∀ (l : List α) (row : List β), (∀ a ∈ l, ∀ row, step row a = .ok (g a :: row)) →
      l.reverse.foldlM step row = .ok (l.map g ++ row)
  | [], row, _ => rfl
  | a :: l, row, hs => by
    rw [List.reverse_cons, List.foldlM_append, foldlM_push step g l row (fun b hb => hs b (by simp [hb]))]
    simp only [bind, Except.bind, List.foldlM_cons, List.foldlM_nil, hs a (by simp)]
    rfl

theorem mapM_err {α β : Type} (f : α → Except Err β) : ∀ (l : List α) (e : Err), l.mapM f = .error e →
    ∃ a ∈ l, f a = .error e
  | [], e, h => by cases h
  | a :: l, e, h => by
    rw [List.mapM_cons] at h
    cases hf : f a with
    | error e' =>
      rw [hf] at h
      simp only [bind, Except.bind, Except.error.injEq] at h
      exact ⟨a, by simp, by rw [hf, h]⟩
    | ok b =>
      rw [hf] at h
      simp only [bind, Except.bind] at h
      cases hl : l.mapM f with
      | error e' =>
        rw [hl] at h
        simp only [Except.error.injEq] at h
        obtain ⟨c, hc, hce⟩ := mapM_err f l e (by rw [hl, h])
        exact ⟨c, by simp [hc], hce⟩
      | ok bs => rw [hl] at h; cases h

theorem mapM_ok_inv {α β : Type} (f : α → Except Err β) : ∀ (l : List α) (bs : List β), l.mapM f = .ok bs →
    ∀ a ∈ l, ∃ b, f a = .ok b
  | [], _, _, a, ha => by simp at ha
  | a :: l, bs, h, c, hc => by
    rw [List.mapM_cons] at h
    cases hf : f a with
    | error e' => rw [hf] at h; cases h
    | ok b =>
      rw [hf] at h
      simp only [bind, Except.bind] at h
      cases hl : l.mapM f with
      | error e' => rw [hl] at h; cases h
      | ok bs' =>
        rcases List.mem_cons.1 hc with rfl | hc
        · exact ⟨b, hf⟩
        · exact mapM_ok_inv f l bs' hl c hc

/-! ## The upper triangle -/

/-- an upper triangle given by a function -/
def mkU (n : Nat) (R : Nat → Nat → Nat) : Grid :=
  (List.range n).map fun i => (List.range (n - i)).map fun k => some (R i (i + k))

theorem mkU_of_entries {U : Grid} {n : Nat} {R : Nat → Nat → Nat} (h1 : U.length = n)
    (h2 : ∀ (i : Nat) (row : List (Option Nat)), U[i]? = some row → row.length = n - i)
    (h3 : ∀ i j, i ≤ j → j < n → (U[i]?.bind fun row => row[j - i]?) = some (some (R i j))) : U = mkU n R := by
  apply List.ext_getElem (by simp [mkU, h1])
  intro i hi hi'
  have hl := h2 i _ (List.getElem?_eq_getElem hi)
  apply List.ext_getElem (by simp [mkU, hl])
  intro k hk hk'
  have := h3 i (i + k) (by omega) (by omega)
  rw [List.getElem?_eq_getElem hi, Option.bind_some, Nat.add_sub_cancel_left, List.getElem?_eq_getElem hk] at this
  simp only [Option.some.injEq] at this
  simp [mkU, this]

theorem fillRow_ok {attr : Nat → Option Nat} {n m : Nat} {F : Nat → Nat → Nat} (hm : m < n)
    (hF : ∀ j < m, attr (F j m) = some (F m j)) :
    fillRow attr ((List.range m).map fun i => (List.range n).map fun j => some (F i j))
      ((List.range (n - m)).map fun k => some (F m (m + k))) = .ok ((List.range n).map fun j => some (F m j)) := by
  unfold fillRow
  rw [List.length_map, List.length_range, foldlM_push _ (fun j => some (F m j))]
  · congr 1
    have : n = m + (n - m) := by omega
    conv_rhs => rw [this, List.range_add, List.map_append, List.map_map]
    rfl
  · intro j hj row
    have hj := List.mem_range.1 hj
    simp [hj, hm, hF j hj]

theorem fillGrid_ok {attr : Nat → Option Nat} {n : Nat} {F : Nat → Nat → Nat}
    (hF : ∀ i < n, ∀ j < i, attr (F j i) = some (F i j)) : ∀ (d m : Nat), n = m + d →
    fillGrid attr ((List.range m).map fun i => (List.range n).map fun j => some (F i j))
      ((List.range d).map fun t => (List.range (n - (m + t))).map fun k => some (F (m + t) (m + t + k))) =
      .ok (mkG n n F)
  | 0, m, hm => by
    have : m = n := by omega
    subst this
    rfl
  | d + 1, m, hm => by
    rw [List.range_succ_eq_map, List.map_cons, List.map_map]
    simp only [fillGrid, Nat.add_zero, fillRow_ok (show m < n by omega) (hF m (by omega)), bind, Except.bind]
    have ih := fillGrid_ok hF d (m + 1) (by omega)
    rw [List.range_succ, List.map_append] at ih
    have e : ((fun t => (List.range (n - (m + t))).map fun k => some (F (m + t) (m + t + k))) ∘ Nat.succ) =
        fun t => (List.range (n - (m + 1 + t))).map fun k => some (F (m + 1 + t) (m + 1 + t + k)) := by
      funext t
      simp only [Function.comp, Nat.succ_eq_add_one]
      rw [show m + (t + 1) = m + 1 + t by omega]
    rw [e]
    exact ih

theorem fillGrid_all {attr : Nat → Option Nat} {n : Nat} {F : Nat → Nat → Nat}
    (hF : ∀ i < n, ∀ j < i, attr (F j i) = some (F i j)) : fillGrid attr [] (mkU n F) = .ok (mkG n n F) := by
  have := fillGrid_ok hF n 0 (by omega)
  simpa [mkU] using this

theorem mkU_congr {n : Nat} {R F : Nat → Nat → Nat} (h : ∀ i j, i ≤ j → j < n → R i j = F i j) : mkU n R = mkU n F := by
  unfold mkU
  apply List.map_congr_left
  intro i hi
  apply List.map_congr_left
  intro k hk
  have := List.mem_range.1 hk
  rw [h i (i + k) (by omega) (by omega)]

/-- the rows get longer -/
theorem fillRow_length {attr : Nat → Option Nat} {done : Grid} {row row' : List (Option Nat)}
    (h : fillRow attr done row = .ok row') : row'.length = row.length + done.length := by
  have key : ∀ (l : List Nat) (row row' : List (Option Nat)), l.foldlM (fun row j =>
      match done[j]?.bind fun r => r[done.length]? with
      | none => Except.error Err.indexError
      | some none => .error .attributeError
      | some (some r) => .ok (attr r :: row)) row = .ok row' → row'.length = row.length + l.length := by
    intro l
    induction l with
    | nil => intro row row' h; cases h; simp
    | cons a l ih =>
      intro row row' h
      rw [List.foldlM_cons] at h
      cases hm : done[a]?.bind fun r => r[done.length]? with
      | none => rw [hm] at h; cases h
      | some b =>
        cases b with
        | none => rw [hm] at h; cases h
        | some r =>
          rw [hm] at h
          have := ih _ _ h
          rw [this]; simp; omega
  have := key _ _ _ h
  simpa using this

theorem fillGrid_lengths {attr : Nat → Option Nat} : ∀ (rest done G : Grid), fillGrid attr done rest = .ok G →
    G.length = done.length + rest.length ∧
    (∀ i < done.length, G[i]? = done[i]?) ∧
    ∀ (i : Nat) (row : List (Option Nat)), rest[i]? = some row →
      ∃ row', G[done.length + i]? = some row' ∧ row'.length = row.length + (done.length + i)
  | [], done, G, h => by cases h; simp
  | r :: rest, done, G, h => by
    simp only [fillGrid, bind, Except.bind] at h
    cases hf : fillRow attr done r with
    | error e => rw [hf] at h; cases h
    | ok r' =>
      rw [hf] at h
      obtain ⟨h1, h2, h3⟩ := fillGrid_lengths rest (done ++ [r']) G h
      simp only [List.length_append, List.length_singleton] at h1 h2 h3
      refine ⟨by simp; omega, ?_, ?_⟩
      · intro i hi
        rw [h2 i (by omega), List.getElem?_append_left hi]
      · intro i row hi
        cases i with
        | zero =>
          simp only [List.getElem?_cons_zero, Option.some.injEq] at hi
          subst hi
          refine ⟨r', ?_, by rw [fillRow_length hf]; simp⟩
          rw [Nat.add_zero, h2 _ (by omega)]
          simp
        | succ i =>
          obtain ⟨row', e1, e2⟩ := h3 i row (by simpa using hi)
          exact ⟨row', by rw [← e1]; congr 1; omega, by rw [e2]; omega⟩

theorem transposeGrid_ragged {attr : Nat → Option Nat} {G : Grid} {a b : List (Option Nat)} (ha : a ∈ G) (hb : b ∈ G)
    (hab : a.length < b.length) : ∃ e, transposeGrid attr G = .error e := by
  have hmax : ∀ (l : List Nat) (m : Nat), (∀ x ∈ l, x ≤ l.foldl max m) ∧ m ≤ l.foldl max m := by
    intro l
    induction l with
    | nil => intro m; simp
    | cons x l ih =>
      intro m
      obtain ⟨h1, h2⟩ := ih (max m x)
      refine ⟨?_, le_trans (le_max_left _ _) h2⟩
      intro y hy
      rcases List.mem_cons.1 hy with rfl | hy
      · exact le_trans (le_max_right _ _) h2
      · exact h1 y hy
  have hk : a.length < (G.map List.length).foldl max 0 :=
    lt_of_lt_of_le hab ((hmax _ 0).1 _ (List.mem_map_of_mem hb))
  have hcol : ∀ row, colAt attr G a.length ≠ .ok row := by
    intro row hrow
    obtain ⟨c, hc⟩ := mapM_ok_inv _ _ _ hrow a ha
    simp at hc
  have hne : ∃ x l, G = x :: l := by
    cases G with
    | nil => simp at ha
    | cons x l => exact ⟨x, l, rfl⟩
  cases ht : transposeGrid attr G with
  | error e => exact ⟨e, rfl⟩
  | ok G' =>
    exfalso
    have e : transposeGrid attr G = (List.range ((G.map List.length).foldl max 0)).mapM (colAt attr G) := by
      obtain ⟨x, l, rfl⟩ := hne
      rfl
    rw [e] at ht
    obtain ⟨row, hrow⟩ := mapM_ok_inv _ _ _ ht a.length (List.mem_range.2 hk)
    exact hcol row hrow

/-! ## Mirroring -/

theorem mirrorAt_ok {attr : Nat → Option Nat} {n : Nat} {F : Nat → Nat → Nat} {i j t : Nat} (hi : i < n) (hj : j < n)
    (ht : attr (F j i) = some t) :
    mirrorAt attr (mkG n n F) i j = .ok (mkG n n fun p q => if p = i ∧ q = j then t else F p q) := by
  unfold mirrorAt
  rw [mkG_get hj hi]
  simp only [ht]
  congr 1
  apply List.ext_getElem (by simp [mkG])
  intro p hp hp'
  rw [List.getElem_modify]
  split
  · next hpa =>
    subst hpa
    apply List.ext_getElem (by simp [mkG])
    intro q hq hq'
    by_cases hqb : j = q
    · subst hqb; simp [mkG]
    · rw [List.getElem_set_ne hqb]
      simp [mkG, Ne.symm hqb]
  · next hpa => simp [mkG, Ne.symm hpa]

theorem mirror_loop {attr : Nat → Option Nat} {n : Nat} {R : Nat → Nat → Nat} :
    ∀ (L : List (Nat × Nat)) (F : Nat → Nat → Nat), (∀ p ∈ L, p.2 < p.1 ∧ p.1 < n) →
      (∀ p ∈ L, attr (F p.2 p.1) = some (R p.1 p.2)) →
      L.foldlM (fun G p => mirrorAt attr G p.1 p.2) (mkG n n F) =
        .ok (mkG n n fun i j => if (i, j) ∈ L then R i j else F i j)
  | [], F, _, _ => by simp; rfl
  | p :: L, F, hL, hF => by
    rw [List.foldlM_cons, mirrorAt_ok (hL p (by simp)).2 (by have := hL p (by simp); omega) (hF p (by simp))]
    simp only [bind, Except.bind]
    rw [mirror_loop (R := R) L _ (fun q hq => hL q (by simp [hq]))]
    · congr 2
      funext i j
      by_cases h1 : (i, j) ∈ L
      · simp [h1]
      · by_cases h2 : i = p.1 ∧ j = p.2
        · simp [h2]
        · have : ¬ (i, j) = p := fun e => h2 (by rw [← e]; simp)
          simp [h1, h2, this]
    · intro q hq
      have h1 := hL q (by simp [hq])
      have h2 := hL p (by simp)
      rw [if_neg (by omega)]
      exact hF q (by simp [hq])

theorem mirrorAll_ok {attr : Nat → Option Nat} {n : Nat} {F R : Nat → Nat → Nat}
    (hF : ∀ i < n, ∀ j < i, attr (F j i) = some (R i j)) :
    mirrorAll attr (mkG n n F) = .ok (mkG n n fun i j => if j < i ∧ i < n then R i j else F i j) := by
  unfold mirrorAll
  rw [mkG_length, mirror_loop (R := R)]
  · congr 2
    funext i j
    have : ((i, j) ∈ (List.range n).flatMap fun i => (List.range i).map fun j => (i, j)) ↔ j < i ∧ i < n := by
      simp only [List.mem_flatMap, List.mem_map, List.mem_range, Prod.mk.injEq]
      constructor
      · rintro ⟨a, h1, b, h2, rfl, rfl⟩; exact ⟨h2, h1⟩
      · rintro ⟨h1, h2⟩; exact ⟨i, h2, j, h1, rfl, rfl⟩
    simp only [this]
  · intro p hp
    simp only [List.mem_flatMap, List.mem_map, List.mem_range] at hp
    obtain ⟨a, h1, b, h2, rfl⟩ := hp
    exact ⟨h2, h1⟩
  · intro p hp
    simp only [List.mem_flatMap, List.mem_map, List.mem_range] at hp
    obtain ⟨a, h1, b, h2, rfl⟩ := hp
    exact hF a h1 b h2

end Verif.Blkop
