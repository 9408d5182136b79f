import Verif.Linop.Coord
import Verif.Linop.Sound

/-!
# Helper: the loops of `CoordLinearOperator` compute matrix-vector products
-/

set_option linter.unusedSectionVars false

namespace Verif.Linop
open Finset

variable {K : Type} [CommRing K] [StarRing K] [DTypes K]

/-- `i`-th entry of the product contributed by one triple -/
def coordTerm (sy : Bool) (t : K × Nat × Nat) (x : List K) (i : Nat) : K :=
  (if t.2.1 = i then t.1 * x.getD t.2.2 0 else 0) +
    (if sy = true ∧ t.2.1 ≠ t.2.2 ∧ t.2.2 = i then t.1 * x.getD t.2.1 0 else 0)

theorem modify_getD (y : List K) (k : Nat) (a : K) (hk : k < y.length) (i : Nat) :
    (y.modify k (· + a)).getD i 0 = y.getD i 0 + if k = i then a else 0 := by
  simp only [List.getD_eq_getElem?_getD, List.getElem?_modify]
  by_cases h : k = i
  · subst h; simp [List.getElem?_eq_getElem hk]
  · simp [h]

theorem getAt_ok {x : List K} {i : Int} {k : Nat} (h : pyIndex x.length i = some k) : getAt x i = .ok (x.getD k 0) := by
  simp [getAt, h]
theorem addAt_ok {y : List K} {i : Int} {k : Nat} (a : K) (h : pyIndex y.length i = some k) :
    addAt y i a = .ok (y.modify k (· + a)) := by simp [addAt, h]

theorem pyIndex_nonneg {n : Nat} {i : Int} {k : Nat} (h : pyIndex n i = some k) (hi : 0 ≤ i) : i = k := by
  unfold pyIndex at h
  split at h
  · split at h
    · cases h; omega
    · cases h
  · omega

theorem mapM_pyIndex_cons {n : Nat} {l : List Int} {k : Nat} {ks : List Nat}
    (h : l.mapM (pyIndex n) = some (k :: ks)) :
    ∃ i l', l = i :: l' ∧ pyIndex n i = some k ∧ l'.mapM (pyIndex n) = some ks := by
  cases l with
  | nil => simp at h
  | cons i l =>
    cases h1 : pyIndex n i with
    | none => simp [List.mapM_cons, h1] at h
    | some a =>
      cases h2 : l.mapM (pyIndex n) with
      | none => simp [List.mapM_cons, h1, h2] at h
      | some b =>
        simp [List.mapM_cons, h1, h2] at h
        obtain ⟨rfl, rfl⟩ := h
        exact ⟨i, l, rfl, h1, h2⟩

theorem coordLoop_ok (sy : Bool) (x : List K) (nout : Nat) (hsq : sy = true → nout = x.length) :
    ∀ (ts : List (K × Nat × Nat)) (rows cols : List Int) (y : List K), y.length = nout →
      rows.mapM (pyIndex nout) = some (ts.map fun t => t.2.1) →
      cols.mapM (pyIndex x.length) = some (ts.map fun t => t.2.2) →
      (sy = true → (∀ i ∈ rows, 0 ≤ i) ∧ ∀ j ∈ cols, 0 ≤ j) →
      ∃ z, coordLoop sy x (ts.map fun t => t.1) rows cols y = .ok z ∧ z.length = nout ∧
        ∀ i, z.getD i 0 = y.getD i 0 + (ts.map fun t => coordTerm sy t x i).sum
  | [], rows, cols, y, hy, _, _, _ => ⟨y, by simp [coordLoop], hy, by simp⟩
  | t :: ts, rows, cols, y, hy, hr, hc, hn => by
    obtain ⟨row, rows, rfl, hr1, hr2⟩ := mapM_pyIndex_cons hr
    obtain ⟨col, cols, rfl, hc1, hc2⟩ := mapM_pyIndex_cons hc
    have hlt : t.2.1 < y.length := by rw [hy]; exact pyIndex_lt hr1
    have e1 := getAt_ok hc1
    have e2 := addAt_ok (y := y) (t.1 * x.getD t.2.2 0) (by rw [hy]; exact hr1)
    cases sy with
    | false =>
      obtain ⟨z, hz, hzl, hzi⟩ := coordLoop_ok false x nout (by simp) ts rows cols
        (y.modify t.2.1 (· + t.1 * x.getD t.2.2 0)) (by simp [hy]) hr2 hc2 (by simp)
      refine ⟨z, ?_, hzl, ?_⟩
      · simp only [List.map_cons, coordLoop, e1, e2, bind, Except.bind]
        simpa using hz
      · intro i
        rw [hzi i, modify_getD _ _ _ hlt]
        simp [coordTerm, add_assoc]
    | true =>
      obtain ⟨hnr, hnc⟩ := hn rfl
      have hrow : row = t.2.1 := pyIndex_nonneg hr1 (hnr _ (by simp))
      have hcol : col = t.2.2 := pyIndex_nonneg hc1 (hnc _ (by simp))
      have hnout : nout = x.length := hsq rfl
      by_cases hd : t.2.1 = t.2.2
      · obtain ⟨z, hz, hzl, hzi⟩ := coordLoop_ok true x nout hsq ts rows cols
          (y.modify t.2.1 (· + t.1 * x.getD t.2.2 0)) (by simp [hy]) hr2 hc2
          (fun _ => ⟨fun i hi => hnr i (by simp [hi]), fun i hi => hnc i (by simp [hi])⟩)
        refine ⟨z, ?_, hzl, ?_⟩
        · have : row = col := by rw [hrow, hcol, hd]
          simp only [List.map_cons, coordLoop, e1, e2, bind, Except.bind]
          simpa [this] using hz
        · intro i
          rw [hzi i, modify_getD _ _ _ hlt]
          simp [coordTerm, hd, add_assoc]
      · have e3 := getAt_ok (x := x) (i := row) (k := t.2.1) (by rw [← hnout]; exact hr1)
        have e4 := addAt_ok (y := y.modify t.2.1 (· + t.1 * x.getD t.2.2 0)) (i := col) (k := t.2.2)
          (t.1 * x.getD t.2.1 0) (by simp only [List.length_modify, hy, hnout]; exact hc1)
        obtain ⟨z, hz, hzl, hzi⟩ := coordLoop_ok true x nout hsq ts rows cols
          ((y.modify t.2.1 (· + t.1 * x.getD t.2.2 0)).modify t.2.2 (· + t.1 * x.getD t.2.1 0)) (by simp [hy]) hr2 hc2
          (fun _ => ⟨fun i hi => hnr i (by simp [hi]), fun i hi => hnc i (by simp [hi])⟩)
        refine ⟨z, ?_, hzl, ?_⟩
        · have : row ≠ col := by rw [hrow, hcol]; exact_mod_cast hd
          simp only [List.map_cons, coordLoop, e1, e2, e3, bind, Except.bind]
          simp only [this, ne_eq, not_false_eq_true, decide_true, Bool.and_self, if_true, e4]
          exact hz
        · intro i
          have hlt2 : t.2.2 < (y.modify t.2.1 (· + t.1 * x.getD t.2.2 0)).length := by
            simp only [List.length_modify, hy, hnout]; exact pyIndex_lt hc1
          rw [hzi i, modify_getD _ _ _ hlt2, modify_getD _ _ _ hlt]
          simp [coordTerm, hd, add_assoc]

theorem coordEntry_app (sy : Bool) (x : List K) (m : Nat) (i : Nat) :
    ∀ ts : List (K × Nat × Nat), (∀ t ∈ ts, t.2.2 < m) → (sy = true → ∀ t ∈ ts, t.2.1 < m) →
      ∑ j ∈ range m, coordEntry sy ts i j * x.getD j 0 = (ts.map fun t => coordTerm sy t x i).sum
  | [], _, _ => by simp [coordEntry]
  | t :: ts, h1, h2 => by
    have ih := coordEntry_app sy x m i ts (fun u hu => h1 u (by simp [hu])) (fun hs u hu => h2 hs u (by simp [hu]))
    have hc : ∀ j, coordEntry sy (t :: ts) i j = ((if t.2.1 = i ∧ t.2.2 = j then t.1 else 0) +
      (if sy = true ∧ t.2.1 ≠ t.2.2 ∧ t.2.1 = j ∧ t.2.2 = i then t.1 else 0)) + coordEntry sy ts i j := by
      intro j; simp [coordEntry]
    simp only [hc, add_mul, Finset.sum_add_distrib, ih, List.map_cons, List.sum_cons, coordTerm]
    congr 2
    · by_cases hi : t.2.1 = i
      · simp [hi, h1 t (by simp), ite_mul, Finset.sum_ite_eq]
      · simp [hi]
    · by_cases hs : sy = true
      · by_cases hd : t.2.1 = t.2.2
        · simp [hd]
        · by_cases hi : t.2.2 = i
          · have := h2 hs t (by simp)
            have hd' : t.2.1 ≠ i := fun e => hd (e.trans hi.symm)
            simp [hs, hi, hd', this, ite_mul, Finset.sum_ite_eq]
          · simp [hi]
      · simp [hs]

theorem coordFn_ok {vals : Arr K} {rows cols : List Int} {nin nout : Nat} {sy : Bool} {ts : List (K × Nat × Nat)}
    (I : CoordInput vals rows cols nin nout sy ts) {x : Arr K} (hl : x.data.length = nin) :
    coordFn vals rows cols nin nout sy x =
      .ok ⟨x.kind.join vals.kind, (Mat.coord nout nin vals.kind sy ts).app x.data⟩ := by
  have hc : cols.mapM (pyIndex x.data.length) = some (ts.map fun t => t.2.2) := by rw [hl]; exact I.colIdx
  obtain ⟨z, hz, hzl, hzi⟩ := coordLoop_ok sy x.data nout (fun hs => by rw [hl]; exact (I.square hs).1.symm) ts rows cols
    (List.replicate nout 0) (by simp) I.rowIdx hc (fun hs => (I.square hs).2)
  have hlt : ∀ t ∈ ts, t.2.2 < nin := by
    intro t ht
    exact (mapM_pyIndex_lt I.colIdx).2 _ (List.mem_map.2 ⟨t, ht, rfl⟩)
  have hlt' : sy = true → ∀ t ∈ ts, t.2.1 < nin := by
    intro hs t ht
    rw [(I.square hs).1]
    exact (mapM_pyIndex_lt I.rowIdx).2 _ (List.mem_map.2 ⟨t, ht, rfl⟩)
  have : z = (Mat.coord nout nin vals.kind sy ts).app x.data := by
    apply List.ext_getElem (by simp [Mat.app, Mat.coord, hzl])
    intro i h1 h2
    have h3 := hzi i
    rw [List.getD_eq_getElem?_getD, List.getElem?_eq_getElem h1] at h3
    have hi : i < nout := by omega
    simp only [Option.getD_some] at h3
    rw [h3]
    simp only [Mat.app, Mat.coord, List.getElem_map, List.getElem_range]
    rw [coordEntry_app sy x.data nin i ts hlt hlt']
    simp [hi]
  rw [← this]
  simp only [coordFn, hl, ne_eq, not_true_eq_false, if_false, I.values, hz]

theorem CoordInput.swap {vals : Arr K} {rows cols : List Int} {nin nout : Nat} {sy : Bool} {ts : List (K × Nat × Nat)}
    (I : CoordInput vals rows cols nin nout sy ts) :
    CoordInput vals cols rows nout nin sy (ts.map fun t => (t.1, t.2.2, t.2.1)) where
  typed := I.typed
  values := by rw [I.values]; simp
  rowIdx := by rw [I.colIdx]; simp
  colIdx := by rw [I.rowIdx]; simp
  square := fun hs => ⟨(I.square hs).1.symm, (I.square hs).2.2, (I.square hs).2.1⟩

theorem coord_swap (nout nin : Nat) (k : DKind) (sy : Bool) (ts : List (K × Nat × Nat)) :
    Mat.coord nin nout k sy (ts.map fun t => (t.1, t.2.2, t.2.1)) = (Mat.coord nout nin k sy ts).T := by
  simp only [Mat.coord, Mat.T, Mat.mk.injEq, true_and]
  funext i j
  simp only [coordEntry, List.map_map]
  congr 1
  apply List.map_congr_left
  intro t _
  simp only [Function.comp]
  congr 1
  · simp only [and_comm]
  · congr 1
    exact propext ⟨fun ⟨a, b, c, d⟩ => ⟨a, Ne.symm b, d, c⟩, fun ⟨a, b, c, d⟩ => ⟨a, Ne.symm b, d, c⟩⟩

theorem coordEntry_symm (ts : List (K × Nat × Nat)) (i j : Nat) :
    coordEntry true ts i j = coordEntry true ts j i := by
  simp only [coordEntry]
  congr 1
  apply List.map_congr_left
  intro t _
  by_cases hd : t.2.1 = t.2.2
  · simp only [hd, ne_eq, not_true_eq_false, false_and, if_false, add_zero, and_comm]
  · simp only [true_and, ne_eq, hd, not_false_eq_true]
    exact add_comm _ _

theorem coord_typed {vals : Arr K} {rows cols : List Int} {nin nout : Nat} {sy : Bool} {ts : List (K × Nat × Nat)}
    (I : CoordInput vals rows cols nin nout sy ts) : (Mat.coord nout nin vals.kind sy ts).Typed := by
  intro i _ j _
  apply Subring.list_sum_mem
  intro a ha
  obtain ⟨t, ht, rfl⟩ := List.mem_map.1 ha
  have : t.1 ∈ (DTypes.sub vals.kind : Subring K) := I.typed _ (by rw [I.values]; exact List.mem_map.2 ⟨t, ht, rfl⟩)
  apply Subring.add_mem
  · split
    · exact this
    · exact Subring.zero_mem _
  · split
    · exact this
    · exact Subring.zero_mem _

end Verif.Linop
