import Verif.Blkop.IndexProps

/-!
# Property C59: assignments are checked

`op.assign h i j v` is `op[i, j] = v` (`op[i] = v`), `D.assign h i v` is `D[i] = v`, for integers and slices and any value; they return the
operator afterwards and the exception.

**Violated**: what is assigned is not checked.  The positive part is `C59_block_fits_partial`, `C59_diag_fits_partial`,
`C59_block_index_partial` and `C59_diag_rejected_partial`.
-/

set_option linter.unusedSectionVars false

namespace Verif.Blkop
open Verif.Linop

variable {K : Type} [CommRing K] [StarRing K] [DTypes K] [DecidableEq K]

/-! ## The model of assignments extends the one of C19 -/

theorem mirrorUpTo_ok (attr : Nat → Option Nat) : ∀ (L : List (Nat × Nat)) (G G' : Grid),
    L.foldlM (fun G p => mirrorAt attr G p.1 p.2) G = .ok G' → mirrorUpTo attr L G = (G', none)
  | [], G, G', h => by cases h; rfl
  | p :: L, G, G', h => by
    rw [List.foldlM_cons] at h
    unfold mirrorUpTo
    cases hm : mirrorAt attr G p.1 p.2 with
    | error e => rw [hm] at h; cases h
    | ok G1 => rw [hm] at h; exact mirrorUpTo_ok attr L G1 G' h

theorem setAll2_set {G : Grid} {a b : Nat} {v : Option Nat} {row : List (Option Nat)} (hr : G[a]? = some row) :
    setAll2 G [a] [b] v = G.set a (row.set b v) := by
  unfold setAll2
  apply List.ext_getElem (by simp)
  intro i h1 h2
  simp only [List.getElem_map, List.getElem_zipIdx, List.getElem_set]
  by_cases hi : a = i
  · subst hi
    rw [if_pos rfl]
    have : G[a]'(by simpa using h2) = row := by
      rw [List.getElem?_eq_getElem (by simpa using h2)] at hr; exact Option.some.inj hr
    rw [this]
    apply List.ext_getElem (by simp)
    intro j h3 h4
    simp only [List.getElem_map, List.getElem_zipIdx, List.getElem_set]
    simp only [List.mem_singleton, Nat.zero_add, true_and]
    by_cases hj : b = j
    · rw [if_pos hj, if_pos hj.symm]
    · rw [if_neg hj, if_neg (Ne.symm hj)]
  · rw [if_neg hi]
    apply List.ext_getElem (by simp)
    intro j h3 h4
    simp only [List.getElem_map, List.getElem_zipIdx]
    rw [if_neg]
    rintro ⟨hc, _⟩
    simp only [List.mem_singleton, Nat.zero_add] at hc
    exact hi hc.symm

/-- On rectangular grids, `BlkOp.assign` for two integers and an operator is `BlkOp.set`. -/
theorem assign_eq_set {h : Heap K} {op op' : BlkOp} {i j : Int} {v : Nat}
    (hrect : ∀ row ∈ op.blocks, row.length = ncols op.blocks) (hs : op.set h i j v = .ok op') :
    op.assign h (.int i) (some (.int j)) (some v) = (op', none) := by
  unfold BlkOp.set at hs
  cases hG : setAt op.blocks i j v with
  | error e => rw [hG] at hs; cases hs
  | ok G =>
    rw [hG] at hs
    simp only [bind, Except.bind] at hs
    unfold setAt at hG
    cases ha : pyIndex op.blocks.length i with
    | none => rw [ha] at hG; cases hG
    | some a =>
      simp only [ha] at hG
      cases hr : op.blocks[a]? with
      | none => rw [hr] at hG; cases hG
      | some row =>
        simp only [hr] at hG
        rw [hrect row (List.mem_of_getElem? hr)] at hG
        cases hb : pyIndex (ncols op.blocks) j with
        | none => rw [hb] at hG; cases hG
        | some b =>
          simp only [hb] at hG
          cases hG
          unfold BlkOp.assign
          simp only [Idx.select, selectCols, ha, hb, setAll2_set hr]
          by_cases hf : op.symmetric = true ∨ op.hermitian = true
          · rw [if_pos hf] at hs ⊢
            cases hm : mirrorAll (if op.symmetric = true then getT h else getH h) (op.blocks.set a (row.set b (some v))) with
            | error e => rw [hm] at hs; cases hs
            | ok G' =>
              rw [hm] at hs
              cases hs
              rw [mirrorUpTo_ok _ _ _ _ hm]
          · rw [if_neg hf] at hs ⊢
            cases hT : transposeGrid (getT h) (op.blocks.set a (row.set b (some v))) with
            | error e => rw [hT] at hs; cases hs
            | ok bT =>
              rw [hT] at hs
              cases hH : transposeGrid (getH h) (op.blocks.set a (row.set b (some v))) with
              | error e => rw [hH] at hs; cases hs
              | ok bH => rw [hH] at hs; cases hs; rfl

/-- `DiagOp.assign` for an integer and an operator is `DiagOp.set`. -/
theorem dassign_eq_set {h : Heap K} {op op' : DiagOp} {i : Int} {v : Nat} (hs : op.set h i v = .ok op') :
    op.assign h (.int i) (.op v) = (op', none) := by
  unfold DiagOp.set at hs
  unfold DiagOp.assign
  simp only [Bool.false_eq_true, if_false, listSet]
  cases ha : pyIndex op.blocks.length i with
  | none => rw [ha] at hs; cases hs
  | some a =>
    simp only [ha] at hs ⊢
    obtain ⟨nin, nout, sy, he, dt, sz, own, G1, G2, G3⟩ := op
    simp only [bind, Except.bind] at hs ⊢
    cases hT : mapAttr (getT h) (G1.set a (some v)) <;> cases hH : mapAttr (getH h) (G1.set a (some v)) <;>
      cases sy <;> cases he <;> simp_all

/-! ## What fits is accepted and has the expected effect -/

/-- replace the blocks in the rows `I` and the columns `J` -/
def updIJ (M : Nat → Nat → Mat K) (I J : List Nat) (B : Mat K) : Nat → Nat → Mat K :=
  fun a b => if a ∈ I ∧ b ∈ J then B else M a b

/-- A sequence of assignments `op[i, j] = blk` with integers and slices, where `blk`, a variable of the program, has the shape of
every block it replaces and a dtype class within `k`, turns the blocks `M` into `M'`. -/
inductive Fits (env : List Nat) (mats : List (Mat K)) (hts wds : List Nat) (k : DKind) :
    List (Idx × Option Idx × Nat) → (Nat → Nat → Mat K) → (Nat → Nat → Mat K) → Prop
  | nil (M) : Fits env mats hts wds k [] M M
  | cons {i : Idx} {j : Option Idx} {I J : List Nat} {v r : Nat} {B : Mat K} {as M M'}
      (hi : i.select hts.length = .ok I) (hj : selectCols wds.length j = .ok J) (hr : env[v]? = some r)
      (hB : mats[v]? = some B) (hrows : ∀ a ∈ I, B.rows = hts.getD a 0) (hcols : ∀ b ∈ J, B.cols = wds.getD b 0)
      (hk : k.join B.kind = k) (rest : Fits env mats hts wds k as (updIJ M I J B) M') :
      Fits env mats hts wds k ((i, j, r) :: as) M M'

/-- run a sequence of assignments, as long as none raises -/
def assignAll (h : Heap K) : List (Idx × Option Idx × Nat) → BlkOp → BlkOp × Option Err
  | [], op => (op, none)
  | a :: as, op => match op.assign h a.1 a.2.1 (some a.2.2) with
    | (op', none) => assignAll h as op'
    | (op', some e) => (op', some e)

theorem setAll2_mkG (nr nc : Nat) (R : Nat → Nat → Nat) (I J : List Nat) (v : Nat) :
    setAll2 (mkG nr nc R) I J (some v) = mkG nr nc fun p q => if p ∈ I ∧ q ∈ J then v else R p q := by
  unfold setAll2
  apply List.ext_getElem (by simp [mkG])
  intro a h1 h2
  apply List.ext_getElem (by simp [mkG])
  intro b h3 h4
  simp only [mkG, List.getElem_map, List.getElem_zipIdx, List.getElem_range, Nat.zero_add]
  split <;> rfl

section
variable {D : List (Mat K)} {h : Heap K} {S : Nat → Prop}

theorem BlkInv.assign (I : HInv D h) (hS : Closed h S) {o : BlkOp} {hts wds : List Nat} {M : Nat → Nat → Mat K}
    (b : BlkInv D S o hts wds M) (hs : o.symmetric = false) (hh : o.hermitian = false) {i : Idx} {j : Option Idx}
    {Is Js : List Nat} (hi : i.select hts.length = .ok Is) (hj : selectCols wds.length j = .ok Js) {v : Nat} {B : Mat K}
    (hv : Good D S v B) (hr : ∀ a ∈ Is, B.rows = hts.getD a 0) (hc : ∀ b ∈ Js, B.cols = wds.getD b 0)
    (hk : o.dtype.join B.kind = o.dtype) :
    ∃ o', o.assign h i j (some v) = (o', none) ∧ BlkInv D S o' hts wds (updIJ M Is Js B) ∧ o'.symmetric = false ∧
      o'.hermitian = false ∧ o'.dtype = o.dtype := by
  obtain ⟨l1, l2⟩ := b.blocks.length
  have g : GoodGrid D S (setAll2 o.blocks Is Js (some v)) hts wds (updIJ M Is Js B) := by
    obtain ⟨R, e, hR⟩ := b.blocks.grid
    rw [e, setAll2_mkG]
    refine ⟨b.blocks.pos, ⟨_, rfl, ?_⟩, ?_, ?_⟩
    · intro p hp q hq
      unfold updIJ
      by_cases hpq : p ∈ Is ∧ q ∈ Js
      · simp only [hpq, and_self, if_true]; exact hv
      · simp only [hpq, if_false]; exact hR p hp q hq
    · intro p hp q hq
      unfold updIJ
      split
      · next hpq => exact hr p hpq.1
      · exact b.blocks.rows p hp q hq
    · intro p hp q hq
      unfold updIJ
      split
      · next hpq => exact hc q hpq.2
      · exact b.blocks.cols p hp q hq
  obtain ⟨bT, hbT, gT⟩ := transposeGrid_ok I hS g (attr := getT h) (tr := Mat.T) (fun r A ha => ha.T I hS)
    (fun A => ⟨rfl, rfl⟩)
  obtain ⟨bH, hbH, gH⟩ := transposeGrid_ok I hS g (attr := getH h) (tr := Mat.H) (fun r A ha => ha.H I hS)
    (fun A => ⟨rfl, rfl⟩)
  refine ⟨{ o with blocks := setAll2 o.blocks Is Js (some v), blocksT := bT, blocksH := bH }, ?_,
    ⟨b.nargin, b.nargout, ?_, g, gT, gH⟩, hs, hh, rfl⟩
  · simp [BlkOp.assign, l1, l2, hi, hj, hs, hh, hbT, hbH]
  · intro x hx y hy
    unfold updIJ
    split
    · exact hk
    · exact b.kind x hx y hy

theorem assignAll_inv (I : HInv D h) (hS : Closed h S) {env : List Nat} {mats : List (Mat K)}
    (hg : ∀ (v r : Nat) (A : Mat K), env[v]? = some r → mats[v]? = some A → Good D S r A)
    {hts wds : List Nat} {k : DKind} {as : List (Idx × Option Idx × Nat)} {M M' : Nat → Nat → Mat K}
    (hA : Fits env mats hts wds k as M M') : ∀ o : BlkOp, BlkInv D S o hts wds M → o.symmetric = false →
    o.hermitian = false → o.dtype = k → ∃ o', assignAll h as o = (o', none) ∧ BlkInv D S o' hts wds M' ∧
      o'.symmetric = false ∧ o'.hermitian = false ∧ o'.dtype = k := by
  induction hA with
  | nil M => intro o B h2 h3 h4; exact ⟨o, rfl, B, h2, h3, h4⟩
  | cons hi hj hr hB hrows hcols hk rest ih =>
    intro o B h2 h3 h4
    obtain ⟨o1, e1, B1, f1, f2, f3⟩ := B.assign I hS h2 h3 hi hj (hg _ _ _ hr hB) hrows hcols (by rw [h4]; exact hk)
    obtain ⟨o', e2, r⟩ := ih o1 B1 f1 f2 (f3.trans h4)
    refine ⟨o', ?_, r⟩
    simp only [assignAll, e1]
    exact e2

end

/-- **C59** (partial: the values fit; no symmetric or hermitian operators).  After any sequence of assignments with integers and
slices, of operators that fit all the blocks they replace, none raises, the operator (same object as before) acts as the block
matrix with all the selected blocks replaced, and so do `.T` and `.H`; it is indexed accordingly. -/
theorem C59_block_fits_partial {env : List Nat} {h : Heap K} {mats : List (Mat K)} (R : ReachTotal env h mats) {G : Grid}
    {hts wds : List Nat} {M : Nat → Nat → Mat K} (g : BlockGrid env mats G hts wds M) {as : List (Idx × Option Idx × Nat)}
    {M' : Nat → Nat → Mat K} (hA : Fits env mats hts wds (blockMat hts wds M).kind as M M') :
    ∃ op op' : BlkOp, mkBlock h G false false = .ok (op, G) ∧ assignAll h as op = (op', none) ∧
      ActsAs (op'.objs h).2 (op'.objs h).1 (blockMatK (blockMat hts wds M).kind hts wds M') ∧
      (op'.objs h).1 = (op.objs h).1 ∧ Indexes h op' hts wds M' := by
  obtain ⟨D, S, I, hS, hg⟩ := reach_good R
  obtain ⟨op, h1, B, h2, h3, h4⟩ := mkBlock_plain I hS (g.good hg)
  obtain ⟨op', e1, B', f1, f2, f3⟩ := assignAll_inv I hS hg hA op B h2 h3 h4
  have R' := B'.step I hS R (fun h => by rw [f1] at h; cases h) (fun h => by rw [f2] at h; cases h)
  rw [f3] at R'
  exact ⟨op, op', h1, e1, reach_actsAs R' (i := env.length) (by simp) (by simp [R.reach.len]),
    by rw [objs_fst, objs_fst], indexes_good I hS R B'.blocks⟩

/-- **C59** (partial).  An index out of range, or a slice with step 0, raises and leaves the operator as it was. -/
theorem C59_block_index_partial (h : Heap K) (op : BlkOp) (i : Idx) (j : Option Idx) (v : Option Nat)
    (hbad : (∃ e, i.select op.blocks.length = .error e) ∨ ∃ e, selectCols (ncols op.blocks) j = .error e) :
    ∃ e, op.assign h i j v = (op, some e) := by
  unfold BlkOp.assign
  cases hi : i.select op.blocks.length with
  | error e => exact ⟨e, rfl⟩
  | ok I =>
    cases hj : selectCols (ncols op.blocks) j with
    | error e => exact ⟨e, rfl⟩
    | ok J => rw [hi, hj] at hbad; simp at hbad

/-! ### Block diagonal operators -/

/-- put the elements of `vs` at the positions `I` -/
def replaceAt {α : Type} (l : List α) (I : List Nat) (vs : List α) : List α := (I.zip vs).foldl (fun l p => l.set p.1 p.2) l

theorem replaceAt_consec {α : Type} : ∀ (vs l : List α) (a : Nat), a + vs.length ≤ l.length →
    replaceAt l ((List.range vs.length).map fun k => a + k) vs = l.take a ++ vs ++ l.drop (a + vs.length)
  | [], l, a, _ => by simp [replaceAt]
  | w :: vs, l, a, h => by
    have h : a + (vs.length + 1) ≤ l.length := h
    have e : (List.range (w :: vs).length).map (fun k => a + k) = a :: (List.range vs.length).map fun k => a + 1 + k := by
      rw [List.length_cons, List.range_succ_eq_map, List.map_cons, List.map_map]
      congr 1
      apply List.map_congr_left
      intro k _
      simp only [Function.comp]
      omega
    have ih := replaceAt_consec vs (l.set a w) (a + 1) (by rw [List.length_set]; omega)
    rw [e]
    have e2 : replaceAt l (a :: (List.range vs.length).map fun k => a + 1 + k) (w :: vs) =
      replaceAt (l.set a w) ((List.range vs.length).map fun k => a + 1 + k) vs := rfl
    rw [e2, ih, List.drop_set, if_pos (by omega), List.take_succ, List.take_set, List.getElem?_set_self (by omega),
      List.set_eq_of_length_le (by rw [List.length_take]; omega)]
    simp only [Option.toList_some, List.append_assoc, List.singleton_append, List.cons_append, List.nil_append, List.length_cons]
    rw [show a + (vs.length + 1) = a + 1 + vs.length by omega]

/-- Line 252 for a slice and a list of matching length replaces the selected entries. -/
theorem listSet_slice {l vs : List (Option Nat)} {s : Slice} {I : List Nat} (hI : s.indices l.length = .ok I)
    (hlen : I.length = vs.length) : listSet l (.slice s) (.list vs) = .ok (replaceAt l I vs) := by
  have h0 : s.step.getD 1 ≠ 0 := by
    intro h0
    unfold Slice.indices at hI
    dsimp only at hI
    rw [if_pos h0] at hI
    cases hI
  simp only [listSet, hI, bind, Except.bind]
  by_cases h1 : s.step.getD 1 = 1
  · rw [if_pos h1]
    rw [Slice.indices_eq h0, h1] at hI
    cases hI
    rw [List.length_map, List.length_range] at hlen
    have f := s.first_pos l.length Int.one_pos
    have b := s.bound_pos l.length Int.one_pos
    have hc : ∀ k : Nat, k < vs.length ↔ s.first l.length 1 + k * 1 < s.bound l.length 1 := by
      intro k; rw [← hlen]; exact Slice.count_pos Int.one_pos k
    have e : max (s.first l.length 1).toNat (s.bound l.length 1).toNat = (s.first l.length 1).toNat + vs.length := by
      have h1 := hc vs.length
      cases hv : vs.length with
      | zero => rw [hv] at h1; omega
      | succ m => have h2 := hc m; rw [hv] at h1 h2; omega
    rw [e]
    have e2 : (List.range (Slice.count (s.first l.length 1) (s.bound l.length 1) 1)).map
        (fun k : Nat => (s.first l.length 1 + k * 1).toNat) =
        (List.range vs.length).map fun k => (s.first l.length 1).toNat + k := by
      rw [hlen]
      apply List.map_congr_left
      intro k _
      omega
    rw [e2, replaceAt_consec _ _ _ (by omega)]
  · rw [if_neg h1, if_neg (by rw [hlen]; simp)]
    rfl

/-- shape of a matrix -/
def Mat.sh (A : Mat K) : Nat × Nat := (A.rows, A.cols)

theorem replaceAt_sh : ∀ (I : List Nat) (Vs Bs : List (Mat K)),
    List.Forall₂ (fun a B => ∃ C : Mat K, Bs[a]? = some C ∧ B.rows = C.rows ∧ B.cols = C.cols) I Vs →
    (replaceAt Bs I Vs).map (fun A => (A.rows, A.cols)) = Bs.map fun A => (A.rows, A.cols)
  | [], _, Bs, _ => rfl
  | a :: I, [], Bs, h => by cases h
  | a :: I, B :: Vs, Bs, h => by
    cases h with
    | cons h1 h2 =>
      obtain ⟨C, hC, e1, e2⟩ := h1
      have hs := shapes_set hC e1 e2
      have : replaceAt Bs (a :: I) (B :: Vs) = replaceAt (Bs.set a B) I Vs := rfl
      rw [this, replaceAt_sh I Vs (Bs.set a B), hs]
      refine h2.imp ?_
      rintro a' B' ⟨C', hC', f1, f2⟩
      have hq := congrArg (fun l => l[a']?) hs
      simp only [List.getElem?_map, hC', Option.map_some] at hq
      cases hx : (Bs.set a B)[a']? with
      | none => rw [hx] at hq; cases hq
      | some X =>
        rw [hx] at hq
        simp only [Option.map_some, Option.some.injEq, Prod.mk.injEq] at hq
        exact ⟨X, rfl, f1.trans hq.1.symm, f2.trans hq.2.symm⟩

theorem mem_replaceAt {α : Type} : ∀ (I : List Nat) (vs l : List α) (x : α), x ∈ replaceAt l I vs → x ∈ l ∨ x ∈ vs
  | [], _, l, x, h => Or.inl h
  | _ :: _, [], l, x, h => Or.inl h
  | a :: I, w :: vs, l, x, h => by
    rcases mem_replaceAt I vs (l.set a w) x h with h | h
    · rcases List.mem_or_eq_of_mem_set h with h | h
      · exact Or.inl h
      · exact Or.inr (by simp [h])
    · exact Or.inr (by simp [h])

theorem forall2_replaceAt {α β : Type} {R : α → β → Prop} : ∀ (I : List Nat) {vs : List α} {Vs : List β}
    (_ : List.Forall₂ R vs Vs) {l : List α} {Bs : List β}, List.Forall₂ R l Bs →
    List.Forall₂ R (replaceAt l I vs) (replaceAt Bs I Vs)
  | [], _, _, _, _, _, h => h
  | _ :: _, _, _, .nil, _, _, h => h
  | a :: I, _, _, .cons h1 h2, _, _, h => forall2_replaceAt I h2 (forall2_set h h1 a)

theorem forall2_map_replaceAt {f : Mat K → Mat K} (I : List Nat) {Vs Bs : List (Mat K)}
    (h1 : List.Forall₂ Mat.Eqv (Bs.map f) Bs) (h2 : ∀ B ∈ Vs, (f B).Eqv B) :
    List.Forall₂ Mat.Eqv ((replaceAt Bs I Vs).map f) (replaceAt Bs I Vs) := by
  rw [List.forall₂_map_left_iff] at h1 ⊢
  have d : ∀ l : List (Mat K), (∀ B ∈ l, (f B).Eqv B) ↔ List.Forall₂ (fun a b => (f a).Eqv b) l l := by
    intro l
    induction l with
    | nil => simp
    | cons B l ih => rw [List.forall_mem_cons, List.forall₂_cons, ih]
  rw [← d] at h1 ⊢
  intro B hB
  rcases mem_replaceAt I Vs Bs B hB with h | h
  · exact h1 B h
  · exact h2 B h

section
variable {D : List (Mat K)} {h : Heap K} {S : Nat → Prop}

theorem Fresh.assign (I : HInv D h) (hS : Closed h S) {o : DiagOp} {Bs : List (Mat K)} (b : Fresh D h S o Bs) {idx : Idx}
    {v : Val} {bl : List (Option Nat)} {Bs' : List (Mat K)} (hl : listSet o.blocks idx v = .ok bl)
    (hv : ∀ vs, v = .list vs → vs.any Option.isNone = false) (g : GoodList D S bl Bs')
    (hse : Bs'.map (fun A => (A.rows, A.cols)) = Bs.map fun A => (A.rows, A.cols)) (hk : AbsorbsL o.dtype Bs')
    (hs : o.symmetric = true → List.Forall₂ Mat.Eqv (Bs'.map Mat.T) Bs')
    (hh : o.hermitian = true → List.Forall₂ Mat.Eqv (Bs'.map Mat.H) Bs') :
    ∃ o', o.assign h idx v = (o', none) ∧ Fresh D h S o' Bs' ∧ o'.symmetric = o.symmetric ∧ o'.hermitian = o.hermitian ∧
      o'.dtype = o.dtype := by
  obtain ⟨bT, hbT, gT⟩ := g.attr I hS (attr := getT h) (tr := Mat.T) fun r A ha => ha.T I hS
  obtain ⟨bH, hbH, gH⟩ := g.attr I hS (attr := getH h) (tr := Mat.H) fun r A ha => ha.H I hS
  have hsh := g.shapes I hS
  have e1 : Bs'.map Mat.cols = Bs.map Mat.cols := by
    have := congrArg (List.map Prod.snd) hse
    rw [List.map_map, List.map_map] at this
    exact this
  have e2 : Bs'.map Mat.rows = Bs.map Mat.rows := by
    have := congrArg (List.map Prod.fst) hse
    rw [List.map_map, List.map_map] at this
    exact this
  have hset : o.assign h idx v =
      (⟨o.nargin, o.nargout, o.symmetric, o.hermitian, o.dtype, if o.own then bl else o.sizes, o.own,
        bl, if o.symmetric = true then o.blocksT else bT, if o.hermitian = true then o.blocksH else bH⟩, none) := by
    unfold DiagOp.assign
    rw [if_neg (by
      cases v with
      | list vs => simp only [hv vs rfl]; simp
      | op r => simp
      | other => simp)]
    obtain ⟨nin, nout, sy, he, dt, sz, own, G1, G2, G3⟩ := o
    simp only at hl hbT hbH
    cases sy <;> cases he <;> simp only [hl, hbT, hbH, Bool.false_eq_true, if_false, if_true]
  refine ⟨_, hset, ⟨?_, ?_, hk, ?_, g, ?_, ?_, hs, hh⟩, rfl, rfl, rfl⟩
  · rw [e1]; exact b.nargin
  · rw [e2]; exact b.nargout
  · simp only
    split
    · exact hsh
    · rw [hse]; exact b.sizes
  · intro hs
    simp only at hs ⊢
    rw [if_neg (by rw [hs]; simp)]
    exact gT
  · intro hs
    simp only at hs ⊢
    rw [if_neg (by rw [hs]; simp)]
    exact gH

end

/-- A sequence of assignments to a block diagonal operator, `op[i] = blk` and `op[i:j:k] = [blk, ...]`, of as many operators as
blocks are selected, all fitting the blocks they replace (symmetric or hermitian if the operator is flagged as such), turns the
blocks `Bs` into `Bs'`. -/
inductive DiagFits (env : List Nat) (mats : List (Mat K)) (sym herm : Bool) (k : DKind) :
    List (Idx × Val) → List (Mat K) → List (Mat K) → Prop
  | nil (Bs) : DiagFits env mats sym herm k [] Bs Bs
  | int {i : Int} {p v r : Nat} {B C : Mat K} {as Bs Bs'} (hi : pyIndex Bs.length i = some p) (hr : env[v]? = some r)
      (hB : mats[v]? = some B) (hC : Bs[p]? = some C) (hrows : B.rows = C.rows) (hcols : B.cols = C.cols)
      (hk : k.join B.kind = k) (hs : sym = true → B.Eqv B.T) (hh : herm = true → B.Eqv B.H)
      (rest : DiagFits env mats sym herm k as (Bs.set p B) Bs') :
      DiagFits env mats sym herm k ((.int i, .op r) :: as) Bs Bs'
  | slice {s : Slice} {I : List Nat} {vs : List (Option Nat)} {Vs : List (Mat K)} {as Bs Bs'}
      (hi : s.indices Bs.length = .ok I) (hv : BlockList env mats vs Vs)
      (hfit : List.Forall₂ (fun a B => ∃ C : Mat K, Bs[a]? = some C ∧ B.rows = C.rows ∧ B.cols = C.cols) I Vs)
      (hk : ∀ B ∈ Vs, k.join B.kind = k) (hs : sym = true → ∀ B ∈ Vs, B.Eqv B.T) (hh : herm = true → ∀ B ∈ Vs, B.Eqv B.H)
      (rest : DiagFits env mats sym herm k as (replaceAt Bs I Vs) Bs') :
      DiagFits env mats sym herm k ((.slice s, .list vs) :: as) Bs Bs'

/-- run a sequence of assignments, as long as none raises -/
def assignAllD (h : Heap K) : List (Idx × Val) → DiagOp → DiagOp × Option Err
  | [], op => (op, none)
  | a :: as, op => match op.assign h a.1 a.2 with
    | (op', none) => assignAllD h as op'
    | (op', some e) => (op', some e)

section
variable {D : List (Mat K)} {h : Heap K} {S : Nat → Prop}

theorem assignAllD_fresh (I : HInv D h) (hS : Closed h S) {env : List Nat} {mats : List (Mat K)}
    (hg : ∀ (v r : Nat) (A : Mat K), env[v]? = some r → mats[v]? = some A → Good D S r A) {sym herm : Bool} {k : DKind}
    {as : List (Idx × Val)} {Bs Bs' : List (Mat K)} (hA : DiagFits env mats sym herm k as Bs Bs') : ∀ o : DiagOp,
    Fresh D h S o Bs → o.symmetric = sym → o.hermitian = herm → o.dtype = k →
    ∃ o', assignAllD h as o = (o', none) ∧ Fresh D h S o' Bs' ∧ o'.symmetric = sym ∧ o'.hermitian = herm ∧ o'.dtype = k ∧
      Bs'.map (fun A => (A.rows, A.cols)) = Bs.map fun A => (A.rows, A.cols) := by
  induction hA with
  | nil Bs => intro o F e1 e2 e3; exact ⟨o, rfl, F, e1, e2, e3, rfl⟩
  | @int i p v r B C as Bs Bs' hi hr hB hC hrows hcols hk hs hh rest ih =>
    intro o F e1 e2 e3
    subst e1 e2 e3
    obtain ⟨o1, f1, F1, q1, q2, q3, _, _⟩ := F.set I hS hi hC (hg _ _ _ hr hB) hrows hcols hk hs hh
    obtain ⟨o', f2, w1, w2, w3, w4, w5⟩ := ih o1 F1 q1 q2 q3
    refine ⟨o', ?_, w1, w2, w3, w4, w5.trans (shapes_set hC hrows hcols)⟩
    simp only [assignAllD, dassign_eq_set f1]
    exact f2
  | @slice s Is vs Vs as Bs Bs' hi hv hfit hk hs hh rest ih =>
    intro o F e1 e2 e3
    subst e1 e2 e3
    have gv := BlockList.good hg hv
    have hse := replaceAt_sh _ _ _ hfit
    obtain ⟨o1, f1, F1, q1, q2, q3⟩ := F.assign I hS (idx := .slice s) (v := .list vs) (bl := replaceAt o.blocks Is vs)
      (Bs' := replaceAt Bs Is Vs)
      (listSet_slice (by rw [F.blocks.length_eq]; exact hi) (by rw [gv.length_eq]; exact hfit.length_eq))
      (by
        intro ws hws
        cases hws
        rw [List.any_eq_false]
        intro x hx
        obtain ⟨n, hn, rfl⟩ := List.getElem_of_mem hx
        obtain ⟨r, hr, _⟩ := (List.forall₂_iff_get.1 gv).2 n hn (by rw [← gv.length_eq]; exact hn)
        have : vs[n] = some r := hr
        rw [this]; simp)
      (forall2_replaceAt Is gv F.blocks) hse
      (by
        intro A hA
        rcases mem_replaceAt _ _ _ _ hA with h | h
        · exact F.kind A h
        · exact hk A h)
      (fun h1 => forall2_map_replaceAt Is (F.sym h1) fun B hB => (hs h1 B hB).symm)
      (fun h1 => forall2_map_replaceAt Is (F.herm h1) fun B hB => (hh h1 B hB).symm)
    obtain ⟨o', f2, w1, w2, w3, w4, w5⟩ := ih o1 F1 q1 q2 q3
    refine ⟨o', ?_, w1, w2, w3, w4, w5.trans hse⟩
    simp only [assignAllD, f1]
    exact f2

theorem diag_object (op : DiagOp) (h : Heap K) : ∃ o, (op.objs h).2[(op.objs h).1]? = some o ∧ o.nargin = op.nargin ∧
      o.nargout = op.nargout ∧ o.dtype = op.dtype ∧ o.symmetric = op.symmetric ∧ o.hermitian = op.hermitian ∧
      o.code = .prim (diagMatvec h op.dtype op.sizes op.blocks) := by
  obtain ⟨nin, nout, sy, he, dt, sz, own, G1, G2, G3⟩ := op
  by_cases hk : dt = .complex
  · subst hk
    unfold DiagOp.objs DiagOp.args
    simp only [LinearOperator_complex]
    cases sy <;> cases he <;> simp [newComplex, mkFwd]
  · unfold DiagOp.objs DiagOp.args
    simp only [LinearOperator_real _ _ _ _ _ _ _ _ hk]
    cases sy <;> cases he <;> simp [newReal, mkFwd]

end

/-- **C59 for block diagonal operators** (partial: the values fit).  After any sequence of assignments, with integers and slices,
of operators that fit the blocks they replace, none raises, products with the operator (same object as before) are those of the
block diagonal matrix with all the selected blocks replaced, for square blocks also those with `.T` and `.H`; it is indexed
accordingly. -/
theorem C59_diag_fits_partial {env : List Nat} {h : Heap K} {mats : List (Mat K)} (R : ReachTotal env h mats)
    {l : List (Option Nat)} {Bs : List (Mat K)} (g : BlockList env mats l Bs) (hne : Bs ≠ []) :
    ∃ op : DiagOp, mkDiag h l = .ok op ∧ ∀ (as : List (Idx × Val)) (Bs' : List (Mat K)),
      DiagFits env mats op.symmetric op.hermitian (diagMat Bs).kind as Bs Bs' →
      ∃ op' : DiagOp, assignAllD h as op = (op', none) ∧
        Represents (op'.objs h).2 (op'.objs h).1 (diagMatK (diagMat Bs).kind Bs') ∧
        Total (op'.objs h).2 (op'.objs h).1 (diagMatK (diagMat Bs).kind Bs') ∧
        ((∀ A ∈ Bs, A.rows = A.cols) → ActsAs (op'.objs h).2 (op'.objs h).1 (diagMatK (diagMat Bs).kind Bs')) ∧
        (op'.objs h).1 = (op.objs h).1 ∧ DiagIndexes h op' Bs' := by
  obtain ⟨D, S, I, hS, hg⟩ := reach_good R
  obtain ⟨op, h1, B, h2, h3, h4, _⟩ := mkDiag_ok I hS (g.good hg) hne
  have e : op.dtype = (diagMat Bs).kind := h2
  refine ⟨op, h1, fun as Bs' hA => ?_⟩
  obtain ⟨op', e1, F, q1, q2, q3, hsh⟩ := assignAllD_fresh I hS hg hA op
    ⟨B.nargin, B.nargout, B.kind, B.sizes, B.blocks, fun _ => B.blocksT, fun _ => B.blocksH, h3, h4⟩ rfl rfl e
  obtain ⟨op'', B'', ob, w1, w2, w3⟩ := F.inv I hS
  have hP := diag_fwd_products I hS B''
  obtain ⟨o, ho, o1, o2, o3, o4, o5, _⟩ := diag_object op'' h
  have hd : op''.dtype = (diagMat Bs).kind := w3.trans q3
  rw [hd] at hP
  refine ⟨op', e1, ?_, ?_, ?_, by rw [dobjs_fst, dobjs_fst], diag_indexes_good I hS R F.blocks⟩
  · rw [← ob]
    exact hP.represents ho (o1.trans B''.nargin) (o2.trans B''.nargout) (o3.trans hd)
      (fun hs => eqvT_all (F.sym (by rw [← w1, ← o4]; exact hs)))
      (fun hs => eqvH_all (F.herm (by rw [← w2, ← o5]; exact hs)))
  · rw [← ob]
    refine hP.total ?_
    have := (List.getElem?_eq_some_iff.1 ho).1
    omega
  · intro hsq
    have hsq' : ∀ A ∈ Bs', A.rows = A.cols := by
      intro A hA
      have : (A.rows, A.cols) ∈ Bs.map fun A => (A.rows, A.cols) := by
        rw [← hsh]; exact List.mem_map_of_mem hA
      obtain ⟨C, hC, hc⟩ := List.mem_map.1 this
      obtain ⟨c1, c2⟩ := Prod.mk.inj hc
      rw [← c1, ← c2]; exact hsq C hC
    have R' := B''.step I hS R hsq' (fun h => eqvT_all (F.sym (by rw [← w1]; exact h)))
      (fun h => eqvH_all (F.herm (by rw [← w2]; exact h)))
    rw [ob, hd] at R'
    exact reach_actsAs R' (i := env.length) (by simp) (by simp [R.reach.len])

/-- **C59 for block diagonal operators** (partial).  An index out of range, a slice with step 0, a list that contains something
that is not an operator, something that is not a list assigned to a slice, and a list of the wrong length assigned to a slice with
a step other than 1 raise and leave the operator as it was. -/
theorem C59_diag_rejected_partial (h : Heap K) (op : DiagOp) (idx : Idx) (v : Val)
    (hbad : (∃ e, idx.select op.blocks.length = .error e) ∨ (∃ vs, v = .list vs ∧ none ∈ vs) ∨
      (∃ s, idx = .slice s ∧ ∀ vs, v ≠ .list vs) ∨
      (∃ s vs I, idx = .slice s ∧ v = .list vs ∧ s.step.getD 1 ≠ 1 ∧ s.indices op.blocks.length = .ok I ∧
        vs.length ≠ I.length)) :
    ∃ e, op.assign h idx v = (op, some e) := by
  have key : (∃ e, listSet op.blocks idx v = .error e) → ∃ e, op.assign h idx v = (op, some e) := by
    rintro ⟨e, he⟩
    unfold DiagOp.assign
    rw [he]
    dsimp only
    split_ifs <;> exact ⟨_, rfl⟩
  rcases hbad with ⟨e, he⟩ | ⟨vs, rfl, hn⟩ | ⟨s, rfl, hv⟩ | ⟨s, vs, I, rfl, rfl, h1, hI, hne⟩
  · apply key
    cases idx with
    | int i =>
      simp only [Idx.select] at he
      cases hp : pyIndex op.blocks.length i with
      | none => exact ⟨.indexError, by simp [listSet, hp]⟩
      | some a => rw [hp] at he; cases he
    | slice s =>
      simp only [Idx.select] at he
      cases v <;> exact ⟨e, by simp only [listSet, he, bind, Except.bind]⟩
  · unfold DiagOp.assign
    rw [if_pos (List.any_eq_true.2 ⟨none, hn, rfl⟩)]
    exact ⟨_, rfl⟩
  · apply key
    cases hI : s.indices op.blocks.length with
    | error e => cases v <;> exact ⟨e, by simp only [listSet, hI, bind, Except.bind]⟩
    | ok I =>
      cases v with
      | list vs => exact absurd rfl (hv vs)
      | op r => exact ⟨.typeError, by simp only [listSet, hI, bind, Except.bind]⟩
      | other => exact ⟨.typeError, by simp only [listSet, hI, bind, Except.bind]⟩
  · apply key
    exact ⟨.valueError, by simp only [listSet, hI, bind, Except.bind, if_neg h1, if_pos hne]⟩

end Verif.Blkop
