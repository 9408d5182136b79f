import Verif.Blkop.IndexLemmas

/-!
# Property C58: indexing block operators

`op.getItem h i j` is `op[i, j]` (`op[i]` when `j` is `none`), for integers and slices.  Which positions a slice selects is stated
in `C58_slice_up`, `C58_slice_down` and the special cases after them; `Indexes` says what the result is.
-/

set_option linter.unusedSectionVars false

namespace Verif.Blkop
open Verif.Linop

/-! ## Slices -/

/-- a bound given in a slice, counted from the end if it is negative -/
def fromEnd (n : Nat) (a : Int) : Int := if a < 0 then a + n else a

/-- **C58, slices with positive step.**  `start:stop:step` selects, in increasing order, the positions between `start` (0 if this
lies before the beginning) and `stop` (excluded) that `step` reaches from there. -/
theorem C58_slice_up (s : Slice) (n : Nat) (hp : 0 < s.step.getD 1) :
    let lo := max 0 ((s.start.map (fromEnd n)).getD 0)
    ∃ I, Idx.select n (.slice s) = .ok I ∧ I.Pairwise (· < ·) ∧ ∀ x : Nat, x ∈ I ↔
      x < n ∧ lo ≤ x ∧ (∀ b, s.stop = some b → (x : Int) < fromEnd n b) ∧ s.step.getD 1 ∣ x - lo := by
  intro lo
  obtain ⟨I, h1, h2, h3⟩ := s.pos_spec n hp
  refine ⟨I, h1, h2, fun x => ?_⟩
  rw [h3]
  generalize s.step.getD 1 = t at hp
  have hb : (x : Int) < s.bound n t ↔ x < n ∧ ∀ b, s.stop = some b → (x : Int) < fromEnd n b := by
    unfold Slice.bound
    rw [if_neg (by omega)]
    cases s.stop with
    | none => simp
    | some b =>
      simp only [Option.some.injEq, forall_eq', Slice.clip, fromEnd]
      generalize (if b < 0 then b + (n : Int) else b) = c
      split
      · omega
      · split <;> omega
  have hf : x < n → (s.first n t ≤ x ∧ t ∣ x - s.first n t ↔ lo ≤ x ∧ t ∣ x - lo) := by
    intro hx
    unfold Slice.first
    rw [if_neg (by omega)]
    simp only [lo]
    cases s.start with
    | none => simp
    | some b =>
      simp only [Slice.clip, fromEnd, Option.map_some, Option.getD_some]
      generalize (if b < 0 then b + (n : Int) else b) = c
      split
      · rw [max_eq_left (by omega)]
      · split
        · rw [max_eq_right (by omega)]; omega
        · rw [max_eq_right (by omega)]
  rw [hb]
  constructor
  · rintro ⟨a, ⟨b, c⟩, d⟩
    have := (hf b).1 ⟨a, d⟩
    exact ⟨b, this.1, c, this.2⟩
  · rintro ⟨b, a, c, d⟩
    have := (hf b).2 ⟨a, d⟩
    exact ⟨this.1, ⟨b, c⟩, this.2⟩

/-- **C58, slices with negative step.**  `start:stop:step` selects, in decreasing order, the positions from `start` (the last one
if this lies behind the end) down to `stop` (excluded) that `step` reaches. -/
theorem C58_slice_down (s : Slice) (n : Nat) (hn : s.step.getD 1 < 0) :
    let hi := min ((n : Int) - 1) ((s.start.map (fromEnd n)).getD (n - 1))
    ∃ I, Idx.select n (.slice s) = .ok I ∧ I.Pairwise (· > ·) ∧ ∀ x : Nat, x ∈ I ↔
      (x : Int) ≤ hi ∧ (∀ b, s.stop = some b → fromEnd n b < (x : Int)) ∧ s.step.getD 1 ∣ x - hi := by
  intro hi
  obtain ⟨I, h1, h2, h3⟩ := s.neg_spec n hn
  refine ⟨I, h1, h2, fun x => ?_⟩
  rw [h3]
  generalize s.step.getD 1 = t at hn
  have hb : (x : Int) < n → (s.bound n t < x ↔ ∀ b, s.stop = some b → fromEnd n b < (x : Int)) := by
    intro hx
    unfold Slice.bound
    rw [if_pos hn]
    cases s.stop with
    | none => simp; omega
    | some b =>
      simp only [Option.some.injEq, forall_eq', Slice.clip, fromEnd]
      generalize (if b < 0 then b + (n : Int) else b) = c
      split
      · omega
      · split <;> omega
  have hf : ((x : Int) ≤ s.first n t ∧ t ∣ x - s.first n t ↔ x ≤ hi ∧ t ∣ x - hi) := by
    unfold Slice.first
    rw [if_pos hn]
    simp only [hi]
    cases s.start with
    | none => simp
    | some b =>
      simp only [Slice.clip, fromEnd, Option.map_some, Option.getD_some]
      generalize (if b < 0 then b + (n : Int) else b) = c
      split
      · rw [min_eq_right (by omega)]; omega
      · split
        · rw [min_eq_left (by omega)]
        · rw [min_eq_right (by omega)]
  have hx := s.first_neg n hn
  constructor
  · rintro ⟨a, b, c⟩
    have := hf.1 ⟨a, c⟩
    exact ⟨this.1, (hb (by omega)).1 b, this.2⟩
  · rintro ⟨a, b, c⟩
    have := hf.2 ⟨a, c⟩
    exact ⟨this.1, (hb (by omega)).2 b, this.2⟩

/-- `:` selects everything -/
theorem C58_slice_all (n : Nat) : Idx.select n (.slice {}) = .ok (List.range n) := by
  obtain ⟨I, h1, h2, h3⟩ := C58_slice_up {} n (by decide)
  rw [h1]
  congr 1
  refine List.Perm.eq_of_pairwise (le := fun a b => a < b) (fun a b _ _ h1 h2 => absurd h1 (by omega)) h2
    List.pairwise_lt_range ?_
  rw [List.perm_ext_iff_of_nodup (h2.imp (fun h => by omega)) List.nodup_range]
  intro a
  rw [h3]
  simp

/-- `a:b` selects the positions from `a` to `b` (excluded) -/
theorem C58_slice_between (n a b : Nat) (hab : a ≤ b) (hb : b ≤ n) :
    Idx.select n (.slice { start := some a, stop := some b }) = .ok (List.range' a (b - a)) := by
  obtain ⟨I, h1, h2, h3⟩ := C58_slice_up { start := some a, stop := some b } n Int.one_pos
  rw [h1]
  congr 1
  refine List.Perm.eq_of_pairwise (le := fun a b => a < b) (fun a b _ _ h1 h2 => absurd h1 (by omega)) h2
    (List.pairwise_lt_range' ..) ?_
  rw [List.perm_ext_iff_of_nodup (h2.imp (fun h => by omega)) List.nodup_range']
  intro x
  rw [h3, List.mem_range'_1]
  simp [fromEnd]
  omega

/-- `::-1` reverses -/
theorem C58_slice_reverse (n : Nat) : Idx.select n (.slice { step := some (-1) }) = .ok (List.range n).reverse := by
  obtain ⟨I, h1, h2, h3⟩ := C58_slice_down { step := some (-1) } n (by decide)
  rw [h1]
  congr 1
  refine List.Perm.eq_of_pairwise (le := fun a b => a > b) (fun a b _ _ h1 h2 => absurd h1 (by omega)) h2
    (List.pairwise_reverse.2 List.pairwise_lt_range) ?_
  rw [List.perm_ext_iff_of_nodup (h2.imp (fun h => by omega)) (List.nodup_reverse.2 List.nodup_range)]
  intro x
  rw [h3]
  simp
  omega

/-! ## Block operators -/

variable {K : Type} [CommRing K] [StarRing K] [DTypes K] [DecidableEq K]

/-- the block matrix made of the rows `I` and the columns `J` of blocks -/
def subMat (hts wds : List Nat) (M : Nat → Nat → Mat K) (I J : List Nat) : Mat K :=
  blockMat (I.map fun a => hts.getD a 0) (J.map fun b => wds.getD b 0) fun a b => M (I.getD a 0) (J.getD b 0)

/-- Indexing the operator `op`, whose blocks are `M a b`: one block for two integers, the block operator of the selected blocks
otherwise; an index out of range and an empty selection raise; `in` and iteration agree with indexing. -/
structure Indexes (h : Heap K) (op : BlkOp) (hts wds : List Nat) (M : Nat → Nat → Mat K) : Prop where
  block : ∀ (i j : Int) (a b : Nat), pyIndex hts.length i = some a → pyIndex wds.length j = some b →
    ∃ r, op.getItem h (.int i) (some (.int j)) = .ok (.block r) ∧ ActsAs h r (M a b)
  sub : ∀ (i : Idx) (j : Option Idx) (I J : List Nat), i.select hts.length = .ok I → selectCols wds.length j = .ok J →
    I ≠ [] → J ≠ [] → (¬∃ p q, i = .int p ∧ j = some (.int q)) →
    ∃ s : BlkOp, op.getItem h i j = .ok (.op s) ∧ ActsAs (s.objs h).2 (s.objs h).1 (subMat hts wds M I J) ∧
      ∀ a < I.length, ∀ b < J.length, s.getItem h (.int a) (some (.int b)) =
        op.getItem h (.int (I.getD a 0 : Nat)) (some (.int (J.getD b 0 : Nat)))
  rowError : ∀ (i : Idx) (j : Option Idx) (e : Err), i.select hts.length = .error e → op.getItem h i j = .error e
  colError : ∀ (i : Idx) (j : Option Idx) (I : List Nat) (e : Err), i.select hts.length = .ok I →
    selectCols wds.length j = .error e → op.getItem h i j = .error e
  empty : ∀ (i : Idx) (j : Option Idx) (I J : List Nat), i.select hts.length = .ok I → selectCols wds.length j = .ok J →
    I = [] ∨ J = [] → ∃ e, op.getItem h i j = .error e
  contains : ∀ r, op.contains r = true ↔ ∃ a b : Nat, op.getItem h (.int a) (some (.int b)) = .ok (.block r)
  iterRows : op.iter.length = hts.length ∧ ∀ row ∈ op.iter, row.length = wds.length
  iter : ∀ a < hts.length, ∀ b < wds.length, ∃ r, (op.iter[a]?.bind fun row => row[b]?) = some (some r) ∧
    op.getItem h (.int a) (some (.int b)) = .ok (.block r)

theorem pyIndex_nat {n a : Nat} (h : a < n) : pyIndex n (a : Int) = some a := by
  unfold pyIndex
  rw [if_pos (by omega), if_pos (by omega)]
  simp

theorem getItem_ints (h : Heap K) (op : BlkOp) {i j : Int} {a b : Nat} (hi : pyIndex op.blocks.length i = some a)
    (hj : pyIndex (ncols op.blocks) j = some b) : op.getItem h (.int i) (some (.int j)) =
      match entry op.blocks a b with
      | some r => .ok (.block r)
      | none => .error .attributeError := by
  simp only [BlkOp.getItem, Idx.select, selectCols, hi, hj, bind, Except.bind]
  cases entry op.blocks a b <;> rfl

theorem getItem_sub (h : Heap K) (op : BlkOp) {i : Idx} {j : Option Idx} {I J : List Nat}
    (hi : i.select op.blocks.length = .ok I) (hj : selectCols (ncols op.blocks) j = .ok J)
    (hne : ¬∃ p q, i = .int p ∧ j = some (.int q)) : op.getItem h i j =
      (mkBlock h (I.map fun p => J.map fun q => entry op.blocks p q) false false).map fun s => Item.op s.1 := by
  unfold BlkOp.getItem
  simp only [hi, hj, bind, Except.bind]
  split
  · next p q _ _ => exact absurd ⟨_, _, rfl, rfl⟩ hne
  · cases mkBlock h (I.map fun p => J.map fun q => entry op.blocks p q) false false <;> rfl

theorem mkBlock_blocks {h : Heap K} {G G' : Grid} {s : BlkOp} (e : mkBlock h G false false = .ok (s, G')) : s.blocks = G := by
  simp only [mkBlock, Bool.false_eq_true, or_self, if_false, bind, Except.bind] at e
  cases h1 : checkShapes h G with
  | error x => rw [h1] at e; cases e
  | ok p =>
  cases h2 : transposeGrid (getT h) G with
  | error x => rw [h1, h2] at e; cases e
  | ok bT =>
  cases h3 : transposeGrid (getH h) G with
  | error x => rw [h1, h2, h3] at e; cases e
  | ok bH =>
  rw [h1, h2, h3] at e
  have e := (Except.ok.inj e)
  have e := congrArg (fun p => p.1.blocks) e
  dsimp only at e
  rw [if_neg (fun hc => by simpa using ((objs_H _ h).1 hc).1), if_neg (fun hc => by simpa using (objs_T _ h).1 hc)] at e
  exact e.symm

theorem mkBlock_empty (h : Heap K) {Is Js : List Nat} (f : Nat → Nat → Option Nat) (hor : Is = [] ∨ Js = []) :
    ∃ e, mkBlock h (Is.map fun p => Js.map fun q => f p q) false false = .error e := by
  have : ∃ e, checkShapes h (Is.map fun p => Js.map fun q => f p q) = .error e := by
    cases Is with
    | nil => exact ⟨.valueError, rfl⟩
    | cons a Is =>
      rcases hor with hor | rfl
      · cases hor
      · have e1 : Blkop.shapes h ((a :: Is).map fun p => ([] : List Nat).map fun q => f p q) =
            .ok ((a :: Is).map fun _ => []) := by
          unfold Blkop.shapes
          rw [mapM_ok _ (fun _ => [])]
          · rw [List.map_map]; rfl
          · intro b hb
            obtain ⟨p, _, rfl⟩ := List.mem_map.1 hb
            rfl
        refine ⟨.indexError, ?_⟩
        simp only [checkShapes, e1, bind, Except.bind]
        rw [List.map_cons, List.mapM_cons]
        rfl
  obtain ⟨e, he⟩ := this
  refine ⟨e, ?_⟩
  simp only [mkBlock, Bool.false_eq_true, or_self, if_false, bind, Except.bind, he]

theorem indexes_good {D : List (Mat K)} {h : Heap K} {S : Nat → Prop} (I : HInv D h) (hS : Closed h S) {env : List Nat}
    {mats : List (Mat K)} (R : ReachTotal env h mats) {op : BlkOp} {hts wds : List Nat} {M : Nat → Nat → Mat K}
    (g : GoodGrid D S op.blocks hts wds M) : Indexes h op hts wds M := by
  obtain ⟨l1, l2⟩ := g.length
  have hints : ∀ {i j : Int} {a b : Nat}, pyIndex hts.length i = some a → pyIndex wds.length j = some b →
      ∃ r, op.getItem h (.int i) (some (.int j)) = .ok (.block r) ∧ entry op.blocks a b = some r ∧
        (op.blocks[a]?.bind fun row => row[b]?) = some (some r) ∧ Good D S r (M a b) := by
    intro i j a b hi hj
    obtain ⟨r, e1, e2, e3⟩ := g.entry (pyIndex_lt hi) (pyIndex_lt hj)
    refine ⟨r, ?_, e1, e2, e3⟩
    rw [getItem_ints h op (by rw [l1]; exact hi) (by rw [l2]; exact hj), e1]
  constructor
  · intro i j a b hi hj
    obtain ⟨r, e1, _, _, e3⟩ := hints hi hj
    exact ⟨r, e1, e3.actsAs I hS⟩
  · intro i j Is Js hi hj h1 h2 hne
    have gs := g.sub (Idx.select_lt hi) (selectCols_lt hj) h1 h2
    obtain ⟨s, e1, B, e2, e3, e4⟩ := mkBlock_plain I hS gs
    have hk : blockMatK s.dtype (Is.map fun a => hts.getD a 0) (Js.map fun b => wds.getD b 0)
        (fun a b => M (Is.getD a 0) (Js.getD b 0)) = subMat hts wds M Is Js := by rw [e4]; rfl
    have R' := B.step I hS R (fun h => by rw [e2] at h; cases h) (fun h => by rw [e3] at h; cases h)
    rw [hk] at R'
    refine ⟨s, ?_, reach_actsAs R' (i := env.length) (by simp) (by simp [R.reach.len]), ?_⟩
    · rw [getItem_sub h op (by rw [l1]; exact hi) (by rw [l2]; exact hj) hne, e1]; rfl
    · intro a ha b hb
      have hs := mkBlock_blocks e1
      obtain ⟨q1, q2⟩ := B.blocks.length
      rw [List.length_map] at q1 q2
      rw [getItem_ints h s (by rw [q1]; exact pyIndex_nat ha) (by rw [q2]; exact pyIndex_nat hb),
        getItem_ints h op (by rw [l1]; exact pyIndex_nat (Idx.select_lt hi _ (getD_mem ha)))
          (by rw [l2]; exact pyIndex_nat (selectCols_lt hj _ (getD_mem hb))), hs]
      congr 1
      simp [entry, List.getD_eq_getElem?_getD, ha, hb]
  · intro i j e hi
    simp only [BlkOp.getItem, l1, hi, bind, Except.bind]
  · intro i j Is e hi hj
    simp only [BlkOp.getItem, l1, l2, hi, hj, bind, Except.bind]
  · intro i j Is Js hi hj hor
    have hne : ¬∃ p q, i = .int p ∧ j = some (.int q) := by
      rintro ⟨p, q, rfl, rfl⟩
      simp only [Idx.select, selectCols] at hi hj
      rcases hor with rfl | rfl
      · cases hp : pyIndex hts.length p <;> rw [hp] at hi <;> cases hi
      · cases hp : pyIndex wds.length q <;> rw [hp] at hj <;> cases hj
    rw [getItem_sub h op (by rw [l1]; exact hi) (by rw [l2]; exact hj) hne]
    obtain ⟨e, he⟩ := mkBlock_empty h (Is := Is) (Js := Js) (fun p q => entry op.blocks p q) hor
    exact ⟨e, by rw [he]; rfl⟩
  · intro r
    have hm : op.contains r = true ↔ ∃ a b, entry op.blocks a b = some r := by
      unfold BlkOp.contains entry
      rw [List.contains_iff_mem, List.mem_flatten]
      constructor
      · rintro ⟨row, h1, h2⟩
        obtain ⟨a, ha⟩ := List.getElem?_of_mem h1
        obtain ⟨b, hb⟩ := List.getElem?_of_mem h2
        exact ⟨a, b, by rw [ha]; simp [hb]⟩
      · rintro ⟨a, b, h1⟩
        cases ha : op.blocks[a]? with
        | none => rw [ha] at h1; simp at h1
        | some row =>
          rw [ha] at h1
          cases hb : row[b]? with
          | none => simp [hb] at h1
          | some x =>
            simp only [Option.bind_some, hb, Option.getD_some] at h1
            exact ⟨row, List.mem_of_getElem? ha, by rw [← h1]; exact List.mem_of_getElem? hb⟩
    rw [hm]
    constructor
    · rintro ⟨a, b, h1⟩
      have hab : a < hts.length ∧ b < wds.length := by
        obtain ⟨R0, e, _⟩ := g.grid
        rw [e] at h1
        by_contra hc
        by_cases ha : a < hts.length
        · simp [entry, mkG, ha, show ¬b < wds.length from fun hb => hc ⟨ha, hb⟩] at h1
        · simp [entry, mkG, ha] at h1
      obtain ⟨r', e1, e2, _⟩ := hints (pyIndex_nat hab.1) (pyIndex_nat hab.2)
      rw [e2] at h1
      cases h1
      exact ⟨a, b, e1⟩
    · rintro ⟨a, b, h1⟩
      cases ha : pyIndex op.blocks.length a with
      | none => simp [BlkOp.getItem, Idx.select, ha, bind, Except.bind] at h1
      | some a' =>
        cases hb : pyIndex (ncols op.blocks) b with
        | none => simp [BlkOp.getItem, Idx.select, selectCols, ha, hb, bind, Except.bind] at h1
        | some b' =>
          rw [getItem_ints h op ha hb] at h1
          cases he : entry op.blocks a' b' with
          | none => rw [he] at h1; cases h1
          | some r' => rw [he] at h1; cases h1; exact ⟨a', b', he⟩
  · obtain ⟨R0, e, _⟩ := g.grid
    unfold BlkOp.iter
    rw [e]
    simp [mkG]
  · intro a ha b hb
    obtain ⟨r, e1, _, e3, _⟩ := hints (pyIndex_nat ha) (pyIndex_nat hb)
    exact ⟨r, e3, e1⟩

/-! ## C58 -/

theorem setAll_inv {D : List (Mat K)} {h : Heap K} {S : Nat → Prop} (I : HInv D h) (hS : Closed h S) {env : List Nat}
    {mats : List (Mat K)} (hg : ∀ (v r : Nat) (A : Mat K), env[v]? = some r → mats[v]? = some A → Good D S r A)
    {hts wds : List Nat} {k : DKind} {as : List (Int × Int × Nat)} {M M' : Nat → Nat → Mat K}
    (hA : Assigned env mats hts wds k as M M') : ∀ o : BlkOp, BlkInv D S o hts wds M → o.symmetric = false →
    o.hermitian = false → o.dtype = k → ∃ o', setAll h o as = .ok o' ∧ BlkInv D S o' hts wds M' := by
  induction hA with
  | nil M => intro o B h2 h3 h4; exact ⟨o, rfl, B⟩
  | cons hi hj hr hB hrows hcols hk rest ih =>
    intro o B h2 h3 h4
    obtain ⟨o1, e1, B1, f1, f2, f3⟩ := B.set I hS h2 h3 hi hj (hg _ _ _ hr hB) hrows hcols (by rw [h4]; exact hk)
    obtain ⟨o', e2, r⟩ := ih o1 B1 f1 f2 (f3.trans h4)
    refine ⟨o', ?_, r⟩
    simp only [setAll, List.foldlM_cons, e1, bind, Except.bind]
    exact e2

/-- **C58.**  A block operator built from a grid of blocks with consistent shapes, after any sequence of assignments of fitting
blocks, is indexed as the matrix of its current blocks. -/
theorem C58_block {env : List Nat} {h : Heap K} {mats : List (Mat K)} (R : ReachTotal env h mats) {G : Grid}
    {hts wds : List Nat} {M : Nat → Nat → Mat K} (g : BlockGrid env mats G hts wds M) {as : List (Int × Int × Nat)}
    {M' : Nat → Nat → Mat K} (hA : Assigned env mats hts wds (blockMat hts wds M).kind as M M') :
    ∃ op op' : BlkOp, mkBlock h G false false = .ok (op, G) ∧ setAll h op as = .ok op' ∧ Indexes h op' hts wds M' := by
  obtain ⟨D, S, I, hS, hg⟩ := reach_good R
  obtain ⟨op, h1, B, h2, h3, h4⟩ := mkBlock_plain I hS (g.good hg)
  obtain ⟨op', e1, B'⟩ := setAll_inv I hS hg hA op B h2 h3 h4
  exact ⟨op, op', h1, e1, indexes_good I hS R B'.blocks⟩

theorem setAll_flagged {D : List (Mat K)} {h : Heap K} {S : Nat → Prop} (I : HInv D h) (hS : Closed h S) {env : List Nat}
    {mats : List (Mat K)} (hg : ∀ (v r : Nat) (A : Mat K), env[v]? = some r → mats[v]? = some A → Good D S r A)
    {sym herm : Bool} (hf : sym = true ∨ herm = true) {ns : List Nat} {k : DKind} {as : List (Int × Int × Nat)}
    {M M' : Nat → Nat → Mat K} (hA : UpperAssigned env mats sym herm ns k as M M') : ∀ o : BlkOp,
    GoodGrid D S o.blocks ns ns (mirror (trOf sym) M) → o.symmetric = sym → o.hermitian = herm →
    ∃ o', setAll h o as = .ok o' ∧ GoodGrid D S o'.blocks ns ns (mirror (trOf sym) M') := by
  induction hA with
  | nil M => intro o g f1 f2; exact ⟨o, rfl, g⟩
  | @cons i j p q v r B as M M' hi hj hpq hr hB hrows hcols hk hsym rest ih =>
    intro o g f1 f2
    obtain ⟨G1, e1, g1⟩ := flagged_set I hS g (by rw [f1, f2]; exact hf) hi hj (hg _ _ _ hr hB) hrows hcols
    rw [f1, mirror_upd hpq] at g1
    obtain ⟨o', e2, r⟩ := ih { o with blocks := G1 } g1 f1 f2
    refine ⟨o', ?_, r⟩
    simp only [setAll, List.foldlM_cons, e1, bind, Except.bind]
    exact e2

/-- **C58 for symmetric / hermitian operators.**  They are indexed as the completed matrix, also after assignments to the upper
triangle. -/
theorem C58_flagged {env : List Nat} {h : Heap K} {mats : List (Mat K)} (R : ReachTotal env h mats)
    {sym herm : Bool} {U : Grid} {ns : List Nat} {M : Nat → Nat → Mat K}
    (u : UpperGrid env h mats sym herm U ns M) (hf : sym = true ∨ herm = true)
    (hb : sym = true → herm = true → (blockMat ns ns (mirror Mat.T M)).kind ≠ .complex)
    {as : List (Int × Int × Nat)} {M' : Nat → Nat → Mat K}
    (hA : UpperAssigned env mats sym herm ns (blockMat ns ns (mirror (if sym = true then Mat.T else Mat.H) M)).kind as M M') :
    ∃ (op op' : BlkOp) (G : Grid), mkBlock h U sym herm = .ok (op, G) ∧ setAll h op as = .ok op' ∧
      Indexes h op' ns ns (mirror (if sym = true then Mat.T else Mat.H) M') := by
  obtain ⟨D, S, I, hS, hg⟩ := reach_good R
  have hb' : sym = true → herm = true → blockKind ns.length ns.length (mirror (trOf sym) M) ≠ .complex := by
    intro hs hh
    have := hb hs hh
    subst hs
    exact this
  obtain ⟨op, G, h1, B, h2, h3, _⟩ := mkBlock_flagged I hS (u.good hg) hf hb'
  obtain ⟨op', e1, g'⟩ := setAll_flagged I hS hg hf hA op B.blocks h2 h3
  exact ⟨op, op', G, h1, e1, indexes_good I hS R g'⟩

/-! ## Block diagonal operators -/

/-- Indexing the block diagonal operator `op` with blocks `Bs`: an integer gives the block, a slice the block diagonal operator of
the selected blocks, whose products (and for square blocks those of its transpose and adjoint) are those of the block diagonal
matrix of the selected blocks; an index out of range and an empty selection raise. -/
structure DiagIndexes (h : Heap K) (op : DiagOp) (Bs : List (Mat K)) : Prop where
  block : ∀ (i : Int) (a : Nat) (A : Mat K), pyIndex Bs.length i = some a → Bs[a]? = some A →
    ∃ r, op.getItem h (.int i) = .ok (.block (some r)) ∧ ActsAs h r A
  sub : ∀ (s : Slice) (I : List Nat), s.indices Bs.length = .ok I → I ≠ [] →
    ∃ d : DiagOp, op.getItem h (.slice s) = .ok (.op d) ∧
      Represents (d.objs h).2 (d.objs h).1 (diagMat (I.filterMap fun a => Bs[a]?)) ∧
      Total (d.objs h).2 (d.objs h).1 (diagMat (I.filterMap fun a => Bs[a]?)) ∧
      ((∀ a ∈ I, ∀ A, Bs[a]? = some A → A.rows = A.cols) →
        ActsAs (d.objs h).2 (d.objs h).1 (diagMat (I.filterMap fun a => Bs[a]?)))
  error : ∀ (i : Idx) (e : Err), i.select Bs.length = .error e → op.getItem h i = .error e
  empty : ∀ s : Slice, s.indices Bs.length = .ok [] → ∃ e, op.getItem h (.slice s) = .error e
  iter : op.iter.length = Bs.length ∧ ∀ a < Bs.length, op.getItem h (.int a) = .ok (.block (op.iter[a]?.getD none))

section
variable {D : List (Mat K)} {h : Heap K} {S : Nat → Prop}

theorem GoodList.sub {l : List (Option Nat)} {Bs : List (Mat K)} (g : GoodList D S l Bs) : ∀ I : List Nat,
    (∀ a ∈ I, a < Bs.length) → GoodList D S (I.map fun a => l[a]?.getD none) (I.filterMap fun a => Bs[a]?)
  | [], _ => .nil
  | a :: I, hI => by
    have ha := hI a (by simp)
    have ha' : a < l.length := by rw [g.length_eq]; exact ha
    have := (List.forall₂_iff_get.1 g).2 a ha' ha
    rw [List.map_cons, List.filterMap_cons_some (List.getElem?_eq_getElem ha)]
    refine .cons ?_ (GoodList.sub g I fun b hb => hI b (by simp [hb]))
    rw [List.getElem?_eq_getElem ha']
    exact this

theorem mkDiag_acts (I : HInv D h) (hS : Closed h S) {env : List Nat} {mats : List (Mat K)} (R : ReachTotal env h mats)
    {l : List (Option Nat)} {Bs : List (Mat K)} (g : GoodList D S l Bs) (hne : Bs ≠ []) :
    ∃ op : DiagOp, mkDiag h l = .ok op ∧ Represents (op.objs h).2 (op.objs h).1 (diagMat Bs) ∧
      Total (op.objs h).2 (op.objs h).1 (diagMat Bs) ∧
      ((∀ A ∈ Bs, A.rows = A.cols) → ActsAs (op.objs h).2 (op.objs h).1 (diagMat Bs)) := by
  obtain ⟨op, h1, B, h2, h3, h4, _⟩ := mkDiag_ok I hS g hne
  have e : diagMatK op.dtype Bs = diagMat Bs := by rw [h2]; rfl
  have hP := diag_fwd_products I hS B
  obtain ⟨o, ho, e1, e2, e3, e4, e5⟩ : ∃ o, (op.objs h).2[(op.objs h).1]? = some o ∧ o.nargin = op.nargin ∧
      o.nargout = op.nargout ∧ o.dtype = op.dtype ∧ o.symmetric = op.symmetric ∧ o.hermitian = op.hermitian := by
    obtain ⟨nin, nout, sy, he, dt, sz, own, G1, G2, G3⟩ := op
    by_cases hk : dt = .complex
    · subst hk
      unfold DiagOp.objs DiagOp.args
      simp only [LinearOperator_complex]
      cases sy <;> cases he <;> simp [newComplex, mkFwd]
    · unfold DiagOp.objs DiagOp.args
      simp only [LinearOperator_real _ _ _ _ _ _ _ _ hk]
      cases sy <;> cases he <;> simp [newReal, mkFwd]
  rw [← e]
  refine ⟨op, h1, hP.represents ho (e1.trans B.nargin) (e2.trans B.nargout) e3 (fun hs => eqvT_all (h3 (e4 ▸ hs)))
    (fun hs => eqvH_all (h4 (e5 ▸ hs))), hP.total ?_, ?_⟩
  · have := (List.getElem?_eq_some_iff.1 ho).1
    omega
  · intro hsq
    have R' := B.step I hS R hsq (fun h => eqvT_all (h3 h)) (fun h => eqvH_all (h4 h))
    exact reach_actsAs R' (i := env.length) (by simp) (by simp [R.reach.len])

theorem diag_indexes_good (I : HInv D h) (hS : Closed h S) {env : List Nat} {mats : List (Mat K)}
    (R : ReachTotal env h mats) {op : DiagOp} {Bs : List (Mat K)} (g : GoodList D S op.blocks Bs) :
    DiagIndexes h op Bs := by
  have hl : op.blocks.length = Bs.length := g.length_eq
  constructor
  · intro i a A hi hA
    have ha := pyIndex_lt hi
    have ha' : a < op.blocks.length := by rw [hl]; exact ha
    obtain ⟨r, hr, gr⟩ := (List.forall₂_iff_get.1 g).2 a ha' ha
    refine ⟨r, ?_, ?_⟩
    · simp only [DiagOp.getItem, hl, hi, List.getElem?_eq_getElem ha', Option.getD_some]
      rw [← hr]
      rfl
    · rw [List.getElem?_eq_getElem ha] at hA
      cases hA
      exact gr.actsAs I hS
  · intro s Is hI hne
    have hlt := Slice.indices_lt hI
    have hne' : (Is.filterMap fun a => Bs[a]?) ≠ [] := by
      intro hc
      obtain ⟨a, l, rfl⟩ := List.exists_cons_of_ne_nil hne
      rw [List.filterMap_cons_some (List.getElem?_eq_getElem (hlt a (by simp)))] at hc
      cases hc
    obtain ⟨d, e1, e2, e3, e4⟩ := mkDiag_acts I hS R (g.sub Is hlt) hne'
    refine ⟨d, ?_, e2, e3, ?_⟩
    · simp only [DiagOp.getItem, hl, hI, e1, bind, Except.bind]
    · intro hsq
      apply e4
      intro A hA
      obtain ⟨a, h1, h2⟩ := List.mem_filterMap.1 hA
      exact hsq a h1 A h2
  · intro i e hi
    cases i with
    | int i =>
      simp only [Idx.select] at hi
      simp only [DiagOp.getItem, hl]
      cases hp : pyIndex Bs.length i with
      | none => rw [hp] at hi; cases hi; rfl
      | some a => rw [hp] at hi; cases hi
    | slice s =>
      simp only [Idx.select] at hi
      simp only [DiagOp.getItem, hl, hi, bind, Except.bind]
  · intro s hs
    exact ⟨.typeError, by simp only [DiagOp.getItem, hl, hs, bind, Except.bind]; rfl⟩
  · refine ⟨hl, fun a ha => ?_⟩
    simp only [DiagOp.getItem, hl, pyIndex_nat ha, DiagOp.iter]

theorem setAllD_fresh (I : HInv D h) (hS : Closed h S) {env : List Nat} {mats : List (Mat K)}
    (hg : ∀ (v r : Nat) (A : Mat K), env[v]? = some r → mats[v]? = some A → Good D S r A) {sym herm : Bool} {k : DKind}
    {as : List (Int × Nat)} {Bs Bs' : List (Mat K)} (hA : DiagAssigned env mats sym herm k as Bs Bs') : ∀ o : DiagOp,
    Fresh D h S o Bs → o.symmetric = sym → o.hermitian = herm → o.dtype = k →
    ∃ o', setAllD h o as = .ok o' ∧ Fresh D h S o' Bs' := by
  induction hA with
  | nil Bs => intro o F _ _ _; exact ⟨o, rfl, F⟩
  | @cons i p v r B C as Bs Bs' hi hr hB hC hrows hcols hk hs hh rest ih =>
    intro o F e1 e2 e3
    subst e1 e2 e3
    obtain ⟨o1, f1, F1, q1, q2, q3, _, _⟩ := F.set I hS hi hC (hg _ _ _ hr hB) hrows hcols hk hs hh
    obtain ⟨o', f2, r⟩ := ih o1 F1 q1 q2 q3
    refine ⟨o', ?_, r⟩
    simp only [setAllD, List.foldlM_cons, f1, bind, Except.bind]
    exact f2

end

/-- **C58 for block diagonal operators.**  A block diagonal operator, built from any non-empty list of blocks and after any
sequence of assignments of fitting blocks, is indexed as the list of its current blocks. -/
theorem C58_diag {env : List Nat} {h : Heap K} {mats : List (Mat K)} (R : ReachTotal env h mats)
    {l : List (Option Nat)} {Bs : List (Mat K)} (g : BlockList env mats l Bs) (hne : Bs ≠ []) :
    ∃ op : DiagOp, mkDiag h l = .ok op ∧ ∀ (as : List (Int × Nat)) (Bs' : List (Mat K)),
      DiagAssigned env mats op.symmetric op.hermitian (diagMat Bs).kind as Bs Bs' →
      ∃ op' : DiagOp, setAllD h op as = .ok op' ∧ DiagIndexes h op' Bs' := by
  obtain ⟨D, S, I, hS, hg⟩ := reach_good R
  obtain ⟨op, h1, B, h2, h3, h4, _⟩ := mkDiag_ok I hS (g.good hg) hne
  refine ⟨op, h1, fun as Bs' hA => ?_⟩
  obtain ⟨op', e1, F⟩ := setAllD_fresh I hS hg hA op
    ⟨B.nargin, B.nargout, B.kind, B.sizes, B.blocks, fun _ => B.blocksT, fun _ => B.blocksH, h3, h4⟩ rfl rfl h2
  exact ⟨op', e1, diag_indexes_good I hS R F.blocks⟩

end Verif.Blkop
