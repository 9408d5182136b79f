import Verif.Blkop.Assign

/-!
# Properties C16-C19: block operators

The operators used as blocks are variables of an arbitrary client program (`ReachTotal env h mats`: the program ran and
variable `v` is object `env[v]`, standing for the matrix `mats[v]`).  `mkBlock h G sym herm` is the constructor call
`BlockLinearOperator(G, symmetric=sym, hermitian=herm)`; it returns the operator and the caller's nested list afterwards;
`op.objs h` are the operator object and the heap it lives in.
-/

set_option linter.unusedSectionVars false

namespace Verif.Blkop
open Verif.Linop Finset

variable {K : Type} [CommRing K] [StarRing K] [DTypes K] [DecidableEq K]

/-! ## C16 -/

/-- **C16.** For every grid of blocks with consistent shapes the constructor succeeds and leaves the caller's list as it
was; the operator acts as the block matrix (and `.T`, `.H` as its transpose and adjoint).  It can be used like any other
operator in the rest of the program, in particular as a block of further block operators. -/
theorem C16_block {env : List Nat} {h : Heap K} {mats : List (Mat K)} (R : ReachTotal env h mats) {G : Grid}
    {hts wds : List Nat} {M : Nat → Nat → Mat K} (g : BlockGrid env mats G hts wds M) :
    ∃ op : BlkOp, mkBlock h G false false = .ok (op, G) ∧
      ActsAs (op.objs h).2 (op.objs h).1 (blockMat hts wds M) ∧
      ReachTotal (env ++ [(op.objs h).1]) (op.objs h).2 (mats ++ [blockMat hts wds M]) := by
  obtain ⟨D, S, I, hS, hg⟩ := reach_good R
  obtain ⟨op, h1, B, h2, h3, h4⟩ := mkBlock_plain I hS (g.good hg)
  have e : blockMatK op.dtype hts wds M = blockMat hts wds M := by rw [h4]; rfl
  have R' := B.step I hS R (fun h => by rw [h2] at h; cases h) (fun h => by rw [h3] at h; cases h)
  rw [e] at R'
  exact ⟨op, h1, reach_actsAs R' (i := env.length) (by simp) (by simp [R.reach.len]), R'⟩

/-! ## C17 -/

/-- **C17** (partial: the caller's list is *not* left as it was, see `C17_caller_list`; and with both flags the blocks must not
be complex, see `C17_both_flags`).  From the upper triangle of a symmetric (hermitian) block matrix, with diagonal
operators flagged accordingly, the constructor builds an operator that acts as the completed matrix, and this matrix is
symmetric (hermitian). -/
theorem C17_upper_partial {env : List Nat} {h : Heap K} {mats : List (Mat K)} (R : ReachTotal env h mats)
    {sym herm : Bool} {U : Grid} {ns : List Nat} {M : Nat → Nat → Mat K}
    (u : UpperGrid env h mats sym herm U ns M) (hf : sym = true ∨ herm = true)
    (hb : sym = true → herm = true → (blockMat ns ns (mirror Mat.T M)).kind ≠ .complex) :
    let A := blockMat ns ns (mirror (if sym = true then Mat.T else Mat.H) M)
    ∃ (op : BlkOp) (G : Grid), mkBlock h U sym herm = .ok (op, G) ∧
      ActsAs (op.objs h).2 (op.objs h).1 A ∧ (sym = true → A.Eqv A.T) ∧ (herm = true → A.Eqv A.H) ∧
      ReachTotal (env ++ [(op.objs h).1]) (op.objs h).2 (mats ++ [A]) := by
  intro A
  obtain ⟨D, S, I, hS, hg⟩ := reach_good R
  obtain ⟨op, G, h1, B, h2, h3, h4, _, s1, s2⟩ := mkBlock_flagged I hS (u.good hg) hf (by
    intro hs hh
    have := hb hs hh
    subst hs
    exact this)
  have e : blockMatK op.dtype ns ns (mirror (trOf sym) M) = A := by rw [h4]; rfl
  have eT : sym = true → A.Eqv A.T := by
    intro hs
    rw [← e]
    have := blockMatK_congr op.dtype (M := fun i j => (mirror (trOf sym) M j i).T) (M' := mirror (trOf sym) M)
      (fun i hi j hj => B.blocks.cols j hj i hi) (fun i hi j hj => B.blocks.rows j hj i hi) (s1 hs)
    exact this.symm
  have eH : herm = true → A.Eqv A.H := by
    intro hs
    rw [← e]
    have := blockMatK_congr op.dtype (M := fun i j => (mirror (trOf sym) M j i).H) (M' := mirror (trOf sym) M)
      (fun i hi j hj => B.blocks.cols j hj i hi) (fun i hi j hj => B.blocks.rows j hj i hi) (s2 hs)
    exact this.symm
  have R' := B.step I hS R (fun h => by rw [e]; rw [h2] at h; exact eT h) (fun h => by rw [e]; rw [h3] at h; exact eH h)
  rw [e] at R'
  exact ⟨op, G, h1, reach_actsAs R' (i := env.length) (by simp) (by simp [R.reach.len]), eT, eH, R'⟩

/-- **C17, effect on the caller's data (violated).**  With two block rows or more, the caller's list of lists has been
changed after the call: its rows have become longer. -/
theorem C17_caller_list {env : List Nat} {h : Heap K} {mats : List (Mat K)} (R : ReachTotal env h mats)
    {sym herm : Bool} {U : Grid} {ns : List Nat} {M : Nat → Nat → Mat K}
    (u : UpperGrid env h mats sym herm U ns M) (hf : sym = true ∨ herm = true)
    (hb : sym = true → herm = true → (blockMat ns ns (mirror Mat.T M)).kind ≠ .complex) (hn : 2 ≤ ns.length) :
    ∃ (op : BlkOp) (G : Grid), mkBlock h U sym herm = .ok (op, G) ∧ G ≠ U ∧ ∀ row ∈ G, row.length = ns.length := by
  obtain ⟨D, S, I, hS, hg⟩ := reach_good R
  obtain ⟨op, G, h1, B, h2, h3, h4, ⟨hl, hlr⟩, s1, s2⟩ := mkBlock_flagged I hS (u.good hg) hf (by
    intro hs hh
    have := hb hs hh
    subst hs
    exact this)
  refine ⟨op, G, h1, ?_, hlr⟩
  intro e
  have h1 : 1 < U.length := by rw [u.nrows]; omega
  have e1 := u.ncols 1 _ (List.getElem?_eq_getElem h1)
  have e2 := hlr U[1] (by rw [e]; exact List.getElem_mem h1)
  omega

/-- **C17, consequence.**  A list left behind by such a call cannot be used again: for every square list of lists with two
rows or more, the constructor with `symmetric` or `hermitian` raises. -/
theorem C17_full_grid_fails (h : Heap K) (G : Grid) (sym herm : Bool) (hf : sym = true ∨ herm = true) (n : Nat)
    (hn : 2 ≤ n) (h1 : G.length = n) (h2 : ∀ row ∈ G, row.length = n) :
    ∃ e, mkBlock h G sym herm = .error e := by
  cases hm : mkBlock h G sym herm with
  | error e => exact ⟨e, rfl⟩
  | ok p =>
    exfalso
    unfold mkBlock at hm
    rw [if_pos hf] at hm
    simp only [bind, Except.bind] at hm
    cases h0 : hd G with
    | error e => rw [h0] at hm; cases hm
    | ok r0 =>
      rw [h0] at hm
      by_cases hl : G.length ≠ r0.length
      · simp only [if_pos hl] at hm; cases hm
      · simp only [if_neg hl] at hm
        cases hc : checkDiag h sym herm G with
        | error e => rw [hc] at hm; cases hm
        | ok _ =>
          rw [hc] at hm
          simp only at hm
          cases hfl : fillGrid (if sym = true then getT h else getH h) [] G with
          | error e => rw [hfl] at hm; cases hm
          | ok G' =>
            rw [hfl] at hm
            simp only at hm
            obtain ⟨l1, _, l3⟩ := fillGrid_lengths G [] G' hfl
            obtain ⟨a, ha, hal⟩ := l3 0 _ (List.getElem?_eq_getElem (show 0 < G.length by omega))
            obtain ⟨b, hb, hbl⟩ := l3 1 _ (List.getElem?_eq_getElem (show 1 < G.length by omega))
            rw [h2 _ (List.getElem_mem _)] at hal hbl
            simp only [List.length_nil, Nat.zero_add] at ha hb hal hbl
            obtain ⟨e, he⟩ := transposeGrid_ragged (attr := getT h) (List.mem_of_getElem? ha) (List.mem_of_getElem? hb)
              (by omega)
            cases hcs : checkShapes h G' with
            | error e => rw [hcs] at hm; cases hm
            | ok p => rw [hcs] at hm; simp only [he] at hm; cases hm

/-! ## C18 -/

/-- all entries are operator objects, no row is empty -/
structure ValidGrid (h : Heap K) (G : Grid) : Prop where
  pos : G ≠ [] ∧ ∀ row ∈ G, row ≠ []
  entry : ∀ row ∈ G, ∀ b ∈ row, ∃ (r : Nat) (o : Obj K), b = some r ∧ h[r]? = some o

/-- number of rows / columns of a block -/
def hgt (h : Heap K) (b : Option Nat) : Nat := ((b.bind fun r => h[r]?).map Obj.nargout).getD 0
def wdt (h : Heap K) (b : Option Nat) : Nat := ((b.bind fun r => h[r]?).map Obj.nargin).getD 0

/-- some two blocks in the same block row have different heights -/
def HeightsDiffer (h : Heap K) (G : Grid) : Prop := ∃ row ∈ G, ∃ a ∈ row, ∃ b ∈ row, hgt h a ≠ hgt h b
/-- some two blocks in the first block column have different widths -/
def FirstWidthsDiffer (h : Heap K) (G : Grid) : Prop :=
  ∃ row ∈ G, ∃ row' ∈ G, ∃ a b, row.head? = some a ∧ row'.head? = some b ∧ wdt h a ≠ wdt h b

theorem foldl_min_le : ∀ (l : List Nat) (a : Nat), l.foldl min a ≤ a ∧ ∀ x ∈ l, l.foldl min a ≤ x
  | [], a => by simp
  | x :: l, a => by
    obtain ⟨h1, h2⟩ := foldl_min_le l (min a x)
    refine ⟨le_trans h1 (min_le_left _ _), ?_⟩
    intro y hy
    rcases List.mem_cons.1 hy with rfl | hy
    · exact le_trans h1 (min_le_right _ _)
    · exact h2 y hy

theorem le_foldl_max : ∀ (l : List Nat) (a : Nat), a ≤ l.foldl max a ∧ ∀ x ∈ l, x ≤ l.foldl max a
  | [], a => by simp
  | x :: l, a => by
    obtain ⟨h1, h2⟩ := le_foldl_max l (max a x)
    refine ⟨le_trans (le_max_left _ _) h1, ?_⟩
    intro y hy
    rcases List.mem_cons.1 hy with rfl | hy
    · exact le_trans (le_max_right _ _) h1
    · exact h2 y hy

theorem foldl_const (op : Nat → Nat → Nat) : ∀ (l : List Nat) (a : Nat), op a a = a → (∀ x ∈ l, x = a) → l.foldl op a = a
  | [], _, _, _ => rfl
  | x :: l, a, h, hl => by
    rw [List.foldl_cons, hl x (by simp), h]
    exact foldl_const op l a h fun y hy => hl y (by simp [hy])

theorem sameAll_iff (l : List Nat) (hl : l ≠ []) :
    (sameAll l = .error .shapeError ↔ ∃ a ∈ l, ∃ b ∈ l, a ≠ b) ∧ (sameAll l = .ok () ∨ sameAll l = .error .shapeError) := by
  cases l with
  | nil => exact absurd rfl hl
  | cons a l =>
    simp only [sameAll]
    refine ⟨?_, by split <;> simp⟩
    constructor
    · intro h
      split at h
      · next hne =>
        by_contra hc
        push Not at hc
        apply hne
        have : ∀ x ∈ l, x = a := fun x hx => hc x (by simp [hx]) a (by simp)
        rw [foldl_const min l a (min_self a) this, foldl_const max l a (max_self a) this]
      · cases h
    · rintro ⟨x, hx, y, hy, hxy⟩
      rw [if_pos]
      intro e
      have b1 : ∀ z ∈ a :: l, l.foldl min a ≤ z := by
        intro z hz
        rcases List.mem_cons.1 hz with rfl | hz
        · exact (foldl_min_le l z).1
        · exact (foldl_min_le l a).2 z hz
      have b2 : ∀ z ∈ a :: l, z ≤ l.foldl max a := by
        intro z hz
        rcases List.mem_cons.1 hz with rfl | hz
        · exact (le_foldl_max l z).1
        · exact (le_foldl_max l a).2 z hz
      have := b1 x hx; have := b2 x hx; have := b1 y hy; have := b2 y hy
      omega

theorem transposeGrid_noShape (attr : Nat → Option Nat) (G : Grid) : transposeGrid attr G ≠ .error .shapeError := by
  intro h
  cases G with
  | nil => cases h
  | cons r G =>
    obtain ⟨k, _, hk⟩ := mapM_err _ _ _ h
    obtain ⟨row, _, hrow⟩ := mapM_err _ _ _ hk
    split at hrow <;> cases hrow

theorem checkShapes_iff {h : Heap K} {G : Grid} (v : ValidGrid h G) :
    (checkShapes h G = .error .shapeError ↔ FirstWidthsDiffer h G ∨ HeightsDiffer h G) ∧
    (checkShapes h G = .error .shapeError ∨ ∃ p, checkShapes h G = .ok p) := by
  have hsh : shapes h G = .ok (G.map fun row => row.map fun b => (hgt h b, wdt h b)) := by
    apply mapM_ok
    intro row hrow
    apply mapM_ok
    intro b hb
    obtain ⟨r, o, rfl, ho⟩ := v.entry row hrow b hb
    simp [blkShape, ho, hgt, wdt]
  have hfirst : (G.map fun row => row.map fun b => (hgt h b, wdt h b)).mapM hd =
      .ok (G.map fun row => (row.map fun b => (hgt h b, wdt h b)).headD (0, 0)) := by
    rw [mapM_ok hd (fun row => row.headD (0, 0)), List.map_map]
    · rfl
    · intro row hrow
      obtain ⟨row', hr, rfl⟩ := List.mem_map.1 hrow
      cases row' with
      | nil => exact absurd rfl (v.pos.2 _ hr)
      | cons a l => rfl
  have hd0 : ∃ r0, hd (G.map fun row => row.map fun b => (hgt h b, wdt h b)) = .ok r0 := by
    cases G with
    | nil => exact absurd rfl v.pos.1
    | cons a l => exact ⟨_, rfl⟩
  obtain ⟨r0, hr0⟩ := hd0
  have hW := sameAll_iff ((G.map fun row => (row.map fun b => (hgt h b, wdt h b)).headD (0, 0)).map Prod.snd) (by
    simpa using v.pos.1)
  have hWiff : (∃ a ∈ (G.map fun row => (row.map fun b => (hgt h b, wdt h b)).headD (0, 0)).map Prod.snd,
      ∃ b ∈ (G.map fun row => (row.map fun b => (hgt h b, wdt h b)).headD (0, 0)).map Prod.snd, a ≠ b) ↔
      FirstWidthsDiffer h G := by
    have key : ∀ row ∈ G, ∃ a, row.head? = some a ∧ ((row.map fun b => (hgt h b, wdt h b)).headD (0, 0)).2 = wdt h a := by
      intro row hrow
      cases row with
      | nil => exact absurd rfl (v.pos.2 _ hrow)
      | cons a l => exact ⟨a, rfl, rfl⟩
    simp only [List.map_map, List.mem_map, Function.comp]
    constructor
    · rintro ⟨_, ⟨row, hr, rfl⟩, _, ⟨row', hr', rfl⟩, hne⟩
      obtain ⟨a, ha, ea⟩ := key row hr
      obtain ⟨b, hb, eb⟩ := key row' hr'
      exact ⟨row, hr, row', hr', a, b, ha, hb, by rw [← ea, ← eb]; exact hne⟩
    · rintro ⟨row, hr, row', hr', a, b, ha, hb, hne⟩
      obtain ⟨a', ha', ea⟩ := key row hr
      obtain ⟨b', hb', eb⟩ := key row' hr'
      rw [ha] at ha'; cases ha'
      rw [hb] at hb'; cases hb'
      exact ⟨_, ⟨row, hr, rfl⟩, _, ⟨row', hr', rfl⟩, by rw [ea, eb]; exact hne⟩
  rw [hWiff] at hW
  have hHrow : ∀ row ∈ G, (sameAll ((row.map fun b => (hgt h b, wdt h b)).map Prod.fst) = .error .shapeError ↔
      ∃ a ∈ row, ∃ b ∈ row, hgt h a ≠ hgt h b) ∧
      (sameAll ((row.map fun b => (hgt h b, wdt h b)).map Prod.fst) = .ok () ∨
        sameAll ((row.map fun b => (hgt h b, wdt h b)).map Prod.fst) = .error .shapeError) := by
    intro row hrow
    have := sameAll_iff ((row.map fun b => (hgt h b, wdt h b)).map Prod.fst) (by simpa using v.pos.2 row hrow)
    refine ⟨this.1.trans ?_, this.2⟩
    simp only [List.map_map, List.mem_map, Function.comp]
    constructor
    · rintro ⟨_, ⟨a, ha, rfl⟩, _, ⟨b, hb, rfl⟩, hne⟩; exact ⟨a, ha, b, hb, hne⟩
    · rintro ⟨a, ha, b, hb, hne⟩; exact ⟨_, ⟨a, ha, rfl⟩, _, ⟨b, hb, rfl⟩, hne⟩
  have hform : checkShapes h G = (do
      sameAll ((G.map fun row => (row.map fun b => (hgt h b, wdt h b)).headD (0, 0)).map Prod.snd)
      let _ ← (G.map fun row => row.map fun b => (hgt h b, wdt h b)).mapM fun row => sameAll (row.map Prod.fst)
      Except.ok ((r0.map Prod.snd).sum,
        ((G.map fun row => (row.map fun b => (hgt h b, wdt h b)).headD (0, 0)).map Prod.fst).sum)) := by
    simp only [checkShapes, hsh, hfirst, hr0, bind, Except.bind]
  rw [hform]
  rcases hW.2 with hw | hw
  · rw [hw]
    have hnw : ¬ FirstWidthsDiffer h G := fun hc => by rw [hW.1.2 hc] at hw; cases hw
    simp only [bind, Except.bind]
    cases hm : (G.map fun row => row.map fun b => (hgt h b, wdt h b)).mapM fun row => sameAll (row.map Prod.fst) with
    | ok bs =>
      simp only [reduceCtorEq, false_iff, not_or, false_or]
      refine ⟨⟨hnw, ?_⟩, _, rfl⟩
      rintro ⟨row, hr, a, ha, b, hb, hne⟩
      obtain ⟨_, hok⟩ := mapM_ok_inv _ _ _ hm _ (List.mem_map_of_mem hr)
      rw [(hHrow row hr).1.2 ⟨a, ha, b, hb, hne⟩] at hok
      cases hok
    | error e =>
      obtain ⟨srow, hsr, hse⟩ := mapM_err _ _ _ hm
      obtain ⟨row, hr, rfl⟩ := List.mem_map.1 hsr
      have hes : e = .shapeError := by
        rcases (hHrow row hr).2 with h1 | h1
        · rw [h1] at hse; cases hse
        · rw [h1] at hse; cases hse; rfl
      subst hes
      refine ⟨⟨fun _ => Or.inr ?_, fun _ => rfl⟩, Or.inl rfl⟩
      obtain ⟨a, ha, b, hb, hne⟩ := (hHrow row hr).1.1 hse
      exact ⟨row, hr, a, ha, b, hb, hne⟩
  · rw [hw]
    exact ⟨⟨fun _ => Or.inl (hW.1.1 hw), fun _ => rfl⟩, Or.inl rfl⟩

/-- **C18** (partial: the constructor looks at the widths of the first block column only, see `C18_widths_unchecked`).  For
every list of nonempty lists of operators, `ShapeError` is raised exactly if two blocks of the same block row have different
heights or two blocks of the *first* block column have different widths.  In particular it is never raised for a consistent
grid, and always raised for different heights in a row. -/
theorem C18_shape_error_partial {h : Heap K} {G : Grid} (v : ValidGrid h G) :
    mkBlock h G false false = .error .shapeError ↔ FirstWidthsDiffer h G ∨ HeightsDiffer h G := by
  obtain ⟨h1, h2⟩ := checkShapes_iff v
  rw [← h1]
  simp only [mkBlock, Bool.false_eq_true, or_self, if_false, bind, Except.bind]
  rcases h2 with h2 | ⟨p, h2⟩
  · simp [h2]
  · simp only [h2]
    constructor
    · intro h3
      exfalso
      cases hT : transposeGrid (getT h) G with
      | error e =>
        rw [hT] at h3; simp only [Except.error.injEq] at h3
        exact transposeGrid_noShape _ _ (h3 ▸ hT)
      | ok bT =>
        rw [hT] at h3; simp only at h3
        cases hH : transposeGrid (getH h) G with
        | error e =>
          rw [hH] at h3; simp only [Except.error.injEq] at h3
          exact transposeGrid_noShape _ _ (h3 ▸ hH)
        | ok bH => rw [hH] at h3; cases h3
    · intro h; cases h

/-- **C18 (violated).**  Whatever the widths in the other block columns, a rectangular list of lists passes if the heights agree
within rows and the widths in the first column: the constructor returns an operator. -/
theorem C18_widths_unchecked {h : Heap K} {G : Grid} (v : ValidGrid h G) (n : Nat) (hn : ∀ row ∈ G, row.length = n)
    (h1 : ¬ FirstWidthsDiffer h G) (h2 : ¬ HeightsDiffer h G) : ∃ op, mkBlock h G false false = .ok (op, G) := by
  have hT : ∀ attr : Nat → Option Nat, ∃ G', transposeGrid attr G = .ok G' := by
    intro attr
    have hmax : ∀ k ∈ List.range ((G.map List.length).foldl max 0), k < n := by
      intro k hk
      have hk := List.mem_range.1 hk
      have : ∀ (l : List Nat) (m : Nat), m ≤ n → (∀ x ∈ l, x ≤ n) → l.foldl max m ≤ n := by
        intro l
        induction l with
        | nil => intro m hm _; exact hm
        | cons x l ih => intro m hm hl; exact ih _ (max_le hm (hl x (by simp))) fun y hy => hl y (by simp [hy])
      have := this (G.map List.length) 0 (by omega) (by
        intro x hx
        obtain ⟨row, hr, rfl⟩ := List.mem_map.1 hx
        rw [hn row hr])
      omega
    cases ht : transposeGrid attr G with
    | ok G' => exact ⟨G', rfl⟩
    | error e =>
      exfalso
      have hne : transposeGrid attr G = (List.range ((G.map List.length).foldl max 0)).mapM (colAt attr G) := by
        cases G with
        | nil => exact absurd rfl v.pos.1
        | cons a l => rfl
      rw [hne] at ht
      obtain ⟨k, hk, hke⟩ := mapM_err _ _ _ ht
      obtain ⟨row, hr, hre⟩ := mapM_err _ _ _ hke
      have hkl : k < row.length := by rw [hn row hr]; exact hmax k hk
      obtain ⟨r, o, hb, ho⟩ := v.entry row hr row[k] (List.getElem_mem hkl)
      rw [List.getElem?_eq_getElem hkl, hb] at hre
      cases hre
  obtain ⟨bT, hbT⟩ := hT (getT h)
  obtain ⟨bH, hbH⟩ := hT (getH h)
  obtain ⟨h3, h4⟩ := checkShapes_iff v
  obtain ⟨p, hp⟩ : ∃ p, checkShapes h G = .ok p := by
    rcases h4 with h4 | h4
    · rcases h3.1 h4 with h5 | h5
      · exact absurd h5 h1
      · exact absurd h5 h2
    · exact h4
  simp only [mkBlock, Bool.false_eq_true, or_self, if_false, bind, Except.bind, hp, hbT, hbH]
  exact ⟨_, rfl⟩

/-! ## C19 -/

/-- A sequence of assignments `op[i, j] = blk` (`blk` a variable of the program, of the shape of the block it replaces and of
a dtype class within `k`) turns the blocks `M` into `M'`. -/
inductive Assigned (env : List Nat) (mats : List (Mat K)) (hts wds : List Nat) (k : DKind) :
    List (Int × Int × Nat) → (Nat → Nat → Mat K) → (Nat → Nat → Mat K) → Prop
  | nil (M) : Assigned env mats hts wds k [] M M
  | cons {i j : Int} {p q v r : Nat} {B : Mat K} {as M M'} (hi : pyIndex hts.length i = some p)
      (hj : pyIndex wds.length j = some q) (hr : env[v]? = some r) (hB : mats[v]? = some B)
      (hrows : B.rows = hts.getD p 0) (hcols : B.cols = wds.getD q 0) (hk : k.join B.kind = k)
      (rest : Assigned env mats hts wds k as (updM M p q B) M') : Assigned env mats hts wds k ((i, j, r) :: as) M M'

/-- run a sequence of assignments -/
def setAll (h : Heap K) (op : BlkOp) (as : List (Int × Int × Nat)) : Except Err BlkOp :=
  as.foldlM (fun o a => o.set h a.1 a.2.1 a.2.2) op

/-- **C19** (partial: operators built with `symmetric` or `hermitian` are treated in `C19_flagged_partial`).  After any sequence
of assignments of blocks of fitting shape, the operator (same object as before) acts as the block matrix with the blocks
replaced, and so do `.T` and `.H`. -/
theorem C19_assign_partial {env : List Nat} {h : Heap K} {mats : List (Mat K)} (R : ReachTotal env h mats) {G : Grid}
    {hts wds : List Nat} {M : Nat → Nat → Mat K} (g : BlockGrid env mats G hts wds M) {as : List (Int × Int × Nat)}
    {M' : Nat → Nat → Mat K} (hA : Assigned env mats hts wds (blockMat hts wds M).kind as M M') :
    ∃ op op' : BlkOp, mkBlock h G false false = .ok (op, G) ∧ setAll h op as = .ok op' ∧
      ActsAs (op'.objs h).2 (op'.objs h).1 (blockMatK (blockMat hts wds M).kind hts wds M') ∧
      (op'.objs h).1 = (op.objs h).1 ∧
      getT (op'.objs h).2 (op'.objs h).1 = getT (op.objs h).2 (op.objs h).1 ∧
      getH (op'.objs h).2 (op'.objs h).1 = getH (op.objs h).2 (op.objs h).1 := by
  obtain ⟨D, S, I, hS, hg⟩ := reach_good R
  obtain ⟨op, h1, B, h2, h3, h4⟩ := mkBlock_plain I hS (g.good hg)
  have key : ∀ (as : List (Int × Int × Nat)) (M M' : Nat → Nat → Mat K) (k : DKind),
      Assigned env mats hts wds k as M M' → ∀ o : BlkOp, BlkInv D S o hts wds M → o.symmetric = false →
      o.hermitian = false → o.dtype = k → ∃ o', setAll h o as = .ok o' ∧ BlkInv D S o' hts wds M' ∧
      o'.symmetric = false ∧ o'.hermitian = false ∧ o'.dtype = k := by
    intro as M M' k hA
    induction hA with
    | nil M => intro o B h2 h3 h4; exact ⟨o, rfl, B, h2, h3, h4⟩
    | cons hi hj hr hB hrows hcols hk rest ih =>
      intro o B h2 h3 h4
      obtain ⟨o1, e1, B1, f1, f2, f3⟩ := B.set I hS h2 h3 hi hj (hg _ _ _ hr hB) hrows hcols (by rw [h4]; exact hk)
      obtain ⟨o', e2, r⟩ := ih o1 B1 f1 f2 (f3.trans h4)
      refine ⟨o', ?_, r⟩
      simp only [setAll, List.foldlM_cons, e1, bind, Except.bind]
      exact e2
  obtain ⟨op', e1, B', f1, f2, f3⟩ := key as M M' _ hA op B h2 h3 h4
  have R' := B'.step I hS R (fun h => by rw [f1] at h; cases h) (fun h => by rw [f2] at h; cases h)
  rw [f3] at R'
  refine ⟨op, op', h1, e1, reach_actsAs R' (i := env.length) (by simp) (by simp [R.reach.len]), ?_, ?_, ?_⟩
  · rw [objs_fst, objs_fst]
  · obtain ⟨nin, nout, sy, he, dt, G1, G2, G3⟩ := op
    obtain ⟨nin', nout', sy', he', dt', G1', G2', G3'⟩ := op'
    simp only at h2 h3 f1 f2 f3 h4
    have hdd : dt' = dt := f3.trans h4.symm
    subst h2 h3 f1 f2 hdd
    unfold BlkOp.objs BlkOp.args
    by_cases hd : dt' = .complex
    · subst hd; simp only [LinearOperator_complex]; simp [getT, newComplex, mkFwd]
    · simp only [LinearOperator_real _ _ _ _ _ _ _ _ hd]; simp [getT, newReal, mkFwd]
  · obtain ⟨nin, nout, sy, he, dt, G1, G2, G3⟩ := op
    obtain ⟨nin', nout', sy', he', dt', G1', G2', G3'⟩ := op'
    simp only at h2 h3 f1 f2 f3 h4
    have hdd : dt' = dt := f3.trans h4.symm
    subst h2 h3 f1 f2 hdd
    unfold BlkOp.objs BlkOp.args
    by_cases hd : dt' = .complex
    · subst hd; simp only [LinearOperator_complex]; simp [getH, newComplex, mkFwd]
    · simp only [LinearOperator_real _ _ _ _ _ _ _ _ hd]; simp [getH, newReal, mkFwd]

/-- A sequence of assignments to the upper triangle; blocks assigned to the diagonal are symmetric / hermitian. -/
inductive UpperAssigned (env : List Nat) (mats : List (Mat K)) (sym herm : Bool) (ns : List Nat) (k : DKind) :
    List (Int × Int × Nat) → (Nat → Nat → Mat K) → (Nat → Nat → Mat K) → Prop
  | nil (M) : UpperAssigned env mats sym herm ns k [] M M
  | cons {i j : Int} {p q v r : Nat} {B : Mat K} {as M M'} (hi : pyIndex ns.length i = some p)
      (hj : pyIndex ns.length j = some q) (hpq : p ≤ q) (hr : env[v]? = some r) (hB : mats[v]? = some B)
      (hrows : B.rows = ns.getD p 0) (hcols : B.cols = ns.getD q 0) (hk : k.join B.kind = k)
      (hsym : p = q → (sym = true → B.Eqv B.T) ∧ (herm = true → B.Eqv B.H))
      (rest : UpperAssigned env mats sym herm ns k as (updM M p q B) M') :
      UpperAssigned env mats sym herm ns k ((i, j, r) :: as) M M'

/-- **C19 for symmetric / hermitian operators** (partial: when the dtype is real and only one of the flags is set, the other
one of `.T`, `.H` is missing; that part is false, see `C19_stale_adjoint`, `C19_stale_transpose`).  After any sequence of
assignments to the upper triangle, products with the operator use the new blocks and their mirror images; the matrix is still
symmetric (hermitian); `.T` (`.H`) of a symmetric (hermitian) operator is the operator itself; for complex dtype the other one
of `.T`, `.H` computes the right products too. -/
theorem C19_flagged_partial {env : List Nat} {h : Heap K} {mats : List (Mat K)} (R : ReachTotal env h mats)
    {sym herm : Bool} {U : Grid} {ns : List Nat} {M : Nat → Nat → Mat K}
    (u : UpperGrid env h mats sym herm U ns M) (hf : sym = true ∨ herm = true)
    (hb : sym = true → herm = true → (blockMat ns ns (mirror Mat.T M)).kind ≠ .complex)
    {as : List (Int × Int × Nat)} {M' : Nat → Nat → Mat K}
    (hA : UpperAssigned env mats sym herm ns (blockMat ns ns (mirror (if sym = true then Mat.T else Mat.H) M)).kind as M M') :
    let tr := if sym = true then Mat.T else Mat.H
    let A := blockMatK (blockMat ns ns (mirror tr M)).kind ns ns (mirror tr M')
    ∃ (op op' : BlkOp) (G : Grid), mkBlock h U sym herm = .ok (op, G) ∧ setAll h op as = .ok op' ∧
      (op'.objs h).1 = (op.objs h).1 ∧
      Total (op'.objs h).2 (op'.objs h).1 A ∧
      (sym = true → A.Eqv A.T ∧ getT (op'.objs h).2 (op'.objs h).1 = some (op'.objs h).1) ∧
      (herm = true → A.Eqv A.H ∧ getH (op'.objs h).2 (op'.objs h).1 = some (op'.objs h).1) ∧
      (A.kind = .complex → (∃ t, getT (op'.objs h).2 (op'.objs h).1 = some t ∧ Total (op'.objs h).2 t A.T) ∧
        ∃ t, getH (op'.objs h).2 (op'.objs h).1 = some t ∧ Total (op'.objs h).2 t A.H) := by
  intro tr A
  obtain ⟨D, S, I, hS, hg⟩ := reach_good R
  have hb' : sym = true → herm = true → blockKind ns.length ns.length (mirror (trOf sym) M) ≠ .complex := by
    intro hs hh
    have := hb hs hh
    subst hs
    exact this
  have gu := u.good hg
  obtain ⟨op, G, h1, B, h2, h3, h4, _, s1, s2⟩ := mkBlock_flagged I hS gu hf hb'
  have hkk : (blockMat ns ns (mirror tr M)).kind = op.dtype := by rw [h4]; rfl
  -- the invariant kept by assignments
  have key : ∀ (as : List (Int × Int × Nat)) (M M' : Nat → Nat → Mat K) (k : DKind),
      UpperAssigned env mats sym herm ns k as M M' → ∀ o : BlkOp, GoodGrid D S o.blocks ns ns (mirror (trOf sym) M) →
      Absorbs k ns ns (mirror (trOf sym) M) →
      (∀ i < ns.length, (sym = true → (M i i).Eqv (M i i).T) ∧ (herm = true → (M i i).Eqv (M i i).H)) →
      o.symmetric = sym → o.hermitian = herm →
      ∃ G', setAll h o as = .ok { o with blocks := G' } ∧ GoodGrid D S G' ns ns (mirror (trOf sym) M') ∧
        Absorbs k ns ns (mirror (trOf sym) M') ∧
        (∀ i < ns.length, (sym = true → (M' i i).Eqv (M' i i).T) ∧ (herm = true → (M' i i).Eqv (M' i i).H)) := by
    intro as M M' k hA
    induction hA with
    | nil M => intro o g a d f1 f2; exact ⟨o.blocks, rfl, g, a, d⟩
    | @cons i j p q v r B as M M' hi hj hpq hr hB hrows hcols hk hsym rest ih =>
      intro o g a d f1 f2
      obtain ⟨G1, e1, g1⟩ := flagged_set I hS g (by rw [f1, f2]; exact hf) hi hj (hg _ _ _ hr hB) hrows hcols
      rw [f1, mirror_upd hpq] at g1
      have a1 : Absorbs k ns ns (mirror (trOf sym) (updM M p q B)) := by
        have hu : ∀ x y, x ≤ y → y < ns.length → k.join (updM M p q B x y).kind = k := by
          intro x y hxy hy
          unfold updM
          split
          · exact hk
          · have := a x (by omega) y hy
            rwa [show mirror (trOf sym) M x y = M x y from if_pos hxy] at this
        intro x hx y hy
        show k.join (if x ≤ y then updM M p q B x y else trOf sym (updM M p q B y x)).kind = k
        split
        · next hxy => exact hu x y hxy hy
        · next hxy => rw [(trOf_shape sym _).2.2]; exact hu y x (by omega) hx
      have d1 : ∀ i < ns.length, (sym = true → (updM M p q B i i).Eqv (updM M p q B i i).T) ∧
          (herm = true → (updM M p q B i i).Eqv (updM M p q B i i).H) := by
        intro i hi
        unfold updM
        by_cases hc : i = p ∧ i = q
        · rw [if_pos hc]; exact hsym (hc.1.symm.trans hc.2)
        · rw [if_neg hc]; exact d i hi
      obtain ⟨G', e2, r⟩ := ih { o with blocks := G1 } g1 a1 d1 f1 f2
      refine ⟨G', ?_, r⟩
      simp only [setAll, List.foldlM_cons, e1, bind, Except.bind]
      exact e2
  have hdg : ∀ i < ns.length, (sym = true → (M i i).Eqv (M i i).T) ∧ (herm = true → (M i i).Eqv (M i i).H) := by
    obtain ⟨R0, _, hR, hd⟩ := gu.grid
    intro i hi
    obtain ⟨o, ho, e1, e2⟩ := hd i hi
    obtain ⟨o', ho', _, _, _, e3, e4⟩ := (hR i i le_rfl hi).obj I hS
    rw [ho] at ho'; cases ho'
    exact ⟨fun hs => e3 (e1 hs), fun hh => e4 (e2 hh)⟩
  have hA' : UpperAssigned env mats sym herm ns op.dtype as M M' := by rw [← hkk]; exact hA
  obtain ⟨G', e1, g', a', d'⟩ := key as M M' op.dtype hA' op B.blocks B.kind hdg h2 h3
  have eA : A = blockMatK op.dtype ns ns (mirror (trOf sym) M') := by simp only [A, hkk]; rfl
  have hty : sym = true → herm = true → ∀ i j, i ≤ j → j < ns.length → (M' i j).Typed ∧ (M' i j).kind ≠ .complex := by
    intro hs hh i j hij hj
    obtain ⟨R0, _, hR⟩ := g'.grid
    have t1 := (hR i (by omega) j hj).typed I hS
    have t2 := a' i (by omega) j hj
    rw [show mirror (trOf sym) M' i j = M' i j from if_pos hij] at t1 t2
    exact ⟨t1, absorb_ne_complex t2 (by rw [h4]; exact hb' hs hh)⟩
  obtain ⟨s1', s2'⟩ := mirror_sym hf d' hty
  have eT : sym = true → A.Eqv A.T := by
    intro hs
    rw [eA]
    have := blockMatK_congr op.dtype (M := fun i j => (mirror (trOf sym) M' j i).T) (M' := mirror (trOf sym) M')
      (fun i hi j hj => g'.cols j hj i hi) (fun i hi j hj => g'.rows j hj i hi) (s1' hs)
    exact this.symm
  have eH : herm = true → A.Eqv A.H := by
    intro hs
    rw [eA]
    have := blockMatK_congr op.dtype (M := fun i j => (mirror (trOf sym) M' j i).H) (M' := mirror (trOf sym) M')
      (fun i hi j hj => g'.cols j hj i hi) (fun i hi j hj => g'.rows j hj i hi) (s2' hs)
    exact this.symm
  refine ⟨op, { op with blocks := G' }, G, h1, e1, ?_⟩
  generalize hop : ({ op with blocks := G' } : BlkOp) = op'
  have p1 : op'.nargin = ns.sum := by rw [← hop]; exact B.nargin
  have p2 : op'.nargout = ns.sum := by rw [← hop]; exact B.nargout
  have p3 : op'.dtype = op.dtype := by rw [← hop]
  have p4 : op'.symmetric = sym := by rw [← hop]; exact h2
  have p5 : op'.hermitian = herm := by rw [← hop]; exact h3
  have p6 : op'.blocks = G' := by rw [← hop]
  have hP := fwd_products I hS (b := op') (M := mirror (trOf sym) M') p1 p2 (by rw [p3]; exact a') (by rw [p6]; exact g')
  rw [p3, ← eA] at hP
  have hlen : h.length < (op'.objs h).2.length := by
    obtain ⟨o, ho, _⟩ := ctor_get (K := K) op'.nargin op'.nargout (.prim (blkMatvec h op'.dtype op'.blocks))
      (some (.prim (blkMatvec h op'.dtype op'.blocksT))) (some (.prim (blkMatvec h op'.dtype op'.blocksH))) op'.symmetric
      op'.hermitian op'.dtype h
    exact (List.getElem?_eq_some_iff.1 ho).1
  have hTot := hP.total (by omega)
  have hne : sym = true → herm = true → op'.dtype ≠ .complex := by
    intro hs hh; rw [p3, h4]; exact hb' hs hh
  refine ⟨?_, hTot, ?_, ?_, ?_⟩
  · rw [objs_fst, objs_fst]
  · intro hs; exact ⟨eT hs, (objs_T op' h).2 (p4.trans hs)⟩
  · intro hh
    refine ⟨eH hh, (objs_H op' h).2 ⟨p5.trans hh, ?_⟩⟩
    rintro ⟨hs, hc⟩
    exact hne (p4.symm.trans hs) hh hc
  · intro hc
    have hk' : op'.dtype = .complex := by rw [p3, ← hkk]; exact hc
    have hAk : A.kind = op'.dtype := by rw [hk']; exact hc
    have hAr : A.rows = ns.sum := rfl
    have hAc : A.cols = ns.sum := rfl
    obtain ⟨c1, c2⟩ := conj_object op' h hk' (p1.trans p2.symm)
    have hconj : ∀ (t : Nat) (o : Obj K), (op'.objs h).2[t]? = some o → o.code = .conj ⟨(op'.objs h).1, .self⟩ →
        o.nargin = op'.nargin → o.nargout = op'.nargout → o.dtype = op'.dtype → t ≠ (op'.objs h).1 →
        Total (op'.objs h).2 t A.conj := by
      intro t o ho hc1 n1 n2 n3 hne'
      have hr : (op'.objs h).1 < (op'.objs h).2.length := by rw [objs_fst]; exact hlen
      have ht := (List.getElem?_eq_some_iff.1 ho).1
      refine (conj_products ho hc1 hr (n1.trans p1) (n2.trans p2) (n3.trans hAk.symm) hc hP).total ?_
      omega
    have hcase : (sym = true ∧ herm = false) ∨ (sym = false ∧ herm = true) := by
      cases sym <;> cases herm
      · simp at hf
      · exact Or.inr ⟨rfl, rfl⟩
      · exact Or.inl ⟨rfl, rfl⟩
      · exact absurd hk' (hne rfl rfl)
    have hE : ∀ {C E : Mat K}, C.Eqv E → ∀ {t}, Total (op'.objs h).2 t C → Total (op'.objs h).2 t E := by
      intro C E e t ht fuel x c hfu hx hl
      obtain ⟨c', hc'⟩ := ht fuel x c hfu hx (by rw [hl, e.cols])
      refine ⟨c', ?_⟩
      rw [hc', e.kind, Mat.app_congr e]
    rcases hcase with ⟨hs, hh⟩ | ⟨hs, hh⟩
    · refine ⟨⟨_, (objs_T op' h).2 (p4.trans hs), hE (eT hs) hTot⟩, ?_⟩
      obtain ⟨t, o, g1, g2, g3, g4, g5, g6⟩ := c1 (p4.trans hs)
      refine ⟨t, g1, hE ((eT hs).conj) (hconj t o g2 g3 g4 g5 g6 ?_)⟩
      intro e
      have := (objs_H op' h).1 (by rw [g1, e])
      rw [p5, hh] at this
      exact absurd this.1 (by simp)
    · refine ⟨?_, ⟨_, (objs_H op' h).2 ⟨p5.trans hh, by rw [p4, hs]; simp⟩, hE (eH hh) hTot⟩⟩
      obtain ⟨t, o, g1, g2, g3, g4, g5, g6⟩ := c2 (p5.trans hh) (p4.trans hs)
      refine ⟨t, g1, ?_⟩
      have e : A.H.conj = A.T := Mat.H_conj A
      rw [← e]
      refine hE ((eH hh).conj) (hconj t o g2 g3 g4 g5 g6 ?_)
      intro e
      have := (objs_T op' h).1 (by rw [g1, e])
      rw [p4, hs] at this
      cases this

/-- **C19 (violated).**  Assigning to a block *below* the diagonal of a symmetric or hermitian operator has no effect: the call
returns and the operator still acts as before. -/
theorem C19_lower_ignored {env : List Nat} {h : Heap K} {mats : List (Mat K)} (R : ReachTotal env h mats)
    {sym herm : Bool} {U : Grid} {ns : List Nat} {M : Nat → Nat → Mat K}
    (u : UpperGrid env h mats sym herm U ns M) (hf : sym = true ∨ herm = true)
    (hb : sym = true → herm = true → (blockMat ns ns (mirror Mat.T M)).kind ≠ .complex) {i j : Int} {p q v r : Nat}
    {B : Mat K} (hi : pyIndex ns.length i = some p) (hj : pyIndex ns.length j = some q) (hpq : q < p)
    (hr : env[v]? = some r) (hB : mats[v]? = some B) (hrows : B.rows = ns.getD p 0) (hcols : B.cols = ns.getD q 0) :
    ∃ (op op' : BlkOp) (G : Grid), mkBlock h U sym herm = .ok (op, G) ∧ op.set h i j r = .ok op' ∧
      Total (op'.objs h).2 (op'.objs h).1 (blockMat ns ns (mirror (if sym = true then Mat.T else Mat.H) M)) := by
  obtain ⟨D, S, I, hS, hg⟩ := reach_good R
  obtain ⟨op, G, h1, Bi, h2, h3, h4, _, s1, s2⟩ := mkBlock_flagged I hS (u.good hg) hf (by
    intro hs hh
    have := hb hs hh
    subst hs
    exact this)
  obtain ⟨G1, e1, g1⟩ := flagged_set I hS Bi.blocks (by rw [h2, h3]; exact hf) hi hj (hg _ _ _ hr hB) hrows hcols
  rw [h2, mirror_upd_lower hpq] at g1
  refine ⟨op, _, G, h1, e1, ?_⟩
  have hP := fwd_products I hS (b := { op with blocks := G1 }) (M := mirror (trOf sym) M) Bi.nargin Bi.nargout Bi.kind g1
  have hlen : 1 ≤ (({ op with blocks := G1 } : BlkOp).objs h).2.length := by
    obtain ⟨o, ho, _⟩ := ctor_get (K := K) op.nargin op.nargout (.prim (blkMatvec h op.dtype G1))
      (some (.prim (blkMatvec h op.dtype op.blocksT))) (some (.prim (blkMatvec h op.dtype op.blocksH))) op.symmetric
      op.hermitian op.dtype h
    have := (List.getElem?_eq_some_iff.1 ho).1
    exact Nat.le_trans (by omega) (Nat.succ_le_of_lt this)
  have := hP.total hlen
  have e : blockMat ns ns (mirror (if sym = true then Mat.T else Mat.H) M) =
      blockMatK op.dtype ns ns (mirror (trOf sym) M) := by rw [h4]; rfl
  rw [e]
  exact this

/-- run on the heap of an operator with closures `f`, `f1` for the operator and its adjoint / transpose object -/
theorem stale_run (b b' : BlkOp) (h : Heap K) (hd : b.dtype ≠ .complex) (e1 : b'.nargin = b.nargin)
    (e2 : b'.nargout = b.nargout) (e3 : b'.symmetric = b.symmetric) (e4 : b'.hermitian = b.hermitian)
    (e5 : b'.dtype = b.dtype) :
    (b.symmetric = true → b.hermitian = false → b'.blocksH = b.blocksH →
      getH (b'.objs h).2 (b'.objs h).1 = some (h.length + 1) ∧ getH (b.objs h).2 (b.objs h).1 = some (h.length + 1) ∧
      (b'.objs h).2[h.length + 1]? = (b.objs h).2[h.length + 1]?) ∧
    (b.symmetric = false → b.hermitian = true → b'.blocksT = b.blocksT →
      getT (b'.objs h).2 (b'.objs h).1 = some (h.length + 1) ∧ getT (b.objs h).2 (b.objs h).1 = some (h.length + 1) ∧
      (b'.objs h).2[h.length + 1]? = (b.objs h).2[h.length + 1]?) := by
  obtain ⟨nin, nout, sy, he, dt, G1, G2, G3⟩ := b
  obtain ⟨nin', nout', sy', he', dt', G1', G2', G3'⟩ := b'
  simp only at e1 e2 e3 e4 e5 hd
  subst e1 e2 e3 e4 e5
  unfold BlkOp.objs BlkOp.args
  simp only [LinearOperator_real _ _ _ _ _ _ _ _ hd]
  constructor
  · intro h1 h2 h3
    subst h1 h2 h3
    simp [getH, newReal, mkFwd, mkBwd]
  · intro h1 h2 h3
    subst h1 h2 h3
    simp [getT, newReal, mkFwd, mkBwd]

theorem run_prim_eq {h h' : Heap K} {r : Nat} {o : Obj K} {f : Fn K} (ho : h[r]? = some o) (ho' : h'[r]? = some o)
    (hc : o.code = .prim f) (fuel : Nat) : run h fuel r = run h' fuel r := by
  cases fuel with
  | zero => rfl
  | succ fuel =>
    funext x
    simp only [run, ho, ho', hc, evalCode]

theorem set_flagged_fields {h : Heap K} {b b' : BlkOp} {i j : Int} {v : Nat} (hs : b.set h i j v = .ok b')
    (hf : b.symmetric = true ∨ b.hermitian = true) : ∃ G, b' = { b with blocks := G } := by
  simp only [BlkOp.set, bind, Except.bind] at hs
  cases h1 : setAt b.blocks i j v with
  | error e => rw [h1] at hs; cases hs
  | ok G1 =>
    rw [h1] at hs
    simp only [if_pos hf] at hs
    cases h2 : mirrorAll (if b.symmetric = true then getT h else getH h) G1 with
    | error e => rw [h2] at hs; cases hs
    | ok G2 => rw [h2] at hs; cases hs; exact ⟨G2, rfl⟩

/-- **C19 (violated).**  For a real symmetric block operator (not also flagged hermitian), whatever block is assigned, `.H`
computes the same products as before the assignment. -/
theorem C19_stale_adjoint {h : Heap K} {b b' : BlkOp} {i j : Int} {v : Nat} (hs : b.set h i j v = .ok b')
    (h1 : b.symmetric = true) (h2 : b.hermitian = false) (hd : b.dtype ≠ .complex) :
    ∃ t, getH (b.objs h).2 (b.objs h).1 = some t ∧ getH (b'.objs h).2 (b'.objs h).1 = some t ∧
      ∀ fuel, run (b'.objs h).2 fuel t = run (b.objs h).2 fuel t := by
  obtain ⟨G, rfl⟩ := set_flagged_fields hs (Or.inl h1)
  obtain ⟨a1, a2, a3⟩ := (stale_run b { b with blocks := G } h hd rfl rfl rfl rfl rfl).1 h1 h2 rfl
  refine ⟨_, a2, a1, fun fuel => ?_⟩
  have : ∃ o, (b.objs h).2[h.length + 1]? = some o ∧ o.code = .prim (blkMatvec h b.dtype b.blocksH) := by
    obtain ⟨nin, nout, sy, he, dt, G1, G2, G3⟩ := b
    simp only at h1 h2 hd
    subst h1 h2
    unfold BlkOp.objs BlkOp.args
    simp only [LinearOperator_real _ _ _ _ _ _ _ _ hd]
    simp [newReal, mkBwd]
  obtain ⟨o, ho, hc⟩ := this
  exact run_prim_eq (by rw [a3]; exact ho) ho hc fuel

/-- **C19 (violated).**  The same for `.T` of a real hermitian block operator that is not also flagged symmetric. -/
theorem C19_stale_transpose {h : Heap K} {b b' : BlkOp} {i j : Int} {v : Nat} (hs : b.set h i j v = .ok b')
    (h1 : b.symmetric = false) (h2 : b.hermitian = true) (hd : b.dtype ≠ .complex) :
    ∃ t, getT (b.objs h).2 (b.objs h).1 = some t ∧ getT (b'.objs h).2 (b'.objs h).1 = some t ∧
      ∀ fuel, run (b'.objs h).2 fuel t = run (b.objs h).2 fuel t := by
  obtain ⟨G, rfl⟩ := set_flagged_fields hs (Or.inr h2)
  obtain ⟨a1, a2, a3⟩ := (stale_run b { b with blocks := G } h hd rfl rfl rfl rfl rfl).2 h1 h2 rfl
  refine ⟨_, a2, a1, fun fuel => ?_⟩
  have : ∃ o, (b.objs h).2[h.length + 1]? = some o ∧ o.code = .prim (blkMatvec h b.dtype b.blocksT) := by
    obtain ⟨nin, nout, sy, he, dt, G1, G2, G3⟩ := b
    simp only at h1 h2 hd
    subst h1 h2
    unfold BlkOp.objs BlkOp.args
    simp only [LinearOperator_real _ _ _ _ _ _ _ _ hd]
    simp [newReal, mkBwd]
  obtain ⟨o, ho, hc⟩ := this
  exact run_prim_eq (by rw [a3]; exact ho) ho hc fuel

end Verif.Blkop
