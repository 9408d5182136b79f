import Verif.Blkop.Lemmas
import Verif.Linop.CoordProps

/-!
# Helper lemmas: construction of block operators and assignment of blocks
-/

set_option linter.unusedSectionVars false

namespace Verif.Blkop
open Verif.Linop Finset

variable {K : Type} [CommRing K] [StarRing K] [DTypes K] [DecidableEq K]

/-! ## Reachable states -/

theorem reach_good {env : List Nat} {h : Heap K} {mats : List (Mat K)} (R : ReachTotal env h mats) :
    ∃ D S, HInv D h ∧ Closed h S ∧
      ∀ (v r : Nat) (A : Mat K), env[v]? = some r → mats[v]? = some A → Good D S r A := by
  obtain ⟨D, S, I, L, hS, hEnv⟩ := R.inv
  refine ⟨D, S, I, hS, fun v r A hv hA => ⟨hEnv v r hv, ?_⟩⟩
  exact L.2 v r A hv hA

theorem reach_actsAs {env : List Nat} {h : Heap K} {mats : List (Mat K)} (R : ReachTotal env h mats) {i r : Nat}
    {A : Mat K} (hr : env[i]? = some r) (hA : mats[i]? = some A) : ActsAs h r A :=
  ⟨(R.reach.represents hr hA).1, R.total hr hA, (C02_transpose_adjoint_total R hr hA).1,
    (C02_transpose_adjoint_total R hr hA).2⟩

theorem BlockGrid.good {env : List Nat} {mats : List (Mat K)} {D : List (Mat K)} {S : Nat → Prop}
    (hg : ∀ (v r : Nat) (A : Mat K), env[v]? = some r → mats[v]? = some A → Good D S r A) {G : Grid}
    {hts wds : List Nat} {M : Nat → Nat → Mat K} (b : BlockGrid env mats G hts wds M) : GoodGrid D S G hts wds M := by
  have hR : ∀ i j, ∃ r, i < hts.length → j < wds.length →
      (G[i]?.bind fun row => row[j]?) = some (some r) ∧ Good D S r (M i j) := by
    intro i j
    by_cases hi : i < hts.length
    · by_cases hj : j < wds.length
      · obtain ⟨v, r, h1, h2, h3⟩ := b.entry i hi j hj
        exact ⟨r, fun _ _ => ⟨h3, hg v r _ h1 h2⟩⟩
      · exact ⟨0, fun _ h => absurd h hj⟩
    · exact ⟨0, fun h => absurd h hi⟩
  choose R hR using hR
  exact ⟨b.pos, ⟨R, mkG_of_entries b.nrows b.ncols fun i hi j hj => (hR i j hi hj).1,
    fun i hi j hj => (hR i j hi hj).2⟩, b.rows, b.cols⟩

/-! ## Operators in a consistent state -/

structure BlkInv (D : List (Mat K)) (S : Nat → Prop) (b : BlkOp) (hts wds : List Nat) (M : Nat → Nat → Mat K) :
    Prop where
  nargin : b.nargin = wds.sum
  nargout : b.nargout = hts.sum
  kind : Absorbs b.dtype hts wds M
  blocks : GoodGrid D S b.blocks hts wds M
  blocksT : GoodGrid D S b.blocksT wds hts fun i j => (M j i).T
  blocksH : GoodGrid D S b.blocksH wds hts fun i j => (M j i).H

section
variable {D : List (Mat K)} {h : Heap K} {S : Nat → Prop}

theorem BlkInv.step {env : List Nat} {mats : List (Mat K)} (I : HInv D h) (hS : Closed h S)
    (R : ReachTotal env h mats) {b : BlkOp} {hts wds : List Nat} {M : Nat → Nat → Mat K}
    (B : BlkInv D S b hts wds M)
    (hsy : b.symmetric = true → (blockMatK b.dtype hts wds M).Eqv (blockMatK b.dtype hts wds M).T)
    (hhe : b.hermitian = true → (blockMatK b.dtype hts wds M).Eqv (blockMatK b.dtype hts wds M).H) :
    ReachTotal (env ++ [(b.objs h).1]) (b.objs h).2 (mats ++ [blockMatK b.dtype hts wds M]) := by
  have hkT : Absorbs b.dtype wds hts fun i j => (M j i).T := fun i hi j hj => B.kind j hj i hi
  have hkH : Absorbs b.dtype wds hts fun i j => (M j i).H := fun i hi j hj => B.kind j hj i hi
  let c : Cmd K := .new (blockMatK b.dtype hts wds M) b.symmetric b.hermitian (blkMatvec h b.dtype b.blocks)
    (some (blkMatvec h b.dtype b.blocksT)) (some (blkMatvec h b.dtype b.blocksH))
  have hw : c.WF mats := by
    refine ⟨blockMatK_typed I hS B.blocks B.kind, hsy, hhe, ?_, ?_, ?_⟩
    · intro x hx hl y hy
      rw [blkMatvec_ok I hS B.blocks B.kind hx hl] at hy
      cases hy; rfl
    · intro g hg x hx hl y hy
      cases hg
      rw [blkMatvec_ok I hS B.blocksT hkT hx hl] at hy
      cases hy; rfl
    · intro g hg x hx hl y hy
      cases hg
      rw [blkMatvec_ok I hS B.blocksH hkH hx hl] at hy
      cases hy; rfl
  have hc : c.Complete := by
    refine ⟨?_, ?_, ?_, ?_⟩
    · intro x hx hl
      exact ⟨_, blkMatvec_ok I hS B.blocks B.kind hx hl⟩
    · intro g hg x hx hl
      cases hg
      exact ⟨_, blkMatvec_ok I hS B.blocksT hkT hx hl⟩
    · intro g hg x hx hl
      cases hg
      exact ⟨_, blkMatvec_ok I hS B.blocksH hkH hx hl⟩
    · split <;> simp
  have he : c.exec env h = .ok (b.objs h) := by
    simp only [c, Cmd.exec, BlkOp.objs, BlkOp.args, B.nargin, B.nargout, Option.map_some]
    rfl
  obtain ⟨A, hA, R'⟩ := R.step hw hc he
  simp only [c, Cmd.spec, Except.ok.injEq] at hA
  rw [hA]
  exact R'

/-! ## Which of `T`, `H` is the operator itself -/

theorem ctor_T_self (nin nout : Nat) (mv mt ma : Code K) (sy he : Bool) (dt : DKind) (h : Heap K) :
    getT (LinearOperator ⟨nin, nout, mv, some mt, some ma, sy, he, dt, none, none, none⟩ h).2
      (LinearOperator ⟨nin, nout, mv, some mt, some ma, sy, he, dt, none, none, none⟩ h).1 = some h.length ↔
    sy = true := by
  by_cases hd : dt = .complex
  · subst hd
    rw [LinearOperator_complex]
    cases sy <;> cases he <;> simp [getT, newComplex, mkFwd]
  · rw [LinearOperator_real _ _ _ _ _ _ _ _ hd]
    cases sy <;> cases he <;> simp [getT, newReal, mkFwd]

theorem ctor_H_self (nin nout : Nat) (mv mt ma : Code K) (sy he : Bool) (dt : DKind) (h : Heap K) :
    getH (LinearOperator ⟨nin, nout, mv, some mt, some ma, sy, he, dt, none, none, none⟩ h).2
      (LinearOperator ⟨nin, nout, mv, some mt, some ma, sy, he, dt, none, none, none⟩ h).1 = some h.length ↔
    he = true ∧ ¬(sy = true ∧ dt = .complex) := by
  by_cases hd : dt = .complex
  · subst hd
    rw [LinearOperator_complex]
    cases sy <;> cases he <;> simp [getH, newComplex, mkFwd]
  · rw [LinearOperator_real _ _ _ _ _ _ _ _ hd]
    cases sy <;> cases he <;> simp [getH, newReal, mkFwd, hd]

theorem objs_fst (b : BlkOp) (h : Heap K) : (b.objs h).1 = h.length := LinearOperator_fst _ _

theorem objs_T (b : BlkOp) (h : Heap K) : getT (b.objs h).2 (b.objs h).1 = some (b.objs h).1 ↔ b.symmetric = true := by
  have := ctor_T_self (K := K) b.nargin b.nargout (.prim (blkMatvec h b.dtype b.blocks))
    (.prim (blkMatvec h b.dtype b.blocksT)) (.prim (blkMatvec h b.dtype b.blocksH)) b.symmetric b.hermitian b.dtype h
  rw [← this, show some (b.objs h).1 = some h.length by rw [objs_fst]]
  rfl

theorem objs_H (b : BlkOp) (h : Heap K) : getH (b.objs h).2 (b.objs h).1 = some (b.objs h).1 ↔
    b.hermitian = true ∧ ¬(b.symmetric = true ∧ b.dtype = .complex) := by
  have := ctor_H_self (K := K) b.nargin b.nargout (.prim (blkMatvec h b.dtype b.blocks))
    (.prim (blkMatvec h b.dtype b.blocksT)) (.prim (blkMatvec h b.dtype b.blocksH)) b.symmetric b.hermitian b.dtype h
  rw [← this, show some (b.objs h).1 = some h.length by rw [objs_fst]]
  rfl

/-! ## The constructor -/

/-- the part of the constructor after the upper triangle has been completed -/
theorem mkBlock_tail (I : HInv D h) (hS : Closed h S) {G : Grid} {hts wds : List Nat} {M : Nat → Nat → Mat K}
    (g : GoodGrid D S G hts wds M) (sym herm : Bool)
    (hsym : sym = true → ∀ i < hts.length, ∀ j < wds.length, hts = wds ∧ (M j i).T.Eqv (M i j))
    (hherm : herm = true → ∀ i < hts.length, ∀ j < wds.length, hts = wds ∧ (M j i).H.Eqv (M i j)) :
    ∃ op : BlkOp, (do
        let (nargin, nargout) ← checkShapes h G
        let bT ← transposeGrid (getT h) G
        let bH ← transposeGrid (getH h) G
        let op : BlkOp := ⟨nargin, nargout, sym, herm, gridKind h G, G, bT, bH⟩
        let (r, h') := op.objs h
        let b1 := if getT h' r = some r then bT else G
        let b2 := if getH h' r = some r then bH else b1
        Except.ok ({ op with blocks := b2 }, G)) = (.ok (op, G) : Except Err (BlkOp × Grid)) ∧
      BlkInv D S op hts wds M ∧ op.symmetric = sym ∧ op.hermitian = herm ∧
      op.dtype = blockKind hts.length wds.length M := by
  obtain ⟨bT, hbT, gT⟩ := transposeGrid_ok I hS g (attr := getT h) (tr := Mat.T) (fun r A ha => ha.T I hS)
    (fun A => ⟨rfl, rfl⟩)
  obtain ⟨bH, hbH, gH⟩ := transposeGrid_ok I hS g (attr := getH h) (tr := Mat.H) (fun r A ha => ha.H I hS)
    (fun A => ⟨rfl, rfl⟩)
  have hc := checkShapes_ok I hS g
  have hk := gridKind_ok I hS g
  simp only [hc, hbT, hbH, bind, Except.bind, objs_T, objs_H]
  refine ⟨_, rfl, ?_, rfl, rfl, hk⟩
  refine ⟨rfl, rfl, ?_, ?_, gT, gH⟩
  · intro i hi j hj
    simp only [hk]
    exact blockKind_absorb hi hj
  · have h0 : 0 < hts.length := List.length_pos_iff.2 g.pos.1
    have h1 : 0 < wds.length := List.length_pos_iff.2 g.pos.2
    simp only
    split
    · next hh =>
      have e := (hherm hh.1 0 h0 0 h1).1
      subst e
      exact gH.congr fun i hi j hj => (hherm hh.1 i hi j hj).2
    · split
      · next hh =>
        have e := (hsym hh 0 h0 0 h1).1
        subst e
        exact gT.congr fun i hi j hj => (hsym hh i hi j hj).2
      · exact g

theorem mkBlock_plain (I : HInv D h) (hS : Closed h S) {G : Grid} {hts wds : List Nat} {M : Nat → Nat → Mat K}
    (g : GoodGrid D S G hts wds M) :
    ∃ op : BlkOp, mkBlock h G false false = .ok (op, G) ∧ BlkInv D S op hts wds M ∧ op.symmetric = false ∧
      op.hermitian = false ∧ op.dtype = blockKind hts.length wds.length M := by
  obtain ⟨op, h1, h2⟩ := mkBlock_tail I hS g false false (fun h => by cases h) (fun h => by cases h)
  exact ⟨op, h1, h2⟩

end

/-! ## Assignment -/

theorem setAt_ok {nr nc : Nat} {R : Nat → Nat → Nat} {i j : Int} {a b v : Nat} (hi : pyIndex nr i = some a)
    (hj : pyIndex nc j = some b) (ha : a < nr) (hb : b < nc) :
    setAt (mkG nr nc R) i j v = .ok (mkG nr nc fun p q => if p = a ∧ q = b then v else R p q) := by
  have h1 : (mkG nr nc R)[a]? = some ((List.range nc).map fun j => some (R a j)) := by simp [mkG, ha]
  simp only [setAt, mkG_length, hi, h1, List.length_map, List.length_range, hj]
  congr 1
  apply List.ext_getElem (by simp [mkG])
  intro p hp hp'
  by_cases hpa : a = p
  · subst hpa
    rw [List.getElem_set_self]
    apply List.ext_getElem (by simp [mkG])
    intro q hq hq'
    by_cases hqb : b = q
    · subst hqb; simp [mkG]
    · rw [List.getElem_set_ne hqb]
      simp [mkG, Ne.symm hqb]
  · rw [List.getElem_set_ne hpa]
    simp [mkG, Ne.symm hpa]

theorem pyIndex_lt {n : Nat} {i : Int} {a : Nat} (h : pyIndex n i = some a) : a < n := by
  unfold pyIndex at h
  split at h
  · split at h
    · cases h; omega
    · cases h
  · split at h
    · cases h; omega
    · cases h

section
variable {D : List (Mat K)} {h : Heap K} {S : Nat → Prop}

theorem set_good {G : Grid} {hts wds : List Nat} {M : Nat → Nat → Mat K} (g : GoodGrid D S G hts wds M) {i j : Int}
    {a b v : Nat} (hi : pyIndex hts.length i = some a) (hj : pyIndex wds.length j = some b) {B : Mat K}
    (hv : Good D S v B) (hr : B.rows = hts.getD a 0) (hc : B.cols = wds.getD b 0) :
    ∃ G', setAt G i j v = .ok G' ∧ GoodGrid D S G' hts wds (updM M a b B) := by
  obtain ⟨R, rfl, hR⟩ := g.grid
  refine ⟨_, setAt_ok hi hj (pyIndex_lt hi) (pyIndex_lt hj), g.pos, ⟨_, rfl, ?_⟩, ?_, ?_⟩
  · intro p hp q hq
    unfold updM
    by_cases h : p = a ∧ q = b
    · simp only [h, and_self, if_true]; exact hv
    · simp only [h, if_false]; exact hR p hp q hq
  · intro p hp q hq
    unfold updM
    split
    · next h => rw [hr, h.1]
    · exact g.rows p hp q hq
  · intro p hp q hq
    unfold updM
    split
    · next h => rw [hc, h.2]
    · exact g.cols p hp q hq

theorem BlkInv.set (I : HInv D h) (hS : Closed h S) {o : BlkOp} {hts wds : List Nat} {M : Nat → Nat → Mat K}
    (b : BlkInv D S o hts wds M) (hs : o.symmetric = false) (hh : o.hermitian = false) {i j : Int}
    {p q v : Nat} (hi : pyIndex hts.length i = some p) (hj : pyIndex wds.length j = some q) {B : Mat K}
    (hv : Good D S v B) (hr : B.rows = hts.getD p 0) (hc : B.cols = wds.getD q 0) (hk : o.dtype.join B.kind = o.dtype) :
    ∃ o', o.set h i j v = .ok o' ∧ BlkInv D S o' hts wds (updM M p q B) ∧ o'.symmetric = false ∧ o'.hermitian = false ∧
      o'.dtype = o.dtype := by
  obtain ⟨G, hG, g⟩ := set_good b.blocks hi hj hv hr hc
  obtain ⟨bT, hbT, gT⟩ := transposeGrid_ok I hS g (attr := getT h) (tr := Mat.T) (fun r A ha => ha.T I hS)
    (fun A => ⟨rfl, rfl⟩)
  obtain ⟨bH, hbH, gH⟩ := transposeGrid_ok I hS g (attr := getH h) (tr := Mat.H) (fun r A ha => ha.H I hS)
    (fun A => ⟨rfl, rfl⟩)
  refine ⟨{ o with blocks := G, blocksT := bT, blocksH := bH }, ?_, ⟨b.nargin, b.nargout, ?_, g, gT, gH⟩, hs, hh, rfl⟩
  · simp [BlkOp.set, hG, hs, hh, hbT, hbH, bind, Except.bind]
  · intro x hx y hy
    unfold updM
    split
    · exact hk
    · exact b.kind x hx y hy
end

end Verif.Blkop
